import Verif.Model.Fork
import Verif.Spec.Runtime
/-
What the trace of a program that forks may be: any order of the points of its processes
that agrees with the order in each of them.
-/
namespace TraceDB

/-- The elements of two lists, in any order that agrees with both. -/
inductive Merged {α : Type} : List α → List α → List α → Prop
  | nil : Merged [] [] []
  | left {a l m n} : Merged l m n → Merged (a :: l) m (a :: n)
  | right {a l m n} : Merged l m n → Merged l (a :: m) (a :: n)

/-- Points that a program and its children have recorded at some moment: each process may
have stopped anywhere. -/
inductive FkSoFar {α : Type} : List (FkItem α) → List α → Prop
  | stop (items) : FkSoFar items []
  | point {a rest l} : FkSoFar rest l → FkSoFar (.point a :: rest) (a :: l)
  | fork {child rest l m n} : FkSoFar rest l → FkSoFar child m → Merged l m n → FkSoFar (.fork child :: rest) n

/-- All points that a program and its children record. -/
inductive FkAll {α : Type} : List (FkItem α) → List α → Prop
  | nil : FkAll [] []
  | point {a rest l} : FkAll rest l → FkAll (.point a :: rest) (a :: l)
  | fork {child rest l m n} : FkAll rest l → FkAll child m → Merged l m n → FkAll (.fork child :: rest) n

/-- Something holds for all points of a program. -/
inductive FkEach {α : Type} (P : α → Prop) : List (FkItem α) → Prop
  | nil : FkEach P []
  | point {a rest} : P a → FkEach P rest → FkEach P (.point a :: rest)
  | fork {child rest} : FkEach P child → FkEach P rest → FkEach P (.fork child :: rest)

/-- Two programs of the same shape whose points are related. -/
inductive FkRel {α β : Type} (R : α → β → Prop) : List (FkItem α) → List (FkItem β) → Prop
  | nil : FkRel R [] []
  | point {a b as bs} : R a b → FkRel R as bs → FkRel R (.point a :: as) (.point b :: bs)
  | fork {c d as bs} : FkRel R c d → FkRel R as bs → FkRel R (.fork c :: as) (.fork d :: bs)

/-- Nobody was killed. -/
def FkEvent.IsKill : FkEvent → Prop
  | .kill _ => True
  | _ => False

/-- All processes have ended. -/
def FkState.Ended (s : FkState) : Prop := ∀ p ∈ s.procs, p.todo = []

end TraceDB
