import Verif.Model.LispGc
/-
What a program can see of garbage collection.
-/
namespace TraceDB

variable {μ σ : Type}

/-- The steps of a program with a collector that collects nothing. -/
def GcOp.idle : GcOp μ → GcOp μ
  | .collect _ => .collect fun _ => false
  | x => x

/-- The operations of a history. -/
def opsOf (l : List (GcOp μ)) : List (ObjOp μ) := l.filterMap fun | .op o => some o | _ => none

/-- The outcome of a program without what only the collector knows. -/
def gcSeen : Res (List (LispAnswer μ) × GcImage μ × σ) → Res (List (LispAnswer μ) × LispHeap μ × σ)
  | .ok (xs, g, s) => .ok (xs, g.heap, s)
  | .throw e => .throw e
  | .abort => .abort
  | .ub k => .ub k
  | .hang => .hang

/-- A program that only uses objects it refers to: those it made and has not forgotten.
Databases and answers are the ones without collections. -/
def OnlyReferred (w : World) (version : Nat) (ev : Evaluator σ) : List Nat → LispHeap μ → σ → List (GcOp μ) → Prop
  | _, _, _, [] => True
  | refs, h, s, .op o :: l =>
    (∀ i, o.given = some i → i ∈ refs) ∧
    ∀ x h' s', lispStep w version ev h s o = .ok (x, h', s') →
      OnlyReferred w version ev (match x with
        | .object i => refs ++ [i]
        | _ => refs) h' s' l
  | refs, h, s, .forget i :: l => OnlyReferred w version ev (refs.filter (· != i)) h s l
  | refs, h, s, .collect _ :: l => OnlyReferred w version ev refs h s l

end TraceDB
