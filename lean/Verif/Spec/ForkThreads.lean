import Verif.Model.ForkThreads
import Verif.Spec.Fork
/-
What the trace of a program with threads that forks may be, and when it is.
-/
namespace TraceDB

mutual
/-- The same, with processes in place of threads: for the order of points it does not matter
which of them records them. -/
def FtItem.asFork {α : Type} : FtItem α → FkItem α
  | .point a => .point a
  | .fork c => .fork (ftAsFork c)
  | .spawn c => .fork (ftAsFork c)

def ftAsFork {α : Type} : List (FtItem α) → List (FkItem α)
  | [] => []
  | x :: xs => x.asFork :: ftAsFork xs
end

/-- Two programs of the same shape whose points are related. -/
inductive FtRel {α β : Type} (R : α → β → Prop) : List (FtItem α) → List (FtItem β) → Prop
  | nil : FtRel R [] []
  | point {a b as bs} : R a b → FtRel R as bs → FtRel R (.point a :: as) (.point b :: bs)
  | fork {c d as bs} : FtRel R c d → FtRel R as bs → FtRel R (.fork c :: as) (.fork d :: bs)
  | spawn {c d as bs} : FtRel R c d → FtRel R as bs → FtRel R (.spawn c :: as) (.spawn d :: bs)

/-- A process is killed. -/
def FtEvent.IsKill : FtEvent → Prop
  | .kill _ => True
  | _ => False

/-- All threads of all processes have ended. -/
def FtState.Ended (s : FtState) : Prop := ∀ p ∈ s.procs, ∀ t ∈ p.threads, t = []

/-- Forking, or ending the process. -/
def FtAct.Leaves : FtAct → Prop
  | .fork _ => True
  | .exit => True
  | _ => False

/-- Nobody forks or ends a process while another thread of the process is recording a point. -/
def FtSafe (size : Nat) (s : FtState) (events : List FtEvent) : Prop :=
  ∀ a i j b s' p act r, events = a ++ .run i j :: b → s.run size a = .ok s' → s'.procs[i]? = some p →
    p.threads[j]? = some (act :: r) → act.Leaves → p.owner = none

/-- Nobody ends a process before the other threads of the process have ended. -/
def FtJoined (size : Nat) (s : FtState) (events : List FtEvent) : Prop :=
  ∀ a i j b s' p r, events = a ++ .run i j :: b → s.run size a = .ok s' → s'.procs[i]? = some p →
    p.threads[j]? = some (.exit :: r) → ∀ k t, k ≠ j → p.threads[k]? = some t → t = []

end TraceDB
