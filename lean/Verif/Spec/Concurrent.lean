import Verif.Model.Concurrent
/-
What concurrent additions of traces should do.
-/
namespace TraceDB

/-- The point with its auxiliary values (but not their number) forgotten. -/
def Point.forgetAux (p : Point) : Point := { p with aux := p.aux.map fun _ => 0 }

/-- Equal except for the auxiliary values. -/
def SameButAux (t t' : Trace) : Prop :=
  t.names = t'.names ∧ t.types = t'.types ∧ t.points.map Point.forgetAux = t'.points.map Point.forgetAux

/-- What a thread may have done with its job when it has ended: the trace is related to
the one the reader gets from the same stream when it runs alone, errors and crashes are
those of that reader. -/
def Thread.Agrees (R : Trace → Trace → Prop) (j : Job) : Thread → Prop
  | .returned (some t) => ∃ s t', j.source = some s ∧ readTrace j.env j.maxPoints s = .ok t' ∧ R t t'
  | .returned none => j.source = none ∨ ∃ s e, j.source = some s ∧ readTrace j.env j.maxPoints s = .throw e
  | .crashed => ∃ s, j.source = some s ∧
      (readTrace j.env j.maxPoints s = .abort ∨ readTrace j.env j.maxPoints s = .hang ∨
        ∃ k, readTrace j.env j.maxPoints s = .ub k)
  | _ => True

/-- The thread has ended. -/
def Thread.Ended : Thread → Prop
  | .returned _ => True
  | .crashed => True
  | _ => False

/-- The trace a thread has put into the database. -/
def Thread.stored : Thread → Option Trace
  | .unlocking t => some t
  | .returned r => r
  | _ => none

end TraceDB
