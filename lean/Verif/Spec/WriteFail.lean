import Verif.Model.WriteFail
import Verif.Spec.Fork
/-
Kinds of failures.
-/
namespace TraceDB

/-- A failed write. -/
def FwEvent.IsFail : FwEvent → Prop
  | .fail _ _ => True
  | _ => False

/-- Failures that lose everything that was in a buffer of `size` bytes and write nothing of it. -/
def FwEvent.AllOrNothing (size : Nat) : FwEvent → Prop
  | .fail k lost => k = 0 ∧ size ≤ lost
  | _ => True

/-- Failures are for ever: after one of them the file does not change any more. -/
def FailsForEver (size : Nat) (s : FwState) (events : List FwEvent) : Prop :=
  ∀ a e b, events = a ++ e :: b → e.IsFail → (s.run size events).out = (s.run size (a ++ [e])).out

end TraceDB
