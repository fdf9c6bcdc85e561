import Verif.Model.OpenFile
/-
What opening a trace file with a timeout should mean, said without the calls the code
makes: only in terms of what happens to the file and when.
-/
namespace TraceDB

/-- The file becomes readable within the timeout (0: no limit), before any signal. -/
def OsEnv.InTime (os : OsEnv) (timeout : Nat) : Prop :=
  ∃ r, os.readableAt = some r ∧ (timeout = 0 ∨ r ≤ timeout) ∧ ∀ s, os.signalAt = some s → r ≤ s

/-- The wait comes to an end although the file does not become readable in time. -/
def OsEnv.GivesUp (os : OsEnv) (timeout : Nat) : Prop :=
  timeout ≠ 0 ∨ ∃ s, os.signalAt = some s

end TraceDB
