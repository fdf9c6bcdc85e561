import Verif.Spec.RunDatabase
import Verif.Spec.CollectFiles
/-
Collections of traces from runs of programs.
-/
namespace TraceDB

/-- What the attempts of a collection read: attempt `j` of test case `k` reads `file (k, j)`, which
was left by a run, and adds it to the database or not.  Traces carry the number of their attempt. -/
structure ReadsRuns (env : Env) (cf : CFloat) (mem : CMem) (runOf : Nat × Nat → ProjRun) (complete : Nat × Nat → Prop)
    (file : Nat × Nat → IStream) (w : CfWorld (Nat × Trace)) : Prop where
  added : ∀ k j i t, (w.attempts k)[j]? = some (.added (i, t)) →
    i = j ∧ readTrace env (runOf (k, j)).limit (file (k, j)) = .ok t
  refused : ∀ k j t, (w.attempts k)[j]? = some .refused → readTrace env (runOf (k, j)).limit (file (k, j)) ≠ .ok t
  runs : ∀ k j a, (w.attempts k)[j]? = some a → a ≠ .noHandshake → a ≠ .failed →
    ∃ io bytes, file (k, j) = ⟨bytes, io, .good⟩ ∧ (runOf (k, j)).Built ∧ (runOf (k, j)).Leaves cf mem (complete (k, j)) bytes

/-- The calls of `add-trace` that give a new database the traces `l` of test cases.  Their metadata
tell the test case; here, they tell the attempt, too. -/
def collectedOps (runOf : Nat × Nat → ProjRun) (file : Nat × Nat → IStream) (l : List (Nat × Nat × Trace)) :
    List (ObjOp (Nat × Nat)) :=
  .create :: (l.map fun x => LispAdd.trace (some (file (x.1, x.2.1))) (runOf (x.1, x.2.1)).limit (x.1, x.2.1)).map (.add 0)

/-- An attempt of an earlier test case, or an earlier one of the same. -/
def AttemptBefore (a b : Nat × Nat) : Prop := a.1 < b.1 ∨ (a.1 = b.1 ∧ a.2 < b.2)

end TraceDB
