import Verif.Model.ReadTrace
import Verif.Spec.OpenFile
import Verif.Spec.QueryMemory
/-
What reading a trace should give, and what stays in memory.
-/
namespace TraceDB

/-- What a client gets that adds the file to a database and asks for the newest trace:
its points, or nothing if adding failed. -/
def newestPoints (added : Bool × Db × List Nat) : Res (List LPoint) :=
  match added.1, added.2.1.traces.getLast? with
  | true, some t => lispGetTrace t none
  | _, _ => .ok []

/-- The machine has enough memory for the points of a trace in this file, and no point has
2^32 variables or auxiliary values. -/
structure FitsMemory {σ : Type} (w : QueryWorld σ) (content : IStream) (maxPoints : Int) : Prop where
  sizes : 0 < w.abi.sizePoint ∧ w.abi.sizePoint ≤ w.abi.sizeVar
  memory : ∀ n, w.alloc.canAlloc n = true
  points : ∀ t, readTrace w.env (BitVec.ofInt 64 maxPoints) content = .ok t →
    t.points.length * w.abi.sizeVar < 2 ^ (8 * w.abi.ptr.1) ∧
    ∀ p ∈ t.points, p.vars.length < 2 ^ 32 ∧ p.aux.length < 2 ^ 32

/-- The file opens in time and holds the trace `t`. -/
structure ReadJob.Holds (env : Env) (j : ReadJob) (t : Trace) : Prop where
  timeout : 0 ≤ j.timeout ∧ j.timeout < 2 ^ 32
  limit : 0 ≤ j.maxPoints ∧ j.maxPoints < 2 ^ 64
  opens : ∃ n, j.os.fd = some n ∧ n < 1024 ∧ j.os.InTime j.timeout.toNat
  content : readTrace env (BitVec.ofInt 64 j.maxPoints) j.content = .ok t

/-- The traces held by a sequence of files, without the files that hold none. -/
inductive HeldBy (env : Env) : List ReadJob → List Trace → Prop
  | nil : HeldBy env [] []
  | trace {j : ReadJob} {t : Trace} {js : List ReadJob} {ts : List Trace} :
      j.Holds env t → HeldBy env js ts → HeldBy env (j :: js) (t :: ts)
  | other {j : ReadJob} {js : List ReadJob} {ts : List Trace} :
      (∀ t, ¬ j.Holds env t) → HeldBy env js ts → HeldBy env (j :: js) ts

end TraceDB
