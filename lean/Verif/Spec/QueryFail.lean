import Verif.Model.QueryFail
import Verif.Spec.ConcurrentQuery
/-
What queries should give when earlier ones ran out of memory.
-/
namespace TraceDB

/-- The two queries look at the same points of the same trace. -/
def QueryJob.SamePoints (a b : QueryJob) : Prop :=
  a.trace = b.trace ∧ a.query.mask = b.query.mask ∧ a.query.stmt = b.query.stmt

/-- What the query gives, when nothing is cached, if the trace had only the first `k` of the
points that pass its filter. -/
def firstAnswers (fs : FloatSys) (env : Env) (pick : U32 → Nat → Nat) (traces : Nat → Trace) (j : QueryJob) (k : Nat) :
    Res (List Point) :=
  aloneAnswer fs env pick
    (fun i => { traces i with points := (passing (traces i).points j.query.mask j.query.stmt).take k }) j

end TraceDB
