import Verif.Model.QueryMemory
/-
Sizes of the answers of queries.
-/
namespace TraceDB

/-- The array for the results of a query from Lisp (40 bytes for each) is smaller than the
address space. -/
def AnswerFits {σ : Type} (env : Env) (pick : U32 → Nat → Nat) (ev : Evaluator σ) (t : Trace) (q : FQuery) (hard : Pred)
    (softs : List Pred) (cache : PointsCache) (s : σ) : Prop :=
  ∀ types fvs mask stmt rs c s', getTypes t = .ok types → freeVars types q.varTypes = .ok fvs → fileArgs q.file = .ok (mask, stmt) →
    queryTrace env pick ev t ⟨fvs, hard, softs, q.seed, mask, stmt⟩ q.filter.isSome cache s = .ok (rs, c, s') → rs.length * 40 < 2 ^ 64

end TraceDB
