import Verif.Spec.Query
import Verif.Model.Query
/-
Laws of queries.
-/
namespace TraceDB

/-- What `query_trace` answers about these variables, with hard and soft predicates, about
statements that `mask` takes to `stmt`; no random pick. -/
def answersTo (fs : FloatSys) (env : Env) (pick : U32 → Nat → Nat) (t : Trace) (variables : List FreeVar) (keep : Bool)
    (hard : Pred) (soft : List Pred) (mask stmt : U64) : Res (List Point) := do
  let r ← queryTrace env pick (plainEval fs) t ⟨variables, hard, soft, 0, mask, stmt⟩ keep [] ()
  .ok r.1

/-- There are free variables, the values are as the reader leaves them, and the combinations at each
point can be counted and stored. -/
structure Askable (env : Env) (t : Trace) (variables : List FreeVar) : Prop where
  vars : variables ≠ []
  canonical : ∀ p ∈ t.points, ∀ v ∈ p.vars, v.Canonical
  size : ∀ p ∈ t.points, p.vars.length < 2 ^ 32 ∧ combinations variables p.vars < 2 ^ 32 ∧
    env.canAlloc (24 * combinations variables p.vars) = true

/-- A predicate about `n` variables. -/
def WellFormed (n : Nat) (p : Pred) : Prop := ∃ f, ReadsForm n p f

end TraceDB
