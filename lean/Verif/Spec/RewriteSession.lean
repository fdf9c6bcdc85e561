import Verif.Spec.QueryRewrite
/-
Rewriting the predicates of the queries of a session.
-/
namespace TraceDB

/-- A query that is about the trace and has well-formed predicates. -/
structure Query.Sensible (env : Env) (t : Trace) (q : Query) : Prop where
  askable : Askable env t q.variables
  hard : WellFormed q.variables.length q.hard
  soft : ∀ p ∈ q.soft, WellFormed q.variables.length p

/-- The same query with rewritten predicates. -/
structure Query.Rewritten (fs : FloatSys) (q q' : Query) : Prop where
  variables : q'.variables = q.variables
  hard : Equivalent fs q.variables.length q.hard q'.hard
  soft : EquivalentEach fs q.variables.length q.soft q'.soft
  seed : q'.seed = q.seed
  mask : q'.mask = q.mask
  stmt : q'.stmt = q.stmt

/-- Sensible queries about traces, one after the other, and the same with rewritten predicates. -/
inductive RewrittenSession (fs : FloatSys) (env : Env) : List (Trace × Query) → List (Trace × Query) → Prop
  | nil : RewrittenSession fs env [] []
  | cons {t : Trace} {q q' : Query} {s s' : List (Trace × Query)} : q.Sensible env t → q.Rewritten fs q' →
      RewrittenSession fs env s s' → RewrittenSession fs env ((t, q) :: s) ((t, q') :: s')

end TraceDB
