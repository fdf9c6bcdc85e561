import Verif.Model.ConcurrentQuery
import Verif.Spec.Query
/-
What queries of several threads should give.
-/
namespace TraceDB

/-- What the query gives when nothing else happens and nothing is cached. -/
def aloneAnswer (fs : FloatSys) (env : Env) (pick : U32 → Nat → Nat) (traces : Nat → Trace) (j : QueryJob) :
    Res (List Point) :=
  match queryTrace env pick (plainEval fs) (traces j.trace) j.query j.keepDuplicates [] () with
  | .ok (rs, _, _) => .ok rs
  | .throw e => .throw e
  | .abort => .abort
  | .ub k => .ub k
  | .hang => .hang

/-- What is cached is right: complete lists of points and true answers. -/
structure QShared.Right (fs : FloatSys) (traces : Nat → Trace) (s : QShared) : Prop where
  lists : ∀ i key ps, s.get i key = some ps → ps = passing (traces i).points key.1 key.2
  answers : ∀ p vs b, s.answers.get p vs = some b → predicateSatisfied fs vs p = .ok b

/-- No two threads need the same list of points, unless it is already cached. -/
def Apart (s : QShared) (jobs : List QueryJob) : Prop :=
  ∀ (i k : Nat) (a b : QueryJob), i ≠ k → jobs[i]? = some a → jobs[k]? = some b →
    a.trace = b.trace → a.query.mask = b.query.mask → a.query.stmt = b.query.stmt →
    (s.get a.trace (a.query.mask, a.query.stmt)).isSome = true

/-- A result that is justified by the trace: it stands for a point that passes the
filter and a binding to variables of allowed types for which the hard predicate
holds, or, without free variables, for the point alone. -/
def Justified (fs : FloatSys) (t : Trace) (q : Query) (r : Point) : Prop :=
  ∃ p ∈ passing t.points q.mask q.stmt,
    (q.variables = [] ∧ r = { p with sizes := [], vars := [], aux := [] }) ∨
    ∃ b, IsBinding q.variables p.vars b ∧ predicateSatisfied fs (boundVars p.vars b) q.hard = .ok true ∧
      r = resultOf p b

end TraceDB
