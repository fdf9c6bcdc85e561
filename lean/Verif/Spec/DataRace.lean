import Verif.Model.DataRace
import Verif.Spec.ConcurrentQuery
/-
Which queries use the caches, and how.
-/
namespace TraceDB

/-- The points a query looks at: those that pass the filter or, with a seed, one of them. -/
def QueryJob.chosen (pick : U32 → Nat → Nat) (traces : Nat → Trace) (j : QueryJob) : List Point :=
  let ps := passing (traces j.trace).points j.query.mask j.query.stmt
  if j.query.seed = 0 then ps else (ps[pick j.query.seed ps.length]?).toList

/-- The query has to know whether the predicate holds for the variables: the hard predicate for
every binding at a point it looks at, the soft ones for those bindings that satisfy the hard
one. -/
inductive QueryJob.Asks (fs : FloatSys) (pick : U32 → Nat → Nat) (traces : Nat → Trace) (j : QueryJob) :
    Pred → List VarInfo → Prop
  | hard {p : Point} {b : List Nat} : p ∈ j.chosen pick traces → IsBinding j.query.variables p.vars b →
      Asks fs pick traces j j.query.hard (boundVars p.vars b)
  | soft {p : Point} {b : List Nat} {h : Pred} : p ∈ j.chosen pick traces → IsBinding j.query.variables p.vars b →
      predicateSatisfied fs (boundVars p.vars b) j.query.hard = .ok true → h ∈ j.query.soft →
      Asks fs pick traces j h (boundVars p.vars b)

/-- The list of points the query needs has not been made yet. -/
def QueryJob.Unfiltered (s : QShared) (j : QueryJob) : Prop := s.get j.trace (j.query.mask, j.query.stmt) = none

/-- The query asks something whose answer is not known yet. -/
def QueryJob.AsksNew (fs : FloatSys) (pick : U32 → Nat → Nat) (traces : Nat → Trace) (s : QShared) (j : QueryJob) : Prop :=
  ∃ p vs, j.Asks fs pick traces p vs ∧ s.answers.get p vs = none

/-- The query asks something. -/
def QueryJob.AsksSome (fs : FloatSys) (pick : U32 → Nat → Nat) (traces : Nat → Trace) (j : QueryJob) : Prop :=
  ∃ p vs, j.Asks fs pick traces p vs

/-- The query succeeds, and the number of combinations it tries at a point fits `size_t`. -/
structure QueryJob.Sound (fs : FloatSys) (env : Env) (pick : U32 → Nat → Nat) (traces : Nat → Trace) (j : QueryJob) :
    Prop where
  answers : ∃ rs, aloneAnswer fs env pick traces j = .ok rs
  few : ∀ p ∈ j.chosen pick traces, combinations j.query.variables p.vars < 2 ^ 64

/-- The caches after the queries have been made one after another. -/
inductive AfterQueries (early : Bool) (fs : FloatSys) (env : Env) (pick : U32 → Nat → Nat) (traces : Nat → Trace) :
    QShared → List QueryJob → QShared → Prop
  | none {s : QShared} : AfterQueries early fs env pick traces s [] s
  | query {s s' : QShared} {j : QueryJob} {jobs : List QueryJob} {n : Nat} {r : Res (List Point)} :
      ((QSys.init early fs env pick traces s [j]).run (List.replicate n 0)).outcome 0 = some r →
      AfterQueries early fs env pick traces
        ((QSys.init early fs env pick traces s [j]).run (List.replicate n 0)).shared jobs s' →
      AfterQueries early fs env pick traces s (j :: jobs) s'

end TraceDB
