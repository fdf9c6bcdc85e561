import Verif.Model.PredicateCache
import Verif.Spec.Query
/-
What a query evaluates, and what is kept afterwards.
-/
namespace TraceDB

/-- An evaluation that took place: predicate, bound variables, answer. -/
structure Evaluation where
  pred : Pred
  vars : List VarInfo
  answer : Bool

/-- An evaluator that also writes down every evaluation, the latest last. -/
def watched {σ : Type} (ev : Evaluator σ) : Evaluator (σ × List Evaluation) := fun p vs s => do
  let (b, s') ← ev p vs s.1
  pure (b, (s', s.2 ++ [⟨p, vs, b⟩]))

/-- What the evaluations at a point are: first the hard predicate, once for every
binding, first free variable fastest; then, if there are soft predicates, all of
them for each result (the point itself counts as a result when there are no
free variables). -/
def EvaluatedAt (q : Query) (p : Point) (l : List Evaluation) : Prop :=
  ∃ (bs : List (List Nat)) (hs ss : List Evaluation), l = hs ++ ss ∧
    bs.Pairwise FirstFastest ∧ (∀ b, b ∈ bs ↔ IsBinding q.variables p.vars b) ∧
    hs.map (fun e => (e.pred, e.vars)) = bs.map (fun b => (q.hard, boundVars p.vars b)) ∧
    ss.map (fun e => (e.pred, e.vars)) =
      ((if q.variables.isEmpty then [[]] else []) ++ (hs.filter Evaluation.answer).map Evaluation.vars).flatMap
        fun vs => q.soft.map fun f => (f, vs)

/-- The points kept by the filter cache of a trace, over all its entries. -/
def keptPoints (c : PointsCache) : Nat := (c.map fun e => e.2.length).sum

/-- A variable of type 0 and value `n`. -/
def oneVar (n : U64) : VarInfo := ⟨.word n, 0, 0, .unsigned, 8, 0, false⟩

/-- A trace with a single point with this variable. -/
def oneVarTrace (n : U64) : Trace := ⟨[], [], [⟨0, 0, [], [oneVar n], []⟩]⟩

/-- The query for all variables of type 0 that satisfy a predicate. -/
def typeZeroQuery (p : Pred) : Query := ⟨[[0]], p, [], 0, 0, 0⟩

end TraceDB
