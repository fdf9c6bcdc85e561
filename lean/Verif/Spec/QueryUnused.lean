import Verif.Spec.QueryVariables
/-
Queries with free variables that their predicates do not mention.
-/
namespace TraceDB

/-- The answer with one more variable. -/
def Point.extended (r : Point) (v : VarInfo) : Point := { r with vars := r.vars ++ [v] }

/-- The variables at a point that have one of these types. -/
def Point.varsOf (x : Point) (fv : FreeVar) : List VarInfo := x.vars.filter fun v => decide (v.typeIndex ∈ fv)

end TraceDB
