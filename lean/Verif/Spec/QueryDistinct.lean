import Verif.Spec.QueryOrder
/-
Laws of queries whose answers are distinct.
-/
namespace TraceDB

/-- What an answer binds: the statement, and the names and types of its variables. -/
def Point.binding (r : Point) : U64 × List (U32 × U32) := (r.statement, r.vars.map fun v => (v.nameIndex, v.typeIndex))

end TraceDB
