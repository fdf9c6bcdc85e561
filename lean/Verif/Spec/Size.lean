import Verif.Model.Types
/-
How many bytes of a trace file a trace accounts for.
-/
namespace TraceDB

/-- The bytes of a variable: its tag, its two indices and its value. -/
def VarInfo.space (v : VarInfo) : Nat := 9 + v.size.toNat

/-- The bytes of a point: its end marker, its allocation records, its auxiliary values and
its variables. -/
def Point.space (p : Point) : Nat :=
  1 + 17 * p.sizes.length + 9 * p.aux.length + (p.vars.map VarInfo.space).sum

/-- The bytes of a trace: the length of the name table, the names with their terminators,
the types and the points. -/
def Trace.space (t : Trace) : Nat :=
  8 + (t.names.map fun n => n.length + 1).sum + 12 * t.types.length + (t.points.map Point.space).sum

end TraceDB
