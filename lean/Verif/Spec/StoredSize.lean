import Verif.Spec.Archive
/-
How much text a stored database takes.
-/
namespace TraceDB

/-- Numbers stored for a variable: six, and its value: one number, or one for each byte of a
blob. -/
def VarInfo.numbers (v : VarInfo) : Nat :=
  6 + match v.value with
    | .blob bs => min v.size.toNat bs.length
    | .word _ => 1

/-- Numbers stored for the data of a point. -/
def Body.numbers (d : Body) : Nat :=
  3 + 2 * d.sizes.length + (d.vars.map VarInfo.numbers).sum + d.aux.length

/-- Numbers stored for a trace besides the data of its points: three counts, three numbers for
each point and three for each type. -/
def Trace.numbers (t : Trace) : Nat := 3 + 3 * t.points.length + 3 * t.types.length

/-- The points of all traces. -/
def allPoints (ts : List Trace) : List Point := ts.flatMap (·.points)

/-- One if it is so. -/
def oneIf (b : Bool) : Nat := if b then 1 else 0

/-- How many classes the objects of a database have: the database itself; traces; points, the
handles and the data of points; buffer sizes, variables and types. -/
def kinds (ts : List Trace) : Nat :=
  1 + oneIf (!ts.isEmpty) + 3 * oneIf (!(allPoints ts).isEmpty) + oneIf ((allPoints ts).any fun p => !p.sizes.isEmpty) +
    oneIf ((allPoints ts).any fun p => !p.vars.isEmpty) + oneIf (ts.any fun t => !t.types.isEmpty)

/-- The different data of the points, each once. -/
structure DifferentData (ts : List Trace) (ds : List Body) : Prop where
  once : ds.Nodup
  exactly : ∀ d, d ∈ ds ↔ ∃ t ∈ ts, ∃ p ∈ t.points, p.body = d

/-- Numbers stored for a database: the version of the library, the number of traces, two for
each class, what each trace takes, and the data of points, equal data once. -/
def storedNumbers (ts : List Trace) (ds : List Body) : Nat :=
  2 + 2 * kinds ts + (ts.map Trace.numbers).sum + (ds.map Body.numbers).sum

/-- All names of a database. -/
def storedNames (ts : List Trace) : List Name := ts.flatMap (·.names)

/-- Bytes of names. -/
def nameBytes (ns : List Name) : Nat := (ns.map List.length).sum

end TraceDB
