import Verif.Model.Types
/-
Accessors of the C interface to a trace (cffi-interface/trace.cpp).
-/
namespace TraceDB

/-- The C string `c_str()` of a name ends at the first NUL byte.  For cffi-interface/trace.cpp:50-58, 69-78. -/
def cStr (n : Name) : List U8 := n.takeWhile (· ≠ 0)

/-- `get_names` (trace.cpp:67-78). Simplification: `calloc` succeeds. -/
def getNames (t : Trace) : List (List U8) := t.names.map cStr

/-- The loop of `get_types` (trace.cpp:54-56) over the types not visited yet:
`getNames()[...]` is an unchecked vector access.
Simplifications: `calloc` succeeds, and there are fewer than 2^32 types. -/
def getTypesLoop (names : List Name) : List TypeDesc → Res (List (List U8))
  | [] => .ok []
  | ty :: tys =>
    match names[ty.nameIndex.toNat]? with
    | none => .ub .oobRead
    | some n => do
      let rest ← getTypesLoop names tys
      pure (cStr n :: rest)

/-- `get_types` (trace.cpp:48-59). -/
def getTypes (t : Trace) : Res (List (List U8)) := getTypesLoop t.names t.types

end TraceDB
