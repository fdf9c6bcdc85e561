import Verif.Model.MemoryMap
/-
Data held by a trace.
-/
namespace TraceDB

/-- `enum type_format`
(cffi-interface/trace-db/TypeDescription.hpp:28-35), in declaration order. -/
inductive TypeFormat where
  | unsigned
  | signed
  | float
  | pointer
  | blob
  | invalid
  deriving DecidableEq, Repr

/-- Numeric value of an enumerator.  For cffi-interface/trace-db/TypeDescription.hpp:28-35. -/
def TypeFormat.code : TypeFormat → Nat
  | .unsigned => 0
  | .signed => 1
  | .float => 2
  | .pointer => 3
  | .blob => 4
  | .invalid => 5

/-- The enumerator with a given numeric value; every value from 5 on counts as
invalid (the code tests `m_format >= INVALID_FORMAT`, TypeDescription.hpp:58). -/
def TypeFormat.ofCode : Nat → TypeFormat
  | 0 => .unsigned
  | 1 => .signed
  | 2 => .float
  | 3 => .pointer
  | 4 => .blob
  | _ => .invalid

/-- `class TypeDescription` (TypeDescription.hpp:37-47). -/
structure TypeDesc where
  nameIndex : U32
  format : TypeFormat
  size : U32
  deriving DecidableEq, Repr

/-- Contents of `union VarValue` (cffi-interface/trace-db/TraceVarInfo.hpp:33-40).
For blobs the model stores the bytes behind the pointer, for everything else the
64 bits of the union. -/
inductive VarValue where
  | word (u : U64)
  | blob (bytes : List U8)
  deriving DecidableEq, Repr

/-- `class TraceVarInfo` (TraceVarInfo.hpp:71-77). -/
structure VarInfo where
  value : VarValue
  nameIndex : U32
  typeIndex : U32
  format : TypeFormat
  size : U32
  bufferSize : U64
  hasBufferSize : Bool
  deriving DecidableEq, Repr

/-- `class TracePointData` and `class TracePoint`
(cffi-interface/trace-db/TracePoint.hpp:54-61, 229-236).  Flyweights are
dereferenced in the model; sharing is treated separately. -/
structure Point where
  counter : U64
  statement : U64
  sizes : List BufferSize
  vars : List VarInfo
  aux : List U64
  deriving DecidableEq, Repr

/-- A name: the bytes of a `std::string`.  For cffi-interface/trace-db/Trace.hpp:51-98. -/
abbrev Name := List U8

/-- `class Trace` (cffi-interface/trace-db/Trace.hpp:35-45) without the memory
map and the cache, which are not part of its value. -/
structure Trace where
  names : List Name
  types : List TypeDesc
  points : List Point
  deriving DecidableEq, Repr

end TraceDB
