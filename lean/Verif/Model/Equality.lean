import Verif.Model.Types
/-
Equality of variable records, `TraceVarInfo::operator==`.
-/
namespace TraceDB

/-- Comparison of the 64-bit values of two variables with `m_size` equal to
`size` (cffi-interface/trace-db/TraceVarInfo.hpp:414-431): for sizes 1, 2 and 4
only that many low bytes are compared. -/
def wordEqv (size : U32) (x y : U64) : Bool :=
  if size.toNat = 1 then x.setWidth 8 == y.setWidth 8
  else if size.toNat = 2 then x.setWidth 16 == y.setWidth 16
  else if size.toNat = 4 then x.setWidth 32 == y.setWidth 32
  else x == y

/-- `TraceVarInfo::operator==` (TraceVarInfo.hpp:400-435).
Simplification: the code selects the way of comparing the values by `m_format`;
in the model the value itself says whether it is a blob.  `memcmp` of `m_size`
bytes is the comparison of the first `m_size` bytes of both blobs. -/
def VarInfo.eqv (a b : VarInfo) : Bool :=
  a.nameIndex == b.nameIndex && a.typeIndex == b.typeIndex &&
  a.format == b.format && a.size == b.size &&
  a.bufferSize == b.bufferSize && a.hasBufferSize == b.hasBufferSize &&
  (match a.value, b.value with
   | .blob x, .blob y => x.take a.size.toNat == y.take a.size.toNat
   | .word x, .word y => wordEqv a.size x y
   | _, _ => false)

end TraceDB
