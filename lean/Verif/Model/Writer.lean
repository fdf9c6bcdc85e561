import Verif.Model.Types
/-
The binary trace writer (`operator<<`).  Writing to the stream is assumed to
succeed; the result is the sequence of bytes written.
-/
namespace TraceDB

/-- `TypeDescription::write` (TypeDescription.hpp:75-81). -/
def writeType (t : TypeDesc) : List U8 :=
  leBytes 4 t.nameIndex.toNat ++ leBytes 4 t.format.code ++ leBytes 4 t.size.toNat

/-- `TraceBufferSize::write` (TraceBufferSize.hpp:44-48). -/
def writeBufferSize (b : BufferSize) : List U8 :=
  leBytes 8 b.address.toNat ++ leBytes 8 b.size.toNat

/-- The 64 bits of the union. For a blob these are a pointer; the model does not
know its value and uses 0 (only reachable for variables whose format and value
disagree).  For cffi-interface/trace-db/TraceVarInfo.hpp:34-40. -/
def VarValue.bits : VarValue → U64
  | .word u => u
  | .blob _ => 0

/-- The bytes behind the pointer of a blob.  For cffi-interface/trace-db/TraceVarInfo.hpp:34-40. -/
def VarValue.bytes : VarValue → List U8
  | .word _ => []
  | .blob bs => bs

/-- `TraceVarInfo::write` (TraceVarInfo.hpp:187-279).  Integers of sizes other
than 1, 2, 4, 8 write no value. A blob writes `m_size` and the block behind the
pointer, which has `m_size` bytes. -/
def writeVarInfo (v : VarInfo) : List U8 :=
  leBytes 4 v.nameIndex.toNat ++ leBytes 4 v.typeIndex.toNat ++
  match v.format with
  | .unsigned | .signed =>
    if v.size = 1 then leBytes 1 v.value.bits.toNat
    else if v.size = 2 then leBytes 2 v.value.bits.toNat
    else if v.size = 4 then leBytes 4 v.value.bits.toNat
    else if v.size = 8 then leBytes 8 v.value.bits.toNat
    else []
  | .float =>
    if v.size = 4 then leBytes 4 v.value.bits.toNat
    else leBytes 8 v.value.bits.toNat
  | .pointer => leBytes 8 v.value.bits.toNat
  | .blob => leBytes 4 v.size.toNat ++ v.value.bytes
  | .invalid => []

/-- `TracePoint::write` (TracePoint.hpp:313-334). -/
def writePoint (p : Point) : List U8 :=
  [1] ++ leBytes 8 p.statement.toNat ++
  (p.sizes.flatMap fun b => [3] ++ writeBufferSize b) ++
  (p.vars.flatMap fun v => [2] ++ writeVarInfo v) ++
  (p.aux.flatMap fun a => [4] ++ leBytes 8 a.toNat) ++
  [0]

/-- `Trace::write` (Trace.hpp:100-123). `n_chars` is a 64-bit and `n_types` a
32-bit variable. -/
def writeTrace (t : Trace) : List U8 :=
  leBytes 8 ((t.names.map fun n => n.length + 1).sum) ++
  (t.names.flatMap fun n => n ++ [0]) ++
  leBytes 4 t.types.length ++
  t.types.flatMap writeType ++
  t.points.flatMap writePoint

end TraceDB
