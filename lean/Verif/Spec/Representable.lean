import Verif.Spec.Format
/-
Traces the binary format can carry: what `operator<<` writes is what the reader
understands.
-/
namespace TraceDB

/-- Types whose values are written and read with the same width: integers of 1,
2, 4 or 8 bytes, floats of 4 or 8 bytes, 8-byte pointers, variable-sized
blobs. -/
def TypeDesc.Portable (t : TypeDesc) : Prop :=
  match t.format with
  | .signed | .unsigned => t.size = 1 ∨ t.size = 2 ∨ t.size = 4 ∨ t.size = 8
  | .float => t.size = 4 ∨ t.size = 8
  | .pointer => t.size = 8
  | .blob => t.size = 0
  | .invalid => False

instance (t : TypeDesc) : Decidable t.Portable := by
  unfold TypeDesc.Portable; split <;> infer_instance

/-- The value of a variable fits its type `ty`: signed and unsigned numbers are
in the range of their width, the bytes of a blob are as many as its size says. -/
def ValueFits (ty : TypeDesc) (v : VarInfo) : Prop :=
  match ty.format, v.value with
  | .signed, .word w => v.size = ty.size ∧
      -(2 : Int) ^ (8 * ty.size.toNat - 1) ≤ w.toInt ∧ w.toInt < 2 ^ (8 * ty.size.toNat - 1)
  | .unsigned, .word w => v.size = ty.size ∧ w.toNat < 2 ^ (8 * ty.size.toNat)
  | .float, .word w => v.size = ty.size ∧ w.toNat < 2 ^ (8 * ty.size.toNat)
  | .pointer, .word _ => v.size = ty.size
  | .blob, .blob bs => v.size.toNat = bs.length
  | _, _ => False

instance (ty : TypeDesc) (v : VarInfo) : Decidable (ValueFits ty v) := by
  unfold ValueFits; split <;> infer_instance

/-- A variable refers to an existing name and a type it agrees with. -/
def VarFits (names : List Name) (types : List TypeDesc) (v : VarInfo) : Prop :=
  v.nameIndex.toNat < names.length ∧
    ∃ ty, types[v.typeIndex.toNat]? = some ty ∧ v.format = ty.format ∧ ValueFits ty v

/-- The buffer size of a variable is what the records `H` say about it: only
pointers have one, and only when the lookup knows it. -/
def BufferSizeFits (H : List BufferSize) (v : VarInfo) : Prop :=
  match v.format, v.value with
  | .pointer, .word w => ∃ r, LookupSpec H w r ∧ v.hasBufferSize = decide (r ≠ u64Max) ∧
      v.bufferSize = if r = u64Max then 0 else r
  | _, _ => v.hasBufferSize = false ∧ v.bufferSize = 0

/-- Allocation records of the points before number `i`. -/
def recordsBefore (points : List Point) (i : Nat) : List BufferSize :=
  (points.take i).flatMap (·.sizes)

/-- Traces that survive writing and reading, apart from buffer sizes and point
counters. -/
structure Writable (t : Trace) : Prop where
  header : HeaderOk t.names t.types
  portable : ∀ ty ∈ t.types, ty.Portable
  vars : ∀ p ∈ t.points, ∀ v ∈ p.vars, VarFits t.names t.types v
  reserved : ReservedOk (t.points.flatMap (·.sizes))

/-- Traces that survive writing and reading: moreover points are numbered, and
the buffer sizes of pointers are those determined by the allocation records of
the earlier points and of their own point. -/
structure Representable (t : Trace) : Prop extends Writable t where
  counters : ∀ (i : Nat) (p : Point), t.points[i]? = some p → p.counter = BitVec.ofNat 64 i
  buffers : ∀ (i : Nat) (p : Point), t.points[i]? = some p → ∀ v ∈ p.vars,
    BufferSizeFits (recordsBefore t.points i ++ p.sizes) v

end TraceDB
