import Verif.Model.Types
import Verif.Spec.Alloc
/-
The binary trace format, stated independently of the reader and the writer:
a header (name table, type table) followed by points; a point is a sequence of
entries followed by an end marker.
-/
namespace TraceDB

/-- One entry of a point. The payload of a variable is the bytes of its value
(without the length field of a variable-sized blob). -/
inductive Entry where
  | stmt (id : U64)
  | var (name type : U32) (payload : List U8)
  | size (r : BufferSize)
  | aux (v : U64)
  deriving DecidableEq, Repr

/-- The payloads a type admits. -/
def PayloadOk (t : TypeDesc) (p : List U8) : Prop :=
  match t.format with
  | .signed => (t.size = 1 ∨ t.size = 2 ∨ t.size = 4 ∨ t.size = 8) ∧ p.length = t.size.toNat
  | .unsigned => t.size.toNat ≤ 8 ∧ p.length = t.size.toNat
  | .float => t.size.toNat ≤ 8 ∧ p.length = t.size.toNat
  | .pointer => t.size.toNat ≤ 8 ∧ p.length = t.size.toNat
  | .blob => if t.size = 0 then p.length < 2 ^ 32 else p.length = t.size.toNat
  | .invalid => False

/-- Types whose values the reader can hold: signed sizes 1, 2, 4, 8, other
numbers at most 8 bytes. -/
def TypeDesc.Sane (t : TypeDesc) : Prop :=
  match t.format with
  | .signed => t.size = 1 ∨ t.size = 2 ∨ t.size = 4 ∨ t.size = 8
  | .unsigned | .float | .pointer => t.size.toNat ≤ 8
  | .blob => True
  | .invalid => False

instance (t : TypeDesc) : Decidable t.Sane := by
  unfold TypeDesc.Sane; split <;> infer_instance

/-- Entries whose indices are in range and whose payload fits the type. -/
def Entry.WF (names : List Name) (types : List TypeDesc) : Entry → Prop
  | .var n t p => n.toNat < names.length ∧ ∃ ty, types[t.toNat]? = some ty ∧ PayloadOk ty p
  | _ => True

/-- Bytes of a payload: variable-sized blobs are preceded by their length. -/
def encodePayload (t : TypeDesc) (p : List U8) : List U8 :=
  if t.format = .blob ∧ t.size = 0 then leBytes 4 p.length ++ p else p

/-- Bytes of an entry. -/
def Entry.encode (types : List TypeDesc) : Entry → List U8
  | .stmt id => 1 :: leBytes 8 id.toNat
  | .var n t p => 2 :: (leBytes 4 n.toNat ++ (leBytes 4 t.toNat ++
      match types[t.toNat]? with
      | some ty => encodePayload ty p
      | none => []))
  | .size r => 3 :: (leBytes 8 r.address.toNat ++ leBytes 8 r.size.toNat)
  | .aux v => 4 :: leBytes 8 v.toNat

/-- Bytes of a sequence of entries. -/
def encodeEntries (types : List TypeDesc) (es : List Entry) : List U8 :=
  es.flatMap (Entry.encode types)

/-- Bytes of a point: its entries and the end marker. -/
def encodePoint (types : List TypeDesc) (es : List Entry) : List U8 :=
  encodeEntries types es ++ [0]

/-- Bytes of a sequence of points. -/
def encodePoints (types : List TypeDesc) (ps : List (List Entry)) : List U8 :=
  ps.flatMap (encodePoint types)

/-- Bytes of the header. -/
def encodeHeader (names : List Name) (types : List TypeDesc) : List U8 :=
  leBytes 8 ((names.map fun n => n.length + 1).sum) ++ ((names.flatMap fun n => n ++ [0]) ++
  (leBytes 4 types.length ++ types.flatMap fun t =>
    leBytes 4 t.nameIndex.toNat ++ (leBytes 4 t.format.code ++ leBytes 4 t.size.toNat)))

/-- Headers the format can express. -/
structure HeaderOk (names : List Name) (types : List TypeDesc) : Prop where
  nulFree : ∀ n ∈ names, (0 : U8) ∉ n
  chars : (names.map fun n => n.length + 1).sum < 2 ^ 63
  count : types.length < 2 ^ 32
  formats : ∀ t ∈ types, t.format ≠ .invalid

/-! ### Meaning -/

/-- The two's complement integer stored in a sequence of bytes. -/
def signedOf (p : List U8) : Int :=
  if leNat p < 2 ^ (8 * p.length - 1) then (leNat p : Int) else (leNat p : Int) - 2 ^ (8 * p.length)

/-- The variable recorded by a `var` entry of type `ty` after the allocation
history `H`. -/
def decodeVar (ty : TypeDesc) (H : List BufferSize) (name type : U32) (p : List U8) : VarInfo :=
  match ty.format with
  | .signed => ⟨.word (BitVec.ofInt 64 (signedOf p)), name, type, ty.format, ty.size, 0, false⟩
  | .pointer =>
    let a : U64 := BitVec.ofNat 64 (leNat p)
    let b := lookupSize H a
    if b = u64Max then ⟨.word a, name, type, ty.format, ty.size, 0, false⟩
    else ⟨.word a, name, type, ty.format, ty.size, b, true⟩
  | .blob => ⟨.blob p, name, type, ty.format, BitVec.ofNat 32 p.length, 0, false⟩
  | _ => ⟨.word (BitVec.ofNat 64 (leNat p)), name, type, ty.format, ty.size, 0, false⟩

/-- Allocation records among entries. -/
def entrySizes (es : List Entry) : List BufferSize :=
  es.filterMap fun | .size r => some r | _ => none

/-- Auxiliary values among entries. -/
def entryAux (es : List Entry) : List U64 :=
  es.filterMap fun | .aux v => some v | _ => none

/-- The statement id of a point: the last one given. -/
def entryStmt (es : List Entry) : Option U64 :=
  (es.filterMap fun | .stmt v => some v | _ => none).getLast?

/-- The variables of a point whose entries follow the history `H`. -/
def entryVars (types : List TypeDesc) : List BufferSize → List Entry → List VarInfo
  | _, [] => []
  | H, .size r :: es => entryVars types (H ++ [r]) es
  | H, .var n t p :: es =>
    match types[t.toNat]? with
    | some ty => decodeVar ty H n t p :: entryVars types H es
    | none => entryVars types H es
  | H, _ :: es => entryVars types H es

/-- The variable entries of a point whose entries follow the history `H`, each
with the allocation records that precede it. -/
def varEntries : List BufferSize → List Entry → List (List BufferSize × U32 × U32 × List U8)
  | _, [] => []
  | H, .size r :: es => varEntries (H ++ [r]) es
  | H, .var n t p :: es => (H, n, t, p) :: varEntries H es
  | H, _ :: es => varEntries H es

/-- The point number `i` with the given statement id. -/
def pointOf (types : List TypeDesc) (i : Nat) (H : List BufferSize) (stmt : U64)
    (es : List Entry) : Point :=
  ⟨BitVec.ofNat 64 i, stmt, entrySizes es, entryVars types H es, entryAux es⟩

/-- The points recorded by complete points, numbered from `i`; `noStmt` stands
for the id of a point without statement entry. -/
def pointsOf (types : List TypeDesc) (noStmt : U64) : Nat → List BufferSize → List (List Entry) → List Point
  | _, _, [] => []
  | i, H, es :: ps =>
    pointOf types i H ((entryStmt es).getD noStmt) es ::
      pointsOf types noStmt (i + 1) (H ++ entrySizes es) ps

end TraceDB
