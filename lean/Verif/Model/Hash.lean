import Verif.Model.Equality
import Verif.Model.Predicate
/-
Hash values, orderings and the equality of points and traces.
-/
namespace TraceDB

/-- The hash functions of Boost, uninterpreted.  `combine seed h` is
`boost::hash_combine` with a value whose hash is `h`, `int w n` is the hash of an
unsigned integer (or enumerator) of `w` bits, `range hs` is `boost::hash_range`
over values with these hashes, `str` the hash of a string.  For cffi-interface/trace-db/QueryObjects.hpp:79-88. -/
structure HashSys where
  combine : U64 → U64 → U64
  int : Nat → Nat → U64
  range : List U64 → U64
  str : Name → U64

/-- `hash_value(TypeDescription)` (cffi-interface/trace-db/TypeDescription.hpp:137-145). -/
def TypeDesc.hash (H : HashSys) (t : TypeDesc) : U64 :=
  H.combine (H.combine (H.combine 0 (H.int 32 t.nameIndex.toNat)) (H.int 32 t.format.code))
    (H.int 32 t.size.toNat)

/-- `hash_value(TraceBufferSize)` (TraceBufferSize.hpp:89-96). -/
def BufferSize.hash (H : HashSys) (b : BufferSize) : U64 :=
  H.combine (H.combine 0 (H.int 64 b.address.toNat)) (H.int 64 b.size.toNat)

/-- The value part of `hash_value(TraceVarInfo)` (TraceVarInfo.hpp:440-457): for
sizes 1, 2 and 4 only the low bytes are hashed, for blobs `m_size` bytes. -/
def valueHash (H : HashSys) (v : VarInfo) : U64 :=
  match v.value with
  | .blob bs => H.range ((bs.take v.size.toNat).map fun b => H.int 8 b.toNat)
  | .word u =>
    if v.size.toNat = 1 then H.int 8 (u.setWidth 8).toNat
    else if v.size.toNat = 2 then H.int 16 (u.setWidth 16).toNat
    else if v.size.toNat = 4 then H.int 32 (u.setWidth 32).toNat
    else H.int 64 u.toNat

/-- `hash_value(TraceVarInfo)` (TraceVarInfo.hpp:437-467). -/
def VarInfo.hash (H : HashSys) (v : VarInfo) : U64 :=
  let s := H.combine 0 (valueHash H v)
  let s := H.combine s (H.int 32 v.nameIndex.toNat)
  let s := H.combine s (H.int 32 v.typeIndex.toNat)
  let s := H.combine s (H.int 32 v.size.toNat)
  let s := H.combine s (H.int 32 v.format.code)
  let s := H.combine s (H.int 64 v.bufferSize.toNat)
  H.combine s (H.int 8 (if v.hasBufferSize then 1 else 0))

/-- Numeric value of an enumerator of `predicate_kind` (QueryObjects.hpp:32-60). -/
def PKind.code : PKind → Nat
  | .null => 0 | .varReference => 1 | .varSize => 2 | .varValue => 3 | .distinctVars => 4
  | .signedValue => 5 | .unsignedValue => 6 | .floatValue => 7 | .and => 8 | .or => 9 | .not => 10
  | .greaterThan => 11 | .greaterThanOrEqual => 12 | .lessThan => 13 | .lessThanOrEqual => 14
  | .equal => 15 | .add => 16 | .subtract => 17 | .multiply => 18 | .divide => 19

mutual
/-- `Predicate::computeHash` (QueryObjects.hpp:79-87). -/
def Pred.hash (H : HashSys) : Pred → U64
  | .node k d cs => H.combine (H.combine (H.combine 0 (H.int 32 k.code)) (H.int 64 d.toNat))
      (H.range (Pred.hashList H cs))
/-- The hashes of the children.  For cffi-interface/trace-db/QueryObjects.hpp:79-88. -/
def Pred.hashList (H : HashSys) : List Pred → List U64
  | [] => []
  | p :: ps => Pred.hash H p :: Pred.hashList H ps
end

/-! Orderings -/

/-- `operator<` of `std::tuple` (and `std::tie`) on keys given as numbers: the
first difference decides.  For cffi-interface/trace-db/QueryObjects.hpp:79-88 and TraceBufferSize.hpp:77. -/
def tupleLt : List Nat → List Nat → Bool
  | [], [] => false
  | a :: as, b :: bs => if a < b then true else if b < a then false else tupleLt as bs
  | _, _ => false

/-- `TypeDescription::operator<` (TypeDescription.hpp:122-129). -/
def TypeDesc.lt (a b : TypeDesc) : Bool :=
  tupleLt [a.nameIndex.toNat, a.format.code, a.size.toNat] [b.nameIndex.toNat, b.format.code, b.size.toNat]

/-- `TraceBufferSize::operator<` (TraceBufferSize.hpp:77-82). -/
def BufferSize.lt (a b : BufferSize) : Bool :=
  tupleLt [a.address.toNat, a.size.toNat] [b.address.toNat, b.size.toNat]

/-- Lexicographic comparison of vectors of (signed) `char`: less, or greater, or
equal.  For cffi-interface/trace-db/TraceBufferSize.hpp:77. -/
def charsCmp : List U8 → List U8 → Ordering
  | [], [] => .eq
  | [], _ :: _ => .lt
  | _ :: _, [] => .gt
  | a :: as, b :: bs =>
    if a.toInt < b.toInt then .lt else if b.toInt < a.toInt then .gt else charsCmp as bs

/-- The members after the value in the tuples of TraceVarInfo.hpp:367-380. -/
def VarInfo.key (v : VarInfo) : List Nat :=
  [v.nameIndex.toNat, v.typeIndex.toNat, v.format.code, v.size.toNat, v.bufferSize.toNat,
    if v.hasBufferSize then 1 else 0]

/-- `TraceVarInfo::operator<` (TraceVarInfo.hpp:361-398).  `pa` and `pb` are the
pointers held by `a` and `b` when they are blobs.  Both ranges have the length of
the *left* operand's size; reading more bytes than a blob has is undefined. -/
def VarInfo.lt (pa pb : U64) (a b : VarInfo) : Res Bool :=
  match a.value, b.value with
  | .blob x, .blob y =>
    if a.size.toNat ≤ x.length ∧ a.size.toNat ≤ y.length then
      match charsCmp (x.take a.size.toNat) (y.take a.size.toNat) with
      | .lt => .ok true
      | .gt => .ok false
      | .eq => .ok (tupleLt a.key b.key)
    else .ub .oobRead
  | x, y =>
    let bits (v : VarValue) (p : U64) : Nat := match v with
      | .word u => u.toNat
      | .blob _ => p.toNat
    .ok (tupleLt (bits x pa :: a.key) (bits y pb :: b.key))

/-! Points and traces -/

/-- `TracePoint::operator==` (TracePoint.hpp:428-432): the data member is compared
with itself, and a flyweight equals itself. -/
def Point.eqv (a b : Point) : Bool := a.counter == b.counter && a.statement == b.statement && true

/-- `operator==` of vectors.  For cffi-interface/trace-db/Trace.hpp:364-368. -/
def vecEqv {α : Type} (eqv : α → α → Bool) : List α → List α → Bool
  | [], [] => true
  | a :: as, b :: bs => eqv a b && vecEqv eqv as bs
  | _, _ => false

/-- `TypeDescription::operator==` (TypeDescription.hpp:131-135). -/
def TypeDesc.eqv (a b : TypeDesc) : Bool :=
  a.nameIndex == b.nameIndex && a.format == b.format && a.size == b.size

/-- `TraceBufferSize::operator==` (TraceBufferSize.hpp:84-87). -/
def BufferSize.eqv (a b : BufferSize) : Bool := a.address == b.address && a.size == b.size

/-- `Trace::operator==` (Trace.hpp:364-368). -/
def Trace.eqv (a b : Trace) : Bool :=
  vecEqv Point.eqv a.points b.points && vecEqv (· == ·) a.names b.names && vecEqv TypeDesc.eqv a.types b.types

/-- `hash_value(TracePoint)` (TracePoint.hpp:434-442): the data is hashed by the
address `addr` of the shared object. -/
def Point.hash (H : HashSys) (addr : Point → U64) (p : Point) : U64 :=
  H.combine (H.combine (H.combine 0 (H.int 64 p.counter.toNat)) (H.int 64 p.statement.toNat))
    (H.int 64 (addr p).toNat)

/-- `hash_value(Trace)` (Trace.hpp:370-378). -/
def Trace.hash (H : HashSys) (addr : Point → U64) (t : Trace) : U64 :=
  H.combine (H.combine (H.combine 0 (H.range (t.points.map (Point.hash H addr))))
    (H.range (t.names.map H.str))) (H.range (t.types.map (TypeDesc.hash H)))

/-- `hash_value(TraceDB)` and `TraceDB::operator==` (TraceDB.hpp:58-60, 78-81). -/
def dbEqv (a b : List Trace) : Bool := vecEqv Trace.eqv a b

end TraceDB
