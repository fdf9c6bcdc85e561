import Verif.Model.LispAdd
import Verif.Spec.Format
import Verif.Spec.Alloc
import Verif.Spec.Runtime
/-
What the points of a trace should look like as Lisp data.
-/
namespace TraceDB

/-- The statement id of a point in Lisp: the top bit tells whether there is a file. -/
def ShowsId (s : U64) (l : LPoint) : Prop :=
  (s.toNat < 2 ^ 63 ∧ l.f = none ∧ l.c = s.toNat) ∨
  (∃ f, f < 2 ^ 23 ∧ l.c < 2 ^ 40 ∧ l.f = some f ∧ s.toNat = 2 ^ 63 + f * 2 ^ 40 + l.c)

/-- The value in Lisp of a payload of the given type. -/
def ShowsValue (ty : TypeDesc) (payload : List U8) (x : LValue) : Prop :=
  match ty.format with
  | .unsigned => x = .int (leNat payload)
  | .signed => x = .int (signedOf payload)
  | .pointer => x = .int (leNat payload)
  | .float => if ty.size = 4 then x = .single (BitVec.ofNat 32 (leNat payload)) else x = .double (BitVec.ofNat 64 (leNat payload))
  | .blob => x = .blob payload
  | .invalid => False

/-- The buffer size in Lisp of a payload: that of the allocation history for a pointer
if it is known, otherwise none. -/
def ShowsSize (H : List BufferSize) (ty : TypeDesc) (payload : List U8) (x : Option Nat) : Prop :=
  (ty.format = .pointer ∧ ∃ r, LookupSpec H (BitVec.ofNat 64 (leNat payload)) r ∧
    x = if r = u64Max then none else some r.toNat) ∨
  (ty.format ≠ .pointer ∧ x = none)

/-- A variable in Lisp shows an entry that follows the given allocation records. -/
def ShowsEntry (names : List Name) (types : List TypeDesc) (e : List BufferSize × U32 × U32 × List U8) (l : LVar) : Prop :=
  ∃ ty : TypeDesc, types[e.2.2.1.toNat]? = some ty ∧ names[e.2.1.toNat]? = some l.name ∧
    names[ty.nameIndex.toNat]? = some l.type ∧ ShowsValue ty e.2.2.2 l.value ∧ ShowsSize e.1 ty e.2.2.2 l.size

/-- A point in Lisp shows the entries of a point that follow the given allocation
records. -/
structure ShowsPoint (names : List Name) (types : List TypeDesc) (H : List BufferSize) (es : List Entry) (l : LPoint) : Prop where
  id : ∀ s, entryStmt es = some s → ShowsId s l
  aux : l.aux = entryAux es
  scopes : AllRel (ShowsEntry names types) (varEntries H es) l.scopes

/-- Points that can be given to `add-trace-points`. -/
structure LPoint.Addable (p : LPoint) : Prop where
  id : match p.f with
    | some f => f < 2 ^ 23 ∧ p.c < 2 ^ 40
    | none => p.c < 2 ^ 63
  vars : ∀ v ∈ p.scopes, (0 : U8) ∉ v.name ∧ (0 : U8) ∉ v.type ∧ (∃ i : Nat, i < 2 ^ 64 ∧ v.value = .int i) ∧
    ∀ z, v.size = some z → z < 2 ^ 64

/-- What becomes of a value: from 2^63 on it turns negative. -/
def LValue.wrapped : LValue → LValue
  | .int i => .int (if i < 2 ^ 63 then i else i - 2 ^ 64)
  | x => x

/-- What becomes of a point: the auxiliary values are dropped. -/
def LPoint.wrapped (p : LPoint) : LPoint :=
  { p with scopes := p.scopes.map fun v => { v with value := v.value.wrapped }, aux := [] }

end TraceDB
