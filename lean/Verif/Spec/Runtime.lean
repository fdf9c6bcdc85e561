import Verif.Model.Runtime
import Verif.Spec.Format
/-
What an instrumented program records, in terms of C values: independent of how the
runtime lays out its arguments and of the trace format.
-/
namespace TraceDB

/-- Sizes of the integer types. -/
inductive IntSize where
  | one
  | two
  | four
  | eight
  deriving DecidableEq, Repr

/-- Number of bytes. -/
def IntSize.bytes : IntSize → Nat
  | .one => 1
  | .two => 2
  | .four => 4
  | .eight => 8

/-- A scalar C value with its type. Integers are mathematical integers, floating
point numbers are given by their object representation. -/
inductive CValue where
  | signed (k : IntSize) (v : Int)
  | unsigned (k : IntSize) (v : Nat)
  | float (bits : U32)
  | double (bits : U64)
  | pointer (a : U64)
  deriving DecidableEq, Repr

/-- Values of their type. -/
def CValue.InRange : CValue → Prop
  | .signed k v => -(2 : Int) ^ (8 * k.bytes - 1) ≤ v ∧ v < 2 ^ (8 * k.bytes - 1)
  | .unsigned k v => v < 2 ^ (8 * k.bytes)
  | _ => True

/-- Format of the type. -/
def CValue.format : CValue → TypeFormat
  | .signed _ _ => .signed
  | .unsigned _ _ => .unsigned
  | .float _ | .double _ => .float
  | .pointer _ => .pointer

/-- `sizeof` the type. -/
def CValue.size : CValue → Nat
  | .signed k _ | .unsigned k _ => k.bytes
  | .float _ => 4
  | .double _ => 8
  | .pointer _ => 8

/-- A slot that carries a 32-bit argument: its upper half is arbitrary. -/
def Slot.Carries32 (s : Slot) (v : U32) : Prop := ∃ w, s = .gp w ∧ w.setWidth 32 = v

/-- How a value is passed to a variadic function: integers narrower than `int` are
promoted to `int` and keep their value, `float` becomes `double`. -/
def CValue.PassedAs (cf : CFloat) : CValue → Slot → Prop
  | .signed .eight v, s => s = .gp (BitVec.ofInt 64 v)
  | .signed _ v, s => s.Carries32 (BitVec.ofInt 32 v)
  | .unsigned .eight v, s => s = .gp (BitVec.ofNat 64 v)
  | .unsigned _ v, s => s.Carries32 (BitVec.ofNat 32 v)
  | .float b, s => s = .fp (cf.widen b)
  | .double b, s => s = .fp b
  | .pointer a, s => s = .gp a

/-- Widening a recorded `float` and narrowing it again changes nothing (true for
everything but signalling NaNs). -/
def CValue.FloatOk (cf : CFloat) : CValue → Prop
  | .float b => cf.narrow (cf.widen b) = b
  | _ => True

/-- A scalar variable recorded by the program. -/
structure VarRec where
  name : U32
  type : U32
  value : CValue
  deriving DecidableEq, Repr

/-- A string recorded by the program. -/
structure BlobRec where
  name : U32
  type : U32
  bytes : List U8
  deriving DecidableEq, Repr

/-- Something recorded at a point. -/
inductive RecItem where
  | buffer (r : BufferSize)
  | vars (l : List VarRec)
  | blobs (l : List BlobRec)
  deriving DecidableEq, Repr

/-- A recorded point. -/
structure RecPoint where
  statement : U64
  items : List RecItem
  deriving DecidableEq, Repr

/-- The arguments generated for a variable (c-cpp.lisp:1021-1025): name index,
type index, size, format, value. -/
def VarRec.Args (cf : CFloat) (v : VarRec) (l : List Slot) : Prop :=
  ∃ a b c d e, l = [a, b, c, d, e] ∧ a.Carries32 v.name ∧ b.Carries32 v.type ∧
    c.Carries32 (BitVec.ofNat 32 v.value.size) ∧ d.Carries32 (BitVec.ofNat 32 v.value.format.code) ∧
    v.value.PassedAs cf e

/-- The arguments generated for a string (c-cpp.lisp:1009-1019): name index, type
index, length, address; the memory holds the characters. -/
def BlobRec.Args (mem : CMem) (v : BlobRec) (l : List Slot) : Prop :=
  ∃ a b c p, l = [a, b, c, .gp p] ∧ a.Carries32 v.name ∧ b.Carries32 v.type ∧
    c.Carries32 (BitVec.ofNat 32 v.bytes.length) ∧ mem p v.bytes.length = some v.bytes

/-- The arguments of several elements, one after the other. -/
inductive ArgsAll {α : Type} (A : α → List Slot → Prop) : List α → List Slot → Prop
  | nil : ArgsAll A [] []
  | cons {x xs l l'} : A x l → ArgsAll A xs l' → ArgsAll A (x :: xs) (l ++ l')

/-- Two lists related element by element. -/
inductive AllRel {α β : Type} (R : α → β → Prop) : List α → List β → Prop
  | nil : AllRel R [] []
  | cons {x y xs ys} : R x y → AllRel R xs ys → AllRel R (x :: xs) (y :: ys)

/-- The call that records something. -/
def RecItem.CalledAs (cf : CFloat) (mem : CMem) : RecItem → RtCall → Prop
  | .buffer r, c => c = .bufferSize r.address r.size
  | .vars l, c => ∃ n args, c = .variables n args ∧ n.toNat = l.length ∧ ArgsAll (VarRec.Args cf) l args
  | .blobs l, c => ∃ n args, c = .blobs n args ∧ n.toNat = l.length ∧ ArgsAll (BlobRec.Args mem) l args

/-- The calls that record a point, between its id and its end marker. -/
def RecPoint.CalledAs (cf : CFloat) (mem : CMem) (p : RecPoint) (cs : U64 × List RtCall) : Prop :=
  cs.1 = p.statement ∧ AllRel (RecItem.CalledAs cf mem) p.items cs.2

/-- Variables whose type is in the table, with the format and size of the value. -/
def VarRec.Typed (names : List Name) (types : List TypeDesc) (v : VarRec) : Prop :=
  v.name.toNat < names.length ∧ v.value.InRange ∧
    ∃ ty : TypeDesc, types[v.type.toNat]? = some ty ∧ ty.format = v.value.format ∧ ty.size.toNat = v.value.size

/-- Strings whose type is in the table as a blob of variable size. -/
def BlobRec.Typed (names : List Name) (types : List TypeDesc) (v : BlobRec) : Prop :=
  v.name.toNat < names.length ∧ v.bytes.length < 2 ^ 32 ∧
    ∃ ty : TypeDesc, types[v.type.toNat]? = some ty ∧ ty.format = .blob ∧ ty.size = 0

/-- Recordings with arguments of the declared types, in numbers that the loops can
count. -/
def RecItem.Typed (names : List Name) (types : List TypeDesc) (cf : CFloat) : RecItem → Prop
  | .buffer _ => True
  | .vars l => l.length < 2 ^ 32 ∧ ∀ v ∈ l, v.Typed names types ∧ v.value.FloatOk cf
  | .blobs l => l.length < 2 ^ 32 ∧ ∀ v ∈ l, v.Typed names types

/-- The 64-bit word that stands for a value: sign-extended signed integers,
zero-extended everything else. -/
def CValue.word : CValue → U64
  | .signed _ v => BitVec.ofInt 64 v
  | .unsigned _ v => BitVec.ofNat 64 v
  | .float b => b.setWidth 64
  | .double b => b
  | .pointer a => a

/-- The bytes recorded for a value. -/
def CValue.payload : CValue → List U8
  | .signed k v => leBytes k.bytes (BitVec.ofInt 64 v).toNat
  | .unsigned k v => leBytes k.bytes v
  | .float b => leBytes 4 b.toNat
  | .double b => leBytes 8 b.toNat
  | .pointer a => leBytes 8 a.toNat

/-- The entry of a variable. -/
def VarRec.entry (v : VarRec) : Entry := .var v.name v.type v.value.payload
/-- The entry of a string. -/
def BlobRec.entry (v : BlobRec) : Entry := .var v.name v.type v.bytes

/-- The entries of something recorded. -/
def RecItem.entries : RecItem → List Entry
  | .buffer r => [.size r]
  | .vars l => l.map VarRec.entry
  | .blobs l => l.map BlobRec.entry

/-- The entries of a point. -/
def RecPoint.entries (p : RecPoint) : List Entry := .stmt p.statement :: p.items.flatMap RecItem.entries

/-- What the trace should say about a variable recorded after the allocation
history `H`. -/
def VarRec.info (H : List BufferSize) (v : VarRec) : VarInfo :=
  let b := match v.value with
    | .pointer a => lookupSize H a
    | _ => u64Max
  ⟨.word v.value.word, v.name, v.type, v.value.format, BitVec.ofNat 32 v.value.size,
    if b = u64Max then 0 else b, b ≠ u64Max⟩

/-- What the trace should say about a string. -/
def BlobRec.info (v : BlobRec) : VarInfo :=
  ⟨.blob v.bytes, v.name, v.type, .blob, BitVec.ofNat 32 v.bytes.length, 0, false⟩

/-- Allocation records of a point. -/
def recSizes (l : List RecItem) : List BufferSize :=
  l.filterMap fun | .buffer r => some r | _ => none

/-- Variables of a point recorded after the history `H`, in order. -/
def recVars : List BufferSize → List RecItem → List VarInfo
  | _, [] => []
  | H, .buffer r :: l => recVars (H ++ [r]) l
  | H, .vars vs :: l => vs.map (VarRec.info H) ++ recVars H l
  | H, .blobs vs :: l => vs.map BlobRec.info ++ recVars H l

/-- The points of the trace, numbered from `i`, after the history `H`. -/
def recPoints : Nat → List BufferSize → List RecPoint → List Point
  | _, _, [] => []
  | i, H, p :: ps =>
    ⟨BitVec.ofNat 64 i, p.statement, recSizes p.items, recVars H p.items, []⟩ ::
      recPoints (i + 1) (H ++ recSizes p.items) ps

/-! ### Threads -/

/-- Calls that record something, in contrast to those that begin and end a
point. -/
def RtCall.IsItem : RtCall → Prop
  | .variables _ _ | .blobs _ _ | .bufferSize _ _ => True
  | .traceId _ | .endEntry => False

/-- The elements that belong to thread `i`, in order. -/
def threadPart {α : Type} (i : Nat) (order : List (Nat × α)) : List α :=
  (order.filter (·.1 == i)).map (·.2)

/-- `order` runs through the lists of all threads completely: every element of
every list occurs exactly once, in the order of its list. -/
def Interleaves {α : Type} (order : List (Nat × α)) (threads : List (List α)) : Prop :=
  (∀ x ∈ order, x.1 < threads.length) ∧
  ∀ (i : Nat) (l : List α), threads[i]? = some l → threadPart i order = l

/-- The first `k` elements; all of them if `k` is 0. -/
def limited {α : Type} (k : U64) (l : List α) : List α := if k = 0 then l else l.take k.toNat

/-- A program before its first step: the header has been written. -/
def RtState.init (header : List U8) (threads : List (List RtAct)) : RtState := ⟨header, none, threads⟩

/-- All threads have ended. -/
def RtState.Ended (s : RtState) : Prop := ∀ t ∈ s.threads, t = []

/-- What the threads of a program write: thread by thread, point by point.  The
calls of a point between its id and its end marker only record things. -/
def Writes (cf : CFloat) (mem : CMem) (threads : List (List (U64 × List RtCall))) (bytes : List (List (List U8))) : Prop :=
  AllRel (AllRel fun p b => (∀ c ∈ p.2, RtCall.IsItem c) ∧ rtBytes cf mem (pointCalls p.1 p.2) = .ok b) threads bytes

/-- The steps of the threads of a program. -/
def Steps (cf : CFloat) (mem : CMem) (threads : List (List (U64 × List RtCall))) (acts : List (List RtAct)) : Prop :=
  AllRel (fun l a => rtActs cf mem (l.flatMap fun p => pointCalls p.1 p.2) = .ok a) threads acts

end TraceDB
