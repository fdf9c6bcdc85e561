import Verif.Model.Database
import Verif.Model.Api
/-
Serialisation of a database to text with Boost's text archives
(cffi-interface/trace-db.cpp:159-183 and the `save`, `load` and `serialize` members).

The text archive is modelled to the byte: tokens separated by one space, numbers in
decimal, strings preceded by their length, the archive header, and for each class
two numbers (tracking level and version, both 0) before its first object.
Sharing: `boost/flyweight/serialize.hpp` numbers the shared objects of a type in
order of appearance; an object is written after its number when the number is new.
-/
namespace TraceDB

/-- A token of a text archive.  A string makes a number and raw bytes.  For cffi-interface/trace-db.cpp:159-183. -/
inductive Tok where
  | num (i : Int)
  | str (s : Name)
  deriving DecidableEq, Repr

/-- A decimal digit.  For cffi-interface/trace-db.cpp:159-183. -/
def digitChar (d : Nat) : U8 := BitVec.ofNat 8 (48 + d)

/-- Decimal digits of a number, most significant first, in front of `acc`.  For cffi-interface/trace-db.cpp:159-183. -/
def decimalAux : Nat → Nat → List U8 → List U8
  | 0, _, acc => acc
  | fuel + 1, n, acc =>
    if n < 10 then digitChar n :: acc
    else decimalAux fuel (n / 10) (digitChar (n % 10) :: acc)

/-- `os << n` for an unsigned number.  For cffi-interface/trace-db.cpp:159-183. -/
def decimal (n : Nat) : List U8 := decimalAux (n + 1) n []

/-- `os << i`: a minus sign (45) for negative numbers.  For cffi-interface/trace-db.cpp:159-183. -/
def intText : Int → List U8
  | .ofNat n => decimal n
  | .negSucc n => 45 :: decimal (n + 1)

/-- Text of a token, with the space (32) in front of it, and for strings also the
space between length and content.  For cffi-interface/trace-db.cpp:159-183. -/
def tokText : Tok → List U8
  | .num i => 32 :: intText i
  | .str s => 32 :: decimal s.length ++ 32 :: s

/-- Text of tokens, each with its space.  For cffi-interface/trace-db.cpp:159-183. -/
def toksText (ts : List Tok) : List U8 := ts.flatMap tokText

/-- The classes with class information.  For cffi-interface/trace-db.cpp:159-183. -/
inductive Cls where
  | traceDB | trace | tracePoint | flyweight | pointData | bufferSize | varInfo | typeDesc
  deriving DecidableEq, Repr

/-- What a `TracePointData` holds.  For cffi-interface/trace-db/TracePoint.hpp:54-62. -/
structure Body where
  sizes : List BufferSize
  vars : List VarInfo
  aux : List U64
  deriving DecidableEq, Repr

/-- The data of a point.  For cffi-interface/trace-db/TracePoint.hpp:54-62. -/
def Point.body (p : Point) : Body := ⟨p.sizes, p.vars, p.aux⟩

/-- State of an archive: classes whose information was written (read), and the
numbered shared objects.  For cffi-interface/trace-db.cpp:159-183. -/
structure ArchState where
  seen : List Cls
  items : List Body
  deriving DecidableEq, Repr

/-- Start of an archive.  For cffi-interface/trace-db.cpp:159-183. -/
def ArchState.init : ArchState := ⟨[], []⟩

/-! Saving -/

/-- Something written to an archive.  For cffi-interface/trace-db.cpp:159-183. -/
abbrev Save := ArchState → List Tok × ArchState

/-- One after the other.  For cffi-interface/trace-db.cpp:159-183. -/
def Save.seq (a b : Save) : Save := fun st =>
  let (t, st) := a st
  let (u, st) := b st
  (t ++ u, st)

/-- Nothing.  For cffi-interface/trace-db.cpp:159-183. -/
def Save.nil : Save := fun st => ([], st)

/-- A number.  For cffi-interface/trace-db.cpp:159-183. -/
def saveNat (n : Nat) : Save := fun st => ([.num n], st)

/-- All elements.  For cffi-interface/trace-db.cpp:159-183. -/
def saveList {α : Type} (f : α → Save) : List α → Save
  | [] => Save.nil
  | a :: as => (f a).seq (saveList f as)

/-- An object of a class: the class information comes first, once.  For cffi-interface/trace-db.cpp:159-183. -/
def saveObject (c : Cls) (data : Save) : Save := fun st =>
  if c ∈ st.seen then data st
  else
    let (t, st) := data { st with seen := c :: st.seen }
    (.num 0 :: .num 0 :: t, st)

/-- `TypeDescription::serialize` (TypeDescription.hpp:152-158). -/
def saveType (t : TypeDesc) : Save :=
  saveObject .typeDesc ((saveNat t.nameIndex.toNat).seq ((saveNat t.format.code).seq (saveNat t.size.toNat)))

/-- `TraceBufferSize::serialize` (TraceBufferSize.hpp:103-109). -/
def saveBufferSize (b : BufferSize) : Save :=
  saveObject .bufferSize ((saveNat b.address.toNat).seq (saveNat b.size.toNat))

/-- The value part of `TraceVarInfo::save` (TraceVarInfo.hpp:484-490): a character is
written as a signed number. -/
def saveValue (v : VarInfo) : Save :=
  match v.value with
  | .blob bs => saveList (fun b st => ([.num b.toInt], st)) (bs.take v.size.toNat)
  | .word u => saveNat u.toNat

/-- `TraceVarInfo::save` (TraceVarInfo.hpp:474-491).
Simplification: the value of the record says whether it is a blob, see
`VarInfo.eqv`. -/
def saveVar (v : VarInfo) : Save :=
  saveObject .varInfo ((saveNat v.nameIndex.toNat).seq ((saveNat v.typeIndex.toNat).seq ((saveNat v.format.code).seq
    ((saveNat v.size.toNat).seq ((saveNat v.bufferSize.toNat).seq ((saveNat (if v.hasBufferSize then 1 else 0)).seq
      (saveValue v)))))))

/-- `TracePointData::save` (TracePoint.hpp:191-213). -/
def saveBody (d : Body) : Save :=
  saveObject .pointData ((saveNat d.sizes.length).seq ((saveNat d.vars.length).seq ((saveNat d.aux.length).seq
    ((saveList saveBufferSize d.sizes).seq ((saveList saveVar d.vars).seq (saveList (fun a => saveNat a.toNat) d.aux))))))

/-- Saving a flyweight (`boost/flyweight/serialize.hpp`): its number, and the object
if the number is new.  Two points share an object exactly if their data is the same
(theorem `C42_shared_iff_same_data`).
Simplification: the library numbers the object before it writes it; the data contains
no numbered object, so the order does not matter.  For cffi-interface/trace-db/TracePoint.hpp:24, 191. -/
def saveShared (d : Body) : Save := fun st =>
  let n := st.items.findIdx (· == d)
  if n < st.items.length then ([.num n], st)
  else
    let (t, st) := saveBody d st
    (.num n :: t, { st with items := st.items ++ [d] })

/-- `TracePoint::serialize` (TracePoint.hpp:449-455). -/
def savePoint (p : Point) : Save :=
  saveObject .tracePoint ((saveNat p.counter.toNat).seq ((saveNat p.statement.toNat).seq
    (saveObject .flyweight (saveShared p.body))))

/-- `Trace::save` (Trace.hpp:416-438): the numbers of names and types are 32-bit. -/
def saveTrace (t : Trace) : Save :=
  saveObject .trace ((saveNat (t.points.length % 2 ^ 64)).seq ((saveNat (t.names.length % 2 ^ 32)).seq
    ((saveNat (t.types.length % 2 ^ 32)).seq ((saveList savePoint t.points).seq
      ((saveList (fun n st => ([.str n], st)) t.names).seq (saveList saveType t.types))))))

/-- `TraceDB::save` (TraceDB.hpp:98-108). -/
def saveTraces (ts : List Trace) : Save :=
  saveObject .traceDB ((saveNat ts.length).seq (saveList saveTrace ts))

/-- The signature at the start of an archive.  For cffi-interface/trace-db.cpp:159-183. -/
def archiveSignature : Name :=
  [115, 101, 114, 105, 97, 108, 105, 122, 97, 116, 105, 111, 110, 58, 58, 97, 114, 99, 104, 105, 118, 101]

/-- The text in the stream (trace-db.cpp:161-166); `version` is the version of the
library.  There is no space before the first token. -/
def archiveText (version : Nat) (ts : List Trace) : List U8 :=
  (toksText (.str archiveSignature :: .num version :: (saveTraces ts .init).1)).tail

/-- `serialize_trace_db` (trace-db.cpp:159-171): a C string.
Simplification: `malloc` succeeds. -/
def serializeDb (version : Nat) (db : Db) : List U8 := archiveText version db.traces ++ [0]

/-! Loading -/

/-- What is left of the text, and the state of the archive.  For cffi-interface/trace-db.cpp:159-183. -/
structure LoadState where
  rest : List U8
  arch : ArchState
  deriving DecidableEq, Repr

/-- Something read from an archive; `none` is an exception of the archive.  For cffi-interface/trace-db.cpp:159-183. -/
abbrev Load (α : Type) := LoadState → Option (α × LoadState)

/-- White space.  For cffi-interface/trace-db.cpp:159-183. -/
def isSpace (b : U8) : Bool := b = 32 || (9 ≤ b.toNat && b.toNat ≤ 13)
/-- Digits.  For cffi-interface/trace-db.cpp:159-183. -/
def isDigit (b : U8) : Bool := 48 ≤ b.toNat && b.toNat ≤ 57

/-- Value of a sequence of digits.  For cffi-interface/trace-db.cpp:159-183. -/
def digitsValue (ds : List U8) : Nat := ds.foldl (fun n d => 10 * n + (d.toNat - 48)) 0

/-- The text after a sign, if there is one (`num_get` accepts both signs before numbers of all types).
For cffi-interface/trace-db.cpp:159-183. -/
def afterSign (text : List U8) : List U8 :=
  if text.head? = some 45 ∨ text.head? = some 43 then text.drop 1 else text

/-- The number made from a sign and digits, or an error.  `max` is the greatest number of the type and tells
the type: a `bool` is 0 or 1; a negative `int` is none of the enumerators, as are all large ones; a
negative number for an unsigned type is taken modulo `max + 1` (as by `strtoull`).  For cffi-interface/trace-db.cpp:159-183. -/
def numberRead (max : Nat) (minus : Bool) (v : Nat) : Option Nat :=
  if minus = false then if v ≤ max then some v else none
  else if v = 0 then some 0
  else if max = 1 then none
  else if max = 2 ^ 31 - 1 then if v ≤ 2 ^ 31 then some max else none
  else if v ≤ max then some (max + 1 - v) else none

/-- `is >> n` for a `bool`, an `int` or a number without sign, not greater than `max`.
For cffi-interface/trace-db.cpp:159-183. -/
def loadNat (max : Nat) : Load Nat := fun st =>
  let text := st.rest.dropWhile isSpace
  let ds := (afterSign text).takeWhile isDigit
  if ds = [] then none
  else match numberRead max (text.head? == some 45) (digitsValue ds) with
    | none => none
    | some n => some (n, { st with rest := (afterSign text).dropWhile isDigit })

/-- `is >> i` for a `short int`, stored in a `char`.  For cffi-interface/trace-db.cpp:159-183. -/
def loadChar : Load U8 := fun st =>
  let text := st.rest.dropWhile isSpace
  let ds := (afterSign text).takeWhile isDigit
  let v : Int := if text.head? = some 45 then - (digitsValue ds : Int) else digitsValue ds
  if ds = [] then none
  else if -32768 ≤ v ∧ v ≤ 32767 then some (BitVec.ofInt 8 v, { st with rest := (afterSign text).dropWhile isDigit })
  else none

/-- A `std::string`: its length, one character skipped, its bytes.  If the text ends
inside the string the missing bytes stay NUL (`s.resize`) and it is no error
(`is.read` is not checked); the next read fails.  For cffi-interface/trace-db.cpp:159-183. -/
def loadStr : Load Name := fun st => do
  let (n, st) ← loadNat (2 ^ 64 - 1) st
  let text := st.rest.drop 1
  some (text.take n ++ List.replicate (n - text.length) 0, { st with rest := text.drop n })

/-- Sequencing.  For cffi-interface/trace-db.cpp:159-183. -/
def Load.bind {α β : Type} (a : Load α) (f : α → Load β) : Load β := fun st =>
  match a st with
  | none => none
  | some (x, st) => f x st

/-- A value without reading.  For cffi-interface/trace-db.cpp:159-183. -/
def Load.pure {α : Type} (a : α) : Load α := fun st => some (a, st)

instance : Monad Load where
  pure := Load.pure
  bind := Load.bind

/-- `n` objects.  For cffi-interface/trace-db.cpp:159-183. -/
def loadList {α : Type} (f : Load α) : Nat → Load (List α)
  | 0 => pure []
  | n + 1 => do
    let a ← f
    let as ← loadList f n
    pure (a :: as)

/-- An object: class information (a flag for tracked objects, a version) first, once.
Simplification: the flag, which is 0 for these classes, is not used.  For cffi-interface/trace-db.cpp:159-183. -/
def loadObject {α : Type} (c : Cls) (data : Load α) : Load α := fun st =>
  if c ∈ st.arch.seen then data st
  else (do
    let _ ← loadNat 1
    let _ ← loadNat (2 ^ 32 - 1)
    data) { st with arch := { st.arch with seen := c :: st.arch.seen } }

/-- `TypeDescription::serialize` (TypeDescription.hpp:152-158). -/
def loadType : Load TypeDesc := loadObject .typeDesc (do
  let n ← loadNat (2 ^ 32 - 1)
  let f ← loadNat (2 ^ 31 - 1)
  let s ← loadNat (2 ^ 32 - 1)
  pure ⟨BitVec.ofNat 32 n, TypeFormat.ofCode f, BitVec.ofNat 32 s⟩)

/-- `TraceBufferSize::serialize` (TraceBufferSize.hpp:103-109). -/
def loadBufferSize : Load BufferSize := loadObject .bufferSize (do
  let a ← loadNat (2 ^ 64 - 1)
  let s ← loadNat (2 ^ 64 - 1)
  pure ⟨BitVec.ofNat 64 a, BitVec.ofNat 64 s⟩)

/-- The value part of `TraceVarInfo::load` (TraceVarInfo.hpp:503-510). -/
def loadValue (format : TypeFormat) (size : Nat) : Load VarValue :=
  if format = .blob then do
    let bs ← loadList loadChar size
    pure (.blob bs)
  else do
    let u ← loadNat (2 ^ 64 - 1)
    pure (.word (BitVec.ofNat 64 u))

/-- `TraceVarInfo::load` (TraceVarInfo.hpp:493-511).
Simplification: `malloc` succeeds. -/
def loadVar : Load VarInfo := loadObject .varInfo (do
  let n ← loadNat (2 ^ 32 - 1)
  let t ← loadNat (2 ^ 32 - 1)
  let f ← loadNat (2 ^ 31 - 1)
  let s ← loadNat (2 ^ 32 - 1)
  let b ← loadNat (2 ^ 64 - 1)
  let h ← loadNat 1
  let v ← loadValue (TypeFormat.ofCode f) s
  pure ⟨v, BitVec.ofNat 32 n, BitVec.ofNat 32 t, TypeFormat.ofCode f, BitVec.ofNat 32 s, BitVec.ofNat 64 b, h == 1⟩)

/-- `TracePointData::load` (TracePoint.hpp:153-189).
Simplification: the records become flyweights, which is not visible (C42). -/
def loadBody : Load Body := loadObject .pointData (do
  let ns ← loadNat (2 ^ 64 - 1)
  let nv ← loadNat (2 ^ 64 - 1)
  let na ← loadNat (2 ^ 64 - 1)
  let ss ← loadList loadBufferSize ns
  let vs ← loadList loadVar nv
  let as ← loadList (do let a ← loadNat (2 ^ 64 - 1); pure (BitVec.ofNat 64 a)) na
  pure ⟨ss, vs, as⟩)

/-- Adding a numbered object.  For cffi-interface/trace-db/TracePoint.hpp:24, 153. -/
def pushItem (d : Body) : Load Unit := fun st =>
  some ((), { st with arch := { st.arch with items := st.arch.items ++ [d] } })

/-- Loading a flyweight (`boost/flyweight/serialize.hpp`): a known number, or the
next number followed by the object; other numbers are an error.  For cffi-interface/trace-db/TracePoint.hpp:24, 153. -/
def loadShared : Load Body := fun st => (do
  let n ← loadNat (2 ^ 64 - 1)
  match st.arch.items[n]? with
  | some d => pure d
  | none =>
    if n = st.arch.items.length then do
      let d ← loadBody
      pushItem d
      pure d
    else fun _ => none) st

/-- `TracePoint::serialize` (TracePoint.hpp:449-455). -/
def loadPoint : Load Point := loadObject .tracePoint (do
  let c ← loadNat (2 ^ 64 - 1)
  let s ← loadNat (2 ^ 64 - 1)
  let d ← loadObject .flyweight loadShared
  pure ⟨BitVec.ofNat 64 c, BitVec.ofNat 64 s, d.sizes, d.vars, d.aux⟩)

/-- `Trace::load` (Trace.hpp:384-414).  Simplification: memory suffices. -/
def loadTrace : Load Trace := loadObject .trace (do
  let np ← loadNat (2 ^ 64 - 1)
  let nn ← loadNat (2 ^ 32 - 1)
  let nt ← loadNat (2 ^ 32 - 1)
  let ps ← loadList loadPoint np
  let ns ← loadList loadStr nn
  let ts ← loadList loadType nt
  pure ⟨ns, ts, ps⟩)

/-- `TraceDB::load` (TraceDB.hpp:83-96). -/
def loadTraces : Load (List Trace) := loadObject .traceDB (do
  let n ← loadNat (2 ^ 64 - 1)
  loadList loadTrace n)

/-- The header of an archive: the signature must be right.  For cffi-interface/trace-db.cpp:159-183. -/
def loadHeader : Load Unit := do
  let s ← loadStr
  let _ ← loadNat (2 ^ 32 - 1)
  if s = archiveSignature then pure () else fun _ => none

/-- `deserialize_trace_db` (trace-db.cpp:173-183): `std::string(text)` ends at the
first NUL.  `none`: an exception of the archive leaves the function.  The new
database has traces in a vector of exactly the needed size, and empty caches. -/
def deserializeDb (text : List U8) : Option Db := do
  let (ts, _) ← (do loadHeader; loadTraces : Load (List Trace)) ⟨cStr text, .init⟩
  pure ⟨ts, ts.map fun _ => [], ts.length, 0⟩

end TraceDB
