import Verif.Model.Types
/-
The binary trace reader.
-/
namespace TraceDB

/-- The operations of `class MemoryMap` that the reader uses.  The code has one
implementation, `MapImpl.skipList`; the proofs also run the reader on a plain
list of records.  For cffi-interface/trace-db/MemoryMap.hpp:43-130. -/
structure MapImpl where
  M : Type
  empty : M
  update : M → BufferSize → Res M
  lookup : M → U64 → Res U64

/-- The skip list of the code, with tower heights drawn from `coin`.  For cffi-interface/trace-db/MemoryMap.hpp:43-130. -/
def MapImpl.skipList (coin : Nat → Nat → Bool) : MapImpl where
  M := MemMap
  empty := MemMap.construct
  update := MemMap.updateMemoryMap coin
  lookup := MemMap.computeBufferSize

/-- `TypeDescription::read(std::istream &)` (TypeDescription.hpp:49-63).  The
fields are initialised before the reads, so bytes missing at the end of the
stream keep the initial values (`INVALID_FORMAT` is 5). Simplification: storing
an out-of-range value in the enum object is not treated as undefined. -/
def readType (s : IStream) : Res (TypeDesc × IStream) := do
  let (nameIndex, s) ← readUInt s 4 0
  let (format, s) ← readUInt s 4 5
  let (size, s) ← readUInt s 4 0
  if format ≥ 5 then .throw .trace
  else pure (⟨BitVec.ofNat 32 nameIndex, TypeFormat.ofCode format, BitVec.ofNat 32 size⟩, s)

/-- `TraceBufferSize::read` (TraceBufferSize.hpp:34-42). -/
def readBufferSize (s : IStream) : Res (BufferSize × IStream) := do
  let (address, s) ← readUInt s 8 0
  let (size, s) ← readUInt s 8 0
  pure (⟨BitVec.ofNat 64 address, BitVec.ofNat 64 size⟩, s)

/-- Reading a signed value of `n` bytes (TraceVarInfo.hpp:113-147): the bytes go
into an uninitialised `intN_t tmp`, whose value is then converted to `int64_t`. -/
def readSigned (env : Env) (s : IStream) (n : Nat) : Res (U64 × IStream) := do
  let (got, s) ← binaryRead s n
  let bytes ← env.fillUninit n got
  pure ((BitVec.ofNat (8 * n) (leNat bytes)).signExtend 64, s)

/-- `BINARY_READ(is, &m_value.u, m_size)` with `m_value.u == 0`
(TraceVarInfo.hpp:152, 157): storing more than 8 bytes overruns the union. -/
def readWord (s : IStream) (n : Nat) : Res (U64 × IStream) := do
  let (got, s) ← binaryRead s n
  if got.length > 8 then .ub .oobWrite
  else pure (BitVec.ofNat 64 (leNat got), s)

/-- The blob case (TraceVarInfo.hpp:172-173): `malloc` is unchecked.  The bytes
that a short read leaves uninitialised are used when the variable is interned
(hash_value, TraceVarInfo.hpp:437-467), which happens right after the read
(TracePoint.hpp:288). -/
def readBlob (env : Env) (s : IStream) (n : Nat) : Res (List U8 × IStream) := do
  let (got, s) ← binaryRead s n
  if n > 0 ∧ ¬ env.canAlloc n then .ub .nullDeref
  else do
    let bytes ← env.fillUninit n got
    pure (bytes, s)

/-- `TraceVarInfo::read` (TraceVarInfo.hpp:85-185). -/
def readVarInfo (I : MapImpl) (env : Env) (names : List Name) (types : List TypeDesc) (map : I.M)
    (s : IStream) : Res (VarInfo × IStream) := do
  let (nameIndex, s) ← readUInt s 4 0
  let (typeIndex, s) ← readUInt s 4 0
  match types[typeIndex]? with
  | none => .throw .trace
  | some type =>
    if nameIndex ≥ names.length then .throw .trace
    else
      let mk (value : VarValue) (size : U32) (bufferSize : U64) (has : Bool) : VarInfo :=
        ⟨value, BitVec.ofNat 32 nameIndex, BitVec.ofNat 32 typeIndex, type.format, size,
          bufferSize, has⟩
      match type.format with
      | .signed =>
        if type.size = 1 ∨ type.size = 2 ∨ type.size = 4 ∨ type.size = 8 then do
          let (v, s) ← readSigned env s type.size.toNat
          pure (mk (.word v) type.size 0 false, s)
        else .throw .trace
      | .unsigned => do
        let (v, s) ← readWord s type.size.toNat
        pure (mk (.word v) type.size 0 false, s)
      | .float => do
        let (v, s) ← readWord s type.size.toNat
        pure (mk (.word v) type.size 0 false, s)
      | .pointer => do
        let (v, s) ← readWord s type.size.toNat
        let b ← I.lookup map v
        if b ≠ u64Max then pure (mk (.word v) type.size b true, s)
        else pure (mk (.word v) type.size 0 false, s)
      | .blob => do
        let (size, s) ←
          if type.size = 0 then readUInt s 4 0 else pure (type.size.toNat, s)
        let (bytes, s) ← readBlob env s size
        pure (mk (.blob bytes) (BitVec.ofNat 32 size) 0 false, s)
      | .invalid => .throw .trace

/-- The local variables of `TracePoint::read` (TracePoint.hpp:257-259) and the
member `m_statement`, which stays uninitialised (`none`) until a statement entry
is read. -/
structure PointAcc where
  statement : Option U64
  sizes : List BufferSize
  vars : List VarInfo
  aux : List U64
  deriving DecidableEq, Repr

/-- Start of a point.  For cffi-interface/trace-db/TracePoint.hpp:252-311. -/
def PointAcc.empty : PointAcc := ⟨none, [], [], []⟩

/-- The loop of `TracePoint::read` (TracePoint.hpp:263-302).  Each round reads a
tag byte (initially `INVALID_TAG`, so that a failed read is not mistaken for an
end marker).  `char` is signed: bytes from 0x80 on fail the `>=` test but end in
the `default` case, with the same exception.
Simplifications: a short read of a statement id leaves the old id (in the code
some bytes of it change) and a short read of an auxiliary value starts from 0
(in the code from the previous contents of a static variable); in both cases the
next tag read throws, so the difference cannot be observed by one thread. -/
def readEntries (I : MapImpl) (env : Env) (names : List Name) (types : List TypeDesc) :
    Nat → IStream → I.M → PointAcc → Res (IStream × I.M × PointAcc)
  | 0, _, _, _ => .hang
  | fuel + 1, s, map, acc => do
    let (c, s) ← readUInt s 1 5
    if !s.isGood || c == 0 then pure (s, map, acc)
    else match c with
      | 1 => do
        let (got, s) ← binaryRead s 8
        let acc := if got.length = 8 then
            { acc with statement := some (BitVec.ofNat 64 (leNat got)) }
          else acc
        readEntries I env names types fuel s map acc
      | 2 => do
        let (info, s) ← readVarInfo I env names types map s
        readEntries I env names types fuel s map { acc with vars := acc.vars ++ [info] }
      | 3 => do
        let (size, s) ← readBufferSize s
        let map ← I.update map size
        readEntries I env names types fuel s map { acc with sizes := acc.sizes ++ [size] }
      | 4 => do
        let (value, s) ← readUInt s 8 0
        readEntries I env names types fuel s map
          { acc with aux := acc.aux ++ [BitVec.ofNat 64 value] }
      | _ => .throw .trace

/-- Number of rounds after which `readEntries` must have stopped.  For cffi-interface/trace-db/TracePoint.hpp:252-311. -/
def entryFuel (s : IStream) : Nat := s.rest.length + 2

/-- The value of `m_statement` when a finished point is copied into the vector
(TracePoint.hpp:361-365): using it uninitialised is undefined. -/
def finishStatement (env : Env) : Option U64 → Res U64
  | some v => .ok v
  | none =>
    match env.junk with
    | none => .ub .uninit
    | some f => .ok (BitVec.ofNat 64 (leNat ((List.range 8).map f)))

/-- The point loop of `Trace::read` (Trace.hpp:85-91).  `i` is the loop
counter. -/
def readPoints (I : MapImpl) (env : Env) (names : List Name) (types : List TypeDesc)
    (maxPoints : U64) : Nat → Nat → IStream → I.M → List Point → Res (List Point)
  | 0, _, _, _, _ => .hang
  | fuel + 1, i, s, map, acc =>
    if s.isGood && (i < maxPoints.toNat || maxPoints == 0) then do
      let (s, map, p) ← readEntries I env names types (entryFuel s) s map .empty
      if s.isGood then do
        let statement ← finishStatement env p.statement
        let point : Point := ⟨BitVec.ofNat 64 i, statement, p.sizes, p.vars, p.aux⟩
        readPoints I env names types maxPoints fuel (i + 1) s map (acc ++ [point])
      else readPoints I env names types maxPoints fuel (i + 1) s map acc
    else pure acc

/-- The name at the start of a buffer and what follows its terminator; `none`
when there is no terminator.  For cffi-interface/trace-db/Trace.hpp:51-98. -/
def splitName : List U8 → Option (Name × List U8)
  | [] => none
  | b :: bs =>
    if b = 0 then some ([], bs)
    else match splitName bs with
      | some (nm, rest) => some (b :: nm, rest)
      | none => none

/-- The loop over the name buffer (Trace.hpp:64-70): it runs off the end of the
buffer when the last name is not terminated. -/
def readNames : Nat → List U8 → Res (List Name)
  | 0, _ => .hang
  | fuel + 1, buf =>
    match splitName buf with
    | none => .ub .oobRead
    | some (nm, rest) =>
      if rest = [] then .ok [nm]
      else do
        let nms ← readNames fuel rest
        pure (nm :: nms)

/-- An allocation of `n` bytes with `new`: more than `PTRDIFF_MAX` bytes are
always refused.  For cffi-interface/trace-db/Trace.hpp:51-98. -/
def Env.canNew (env : Env) (n : Nat) : Bool := n < 2 ^ 63 && env.canAlloc n

/-- The type loop (Trace.hpp:79-82). -/
def readTypes : Nat → IStream → Res (List TypeDesc × IStream)
  | 0, s => .ok ([], s)
  | n + 1, s => do
    let (t, s) ← readType s
    let (ts, s) ← readTypes n s
    pure (t :: ts, s)

/-- The name table part of `Trace::read` (Trace.hpp:58-73). -/
def readNameTable (env : Env) (s : IStream) : Res (List Name × IStream) := do
  let (nChars, s) ← readUInt s 8 0
  if nChars > 0 then
    if !env.canNew nChars then .throw .alloc
    else do
      let (got, s) ← binaryRead s nChars
      let buf ← env.fillUninit nChars got
      let names ← readNames (buf.length + 1) buf
      pure (names, s)
  else pure ([], s)

/-- The type table part of `Trace::read` (Trace.hpp:75-82).  A
`TypeDescription` takes 12 bytes; reserving nothing allocates nothing. -/
def readTypeTable (env : Env) (s : IStream) : Res (List TypeDesc × IStream) := do
  let (nTypes, s) ← readUInt s 4 0
  if nTypes > 0 && !env.canNew (12 * nTypes) then .throw .alloc
  else readTypes nTypes s

/-- `Trace::read` (Trace.hpp:51-98).  Growing the vectors of names, types and
points is assumed to succeed. -/
def readTraceWith (I : MapImpl) (env : Env) (maxPoints : U64) (s : IStream) : Res Trace := do
  let (names, s) ← readNameTable env s
  let (types, s) ← readTypeTable env s
  let points ← readPoints I env names types maxPoints (s.rest.length + 3) 0 s I.empty []
  pure ⟨names, types, points⟩

/-- `Trace::Trace(std::istream &, uint64_t)` (Trace.hpp:264-266). -/
def readTrace (env : Env) (maxPoints : U64) (s : IStream) : Res Trace :=
  readTraceWith (MapImpl.skipList env.coin) env maxPoints s

/-- Reading a trace from a sequence of bytes.  For cffi-interface/trace-db/Trace.hpp:51-98. -/
def readTraceBytes (env : Env) (maxPoints : U64) (bytes : List U8) : Res Trace :=
  readTrace env maxPoints (IStream.ofBytes bytes)

end TraceDB
