import Verif.Model.Database
/-
Memory while a trace is read and added to a database (cffi-interface/trace-db.cpp:28-52,
Trace.hpp:51-98, 264-274, TracePoint.hpp:252-311, TraceVarInfo.hpp:85-185,
MemoryMap.hpp:64-130): any allocation may be refused.

Memory of containers and other objects with destructors is freed with them and is not
counted.  Blocks that the code has to free itself are listed until they are freed or
belong to an object whose destructor frees them.
-/
namespace TraceDB

/-- Blocks without an owner.  For cffi-interface/trace-db.cpp:28-52 and cffi-interface/trace-db/Trace.hpp:51-98. -/
inductive TmKind where
  /-- the buffer of names (Trace.hpp:61) -/
  | nameBuf
  /-- the bytes of a blob (TraceVarInfo.hpp:175) -/
  | blob (size : Nat)
  /-- a node that is not in a skip list yet (MemoryMap.hpp:76) -/
  | node
  /-- the buffer of a file (Utils.hpp:81) -/
  | fileBuf
  /-- the stream (trace-db.cpp:40) -/
  | stream
  deriving DecidableEq, Repr

/-- The number of allocations so far, the map of the trace being read with its nodes, and
the blocks without an owner, each with the number of its allocation.
For cffi-interface/trace-db.cpp:28-52 and cffi-interface/trace-db/Trace.hpp:51-98. -/
structure TmMem where
  count : Nat
  map : MemMap
  loose : List (Nat × TmKind)

/-- Code that allocates; the memory is kept when an exception is thrown.
For cffi-interface/trace-db.cpp:28-52 and cffi-interface/trace-db/Trace.hpp:51-98. -/
def TmM (α : Type) : Type := TmMem → Res α × TmMem

namespace TmM

/-- Sequencing. -/
protected def bind {α β : Type} (x : TmM α) (f : α → TmM β) : TmM β := fun m =>
  match x m with
  | (.ok a, m) => f a m
  | (.throw e, m) => (.throw e, m)
  | (.abort, m) => (.abort, m)
  | (.ub k, m) => (.ub k, m)
  | (.hang, m) => (.hang, m)

instance : Monad TmM where
  pure a := fun m => (.ok a, m)
  bind := TmM.bind

/-- Code that does not allocate.  For cffi-interface/trace-db.cpp:28-52 and cffi-interface/trace-db/Trace.hpp:51-98. -/
def lift {α : Type} (r : Res α) : TmM α := fun m => (r, m)

/-- An allocation for a container or another object that frees it.  `refuse k`: allocation
number `k` is refused.  For cffi-interface/trace-db.cpp:28-52 and cffi-interface/trace-db/Trace.hpp:51-98. -/
def own (refuse : Nat → Bool) : TmM Unit := fun m =>
  (if refuse m.count then .throw .alloc else .ok (), { m with count := m.count + 1 })

/-- `new`; `can` says whether the size is acceptable.
For cffi-interface/trace-db.cpp:28-52 and cffi-interface/trace-db/Trace.hpp:51-98. -/
def new (refuse : Nat → Bool) (can : Bool) (k : TmKind) : TmM Nat := fun m =>
  if can && !refuse m.count then (.ok m.count, { m with count := m.count + 1, loose := m.loose ++ [(m.count, k)] })
  else (.throw .alloc, { m with count := m.count + 1 })

/-- `malloc`; `none` is the null pointer.  For cffi-interface/trace-db.cpp:28-52 and cffi-interface/trace-db/Trace.hpp:51-98. -/
def malloc (refuse : Nat → Bool) (can : Bool) (k : TmKind) : TmM (Option Nat) := fun m =>
  if can && !refuse m.count then
    (.ok (some m.count), { m with count := m.count + 1, loose := m.loose ++ [(m.count, k)] })
  else (.ok none, { m with count := m.count + 1 })

/-- `delete`, or the block gets an owner.  For cffi-interface/trace-db.cpp:28-52 and cffi-interface/trace-db/Trace.hpp:51-98. -/
def release (b : Nat) : TmM Unit := fun m =>
  if m.loose.any (·.1 == b) then (.ok (), { m with loose := m.loose.filter (·.1 != b) }) else (.ub .badFree, m)

/-- The end of a block with local objects: the destructor runs after a normal return and
after an exception.  For cffi-interface/trace-db.cpp:28-52 and cffi-interface/trace-db/Trace.hpp:51-98. -/
def finally' {α : Type} (body : TmM α) (cleanup : TmM Unit) : TmM α := fun m =>
  match body m with
  | (.ok a, m) => TmM.bind cleanup (fun _ => lift (.ok a)) m
  | (.throw e, m) => TmM.bind cleanup (fun _ => lift (.throw e)) m
  | r => r

/-- `try { body } catch (std::exception &) { handler }`.
For cffi-interface/trace-db.cpp:28-52 and cffi-interface/trace-db/Trace.hpp:51-98. -/
def catching {α : Type} (body handler : TmM α) : TmM α := fun m =>
  match body m with
  | (.throw _, m) => handler m
  | r => r

/-- The constructor of the map (MemoryMap.hpp:112-119, 132-134). -/
def newMap (refuse : Nat → Bool) : TmM Unit := TmM.bind (own refuse) fun _ m => (.ok (), { m with map := MemMap.construct })

/-- Looking up a buffer size (MemoryMap.hpp:160-173). -/
def lookup (a : U64) : TmM U64 := fun m => (m.map.computeBufferSize a, m)

/-- `updateMemoryMap` (MemoryMap.hpp:64-93, 150-156): a new node takes two allocations
before it is linked.
Simplifications: the links are computed first; the height stays if an allocation fails
(it does not matter to the destructor). -/
def updateMap (env : Env) (refuse : Nat → Bool) (r : BufferSize) : TmM Unit := fun m =>
  match MemMap.updateMemoryMap env.coin m.map r with
  | .ok map =>
    if map.fresh = m.map.fresh then (.ok (), { m with map := map })
    else
      TmM.bind (new refuse true .node) (fun node => TmM.bind (own refuse) fun _ => TmM.bind (release node) fun _ m =>
        (.ok (), { m with map := map })) m
  | .throw e => (.throw e, m)
  | .abort => (.abort, m)
  | .ub k => (.ub k, m)
  | .hang => (.hang, m)

/-- The destructor of the map (MemoryMap.hpp:121-130, 136-138). -/
def destroyMap : TmM Unit := fun m =>
  match m.map.destruct with
  | .ok map => (.ok (), { m with map := map })
  | .throw e => (.throw e, m)
  | .abort => (.abort, m)
  | .ub k => (.ub k, m)
  | .hang => (.hang, m)

end TmM

/-- The loop over the name buffer (Trace.hpp:64-70); see `readNames`. -/
def tmNames (refuse : Nat → Bool) : Nat → List U8 → TmM (List Name)
  | 0, _ => TmM.lift .hang
  | fuel + 1, buf =>
    match splitName buf with
    | none => TmM.lift (.ub .oobRead)
    | some (nm, rest) => do
      TmM.own refuse
      if rest = [] then pure [nm]
      else do
        let nms ← tmNames refuse fuel rest
        pure (nm :: nms)

/-- The name table (Trace.hpp:58-73): `buf` is not freed when an exception is thrown. -/
def tmNameTable (env : Env) (refuse : Nat → Bool) (s : IStream) : TmM (List Name × IStream) := do
  let (nChars, s) ← TmM.lift (readUInt s 8 0)
  if nChars > 0 then do
    let buf ← TmM.new refuse (env.canNew nChars) .nameBuf
    let (got, s) ← TmM.lift (binaryRead s nChars)
    let bytes ← TmM.lift (env.fillUninit nChars got)
    let names ← tmNames refuse (bytes.length + 1) bytes
    TmM.release buf
    pure (names, s)
  else pure ([], s)

/-- The type table (Trace.hpp:75-82): memory is reserved at once. -/
def tmTypeTable (env : Env) (refuse : Nat → Bool) (s : IStream) : TmM (List TypeDesc × IStream) := do
  let (nTypes, s) ← TmM.lift (readUInt s 4 0)
  if nTypes > 0 then do
    if env.canNew (12 * nTypes) then TmM.own refuse else TmM.lift (.throw .alloc)
    TmM.lift (readTypes nTypes s)
  else TmM.lift (readTypes nTypes s)

/-- `TraceVarInfo::read` (TraceVarInfo.hpp:85-185); see `readVarInfo`.  Nothing frees the
bytes of a blob.  Simplification: `malloc(0)` takes no memory. -/
def tmVarInfo (env : Env) (refuse : Nat → Bool) (names : List Name) (types : List TypeDesc) (s : IStream) :
    TmM (VarInfo × IStream) := do
  let (nameIndex, s) ← TmM.lift (readUInt s 4 0)
  let (typeIndex, s) ← TmM.lift (readUInt s 4 0)
  match types[typeIndex]? with
  | none => TmM.lift (.throw .trace)
  | some type =>
    if nameIndex ≥ names.length then TmM.lift (.throw .trace)
    else
      let mk (value : VarValue) (size : U32) (bufferSize : U64) (has : Bool) : VarInfo :=
        ⟨value, BitVec.ofNat 32 nameIndex, BitVec.ofNat 32 typeIndex, type.format, size, bufferSize, has⟩
      match type.format with
      | .signed =>
        if type.size = 1 ∨ type.size = 2 ∨ type.size = 4 ∨ type.size = 8 then do
          let (v, s) ← TmM.lift (readSigned env s type.size.toNat)
          pure (mk (.word v) type.size 0 false, s)
        else TmM.lift (.throw .trace)
      | .unsigned => do
        let (v, s) ← TmM.lift (readWord s type.size.toNat)
        pure (mk (.word v) type.size 0 false, s)
      | .float => do
        let (v, s) ← TmM.lift (readWord s type.size.toNat)
        pure (mk (.word v) type.size 0 false, s)
      | .pointer => do
        let (v, s) ← TmM.lift (readWord s type.size.toNat)
        let b ← TmM.lookup v
        if b ≠ u64Max then pure (mk (.word v) type.size b true, s)
        else pure (mk (.word v) type.size 0 false, s)
      | .blob => do
        let (size, s) ← if type.size = 0 then TmM.lift (readUInt s 4 0) else pure (type.size.toNat, s)
        let p ← if size = 0 then pure none else TmM.malloc refuse (env.canAlloc size) (.blob size)
        let (got, s) ← TmM.lift (binaryRead s size)
        if size > 0 ∧ p = none then TmM.lift (.ub .nullDeref)
        else do
          let bytes ← TmM.lift (env.fillUninit size got)
          pure (mk (.blob bytes) (BitVec.ofNat 32 size) 0 false, s)
      | .invalid => TmM.lift (.throw .trace)

/-- The loop of `TracePoint::read` (TracePoint.hpp:263-302); see `readEntries`.  Growing the
vectors and sharing the variable may be refused. -/
def tmEntries (env : Env) (refuse : Nat → Bool) (names : List Name) (types : List TypeDesc) :
    Nat → IStream → PointAcc → TmM (IStream × PointAcc)
  | 0, _, _ => TmM.lift .hang
  | fuel + 1, s, acc => do
    let (c, s) ← TmM.lift (readUInt s 1 5)
    if !s.isGood || c == 0 then pure (s, acc)
    else match c with
      | 1 => do
        let (got, s) ← TmM.lift (binaryRead s 8)
        let acc := if got.length = 8 then { acc with statement := some (BitVec.ofNat 64 (leNat got)) } else acc
        tmEntries env refuse names types fuel s acc
      | 2 => do
        let (info, s) ← tmVarInfo env refuse names types s
        TmM.own refuse
        tmEntries env refuse names types fuel s { acc with vars := acc.vars ++ [info] }
      | 3 => do
        let (size, s) ← TmM.lift (readBufferSize s)
        TmM.updateMap env refuse size
        TmM.own refuse
        tmEntries env refuse names types fuel s { acc with sizes := acc.sizes ++ [size] }
      | 4 => do
        let (value, s) ← TmM.lift (readUInt s 8 0)
        TmM.own refuse
        tmEntries env refuse names types fuel s { acc with aux := acc.aux ++ [BitVec.ofNat 64 value] }
      | _ => TmM.lift (.throw .trace)

/-- The point loop (Trace.hpp:85-91); see `readPoints`.  Sharing the data of a point
(TracePoint.hpp:308) and growing the vector may be refused. -/
def tmPoints (env : Env) (refuse : Nat → Bool) (names : List Name) (types : List TypeDesc) (maxPoints : U64) :
    Nat → Nat → IStream → List Point → TmM (List Point)
  | 0, _, _, _ => TmM.lift .hang
  | fuel + 1, i, s, acc =>
    if s.isGood && (i < maxPoints.toNat || maxPoints == 0) then do
      let (s, p) ← tmEntries env refuse names types (entryFuel s) s .empty
      TmM.own refuse
      if s.isGood then do
        let statement ← TmM.lift (finishStatement env p.statement)
        let point : Point := ⟨BitVec.ofNat 64 i, statement, p.sizes, p.vars, p.aux⟩
        TmM.own refuse
        tmPoints env refuse names types maxPoints fuel (i + 1) s (acc ++ [point])
      else tmPoints env refuse names types maxPoints fuel (i + 1) s acc
    else pure acc

/-- `Trace::read` (Trace.hpp:51-98); see `readTraceWith`. -/
def tmTrace (env : Env) (refuse : Nat → Bool) (maxPoints : U64) (s : IStream) : TmM Trace := do
  let (names, s) ← tmNameTable env refuse s
  let (types, s) ← tmTypeTable env refuse s
  let points ← tmPoints env refuse names types maxPoints (s.rest.length + 3) 0 s []
  pure ⟨names, types, points⟩

/-- `add_trace` after the stream is made (trace-db.cpp:36-51).  The local trace is destroyed
on all paths.  `push_back` copies: if that is refused, the vector is as it was
(TraceDB.hpp:46-52). -/
def tmAddStream (grow : Nat → Nat) (env : Env) (refuse : Nat → Bool) (db : Db) (s : IStream) (maxPoints : U64)
    (fileBuf stream : Nat) : TmM (Nat × Db) :=
  TmM.catching (do
    TmM.newMap refuse
    let db' ← TmM.finally' (do
      let t ← tmTrace env refuse maxPoints s
      TmM.own refuse
      pure (db.addTrace grow t)) TmM.destroyMap
    TmM.release fileBuf
    TmM.release stream
    pure (1, db')) (do
    TmM.release fileBuf
    TmM.release stream
    pure (0, db))

/-- `add_trace` (trace-db.cpp:28-52).
Simplification: what is refused in `openWithTimeout` is refused before the file is open. -/
def tmAddTrace (grow : Nat → Nat) (env : Env) (refuse : Nat → Bool) (db : Db) (src : Source) (maxPoints : U64) :
    TmM (Nat × Db) :=
  match src with
  | none => pure (0, db)
  | some s =>
    TmM.catching (do
      let fileBuf ← TmM.new refuse true .fileBuf
      TmM.catching (do
        let stream ← TmM.new refuse true .stream
        tmAddStream grow env refuse db s maxPoints fileBuf stream) (do
        TmM.release fileBuf
        pure (0, db))) (pure (0, db))

/-- Making a database, adding traces to it, freeing it (trace-db.cpp:23-52, 185-189), over and
over.  All that the database and its traces own is freed with them. -/
def tmCycles (grow : Nat → Nat) (env : Env) (refuse : Nat → Bool) (src : Source) (maxPoints : U64) : Nat → TmM Unit
  | 0 => pure ()
  | n + 1 => do
    let _ ← tmAddTrace grow env refuse Db.create src maxPoints
    tmCycles grow env refuse src maxPoints n

end TraceDB
