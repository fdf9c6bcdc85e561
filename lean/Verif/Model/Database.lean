import Verif.Model.Reader
import Verif.Model.Query
import Verif.Model.Export
/-
The database and its C interface (cffi-interface/trace-db/TraceDB.hpp,
cffi-interface/trace-db.cpp).
-/
namespace TraceDB

/-- A variable of a `c_trace_point_struct` given to `add_trace_points`; only the
members that are used.  Simplification: `has_buffer_size` is a truth value.  For cffi-interface/trace.h:24-32. -/
structure InVar where
  value : U64
  nameIndex : U32
  typeNameIndex : U32
  bufferSize : U64
  hasBufferSize : Bool
  deriving DecidableEq, Repr

/-- A `c_trace_point_struct` given to `add_trace_points`, with its arrays.  For cffi-interface/trace.h:34-40. -/
structure InPoint where
  statement : U64
  vars : List InVar
  aux : List U64
  deriving DecidableEq, Repr

/-- The map `type_formats` (trace-db.cpp:69): keys in ascending order. -/
abbrev FormatMap := List (U32 × TypeFormat)

/-- `type_formats[k] = f` on a `std::map`.  For cffi-interface/trace-db.cpp:69-74. -/
def FormatMap.assign (k : U32) (f : TypeFormat) : FormatMap → FormatMap
  | [] => [(k, f)]
  | (k', f') :: m =>
    if k.toNat < k'.toNat then (k, f) :: (k', f') :: m
    else if k = k' then (k, f) :: m
    else (k', f') :: FormatMap.assign k f m

/-- One step of the first loop (trace-db.cpp:78-85). -/
def noteFormat (m : FormatMap) (v : InVar) : FormatMap :=
  if v.value.toInt < 0 then m.assign v.typeNameIndex .signed
  else if m.any (·.1 == v.typeNameIndex) then m
  else m.assign v.typeNameIndex .unsigned

/-- The first loop (trace-db.cpp:76-87). -/
def noteFormats (points : List InPoint) : FormatMap :=
  points.foldl (fun m p => p.vars.foldl noteFormat m) []

/-- The types (trace-db.cpp:89-93). -/
def typesOf (m : FormatMap) : List TypeDesc := m.map fun kf => ⟨kf.1, kf.2, 8⟩

/-- `std::distance(begin, find_if(...))` (trace-db.cpp:104-114). -/
def typeIndexOf (types : List TypeDesc) (n : U32) : Nat := types.findIdx (·.nameIndex == n)

/-- One variable (trace-db.cpp:116-123): `types[type_index]` is unchecked. -/
def inVar (types : List TypeDesc) (v : InVar) : Res VarInfo :=
  let ti := typeIndexOf types v.typeNameIndex
  match types[ti]? with
  | none => .ub .oobRead
  | some ty => .ok ⟨.word v.value, v.nameIndex, BitVec.ofNat 32 ti, ty.format, ty.size, v.bufferSize, v.hasBufferSize⟩

/-- All variables of a point (trace-db.cpp:103-125). -/
def inVars (types : List TypeDesc) : List InVar → Res (List VarInfo)
  | [] => .ok []
  | v :: vs => do
    let x ← inVar types v
    let xs ← inVars types vs
    pure (x :: xs)

/-- One point (trace-db.cpp:95-135): `aux[j] = ...` assigns to an element of an
*empty* vector. -/
def inPoint (types : List TypeDesc) (i : Nat) (p : InPoint) : Res Point :=
  if p.aux.isEmpty then do
    let vs ← inVars types p.vars
    pure ⟨BitVec.ofNat 64 i, p.statement, [], vs, []⟩
  else .ub .oobWrite

/-- The second loop (trace-db.cpp:95-135). -/
def inPoints (types : List TypeDesc) : Nat → List InPoint → Res (List Point)
  | _, [] => .ok []
  | i, p :: ps => do
    let x ← inPoint types i p
    let xs ← inPoints types (i + 1) ps
    pure (x :: xs)

/-- The trace built by `add_trace_points` (trace-db.cpp:65-141). -/
def traceOfPoints (points : List InPoint) (names : List Name) : Res Trace := do
  let types := typesOf (noteFormats points)
  let ps ← inPoints types 0 points
  pure ⟨names, types, ps⟩

/-- `class TraceDB` (TraceDB.hpp:20-27): the vector of traces, with the cache
`m_getpoints_cache` of each (Trace.hpp:45).  `gen` counts the reallocations of the
vector and `cap` is its capacity; they matter for pointers into it and for the
caches. -/
structure Db where
  traces : List Trace
  caches : List PointsCache
  cap : Nat
  gen : Nat
  deriving DecidableEq, Repr

/-- `create_db` (trace-db.cpp:23-26). -/
def Db.create : Db := ⟨[], [], 0, 0⟩

/-- `TraceDB::addTrace` (TraceDB.hpp:46-52): `push_back` copies the trace; when the
capacity is used up it copies all traces to a new place, and copies start with an
empty cache (Trace.hpp:268-274).  `grow` is the growth policy of the library. -/
def Db.addTrace (grow : Nat → Nat) (db : Db) (t : Trace) : Db :=
  if db.traces.length < db.cap then
    { db with traces := db.traces ++ [t], caches := db.caches ++ [[]] }
  else
    { traces := db.traces ++ [t]
      caches := (db.traces ++ [t]).map fun _ => []
      cap := max (grow db.cap) (db.traces.length + 1)
      gen := db.gen + 1 }

/-- What `add_trace` gets from the operating system: nothing when opening the file
ends in an exception (Utils.hpp:83-87), or a stream. -/
abbrev Source := Option IStream

/-- `add_trace` (trace-db.cpp:28-52): exceptions become 0.  Undefined behaviour,
aborts and endless loops of the reader stay what they are.
Simplification: copying the trace into the database succeeds. -/
def addTraceApi (grow : Nat → Nat) (env : Env) (db : Db) (src : Source) (maxPoints : U64) : Res (Nat × Db) :=
  match src with
  | none => .ok (0, db)
  | some s =>
    match readTrace env maxPoints s with
    | .ok t => .ok (1, db.addTrace grow t)
    | .throw _ => .ok (0, db)
    | .abort => .abort
    | .ub k => .ub k
    | .hang => .hang

/-- `add_trace_points` (trace-db.cpp:54-144). -/
def addTracePointsApi (grow : Nat → Nat) (db : Db) (points : List InPoint) (names : List Name) :
    Res (Nat × Db) := do
  let t ← traceOfPoints points names
  pure (1, db.addTrace grow t)

/-- A pointer into the vector of traces: the vector's generation and the index.  For cffi-interface/trace-db.cpp:146-157. -/
structure TracePtr where
  gen : Nat
  index : Nat
  deriving DecidableEq, Repr

/-- `get_trace` (trace-db.cpp:146-151): the index is not checked. -/
def getTraceApi (db : Db) (index : U32) : Res TracePtr :=
  if index.toNat < db.traces.length then .ok ⟨db.gen, index.toNat⟩ else .ub .oobRead

/-- Using a pointer returned by `get_trace` (as `trace_size`, `get_points` and the
others of trace.cpp:30-78 do): after a reallocation of the vector it dangles. -/
def derefTrace (db : Db) (p : TracePtr) : Res Trace :=
  if p.gen = db.gen then
    match db.traces[p.index]? with
    | some t => .ok t
    | none => .ub .oobRead
  else .ub .dangling

/-- `n_traces` (trace-db.cpp:153-157): the size is truncated to 32 bits. -/
def nTracesApi (db : Db) : U32 := BitVec.ofNat 32 db.traces.length

/-- `query_trace` (trace-db.cpp:305-349) up to the export of the results; the index
is checked by an assertion (line 314). -/
def queryTraceApi {σ : Type} (env : Env) (pick : U32 → Nat → Nat) (ev : Evaluator σ) (db : Db)
    (index : U64) (q : Query) (keepDuplicates : Bool) (s : σ) : Res (List Point × Db × σ) :=
  match db.traces[index.toNat]?, db.caches[index.toNat]? with
  | some t, some c => do
    let (rs, c, s) ← queryTrace env pick ev t q keepDuplicates c s
    pure (rs, { db with caches := db.caches.set index.toNat c }, s)
  | _, _ => .abort

/-- Calls of the interface that involve the database.  For cffi-interface/trace-db.cpp:54-144. -/
inductive Call where
  | addTrace (src : Source) (maxPoints : U64)
  | addTracePoints (points : List InPoint) (names : List Name)
  | getTrace (index : U32)
  | nTraces
  | query (index : U64) (q : Query) (keepDuplicates : Bool)

/-- What a call returns.  For cffi-interface/trace-db.cpp:54-144. -/
inductive Answer where
  | int (n : Nat)
  | ptr (p : TracePtr)
  | points (ps : List Point)
  deriving DecidableEq

/-- What the library and the machine leave open: growth of vectors, memory and random
numbers.  For cffi-interface/trace-db.cpp:54-144. -/
structure World where
  grow : Nat → Nat
  env : Env
  pick : U32 → Nat → Nat

/-- Running one call.  For cffi-interface/trace-db.cpp:54-144. -/
def runCall {σ : Type} (w : World) (ev : Evaluator σ) (db : Db) (s : σ) : Call → Res (Answer × Db × σ)
  | .addTrace src k => do
    let (n, db) ← addTraceApi w.grow w.env db src k
    pure (.int n, db, s)
  | .addTracePoints ps names => do
    let (n, db) ← addTracePointsApi w.grow db ps names
    pure (.int n, db, s)
  | .getTrace i => do
    let p ← getTraceApi db i
    pure (.ptr p, db, s)
  | .nTraces => .ok (.int (nTracesApi db).toNat, db, s)
  | .query i q keep => do
    let (rs, db, s) ← queryTraceApi w.env w.pick ev db i q keep s
    pure (.points rs, db, s)

/-- Running a sequence of calls.  For cffi-interface/trace-db.cpp:54-144. -/
def runCalls {σ : Type} (w : World) (ev : Evaluator σ) : Db → σ → List Call → Res (List Answer × Db × σ)
  | db, s, [] => .ok ([], db, s)
  | db, s, c :: cs => do
    let (a, db, s) ← runCall w ev db s c
    let (as, db, s) ← runCalls w ev db s cs
    pure (a :: as, db, s)

end TraceDB
