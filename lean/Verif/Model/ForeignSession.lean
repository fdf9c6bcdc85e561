import Verif.Model.ForeignQuery
import Verif.Model.ForeignAdd
/-
A Lisp process that uses one binary database for a while, byte by byte
(binary-trace-db.lisp:250-386, 524-613 and the functions they call).

Memory is the one of `ForeignBytes`: Lisp, the C interface, the database and everything else
in the process share it.  The traces of the database keep their names and blobs in blocks of
their own; the pointers that C hands to Lisp point there.
-/
namespace TraceDB

/-- What the operations depend on.  For binary-trace-db.lisp:250-386, 524-613. -/
structure FsWorld (σ : Type) where
  pl : Placing
  grow : Nat → Nat
  env : Env
  pick : U32 → Nat → Nat
  ev : Evaluator σ
  version : Nat
  /-- what opening a file within a time gives -/
  files : List U8 → Nat → Source
  /-- the address of the database -/
  db : U64

/-- What Lisp does, and what else happens in the process.  For binary-trace-db.lisp:250-386, 524-613. -/
inductive FsOp (μ : Type) where
  | addFile (path : List U8) (timeout maxPoints : Int) (m : μ)
  | addPoints (trace : List LPoint) (m : μ)
  | getTrace (i : Nat) (file : Option Nat)
  | traceTypes (i : Nat)
  | query (i : Nat) (q : FQuery)
  | store
  | restore (stored : List U8 × List μ)
  /-- anything: blocks are allocated, written and freed; the function is given the blocks of the
  database -/
  | other (f : List (Nat × Nat) → FState → FState)

/-- What Lisp gets.  For binary-trace-db.lisp:250-386, 524-613. -/
inductive FsAns (μ : Type) where
  | nothing
  | added (success : Bool)
  | points (l : List LPoint) (m : μ)
  | types (l : List (List U8))
  | results (l : List LPoint)
  | stored (x : List U8 × List μ)
  deriving DecidableEq

/-- The process: the database with its metadata, the state of the predicate cache, where the
traces keep their bytes and the blocks that belong to them, and memory.  For binary-trace-db.lisp:250-386, 524-613. -/
structure FsState (μ σ : Type) where
  d : LispDb μ
  s : σ
  places : List TraceAt
  owned : List (Nat × Nat)
  mem : FState

/-! Traces in memory -/

/-- Memory that a C++ object has for itself: `new` and a copy of the bytes.
For cffi-interface/trace-db/Trace.hpp:40-45 and TraceVarInfo.hpp:175. -/
def keepB (pl : Placing) (bs : List U8) (s : FState) : Res (Nat × FState) :=
  let (a, s) := s.alloc pl bs.length false
  if a = 0 then .throw .alloc else .ok (a, ⟨s.mem.put a bs, s.blocks⟩)

/-- One after the other.  For cffi-interface/trace-db/Trace.hpp:40-45 and TraceVarInfo.hpp:175. -/
def keepAllB (pl : Placing) : List (List U8) → FState → Res (List Nat × FState)
  | [], s => .ok ([], s)
  | bs :: bss, s => do
    let (a, s) ← keepB pl bs s
    let (as, s) ← keepAllB pl bss s
    pure (a :: as, s)

/-- The bytes of a blob.  For cffi-interface/trace-db/TraceVarInfo.hpp:175. -/
def VarInfo.blobBytes (v : VarInfo) : Option (List U8) :=
  match v.value with
  | .blob bs => some bs
  | .word _ => none

/-- The variables of a trace that have blobs.  For cffi-interface/trace-db/TraceVarInfo.hpp:175. -/
def Trace.blobVars (t : Trace) : List VarInfo := (t.points.flatMap (·.vars)).filter (·.blobBytes.isSome)

/-- The names (`std::string`, with a NUL at the end, Trace.hpp:40) and blobs (TraceVarInfo.hpp:175)
of a trace.
Simplification: each blob of a trace gets a block; if equal variables have been put more than
once, the first block is used. -/
def keepTraceB (pl : Placing) (t : Trace) (s : FState) : Res (TraceAt × FState) := do
  let (ns, s) ← keepAllB pl (t.names.map (· ++ [0])) s
  let (bs, s) ← keepAllB pl (t.blobVars.map fun v => v.blobBytes.getD []) s
  pure (⟨fun v => (bs[t.blobVars.idxOf v]?).getD 0, fun i => (ns[i]?).getD 0⟩, s)

/-- One after the other.  For binary-trace-db.lisp:250-386, 524-613. -/
def keepTracesB (pl : Placing) : List Trace → FState → Res (List TraceAt × FState)
  | [], s => .ok ([], s)
  | t :: ts, s => do
    let (p, s) ← keepTraceB pl t s
    let (ps, s) ← keepTracesB pl ts s
    pure (p :: ps, s)

/-- After an addition (TraceDB.hpp:46-52): new traces are put in memory; if the vector was
reallocated, its traces were copied to other places.
Simplification: with a trace its blobs are copied too (they are shared). -/
def settleB {μ σ : Type} (pl : Placing) (old : FsState μ σ) (d : LispDb μ) (mem : FState) : Res (FsState μ σ) :=
  if d.db.gen = old.d.db.gen then do
    let (ps, mem') ← keepTracesB pl (d.db.traces.drop old.d.db.traces.length) mem
    pure { old with d := d, places := old.places ++ ps, owned := old.owned ++ mem'.blocks.drop mem.blocks.length, mem := mem' }
  else do
    let (ps, mem') ← keepTracesB pl d.db.traces mem
    pure { old with d := d, places := ps, owned := mem'.blocks.drop mem.blocks.length, mem := mem' }

/-! Operations -/

/-- `add_trace` (trace-db.cpp:28-52) with the arguments it finds, and what Lisp does with the
result (binary-trace-db.lisp:299-303). -/
def addTraceC {μ σ : Type} (w : FsWorld σ) (d : LispDb μ) (m : μ) (params : List Int) (mem : BMem) : Res (LispDb μ) :=
  match params with
  | [_, file, timeout, maxPoints] => do
    let path ← readStringB mem file.toNat
    d.add w.grow w.env (.trace (w.files path timeout.toNat) (BitVec.ofNat 64 maxPoints.toNat) m)
  | _ => .ub .misuse

/-- A call of it from Lisp.  For binary-trace-db.lisp:250-386, 524-613. -/
def callAddTraceB {μ σ : Type} (w : FsWorld σ) (junk : List U64) (d : LispDb μ) (m : μ) (args : List Int) (mem : BMem) :
    Res (LispDb μ) :=
  match lispCall CFun.addTrace.imported.2 args junk with
  | none => .throw .lisp
  | some slots =>
    match cParams CFun.addTrace.declared.2 slots with
    | none => .ub .misuse
    | some params => addTraceC w d m params mem

/-- `add-trace` (binary-trace-db.lisp:285-303). -/
def addFileB {μ σ : Type} (w : FsWorld σ) (junk : List U64) (d : LispDb μ) (path : List U8) (timeout maxPoints : Int) (m : μ)
    (mem : FState) : Res (LispDb μ × FState) :=
  if timeout < 0 ∨ maxPoints < 0 then .throw .lisp
  else do
    let (a, mem) ← lispStringAllocB w.pl path mem
    let d ← callAddTraceB w junk d m [(w.db.toNat : Int), (a : Int), timeout, maxPoints] mem.mem
    pure (d, mem)

/-- `(c-get-trace (db-pointer db) index)` after the check of the index
(binary-trace-db.lisp:362-365, 375-378, 526-531; trace-db.cpp:146-151): the number of the trace
that C takes. -/
def callGetTraceB {μ σ : Type} (w : FsWorld σ) (junk : List U64) (d : LispDb μ) (i : Nat) : Res Nat :=
  if i < (nTracesApi d.db).toNat then
    match lispCall CFun.getTrace.imported.2 [(w.db.toNat : Int), (i : Int)] junk with
    | none => .throw .lisp
    | some slots =>
      match cParams CFun.getTrace.declared.2 slots with
      | some [_, j] => .ok j.toNat
      | _ => .ub .misuse
  else .throw .lisp

/-- The trace with a number, its place and its cache.  For binary-trace-db.lisp:250-386, 524-613. -/
def FsState.trace {μ σ : Type} (x : FsState μ σ) (j : Nat) : Res (Trace × TraceAt × PointsCache) :=
  match x.d.db.traces[j]?, x.places[j]?, x.d.db.caches[j]? with
  | some t, some p, some c => .ok (t, p, c)
  | _, _, _ => .ub .oobRead

/-- One operation; `junk` is what is in unused bytes of registers and of the stack.
For binary-trace-db.lisp:250-386, 524-613. -/
def byteStep {μ σ : Type} (w : FsWorld σ) (junk : List U64) (op : FsOp μ) (x : FsState μ σ) : Res (FsAns μ × FsState μ σ) :=
  match op with
  | .addFile path timeout maxPoints m => do
    let (d, mem) ← addFileB w junk x.d path timeout maxPoints m x.mem
    let y ← settleB w.pl x d mem
    pure (.added (x.d.db.traces.length < d.db.traces.length), y)
  | .addPoints trace m => do
    let (d, mem) ← x.d.addPointsB w.pl w.grow w.env w.db junk trace m x.mem
    let y ← settleB w.pl x d mem
    pure (.nothing, y)
  | .getTrace i file => do
    let j ← callGetTraceB w junk x.d i
    let (t, place, _) ← x.trace j
    let (l, mem) ← lispGetTraceB w.pl place t file x.mem
    match x.d.metadata[i]? with
    | some m => pure (.points l m, { x with mem := mem })
    | none => .throw .lisp
  | .traceTypes i => do
    let j ← callGetTraceB w junk x.d i
    let (t, place, _) ← x.trace j
    let (l, mem) ← lispTypesB w.pl place t x.mem
    pure (.types l, { x with mem := mem })
  | .query i q => do
    let j ← callGetTraceB w junk x.d i
    let (t, place, cache) ← x.trace j
    let (l, mem, cache, s) ← lispQueryB w.pl place w.env w.pick w.ev w.db (BitVec.ofNat 64 i) junk t q x.mem cache x.s
    pure (.results l, { x with d := { x.d with db := { x.d.db with caches := x.d.db.caches.set j cache } }, s := s, mem := mem })
  | .store => do
    let (r, mem) ← x.d.storeB w.pl w.version (junk.headD 0) x.mem
    pure (.stored r, { x with mem := mem })
  | .restore stored => do
    let (d, mem) ← LispDb.restoreB w.pl junk stored x.mem
    let (ps, mem') ← keepTracesB w.pl d.db.traces mem
    pure (.nothing, { x with d := d, places := ps, owned := mem'.blocks.drop mem.blocks.length, mem := mem' })
  | .other f => .ok (.nothing, { x with mem := f x.owned x.mem })

/-- A session.  For binary-trace-db.lisp:250-386, 524-613. -/
def byteSession {μ σ : Type} (w : FsWorld σ) : List (List U64 × FsOp μ) → FsState μ σ → Res (List (FsAns μ) × FsState μ σ)
  | [], x => .ok ([], x)
  | (junk, op) :: ops, x => do
    let (a, x) ← byteStep w junk op x
    let (as, x) ← byteSession w ops x
    pure (a :: as, x)

/-- A process with a new database (binary-trace-db.lisp:250-254). -/
def FsState.start {μ σ : Type} (s : σ) (mem : FState) : FsState μ σ := ⟨LispDb.empty, s, [], [], mem⟩

end TraceDB
