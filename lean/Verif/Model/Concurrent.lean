import Verif.Model.Database
/-
Several threads adding traces to one database (cffi-interface/trace-db.cpp:28-52,
TraceDB.hpp:46-52), with the static variable of `TracePoint::read`
(TracePoint.hpp:291-295) shared by all of them.

Threads interleave between the accesses to shared memory; everything else a thread does
concerns its own objects.  Simplifications: accesses are sequentially consistent (the
race on the static variable is formally undefined behaviour); the tables of interned
records, which boost protects with a lock, are values as elsewhere in the model; the
shared state of `rand()` is covered by leaving the coin of every thread arbitrary.
-/
namespace TraceDB

/-- Code that accesses the static variable: it ends, stores bytes at the start of the
variable, or loads it.  For cffi-interface/trace-db/TracePoint.hpp:291-295. -/
inductive Proc (α : Type) where
  | done (r : Res α)
  | store (got : List U8) (k : Proc α)
  | load (k : U64 → Proc α)

namespace Proc

/-- Sequencing.  For cffi-interface/trace-db/TracePoint.hpp:291-295. -/
def bind {α β : Type} : Proc α → (α → Proc β) → Proc β
  | .done (.ok a), f => f a
  | .done (.throw e), _ => .done (.throw e)
  | .done .abort, _ => .done .abort
  | .done (.ub k), _ => .done (.ub k)
  | .done .hang, _ => .done .hang
  | .store got k, f => .store got (bind k f)
  | .load k, f => .load fun v => bind (k v) f

end Proc

/-- Contents of the static variable after storing bytes at its start.  For cffi-interface/trace-db/TracePoint.hpp:291-295. -/
def storeBytes (old : U64) (got : List U8) : U64 := BitVec.ofNat 64 (leNat (overlay (leBytes 8 old.toNat) got))

/-- The loop of `TracePoint::read` (TracePoint.hpp:263-302) as in `readEntries`, but
auxiliary values go through the static variable (TracePoint.hpp:291-295). -/
def readEntriesP (I : MapImpl) (env : Env) (names : List Name) (types : List TypeDesc) :
    Nat → IStream → I.M → PointAcc → Proc (IStream × I.M × PointAcc)
  | 0, _, _, _ => .done .hang
  | fuel + 1, s, map, acc =>
    (Proc.done (readUInt s 1 5)).bind fun (c, s) =>
    if !s.isGood || c == 0 then .done (.ok (s, map, acc))
    else match c with
      | 1 => (Proc.done (binaryRead s 8)).bind fun (got, s) =>
        let acc := if got.length = 8 then
            { acc with statement := some (BitVec.ofNat 64 (leNat got)) }
          else acc
        readEntriesP I env names types fuel s map acc
      | 2 => (Proc.done (readVarInfo I env names types map s)).bind fun (info, s) =>
        readEntriesP I env names types fuel s map { acc with vars := acc.vars ++ [info] }
      | 3 => (Proc.done (readBufferSize s)).bind fun (size, s) =>
        (Proc.done (I.update map size)).bind fun map =>
        readEntriesP I env names types fuel s map { acc with sizes := acc.sizes ++ [size] }
      | 4 => (Proc.done (binaryRead s 8)).bind fun (got, s) =>
        .store got (.load fun value =>
          readEntriesP I env names types fuel s map { acc with aux := acc.aux ++ [value] })
      | _ => .done (.throw .trace)

/-- The point loop of `Trace::read` (Trace.hpp:85-91) as in `readPoints`. -/
def readPointsP (I : MapImpl) (env : Env) (names : List Name) (types : List TypeDesc)
    (maxPoints : U64) : Nat → Nat → IStream → I.M → List Point → Proc (List Point)
  | 0, _, _, _, _ => .done .hang
  | fuel + 1, i, s, map, acc =>
    if s.isGood && (i < maxPoints.toNat || maxPoints == 0) then
      (readEntriesP I env names types (entryFuel s) s map .empty).bind fun (s, map, p) =>
      if s.isGood then
        (Proc.done (finishStatement env p.statement)).bind fun statement =>
        let point : Point := ⟨BitVec.ofNat 64 i, statement, p.sizes, p.vars, p.aux⟩
        readPointsP I env names types maxPoints fuel (i + 1) s map (acc ++ [point])
      else readPointsP I env names types maxPoints fuel (i + 1) s map acc
    else .done (.ok acc)

/-- `Trace::read` (Trace.hpp:51-98) as in `readTrace`. -/
def readTraceP (env : Env) (maxPoints : U64) (s : IStream) : Proc Trace :=
  let I := MapImpl.skipList env.coin
  (Proc.done (readNameTable env s)).bind fun (names, s) =>
  (Proc.done (readTypeTable env s)).bind fun (types, s) =>
  (readPointsP I env names types maxPoints (s.rest.length + 3) 0 s I.empty []).bind fun points =>
  .done (.ok ⟨names, types, points⟩)

/-- One call of `add_trace`: the environment of its thread, what opening the file gives,
and the limit.  For cffi-interface/trace-db.cpp:28-52. -/
structure Job where
  env : Env
  source : Source
  maxPoints : U64

/-- Where a thread executing `add_trace` is (trace-db.cpp:36-51, TraceDB.hpp:46-52).
`push_back` reads the vector and then writes it back. -/
inductive Thread where
  /-- reading the trace -/
  | reading (p : Proc Trace)
  /-- about to lock the mutex -/
  | locking (t : Trace)
  /-- the mutex is held; `push_back` begins -/
  | pushing (t : Trace)
  /-- `push_back` has read the vector -/
  | writing (t : Trace) (snapshot : Db)
  /-- the destructor of the guard unlocks the mutex -/
  | unlocking (t : Trace)
  /-- `add_trace` has returned; with the stored trace when it returned 1 -/
  | returned (t : Option Trace)
  /-- undefined behaviour, an abort or an endless loop -/
  | crashed

/-- Shared memory and threads.  For cffi-interface/trace-db.cpp:28-52. -/
structure AddSys where
  aux : U64
  lock : Option Nat
  db : Db
  threads : List Thread

/-- Start of a thread: without a stream the exception is caught at once
(trace-db.cpp:47-51). -/
def Job.start (j : Job) : Thread :=
  match j.source with
  | none => .returned none
  | some s => .reading (readTraceP j.env j.maxPoints s)

/-- All threads at the start.  For cffi-interface/trace-db.cpp:28-52. -/
def AddSys.init (aux : U64) (db : Db) (jobs : List Job) : AddSys := ⟨aux, none, db, jobs.map Job.start⟩

/-- One step of thread `i`; a thread that waits for the mutex or has ended does
nothing.  For cffi-interface/trace-db.cpp:28-52. -/
def AddSys.step (grow : Nat → Nat) (st : AddSys) (i : Nat) : AddSys :=
  match st.threads[i]? with
  | none => st
  | some (.reading (.store got k)) =>
    { st with aux := storeBytes st.aux got, threads := st.threads.set i (.reading k) }
  | some (.reading (.load k)) => { st with threads := st.threads.set i (.reading (k st.aux)) }
  | some (.reading (.done (.ok t))) => { st with threads := st.threads.set i (.locking t) }
  | some (.reading (.done (.throw _))) => { st with threads := st.threads.set i (.returned none) }
  | some (.reading (.done _)) => { st with threads := st.threads.set i .crashed }
  | some (.locking t) =>
    if st.lock.isNone then { st with lock := some i, threads := st.threads.set i (.pushing t) } else st
  | some (.pushing t) => { st with threads := st.threads.set i (.writing t st.db) }
  | some (.writing t snapshot) =>
    { st with db := snapshot.addTrace grow t, threads := st.threads.set i (.unlocking t) }
  | some (.unlocking t) => { st with lock := none, threads := st.threads.set i (.returned (some t)) }
  | some (.returned _) => st
  | some .crashed => st

/-- Execution under a schedule: the threads take steps in the given order.  For cffi-interface/trace-db.cpp:28-52. -/
def AddSys.run (grow : Nat → Nat) (st : AddSys) (schedule : List Nat) : AddSys :=
  schedule.foldl (AddSys.step grow) st

end TraceDB
