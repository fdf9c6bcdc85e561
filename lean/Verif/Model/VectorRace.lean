import Verif.Model.Outcome
/-
Threads that look at the traces of a database (cffi-interface/trace-db.cpp: `get_trace`,
`n_traces`, `query_trace`) while others add to it.  Additions hold the mutex of the database
(cffi-interface/trace-db/TraceDB.hpp:46-52), the others do not take it.

The vector of traces is modelled as libstdc++ implements it: three pointers into a heap block,
which is replaced when it is full.  Simplifications, in favour of the code: memory is
sequentially consistent (in C++ every unsynchronised access of this kind is a data race), a
pointer is read or written in one step, and so is a trace.
-/
namespace TraceDB

/-- A pointer into a block.  For cffi-interface/trace-db/TraceDB.hpp:46-52. -/
structure VPtr where
  block : Nat
  off : Nat
  deriving DecidableEq, Repr

/-- The vector and the heap.  A block that is not there has been freed or never allocated; a
slot holds an element or nothing.  `start`, `finish` and `cap` are `_M_start`, `_M_finish` and
`_M_end_of_storage`.  For cffi-interface/trace-db/TraceDB.hpp:46-52. -/
structure VMem (α : Type) where
  block : Nat → Option (List (Option α))
  next : Nat
  start : VPtr
  finish : VPtr
  cap : VPtr

/-- `std::vector()` (TraceDB.hpp:29-32).  The null pointer is a block without slots. -/
def VMem.empty {α : Type} : VMem α := ⟨fun b => if b = 0 then some [] else none, 1, ⟨0, 0⟩, ⟨0, 0⟩, ⟨0, 0⟩⟩

/-- Looking at an element.  For cffi-interface/trace-db/TraceDB.hpp:46-52. -/
def VMem.read {α : Type} (m : VMem α) (p : VPtr) : Res α :=
  match m.block p.block with
  | none => .ub .dangling
  | some l =>
    match l[p.off]? with
    | none => .ub .oobRead
    | some none => .ub .dangling
    | some (some a) => .ok a

/-- Constructing or (`none`) destroying an element.  For cffi-interface/trace-db/TraceDB.hpp:46-52. -/
def VMem.write {α : Type} (m : VMem α) (p : VPtr) (a : Option α) : VMem α :=
  { m with
    block := fun b => if b = p.block then (m.block b).map (·.set p.off a) else m.block b }

/-- What a thread has still to do: finished with an outcome, or an indivisible step that
changes the memory and goes on according to what it was.  For cffi-interface/trace-db/TraceDB.hpp:46-52. -/
inductive VProc (α β : Type) where
  | done (r : Res β)
  | act (change : VMem α → VMem α) (next : VMem α → VProc α β)

/-- Copying the elements from number `i` on into the new block (`k` of them).  For cffi-interface/trace-db/TraceDB.hpp:46-52. -/
def copyP {α β : Type} (old new : Nat) (rest : VProc α β) : Nat → Nat → VProc α β
  | _, 0 => rest
  | i, k + 1 =>
    .act (fun m => match m.read ⟨old, i⟩ with
      | .ok a => m.write ⟨new, i⟩ (some a)
      | _ => m)
      fun _ => copyP old new rest (i + 1) k

/-- Destroying the elements from number `i` on.  For cffi-interface/trace-db/TraceDB.hpp:46-52. -/
def destroyP {α β : Type} (old : Nat) (rest : VProc α β) : Nat → Nat → VProc α β
  | _, 0 => rest
  | i, k + 1 => .act (fun m => m.write ⟨old, i⟩ none) fun _ => destroyP old rest (i + 1) k

/-- `m_traces.push_back(trace)` (TraceDB.hpp:51), then `rest`.  If there is room the element is
constructed and `_M_finish` moved.  Otherwise (`_M_realloc_insert`): a new block is allocated,
the element constructed at its place, the others copied (`Trace` has no move constructor), the
old ones destroyed, their block freed, and the three pointers set. -/
def pushP {α β : Type} (grow : Nat → Nat) (a : α) (rest : VProc α β) : VProc α β :=
  .act id fun m =>
    if m.finish ≠ m.cap then
      .act (fun m => m.write m.finish (some a)) fun _ =>
      .act (fun m => { m with finish := ⟨m.finish.block, m.finish.off + 1⟩ }) fun _ => rest
    else
      let n := m.finish.off
      let old := m.start.block
      .act (fun m => { m with
          block := fun b => if b = m.next then some (List.replicate (grow n) none) else m.block b
          next := m.next + 1 }) fun m =>
        let new := m.next
        .act (fun m => m.write ⟨new, n⟩ (some a)) fun _ =>
        copyP old new (destroyP old
          (.act (fun m => { m with block := fun b => if b = old then none else m.block b }) fun _ =>
           .act (fun m => { m with start := ⟨new, 0⟩ }) fun _ =>
           .act (fun m => { m with finish := ⟨new, n + 1⟩ }) fun _ =>
           .act (fun m => { m with cap := ⟨new, grow n⟩ }) fun _ => rest) 0 n) 0 n

/-- Additions, one after the other: the mutex (TraceDB.hpp:50) lets one thread add at a
time. -/
def pushAllP {α : Type} (grow : Nat → Nat) : List α → VProc α Unit
  | [] => .done (.ok ())
  | a :: as => pushP grow a (pushAllP grow as)

/-- What those who look get: the number of elements or an element.  For cffi-interface/trace-db/TraceDB.hpp:46-52. -/
inductive VAnswer (α : Type) where
  | number (n : Nat)
  | elem (a : α)
  deriving DecidableEq, Repr

/-- `getTraces().size()` (trace-db.cpp:156, 314): the difference of two pointers, which is not
defined if they point into different blocks.  Simplification: `_M_finish` is read first. -/
def sizeP {α : Type} (next : Nat → VProc α (VAnswer α)) : VProc α (VAnswer α) :=
  .act id fun m =>
  .act id fun m' =>
    if m.finish.block = m'.start.block then next (m.finish.off - m'.start.off) else .done (.ub .misuse)

/-- `n_traces` (trace-db.cpp:153-157).  Simplification: without the conversion to 32 bits. -/
def countP {α : Type} : VProc α (VAnswer α) := sizeP fun n => .done (.ok (.number n))

/-- Looking at an element `k` times and once more.  For cffi-interface/trace-db/TraceDB.hpp:46-52. -/
def lookP {α : Type} (p : VPtr) : Nat → VProc α (VAnswer α)
  | 0 => .act id fun m =>
    match m.read p with
    | .ok a => .done (.ok (.elem a))
    | .ub e => .done (.ub e)
    | _ => .done .abort
  | k + 1 => .act id fun m =>
    match m.read p with
    | .ok _ => lookP p k
    | .ub e => .done (.ub e)
    | _ => .done .abort

/-- `query_trace` (trace-db.cpp:305-349): the assertion on the index (line 314), the reference
to the trace (line 317), and the uses of it.  `get_trace` (lines 146-151) and the uses of the
pointer it returns are the same after the check of the index in Lisp
(binary-trace-db.lisp:373-386). -/
def useP {α : Type} (idx k : Nat) : VProc α (VAnswer α) :=
  sizeP fun n => if n ≤ idx then .done .abort else .act id fun m => lookP ⟨m.start.block, m.start.off + idx⟩ k

/-- The threads that look.  For cffi-interface/trace-db/TraceDB.hpp:46-52. -/
inductive VReader where
  | count
  | use (idx k : Nat)

/-- What such a thread does.  For cffi-interface/trace-db/TraceDB.hpp:46-52. -/
def VReader.proc {α : Type} : VReader → VProc α (VAnswer α)
  | .count => countP
  | .use idx k => useP idx k

/-- All threads: those that add are one.  For cffi-interface/trace-db/TraceDB.hpp:46-52. -/
structure VSys (α : Type) where
  mem : VMem α
  writer : VProc α Unit
  readers : List (VProc α (VAnswer α))

/-- Thread 0 adds, thread `i + 1` is the reader number `i`.  For cffi-interface/trace-db/TraceDB.hpp:46-52. -/
def VSys.step {α : Type} (st : VSys α) (thread : Nat) : VSys α :=
  match thread with
  | 0 =>
    match st.writer with
    | .done _ => st
    | .act c n => { st with mem := c st.mem, writer := n st.mem }
  | i + 1 =>
    match st.readers[i]? with
    | some (.act c n) => { st with mem := c st.mem, readers := st.readers.set i (n st.mem) }
    | _ => st

/-- A schedule.  For cffi-interface/trace-db/TraceDB.hpp:46-52. -/
def VSys.run {α : Type} (st : VSys α) (schedule : List Nat) : VSys α := schedule.foldl VSys.step st

/-- The outcome of a reader that has finished.  For cffi-interface/trace-db/TraceDB.hpp:46-52. -/
def VSys.outcome {α : Type} (st : VSys α) (i : Nat) : Option (Res (VAnswer α)) :=
  match st.readers[i]? with
  | some (.done r) => some r
  | _ => none

/-- The threads at the start.  For cffi-interface/trace-db/TraceDB.hpp:46-52. -/
def VSys.init {α : Type} (grow : Nat → Nat) (m : VMem α) (adds : List α) (readers : List VReader) : VSys α :=
  ⟨m, pushAllP grow adds, readers.map (·.proc)⟩

end TraceDB
