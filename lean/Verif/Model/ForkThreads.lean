import Verif.Model.Runtime
/-
The trace of a program with threads that forks.  `fork` copies the memory of the process,
and with it the mutex (a static variable, instrumentation/c-cpp.lisp:311-338) and the buffer
of the stream, as they are at this moment; but only the thread that calls it goes on in the
child.  The runtime does not register handlers with `pthread_atfork`.
-/
namespace TraceDB

/-- What a thread does as far as the trace is concerned: points, forks with what the child
does, and creating threads.  For instrumentation/c-cpp.lisp:125-174, 311-338. -/
inductive FtItem (α : Type) where
  | point (a : α)
  | fork (child : List (FtItem α))
  | spawn (thread : List (FtItem α))

/-- What a thread does with the mutex and the stream: locking, putting bytes (`fputc`,
`fputs`, `fwrite`), `fflush`, unlocking; forking, creating a thread, and ending the process
(by `exit` or by returning from `main`).  For instrumentation/c-cpp.lisp:125-174, 311-338. -/
inductive FtAct where
  | lock
  | put (bs : List U8)
  | flush
  | unlock
  | fork (child : List FtAct)
  | spawn (thread : List FtAct)
  | exit

/-- The steps of a call that writes the given bytes: `__write_trace_id` locks the mutex first
(c-cpp.lisp:161), `__write_end_entry` flushes the stream and unlocks the mutex
(c-cpp.lisp:169-173).  Simplification: every byte is a step of its own, which allows at least
what `fputc` and `fwrite` do; how the bytes reach the file is left open (`FtEvent.spill`). -/
def RtCall.ftActs (c : RtCall) (b : List U8) : List FtAct :=
  match c with
  | .traceId _ => .lock :: b.map fun x => .put [x]
  | .endEntry => (b.map fun x => .put [x]) ++ [.flush, .unlock]
  | _ => b.map fun x => .put [x]

/-- The steps of the calls of a point.  For instrumentation/c-cpp.lisp:125-174, 311-338. -/
def ftCalls (cf : CFloat) (mem : CMem) : List RtCall → Res (List FtAct)
  | [] => .ok []
  | c :: cs => do
    let b ← c.bytes cf mem
    let more ← ftCalls cf mem cs
    return c.ftActs b ++ more

mutual
/-- What a thread does for a point, a fork or a new thread.  The child of a fork ends as a
process.  For instrumentation/c-cpp.lisp:125-174, 311-338. -/
def FtItem.acts (cf : CFloat) (mem : CMem) : FtItem (U64 × List RtCall) → Res (List FtAct)
  | .point p => ftCalls cf mem (pointCalls p.1 p.2)
  | .fork child => do
    let a ← ftItems cf mem [.exit] child
    return [.fork a]
  | .spawn thread => do
    let a ← ftItems cf mem [] thread
    return [.spawn a]

/-- What a thread does, with `last` at the end.  For instrumentation/c-cpp.lisp:125-174, 311-338. -/
def ftItems (cf : CFloat) (mem : CMem) (last : List FtAct) : List (FtItem (U64 × List RtCall)) → Res (List FtAct)
  | [] => .ok last
  | x :: xs => do
    let a ← x.acts cf mem
    let b ← ftItems cf mem last xs
    return a ++ b
end

/-- What the main thread of a program does: `__bi_setup` writes the header without flushing
(c-cpp.lisp:125-154, 311-338).  Simplification: there are no other threads yet, so that the
mutex is not considered there. -/
def ftProgram (cf : CFloat) (mem : CMem) (names : List Name) (types : List TypeDesc)
    (items : List (FtItem (U64 × List RtCall))) : Res (List FtAct) := do
  let header ← writeTraceHeader names types
  let body ← ftItems cf mem [.exit] items
  return .put header :: body

/-- A process: what is in the buffer of its stream, the thread that owns its mutex, and what
its threads have still to do.  For instrumentation/c-cpp.lisp:125-174, 311-338. -/
structure FtProc where
  buf : List U8
  owner : Option Nat
  threads : List (List FtAct)

/-- The file and the processes.  They share the offset in the file, so that whatever one
of them writes comes after all that was written before.  For instrumentation/c-cpp.lisp:125-174, 311-338. -/
structure FtState where
  out : List U8
  procs : List FtProc

/-- What happens next: thread `j` of process `i` goes on; the C library writes `k` bytes of an
overfull buffer of process `i`; process `i` is killed (or calls `_exit`, or another program by
`exec`).  For instrumentation/c-cpp.lisp:125-174, 311-338. -/
inductive FtEvent where
  | run (i j : Nat)
  | spill (i k : Nat)
  | kill (i : Nat)

/-- A process that does not exist any more.  For instrumentation/c-cpp.lisp:125-174, 311-338. -/
def FtProc.gone : FtProc := ⟨[], none, []⟩

/-- One step with buffers of `size` bytes.  A process whose buffer is overfull does not go on
before enough of it has been written, in pieces of any size (simplification: this holds for
all of its threads).  Up to `size` bytes are written at once by `fflush`, and in one piece.  A
thread that wants the mutex while it is owned does not move, even if the owner is a thread
that `fork` did not copy; in the child, the threads that do not exist have nothing to do.
Unlocking a mutex owned by somebody else is undefined (outcome `ub`).  Simplification: writing
succeeds.  For instrumentation/c-cpp.lisp:125-174, 311-338. -/
def FtState.step (size : Nat) (s : FtState) : FtEvent → Res FtState
  | .run i j =>
    match s.procs[i]? with
    | none => .ok s
    | some p =>
      if p.buf.length ≤ size then
        match p.threads[j]? with
        | some (.lock :: r) =>
          match p.owner with
          | none => .ok ⟨s.out, s.procs.set i ⟨p.buf, some j, p.threads.set j r⟩⟩
          | some _ => .ok s
        | some (.put bs :: r) => .ok ⟨s.out, s.procs.set i ⟨p.buf ++ bs, p.owner, p.threads.set j r⟩⟩
        | some (.flush :: r) => .ok ⟨s.out ++ p.buf, s.procs.set i ⟨[], p.owner, p.threads.set j r⟩⟩
        | some (.unlock :: r) =>
          if p.owner = some j then .ok ⟨s.out, s.procs.set i ⟨p.buf, none, p.threads.set j r⟩⟩ else .ub .misuse
        | some (.fork c :: r) =>
          .ok ⟨s.out, s.procs.set i ⟨p.buf, p.owner, p.threads.set j r⟩ ++
            [⟨p.buf, p.owner, (List.replicate p.threads.length []).set j c⟩]⟩
        | some (.spawn t :: r) => .ok ⟨s.out, s.procs.set i ⟨p.buf, p.owner, p.threads.set j r ++ [t]⟩⟩
        | some (.exit :: _) => .ok ⟨s.out ++ p.buf, s.procs.set i .gone⟩
        | _ => .ok s
      else .ok s
  | .spill i k =>
    match s.procs[i]? with
    | none => .ok s
    | some p =>
      if p.buf.length ≤ size then .ok s
      else .ok ⟨s.out ++ p.buf.take k, s.procs.set i ⟨p.buf.drop k, p.owner, p.threads⟩⟩
  | .kill i => .ok ⟨s.out, s.procs.set i .gone⟩

/-- Several steps.  For instrumentation/c-cpp.lisp:125-174, 311-338. -/
def FtState.run (size : Nat) (s : FtState) : List FtEvent → Res FtState
  | [] => .ok s
  | e :: es => do
    let s' ← s.step size e
    s'.run size es

/-- A program before it starts.  For instrumentation/c-cpp.lisp:125-174, 311-338. -/
def FtState.start (acts : List FtAct) : FtState := ⟨[], [⟨[], none, [acts]⟩]⟩

end TraceDB
