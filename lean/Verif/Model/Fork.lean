import Verif.Model.Runtime
/-
The trace stream of a program that forks (instrumentation/c-cpp.lisp:125-174): the
runtime writes to a `FILE` of the C library, whose buffer is copied by `fork`, while
the open file and its offset are shared.

Processes are single-threaded here, so that the mutex of the runtime (its own one in
every process) is never waited for and is free when a process forks.
-/
namespace TraceDB

/-- What a program does as far as its trace is concerned: points, and forks, with what
the child does.  For instrumentation/c-cpp.lisp:125-174. -/
inductive FkItem (α : Type) where
  | point (a : α)
  | fork (child : List (FkItem α))

/-- What a process does with the stream: putting bytes (`fputc`, `fputs`, `fwrite`),
`fflush`, forking, and ending (by `exit` or by returning from `main`).  For instrumentation/c-cpp.lisp:125-174. -/
inductive FkAct where
  | put (bs : List U8)
  | flush
  | fork (child : List FkAct)
  | exit

/-- The calls of a point: only `__write_end_entry` flushes (c-cpp.lisp:170).
Simplification: the bytes of a call are put at once; how they reach the file is left
open (`FkEvent.spill`). -/
def fkCalls (cf : CFloat) (mem : CMem) : List RtCall → Res (List FkAct)
  | [] => .ok []
  | c :: cs => do
    let b ← c.bytes cf mem
    let more ← fkCalls cf mem cs
    return .put b :: (if c = .endEntry then .flush :: more else more)

mutual
/-- What a process does for a point or a fork.  A child ends by itself.  For instrumentation/c-cpp.lisp:125-174. -/
def FkItem.acts (cf : CFloat) (mem : CMem) : FkItem (U64 × List RtCall) → Res (List FkAct)
  | .point p => fkCalls cf mem (pointCalls p.1 p.2)
  | .fork child => do
    let a ← fkItems cf mem child
    return [.fork a]

/-- What a process does until it ends.  For instrumentation/c-cpp.lisp:125-174. -/
def fkItems (cf : CFloat) (mem : CMem) : List (FkItem (U64 × List RtCall)) → Res (List FkAct)
  | [] => .ok [.exit]
  | x :: xs => do
    let a ← x.acts cf mem
    let b ← fkItems cf mem xs
    return a ++ b
end

/-- A whole program: `__bi_setup` writes the header without flushing
(c-cpp.lisp:125-154, 311-338). -/
def fkProgram (cf : CFloat) (mem : CMem) (names : List Name) (types : List TypeDesc)
    (items : List (FkItem (U64 × List RtCall))) : Res (List FkAct) := do
  let header ← writeTraceHeader names types
  let body ← fkItems cf mem items
  return .put header :: body

/-- A process: what is in the buffer of its stream, and what it has still to do.  For instrumentation/c-cpp.lisp:125-174. -/
structure FkProc where
  buf : List U8
  todo : List FkAct

/-- The file and the processes.  They share the offset in the file, so that whatever one
of them writes comes after all that was written before.  For instrumentation/c-cpp.lisp:125-174. -/
structure FkState where
  out : List U8
  procs : List FkProc

/-- What happens next: process `i` goes on; the C library writes `k` bytes of an
overfull buffer of process `i`; process `i` is killed (or calls `_exit`, or another
program by `exec`).  For instrumentation/c-cpp.lisp:125-174. -/
inductive FkEvent where
  | run (i : Nat)
  | spill (i k : Nat)
  | kill (i : Nat)

/-- One step with buffers of `size` bytes.  A process whose buffer is overfull does not go
on before enough of it has been written, in pieces of any size.  Up to `size` bytes are
written at once by `fflush`, and in one piece (`write` on the same open file is atomic).
Simplification: writing succeeds.  For instrumentation/c-cpp.lisp:125-174. -/
def FkState.step (size : Nat) (s : FkState) : FkEvent → FkState
  | .run i =>
    match s.procs[i]? with
    | none => s
    | some p =>
      if p.buf.length ≤ size then
        match p.todo with
        | [] => s
        | .put bs :: r => ⟨s.out, s.procs.set i ⟨p.buf ++ bs, r⟩⟩
        | .flush :: r => ⟨s.out ++ p.buf, s.procs.set i ⟨[], r⟩⟩
        | .exit :: _ => ⟨s.out ++ p.buf, s.procs.set i ⟨[], []⟩⟩
        | .fork c :: r => ⟨s.out, s.procs.take i ++ ⟨p.buf, r⟩ :: ⟨p.buf, c⟩ :: s.procs.drop (i + 1)⟩
      else s
  | .spill i k =>
    match s.procs[i]? with
    | none => s
    | some p =>
      if p.buf.length ≤ size then s
      else ⟨s.out ++ p.buf.take k, s.procs.set i ⟨p.buf.drop k, p.todo⟩⟩
  | .kill i => ⟨s.out, s.procs.set i ⟨[], []⟩⟩

/-- Several steps.  For instrumentation/c-cpp.lisp:125-174. -/
def FkState.run (size : Nat) (s : FkState) (events : List FkEvent) : FkState := events.foldl (FkState.step size) s

/-- A program before it starts.  For instrumentation/c-cpp.lisp:125-174. -/
def FkState.start (acts : List FkAct) : FkState := ⟨[], [⟨[], acts⟩]⟩

end TraceDB
