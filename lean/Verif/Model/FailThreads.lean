import Verif.Model.ForkThreads
/-
The trace stream of a program with threads when writing fails
(instrumentation/c-cpp.lisp:125-174): the runtime never looks at the results of `fputc`,
`fputs`, `fwrite` and `fflush`, and unlocks the mutex whether they succeed or not.

One process with threads, which does not fork.
-/
namespace TraceDB

/-- The file, the buffer of the stream, the thread that owns the mutex, what the threads have
still to do, and whether the process has ended.  For instrumentation/c-cpp.lisp:125-174. -/
structure FmState where
  out : List U8
  buf : List U8
  owner : Option Nat
  threads : List (List FtAct)
  ended : Bool

/-- What happens next: thread `i` goes on, and what it writes is written; the C library writes
`k` bytes of an overfull buffer; a write fails after `k` bytes, and `lost` bytes of the buffer
are dropped (a write by thread `i` flushing, or of an overfull buffer); the process ends by
`exit` or by returning from `main`, which writes the buffer, or fails to after `k` bytes; the
process is killed.  For instrumentation/c-cpp.lisp:125-174. -/
inductive FmEvent where
  | run (i : Nat)
  | spill (k : Nat)
  | fail (i k lost : Nat)
  | exit
  | exitFail (k : Nat)
  | kill

/-- One step with a buffer of `size` bytes.  `fflush` comes before the mutex is unlocked
(c-cpp.lisp:170-173); after a failure the threads go on as if nothing had happened.  `exit` ends
all threads, wherever they are.  Simplification: all threads wait while an overfull buffer is
written. -/
def FmState.step (size : Nat) (s : FmState) (e : FmEvent) : Res FmState :=
  if s.ended then .ok s else
  match e with
  | .run i =>
    if s.buf.length ≤ size then
      match s.threads[i]? with
      | some (.lock :: r) =>
        match s.owner with
        | none => .ok ⟨s.out, s.buf, some i, s.threads.set i r, false⟩
        | some _ => .ok s
      | some (.put bs :: r) => .ok ⟨s.out, s.buf ++ bs, s.owner, s.threads.set i r, false⟩
      | some (.flush :: r) => .ok ⟨s.out ++ s.buf, [], s.owner, s.threads.set i r, false⟩
      | some (.unlock :: r) =>
        if s.owner = some i then .ok ⟨s.out, s.buf, none, s.threads.set i r, false⟩ else .ub .misuse
      | _ => .ok s
    else .ok s
  | .spill k =>
    if s.buf.length ≤ size then .ok s else .ok ⟨s.out ++ s.buf.take k, s.buf.drop k, s.owner, s.threads, false⟩
  | .fail i k lost =>
    if s.buf.length ≤ size then
      match s.threads[i]? with
      | some (.flush :: r) =>
        .ok ⟨s.out ++ s.buf.take k, s.buf.drop (k + lost), s.owner, s.threads.set i r, false⟩
      | _ => .ok s
    else .ok ⟨s.out ++ s.buf.take k, s.buf.drop (k + lost), s.owner, s.threads, false⟩
  | .exit => if s.buf.length ≤ size then .ok ⟨s.out ++ s.buf, [], s.owner, s.threads, true⟩ else .ok s
  | .exitFail k => if s.buf.length ≤ size then .ok ⟨s.out ++ s.buf.take k, [], s.owner, s.threads, true⟩ else .ok s
  | .kill => .ok ⟨s.out, [], s.owner, s.threads, true⟩

/-- Several steps.  For instrumentation/c-cpp.lisp:125-174. -/
def FmState.run (size : Nat) (s : FmState) : List FmEvent → Res FmState
  | [] => .ok s
  | e :: es => do
    let s' ← s.step size e
    s'.run size es

/-- A program after `__bi_setup` (c-cpp.lisp:311-338): the header has been written to the stream
but not flushed (c-cpp.lisp:125-154). -/
def FmState.start (header : List U8) (threads : List (List FtAct)) : FmState := ⟨[], header, none, threads, false⟩

end TraceDB
