import Verif.Model.Fork
/-
The trace stream of a program when writing fails (instrumentation/c-cpp.lisp:125-174):
the runtime never looks at the results of `fputc`, `fputs`, `fwrite` and `fflush`.

One process with one thread, which does not fork.
-/
namespace TraceDB

/-- The file, the buffer of the stream, and what the process has still to do.  For instrumentation/c-cpp.lisp:125-174. -/
structure FwState where
  out : List U8
  buf : List U8
  todo : List FkAct

/-- What happens next: the process goes on, and what it writes is written; the C library
writes `k` bytes of an overfull buffer; a write fails after `k` bytes (disk full, limit of
the file size, …), and `lost` bytes of the buffer are dropped: all of them in the common C
libraries, but the standards do not say; the process is killed.  For instrumentation/c-cpp.lisp:125-174. -/
inductive FwEvent where
  | run
  | spill (k : Nat)
  | fail (k lost : Nat)
  | kill

/-- One step with a buffer of `size` bytes.  A write is attempted if the buffer is overfull,
by `fflush` (c-cpp.lisp:170), and when the process ends.  After a failure the process goes
on as if nothing had happened. -/
def FwState.step (size : Nat) (s : FwState) : FwEvent → FwState
  | .run =>
    if s.buf.length ≤ size then
      match s.todo with
      | .put bs :: r => ⟨s.out, s.buf ++ bs, r⟩
      | .flush :: r => ⟨s.out ++ s.buf, [], r⟩
      | .exit :: _ => ⟨s.out ++ s.buf, [], []⟩
      | _ => s
    else s
  | .spill k => if s.buf.length ≤ size then s else ⟨s.out ++ s.buf.take k, s.buf.drop k, s.todo⟩
  | .fail k lost =>
    if s.buf.length ≤ size then
      match s.todo with
      | .flush :: r => ⟨s.out ++ s.buf.take k, s.buf.drop (k + lost), r⟩
      | .exit :: _ => ⟨s.out ++ s.buf.take k, [], []⟩
      | _ => s
    else ⟨s.out ++ s.buf.take k, s.buf.drop (k + lost), s.todo⟩
  | .kill => ⟨s.out, [], []⟩

/-- Several steps.  For instrumentation/c-cpp.lisp:125-174. -/
def FwState.run (size : Nat) (s : FwState) (events : List FwEvent) : FwState := events.foldl (FwState.step size) s

/-- A program before it starts.  For instrumentation/c-cpp.lisp:125-174. -/
def FwState.start (acts : List FkAct) : FwState := ⟨[], [], acts⟩

end TraceDB
