import Verif.Model.Runtime
/-
Signals in an instrumented program.  Between `__write_trace_id`, which locks the mutex
(instrumentation/c-cpp.lisp:156-165), and `__write_end_entry`, which unlocks it (167-174),
no code of the program is executed, except by signal handlers.  The mutex is initialised
with default attributes (c-cpp.lisp:330-331): a thread that locks it twice waits for ever.
-/
namespace TraceDB

/-- What happens to the threads: thread `i` makes a step; a signal interrupts it, its
handler does `h` and returns; a handler leaves by `longjmp` (or an exception), and the
thread goes on with `l` instead of what it was doing.  For instrumentation/c-cpp.lisp:156-174, 330-331. -/
inductive SgEvent (α : Type) where
  | run (i : Nat)
  | signal (i : Nat) (h : α)
  | jump (i : Nat) (l : α)

/-- One event.  A handler does its steps before the thread goes on; it may be interrupted
itself.  Threads that wait for the mutex are interrupted too.  Simplifications: a thread has
one list of steps, without the frames of its handlers; setting up the trace is not interrupted;
locking the mutex again, which POSIX leaves undefined for such a mutex, waits (as in glibc and
musl).  For instrumentation/c-cpp.lisp:156-174, 330-331. -/
def RtState.sgStep (s : RtState) : SgEvent (List RtAct) → Res RtState
  | .run i => s.step i
  | .signal i h =>
    match s.threads[i]? with
    | some a => .ok ⟨s.out, s.owner, s.threads.set i (h ++ a)⟩
    | none => .ok s
  | .jump i l => .ok ⟨s.out, s.owner, s.threads.set i l⟩

/-- Several events.  For instrumentation/c-cpp.lisp:156-174, 330-331. -/
def RtState.sgRun (s : RtState) : List (SgEvent (List RtAct)) → Res RtState
  | [] => .ok s
  | e :: es => do
    let s' ← s.sgStep e
    s'.sgRun es

end TraceDB
