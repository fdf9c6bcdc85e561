import Verif.Model.Bytes
/-
The handshake between the collector of traces (traceable.lisp:155-206) and the runs of an
instrumented program (`__bi_setup`, instrumentation/c-cpp.lisp:312-342), through a file at a
fixed place and one pipe per trace.

Simplifications: names of pipes are shorter than the buffer of 1024 bytes and have no
newline, so that the name read is the name written; the collector writes a name at
once; time is left out: whoever waits may wait any number of rounds, and the collector
may give up at any time.
-/
namespace TraceDB

/-- A pipe (traceable.lisp:201): what was written, by which run; how many have it open for
writing; whether it was ever opened; whether it still is there. -/
structure HsPipe where
  data : List (Nat × U8)
  writers : Nat
  opened : Bool
  there : Bool
  deriving DecidableEq, Repr

/-- A new pipe.  For traceable.lisp:155-206 and instrumentation/c-cpp.lisp:312-342. -/
def HsPipe.fresh : HsPipe := ⟨[], 0, false, true⟩

/-- Where the collector is.
* `idle`: before `with-temporary-fifo` (traceable.lisp:201)
* `make`: about to create the handshake file (lines 172-183)
* `write f`: about to write the name of the pipe into file `f`
* `wait`: until the file is gone (lines 185-197)
* `read`: in `add-trace` (lines 203-206)
* `done`: it has given up or has all traces -/
inductive HsCol where
  | idle
  | make
  | write (f : Nat)
  | wait
  | read
  | done
  deriving DecidableEq, Repr

/-- Where a run of the program is (c-cpp.lisp:318-329).
* `look`: in the loop with `access`
* `opens`: about to open the handshake file
* `fgets f eof`: in the loop with `fgets`, on file `f`; the end of the file was seen or not
* `remove i`: it has read the name of pipe `i` and is about to remove the handshake file
* `openPipe i`: about to open pipe `i`
* `writing i k`: it has written `k` bytes of its trace
* `ended`: normally
* `killed`: by a signal or an error of its own
* `broken`: by writing to a pipe that is closed at the other end
* `lost`: the pipe is gone; its trace goes to a new file of that name
* `crashed`: by `fgets` on a null pointer -/
inductive HsPc where
  | look
  | opens
  | fgets (f : Nat) (eof : Bool)
  | remove (i : Nat)
  | openPipe (i : Nat)
  | writing (i k : Nat)
  | ended
  | killed
  | broken
  | lost
  | crashed
  deriving DecidableEq, Repr

/-- Has it stopped, as far as traces are concerned?  For instrumentation/c-cpp.lisp:312-342. -/
def HsPc.stopped : HsPc → Bool
  | .ended | .killed | .broken | .lost | .crashed => true
  | _ => false

/-- The state of all: the handshake file, if there, by its number; the contents of all
files ever made (a number is the name of that pipe); the collector; the runs in the order
they were started; the pipes; the traces collected.  For traceable.lisp:155-206 and instrumentation/c-cpp.lisp:312-342. -/
structure HsState where
  path : Option Nat
  files : List (Option Nat)
  col : HsCol
  progs : List HsPc
  pipes : List HsPipe
  db : List (List (Nat × U8))
  deriving DecidableEq, Repr

/-- Before the test case is started.  For traceable.lisp:155-206 and instrumentation/c-cpp.lisp:312-342. -/
def HsState.init : HsState := ⟨none, [], .idle, [], [], []⟩

/-- The number of the pipe in use.  For traceable.lisp:155-206 and instrumentation/c-cpp.lisp:312-342. -/
def HsState.cur (s : HsState) : Nat := s.pipes.length - 1

/-- The pipe is removed (traceable.lisp:201). -/
def HsState.dropPipe (s : HsState) : HsState :=
  { s with pipes := s.pipes.modify s.cur fun q => { q with there := false } }

/-- The end of `add-trace`: what was read is a new trace.  For traceable.lisp:201-206. -/
def HsState.finish (s : HsState) (q : HsPipe) : HsState :=
  { s.dropPipe with db := s.db ++ [q.data], col := .idle }

/-- A step of the collector (traceable.lisp:166-206).  Creating the file fails while there
is one (`with-output-to-file` does not overwrite).  A trace ends when all who write to the
pipe have closed it. -/
def HsState.colStep (s : HsState) : HsState :=
  match s.col with
  | .idle => { s with pipes := s.pipes ++ [.fresh], col := .make }
  | .make =>
    match s.path with
    | some _ => s
    | none => { s with path := some s.files.length, files := s.files ++ [none], col := .write s.files.length }
  | .write f => { s with files := s.files.set f (some s.cur), col := .wait }
  | .wait =>
    match s.path with
    | some _ => s
    | none => { s with col := .read }
  | .read =>
    match s.pipes[s.cur]? with
    | some q => if q.opened && q.writers == 0 then s.finish q else s
    | none => s
  | .done => s

/-- The collector has enough points and closes the pipe.  For traceable.lisp:155-206 and instrumentation/c-cpp.lisp:312-342. -/
def HsState.enough (s : HsState) : HsState :=
  match s.col, s.pipes[s.cur]? with
  | .read, some q => if q.opened then s.finish q else s
  | _, _ => s

/-- The collector gives up: no handshake in time, nothing to read in time, the trace could not
be read, or the process has ended (traceable.lisp:172, 185, 195-197, 200-206). -/
def HsState.giveUp (s : HsState) : HsState := { s.dropPipe with col := .done }

/-- A run closes its pipe.  For instrumentation/c-cpp.lisp:312-342. -/
def HsState.closePipe (s : HsState) (i : Nat) : HsState :=
  { s with pipes := s.pipes.modify i fun q => { q with writers := q.writers - 1 } }

/-- Run `p` is now at `pc`.  For instrumentation/c-cpp.lisp:312-342. -/
def HsState.setPc (s : HsState) (p : Nat) (pc : HsPc) : HsState := { s with progs := s.progs.set p pc }

/-- A step of run `p` with trace `out` (c-cpp.lisp:318-341).  The end of a file stays seen once
it was seen.  Opening a pipe waits until the collector has opened it too. -/
def HsState.progStep (s : HsState) (p : Nat) (out : List U8) : HsState :=
  match s.progs[p]? with
  | some .look => if s.path.isSome then s.setPc p .opens else s
  | some .opens =>
    match s.path with
    | some f => s.setPc p (.fgets f false)
    | none => s.setPc p .crashed
  | some (.fgets f false) =>
    match s.files[f]? with
    | some (some i) => s.setPc p (.remove i)
    | _ => s.setPc p (.fgets f true)
  | some (.remove i) => { s.setPc p (.openPipe i) with path := none }
  | some (.openPipe i) =>
    match s.pipes[i]? with
    | some q =>
      if !q.there then s.setPc p .lost
      else if s.col = .read && i == s.cur then
        { s.setPc p (.writing i 0) with pipes := s.pipes.set i { q with writers := q.writers + 1, opened := true } }
      else s
    | none => s
  | some (.writing i k) =>
    match s.pipes[i]? with
    | some q =>
      match out[k]? with
      | none => (s.setPc p .ended).closePipe i
      | some x =>
        if q.there then { s.setPc p (.writing i (k + 1)) with pipes := s.pipes.set i { q with data := q.data ++ [(p, x)] } }
        else (s.setPc p .broken).closePipe i
    | none => s
  | _ => s

/-- Run `p` ends for another reason.  For instrumentation/c-cpp.lisp:312-342. -/
def HsState.kill (s : HsState) (p : Nat) : HsState :=
  match s.progs[p]? with
  | some (.writing i _) => (s.setPc p .killed).closePipe i
  | some pc => if pc.stopped then s else s.setPc p .killed
  | none => s

/-- What can happen.  For traceable.lisp:155-206 and instrumentation/c-cpp.lisp:312-342. -/
inductive HsEvent where
  | col
  | enough
  | giveUp
  | start
  | prog (p : Nat)
  | kill (p : Nat)
  deriving DecidableEq, Repr

/-- One event.  The test runs the program once or several times, one run after the other, or
also at the same time (`parallel`); `out p` is the trace of run `p`.
For traceable.lisp:155-206 and instrumentation/c-cpp.lisp:312-342. -/
def hsStep (parallel : Bool) (out : Nat → List U8) (s : HsState) : HsEvent → HsState
  | .col => s.colStep
  | .enough => s.enough
  | .giveUp => s.giveUp
  | .start => if parallel || s.progs.all HsPc.stopped then { s with progs := s.progs ++ [.look] } else s
  | .prog p => s.progStep p (out p)
  | .kill p => s.kill p

/-- Any sequence of events.  For traceable.lisp:155-206 and instrumentation/c-cpp.lisp:312-342. -/
def hsRun (parallel : Bool) (out : Nat → List U8) (s : HsState) (es : List HsEvent) : HsState :=
  es.foldl (hsStep parallel out) s

end TraceDB
