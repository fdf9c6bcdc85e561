import Verif.Model.Collect
/-
Collection of traces with what it creates: the binary, pipes, handshake files, processes
(traceable.lisp:80-266).  Assumptions on what is not in this repository: `with-temporary-file` and
`with-temporary-fifo` delete what they made however they are left, and nobody else touches the
binary.
-/
namespace TraceDB

/-- What compiling does (`phenome`, traceable.lisp:118, 151, 231): it may create the binary,
and it returns true or false, or signals an error. -/
structure CfCompile where
  creates : Bool
  error : Bool
  result : Bool

/-- What happens to an error: a restart is invoked, or it ends the collection.  A restart
that is not there at that place does not help.  For traceable.lisp:80-266. -/
inductive CfChoice where
  | unwind
  | skipTraceCollection
  | nilTraces
  | skipTestCase
  deriving DecidableEq, Repr

/-- One attempt to read a trace (traceable.lisp:201-208, 248-254): no handshake, a trace that
is added, `add-trace` returning false, or an error. -/
inductive CfAttempt (τ : Type) where
  | noHandshake
  | added (t : τ)
  | refused
  | failed

/-- What the collection depends on: the outcome of each compilation, what is done about its
error, whether starting the test of a test case succeeds, what its attempts give (after the
last one the process has ended), and whether the error about missing traces is ignored.  For traceable.lisp:80-266. -/
structure CfWorld (τ : Type) where
  compile : Nat → CfCompile
  choose : Nat → CfChoice
  starts : Nat → Bool
  attempts : Nat → List (CfAttempt τ)
  ignoreEmpty : Nat → Bool

/-- Why a collection was left.  For traceable.lisp:80-266. -/
inductive CfCause where
  | compile
  | start (k : Nat)
  | add (k : Nat)
  | empty (k : Nat)
  deriving DecidableEq, Repr

/-- How a piece of code is left: normally, by an error, or by returning from
`collect-traces`.  For traceable.lisp:80-266. -/
inductive CfExit (α : Type) where
  | value (a : α)
  | error (c : CfCause)
  | returned
  deriving DecidableEq, Repr

/-- Whether the binary is there, the number of pipes, whether the handshake file is there, the
test cases whose process was started and not waited for, the number of compilations, and the
slot `traces`: traces with the test case named in their metadata.  For traceable.lisp:80-266. -/
structure CfState (τ : Type) where
  bin : Bool
  pipes : Nat
  shake : Bool
  running : List Nat
  compiles : Nat
  db : Option (List (Nat × τ))

/-- A piece of code.  For traceable.lisp:80-266. -/
abbrev CfM (τ α : Type) := CfState τ → CfExit α × CfState τ

/-- One thing after the other.  For traceable.lisp:80-266. -/
def cfThen {τ α β : Type} (x : CfM τ α) (f : α → CfM τ β) : CfM τ β := fun s =>
  match x s with
  | (.value a, s) => f a s
  | (.error c, s) => (.error c, s)
  | (.returned, s) => (.returned, s)

/-- `with-possibly-existing-bin` (traceable.lisp:80-91).  `missing-bin` is evaluated outside of
`unwind-protect`.  Simplification: files and directories are not told apart. -/
def cfWithBin {τ : Type} (missing body : CfM τ Unit) : CfM τ Unit := fun s =>
  if s.bin then body s
  else match missing s with
    | (.value _, s) => let r := body s; (r.1, { r.2 with bin := false })
    | r => r

/-- `phenome`.  For traceable.lisp:80-266. -/
def cfPhenome {τ : Type} (w : CfWorld τ) : CfM τ Bool := fun s =>
  let c := w.compile s.compiles
  let s := { s with bin := s.bin || c.creates, compiles := s.compiles + 1 }
  if c.error then (.error .compile, s) else (.value c.result, s)

/-- The compilation in `collect-traces` with its restarts (traceable.lisp:117-125); the result is
not looked at. -/
def cfCompileAll {τ : Type} (w : CfWorld τ) : CfM τ Unit := fun s =>
  let n := s.compiles
  match cfPhenome w s with
  | (.value _, s) => (.value (), s)
  | (.error c, s) => match w.choose n with
    | .skipTraceCollection => (.returned, s)
    | .nilTraces => (.returned, { s with db := none })
    | _ => (.error c, s)
  | (.returned, s) => (.returned, s)

/-- The compilation for one test case (traceable.lisp:149-154, 229-238) in front of `rest`, which
the restart `skip-test-case` skips; `strict` says that a false result is an error, too
(list-based). -/
def cfTestWithBin {τ : Type} (w : CfWorld τ) (strict : Bool) (rest : CfM τ Unit) : CfM τ Unit := fun s =>
  if s.bin then rest s
  else
    let n := s.compiles
    let r := cfPhenome w s
    let bad : Bool := match r.1 with
      | .value b => strict && !b
      | _ => true
    if bad then
      match w.choose n with
      | .skipTestCase => (.value (), r.2)
      | _ => (.error .compile, r.2)
    else
      let r := rest r.2
      (r.1, { r.2 with bin := false })

/-- `start-test` (traceable.lisp:156-161, 241-246). -/
def cfStart {τ : Type} (w : CfWorld τ) (k : Nat) : CfM τ Unit := fun s =>
  if w.starts k then (.value (), { s with running := k :: s.running }) else (.error (.start k), s)

/-- `finish-test` (traceable.lisp:210, 266); it returns normally. -/
def cfFinish {τ : Type} (k : Nat) : CfM τ Unit := fun s =>
  (.value (), { s with running := s.running.erase k })

/-- `with-temporary-fifo`: the pipe is deleted however the body is left.  For traceable.lisp:80-266. -/
def cfWithPipe {τ α : Type} (body : CfM τ α) : CfM τ α := fun s =>
  let r := body { s with pipes := s.pipes + 1 }
  (r.1, { r.2 with pipes := r.2.pipes - 1 })

/-- `with-temporary-file` for the handshake file.  For traceable.lisp:80-266. -/
def cfWithShake {τ : Type} (body : CfM τ Unit) : CfM τ Unit := fun s =>
  let r := body s
  (r.1, { r.2 with shake := false })

/-- `add-trace` on the slot.  For traceable.lisp:80-266. -/
def CfState.add {τ : Type} (s : CfState τ) (k : Nat) (t : τ) : CfState τ :=
  { s with db := s.db.map (· ++ [(k, t)]) }

/-- Handshake and `add-trace` (traceable.lisp:166-208): the handshake writes the file, and the
instrumented process removes it when the handshake succeeds. -/
def cfAttempt {τ : Type} (k : Nat) (a : CfAttempt τ) : CfM τ Bool := fun s =>
  match a with
  | .noHandshake => (.value false, { s with shake := true })
  | .added t => (.value true, { s with shake := false }.add k t)
  | .refused => (.value false, { s with shake := false })
  | .failed => (.error (.add k), { s with shake := false })

/-- The loop of `collect-test-case-traces` (traceable.lisp:200-208): the value of `i` at its
end. -/
def cfLoop {τ : Type} (b : Budget) (k : Nat) : Nat → List (CfAttempt τ) → CfM τ Nat
  | i, [] => fun s =>
    if b.allows i then cfThen (cfWithPipe (cfAttempt k .noHandshake)) (fun _ s => (.value i, s)) s else (.value i, s)
  | i, a :: as => fun s =>
    if b.allows i then
      cfThen (cfWithPipe (cfAttempt k a)) (fun ok => if ok then cfLoop b k (i + 1) as else fun s => (.value i, s)) s
    else (.value i, s)

/-- The error about a test case without traces, and its restart (traceable.lisp:211-224). -/
def cfEmpty {τ : Type} (w : CfWorld τ) (k : Nat) (isEmpty : Bool) : CfM τ Unit := fun s =>
  if isEmpty && !w.ignoreEmpty k then (.error (.empty k), s) else (.value (), s)

/-- `collect-test-case-traces` for binary traces (traceable.lisp:147-224). -/
def cfTestBinary {τ : Type} (w : CfWorld τ) (b : Budget) (k : Nat) : CfM τ Unit :=
  cfTestWithBin w false (cfWithShake (cfThen (cfStart w k) fun _ =>
    cfThen (cfLoop b k 0 (w.attempts k)) fun i =>
      cfThen (cfFinish k) fun _ => cfEmpty w k (i == 0)))

/-- The only attempt of a list-based test case (traceable.lisp:247-265); there is no handshake,
and the restart `ignore-empty-trace` is also there for an error in `add-trace`. -/
def cfOnce {τ : Type} (w : CfWorld τ) (k : Nat) : CfM τ Unit := fun s =>
  match w.attempts k with
  | .added t :: _ => (.value (), s.add k t)
  | .failed :: _ => if w.ignoreEmpty k then (.value (), s) else (.error (.add k), s)
  | _ => if w.ignoreEmpty k then (.value (), s) else (.error (.empty k), s)

/-- `collect-test-case-traces` for list-based traces (traceable.lisp:226-266). -/
def cfTestSexp {τ : Type} (w : CfWorld τ) (_ : Budget) (k : Nat) : CfM τ Unit :=
  cfTestWithBin w true (cfWithPipe (cfThen (cfStart w k) fun _ =>
    cfThen (cfOnce w k) fun _ => cfFinish k))

/-- The two methods of `collect-test-case-traces`.  For traceable.lisp:80-266. -/
def cfTest {τ : Type} (sexp : Bool) (w : CfWorld τ) : Budget → Nat → CfM τ Unit :=
  if sexp then cfTestSexp w else cfTestBinary w

/-- The test cases in turn (traceable.lisp:127-131). -/
def cfTests {τ : Type} (test : Budget → Nat → CfM τ Unit) (b : Budget) : Nat → Nat → CfM τ Unit
  | _, 0 => fun s => (.value (), s)
  | k, n + 1 => fun s =>
    cfThen (test (b.minus (s.db.getD []).length) k) (fun _ => cfTests test b (k + 1) n) s

/-- `reset-traces` (traceable.lisp:95-100). -/
def cfReset {τ : Type} : CfM τ Unit := fun s => (.value (), { s with db := some [] })

/-- `collect-traces` (traceable.lisp:102-132) for `n` test cases. -/
def cfCollect {τ : Type} (sexp : Bool) (w : CfWorld τ) (b : Budget) (n : Nat) : CfM τ Unit :=
  cfWithBin (cfCompileAll w) (cfThen cfReset fun _ => cfTests (cfTest sexp w) b 0 n)

end TraceDB
