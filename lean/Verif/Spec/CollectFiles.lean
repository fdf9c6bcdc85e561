import Verif.Model.CollectFiles
import Verif.Spec.Collect
/-
What a collection should leave behind.
-/
namespace TraceDB

/-- The traces an attempt list provides: those before the first attempt that adds none. -/
def provided {τ : Type} : List (CfAttempt τ) → List τ
  | .added t :: as => t :: provided as
  | _ => []

/-- The first traces, as many as allowed. -/
def Budget.firsts {α : Type} (b : Budget) (l : List α) : List α :=
  match b with
  | none => l
  | some n => l.take n

/-- The traces of test case `k`, with its number. -/
def tagged {τ : Type} (k : Nat) (l : List τ) : List (Nat × τ) := l.map fun t => (k, t)

/-- The traces that the first `m` test cases provide, in order, if each gives what `f` says. -/
def providedBy {τ : Type} (f : Nat → List τ) (m : Nat) : List (Nat × τ) :=
  (List.range m).flatMap fun k => tagged k (f k)

/-- What test case `k` provides: all traces, or only the first one for list-based traces. -/
def gives {τ : Type} (sexp : Bool) (w : CfWorld τ) (k : Nat) : List τ :=
  if sexp then (provided (w.attempts k)).take 1 else provided (w.attempts k)

/-- List-based collections do not look at the number of traces asked for. -/
def obeyed (sexp : Bool) (b : Budget) : Budget := if sexp then none else b

/-- The test cases that have been run when a collection of `n` ends that way. -/
def CfExit.reached (n : Nat) : CfExit Unit → Nat
  | .value _ => n
  | .error (.add k) => k + 1
  | .error (.empty k) => k + 1
  | .error (.start k) => k
  | _ => 0

/-- The test cases whose process is left running when a test case or collection ends that way: its
output was not read to the end. -/
def leftRunning (sexp : Bool) : CfExit Unit → List Nat
  | .error (.add k) => [k]
  | .error (.empty k) => if sexp then [k] else []
  | _ => []

/-- The test cases that have been begun when a collection of `n` ends that way. -/
def CfExit.begun (n : Nat) : CfExit Unit → Nat
  | .value _ => n
  | .error (.add k) => k + 1
  | .error (.empty k) => k + 1
  | .error (.start k) => k + 1
  | _ => 0

/-- The binary can be used in all test cases: it is there, or the compilation makes it. -/
def Compiled {τ : Type} (w : CfWorld τ) (s : CfState τ) : Prop :=
  s.bin = true ∨ ((w.compile s.compiles).creates = true ∧ (w.compile s.compiles).error = false)

/-- The attempts of a test case for the model that only counts. -/
def asRun {τ : Type} (l : List (CfAttempt τ)) : TestRun :=
  l.map fun a => match a with
    | .added _ => true
    | _ => false

/-- How a collection ended for the model that only counts. -/
def CfExit.asEnd : CfExit Unit → CollectEnd
  | .error (.empty k) => .error k
  | _ => .done

end TraceDB
