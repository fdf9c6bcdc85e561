/-
Collection of traces (traceable.lisp:70-260), counting traces only.
-/
namespace TraceDB

/-- What happens when a test case runs: for each trace that could be read the outcome
of handshake and `add-trace` (traceable.lisp:199-206); after the last one the process
has ended and there is no handshake. -/
abbrev TestRun := List Bool

/-- What remains of the budget; `none` is infinity.  For traceable.lisp:70-260. -/
abbrev Budget := Option Nat

/-- `(for i below num-traces)` has not ended yet (traceable.lisp:198). -/
def Budget.allows (b : Budget) (i : Nat) : Bool :=
  match b with
  | none => true
  | some n => decide (i < n)

/-- The loop of `collect-test-case-traces` (traceable.lisp:198-206): the value of `i`
at its end. -/
def collectLoop (b : Budget) : Nat → TestRun → Nat
  | i, [] => i
  | i, success :: run =>
    if b.allows i then
      if success then collectLoop b (i + 1) run else i
    else i

/-- The traces a test case adds to the binary database, and whether it signals
`trace-error` (traceable.lisp:157-224). -/
def collectTestCase (b : Budget) (run : TestRun) : Nat × Bool :=
  let i := collectLoop b 0 run
  (i, i == 0)

/-- The same for the list-based database (traceable.lisp:225-262): one trace is read,
whatever the budget. -/
def collectTestCaseSexp (_ : Budget) (run : TestRun) : Nat × Bool :=
  match run with
  | true :: _ => (1, false)
  | _ => (0, true)

/-- `num-traces` minus the number of traces (traceable.lisp:129).  A negative budget
allows no trace, like 0. -/
def Budget.minus (b : Budget) (n : Nat) : Budget := b.map (· - n)

/-- How a collection ends: normally, or by an error at one of the test cases.  For traceable.lisp:70-260. -/
inductive CollectEnd where
  | done
  | error (testCase : Nat)
  deriving DecidableEq, Repr

/-- The loop of `collect-traces` (traceable.lisp:127-131) on a database with `n`
traces from test case `k` on: the number of traces, and the test cases at which an
error was signalled.  `test` is `collect-test-case-traces`; `ignore` says for which test
cases the restart `ignore-empty-trace` is invoked; otherwise the error ends the
collection.  Simplification: the binary exists, and starting the test succeeds. -/
def collectAll (test : Budget → TestRun → Nat × Bool) (b : Budget) (ignore : Nat → Bool) :
    Nat → Nat → List TestRun → Nat × List Nat × CollectEnd
  | n, _, [] => (n, [], .done)
  | n, k, run :: runs =>
    let r := test (b.minus n) run
    if r.2 then
      if ignore k then
        let rest := collectAll test b ignore (n + r.1) (k + 1) runs
        (rest.1, k :: rest.2.1, rest.2.2)
      else (n + r.1, [k], .error k)
    else collectAll test b ignore (n + r.1) (k + 1) runs

/-- `collect-traces` (traceable.lisp:102-132): the database is reset first. -/
def collectTraces (test : Budget → TestRun → Nat × Bool) (b : Budget) (ignore : Nat → Bool) (runs : List TestRun) :
    Nat × List Nat × CollectEnd :=
  collectAll test b ignore 0 0 runs

end TraceDB
