import Verif.Model.Collect
/-
Traces that test cases can provide.
-/
namespace TraceDB

/-- Traces a test case can provide: those before the first failure. -/
def available (run : TestRun) : Nat := (run.takeWhile id).length

/-- Traces all test cases can provide. -/
def totalAvailable (runs : List TestRun) : Nat := (runs.map available).sum

end TraceDB
