import Verif.Proofs.Collect
/-
C55: collection of traces.
-/
namespace TraceDB

/-- A collection never leaves more traces than it was asked for in a binary
database, whatever the test cases do and however errors are handled. -/
theorem C55_budget (n : Nat) (ignore : Nat → Bool) (runs : List TestRun) :
    (collectTraces collectTestCase (some n) ignore runs).1 ≤ n :=
  collectAll_count n ignore runs 0 0 (by omega)

/-- When all errors are ignored: as many traces as there are, up to the number asked
for; and an error was signalled exactly at the test cases that provide no trace and at
those that came when the number had been reached. -/
theorem C55_errors (n : Nat) (runs : List TestRun) :
    (collectTraces collectTestCase (some n) (fun _ => true) runs).1 = min n (totalAvailable runs) ∧
    (collectTraces collectTestCase (some n) (fun _ => true) runs).2.2 = .done ∧
    ∀ j, j ∈ (collectTraces collectTestCase (some n) (fun _ => true) runs).2.1 ↔
      ∃ run, runs[j]? = some run ∧ (n ≤ totalAvailable (runs.take j) ∨ available run = 0) := by
  have h := collectAll_ignoring n runs 0 0 (by omega)
  simpa [collectTraces] using h

/-- When no error is ignored, a collection whose number is reached before the last
test case ends in an error. -/
theorem C55_exhausted_is_error (n : Nat) (runs : List TestRun) (run : TestRun) (more : List TestRun)
    (hn : n ≤ totalAvailable runs) (hall : ∀ r ∈ runs, 0 < available r) :
    ∃ k, (collectTraces collectTestCase (some n) (fun _ => false) (runs ++ run :: more)).2.2 = .error k ∧
      k ≤ runs.length ∧ (collectTraces collectTestCase (some n) (fun _ => false) (runs ++ run :: more)).1 = n := by
  have key : ∀ (runs : List TestRun) (m k : Nat), m ≤ n → n ≤ m + totalAvailable runs →
      (∀ r ∈ runs, 0 < available r) →
      ∃ j, (collectAll collectTestCase (some n) (fun _ => false) m k (runs ++ run :: more)).2.2 = .error j ∧
        j ≤ k + runs.length ∧ (collectAll collectTestCase (some n) (fun _ => false) m k (runs ++ run :: more)).1 = n := by
    intro runs
    induction runs with
    | nil =>
      intro m k h1 h2 _
      have hm : m = n := by simp only [totalAvailable, List.map_nil, List.sum_nil] at h2; omega
      subst hm
      refine ⟨k, ?_, by omega, ?_⟩ <;>
        simp [collectAll, Budget.minus, collectTestCase_eq]
    | cons r runs ih =>
      intro m k h1 h2 h3
      have tot : totalAvailable (r :: runs) = available r + totalAvailable runs := by simp [totalAvailable]
      have hr := h3 r (by simp)
      by_cases hm : m = n
      · subst hm
        refine ⟨k, ?_, by omega, ?_⟩ <;>
          simp [collectAll, Budget.minus, collectTestCase_eq]
      · obtain ⟨j, j1, j2, j3⟩ := ih (m + min (n - m) (available r)) (k + 1) (by omega) (by omega)
          (fun r' hr' => h3 r' (List.mem_cons_of_mem _ hr'))
        have hz : ¬ (min (n - m) (available r) == 0) = true := by
          simp only [beq_iff_eq]
          omega
        refine ⟨j, ?_, by simp only [List.length_cons]; omega, ?_⟩
        · simp only [List.cons_append, collectAll, Budget.minus, Option.map_some, collectTestCase_eq, if_neg hz]
          exact j1
        · simp only [List.cons_append, collectAll, Budget.minus, Option.map_some, collectTestCase_eq, if_neg hz]
          exact j3
  have := key runs 0 0 (by omega) (by omega) hall
  simpa [collectTraces] using this

/-- In the list-based database the number is not respected. -/
theorem C55_list_based_unbounded (b : Budget) (ignore : Nat → Bool) (runs : List TestRun)
    (h : ∀ r ∈ runs, r.head? = some true) :
    collectTraces collectTestCaseSexp b ignore runs = (runs.length, [], .done) := by
  have key : ∀ (runs : List TestRun) (m k : Nat), (∀ r ∈ runs, r.head? = some true) →
      collectAll collectTestCaseSexp b ignore m k runs = (m + runs.length, [], .done) := by
    intro runs
    induction runs with
    | nil => intro m k _; rfl
    | cons r runs ih =>
      intro m k h
      have hr := h r (by simp)
      cases r with
      | nil => cases hr
      | cons x xs =>
        simp only [List.head?_cons, Option.some.injEq] at hr
        subst hr
        simp only [collectAll, collectTestCaseSexp, Bool.false_eq_true, if_false]
        rw [ih _ _ (fun r hr => h r (List.mem_cons_of_mem _ hr))]
        simp only [List.length_cons, Prod.mk.injEq, and_true]
        omega
  simpa [collectTraces] using key runs 0 0 h

/-- Three test cases with 2, 3 and 1 traces, and a number of 4. -/
def cRuns : List TestRun := [[true, true], [true, true, true], [true, false, true]]

example : collectTraces collectTestCase (some 4) (fun _ => true) cRuns = (4, [2], .done) ∧
    collectTraces collectTestCase (some 4) (fun _ => false) cRuns = (4, [2], .error 2) ∧
    collectTraces collectTestCase none (fun _ => false) cRuns = (6, [], .done) ∧
    (∀ r ∈ cRuns, 0 < available r) ∧ 4 ≤ totalAvailable (cRuns.take 2) ∧
    collectTraces collectTestCaseSexp (some 2) (fun _ => false) cRuns = (3, [], .done) := by decide

end TraceDB
