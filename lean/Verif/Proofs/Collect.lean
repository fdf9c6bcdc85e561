import Verif.Spec.Collect
/-
Counting collected traces.
-/
namespace TraceDB

theorem collectLoop_eq (b : Budget) : ∀ (run : TestRun) (i : Nat), b.allows i = true →
    collectLoop b i run = match b with
      | none => i + available run
      | some n => min n (i + available run)
  | [], i, h => by
    cases b with
    | none => simp [collectLoop, available]
    | some n =>
      simp only [Budget.allows, decide_eq_true_eq] at h
      simp only [collectLoop, available, List.takeWhile_nil, List.length_nil, Nat.add_zero]
      omega
  | true :: run, i, h => by
    simp only [collectLoop, h, if_true]
    have e : available (true :: run) = available run + 1 := by simp [available]
    rw [e]
    cases b with
    | none =>
      rw [collectLoop_eq none run (i + 1) rfl]
      simp only []
      omega
    | some n =>
      simp only [Budget.allows, decide_eq_true_eq] at h
      by_cases h' : i + 1 < n
      · rw [collectLoop_eq (some n) run (i + 1) (by simp [Budget.allows, h'])]
        simp only []
        omega
      · have : collectLoop (some n) (i + 1) run = i + 1 := by
          cases run <;> simp [collectLoop, Budget.allows, h']
        rw [this]
        simp only []
        omega
  | false :: run, i, h => by
    simp only [collectLoop, h, if_true, Bool.false_eq_true, if_false]
    cases b with
    | none => simp [available]
    | some n =>
      simp only [Budget.allows, decide_eq_true_eq] at h
      simp only [available, List.takeWhile_cons, id, Bool.false_eq_true, if_false, List.length_nil]
      omega

/-- What a test case contributes. -/
theorem collectTestCase_eq (n : Nat) (run : TestRun) :
    collectTestCase (some n) run = (min n (available run), min n (available run) == 0) := by
  have e : collectLoop (some n) 0 run = min n (available run) := by
    rcases Nat.eq_zero_or_pos n with rfl | h
    · have : collectLoop (some 0) 0 run = 0 := by cases run <;> simp [collectLoop, Budget.allows]
      rw [this]
      omega
    · rw [collectLoop_eq (some n) run 0 (by simp [Budget.allows, h])]
      simp
  simp only [collectTestCase, e]

theorem collectAll_count (n : Nat) (ignore : Nat → Bool) : ∀ (runs : List TestRun) (m k : Nat), m ≤ n →
    (collectAll collectTestCase (some n) ignore m k runs).1 ≤ n
  | [], m, k, h => h
  | run :: runs, m, k, h => by
    simp only [collectAll, Budget.minus, Option.map_some, collectTestCase_eq]
    have hle : m + min (n - m) (available run) ≤ n := by omega
    split
    · split
      · exact collectAll_count n ignore runs _ _ hle
      · exact hle
    · exact collectAll_count n ignore runs _ _ hle

theorem collectAll_ignoring (n : Nat) : ∀ (runs : List TestRun) (m k : Nat), m ≤ n →
    (collectAll collectTestCase (some n) (fun _ => true) m k runs).1 = min n (m + totalAvailable runs) ∧
    (collectAll collectTestCase (some n) (fun _ => true) m k runs).2.2 = .done ∧
    ∀ j, j ∈ (collectAll collectTestCase (some n) (fun _ => true) m k runs).2.1 ↔
      ∃ run, k ≤ j ∧ runs[j - k]? = some run ∧ (n ≤ m + totalAvailable (runs.take (j - k)) ∨ available run = 0)
  | [], m, k, h => by
    refine ⟨?_, rfl, ?_⟩
    · simp [collectAll, totalAvailable]; omega
    · simp [collectAll]
  | run :: runs, m, k, h => by
    have hle : m + min (n - m) (available run) ≤ n := by omega
    obtain ⟨i1, i2, i3⟩ := collectAll_ignoring n runs (m + min (n - m) (available run)) (k + 1) hle
    have tot : totalAvailable (run :: runs) = available run + totalAvailable runs := by simp [totalAvailable]
    have rest : ∀ j, j ≠ k → ((∃ r, k ≤ j ∧ (run :: runs)[j - k]? = some r ∧
        (n ≤ m + totalAvailable ((run :: runs).take (j - k)) ∨ available r = 0)) ↔
        ∃ r, k + 1 ≤ j ∧ runs[j - (k + 1)]? = some r ∧
        (n ≤ m + min (n - m) (available run) + totalAvailable (runs.take (j - (k + 1))) ∨ available r = 0)) := by
      intro j hj
      constructor
      · rintro ⟨r, h1, h2, h3⟩
        have hs : j - k = (j - (k + 1)) + 1 := by omega
        rw [hs] at h2 h3
        rw [List.getElem?_cons_succ] at h2
        refine ⟨r, by omega, h2, h3.imp (fun h3 => ?_) id⟩
        rw [List.take_succ_cons] at h3
        have : totalAvailable (run :: runs.take (j - (k + 1))) =
          available run + totalAvailable (runs.take (j - (k + 1))) := by simp [totalAvailable]
        omega
      · rintro ⟨r, h1, h2, h3⟩
        have hs : j - k = (j - (k + 1)) + 1 := by omega
        rw [hs, List.getElem?_cons_succ, List.take_succ_cons]
        refine ⟨r, by omega, h2, h3.imp (fun h3 => ?_) id⟩
        have : totalAvailable (run :: runs.take (j - (k + 1))) =
          available run + totalAvailable (runs.take (j - (k + 1))) := by simp [totalAvailable]
        omega
    simp only [collectAll, Budget.minus, Option.map_some, collectTestCase_eq, if_true]
    by_cases hz : min (n - m) (available run) = 0
    · rw [hz] at i1 i2 i3 rest ⊢
      simp only [beq_self_eq_true, if_true]
      refine ⟨?_, i2, fun j => ?_⟩
      · rw [i1, tot]; omega
      · rw [List.mem_cons]
        by_cases hj : j = k
        · subst hj
          simp only [true_or, true_iff]
          refine ⟨run, Nat.le_refl _, by simp, ?_⟩
          simp only [Nat.sub_self, List.take_zero, totalAvailable, List.map_nil, List.sum_nil]
          omega
        · simp only [hj, false_or]
          rw [i3, rest j hj]
    · rw [if_neg (by simpa using hz)]
      refine ⟨?_, i2, fun j => ?_⟩
      · rw [i1, tot]; omega
      · by_cases hj : j = k
        · subst hj
          rw [i3]
          constructor
          · rintro ⟨_, h1, _⟩; omega
          · rintro ⟨r, _, h2, h3⟩
            simp only [Nat.sub_self, List.getElem?_cons_zero, Option.some.injEq] at h2
            subst h2
            simp only [Nat.sub_self, List.take_zero, totalAvailable, List.map_nil, List.sum_nil] at h3
            omega
        · rw [i3, rest j hj]

end TraceDB
