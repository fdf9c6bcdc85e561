import Verif.Spec.CollectFiles
/-
What test cases and collections do to pipes, processes, the binary and the traces.
-/
namespace TraceDB

/-- What is known about the rest of a test case, after the compilation, whose result is `r`. -/
structure RestFacts {τ : Type} (w : CfWorld τ) (sexp : Bool) (k : Nat) (l : List τ) (s : CfState τ) (r : CfExit Unit × CfState τ) :
    Prop where
  pipes : r.2.pipes = s.pipes
  shake : s.shake = false → r.2.shake = false
  running : r.2.running = leftRunning sexp r.1 ++ s.running
  compiles : r.2.compiles = s.compiles
  bin : r.2.bin = s.bin
  db : r.2.db = s.db.map (· ++ tagged k (if w.starts k then l else []))
  ret : r.1 ≠ .returned
  cause : ∀ c, r.1 = .error c →
    (c = .start k ∧ w.starts k = false) ∨ (c = .add k ∧ w.starts k = true ∧ .failed ∈ w.attempts k ∧ (sexp = true → w.ignoreEmpty k = false)) ∨
      (c = .empty k ∧ w.starts k = true ∧ w.ignoreEmpty k = false ∧ l = [])
  value : ∀ u, r.1 = .value u → w.starts k = true ∧ (l = [] → w.ignoreEmpty k = true)

theorem Budget.firsts_step {α : Type} (b : Budget) (i : Nat) (h : b.allows i = true) (t : α) (l : List α) :
    (b.minus i).firsts (t :: l) = t :: (b.minus (i + 1)).firsts l := by
  cases b with
  | none => rfl
  | some n =>
    simp only [Budget.allows, decide_eq_true_eq] at h
    have : n - i = (n - (i + 1)) + 1 := by omega
    simp only [Budget.minus, Option.map_some, Budget.firsts, this, List.take_succ_cons]

theorem Budget.firsts_stop {α : Type} (b : Budget) (i : Nat) (h : b.allows i = false) (l : List α) :
    (b.minus i).firsts l = [] := by
  cases b with
  | none => simp [Budget.allows] at h
  | some n =>
    simp only [Budget.allows, decide_eq_false_iff_not] at h
    have : n - i = 0 := by omega
    simp only [Budget.minus, Option.map_some, Budget.firsts, this, List.take_zero]

theorem Budget.firsts_nil {α : Type} (b : Budget) : b.firsts ([] : List α) = [] := by
  cases b <;> simp [Budget.firsts]

/-- The loop. -/
theorem cfLoop_facts {τ : Type} (b : Budget) (k : Nat) (as : List (CfAttempt τ)) : ∀ (i : Nat) (s : CfState τ),
    ∃ sh, (cfLoop b k i as s).2 =
      { s with shake := sh, db := s.db.map (· ++ tagged k ((b.minus i).firsts (provided as))) } ∧
    ((∃ j, (cfLoop b k i as s).1 = .value j ∧ j = i + ((b.minus i).firsts (provided as)).length) ∨
      ((cfLoop b k i as s).1 = .error (.add k) ∧ .failed ∈ as)) := by
  have hid : ∀ s : CfState τ, s.db.map (· ++ tagged k ([] : List τ)) = s.db := by
    intro s; cases s.db <;> simp [tagged]
  induction as with
  | nil =>
    intro i s
    unfold cfLoop
    by_cases h : b.allows i = true
    · rw [if_pos h]
      refine ⟨true, ?_, .inl ⟨i, rfl, ?_⟩⟩
      · simp [cfThen, cfWithPipe, cfAttempt, provided, Budget.firsts_nil, tagged]
      · simp [provided, Budget.firsts_nil]
    · rw [if_neg h]
      refine ⟨s.shake, ?_, .inl ⟨i, rfl, ?_⟩⟩
      · simp [provided, Budget.firsts_nil, tagged]
      · simp [provided, Budget.firsts_nil]
  | cons a as ih =>
    intro i s
    unfold cfLoop
    by_cases h : b.allows i = true
    · rw [if_pos h]
      cases a with
      | noHandshake =>
        refine ⟨true, ?_, .inl ⟨i, rfl, ?_⟩⟩
        · simp [cfThen, cfWithPipe, cfAttempt, provided, Budget.firsts_nil, tagged]
        · simp [provided, Budget.firsts_nil]
      | refused =>
        refine ⟨false, ?_, .inl ⟨i, rfl, ?_⟩⟩
        · simp [cfThen, cfWithPipe, cfAttempt, provided, Budget.firsts_nil, tagged]
        · simp [provided, Budget.firsts_nil]
      | failed =>
        refine ⟨false, ?_, .inr ⟨rfl, by simp⟩⟩
        simp [cfThen, cfWithPipe, cfAttempt, provided, Budget.firsts_nil, tagged]
      | added t =>
        simp only [cfThen, cfWithPipe, cfAttempt, CfState.add, if_true, Nat.add_sub_cancel]
        obtain ⟨sh, h1, h2⟩ := ih (i + 1) { s with shake := false, db := s.db.map (· ++ [(k, t)]) }
        refine ⟨sh, ?_, ?_⟩
        · rw [h1]
          simp only [provided, Budget.firsts_step b i h, Option.map_map]
          congr 1
          cases s.db <;> simp [tagged]
        · rcases h2 with ⟨j, h2, h3⟩ | ⟨h2, h3⟩
          · refine .inl ⟨j, h2, ?_⟩
            rw [h3]; simp only [provided, Budget.firsts_step b i h, List.length_cons]; omega
          · exact .inr ⟨h2, by simp [h3]⟩
    · have h : b.allows i = false := by simpa using h
      rw [if_neg (by simp [h])]
      refine ⟨s.shake, ?_, .inl ⟨i, rfl, ?_⟩⟩
      · rw [Budget.firsts_stop b i h, hid]
      · rw [Budget.firsts_stop b i h]; rfl

theorem Budget.minus_zero (b : Budget) : b.minus 0 = b := by cases b <;> simp [Budget.minus]

/-- The rest of a test case for binary traces. -/
theorem restBinary {τ : Type} (w : CfWorld τ) (b : Budget) (k : Nat) (s : CfState τ) :
    RestFacts w false k (b.firsts (provided (w.attempts k))) s
      (cfWithShake (cfThen (cfStart w k) fun _ => cfThen (cfLoop b k 0 (w.attempts k)) fun i =>
        cfThen (cfFinish k) fun _ => cfEmpty w k (i == 0)) s) := by
  by_cases hs : w.starts k = true
  · simp only [cfWithShake, cfThen, cfStart, hs, if_true]
    obtain ⟨sh, h1, h2⟩ := cfLoop_facts b k (w.attempts k) 0 { s with running := k :: s.running }
    rw [Budget.minus_zero] at h1 h2
    generalize cfLoop b k 0 (w.attempts k) { s with running := k :: s.running } = r at h1 h2
    obtain ⟨e, s'⟩ := r
    simp only at h1 h2
    subst h1
    rcases h2 with ⟨j, h2, h3⟩ | ⟨h2, h3⟩
    · subst h2
      simp only [Nat.zero_add] at h3
      by_cases hj : (j == 0 && !w.ignoreEmpty k) = true
      · have hj' := hj
        simp only [Bool.and_eq_true, beq_iff_eq, Bool.not_eq_true'] at hj'
        have hl : b.firsts (provided (w.attempts k)) = [] := by
          rw [hj'.1] at h3; exact List.eq_nil_of_length_eq_zero h3.symm
        simp only [cfFinish, cfEmpty, hj, if_true]
        constructor <;> simp [leftRunning, hs, hl, hj'.2]
      · simp only [cfFinish, cfEmpty, hj]
        constructor <;> simp [leftRunning, hs]
        intro hl
        simp only [hl, List.length_nil] at h3
        simpa [h3] using hj
    · subst h2
      constructor <;> simp [leftRunning, hs, h3]
  · have hs : w.starts k = false := by simpa using hs
    simp only [cfWithShake, cfThen, cfStart, hs]
    constructor <;> simp [leftRunning, hs, tagged]

/-- The rest of a test case for list-based traces. -/
theorem restSexp {τ : Type} (w : CfWorld τ) (k : Nat) (s : CfState τ) :
    RestFacts w true k ((provided (w.attempts k)).take 1) s
      (cfWithPipe (cfThen (cfStart w k) fun _ => cfThen (cfOnce w k) fun _ => cfFinish k) s) := by
  by_cases hs : w.starts k = true
  · simp only [cfWithPipe, cfThen, cfStart, hs, if_true, cfOnce]
    cases hw : w.attempts k with
    | nil =>
      by_cases hi : w.ignoreEmpty k = true
      · simp only [hi, if_true, cfFinish]
        constructor <;> simp [leftRunning, hs, provided, tagged, hi]
      · simp only [hi, cfFinish]
        constructor <;> simp [leftRunning, hs, provided, tagged, hi]
    | cons a as =>
      cases a <;> by_cases hi : w.ignoreEmpty k = true <;> simp only [hi, if_true, cfFinish] <;>
        constructor <;> simp [leftRunning, hs, provided, tagged, hi, CfState.add, hw]
  · have hs : w.starts k = false := by simpa using hs
    simp only [cfWithPipe, cfThen, cfStart, hs]
    constructor <;> simp [leftRunning, hs, tagged]

/-- What is known about a whole test case. -/
structure TestFacts {τ : Type} (w : CfWorld τ) (sexp : Bool) (k : Nat) (l : List τ) (s : CfState τ) (r : CfExit Unit × CfState τ) :
    Prop where
  pipes : r.2.pipes = s.pipes
  shake : s.shake = false → r.2.shake = false
  running : r.2.running = leftRunning sexp r.1 ++ s.running
  compiles : r.2.compiles ≤ s.compiles + 1
  db : ∃ l', l'.Sublist l ∧ (w.starts k = false → l' = []) ∧ r.2.db = s.db.map (· ++ tagged k l')
  ret : r.1 ≠ .returned
  present : s.bin = true → RestFacts w sexp k l s r
  missing : s.bin = false → (w.compile s.compiles).creates = false → (w.compile s.compiles).error = false →
    (w.compile s.compiles).result = true → r.2.bin = false ∧ r.2.compiles = s.compiles + 1 ∧
      r.1 ≠ .error .compile
  cause : ∀ c, r.1 = .error c →
    c = .compile ∨
    (c = .start k ∧ w.starts k = false) ∨ (c = .add k ∧ w.starts k = true ∧ .failed ∈ w.attempts k ∧ (sexp = true → w.ignoreEmpty k = false)) ∨
      (c = .empty k ∧ w.starts k = true ∧ w.ignoreEmpty k = false ∧ l = [])

theorem testFacts {τ : Type} (w : CfWorld τ) (sexp : Bool) (k : Nat) (l : List τ) (rest : CfM τ Unit)
    (h : ∀ s, RestFacts w sexp k l s (rest s)) (s : CfState τ) :
    TestFacts w sexp k l s (cfTestWithBin w sexp rest s) := by
  unfold cfTestWithBin
  have hid : ∀ s : CfState τ, s.db = s.db.map (· ++ tagged k ([] : List τ)) := by
    intro s; cases s.db <;> simp [tagged]
  have hdb : ∀ s : CfState τ, ∃ l', l'.Sublist l ∧ (w.starts k = false → l' = []) ∧
      (rest s).2.db = s.db.map (· ++ tagged k l') := by
    intro s
    refine ⟨if w.starts k then l else [], ?_, ?_, (h s).db⟩
    · split
      · exact List.Sublist.refl _
      · exact List.nil_sublist _
    · intro h; simp [h]
  by_cases hb : s.bin = true
  · rw [if_pos hb]
    have hr := h s
    constructor
    · exact hr.pipes
    · exact hr.shake
    · exact hr.running
    · rw [hr.compiles]; omega
    · exact hdb s
    · exact hr.ret
    · exact fun _ => hr
    · intro hb'; rw [hb] at hb'; cases hb'
    · exact fun c hc => .inr (hr.cause c hc)
  · rw [if_neg hb]
    have hb : s.bin = false := by simpa using hb
    simp only [cfPhenome, hb, Bool.false_or]
    generalize hc : w.compile s.compiles = c
    obtain ⟨cr, er, rs⟩ := c
    simp only
    have hskip : ∀ (e : CfExit Unit), (e = .value () ∨ e = .error .compile) → (er = true ∨ (sexp = true ∧ rs = false)) →
        TestFacts w sexp k l s (e, { s with bin := cr, compiles := s.compiles + 1 }) := by
      intro e he hbad
      constructor
      · rfl
      · exact id
      · rcases he with rfl | rfl <;> rfl
      · exact Nat.le_refl _
      · exact ⟨[], List.nil_sublist _, fun _ => rfl, hid s⟩
      · rcases he with rfl | rfl <;> simp
      · intro hb'; rw [hb] at hb'; cases hb'
      · intro _ _ h2 h3
        rw [hc] at h2 h3
        simp only at h2 h3
        rcases hbad with h | ⟨_, h⟩
        · rw [h] at h2; cases h2
        · rw [h] at h3; cases h3
      · rcases he with rfl | rfl <;> simp
    have hgo : TestFacts w sexp k l s ((rest { s with bin := cr, compiles := s.compiles + 1 }).1,
        { (rest { s with bin := cr, compiles := s.compiles + 1 }).2 with bin := false }) := by
      have hr := h { s with bin := cr, compiles := s.compiles + 1 }
      constructor
      · exact hr.pipes
      · exact hr.shake
      · exact hr.running
      · exact Nat.le_of_eq hr.compiles
      · exact hdb { s with bin := cr, compiles := s.compiles + 1 }
      · exact hr.ret
      · intro hb'; rw [hb] at hb'; cases hb'
      · intro _ _ _ _
        refine ⟨rfl, hr.compiles, fun hx => ?_⟩
        rcases hr.cause _ hx with ⟨h, _⟩ | ⟨h, _⟩ | ⟨h, _⟩ <;> cases h
      · exact fun c hc => .inr (hr.cause c hc)
    cases er with
    | true =>
      simp only [if_true]
      cases w.choose s.compiles <;> exact hskip _ (by simp) (.inl rfl)
    | false =>
      simp only [Bool.false_eq_true, if_false]
      by_cases hbad : (sexp && !rs) = true
      · simp only [hbad, if_true]
        simp only [Bool.and_eq_true, Bool.not_eq_true'] at hbad
        cases w.choose s.compiles <;> exact hskip _ (by simp) (.inr hbad)
      · simp only [hbad]
        exact hgo

theorem testBinary {τ : Type} (w : CfWorld τ) (b : Budget) (k : Nat) (s : CfState τ) :
    TestFacts w false k (b.firsts (provided (w.attempts k))) s (cfTestBinary w b k s) :=
  testFacts w false k _ _ (restBinary w b k) s

theorem testSexp {τ : Type} (w : CfWorld τ) (b : Budget) (k : Nat) (s : CfState τ) :
    TestFacts w true k ((provided (w.attempts k)).take 1) s (cfTestSexp w b k s) :=
  testFacts w true k _ _ (restSexp w k) s

theorem Budget.minus_minus (b : Budget) (m n : Nat) : b.minus (m + n) = (b.minus m).minus n := by
  cases b with
  | none => rfl
  | some x => simp [Budget.minus, Nat.sub_add_eq]

theorem tagged_firsts {τ : Type} (k : Nat) (b : Budget) (l : List τ) : tagged k (b.firsts l) = b.firsts (tagged k l) := by
  cases b with
  | none => rfl
  | some n => simp [Budget.firsts, tagged, List.map_take]

theorem Budget.firsts_append {α : Type} (b : Budget) (l m : List α) :
    b.firsts (l ++ m) = b.firsts l ++ (b.minus (b.firsts l).length).firsts m := by
  cases b with
  | none => rfl
  | some n =>
    simp only [Budget.firsts, Budget.minus, Option.map_some, List.take_append, List.length_take]
    congr 2
    omega

theorem Budget.firsts_sublist {α : Type} (b : Budget) (l : List α) : (b.firsts l).Sublist l := by
  cases b with
  | none => exact List.Sublist.refl _
  | some n => exact List.take_sublist n l

/-- The traces of the test cases `k`, …, `k + m - 1`. -/
def providedFrom {τ : Type} (f : Nat → List τ) (k m : Nat) : List (Nat × τ) :=
  (List.range' k m).flatMap fun k => tagged k (f k)

theorem providedFrom_succ {τ : Type} (f : Nat → List τ) (k m : Nat) :
    providedFrom f k (m + 1) = tagged k (f k) ++ providedFrom f (k + 1) m := by
  simp [providedFrom, List.range'_succ]

theorem providedFrom_zero {τ : Type} (f : Nat → List τ) (m : Nat) : providedFrom f 0 m = providedBy f m := by
  simp [providedFrom, providedBy, List.range_eq_range']

/-- What is known about running the test cases from `k` on. -/
structure TestsFacts {τ : Type} (w : CfWorld τ) (sexp : Bool) (P : Nat → List τ) (b : Budget) (k n : Nat)
    (l₀ : List (Nat × τ)) (s : CfState τ) (r : CfExit Unit × CfState τ) : Prop where
  pipes : r.2.pipes = s.pipes
  shake : s.shake = false → r.2.shake = false
  running : r.2.running = leftRunning sexp r.1 ++ s.running
  compiles : r.2.compiles ≤ s.compiles + n
  db : ∃ l, r.2.db = some (l₀ ++ l) ∧ l.Sublist (providedFrom P k n) ∧ (b.minus l₀.length).firsts l = l
  ret : r.1 ≠ .returned
  present : s.bin = true → r.2.bin = true ∧ r.2.compiles = s.compiles ∧
    r.2.db = some (l₀ ++ (b.minus l₀.length).firsts (providedFrom P k (r.1.reached (k + n) - k))) ∧
    r.1 ≠ .error .compile
  missing : s.bin = false → (∀ m, (w.compile m).creates = false ∧ (w.compile m).error = false ∧
    (w.compile m).result = true) → r.2.compiles = s.compiles + (r.1.begun (k + n) - k) ∧ r.1 ≠ .error .compile
  cause : ∀ c, r.1 = .error c →
    c = .compile ∨ ∃ j, k ≤ j ∧ j < k + n ∧
    ((c = .start j ∧ w.starts j = false) ∨ (c = .add j ∧ w.starts j = true ∧ .failed ∈ w.attempts j ∧ (sexp = true → w.ignoreEmpty j = false)) ∨
      (c = .empty j ∧ w.starts j = true ∧ w.ignoreEmpty j = false ∧ ∃ l, r.2.db = some l ∧ ∀ e ∈ l, e ∈ l₀ ∨ e.1 < j))

theorem Budget.firsts_of_sublist {α : Type} (b : Budget) (l m : List α) (h : l.Sublist (b.firsts m)) : b.firsts l = l := by
  cases b with
  | none => rfl
  | some n =>
    have h1 := h.length_le
    simp only [Budget.firsts, List.length_take] at h1 ⊢
    exact List.take_of_length_le (by omega)

theorem tagged_length {τ : Type} (k : Nat) (l : List τ) : (tagged k l).length = l.length := by simp [tagged]

theorem cfTests_facts {τ : Type} (w : CfWorld τ) (sexp : Bool) (P : Nat → List τ) (test : Budget → Nat → CfM τ Unit) (b : Budget)
    (ht : ∀ m k s, TestFacts w sexp k ((b.minus m).firsts (P k)) s (test (b.minus m) k s)) (n : Nat) :
    ∀ (k : Nat) (s : CfState τ) (l₀ : List (Nat × τ)), s.db = some l₀ →
      TestsFacts w sexp P b k n l₀ s (cfTests test b k n s) := by
  induction n with
  | zero =>
    intro k s l₀ hdb
    unfold cfTests
    constructor <;> simp [leftRunning, hdb, CfExit.reached, CfExit.begun, providedFrom, Budget.firsts_nil]
  | succ n ih =>
    intro k s l₀ hdb
    have hk := ht l₀.length k s
    unfold cfTests
    simp only [hdb, Option.getD_some]
    unfold cfThen
    generalize test (b.minus l₀.length) k s = r at hk
    obtain ⟨e, s1⟩ := r
    obtain ⟨l', hl1, hl2, hl3⟩ := hk.db
    simp only [hdb, Option.map_some] at hl3
    have hfl : (b.minus l₀.length).firsts l' = l' := Budget.firsts_of_sublist _ _ _ hl1
    have hsub : (tagged k l').Sublist (tagged k (P k)) := (hl1.trans (Budget.firsts_sublist _ _)).map _
    cases e with
    | returned => exact absurd rfl hk.ret
    | error c =>
      simp only
      constructor
      · exact hk.pipes
      · exact hk.shake
      · exact hk.running
      · have := hk.compiles; simp only at this ⊢; omega
      · refine ⟨tagged k l', hl3, ?_, ?_⟩
        · rw [providedFrom_succ]
          exact hsub.trans (List.sublist_append_left _ _)
        · rw [← tagged_firsts, hfl]
      · exact hk.ret
      · intro hb
        have hp := hk.present hb
        refine ⟨by rw [hp.bin, hb], hp.compiles, ?_, ?_⟩
        · rw [hp.db, hdb]
          simp only [Option.map_some]
          congr 2
          rcases hp.cause c rfl with ⟨rfl, h2⟩ | ⟨rfl, h2, _⟩ | ⟨rfl, h2, _⟩
          · simp [h2, CfExit.reached, providedFrom, tagged, Budget.firsts_nil]
          · simp [h2, CfExit.reached, providedFrom, tagged_firsts, Nat.add_sub_cancel_left]
          · simp [h2, CfExit.reached, providedFrom, tagged_firsts, Nat.add_sub_cancel_left]
        · intro hc
          injection hc with hc
          subst hc
          rcases hp.cause _ rfl with ⟨h, _⟩ | ⟨h, _⟩ | ⟨h, _⟩ <;> cases h
      · intro hb hw
        have hcm := (hw s.compiles)
        obtain ⟨h1, h2, h3⟩ := hk.missing hb hcm.1 hcm.2.1 hcm.2.2
        refine ⟨?_, h3⟩
        simp only at h2 h3
        simp only [h2]
        rcases hk.cause c rfl with rfl | ⟨rfl, _⟩ | ⟨rfl, _⟩ | ⟨rfl, _⟩
        · exact absurd rfl h3
        all_goals simp only [CfExit.begun]; omega
      · intro c' hc'
        injection hc' with hc'
        subst hc'
        rcases hk.cause c rfl with h | ⟨h1, h2⟩ | ⟨h1, h2⟩ | ⟨h1, h2, h3, h4⟩
        · exact .inl h
        · exact .inr ⟨k, by omega, by omega, .inl ⟨h1, h2⟩⟩
        · exact .inr ⟨k, by omega, by omega, .inr (.inl ⟨h1, h2⟩)⟩
        · refine .inr ⟨k, by omega, by omega, .inr (.inr ⟨h1, h2, h3, _, hl3, ?_⟩)⟩
          rw [h4] at hl1
          rw [List.sublist_nil.mp hl1]
          intro e he
          simp only [tagged, List.map_nil, List.append_nil] at he
          exact .inl he
    | value u =>
      simp only
      have hi := ih (k + 1) s1 _ hl3
      have harr : k + 1 + n = k + (n + 1) := by omega
      have hbound : (cfTests test b (k + 1) n s1).1 ≠ .error .compile →
          k + 1 ≤ (cfTests test b (k + 1) n s1).1.reached (k + (n + 1)) ∧
          k + 1 ≤ (cfTests test b (k + 1) n s1).1.begun (k + (n + 1)) := by
        intro hx
        have hret := hi.ret
        have hcause := hi.cause
        generalize (cfTests test b (k + 1) n s1).1 = e at hx hret hcause
        cases e with
        | value u => simp only [CfExit.reached, CfExit.begun]; omega
        | returned => exact absurd rfl hret
        | error c =>
          rcases hcause c rfl with rfl | ⟨j, h1, h2, h3⟩
          · exact absurd rfl hx
          · rcases h3 with ⟨rfl, _⟩ | ⟨rfl, _⟩ | ⟨rfl, _⟩ <;> simp only [CfExit.reached, CfExit.begun] <;> omega
      constructor
      · rw [hi.pipes]; exact hk.pipes
      · exact fun h => hi.shake (hk.shake h)
      · rw [hi.running]
        have := hk.running
        simp only [leftRunning, List.nil_append] at this
        rw [this]
      · have h1 := hi.compiles
        have h2 := hk.compiles
        simp only at h2
        omega
      · obtain ⟨l, h1, h2, h3⟩ := hi.db
        refine ⟨tagged k l' ++ l, by rw [h1, List.append_assoc], ?_, ?_⟩
        · rw [providedFrom_succ]
          exact List.Sublist.append hsub h2
        · rw [Budget.firsts_append, ← tagged_firsts, hfl, tagged_length]
          rw [List.length_append, tagged_length, Budget.minus_minus] at h3
          rw [h3]
      · exact hi.ret
      · intro hb
        have hp := hk.present hb
        have hb1 : s1.bin = true := by rw [← hb]; exact hp.bin
        obtain ⟨h1, h2, h3, h4⟩ := hi.present hb1
        refine ⟨h1, by rw [h2]; exact hp.compiles, ?_, h4⟩
        have hst := (hp.value u rfl).1
        have hl' : l₀ ++ tagged k l' = l₀ ++ tagged k ((b.minus l₀.length).firsts (P k)) := by
          have := hp.db
          simp only [hdb, hl3, hst, if_true, Option.map_some, Option.some.injEq] at this
          exact this
        have hl' := List.append_cancel_left hl'
        rw [h3, hl', List.append_assoc]
        congr 2
        have hge := (hbound h4).1
        rw [harr]
        generalize (cfTests test b (k + 1) n s1).1.reached (k + (n + 1)) = m at hge
        obtain ⟨d, rfl⟩ : ∃ d, m = k + 1 + d := ⟨m - (k + 1), by omega⟩
        rw [show k + 1 + d - (k + 1) = d by omega, show k + 1 + d - k = d + 1 by omega, providedFrom_succ,
          Budget.firsts_append, ← tagged_firsts, tagged_length, List.length_append, tagged_length,
          Budget.minus_minus]
      · intro hb hw
        obtain ⟨h1, h2, h3⟩ := hk.missing hb (hw _).1 (hw _).2.1 (hw _).2.2
        obtain ⟨h4, h5⟩ := hi.missing h1 hw
        refine ⟨?_, h5⟩
        have hge := (hbound h5).2
        rw [harr] at h4
        rw [h4]
        simp only at h2
        omega
      · intro c hc
        rcases hi.cause c hc with h | ⟨j, h1, h2, h3⟩
        · exact .inl h
        · refine .inr ⟨j, by omega, by omega, ?_⟩
          rcases h3 with h3 | h3 | ⟨h4, h5, h6, l, h7, h8⟩
          · exact .inl h3
          · exact .inr (.inl h3)
          · refine .inr (.inr ⟨h4, h5, h6, l, h7, fun e he => ?_⟩)
            rcases h8 e he with h | h
            · rw [List.mem_append] at h
              rcases h with h | h
              · exact .inl h
              · simp only [tagged, List.mem_map] at h
                obtain ⟨t, _, rfl⟩ := h
                exact .inr (by simp only; omega)
            · exact .inr h

theorem cfTests_sexp {τ : Type} (w : CfWorld τ) (b c : Budget) (n : Nat) : ∀ (k : Nat) (s : CfState τ),
    cfTests (cfTestSexp w) b k n s = cfTests (cfTestSexp w) c k n s := by
  induction n with
  | zero => intro k s; rfl
  | succ n ih =>
    intro k s
    unfold cfTests
    have h1 : (fun (_ : Unit) => cfTests (cfTestSexp w) b (k + 1) n) = fun _ => cfTests (cfTestSexp w) c (k + 1) n := by
      funext _ s; exact ih (k + 1) s
    rw [h1]
    rfl

/-- What running all test cases does. -/
theorem allTests_facts {τ : Type} (sexp : Bool) (w : CfWorld τ) (b : Budget) (n : Nat) (s : CfState τ) :
    TestsFacts w sexp (gives sexp w) (obeyed sexp b) 0 n [] { s with db := some [] }
      (cfTests (cfTest sexp w) b 0 n { s with db := some [] }) := by
  cases sexp with
  | false => exact cfTests_facts w false _ (cfTestBinary w) b (fun m k s => testBinary w (b.minus m) k s) n 0 _ [] rfl
  | true =>
    show TestsFacts w true (gives true w) none 0 n [] { s with db := some [] }
      (cfTests (cfTestSexp w) b 0 n { s with db := some [] })
    rw [cfTests_sexp w b none]
    exact cfTests_facts w true _ (cfTestSexp w) none (fun m k s => testSexp w _ k s) n 0 _ [] rfl

theorem cfCollect_present {τ : Type} (sexp : Bool) (w : CfWorld τ) (b : Budget) (n : Nat) (s : CfState τ) (h : s.bin = true) :
    cfCollect sexp w b n s = cfTests (cfTest sexp w) b 0 n { s with db := some [] } := by
  simp [cfCollect, cfWithBin, h, cfThen, cfReset]

theorem cfCollect_compiled {τ : Type} (sexp : Bool) (w : CfWorld τ) (b : Budget) (n : Nat) (s : CfState τ) (h : s.bin = false)
    (he : (w.compile s.compiles).error = false) :
    cfCollect sexp w b n s =
      ((cfTests (cfTest sexp w) b 0 n
          { { s with bin := (w.compile s.compiles).creates, compiles := s.compiles + 1 } with db := some [] }).1,
        { (cfTests (cfTest sexp w) b 0 n
          { { s with bin := (w.compile s.compiles).creates, compiles := s.compiles + 1 } with db := some [] }).2 with
          bin := false }) := by
  simp [cfCollect, cfWithBin, h, cfThen, cfReset, cfCompileAll, cfPhenome, he]

theorem cfCollect_failed {τ : Type} (sexp : Bool) (w : CfWorld τ) (b : Budget) (n : Nat) (s : CfState τ) (h : s.bin = false)
    (he : (w.compile s.compiles).error = true) :
    cfCollect sexp w b n s =
      (if w.choose s.compiles = .skipTraceCollection ∨ w.choose s.compiles = .nilTraces then .returned else .error .compile,
       { s with bin := (w.compile s.compiles).creates, compiles := s.compiles + 1,
                db := if w.choose s.compiles = .nilTraces then none else s.db }) := by
  simp only [cfCollect, cfWithBin, h, cfCompileAll, cfPhenome, he]
  cases w.choose s.compiles <;> simp

/-- The three ways a collection goes. -/
theorem cfCollect_cases {τ : Type} (w : CfWorld τ) (s : CfState τ) :
    s.bin = true ∨ (s.bin = false ∧ (w.compile s.compiles).error = false) ∨
      (s.bin = false ∧ (w.compile s.compiles).error = true) := by
  cases s.bin <;> cases (w.compile s.compiles).error <;> simp

theorem collectLoop_asRun {τ : Type} (b : Budget) (as : List (CfAttempt τ)) : ∀ i,
    collectLoop b i (asRun as) = i + ((b.minus i).firsts (provided as)).length := by
  induction as with
  | nil => intro i; simp [asRun, collectLoop, provided, Budget.firsts_nil]
  | cons a as ih =>
    intro i
    by_cases h : b.allows i = true
    · cases a with
      | added t =>
        simp only [asRun, List.map_cons, collectLoop, h, if_true, provided, Budget.firsts_step b i h, List.length_cons]
        have := ih (i + 1)
        simp only [asRun] at this
        rw [this]; omega
      | noHandshake => simp [asRun, collectLoop, h, provided, Budget.firsts_nil]
      | refused => simp [asRun, collectLoop, h, provided, Budget.firsts_nil]
      | failed => simp [asRun, collectLoop, h, provided, Budget.firsts_nil]
    · have h : b.allows i = false := by simpa using h
      simp [asRun, collectLoop, h, Budget.firsts_stop b i h]

/-- The test case of the model that only counts. -/
theorem countTest {τ : Type} (sexp : Bool) (w : CfWorld τ) (b : Budget) (k : Nat) :
    (if sexp then collectTestCaseSexp else collectTestCase) b (asRun (w.attempts k)) =
      (((obeyed sexp b).firsts (gives sexp w k)).length, ((obeyed sexp b).firsts (gives sexp w k)).length == 0) := by
  cases sexp with
  | false =>
    simp only [collectTestCase, obeyed, gives, Bool.false_eq_true, if_false, collectLoop_asRun, Budget.minus_zero, Nat.zero_add]
  | true =>
    simp only [if_true, obeyed, gives, Budget.firsts]
    cases w.attempts k with
    | nil => rfl
    | cons a as => cases a <;> rfl

theorem testAny {τ : Type} (sexp : Bool) (w : CfWorld τ) (b : Budget) (k : Nat) (s : CfState τ) :
    TestFacts w sexp k ((obeyed sexp b).firsts (gives sexp w k)) s (cfTest sexp w b k s) := by
  cases sexp with
  | false => exact testBinary w b k s
  | true => exact testSexp w b k s

theorem obeyed_minus (sexp : Bool) (b : Budget) (m : Nat) : obeyed sexp (b.minus m) = (obeyed sexp b).minus m := by
  cases sexp <;> rfl

/-- The number of traces and the end of the collection are those of the model that only counts. -/
theorem cfTests_count {τ : Type} (sexp : Bool) (w : CfWorld τ) (b : Budget) (hs : ∀ k, w.starts k = true)
    (hf : ∀ k, CfAttempt.failed ∉ w.attempts k) (n : Nat) : ∀ (k : Nat) (s : CfState τ) (l₀ : List (Nat × τ)),
    s.db = some l₀ → s.bin = true →
    ((((cfTests (cfTest sexp w) b k n s).2.db.getD []).length, (cfTests (cfTest sexp w) b k n s).1.asEnd) =
      ((collectAll (if sexp then collectTestCaseSexp else collectTestCase) b w.ignoreEmpty l₀.length k
          ((List.range' k n).map fun j => asRun (w.attempts j))).1,
       (collectAll (if sexp then collectTestCaseSexp else collectTestCase) b w.ignoreEmpty l₀.length k
          ((List.range' k n).map fun j => asRun (w.attempts j))).2.2)) := by
  induction n with
  | zero => intro k s l₀ hdb _; simp [cfTests, hdb, collectAll, CfExit.asEnd]
  | succ n ih =>
    intro k s l₀ hdb hb
    rw [List.range'_succ, List.map_cons]
    unfold cfTests collectAll
    have ht := (testAny sexp w (b.minus l₀.length) k s).present hb
    simp only [hdb, Option.getD_some, countTest]
    generalize (obeyed sexp (b.minus l₀.length)).firsts (gives sexp w k) = l at ht
    unfold cfThen
    generalize cfTest sexp w (b.minus l₀.length) k s = r at ht
    obtain ⟨e, s1⟩ := r
    have h1 := ht.db
    simp only [hdb, hs, if_true, Option.map_some] at h1
    cases e with
    | returned => exact absurd rfl ht.ret
    | error c =>
      rcases ht.cause c rfl with ⟨_, h⟩ | ⟨_, _, h, _⟩ | ⟨rfl, _, h2, rfl⟩
      · rw [hs] at h; cases h
      · exact absurd h (hf k)
      · simp [h1, h2, tagged, CfExit.asEnd]
    | value u =>
      have h2 := (ht.value u rfl).2
      have hi := ih (k + 1) s1 _ h1 (by rw [← hb]; exact ht.bin)
      rw [List.length_append, tagged_length] at hi
      simp only
      cases l with
      | nil => simp only [List.length_nil] at hi ⊢; simp only [beq_self_eq_true, if_true, h2]; exact hi
      | cons t l => simpa using hi

/-- When all test cases end normally, each one did. -/
theorem cfTests_value {τ : Type} (sexp : Bool) (w : CfWorld τ) (n : Nat) : ∀ (k : Nat) (s : CfState τ), s.bin = true →
    (cfTests (cfTest sexp w) none k n s).1 = .value () → ∀ j, k ≤ j → j < k + n →
    ∃ s', s'.bin = true ∧ (cfTest sexp w none j s').1 = .value () := by
  induction n with
  | zero => intro k s _ _ j h1 h2; omega
  | succ n ih =>
    intro k s hb hv j h1 h2
    unfold cfTests cfThen at hv
    have ht := (testAny sexp w none k s).present hb
    have hn : Budget.minus none (s.db.getD []).length = none := rfl
    rw [hn] at hv
    cases he : cfTest sexp w none k s with
    | mk e s1 =>
      rw [he] at hv ht
      cases e with
      | value u =>
        by_cases hj : j = k
        · subst hj; exact ⟨s, hb, by rw [he]⟩
        · exact ih (k + 1) s1 (by rw [← hb]; exact ht.bin) hv j (by omega) (by omega)
      | error c => cases hv
      | returned => cases hv

theorem cfLoop_failed {τ : Type} (k : Nat) (l : List (CfAttempt τ)) (ts : List τ) : ∀ (i : Nat) (s : CfState τ),
    (cfLoop none k i (ts.map .added ++ .failed :: l) s).1 = .error (.add k) := by
  induction ts with
  | nil => intro i s; simp [cfLoop, Budget.allows, cfThen, cfWithPipe, cfAttempt]
  | cons t ts ih =>
    intro i s
    rw [List.map_cons, List.cons_append]
    unfold cfLoop
    simp only [Budget.allows, if_true, cfThen, cfWithPipe, cfAttempt]
    exact ih (i + 1) _

/-- An error of `add-trace` is not ignored. -/
theorem testBinary_failed {τ : Type} (w : CfWorld τ) (k : Nat) (s : CfState τ) (l : List (CfAttempt τ)) (hb : s.bin = true)
    (hl : w.attempts k = (provided (w.attempts k)).map .added ++ .failed :: l) :
    (cfTest false w none k s).1 ≠ .value () := by
  intro hv
  simp only [cfTest, Bool.false_eq_true, if_false, cfTestBinary, cfTestWithBin, hb, if_true, cfWithShake] at hv
  unfold cfThen cfStart at hv
  by_cases hs : w.starts k = true
  · simp only [hs, if_true] at hv
    rw [hl] at hv
    have := cfLoop_failed k l (provided (w.attempts k)) 0 { s with running := k :: s.running }
    generalize cfLoop none k 0 ((provided (w.attempts k)).map .added ++ .failed :: l) { s with running := k :: s.running } = r at this hv
    obtain ⟨e, s1⟩ := r
    simp only at this
    subst this
    cases hv
  · simp only [hs] at hv
    cases hv

end TraceDB
