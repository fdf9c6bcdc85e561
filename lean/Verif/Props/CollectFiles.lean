import Verif.Proofs.CollectFiles
/-
C96: what a collection leaves behind.
-/
namespace TraceDB

/-- However a collection is left, no pipe and no handshake file stays. -/
theorem C96_temporary {τ : Type} (sexp : Bool) (w : CfWorld τ) (b : Budget) (n : Nat) (s : CfState τ) (h : s.shake = false) :
    (cfCollect sexp w b n s).2.pipes = s.pipes ∧ (cfCollect sexp w b n s).2.shake = false := by
  rcases cfCollect_cases w s with hb | ⟨hb, he⟩ | ⟨hb, he⟩
  · rw [cfCollect_present sexp w b n s hb]
    have f := allTests_facts sexp w b n s
    exact ⟨f.pipes, f.shake h⟩
  · rw [cfCollect_compiled sexp w b n s hb he]
    have f := allTests_facts sexp w b n { s with bin := (w.compile s.compiles).creates, compiles := s.compiles + 1 }
    exact ⟨f.pipes, f.shake h⟩
  · rw [cfCollect_failed sexp w b n s hb he]
    exact ⟨rfl, h⟩

/-- The binary is there afterwards exactly if it was there before, or if the compilation of
`collect-traces` made it and then signalled an error. -/
theorem C96_binary {τ : Type} (sexp : Bool) (w : CfWorld τ) (b : Budget) (n : Nat) (s : CfState τ) :
    (cfCollect sexp w b n s).2.bin = true ↔
      s.bin = true ∨ ((w.compile s.compiles).creates = true ∧ (w.compile s.compiles).error = true) := by
  rcases cfCollect_cases w s with hb | ⟨hb, he⟩ | ⟨hb, he⟩
  · rw [cfCollect_present sexp w b n s hb]
    have f := (allTests_facts sexp w b n s).present hb
    exact ⟨fun _ => .inl hb, fun _ => f.1⟩
  · rw [cfCollect_compiled sexp w b n s hb he]
    simp [hb, he]
  · rw [cfCollect_failed sexp w b n s hb he]
    simp [hb, he]

/-- A process is left running exactly when the collection ends by an error in `add-trace`, or, for
list-based traces, by the error about a test case without traces: the process of that test case. -/
theorem C96_processes {τ : Type} (sexp : Bool) (w : CfWorld τ) (b : Budget) (n : Nat) (s : CfState τ) :
    (cfCollect sexp w b n s).2.running = leftRunning sexp (cfCollect sexp w b n s).1 ++ s.running := by
  rcases cfCollect_cases w s with hb | ⟨hb, he⟩ | ⟨hb, he⟩
  · rw [cfCollect_present sexp w b n s hb]
    exact (allTests_facts sexp w b n s).running
  · rw [cfCollect_compiled sexp w b n s hb he]
    exact (allTests_facts sexp w b n
      { s with bin := (w.compile s.compiles).creates, compiles := s.compiles + 1 }).running
  · rw [cfCollect_failed sexp w b n s hb he]
    by_cases hc : w.choose s.compiles = .skipTraceCollection ∨ w.choose s.compiles = .nilTraces
    · simp [hc, leftRunning]
    · simp [hc, leftRunning]

/-- When the binary can be used, the old traces are replaced, however the collection ends, by what
the test cases that have been run provide, in order, up to the number asked for (binary traces). -/
theorem C96_traces {τ : Type} (sexp : Bool) (w : CfWorld τ) (b : Budget) (n : Nat) (s : CfState τ) (h : Compiled w s) :
    (cfCollect sexp w b n s).2.db =
      some ((obeyed sexp b).firsts (providedBy (gives sexp w) ((cfCollect sexp w b n s).1.reached n))) := by
  rcases cfCollect_cases w s with hb | ⟨hb, he⟩ | ⟨hb, he⟩
  · rw [cfCollect_present sexp w b n s hb]
    have f := (allTests_facts sexp w b n s).present hb
    rw [f.2.2.1, ← providedFrom_zero]
    simp [Budget.minus_zero]
  · rw [cfCollect_compiled sexp w b n s hb he]
    have hcr : (w.compile s.compiles).creates = true := by
      rcases h with h | h
      · rw [hb] at h; cases h
      · exact h.1
    have f := (allTests_facts sexp w b n
      { s with bin := (w.compile s.compiles).creates, compiles := s.compiles + 1 }).present hcr
    simp only
    rw [f.2.2.1, ← providedFrom_zero]
    simp [Budget.minus_zero]
  · rcases h with h | h
    · rw [hb] at h; cases h
    · rw [he] at h; cases h.2

/-- When the compilation of `collect-traces` signals an error, no test case is run: the restarts leave the
traces as they were or drop them all, and without a restart they stay. -/
theorem C96_compilation_failed {τ : Type} (sexp : Bool) (w : CfWorld τ) (b : Budget) (n : Nat) (s : CfState τ)
    (hb : s.bin = false) (he : (w.compile s.compiles).error = true) :
    ((cfCollect sexp w b n s).1 = .returned ↔
      w.choose s.compiles = .skipTraceCollection ∨ w.choose s.compiles = .nilTraces) ∧
    ((cfCollect sexp w b n s).1 = .error .compile ∨ (cfCollect sexp w b n s).1 = .returned) ∧
    (cfCollect sexp w b n s).2.db = (if w.choose s.compiles = .nilTraces then none else s.db) := by
  rw [cfCollect_failed sexp w b n s hb he]
  by_cases hc : w.choose s.compiles = .skipTraceCollection ∨ w.choose s.compiles = .nilTraces
  · simp [hc]
  · simp [hc]

/-- Whatever the compilations do: if the one in `collect-traces` signals no error, the traces afterwards
are some of those the test cases provide, in order, and not more than asked for (binary traces). -/
theorem C96_traces_any {τ : Type} (sexp : Bool) (w : CfWorld τ) (b : Budget) (n : Nat) (s : CfState τ)
    (h : s.bin = true ∨ (w.compile s.compiles).error = false) :
    ∃ l, (cfCollect sexp w b n s).2.db = some l ∧ l.Sublist (providedBy (gives sexp w) n) ∧
      (∀ m, b = some m → sexp = false → l.length ≤ m) := by
  have key : ∀ (s : CfState τ), ∃ l, (cfTests (cfTest sexp w) b 0 n { s with db := some [] }).2.db = some l ∧
      l.Sublist (providedBy (gives sexp w) n) ∧ (∀ m, b = some m → sexp = false → l.length ≤ m) := by
    intro s
    obtain ⟨l, h1, h2, h3⟩ := (allTests_facts sexp w b n s).db
    refine ⟨l, by simpa using h1, by rw [← providedFrom_zero]; exact h2, ?_⟩
    rintro m rfl rfl
    rw [← h3]
    simp [obeyed, Budget.minus, Budget.firsts]
    omega
  rcases cfCollect_cases w s with hb | ⟨hb, he⟩ | ⟨hb, he⟩
  · rw [cfCollect_present sexp w b n s hb]
    exact key s
  · rw [cfCollect_compiled sexp w b n s hb he]
    exact key { s with bin := (w.compile s.compiles).creates, compiles := s.compiles + 1 }
  · rcases h with h | h
    · rw [hb] at h; cases h
    · rw [he] at h; cases h

/-- What an error says: a test could not be started; or `add-trace` failed, and for
list-based traces this was not ignored; or the test case added no trace and this was not ignored. -/
theorem C96_causes {τ : Type} (sexp : Bool) (w : CfWorld τ) (b : Budget) (n : Nat) (s : CfState τ) (k : Nat) :
    ((cfCollect sexp w b n s).1 = .error (.start k) → k < n ∧ w.starts k = false) ∧
    ((cfCollect sexp w b n s).1 = .error (.add k) → k < n ∧ w.starts k = true ∧ .failed ∈ w.attempts k ∧
      (sexp = true → w.ignoreEmpty k = false)) ∧
    ((cfCollect sexp w b n s).1 = .error (.empty k) → k < n ∧ w.starts k = true ∧ w.ignoreEmpty k = false ∧
      ∃ l, (cfCollect sexp w b n s).2.db = some l ∧ ∀ e ∈ l, e.1 < k) := by
  have key : ∀ (e : CfExit Unit) (db : Option (List (Nat × τ))),
      (∀ c, e = .error c → c = .compile ∨ ∃ j, 0 ≤ j ∧ j < 0 + n ∧
        ((c = .start j ∧ w.starts j = false) ∨ (c = .add j ∧ w.starts j = true ∧ .failed ∈ w.attempts j ∧
          (sexp = true → w.ignoreEmpty j = false)) ∨
          (c = .empty j ∧ w.starts j = true ∧ w.ignoreEmpty j = false ∧
            ∃ l, db = some l ∧ ∀ e ∈ l, e ∈ ([] : List (Nat × τ)) ∨ e.1 < j))) →
      (e = .error (.start k) → k < n ∧ w.starts k = false) ∧
      (e = .error (.add k) → k < n ∧ w.starts k = true ∧ .failed ∈ w.attempts k ∧
      (sexp = true → w.ignoreEmpty k = false)) ∧
      (e = .error (.empty k) → k < n ∧ w.starts k = true ∧ w.ignoreEmpty k = false ∧
        ∃ l, db = some l ∧ ∀ e ∈ l, e.1 < k) := by
    intro e db h
    refine ⟨?_, ?_, ?_⟩ <;> intro he <;> rcases h _ he with h | ⟨j, _, h2, ⟨h3, h4⟩ | ⟨h3, h4⟩ | ⟨h3, h4, h5, l, h6, h7⟩⟩ <;>
      first
      | cases h
      | cases h3
    · exact ⟨by omega, h4⟩
    · exact ⟨by omega, h4⟩
    · refine ⟨by omega, h4, h5, l, h6, fun e he => ?_⟩
      rcases h7 e he with h | h
      · cases h
      · exact h
  rcases cfCollect_cases w s with hb | ⟨hb, he⟩ | ⟨hb, he⟩
  · rw [cfCollect_present sexp w b n s hb]
    exact key _ _ (allTests_facts sexp w b n s).cause
  · rw [cfCollect_compiled sexp w b n s hb he]
    exact key _ _ (allTests_facts sexp w b n
      { s with bin := (w.compile s.compiles).creates, compiles := s.compiles + 1 }).cause
  · rw [cfCollect_failed sexp w b n s hb he]
    by_cases hc : w.choose s.compiles = .skipTraceCollection ∨ w.choose s.compiles = .nilTraces
    · simp [hc]
    · simp [hc]

/-- A test case whose binary is missing: when compiling signals an error or, for list-based traces, returns false, nothing
happens but the compilation, and the restart `skip-test-case` decides whether the collection goes on; when compiling makes
the binary, the test case goes as it does with this binary, which is deleted afterwards. -/
theorem C96_test_case {τ : Type} (sexp : Bool) (w : CfWorld τ) (b : Budget) (k : Nat) (s : CfState τ) (hb : s.bin = false) :
    ((w.compile s.compiles).error = true ∨ (sexp = true ∧ (w.compile s.compiles).result = false) →
      cfTest sexp w b k s =
        (if w.choose s.compiles = .skipTestCase then .value () else .error .compile,
         { s with bin := (w.compile s.compiles).creates, compiles := s.compiles + 1 })) ∧
    ((w.compile s.compiles).error = false → (sexp = false ∨ (w.compile s.compiles).result = true) →
      (w.compile s.compiles).creates = true →
      cfTest sexp w b k s =
        ((cfTest sexp w b k { s with bin := true, compiles := s.compiles + 1 }).1,
         { (cfTest sexp w b k { s with bin := true, compiles := s.compiles + 1 }).2 with bin := false })) := by
  have key : ∀ rest : CfM τ Unit,
      ((w.compile s.compiles).error = true ∨ (sexp = true ∧ (w.compile s.compiles).result = false) →
        cfTestWithBin w sexp rest s =
          (if w.choose s.compiles = .skipTestCase then .value () else .error .compile,
           { s with bin := (w.compile s.compiles).creates, compiles := s.compiles + 1 })) ∧
      ((w.compile s.compiles).error = false → (sexp = false ∨ (w.compile s.compiles).result = true) →
        (w.compile s.compiles).creates = true →
        cfTestWithBin w sexp rest s =
          ((cfTestWithBin w sexp rest { s with bin := true, compiles := s.compiles + 1 }).1,
           { (cfTestWithBin w sexp rest { s with bin := true, compiles := s.compiles + 1 }).2 with bin := false })) := by
    intro rest
    constructor
    · rintro (h | ⟨rfl, h⟩)
      · simp only [cfTestWithBin, hb, cfPhenome, h, if_true, Bool.false_or, Bool.false_eq_true, if_false]
        cases w.choose s.compiles <;> rfl
      · cases he : (w.compile s.compiles).error <;>
          simp only [cfTestWithBin, hb, cfPhenome, h, he, if_true, Bool.false_or, Bool.false_eq_true, if_false,
            Bool.true_and, Bool.not_false] <;>
          cases w.choose s.compiles <;> rfl
    · intro he hr hc
      have hbad : (sexp && !(w.compile s.compiles).result) = false := by
        rcases hr with rfl | h
        · rfl
        · simp [h]
      simp [cfTestWithBin, hb, cfPhenome, he, hc, hbad]
  cases sexp with
  | false => exact key _
  | true => exact key _

/-- A collection without limit that ends normally has started every test case, every one of them gave traces or was
ignored, and (binary traces) none of them stopped at an error of `add-trace`. -/
theorem C96_normal_end {τ : Type} (sexp : Bool) (w : CfWorld τ) (n : Nat) (s : CfState τ) (h : Compiled w s)
    (hv : (cfCollect sexp w none n s).1 = .value ()) (k : Nat) (hk : k < n) :
    w.starts k = true ∧ (provided (w.attempts k) = [] → w.ignoreEmpty k = true) ∧
      (sexp = false → ∀ l, w.attempts k ≠ (provided (w.attempts k)).map .added ++ .failed :: l) := by
  have key : ∀ s : CfState τ, s.bin = true → (cfTests (cfTest sexp w) none 0 n { s with db := some [] }).1 = .value () →
      ∃ s', s'.bin = true ∧ (cfTest sexp w none k s').1 = .value () := by
    intro s hb hv
    exact cfTests_value sexp w n 0 { s with db := some [] } hb hv k (by omega) (by omega)
  obtain ⟨s', hb', hv'⟩ : ∃ s' : CfState τ, s'.bin = true ∧ (cfTest sexp w none k s').1 = .value () := by
    rcases cfCollect_cases w s with hb | ⟨hb, he⟩ | ⟨hb, he⟩
    · rw [cfCollect_present sexp w none n s hb] at hv
      exact key s hb hv
    · rw [cfCollect_compiled sexp w none n s hb he] at hv
      rcases h with h | h
      · rw [hb] at h; cases h
      · exact key { s with bin := (w.compile s.compiles).creates, compiles := s.compiles + 1 } h.1 hv
    · rcases h with h | h
      · rw [hb] at h; cases h
      · rw [he] at h; cases h.2
  obtain ⟨h1, h2⟩ := ((testAny sexp w none k s').present hb').value () hv'
  refine ⟨h1, fun h => h2 ?_, ?_⟩
  · cases sexp <;> simp [obeyed, Budget.firsts, gives, h]
  · rintro rfl l hl
    exact testBinary_failed w k s' l hb' hl hv'

/-- Compilations: none when the binary is there, one when the first one makes it; one more for each test case
when they only claim to have made it; and never more than that. -/
theorem C96_compilations {τ : Type} (sexp : Bool) (w : CfWorld τ) (b : Budget) (n : Nat) (s : CfState τ) :
    (Compiled w s → (cfCollect sexp w b n s).2.compiles = s.compiles + (if s.bin then 0 else 1)) ∧
    (s.bin = false → (∀ m, (w.compile m).creates = false ∧ (w.compile m).error = false ∧ (w.compile m).result = true) →
      (cfCollect sexp w b n s).2.compiles = s.compiles + 1 + (cfCollect sexp w b n s).1.begun n) ∧
    (cfCollect sexp w b n s).2.compiles ≤ s.compiles + 1 + n := by
  rcases cfCollect_cases w s with hb | ⟨hb, he⟩ | ⟨hb, he⟩
  · rw [cfCollect_present sexp w b n s hb]
    have f := (allTests_facts sexp w b n s).present hb
    refine ⟨fun _ => ?_, fun h => ?_, ?_⟩
    · rw [f.2.1]; simp [hb]
    · rw [hb] at h; cases h
    · rw [f.2.1]; simp only; omega
  · rw [cfCollect_compiled sexp w b n s hb he]
    have f := allTests_facts sexp w b n { s with bin := (w.compile s.compiles).creates, compiles := s.compiles + 1 }
    refine ⟨fun h => ?_, fun _ h => ?_, f.compiles⟩
    · rcases h with h | h
      · rw [hb] at h; cases h
      · have := (f.present h.1).2.1
        simp only at this ⊢
        rw [this]; simp [hb]
    · have := (f.missing (h _).1 h).1
      simpa using this
  · rw [cfCollect_failed sexp w b n s hb he]
    refine ⟨fun h => ?_, fun _ h => ?_, ?_⟩
    · rcases h with h | h
      · rw [hb] at h; cases h
      · rw [he] at h; cases h.2
    · rw [(h _).2.1] at he; cases he
    · simp only; omega

/-- Without trouble in compiling, starting and adding, the number of traces and the end of the collection
are those of the model that only counts. -/
theorem C96_counts {τ : Type} (sexp : Bool) (w : CfWorld τ) (b : Budget) (n : Nat) (s : CfState τ) (h : Compiled w s)
    (hs : ∀ k, w.starts k = true) (hf : ∀ k, CfAttempt.failed ∉ w.attempts k) :
    (((cfCollect sexp w b n s).2.db.getD []).length, (cfCollect sexp w b n s).1.asEnd) =
      ((collectTraces (if sexp then collectTestCaseSexp else collectTestCase) b w.ignoreEmpty
          ((List.range n).map fun j => asRun (w.attempts j))).1,
       (collectTraces (if sexp then collectTestCaseSexp else collectTestCase) b w.ignoreEmpty
          ((List.range n).map fun j => asRun (w.attempts j))).2.2) := by
  unfold collectTraces
  rw [List.range_eq_range']
  rcases cfCollect_cases w s with hb | ⟨hb, he⟩ | ⟨hb, he⟩
  · rw [cfCollect_present sexp w b n s hb]
    exact cfTests_count sexp w b hs hf n 0 _ [] rfl hb
  · rw [cfCollect_compiled sexp w b n s hb he]
    rcases h with h | h
    · rw [hb] at h; cases h
    · exact cfTests_count sexp w b hs hf n 0
        { { s with bin := (w.compile s.compiles).creates, compiles := s.compiles + 1 } with db := some [] } [] rfl h.1
  · rcases h with h | h
    · rw [hb] at h; cases h
    · rw [he] at h; cases h.2

namespace C96

/-- Three test cases: two traces and then an end, an error in the second attempt, no handshake. -/
def attempts : Nat → List (CfAttempt Nat)
  | 0 => [.added 10, .added 11]
  | 1 => [.added 20, .failed, .added 21]
  | _ => [.noHandshake]

/-- A world where compiling works. -/
def good : CfWorld Nat :=
  { compile := fun _ => ⟨true, false, true⟩, choose := fun _ => .unwind, starts := fun _ => true,
    attempts := attempts, ignoreEmpty := fun _ => false }

/-- No binary, old traces. -/
def start : CfState Nat := { bin := false, pipes := 0, shake := false, running := [], compiles := 0, db := some [(7, 7)] }

/-- The error in the second test case ends the collection: the old traces are gone, those added
before it stay, its process is left running, and the binary is deleted. -/
example : (cfCollect false good none 3 start).1 = .error (.add 1) ∧
    (cfCollect false good none 3 start).2.db = some [(0, 10), (0, 11), (1, 20)] ∧
    (cfCollect false good none 3 start).2.running = [1] ∧ (cfCollect false good none 3 start).2.bin = false ∧
    (cfCollect false good none 3 start).2.pipes = 0 ∧ (cfCollect false good none 3 start).2.compiles = 1 := by
  decide +kernel

/-- With a budget of two the second test case has nothing left to do and signals an error; its
process was waited for. -/
example : Compiled good start ∧ (cfCollect false good (some 2) 3 start).1 = .error (.empty 1) ∧
    (cfCollect false good (some 2) 3 start).2.db = some [(0, 10), (0, 11)] ∧
    (cfCollect false good (some 2) 3 start).2.running = [] :=
  ⟨.inr (by decide +kernel), by decide +kernel⟩

/-- List-based traces: one of each test case; the third one has none, and its process is left. -/
example : (cfCollect true good (some 1) 3 start).1 = .error (.empty 2) ∧
    (cfCollect true good (some 1) 3 start).2.db = some [(0, 10), (1, 20)] ∧
    (cfCollect true good (some 1) 3 start).2.running = [2] := by decide +kernel

/-- A compiler that makes the binary and then signals an error. -/
def broken (c : CfChoice) : CfWorld Nat :=
  { good with compile := fun _ => ⟨true, true, false⟩, choose := fun _ => c }

/-- The binary stays, against what the documentation of `with-possibly-existing-bin` says. -/
example : (cfCollect false (broken .skipTraceCollection) none 3 start).1 = .returned ∧
    (cfCollect false (broken .skipTraceCollection) none 3 start).2.bin = true ∧
    (cfCollect false (broken .skipTraceCollection) none 3 start).2.db = some [(7, 7)] ∧
    (cfCollect false (broken .nilTraces) none 3 start).2.db = none ∧
    (cfCollect false (broken .skipTestCase) none 3 start).1 = .error .compile := by decide +kernel

/-- A compiler that makes nothing without saying so. -/
def lazy : CfWorld Nat :=
  { good with compile := fun _ => ⟨false, false, true⟩, attempts := fun k => [.added k] }

/-- A missing binary that a test case has to make, or cannot make. -/
example : start.bin = false ∧ (good.compile start.compiles).creates = true ∧
    (cfTest false good none 0 start).2.db = some [(7, 7), (0, 10), (0, 11)] ∧
    (cfTest true { good with compile := fun _ => ⟨true, false, false⟩, choose := fun _ => .skipTestCase } none 0 start).1 =
      .value () ∧
    (cfTest true { good with compile := fun _ => ⟨true, false, false⟩ } none 0 start).1 = .error .compile := by
  decide +kernel

/-- It is run four times for three test cases. -/
example : (cfCollect false lazy none 3 start).1 = .value () ∧
    (cfCollect false lazy none 3 start).2.compiles = 4 ∧
    (cfCollect false lazy none 3 start).2.db = some [(0, 0), (1, 1), (2, 2)] := by decide +kernel

/-- Test cases with traces, one without that is ignored. -/
def calm : CfWorld Nat :=
  { good with attempts := fun k => if k = 1 then [] else [.added k, .added k, .refused], ignoreEmpty := fun _ => true }

/-- Its starts and attempts are as `C96_counts` wants them. -/
example : Compiled calm start ∧ (∀ k, calm.starts k = true) ∧ (∀ k, CfAttempt.failed ∉ calm.attempts k) ∧
    ((cfCollect false calm (some 3) 3 start).2.db.getD []).length = 3 := by
  refine ⟨.inr (by decide +kernel), fun _ => rfl, fun k => ?_, by decide +kernel⟩
  simp only [calm]
  split <;> simp

/-- A collection without limit that ends normally. -/
example : Compiled calm start ∧ (cfCollect false calm none 3 start).1 = .value () :=
  ⟨.inr (by decide +kernel), by decide +kernel⟩

/-- A test that cannot be started ends the collection without leaving a process. -/
example : (cfCollect false { calm with starts := fun k => k != 1 } none 3 start).1 = .error (.start 1) ∧
    (cfCollect false { calm with starts := fun k => k != 1 } none 3 start).2.running = [] ∧
    (cfCollect false { calm with starts := fun k => k != 1 } none 3 start).2.db = some [(0, 0), (0, 0)] := by
  decide +kernel

end C96

end TraceDB
