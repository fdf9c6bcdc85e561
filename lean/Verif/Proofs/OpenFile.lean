import Verif.Spec.OpenFile
/-
Lemmas about opening a trace file.
-/
namespace TraceDB

theorem selectCall_one_iff (os : OsEnv) (T : Nat) :
    selectCall os.readableAt os.signalAt (if T ≠ 0 then some T else none) = .ok 1 ↔ os.InTime T := by
  unfold selectCall OsEnv.InTime
  cases hr : os.readableAt with
  | none =>
    simp only [noLater]
    cases hs : os.signalAt <;> by_cases hT : T = 0 <;> simp [noLater, hT]
    split <;> simp
  | some r =>
    cases hs : os.signalAt with
    | none => by_cases hT : T = 0 <;> simp [noLater, hT]
    | some s =>
      by_cases hT : T = 0
      · simp [noLater, hT]
      · simp only [noLater, hT, ne_eq, not_false_eq_true, if_true, Bool.and_eq_true, decide_eq_true_eq,
          Option.some.injEq, false_or, Option.isSome_some]
        by_cases h : r ≤ s ∧ r ≤ T
        · simp [h]
        · simp only [h, if_false]
          constructor
          · intro h'; split at h' <;> simp at h'
          · rintro ⟨r', rfl, h1, h2⟩
            exact absurd ⟨h2 s rfl, h1⟩ h

theorem selectCall_other' (ready signal timeout : Option Nat) (hn : selectCall ready signal timeout ≠ .ok 1) :
    ((signal.isSome ∨ timeout.isSome) ∧ ∃ v, v ≠ 1 ∧ selectCall ready signal timeout = .ok v) ∨
    (¬ (signal.isSome ∨ timeout.isSome) ∧ selectCall ready signal timeout = .hang) := by
  unfold selectCall at *
  by_cases h1 : (noLater ready signal && noLater ready timeout) = true
  · rw [if_pos h1] at hn; exact absurd rfl hn
  · simp only [if_neg h1]
    by_cases h2 : noLater signal timeout = true
    · left
      refine ⟨Or.inl ?_, -1, by decide, by rw [if_pos h2]⟩
      cases signal with
      | none => simp [noLater] at h2
      | some _ => rfl
    · simp only [if_neg h2]
      cases timeout with
      | some t => left; exact ⟨Or.inr rfl, 0, by decide, rfl⟩
      | none =>
        right
        cases signal with
        | none => simp
        | some _ => simp [noLater] at h2

theorem selectCall_other (os : OsEnv) (T : Nat) (ready : Option Nat)
    (hn : selectCall ready os.signalAt (if T ≠ 0 then some T else none) ≠ .ok 1) :
    (os.GivesUp T ∧ ∃ v, v ≠ 1 ∧ selectCall ready os.signalAt (if T ≠ 0 then some T else none) = .ok v) ∨
    (¬ os.GivesUp T ∧ selectCall ready os.signalAt (if T ≠ 0 then some T else none) = .hang) := by
  have e : os.GivesUp T ↔ (os.signalAt.isSome ∨ (if T ≠ 0 then some T else none : Option Nat).isSome) := by
    unfold OsEnv.GivesUp
    cases os.signalAt <;> by_cases hT : T = 0 <;> simp [hT]
  rw [e]
  exact selectCall_other' _ _ _ hn

/-- What `openWithTimeout` does when the file opens. -/
theorem openWithTimeout_some (os : OsEnv) (T : Nat) (fds : List Nat) (n : Nat) (hfd : os.fd = some n)
    (hn : n < 1024) :
    (os.InTime T ∧ openWithTimeout os T fds = .ok (some n, n :: fds)) ∨
    (¬ os.InTime T ∧ os.GivesUp T ∧ openWithTimeout os T fds = .ok (none, fds)) ∨
    (¬ os.InTime T ∧ ¬ os.GivesUp T ∧ openWithTimeout os T fds = .hang) := by
  have key : openWithTimeout os T fds =
      (selectCall os.readableAt os.signalAt (if T ≠ 0 then some T else none) >>= fun result =>
        if result = 1 then .ok (some n, n :: fds) else .ok (none, fds)) := by
    unfold openWithTimeout fdSet fdSetSize
    simp [hfd, hn]
  rw [key]
  by_cases h : os.InTime T
  · left
    rw [(selectCall_one_iff os T).2 h]
    exact ⟨h, by simp⟩
  · right
    rcases selectCall_other os T os.readableAt (fun e => h ((selectCall_one_iff os T).1 e)) with
      ⟨hg, v, hv, e⟩ | ⟨hg, e⟩
    · left; rw [e]; exact ⟨h, hg, by simp [hv]⟩
    · right; rw [e]; exact ⟨h, hg, rfl⟩

/-- What `openWithTimeout` does when the file does not open. -/
theorem openWithTimeout_none (os : OsEnv) (T : Nat) (fds : List Nat) (hfd : os.fd = none) :
    openWithTimeout os T fds =
      if os.lenient then
        (if T ≠ 0 ∨ os.signalAt.isSome then .ok (none, fds) else .hang)
      else .ub .oobWrite := by
  unfold openWithTimeout fdSet selectCall
  simp only [hfd]
  cases os.lenient with
  | false => simp
  | true =>
    cases hs : os.signalAt <;> by_cases hT : T = 0 <;> simp [noLater, hT]
    split <;> rfl

/-- A descriptor too large for an `fd_set` is undefined behaviour. -/
theorem openWithTimeout_large (os : OsEnv) (T : Nat) (fds : List Nat) (n : Nat) (hfd : os.fd = some n)
    (hn : 1024 ≤ n) : openWithTimeout os T fds = .ub .oobWrite := by
  unfold openWithTimeout fdSet fdSetSize
  simp [hfd, show ¬ n < 1024 by omega]

end TraceDB
