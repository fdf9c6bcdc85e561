import Verif.Spec.OpenTimeout
/-
Opening a file with a timeout.
-/
namespace TraceDB

variable {σ : Type}

theorem OftWorld.doneBy_of {w : OftWorld σ} {t now : Nat} {r : Option σ} (h : w.ended = some (t, r)) (ht : t ≤ now) :
    w.doneBy now = some r := by
  simp [OftWorld.doneBy, h, ht]

theorem OftWorld.doneBy_late {w : OftWorld σ} {t now : Nat} {r : Option σ} (h : w.ended = some (t, r)) (ht : now < t) :
    w.doneBy now = none := by
  simp [OftWorld.doneBy, h]; omega

theorem OftWorld.doneBy_never {w : OftWorld σ} (h : w.ended = none) (now : Nat) : w.doneBy now = none := by
  simp [OftWorld.doneBy, h]

/-- The thread ends in time. -/
theorem oftLoop_in_time {w : OftWorld σ} (hw : 0 < w.tenth) {seconds : Option Int} {t : Nat} {r : Option σ}
    (h : w.ended = some (t, r)) (hs : ∀ s, seconds = some s → (t : Int) ≤ w.start + s) (steps : Nat) :
    ∀ (k now : Nat), w.start ≤ now → t ≤ now + steps → ∃ at', oftLoop w seconds (steps + 1) k now = (oftFinish r, at') ∧
      t ≤ at' ∧ now ≤ at' := by
  induction steps with
  | zero =>
    intro k now _ ht
    simp only [oftLoop]
    rw [OftWorld.doneBy_of h (by omega)]
    exact ⟨now, rfl, by omega, Nat.le_refl _⟩
  | succ steps ih =>
    intro k now h1 ht
    by_cases hd : t ≤ now
    · unfold oftLoop
      rw [OftWorld.doneBy_of h hd]
      exact ⟨now, rfl, hd, Nat.le_refl _⟩
    · unfold oftLoop
      rw [OftWorld.doneBy_late h (by omega)]
      cases seconds with
      | none =>
        simp only
        rw [if_pos (by omega)]
        obtain ⟨at', e, h2, h3⟩ := ih (k + 1) (now + min w.tenth (w.tenth : Int).toNat + w.extra k) (by omega) (by omega)
        exact ⟨at', e, h2, by omega⟩
      | some s =>
        have := hs s rfl
        simp only
        rw [if_pos (by omega)]
        obtain ⟨at', e, h2, h3⟩ := ih (k + 1) (now + min w.tenth (s - (now - w.start : Nat)).toNat + w.extra k) (by omega) (by omega)
        exact ⟨at', e, h2, by omega⟩

/-- Giving up: not before the deadline, and only if the thread has not ended. -/
theorem oftLoop_gives_up {w : OftWorld σ} (hw : 0 < w.tenth) {seconds : Option Int} (steps : Nat) :
    ∀ (k now at' : Nat), w.start ≤ now → oftLoop w seconds steps k now = (.ok none, at') →
      ∃ (s : Int) (last : Nat), seconds = some s ∧ now ≤ last ∧ at' = last + w.late ∧ (w.start : Int) + s ≤ last ∧
        w.doneBy at' = none := by
  induction steps with
  | zero => intro k now at' _ h; simp [oftLoop] at h
  | succ steps ih =>
    intro k now at' h1 h
    unfold oftLoop at h
    cases hd : w.doneBy now with
    | some r =>
      rw [hd] at h
      cases r <;> simp [oftFinish] at h
    | none =>
      rw [hd] at h
      cases seconds with
      | none =>
        simp only at h
        split at h
        · obtain ⟨s, last, h2, _⟩ := ih _ _ _ (by omega) h
          cases h2
        · cases hl : w.doneBy (now + w.late) with
          | some r => rw [hl] at h; cases r <;> simp [oftFinish] at h
          | none => omega
      | some s =>
        simp only at h
        split at h
        · rename_i hpos
          obtain ⟨s', last, h2, h3, h4, h5, h6⟩ := ih _ _ _ (by omega) h
          cases h2
          exact ⟨s, last, rfl, by omega, h4, h5, h6⟩
        · rename_i hneg
          cases hl : w.doneBy (now + w.late) with
          | some r => rw [hl] at h; cases r <;> simp [oftFinish] at h
          | none =>
            rw [hl] at h
            simp only [Prod.mk.injEq, true_and] at h
            exact ⟨s, now, rfl, Nat.le_refl _, h.symm, by omega, by rw [← h]; exact hl⟩

/-- A thread that never ends: the time of giving up. -/
theorem oftLoop_never {w : OftWorld σ} (hw : 0 < w.tenth) (h : w.ended = none) {s : Int} (steps : Nat) :
    ∀ (k now : Nat), w.start ≤ now → (w.start : Int) + s ≤ now + steps →
      ∃ last : Nat, oftLoop w (some s) (steps + 1) k now = (.ok none, last + w.late) ∧ now ≤ last ∧ (w.start : Int) + s ≤ last ∧
        (last = now ∨ ∃ j, (last : Int) ≤ w.start + s + w.extra j) := by
  induction steps with
  | zero =>
    intro k now h1 h2
    unfold oftLoop
    rw [OftWorld.doneBy_never h, OftWorld.doneBy_never h]
    simp only
    rw [if_neg (by omega)]
    exact ⟨now, rfl, Nat.le_refl _, by omega, .inl rfl⟩
  | succ steps ih =>
    intro k now h1 h2
    unfold oftLoop
    rw [OftWorld.doneBy_never h, OftWorld.doneBy_never h]
    simp only
    by_cases hpos : 0 < s - (now - w.start : Nat)
    · rw [if_pos hpos]
      obtain ⟨last, e, h3, h4, h5⟩ := ih (k + 1) (now + min w.tenth (s - (now - w.start : Nat)).toNat + w.extra k) (by omega) (by omega)
      refine ⟨last, e, by omega, h4, .inr ?_⟩
      rcases h5 with h5 | h5
      · exact ⟨k, by omega⟩
      · exact h5
    · rw [if_neg hpos]
      exact ⟨now, rfl, Nat.le_refl _, by omega, .inl rfl⟩

/-- Without a timeout one waits for ever. -/
theorem oftLoop_for_ever {w : OftWorld σ} (hw : 0 < w.tenth) (h : w.ended = none) (steps : Nat) :
    ∀ (k now : Nat), (oftLoop w none steps k now).1 = .hang := by
  induction steps with
  | zero => intro k now; rfl
  | succ steps ih =>
    intro k now
    unfold oftLoop
    rw [OftWorld.doneBy_never h]
    simp only
    rw [if_pos (by omega)]
    exact ih _ _

end TraceDB
