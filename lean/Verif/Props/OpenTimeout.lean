import Verif.Proofs.OpenTimeout
/-
Property C87: opening a list-based trace with a timeout.
-/
namespace TraceDB

variable {σ : Type}

/-- **C87**.  If opening the file ends before the timeout, or there is no timeout, then
`open-file-timeout` returns the stream, or signals the error that `open` signalled, however
long the sleeps take. -/
theorem C87_in_time (w : OftWorld σ) (hw : 0 < w.tenth) (seconds : Option Int) (t : Nat) (r : Option σ)
    (h : w.ended = some (t, r)) (hs : ∀ s, seconds = some s → (t : Int) ≤ w.start + s) :
    ∃ n, ∀ steps, n ≤ steps → ∃ now, t ≤ now ∧
      openFileTimeout w seconds steps = ((match r with | some s => .ok (some s) | none => .throw .lisp), now) := by
  refine ⟨t + 1, fun steps hle => ?_⟩
  obtain ⟨n, rfl⟩ : ∃ n, steps = n + 1 := ⟨steps - 1, by omega⟩
  obtain ⟨now, e, h1, _⟩ := oftLoop_in_time hw h hs n 0 w.start (Nat.le_refl _) (by omega)
  refine ⟨now, h1, ?_⟩
  rw [openFileTimeout, e]
  cases r <;> rfl

/-- **C87, giving up.**  `nil` is returned only after the timeout, and only if opening had not
ended when the thread was destroyed. -/
theorem C87_nil (w : OftWorld σ) (hw : 0 < w.tenth) (seconds : Option Int) (steps now : Nat)
    (h : openFileTimeout w seconds steps = (.ok none, now)) :
    ∃ s, seconds = some s ∧ w.deadline s ≤ now ∧ ∀ t r, w.ended = some (t, r) → now < t := by
  obtain ⟨s, last, h1, h2, h3, h4, h5⟩ := oftLoop_gives_up hw steps 0 w.start now (Nat.le_refl _) h
  refine ⟨s, h1, by unfold OftWorld.deadline; omega, fun t r hr => ?_⟩
  unfold OftWorld.doneBy at h5
  rw [hr] at h5
  simp only at h5
  split at h5
  · simp at h5
  · omega

/-- **C87, never.**  If the file is never opened, `nil` is returned at the deadline, up to one
sleep that took too long and the time it takes to destroy the thread; without a timeout the
function never returns. -/
theorem C87_never (w : OftWorld σ) (hw : 0 < w.tenth) (h : w.ended = none) :
    (∀ s : Int, ∃ n, ∀ steps, n ≤ steps → ∃ last, openFileTimeout w (some s) steps = (.ok none, last + w.late) ∧
      w.deadline s ≤ last ∧ (last = w.deadline s ∨ ∃ k, last ≤ w.deadline s + w.extra k)) ∧
    ∀ steps, (openFileTimeout w none steps).1 = .hang := by
  refine ⟨fun s => ⟨s.toNat + 1, fun steps hle => ?_⟩, fun steps => oftLoop_for_ever hw h steps 0 w.start⟩
  obtain ⟨n, rfl⟩ : ∃ n, steps = n + 1 := ⟨steps - 1, by omega⟩
  obtain ⟨last, e, h1, h2, h3⟩ := oftLoop_never hw h (s := s) n 0 w.start (Nat.le_refl _) (by omega)
  refine ⟨last, e, by unfold OftWorld.deadline; omega, ?_⟩
  unfold OftWorld.deadline
  by_cases hs : 0 ≤ s
  · rcases h3 with h3 | ⟨k, h3⟩
    · exact .inl (by omega)
    · exact .inr ⟨k, by omega⟩
  · rcases h3 with h3 | ⟨k, h3⟩
    · exact .inl (by omega)
    · exact .inr ⟨k, by omega⟩

/-- **C87, reading.**  Reading a list-based trace leaves the file open exactly if the thread
was destroyed after it had opened the file and before it could hand it over. -/
theorem C87_left_open (w : OftWorld (List (SForm (Option LPoint)))) (hw : w.Sensible) (seconds : Option Int) (steps : Nat)
    (ig : Bool) (max : Option Nat) (hh : (openFileTimeout w seconds steps).1 ≠ .hang) :
    (readSexpFile w seconds steps ig max).2 = true ↔
      ∃ now o, openFileTimeout w seconds steps = (.ok none, now) ∧ w.opened = some o ∧ o ≤ now := by
  have hfin : ∀ (steps k now : Nat), (∃ s, (oftLoop w seconds steps k now).1 = .ok (some s)) ∨
      (oftLoop w seconds steps k now).1 = .ok none ∨ (oftLoop w seconds steps k now).1 = .hang ∨
      ((oftLoop w seconds steps k now).1 = .throw .lisp ∧ w.opened = none) := by
    have hf : ∀ now r, w.doneBy now = some r → (∃ s, oftFinish r = .ok (some s)) ∨ (oftFinish r = .throw .lisp ∧ w.opened = none) := by
      intro now r hr
      cases r with
      | some s => exact .inl ⟨s, rfl⟩
      | none =>
        refine .inr ⟨rfl, ?_⟩
        unfold OftWorld.doneBy at hr
        cases he : w.ended with
        | none => rw [he] at hr; simp at hr
        | some x =>
          obtain ⟨t, r⟩ := x
          rw [he] at hr
          simp only at hr
          split at hr
          · cases hr; exact hw.condition t he
          · simp at hr
    intro steps
    induction steps with
    | zero => intro k now; exact .inr (.inr (.inl rfl))
    | succ steps ih =>
      intro k now
      unfold oftLoop
      cases hd : w.doneBy now with
      | some r =>
        rcases hf now r hd with h | h
        · exact .inl h
        · exact .inr (.inr (.inr h))
      | none =>
        simp only
        split <;> split
        all_goals first | exact ih _ _ | skip
        all_goals
          cases hd' : w.doneBy (now + w.late) with
          | some r =>
            rcases hf _ r hd' with h | h
            · exact .inl h
            · exact .inr (.inr (.inr h))
          | none => exact .inr (.inl rfl)
  generalize ho : openFileTimeout w seconds steps = res
  have := hfin steps 0 w.start
  rw [show oftLoop w seconds steps 0 w.start = res from ho] at this
  rw [ho] at hh
  obtain ⟨v, now⟩ := res
  simp only at this hh
  unfold readSexpFile
  rw [ho]
  rcases this with ⟨s, rfl⟩ | rfl | rfl | ⟨rfl, h⟩
  · simp
  · simp only [OftWorld.isOpen]
    cases w.opened with
    | none => simp
    | some o =>
      simp only [decide_eq_true_eq, Prod.mk.injEq, true_and, Option.some.injEq]
      constructor
      · intro h; exact ⟨now, o, rfl, rfl, h⟩
      · rintro ⟨_, _, rfl, rfl, h⟩; exact h
  · exact absurd rfl hh
  · simp only [OftWorld.isOpen, h]
    simp

/-- **C87, reading a file that opens.**  If the file is opened in time its points are read and
it is closed, also if reading signals an error. -/
theorem C87_reads (w : OftWorld (List (SForm (Option LPoint)))) (hw : 0 < w.tenth) (seconds : Option Int) (t : Nat)
    (s : List (SForm (Option LPoint))) (h : w.ended = some (t, some s))
    (hs : ∀ s, seconds = some s → (t : Int) ≤ w.start + s) (ig : Bool) (max : Option Nat) :
    ∃ n, ∀ steps, n ≤ steps → readSexpFile w seconds steps ig max = (readSexpTrace ig (some s) max, false) := by
  obtain ⟨n, hn⟩ := C87_in_time w hw seconds t (some s) h hs
  refine ⟨n, fun steps hle => ?_⟩
  obtain ⟨now, _, e⟩ := hn steps hle
  unfold readSexpFile
  rw [e]

/-- A pipe that is opened after 25 units, while the timeout is 20; a tenth of a second are 10
units, sleeping takes one unit longer than asked for. -/
def oftSlow : OftWorld (List (SForm (Option LPoint))) := ⟨100, 10, some 125, some (125, some []), fun _ => 1, 0⟩
/-- A file that is opened within 5 units. -/
def oftFast : OftWorld (List (SForm (Option LPoint))) := ⟨100, 10, some 103, some (105, some []), fun _ => 1, 0⟩
/-- A thread that is destroyed between opening the file and returning. -/
def oftLeak : OftWorld (List (SForm (Option LPoint))) := ⟨100, 10, some 115, some (130, some []), fun _ => 1, 2⟩

example : oftSlow.Sensible ∧ oftFast.Sensible ∧ oftLeak.Sensible := by
  refine ⟨⟨by decide, ?_, ?_⟩, ⟨by decide, ?_, ?_⟩, ⟨by decide, ?_, ?_⟩⟩ <;>
    simp [oftSlow, oftFast, oftLeak]

example : openFileTimeout oftFast (some 20) 9 = (.ok (some []), 111) ∧ openFileTimeout oftFast none 9 = (.ok (some []), 111) ∧
    openFileTimeout oftSlow (some 20) 9 = (.ok none, 121) ∧ openFileTimeout oftSlow none 9 = (.ok (some []), 133) :=
  ⟨rfl, rfl, rfl, rfl⟩

/-- **C87, a descriptor is lost.**  The thread is destroyed after it has opened the file: `nil` is
returned, as if the file did not exist, and nobody closes it. -/
theorem C87_leak : openFileTimeout oftLeak (some 20) 9 = (.ok none, 123) ∧
    readSexpFile oftLeak (some 20) 9 false none = (.ok [], true) :=
  ⟨rfl, rfl⟩

end TraceDB
