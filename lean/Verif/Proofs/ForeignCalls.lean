import Verif.Proofs.ForeignBytes
/-
Arguments and results of foreign calls.
-/
namespace TraceDB

/-- What is in the low bytes of a slot. -/
theorem putSlot_mod {n : Nat} (hn : n = 1 ∨ n = 4 ∨ n = 8) (v : Int) (junk : U64) :
    (putSlot n v junk).toNat % 256 ^ n = (v % (256 ^ n : Nat)).toNat := by
  have hj := junk.isLt
  unfold putSlot
  rw [BitVec.toNat_ofNat]
  rcases hn with rfl | rfl | rfl <;> omega

/-- A value is found in the slot it was put in. -/
theorem takeSlot_put_unsigned {n : Nat} (hn : n = 1 ∨ n = 4 ∨ n = 8) {v : Int} (h0 : 0 ≤ v) (h : v < (256 ^ n : Nat)) (junk : U64) :
    takeSlot n false (putSlot n v junk) = v := by
  unfold takeSlot
  simp only [putSlot_mod hn, Bool.false_and]
  rw [if_neg (by simp)]
  rw [Int.emod_eq_of_lt h0 h]
  omega

theorem takeSlot_put_signed {n : Nat} (hn : n = 1 ∨ n = 4 ∨ n = 8) {v : Int} (h0 : -((256 ^ n / 2 : Nat) : Int) ≤ v)
    (h : v < (256 ^ n / 2 : Nat)) (junk : U64) : takeSlot n true (putSlot n v junk) = v := by
  unfold takeSlot
  simp only [putSlot_mod hn, Bool.true_and, decide_eq_true_eq]
  rcases hn with rfl | rfl | rfl <;> split <;> omega

theorem and_decide {a b : Prop} [Decidable a] [Decidable b] (h : (decide a && decide b) = true) : a ∧ b := by
  rw [Bool.and_eq_true] at h
  exact ⟨of_decide_eq_true h.1, of_decide_eq_true h.2⟩

/-- C and Lisp types that go together for a value. -/
theorem slot_param {c : CTy} {f : FTy} (hb : c.bytes = f.bytes) (hf : f ≠ .double) {v : Int} (hv : f.takes v = true)
    (hs : c.signed = f.signed ∨ (f = .int ∧ c.signed = false ∧ 0 ≤ v)) (junk : U64) :
    takeSlot c.bytes c.signed (putSlot f.bytes v junk) = v := by
  rw [hb]
  rcases hs with hs | ⟨rfl, hs, h0⟩
  · rw [hs]
    cases f
    all_goals simp only [FTy.bytes, FTy.signed]
    · have hv' : 0 ≤ v ∧ v < 2 ^ (8 * 1) := and_decide hv
      exact takeSlot_put_unsigned (n := 1) (by decide) (by omega) (by omega) junk
    · have hv' : 0 ≤ v ∧ v < 2 ^ (8 * 4) := and_decide hv
      exact takeSlot_put_unsigned (n := 4) (by decide) (by omega) (by omega) junk
    · have hv' : 0 ≤ v ∧ v < 2 ^ (8 * 8) := and_decide hv
      exact takeSlot_put_unsigned (n := 8) (by decide) (by omega) (by omega) junk
    · have hv' : -2 ^ 63 ≤ v ∧ v < 2 ^ 63 := and_decide hv
      exact takeSlot_put_signed (n := 8) (by decide) (by omega) (by omega) junk
    · exact absurd rfl hf
    · have hv' : -2 ^ 31 ≤ v ∧ v < 2 ^ 31 := and_decide hv
      exact takeSlot_put_signed (n := 4) (by decide) (by omega) (by omega) junk
    · have hv' : 0 ≤ v ∧ v < 2 ^ (8 * 4) := and_decide hv
      exact takeSlot_put_unsigned (n := 4) (by decide) (by omega) (by omega) junk
    · have hv' : 0 ≤ v ∧ v < 2 ^ (8 * 8) := and_decide hv
      exact takeSlot_put_unsigned (n := 8) (by decide) (by omega) (by omega) junk
    · have hv' : 0 ≤ v ∧ v < 2 ^ (8 * 8) := and_decide hv
      exact takeSlot_put_unsigned (n := 8) (by decide) (by omega) (by omega) junk
  · rw [hs]
    simp only [FTy.takes, Bool.and_eq_true, decide_eq_true_eq] at hv
    exact takeSlot_put_unsigned (by decide) h0 (by simp only [FTy.bytes]; omega) junk

/-- Lists of types that go together. -/
def TypesAgree (signs : Bool) : List CTy → List FTy → Bool
  | [], [] => true
  | c :: cs, f :: fs => decide (c.bytes = f.bytes) && decide (f ≠ .double) &&
      (decide (c.signed = f.signed) || (signs && decide (f = .int) && !c.signed)) && TypesAgree signs cs fs
  | _, _ => false

theorem cParams_ok (signs : Bool) : ∀ (cs : List CTy) (fs : List FTy) (vs : List Int) (junk xs : List U64), TypesAgree signs cs fs = true →
    (signs = true → ∀ v ∈ vs, 0 ≤ v) → lispCall fs vs junk = some xs → cParams cs xs = some vs
  | [], [], vs, junk, xs, _, _, h => by
    cases vs with
    | nil => simp only [lispCall, Option.some.injEq] at h; subst h; rfl
    | cons v vs => cases h
  | c :: cs, [], vs, junk, xs, ha, _, h => by cases ha
  | [], f :: fs, vs, junk, xs, ha, _, h => by cases ha
  | c :: cs, f :: fs, vs, junk, xs, ha, hs, h => by
    cases vs with
    | nil => cases h
    | cons v vs =>
      simp only [TypesAgree, Bool.and_eq_true, decide_eq_true_eq, Bool.or_eq_true, Bool.not_eq_true'] at ha
      obtain ⟨⟨⟨a1, a2⟩, a3⟩, a4⟩ := ha
      simp only [lispCall] at h
      by_cases ht : f.takes v = true
      · rw [if_pos ht] at h
        cases hr : lispCall fs vs junk.tail with
        | none => rw [hr] at h; cases h
        | some ys =>
          rw [hr] at h
          simp only [Option.map_some, Option.some.injEq] at h
          subst h
          simp only [cParams]
          rw [cParams_ok signs cs fs vs junk.tail ys a4 (fun hh v' hv' => hs hh v' (List.mem_cons_of_mem _ hv')) hr,
            slot_param a1 a2 ht (a3.imp id fun ⟨⟨b0, b1⟩, b2⟩ => ⟨b1, b2, hs b0 v (List.mem_cons_self ..)⟩)]
          rfl
      · rw [if_neg ht] at h; cases h

theorem call_agrees (f : CFun) : TypesAgree (decide (f = .addTrace)) f.declared.2 f.imported.2 = true := by
  cases f <;> decide

/-- Every result of a C function. -/
theorem slot_result {c : CTy} {f : FTy} (hb : c.bytes = f.bytes) (hc : c ≠ .double) (hs : c.signed = f.signed) {v : Int}
    (hv : c.has v = true) (junk : U64) : lispResult c f v junk = v := by
  unfold lispResult
  rw [← hb, ← hs]
  cases c
  all_goals simp only [CTy.bytes, CTy.signed]
  · have hv' : 0 ≤ v ∧ v < 2 ^ (8 * 1) := and_decide hv
    exact takeSlot_put_unsigned (n := 1) (by decide) (by omega) (by omega) junk
  · have hv' : 0 ≤ v ∧ v < 2 ^ (8 * 4) := and_decide hv
    exact takeSlot_put_unsigned (n := 4) (by decide) (by omega) (by omega) junk
  · have hv' : 0 ≤ v ∧ v < 2 ^ (8 * 8) := and_decide hv
    exact takeSlot_put_unsigned (n := 8) (by decide) (by omega) (by omega) junk
  · have hv' : -2 ^ 63 ≤ v ∧ v < 2 ^ 63 := and_decide hv
    exact takeSlot_put_signed (n := 8) (by decide) (by omega) (by omega) junk
  · exact absurd rfl hc
  · have hv' : -2 ^ 31 ≤ v ∧ v < 2 ^ 31 := and_decide hv
    exact takeSlot_put_signed (n := 4) (by decide) (by omega) (by omega) junk
  · have hv' : 0 ≤ v ∧ v < 2 ^ (8 * 4) := and_decide hv
    exact takeSlot_put_unsigned (n := 4) (by decide) (by omega) (by omega) junk
  · have hv' : 0 ≤ v ∧ v < 2 ^ (8 * 8) := and_decide hv
    exact takeSlot_put_unsigned (n := 8) (by decide) (by omega) (by omega) junk
  · have hv' : 0 ≤ v ∧ v < 2 ^ (8 * 8) := and_decide hv
    exact takeSlot_put_unsigned (n := 8) (by decide) (by omega) (by omega) junk

theorem result_agrees (f : CFun) :
    (f.declared.1 = none ∧ f.imported.1 = none) ∨
    ∃ c t, f.declared.1 = some c ∧ f.imported.1 = some t ∧ c.bytes = t.bytes ∧ c ≠ .double ∧ c.signed = t.signed := by
  cases f <;> first
    | exact .inl ⟨rfl, rfl⟩
    | exact .inr ⟨_, _, rfl, rfl, by decide, by decide, by decide⟩

/-- The exact numbers of arguments and values a call takes. -/
theorem lispCall_some : ∀ (fs : List FTy) (vs : List Int) (junk : List U64),
    (lispCall fs vs junk).isSome = true ↔ vs.length = fs.length ∧ ∀ x ∈ fs.zip vs, x.1.takes x.2 = true
  | [], [], _ => by simp [lispCall]
  | [], _ :: _, _ => by simp [lispCall]
  | _ :: _, [], _ => by simp [lispCall]
  | f :: fs, v :: vs, junk => by
    simp only [lispCall]
    by_cases h : f.takes v = true
    · rw [if_pos h, Option.isSome_map, lispCall_some fs vs junk.tail]
      simp [h]
    · rw [if_neg h]
      simp [h]

end TraceDB
