import Verif.Spec.Query
/-
Equality of variable records.
-/
namespace TraceDB

theorem wordEqv_refl (s : U32) (x : U64) : wordEqv s x x = true := by
  unfold wordEqv; split
  · simp
  · split
    · simp
    · split <;> simp

theorem wordEqv_symm (s : U32) (x y : U64) : wordEqv s x y = wordEqv s y x := by
  have h : ∀ {n : Nat} (a b : BitVec n), (a == b) = (b == a) := by
    intro n a b; by_cases hab : a = b
    · subst hab; rfl
    · rw [beq_eq_false_iff_ne.mpr hab, beq_eq_false_iff_ne.mpr (Ne.symm hab)]
  unfold wordEqv; split
  · exact h _ _
  · split
    · exact h _ _
    · split
      · exact h _ _
      · exact h _ _

theorem wordEqv_trans {s : U32} {x y z : U64} (h1 : wordEqv s x y = true)
    (h2 : wordEqv s y z = true) : wordEqv s x z = true := by
  unfold wordEqv at *
  by_cases a : s.toNat = 1
  · simp only [a, if_true, beq_iff_eq] at *; rw [h1, h2]
  · by_cases b : s.toNat = 2
    · simp only [b, if_true, beq_iff_eq] at *; simp at *; rw [h1, h2]
    · by_cases c : s.toNat = 4
      · simp only [c, if_true, beq_iff_eq] at *; simp at *; rw [h1, h2]
      · simp only [a, b, c, if_false, beq_iff_eq] at *; rw [h1, h2]

/-- What `operator==` compares. -/
theorem eqv_iff (a b : VarInfo) : a.eqv b = true ↔
    a.nameIndex = b.nameIndex ∧ a.typeIndex = b.typeIndex ∧ a.format = b.format ∧ a.size = b.size ∧
    a.bufferSize = b.bufferSize ∧ a.hasBufferSize = b.hasBufferSize ∧
    (match a.value, b.value with
     | .blob x, .blob y => x.take a.size.toNat = y.take a.size.toNat
     | .word x, .word y => wordEqv a.size x y = true
     | _, _ => False) := by
  unfold VarInfo.eqv
  cases ha : a.value <;> cases hb : b.value <;> simp [and_assoc]

theorem setWidth_eq_iff (w : Nat) (x y : U64) :
    x.setWidth w = y.setWidth w ↔ x.toNat % 2 ^ w = y.toNat % 2 ^ w := by
  constructor
  · intro h
    have := congrArg BitVec.toNat h
    simpa using this
  · intro h
    apply BitVec.eq_of_toNat_eq
    simpa using h

/-- Values that are in range and agree in their low bytes are equal. -/
theorem word_of_low {w : Nat} {x y : U64} {signed : Bool} (hw : 0 < w) (hw' : w < 64)
    (hx : if signed then -(2 : Int) ^ (w - 1) ≤ x.toInt ∧ x.toInt < 2 ^ (w - 1)
      else x.toNat < 2 ^ w)
    (hy : if signed then -(2 : Int) ^ (w - 1) ≤ y.toInt ∧ y.toInt < 2 ^ (w - 1)
      else y.toNat < 2 ^ w)
    (h : x.toNat % 2 ^ w = y.toNat % 2 ^ w) : x = y := by
  cases signed with
  | false =>
    simp only [Bool.false_eq_true, if_false] at hx hy
    rw [Nat.mod_eq_of_lt hx, Nat.mod_eq_of_lt hy] at h
    exact BitVec.eq_of_toNat_eq h
  | true =>
    simp only [if_true] at hx hy
    have e : (2 : Nat) ^ w = 2 * 2 ^ (w - 1) := by
      rw [← Nat.pow_succ']; congr 1; omega
    have hd : (2 : Nat) ^ 64 = 2 ^ w * 2 ^ (64 - w) := by rw [← Nat.pow_add]; congr 1; omega
    have hxlt := x.isLt
    have hylt := y.isLt
    have c1 : ((2 : Int) ^ (w - 1)) = ((2 ^ (w - 1) : Nat) : Int) := by simp
    rw [c1] at hx hy
    have hxi : x.toInt = if 2 * x.toNat < 2 ^ 64 then (x.toNat : Int) else x.toNat - (2 ^ 64 : Nat) :=
      BitVec.toInt_eq_toNat_cond x
    have hyi : y.toInt = if 2 * y.toNat < 2 ^ 64 then (y.toNat : Int) else y.toNat - (2 ^ 64 : Nat) :=
      BitVec.toInt_eq_toNat_cond y
    apply BitVec.eq_of_toNat_eq
    -- the two integers differ by a multiple of 2^w and by less than 2^w
    obtain ⟨H, hH⟩ : ∃ H, H = 2 ^ (w - 1) := ⟨_, rfl⟩
    obtain ⟨M, hM⟩ : ∃ M, M = 2 ^ w := ⟨_, rfl⟩
    obtain ⟨K, hK⟩ : ∃ K, K = 2 ^ (64 - w) := ⟨_, rfl⟩
    rw [← hM] at h e hd
    rw [← hH] at e hx hy
    rw [← hK] at hd
    have key : ∀ z : U64, ∃ c : Int, z.toInt = (z.toNat : Int) + M * c := by
      intro z
      rw [BitVec.toInt_eq_toNat_cond]
      split
      · exact ⟨0, by simp⟩
      · refine ⟨-K, ?_⟩
        rw [hd]; push_cast; rw [Int.mul_neg]; omega
    obtain ⟨c, hc⟩ := key x
    obtain ⟨d, hd'⟩ := key y
    have hmod : x.toInt % M = y.toInt % M := by
      rw [hc, hd', Int.add_mul_emod_self_left, Int.add_mul_emod_self_left]
      exact_mod_cast h
    have : x.toInt = y.toInt := by
      have hdiff : (x.toInt - y.toInt) % M = 0 := by
        rw [Int.sub_emod, hmod, Int.sub_self, Int.zero_emod]
      obtain ⟨k, hk⟩ := Int.dvd_of_emod_eq_zero hdiff
      have hMe : (M : Int) = 2 * H := by exact_mod_cast e
      have hlt : x.toInt - y.toInt < M := by omega
      have hgt : -(M : Int) < x.toInt - y.toInt := by omega
      have hk0 : k = 0 := by
        rw [hk] at hlt hgt
        have hMpos : 0 < (M : Int) := by omega
        rcases Int.lt_trichotomy k 0 with h0 | h0 | h0
        · have : (M : Int) * k ≤ M * (-1) := Int.mul_le_mul_of_nonneg_left (by omega) (by omega)
          omega
        · exact h0
        · have : (M : Int) * 1 ≤ M * k := Int.mul_le_mul_of_nonneg_left (by omega) (by omega)
          omega
      rw [hk0, Int.mul_zero] at hk; omega
    rw [BitVec.toInt_inj] at this
    rw [this]

/-- Among variables as produced by the reader, `operator==` is equality. -/
theorem eqv_iff_eq {a b : VarInfo} (ha : a.Canonical) (hb : b.Canonical) :
    a.eqv b = true ↔ a = b := by
  rw [eqv_iff]
  constructor
  · rintro ⟨h1, h2, h3, h4, h5, h6, h7⟩
    obtain ⟨av, an, at', af, as, ab, ah⟩ := a
    obtain ⟨bv, bn, bt, bf, bs, bb, bh⟩ := b
    simp only at h1 h2 h3 h4 h5 h6 h7
    subst h1 h2 h3 h4 h5 h6
    cases av with
    | blob x =>
      cases bv with
      | word y => exact h7.elim
      | blob y =>
        simp only [VarInfo.Canonical] at ha hb
        simp only at h7
        rw [List.take_of_length_le (by omega), List.take_of_length_le (by omega)] at h7
        rw [h7]
    | word x =>
      cases bv with
      | blob y => exact h7.elim
      | word y =>
        simp only [VarInfo.Canonical] at ha hb
        have hxy : x = y := by
          simp only [wordEqv] at h7
          have key : ∀ w : Nat, as.toNat * 8 = w → 0 < w → w < 64 → x.setWidth w = y.setWidth w →
              (as = 1 ∨ as = 2 ∨ as = 4) → x = y := by
            intro w hw h0 h64 hlow hs
            have hx := ha.2 hs
            have hy := hb.2 hs
            have e8 : 8 * as.toNat = w := by omega
            rw [e8] at hx hy
            refine word_of_low (signed := decide (af = .signed)) h0 h64 ?_ ?_ ((setWidth_eq_iff w x y).mp hlow)
            · simpa using hx
            · simpa using hy
          split at h7
          · rename_i hs
            exact key 8 (by omega) (by omega) (by omega) (by simpa using h7)
              (Or.inl (BitVec.eq_of_toNat_eq (by simpa using hs)))
          · split at h7
            · rename_i hs
              exact key 16 (by omega) (by omega) (by omega) (by simpa using h7)
                (Or.inr (Or.inl (BitVec.eq_of_toNat_eq (by simpa using hs))))
            · split at h7
              · rename_i hs
                exact key 32 (by omega) (by omega) (by omega) (by simpa using h7)
                  (Or.inr (Or.inr (BitVec.eq_of_toNat_eq (by simpa using hs))))
              · simpa using h7
        rw [hxy]
  · rintro rfl
    refine ⟨rfl, rfl, rfl, rfl, rfl, rfl, ?_⟩
    cases h : a.value with
    | blob x => rfl
    | word x => exact wordEqv_refl _ _

end TraceDB
