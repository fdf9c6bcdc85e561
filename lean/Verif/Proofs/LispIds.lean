import Verif.Model.LispDb
/-
Arithmetic of statement ids.
-/
namespace TraceDB

theorem flag_or {x : Nat} (h : x < 2 ^ 63) : 1 <<< 63 ||| x = 2 ^ 63 + x := by
  rw [← Nat.shiftLeft_add_eq_or_of_lt h]
  simp [Nat.shiftLeft_eq]

theorem file_or {f a : Nat} (h : a < 2 ^ 40) : f <<< 40 ||| a = f * 2 ^ 40 + a := by
  rw [← Nat.shiftLeft_add_eq_or_of_lt h, Nat.shiftLeft_eq]

/-- The flag bit is set exactly in ids from 2^63 on. -/
theorem flag_iff (s : U64) : s.toNat &&& 1 <<< 63 > 0 ↔ 2 ^ 63 ≤ s.toNat := by
  have hs := s.isLt
  have h1 : s.toNat &&& 1 <<< 63 = (s.toNat >>> 63 &&& 1) <<< 63 := by
    apply Nat.eq_of_testBit_eq
    intro i
    simp only [Nat.testBit_and, Nat.testBit_shiftLeft, Nat.testBit_shiftRight]
    by_cases hi : 63 ≤ i
    · simp [hi]
    · simp [hi]
  rw [h1, Nat.and_one_is_mod, Nat.shiftRight_eq_div_pow, Nat.shiftLeft_eq]
  omega

theorem and_low (n x : Nat) : (1 <<< n - 1) &&& x = x % 2 ^ n := by
  rw [Nat.one_shiftLeft, Nat.and_comm, Nat.and_two_pow_sub_one_eq_mod]

theorem unpackC_eq (s : U64) : unpackC s = if 2 ^ 63 ≤ s.toNat then s.toNat % 2 ^ 40 else s.toNat := by
  unfold unpackC
  rw [and_low]
  by_cases h : 2 ^ 63 ≤ s.toNat
  · rw [if_pos ((flag_iff s).mpr h), if_pos h]
  · rw [if_neg (fun hc => h ((flag_iff s).mp hc)), if_neg h]

theorem unpackF_eq (s : U64) :
    unpackF s = if 2 ^ 63 ≤ s.toNat then some (s.toNat / 2 ^ 40 % 2 ^ 23) else none := by
  unfold unpackF
  rw [and_low, Nat.shiftRight_eq_div_pow]
  by_cases h : 2 ^ 63 ≤ s.toNat
  · rw [if_pos ((flag_iff s).mpr h), if_pos h]
  · rw [if_neg (fun hc => h ((flag_iff s).mp hc)), if_neg h]

theorem packId_some {f a : Nat} (hf : f < 2 ^ 23) (ha : a < 2 ^ 40) :
    packId (some f) a = 2 ^ 63 + f * 2 ^ 40 + a := by
  unfold packId
  simp only []
  rw [Nat.or_assoc, file_or ha, flag_or (by omega), Nat.add_assoc]

/-- The mask of a query looks at the file bits only. -/
theorem mask_iff (s : U64) (f : Nat) (hf : f < 2 ^ 23) :
    s &&& BitVec.ofNat 64 ((1 <<< 23 - 1) <<< 40) = BitVec.ofNat 64 (f <<< 40) ↔
      s.toNat / 2 ^ 40 % 2 ^ 23 = f := by
  have hs := s.isLt
  rw [← BitVec.toNat_inj, BitVec.toNat_and, BitVec.toNat_ofNat, BitVec.toNat_ofNat,
    Nat.shiftLeft_eq f, Nat.mod_eq_of_lt (a := f * 2 ^ 40) (by omega),
    Nat.mod_eq_of_lt (a := (1 <<< 23 - 1) <<< 40) (by decide)]
  have key : s.toNat &&& (1 <<< 23 - 1) <<< 40 = (s.toNat / 2 ^ 40 % 2 ^ 23) * 2 ^ 40 := by
    have h1 : s.toNat &&& (1 <<< 23 - 1) <<< 40 = (s.toNat >>> 40 &&& (1 <<< 23 - 1)) <<< 40 := by
      apply Nat.eq_of_testBit_eq
      intro i
      simp only [Nat.testBit_and, Nat.testBit_shiftLeft, Nat.testBit_shiftRight]
      by_cases hi : 40 ≤ i
      · simp [hi]
      · simp [hi]
    rw [h1, Nat.and_comm, and_low, Nat.shiftRight_eq_div_pow, Nat.shiftLeft_eq]
  rw [key]
  omega

theorem fileArgs_some {f : Nat} (hf : f < 2 ^ 23) :
    fileArgs (some f) = .ok (BitVec.ofNat 64 ((1 <<< 23 - 1) <<< 40), BitVec.ofNat 64 (f <<< 40)) := by
  unfold fileArgs
  simp only []
  rw [if_pos (by rw [Nat.shiftLeft_eq]; omega)]

end TraceDB
