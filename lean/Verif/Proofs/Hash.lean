import Verif.Model.Hash
import Verif.Proofs.Equality
/-
Equality is an equivalence, agrees with hashing; orderings.
-/
namespace TraceDB

theorem VarInfo.eqv_refl (a : VarInfo) : a.eqv a = true := by
  rw [eqv_iff]
  refine ⟨rfl, rfl, rfl, rfl, rfl, rfl, ?_⟩
  cases a.value with
  | blob x => rfl
  | word x => exact wordEqv_refl _ _

theorem VarInfo.eqv_symm {a b : VarInfo} (h : a.eqv b = true) : b.eqv a = true := by
  rw [eqv_iff] at h ⊢
  obtain ⟨h1, h2, h3, h4, h5, h6, h7⟩ := h
  refine ⟨h1.symm, h2.symm, h3.symm, h4.symm, h5.symm, h6.symm, ?_⟩
  rw [← h4]
  cases ha : a.value <;> cases hb : b.value <;> simp only [ha, hb] at h7 ⊢
  · rw [wordEqv_symm]; exact h7
  · exact h7.symm

theorem VarInfo.eqv_trans {a b c : VarInfo} (h : a.eqv b = true) (h' : b.eqv c = true) : a.eqv c = true := by
  rw [eqv_iff] at h h' ⊢
  obtain ⟨h1, h2, h3, h4, h5, h6, h7⟩ := h
  obtain ⟨k1, k2, k3, k4, k5, k6, k7⟩ := h'
  refine ⟨h1.trans k1, h2.trans k2, h3.trans k3, h4.trans k4, h5.trans k5, h6.trans k6, ?_⟩
  rw [← h4] at k7
  cases ha : a.value <;> cases hb : b.value <;> cases hc : c.value <;> simp only [ha, hb, hc] at h7 k7 ⊢
  · exact wordEqv_trans h7 k7
  · exact h7.trans k7

theorem VarInfo.hash_eqv (H : HashSys) {a b : VarInfo} (h : a.eqv b = true) : a.hash H = b.hash H := by
  rw [eqv_iff] at h
  obtain ⟨h1, h2, h3, h4, h5, h6, h7⟩ := h
  have hv : valueHash H a = valueHash H b := by
    unfold valueHash
    rw [← h4]
    cases ha : a.value with
    | word x =>
      cases hb : b.value with
      | blob y => simp [ha, hb] at h7
      | word y =>
        simp only [ha, hb] at h7
        simp only
        unfold wordEqv at h7
        split
        · rename_i hs; simp only [hs, if_true, beq_iff_eq] at h7; rw [h7]
        · rename_i hs1
          split
          · rename_i hs; simp [hs] at h7; rw [h7]
          · rename_i hs2
            split
            · rename_i hs; simp [hs] at h7; rw [h7]
            · rename_i hs3; simp [hs1, hs2, hs3] at h7; rw [h7]
    | blob x =>
      cases hb : b.value with
      | word y => simp [ha, hb] at h7
      | blob y =>
        simp only [ha, hb] at h7
        simp only [h7]
  simp only [VarInfo.hash, hv, h1, h2, h3, h4, h5, h6]

mutual
theorem Pred.eqv_iff_eq : ∀ (p q : Pred), Pred.eqv p q = true ↔ p = q
  | .node k d cs, .node k' d' cs' => by
    have := Pred.eqvList_iff_eq cs cs'
    simp [Pred.eqv, this, and_assoc]
theorem Pred.eqvList_iff_eq : ∀ (ps qs : List Pred), Pred.eqvList ps qs = true ↔ ps = qs
  | [], [] => by simp [Pred.eqvList]
  | [], _ :: _ => by simp [Pred.eqvList]
  | _ :: _, [] => by simp [Pred.eqvList]
  | p :: ps, q :: qs => by
    have h1 := Pred.eqv_iff_eq p q
    have h2 := Pred.eqvList_iff_eq ps qs
    simp [Pred.eqvList, h1, h2]
end

theorem TypeDesc.eqv_iff_eq (a b : TypeDesc) : a.eqv b = true ↔ a = b := by
  cases a; cases b; simp [TypeDesc.eqv, and_assoc]

theorem BufferSize.eqv_iff_eq (a b : BufferSize) : a.eqv b = true ↔ a = b := by
  cases a; cases b; simp [BufferSize.eqv]

theorem vecEqv_iff {α : Type} (f : α → α → Bool) (as bs : List α) :
    vecEqv f as bs = true ↔ as.length = bs.length ∧
      ∀ (i : Nat) (a b : α), as[i]? = some a → bs[i]? = some b → f a b = true := by
  induction as generalizing bs with
  | nil => cases bs <;> simp [vecEqv]
  | cons a as ih =>
    cases bs with
    | nil => simp [vecEqv]
    | cons b bs =>
      simp only [vecEqv, Bool.and_eq_true, ih, List.length_cons, Nat.add_right_cancel_iff]
      constructor
      · rintro ⟨h1, h2, h3⟩
        refine ⟨h2, ?_⟩
        intro i x y hx hy
        cases i with
        | zero => simp at hx hy; subst hx hy; exact h1
        | succ i => exact h3 i x y (by simpa using hx) (by simpa using hy)
      · rintro ⟨h1, h2⟩
        exact ⟨h2 0 a b rfl rfl, h1, fun i x y hx hy => h2 (i + 1) x y (by simpa using hx) (by simpa using hy)⟩

theorem vecEqv_iff_eq {α : Type} (f : α → α → Bool) (hf : ∀ a b, f a b = true ↔ a = b) (as bs : List α) :
    vecEqv f as bs = true ↔ as = bs := by
  induction as generalizing bs with
  | nil => cases bs <;> simp [vecEqv]
  | cons a as ih => cases bs <;> simp [vecEqv, hf, ih]

/-! Orderings -/

theorem tupleLt_irrefl (a : List Nat) : tupleLt a a = false := by
  induction a with
  | nil => rfl
  | cons x a ih => simp [tupleLt, ih]

theorem tupleLt_trans (a b c : List Nat) (h1 : tupleLt a b = true) (h2 : tupleLt b c = true) :
    tupleLt a c = true := by
  induction a generalizing b c with
  | nil => cases b <;> simp [tupleLt] at h1
  | cons x a ih =>
    cases b with
    | nil => simp [tupleLt] at h1
    | cons y b =>
      cases c with
      | nil => simp [tupleLt] at h2
      | cons z c =>
        simp only [tupleLt] at h1 h2 ⊢
        split at h1
        · split at h2
          · simp; omega
          · split at h2
            · cases h2
            · have : x < z := by omega
              simp [this]
        · split at h1
          · cases h1
          · split at h2
            · have : x < z := by omega
              simp [this]
            · split at h2
              · cases h2
              · have e1 : ¬ x < z := by omega
                have e2 : ¬ z < x := by omega
                simp [e1, e2, ih b c h1 h2]

theorem tupleLt_total (a b : List Nat) (hl : a.length = b.length) (h1 : tupleLt a b = false)
    (h2 : tupleLt b a = false) : a = b := by
  induction a generalizing b with
  | nil => cases b <;> simp_all
  | cons x a ih =>
    cases b with
    | nil => simp at hl
    | cons y b =>
      simp only [tupleLt] at h1 h2
      by_cases hxy : x < y
      · simp [hxy] at h1
      · by_cases hyx : y < x
        · simp [hyx] at h2
        · simp only [hxy, hyx, if_false] at h1 h2
          have : x = y := by omega
          subst this
          rw [ih b (by simpa using hl) h1 h2]

theorem TypeFormat.code_inj {a b : TypeFormat} (h : a.code = b.code) : a = b := by
  cases a <;> cases b <;> simp [TypeFormat.code] at h <;> rfl

/-- Comparing two words. -/
theorem VarInfo.lt_word (pa pb : U64) {a b : VarInfo} {x y : U64} (ha : a.value = .word x) (hb : b.value = .word y) :
    VarInfo.lt pa pb a b = .ok (tupleLt (x.toNat :: a.key) (y.toNat :: b.key)) := by
  unfold VarInfo.lt
  simp only [ha, hb]

theorem VarInfo.key_inj {a b : VarInfo} (h : a.key = b.key) (hv : a.value = b.value) : a = b := by
  obtain ⟨av, an, at', af, as, ab, ah⟩ := a
  obtain ⟨bv, bn, bt, bf, bs, bb, bh⟩ := b
  simp only [VarInfo.key, List.cons.injEq, and_true] at h
  simp only at hv
  obtain ⟨h1, h2, h3, h4, h5, h6⟩ := h
  have e1 := BitVec.eq_of_toNat_eq h1
  have e2 := BitVec.eq_of_toNat_eq h2
  have e3 := TypeFormat.code_inj h3
  have e4 := BitVec.eq_of_toNat_eq h4
  have e5 := BitVec.eq_of_toNat_eq h5
  have e6 : ah = bh := by cases ah <;> cases bh <;> simp at h6 <;> rfl
  subst hv e1 e2 e3 e4 e5 e6
  rfl

end TraceDB
