import Verif.Proofs.Hash
import Verif.Proofs.Equality
import Verif.Spec.Order
import Verif.Spec.Query
/-
Orderings.
-/
namespace TraceDB

theorem setWidth_inj_mod (x y : U64) (w : Nat) : (x.setWidth w == y.setWidth w) = true ↔ x.toNat % 2 ^ w = y.toNat % 2 ^ w := by
  rw [beq_iff_eq]
  constructor
  · intro h
    have := congrArg BitVec.toNat h
    simpa [BitVec.toNat_setWidth] using this
  · intro h
    apply BitVec.eq_of_toNat_eq
    simpa [BitVec.toNat_setWidth] using h

theorem u32_lit (a : U32) (n : Nat) (h : n < 2 ^ 32) : a.toNat = n ↔ a = BitVec.ofNat 32 n := by
  constructor
  · intro e; apply BitVec.eq_of_toNat_eq; rw [e, BitVec.toNat_ofNat, Nat.mod_eq_of_lt h]
  · intro e; rw [e, BitVec.toNat_ofNat, Nat.mod_eq_of_lt h]

theorem wordEqv_iff (s : U32) (x y : U64) :
    wordEqv s x y = true ↔
      (if s = 1 ∨ s = 2 ∨ s = 4 then x.toNat % 2 ^ (8 * s.toNat) else x.toNat) =
      (if s = 1 ∨ s = 2 ∨ s = 4 then y.toNat % 2 ^ (8 * s.toNat) else y.toNat) := by
  unfold wordEqv
  by_cases h1 : s = 1
  · subst h1; simp only [show (1 : U32).toNat = 1 from rfl, if_true, true_or]; exact setWidth_inj_mod x y 8
  · have n1 : ¬ s.toNat = 1 := fun e => h1 ((u32_lit s 1 (by decide)).mp e)
    by_cases h2 : s = 2
    · subst h2
      simp only [show (2 : U32).toNat = 2 from rfl, if_true, true_or, or_true]; exact setWidth_inj_mod x y 16
    · have n2 : ¬ s.toNat = 2 := fun e => h2 ((u32_lit s 2 (by decide)).mp e)
      by_cases h4 : s = 4
      · subst h4
        simp only [show (4 : U32).toNat = 4 from rfl, if_true, or_true]; exact setWidth_inj_mod x y 32
      · have n4 : ¬ s.toNat = 4 := fun e => h4 ((u32_lit s 4 (by decide)).mp e)
        simp only [n1, n2, n4, if_false, h1, h2, h4, or_self, beq_iff_eq]
        exact ⟨congrArg _, BitVec.eq_of_toNat_eq⟩

theorem eqv_iff_same (a b : VarInfo) : a.eqv b = true ↔ SameRecord a b := by
  unfold VarInfo.eqv SameRecord
  simp only [Bool.and_eq_true, beq_iff_eq, and_assoc]
  refine and_congr_right fun _ => and_congr_right fun _ => and_congr_right fun _ => and_congr_right fun hs =>
    and_congr_right fun _ => and_congr_right fun _ => ?_
  unfold VarInfo.content
  cases ha : a.value <;> cases hb : b.value
  · simp only [Sum.inl.injEq]; rw [wordEqv_iff, ← hs]
  · simp
  · simp
  · simp [← hs]

/-- Key of a byte in the order of signed characters. -/
def charKey (b : U8) : Nat := (b.toInt + 128).toNat

theorem charKey_lt (a b : U8) : charKey a < charKey b ↔ a.toInt < b.toInt := by
  have h1 := BitVec.le_toInt a; have h2 := BitVec.le_toInt b
  unfold charKey
  omega

theorem charKey_inj {a b : U8} (h : charKey a = charKey b) : a = b := by
  have h1 := BitVec.le_toInt a; have h2 := BitVec.le_toInt b
  unfold charKey at h
  exact BitVec.eq_of_toInt_eq (by omega)

theorem charsCmp_key (x y : List U8) (hl : x.length = y.length) (k l : List Nat) :
    (match charsCmp x y with
      | .lt => true
      | .gt => false
      | .eq => tupleLt k l) = tupleLt (x.map charKey ++ k) (y.map charKey ++ l) := by
  induction x generalizing y with
  | nil => cases y <;> simp_all [charsCmp]
  | cons a x ih =>
    cases y with
    | nil => simp at hl
    | cons b y =>
      simp only [charsCmp, List.map_cons, List.cons_append, tupleLt, charKey_lt]
      by_cases h1 : a.toInt < b.toInt
      · simp [h1]
      · by_cases h2 : b.toInt < a.toInt
        · simp [h1, h2]
        · simp only [h1, h2, if_false]
          exact ih y (by simpa using hl)

theorem VarInfo.lt_blob (pa pb : U64) {a b : VarInfo} {x y : List U8} {n : Nat} (ha : a.value = .blob x)
    (hb : b.value = .blob y) (hx : x.length = n) (hy : y.length = n) (hs : a.size.toNat = n) :
    VarInfo.lt pa pb a b = .ok (tupleLt (x.map charKey ++ a.key) (y.map charKey ++ b.key)) := by
  unfold VarInfo.lt
  simp only [ha, hb, hs, hx, hy, Nat.le_refl, and_self, if_true, ← charsCmp_key x y (by omega)]
  rw [List.take_of_length_le (by omega), List.take_of_length_le (by omega)]
  cases charsCmp x y <;> rfl

theorem hashAgrees_of_eq {α : Type} {eqv : α → α → Bool} (h : ∀ a b, eqv a b = true ↔ a = b) (hash : α → U64) :
    HashAgrees (fun a b => eqv a b = true) hash :=
  ⟨fun a => (h a a).mpr rfl, fun a b hab => (h b a).mpr ((h a b).mp hab).symm,
    fun a b c hab hbc => (h a c).mpr (((h a b).mp hab).trans ((h b c).mp hbc)),
    fun a b hab => by rw [(h a b).mp hab]⟩

theorem tupleLt_strict {α : Type} (P : α → Prop) (key : α → List Nat) (eq : α → α → Prop)
    (hlen : ∀ a b, P a → P b → (key a).length = (key b).length) (hkey : ∀ a b, P a → P b → (key a = key b ↔ eq a b)) :
    StrictTotal P (fun a b => tupleLt (key a) (key b) = true) eq where
  irrefl a _ h := by rw [tupleLt_irrefl] at h; cases h
  trans a b c _ _ _ := tupleLt_trans _ _ _
  total a b ha hb := by
    by_cases h1 : tupleLt (key a) (key b) = true
    · exact .inl h1
    · by_cases h2 : tupleLt (key b) (key a) = true
      · exact .inr (.inl h2)
      · exact .inr (.inr ((hkey a b ha hb).mp (tupleLt_total _ _ (hlen a b ha hb) (by simpa using h1) (by simpa using h2))))
  sep a b ha hb h := by
    rw [(hkey a b ha hb).mpr h, tupleLt_irrefl]
    simp

end TraceDB
