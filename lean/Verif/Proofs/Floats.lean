import Verif.Spec.Floats
import Verif.Proofs.Query
/-
Lemmas for `Verif.Props.Floats`.
-/
namespace TraceDB

/-- Numbers with a short mantissa over the denominator of the doubles. -/
def Bin (q : Rat) : Prop :=
  ∃ (m : Int) (e : Nat), -(10 : Int) ^ 48 < m ∧ m < (10 : Int) ^ 48 ∧
    q * ((2 ^ 1075 : Nat) : Rat) = ((m * (2 ^ e : Nat) : Int) : Rat)

/-- Different short mantissas are far apart. -/
theorem int_gap {m n : Int} {e f : Nat} (hm : -(10 : Int) ^ 48 < m ∧ m < (10 : Int) ^ 48)
    (hef : e ≤ f) (h : m * (2 ^ e : Nat) < n * (2 ^ f : Nat)) :
    m * (2 ^ e : Nat) ≤ 10 ^ 48 * (n * (2 ^ f : Nat) - m * (2 ^ e : Nat)) ∧
    -(m * (2 ^ e : Nat)) ≤ 10 ^ 48 * (n * (2 ^ f : Nat) - m * (2 ^ e : Nat)) := by
  obtain ⟨k, rfl⟩ := Nat.exists_eq_add_of_le hef
  have hp : (0 : Int) < (2 ^ e : Nat) := by exact_mod_cast Nat.pow_pos (by decide)
  have e1 : n * ((2 ^ (e + k) : Nat) : Int) = (n * (2 ^ k : Nat)) * ((2 ^ e : Nat) : Int) := by
    rw [Nat.pow_add]; push_cast; ac_rfl
  rw [e1] at h ⊢
  generalize n * ((2 ^ k : Nat) : Int) = c at h ⊢
  generalize ((2 ^ e : Nat) : Int) = P at hp h ⊢
  have hlt : m < c := Int.lt_of_mul_lt_mul_right h (Int.le_of_lt hp)
  have h1 : P ≤ c * P - m * P := by
    have : P * 1 ≤ P * (c - m) := Int.mul_le_mul_of_nonneg_left (by omega) (Int.le_of_lt hp)
    rw [Int.mul_sub] at this
    rw [Int.mul_comm c, Int.mul_comm m]; omega
  have h2 : m * P ≤ 10 ^ 48 * P := Int.mul_le_mul_of_nonneg_right (by omega) (Int.le_of_lt hp)
  have h3 : -m * P ≤ 10 ^ 48 * P := Int.mul_le_mul_of_nonneg_right (by omega) (Int.le_of_lt hp)
  rw [Int.neg_mul] at h3
  have h4 : (10 : Int) ^ 48 * P ≤ 10 ^ 48 * (c * P - m * P) := Int.mul_le_mul_of_nonneg_left h1 (by decide)
  omega

theorem den_pos : (0 : Rat) < ((2 ^ 1075 : Nat) : Rat) := by
  have : (0 : Nat) < 2 ^ 1075 := Nat.pow_pos (by decide)
  exact_mod_cast this

/-- Two different numbers with short mantissas are far apart. -/
theorem bin_gap {a b : Rat} (ha : Bin a) (hb : Bin b) (h : a < b) :
    a ≤ (10 ^ 48 + 1) * (b - a) ∧ -a ≤ (10 ^ 48 + 1) * (b - a) ∧
    b ≤ (10 ^ 48 + 1) * (b - a) ∧ -b ≤ (10 ^ 48 + 1) * (b - a) := by
  obtain ⟨m, e, hm1, hm2, e1⟩ := ha
  obtain ⟨n, f, hn1, hn2, e2⟩ := hb
  have hD := den_pos
  generalize ((2 ^ 1075 : Nat) : Rat) = D at hD e1 e2
  have hlt : a * D < b * D := Rat.mul_lt_mul_of_pos_right h hD
  rw [e1, e2, Rat.intCast_lt_intCast] at hlt
  have up : ∀ x : Rat, x * D ≤ (10 ^ 48 * (b - a)) * D → x ≤ 10 ^ 48 * (b - a) :=
    fun x hx => Rat.le_of_mul_le_mul_right hx hD
  have hr : (10 ^ 48 * (b - a)) * D = 10 ^ 48 * (b * D - a * D) := by grind
  rcases Nat.le_total e f with hef | hef
  · have hg := int_gap ⟨hm1, hm2⟩ hef hlt
    generalize m * ((2 ^ e : Nat) : Int) = A at *
    generalize n * ((2 ^ f : Nat) : Int) = B at *
    have h1 := Rat.intCast_le_intCast.mpr hg.1
    have h2 := Rat.intCast_le_intCast.mpr hg.2
    push_cast at h1 h2
    rw [← e1, ← e2] at h1 h2
    have k1 := up a (by rw [hr]; exact h1)
    have k2 := up (-a) (by rw [hr]; grind)
    refine ⟨?_, ?_, ?_, ?_⟩ <;> grind
  · have hlt' : (-n) * ((2 ^ f : Nat) : Int) < (-m) * ((2 ^ e : Nat) : Int) := by
      rw [Int.neg_mul, Int.neg_mul]; omega
    have hg := int_gap (m := -n) (n := -m) ⟨by omega, by omega⟩ hef hlt'
    rw [Int.neg_mul, Int.neg_mul] at hg
    generalize m * ((2 ^ e : Nat) : Int) = A at *
    generalize n * ((2 ^ f : Nat) : Int) = B at *
    have h1 := Rat.intCast_le_intCast.mpr hg.1
    have h2 := Rat.intCast_le_intCast.mpr hg.2
    push_cast at h1 h2
    rw [← e1, ← e2] at h1 h2
    have k1 := up b (by rw [hr]; grind)
    have k2 := up (-b) (by rw [hr]; grind)
    refine ⟨?_, ?_, ?_, ?_⟩ <;> grind

/-- Being close keeps the order of numbers with short mantissas. -/
theorem round_lt {round : Rat → Rat}
    (close : ∀ q : Rat, (round q - q) * 10 ^ 49 ≤ q ∧ (q - round q) * 10 ^ 49 ≤ q ∨
      (round q - q) * 10 ^ 49 ≤ -q ∧ (q - round q) * 10 ^ 49 ≤ -q)
    {a b : Rat} (ha : Bin a) (hb : Bin b) (h : a < b) : round a < round b := by
  obtain ⟨g1, g2, g3, g4⟩ := bin_gap ha hb h
  have ca := close a
  have cb := close b
  generalize round a = a' at *
  generalize round b = b' at *
  have c1 : (a' - a) * 10 ^ 49 ≤ (10 ^ 48 + 1) * (b - a) := by grind
  have c2 : (b - b') * 10 ^ 49 ≤ (10 ^ 48 + 1) * (b - a) := by grind
  grind

/-- The numerator of a finite float. -/
def ieeeNum (p : Nat) (neg : Bool) (exponent fraction : Nat) : Int :=
  let m : Nat := if exponent = 0 then fraction * 2 else (2 ^ p + fraction) * 2 ^ exponent
  if neg then -(m : Int) else m

theorem ieee_fin {w p bias : Nat} {neg : Bool} {exponent fraction : Nat} {q : Rat}
    (h : ieee w p bias neg exponent fraction = .fin q) :
    q * ((2 ^ (bias + p) : Nat) : Rat) = ((ieeeNum p neg exponent fraction : Int) : Rat) := by
  unfold ieee at h
  split at h
  · split at h <;> cases h
  · injection h with h
    rw [← h]
    have hD : ((2 ^ (bias + p) : Nat) : Rat) ≠ 0 := by
      have : (2 ^ (bias + p) : Nat) ≠ 0 := Nat.ne_of_gt (Nat.pow_pos (by decide))
      exact_mod_cast this
    rw [Rat.div_mul_cancel hD]
    rfl

theorem ieee_bin {w p bias : Nat} {neg : Bool} {exponent fraction : Nat} {q : Rat} (hp : p ≤ 100)
    (hb : bias + p ≤ 1075) (hf : fraction < 2 ^ p)
    (h : ieee w p bias neg exponent fraction = .fin q) : Bin q := by
  have h1 := ieee_fin h
  have h2 : q * ((2 ^ 1075 : Nat) : Rat) = ((ieeeNum p neg exponent fraction * (2 ^ (1075 - (bias + p)) : Nat) : Int) : Rat) := by
    have e1 : (2 ^ 1075 : Nat) = 2 ^ (bias + p) * 2 ^ (1075 - (bias + p)) := by
      rw [← Nat.pow_add]; congr 1; omega
    rw [e1, Rat.natCast_mul, ← Rat.mul_assoc, h1, Rat.intCast_mul]
    rfl
  have hp2 : 2 ^ p ≤ 2 ^ 100 := Nat.pow_le_pow_right (by decide) hp
  generalize 1075 - (bias + p) = r at h2
  unfold ieeeNum at h2
  by_cases h0 : exponent = 0
  · rw [if_pos h0] at h2
    refine ⟨if neg then -(fraction : Int) else fraction, r + 1, ?_, ?_, ?_⟩
    · split <;> omega
    · split <;> omega
    · rw [h2]
      congr 1
      rw [Nat.pow_succ]
      cases neg <;> push_cast <;> grind
  · rw [if_neg h0] at h2
    refine ⟨if neg then -((2 ^ p + fraction : Nat) : Int) else (2 ^ p + fraction : Nat), exponent + r, ?_, ?_, ?_⟩
    · split <;> omega
    · split <;> omega
    · rw [h2]
      congr 1
      rw [Nat.pow_add]
      generalize 2 ^ p + fraction = m
      cases neg <;> push_cast <;> grind

theorem f32_bin {b : U32} {q : Rat} (h : f32Value b = .fin q) : Bin q :=
  ieee_bin (by decide) (by decide) (Nat.mod_lt _ (Nat.pow_pos (by decide))) h

theorem f64_bin {b : U64} {q : Rat} (h : f64Value b = .fin q) : Bin q :=
  ieee_bin (by decide) (by decide) (Nat.mod_lt _ (Nat.pow_pos (by decide))) h

theorem int_bin {i : Int} (h1 : -(10 : Int) ^ 48 < i) (h2 : i < (10 : Int) ^ 48) : Bin i :=
  ⟨i, 1075, h1, h2, by rw [Rat.intCast_mul]; rfl⟩

theorem int_digits {i : Int} (h1 : -(10 : Int) ^ 50 < i) (h2 : i < (10 : Int) ^ 50) : FiftyDigits i :=
  ⟨i, 0, h1, h2, Or.inl (by rw [Rat.pow_zero, Rat.mul_one])⟩

/-- A number after conversion. -/
def XNum.rounded (round : Rat → Rat) : XNum → XNum
  | .fin q => .fin (round q)
  | x => x

/-- Short mantissa, if it is a number. -/
def XNum.Bin : XNum → Prop
  | .fin q => TraceDB.Bin q
  | _ => True

theorem rat_trichotomy (a b : Rat) : a < b ∨ a = b ∨ b < a := by grind

theorem rounded_cmp {round : Rat → Rat}
    (close : ∀ q : Rat, (round q - q) * 10 ^ 49 ≤ q ∧ (q - round q) * 10 ^ 49 ≤ q ∨
      (round q - q) * 10 ^ 49 ≤ -q ∧ (q - round q) * 10 ^ 49 ≤ -q)
    (op : Cmp) {x y : XNum} (hx : x.Bin) (hy : y.Bin) :
    op.onNumber (x.rounded round) (y.rounded round) = op.onNumber x y := by
  have hlt : ∀ {a b : Rat}, TraceDB.Bin a → TraceDB.Bin b → (round a < round b ↔ a < b) := by
    intro a b ha hb
    constructor
    · intro h
      rcases rat_trichotomy a b with h' | h' | h'
      · exact h'
      · subst h'; exact absurd h (Rat.lt_irrefl)
      · exact absurd (round_lt close hb ha h') (Rat.not_lt.mpr (Rat.le_of_lt h))
    · exact round_lt close ha hb
  have heq : ∀ {a b : Rat}, TraceDB.Bin a → TraceDB.Bin b → (round a = round b ↔ a = b) := by
    intro a b ha hb
    constructor
    · intro h
      rcases rat_trichotomy a b with h' | h' | h'
      · have := round_lt close ha hb h'; rw [h] at this; exact absurd this (Rat.lt_irrefl)
      · exact h'
      · have := round_lt close hb ha h'; rw [h] at this; exact absurd this (Rat.lt_irrefl)
    · intro h; rw [h]
  have el : (x.rounded round).lt (y.rounded round) = x.lt y := by
    rcases x with _ | (_ | _) | x <;> rcases y with _ | (_ | _) | y <;>
      simp_all [XNum.rounded, XNum.lt, XNum.Bin]
  have er : (y.rounded round).lt (x.rounded round) = y.lt x := by
    rcases x with _ | (_ | _) | x <;> rcases y with _ | (_ | _) | y <;>
      simp_all [XNum.rounded, XNum.lt, XNum.Bin]
  have ee : (x.rounded round).eq (y.rounded round) = x.eq y := by
    rcases x with _ | (_ | _) | x <;> rcases y with _ | (_ | _) | y <;>
      simp_all [XNum.rounded, XNum.eq, XNum.Bin]
  cases op <;> simp [Cmp.onNumber, el, er, ee]

theorem onInt_onNumber (op : Cmp) (i j : Int) : op.onInt i j = op.onNumber (.fin i) (.fin j) := by
  cases op <;> simp [Cmp.onInt, Cmp.onNumber, XNum.lt, XNum.eq, Rat.intCast_lt_intCast]
  · rw [Bool.eq_iff_iff]; simp; omega
  · rw [Bool.eq_iff_iff]; simp; omega

/-- A number as computed by the code for a simple term and what it should be. -/
def SimpleRep {fs : FloatSys} (val : fs.F → XNum) (round : Rat → Rat) : Option (Num fs) → Option XNum → Prop
  | none, none => True
  | some (.int i), some n => n = .fin i ∧ -(10 : Int) ^ 48 < i ∧ i < (10 : Int) ^ 48
  | some (.real x), some n => n.Bin ∧ val x = n.rounded round
  | _, _ => False

theorem u64_small (u : U64) : -(10 : Int) ^ 48 < (u.toNat : Int) ∧ (u.toNat : Int) < (10 : Int) ^ 48 := by
  have := u.isLt
  omega

theorem i64_small (u : U64) : -(10 : Int) ^ 48 < u.toInt ∧ u.toInt < (10 : Int) ^ 48 := by
  have h1 := @BitVec.toInt_lt 64 u
  have h2 := @BitVec.le_toInt 64 u
  simp at h1 h2
  omega

theorem f32_rep {fs : FloatSys} {val : fs.F → XNum} {round : Rat → Rat} (hf : DecimalFloats fs val round) (b : U32) :
    (f32Value b).Bin ∧ val (fs.ofF32 b) = (f32Value b).rounded round := by
  rw [hf.ofF32]
  cases h : f32Value b with
  | fin q => exact ⟨f32_bin h, rfl⟩
  | _ => exact ⟨trivial, rfl⟩

theorem f64_rep {fs : FloatSys} {val : fs.F → XNum} {round : Rat → Rat} (hf : DecimalFloats fs val round) (b : U64) :
    (f64Value b).Bin ∧ val (fs.ofF64 b) = (f64Value b).rounded round := by
  rw [hf.ofF64]
  cases h : f64Value b with
  | fin q => exact ⟨f64_bin h, rfl⟩
  | _ => exact ⟨trivial, rfl⟩

/-- A term with an integer value has this value in both readings. -/
theorem intVal_exact {fs : FloatSys} (fl : VarInfo → fs.F) {vs : List VarInfo} {t : Term} {n : Int}
    (h : t.intVal vs = some n) : t.val fl vs = some (.int n) ∧ t.exact vs = some (.fin n) := by
  induction t generalizing n with
  | size i =>
    simp only [Term.intVal] at h
    simp only [Term.val, Term.exact]
    cases hv : vs[i]? with
    | none => simp [hv] at h
    | some v => simp only [hv] at h ⊢; split at h <;> simp_all
  | value i =>
    simp only [Term.intVal] at h
    simp only [Term.val, Term.exact]
    cases hv : vs[i]? with
    | none => simp [hv] at h
    | some v =>
      simp only [hv] at h ⊢
      obtain ⟨val, nm, ty, fmt, s, b, hb⟩ := v
      cases fmt <;> cases val <;> simp_all [varNumber, VarInfo.number]
  | nat u => simp only [Term.intVal] at h; cases h; exact ⟨rfl, rfl⟩
  | integer u => simp only [Term.intVal] at h; cases h; exact ⟨rfl, rfl⟩
  | float b => simp [Term.intVal] at h
  | add a b iha ihb =>
    simp only [Term.intVal] at h
    cases ha : a.intVal vs <;> cases hb : b.intVal vs <;> simp only [ha, hb, Option.some.injEq] at h <;> try cases h
    obtain ⟨a1, a2⟩ := iha ha
    obtain ⟨b1, b2⟩ := ihb hb
    refine ⟨by simp only [Term.val, a1, b1, numOp], by simp only [Term.exact, a2, b2, ratOp, Rat.intCast_add]⟩
  | sub a b iha ihb =>
    simp only [Term.intVal] at h
    cases ha : a.intVal vs <;> cases hb : b.intVal vs <;> simp only [ha, hb, Option.some.injEq] at h <;> try cases h
    obtain ⟨a1, a2⟩ := iha ha
    obtain ⟨b1, b2⟩ := ihb hb
    refine ⟨by simp only [Term.val, a1, b1, numOp], by simp only [Term.exact, a2, b2, ratOp, Rat.intCast_sub]⟩
  | mul a b iha ihb =>
    simp only [Term.intVal] at h
    cases ha : a.intVal vs <;> cases hb : b.intVal vs <;> simp only [ha, hb, Option.some.injEq] at h <;> try cases h
    obtain ⟨a1, a2⟩ := iha ha
    obtain ⟨b1, b2⟩ := ihb hb
    refine ⟨by simp only [Term.val, a1, b1, numOp], by simp only [Term.exact, a2, b2, ratOp, Rat.intCast_mul]⟩
  | div a b => simp [Term.intVal] at h

theorem value_rep {fs : FloatSys} {val : fs.F → XNum} {round : Rat → Rat} (hf : DecimalFloats fs val round)
    {vs : List VarInfo} (hvs : ∀ v ∈ vs, v.Canonical) (i : Nat) :
    SimpleRep val round ((Term.value i).val (recordedFloat fs) vs) ((Term.value i).exact vs) := by
  simp only [Term.val, Term.exact]
  cases hv : vs[i]? with
  | none => trivial
  | some v =>
    have hc := hvs v (List.mem_of_getElem? hv)
    obtain ⟨vl, nm, ty, fmt, s, b, hb⟩ := v
    cases fmt <;> cases vl <;> simp only [varNumber, VarInfo.number]
    case invalid.word => exact True.intro
    case invalid.blob => exact True.intro
    case blob.word => exact True.intro
    case blob.blob => exact True.intro
    case unsigned.blob => exact True.intro
    case signed.blob => exact True.intro
    case pointer.blob => exact True.intro
    case unsigned.word u => exact ⟨rfl, u64_small u⟩
    case pointer.word u => exact ⟨rfl, u64_small u⟩
    case signed.word u => exact ⟨rfl, i64_small u⟩
    case float.word u =>
      simp only [recordedFloat]
      split
      · exact f64_rep hf u
      · exact f32_rep hf _
    case float.blob bs => simp [VarInfo.Canonical] at hc

theorem size_rep {fs : FloatSys} {val : fs.F → XNum} {round : Rat → Rat} {vs : List VarInfo} (i : Nat) :
    SimpleRep val round ((Term.size i).val (recordedFloat fs) vs) ((Term.size i).exact vs) := by
  simp only [Term.val, Term.exact]
  cases hv : vs[i]? with
  | none => trivial
  | some v =>
    dsimp only
    split
    · exact ⟨rfl, u64_small v.bufferSize⟩
    · trivial

theorem simple_rep {fs : FloatSys} {val : fs.F → XNum} {round : Rat → Rat} (hf : DecimalFloats fs val round)
    {vs : List VarInfo} (hvs : ∀ v ∈ vs, v.Canonical) {t : Term} (ht : t.Simple vs) :
    SimpleRep val round (t.val (recordedFloat fs) vs) (t.exact vs) := by
  rcases ht with ⟨i, rfl⟩ | ⟨i, rfl⟩ | ⟨b, rfl⟩ | ⟨n, h, h1, h2⟩
  · exact size_rep i
  · exact value_rep hf hvs i
  · exact f64_rep hf b
  · obtain ⟨e1, e2⟩ := intVal_exact (recordedFloat fs) h
    rw [e1, e2]
    exact ⟨rfl, h1, h2⟩

theorem simple_toReal {fs : FloatSys} {val : fs.F → XNum} {round : Rat → Rat} (hf : DecimalFloats fs val round)
    {x : Num fs} {n : XNum} (h : SimpleRep val round (some x) (some n)) :
    n.Bin ∧ val x.toReal = n.rounded round := by
  cases x with
  | int i =>
    obtain ⟨rfl, h1, h2⟩ := h
    have hd : FiftyDigits i := int_digits (by omega) (by omega)
    exact ⟨int_bin h1 h2, by rw [Num.toReal, hf.ofInt i hd, XNum.rounded, hf.exact _ hd]⟩
  | real r => exact h

theorem simple_cmp {fs : FloatSys} {val : fs.F → XNum} {round : Rat → Rat} (hf : DecimalFloats fs val round)
    (op : Cmp) {x y : Option (Num fs)} {n m : Option XNum} (hx : SimpleRep val round x n) (hy : SimpleRep val round y m) :
    op.holds x y = op.exactly n m := by
  cases n with
  | none =>
    cases x with
    | none => rfl
    | some x => cases x <;> exact hx.elim
  | some n =>
    cases x with
    | none => exact hx.elim
    | some x =>
    cases m with
    | none =>
      cases y with
      | none => cases x <;> rfl
      | some y => cases y <;> exact hy.elim
    | some m =>
      cases y with
      | none => exact hy.elim
      | some y =>
        obtain ⟨b1, r1⟩ := simple_toReal hf hx
        obtain ⟨b2, r2⟩ := simple_toReal hf hy
        have key : op.onReal x.toReal y.toReal = op.onNumber n m := by
          rw [hf.cmp, r1, r2, rounded_cmp hf.close op b1 b2]
        cases x with
        | real x => exact key
        | int i =>
          cases y with
          | real y => exact key
          | int j =>
            obtain ⟨rfl, _⟩ := hx
            obtain ⟨rfl, _⟩ := hy
            exact onInt_onNumber op i j

/-- A number as computed by the code for a short term and what it should be. -/
def ShortRep {fs : FloatSys} (val : fs.F → XNum) : Option (Num fs) → Option XNum → Prop
  | none, none => True
  | some (.int i), some n => n = .fin i ∧ FiftyDigits i
  | some (.real x), some n => val x = n ∧ ∃ q, n = .fin q ∧ FiftyDigits q
  | _, _ => False

theorem short_toReal {fs : FloatSys} {val : fs.F → XNum} {round : Rat → Rat} (hf : DecimalFloats fs val round)
    {x : Num fs} {n : XNum} (h : ShortRep val (some x) (some n)) :
    val x.toReal = n ∧ ∃ q, n = .fin q ∧ FiftyDigits q := by
  cases x with
  | int i =>
    obtain ⟨rfl, hd⟩ := h
    exact ⟨by rw [Num.toReal, hf.ofInt i hd], _, rfl, hd⟩
  | real r => exact h

theorem short_of_simple {fs : FloatSys} {val : fs.F → XNum} {round : Rat → Rat} (hf : DecimalFloats fs val round)
    {x : Option (Num fs)} {n : Option XNum} (h : SimpleRep val round x n)
    (hs : ∀ z, n = some z → ∃ q, z = .fin q ∧ FiftyDigits q) : ShortRep val x n := by
  cases n with
  | none =>
    cases x with
    | none => trivial
    | some x => cases x <;> exact h.elim
  | some n =>
    obtain ⟨q, rfl, hq⟩ := hs n rfl
    cases x with
    | none => exact h.elim
    | some x =>
      cases x with
      | int i => exact ⟨h.1, by have := h.1; injection this with this; rw [← this]; exact hq⟩
      | real r => exact ⟨by rw [h.2, XNum.rounded, hf.exact q hq], q, rfl, hq⟩

theorem short_op {fs : FloatSys} {val : fs.F → XNum} {round : Rat → Rat} (hf : DecimalFloats fs val round)
    {opI : Int → Int → Int} {opF : fs.F → fs.F → fs.F} {op : Rat → Rat → Rat}
    (hI : ∀ i j : Int, ((opI i j : Int) : Rat) = op i j)
    (hF : ∀ x y a b, val x = .fin a → val y = .fin b → FiftyDigits a → FiftyDigits b →
      FiftyDigits (op a b) → val (opF x y) = .fin (op a b))
    {x y : Option (Num fs)} {n m : Option XNum} (hx : ShortRep val x n) (hy : ShortRep val y m)
    (hd : ∀ q, ratOp op n m = some (.fin q) → FiftyDigits q) :
    ShortRep val (numOp opI opF x y) (ratOp op n m) := by
  cases n with
  | none =>
    cases x with
    | none => cases y <;> trivial
    | some x => cases x <;> exact hx.elim
  | some n =>
    cases x with
    | none => exact hx.elim
    | some x =>
    cases m with
    | none =>
      cases y with
      | none => cases x <;> cases n <;> trivial
      | some y => cases y <;> exact hy.elim
    | some m =>
      cases y with
      | none => exact hy.elim
      | some y =>
        obtain ⟨e1, q1, rfl, d1⟩ := short_toReal hf hx
        obtain ⟨e2, q2, rfl, d2⟩ := short_toReal hf hy
        have hd' := hd _ rfl
        have key : val (opF x.toReal y.toReal) = .fin (op q1 q2) ∧ ∃ q, XNum.fin (op q1 q2) = .fin q ∧ FiftyDigits q :=
          ⟨hF _ _ _ _ e1 e2 d1 d2 hd', _, rfl, hd'⟩
        cases x with
        | real x => exact key
        | int i =>
          cases y with
          | real y => exact key
          | int j =>
            have h1 := hx.1
            have h2 := hy.1
            injection h1 with h1
            injection h2 with h2
            subst h1 h2
            exact ⟨by rw [hI], by rw [hI]; exact hd'⟩

theorem short_rep {fs : FloatSys} {val : fs.F → XNum} {round : Rat → Rat} (hf : DecimalFloats fs val round)
    {vs : List VarInfo} (hvs : ∀ v ∈ vs, v.Canonical) {t : Term} (ht : t.Short vs) :
    ShortRep val (t.val (recordedFloat fs) vs) (t.exact vs) := by
  induction t with
  | size i => exact short_of_simple hf (size_rep i) ht
  | value i => exact short_of_simple hf (value_rep hf hvs i) ht
  | nat u => exact ⟨rfl, int_digits (by have := u64_small u; omega) (by have := u64_small u; omega)⟩
  | integer u => exact ⟨rfl, int_digits (by have := i64_small u; omega) (by have := i64_small u; omega)⟩
  | float b => exact short_of_simple hf (simple_rep hf hvs (Or.inr (Or.inr (Or.inl ⟨b, rfl⟩)))) ht
  | add a b iha ihb => exact short_op hf (fun i j => Rat.intCast_add i j) hf.add (iha ht.1) (ihb ht.2.1) ht.2.2
  | sub a b iha ihb => exact short_op hf (fun i j => Rat.intCast_sub i j) hf.sub (iha ht.1) (ihb ht.2.1) ht.2.2
  | mul a b iha ihb => exact short_op hf (fun i j => Rat.intCast_mul i j) hf.mul (iha ht.1) (ihb ht.2.1) ht.2.2
  | div a b => exact ht.elim

theorem short_cmp {fs : FloatSys} {val : fs.F → XNum} {round : Rat → Rat} (hf : DecimalFloats fs val round)
    (op : Cmp) {x y : Option (Num fs)} {n m : Option XNum} (hx : ShortRep val x n) (hy : ShortRep val y m) :
    op.holds x y = op.exactly n m := by
  cases n with
  | none =>
    cases x with
    | none => rfl
    | some x => cases x <;> exact hx.elim
  | some n =>
    cases x with
    | none => exact hx.elim
    | some x =>
    cases m with
    | none =>
      cases y with
      | none => cases x <;> rfl
      | some y => cases y <;> exact hy.elim
    | some m =>
      cases y with
      | none => exact hy.elim
      | some y =>
        have r1 := (short_toReal hf hx).1
        have r2 := (short_toReal hf hy).1
        have key : op.onReal x.toReal y.toReal = op.onNumber n m := by
          rw [hf.cmp, r1, r2]
        cases x with
        | real x => exact key
        | int i =>
          cases y with
          | real y => exact key
          | int j =>
            obtain ⟨rfl, _⟩ := hx
            obtain ⟨rfl, _⟩ := hy
            exact onInt_onNumber op i j

theorem form_exactly {fs : FloatSys} {val : fs.F → XNum} {round : Rat → Rat} (hf : DecimalFloats fs val round)
    {vs : List VarInfo} (hvs : ∀ v ∈ vs, v.Canonical) (f : Form) (h : f.Comparable vs) :
    f.holds (recordedFloat fs) vs = f.exactly vs := by
  induction f with
  | tt => rfl
  | ff => rfl
  | conj f g ihf ihg => rw [Form.holds, Form.exactly, ihf h.1, ihg h.2]
  | disj f g ihf ihg => rw [Form.holds, Form.exactly, ihf h.1, ihg h.2]
  | neg f ih => rw [Form.holds, Form.exactly, ih h]
  | distinct i j => rfl
  | cmp op a b =>
    rcases h with ⟨ha, hb⟩ | ⟨ha, hb⟩
    · exact simple_cmp hf op (simple_rep hf hvs ha) (simple_rep hf hvs hb)
    · exact short_cmp hf op (short_rep hf hvs ha) (short_rep hf hvs hb)

/-- The bits of a double that is a whole number below `2^21` end in 32 zeros. -/
theorem double_low_zero {u : U64} {n : Int} (h1 : -2 ^ 21 < n) (h2 : n < 2 ^ 21) (h : f64Value u = .fin n) :
    u.setWidth 32 = 0 := by
  have h3 := ieee_fin h
  have h4 : n * ((2 ^ (1023 + 52) : Nat) : Int) = ieeeNum 52 (u.toNat / 2 ^ 63 == 1) (u.toNat / 2 ^ 52 % 2 ^ 11) (u.toNat % 2 ^ 52) := by
    rw [← Rat.intCast_inj, Rat.intCast_mul]
    exact h3
  have h5 := congrArg Int.natAbs h4
  rw [Int.natAbs_mul, Int.natAbs_natCast] at h5
  have h6 : (ieeeNum 52 (u.toNat / 2 ^ 63 == 1) (u.toNat / 2 ^ 52 % 2 ^ 11) (u.toNat % 2 ^ 52)).natAbs =
      if u.toNat / 2 ^ 52 % 2 ^ 11 = 0 then u.toNat % 2 ^ 52 * 2
      else (2 ^ 52 + u.toNat % 2 ^ 52) * 2 ^ (u.toNat / 2 ^ 52 % 2 ^ 11) := by
    unfold ieeeNum
    generalize (if u.toNat / 2 ^ 52 % 2 ^ 11 = 0 then u.toNat % 2 ^ 52 * 2
      else (2 ^ 52 + u.toNat % 2 ^ 52) * 2 ^ (u.toNat / 2 ^ 52 % 2 ^ 11)) = m
    dsimp only
    split <;> simp
  rw [h6] at h5
  have hN : n.natAbs < 2 ^ 21 := by omega
  have hlow : u.toNat % 2 ^ 52 % 2 ^ 32 = 0 := by
    have hf : u.toNat % 2 ^ 52 < 2 ^ 52 := Nat.mod_lt _ (by decide)
    generalize u.toNat % 2 ^ 52 = f at *
    generalize u.toNat / 2 ^ 52 % 2 ^ 11 = e at *
    generalize n.natAbs = N at *
    clear h h3 h4 h6 h1 h2
    split at h5
    · have hz : N = 0 := by
        rcases Nat.eq_zero_or_pos N with h | h
        · exact h
        · have k1 : 1 * 2 ^ (1023 + 52) ≤ N * 2 ^ (1023 + 52) := Nat.mul_le_mul_right _ h
          have k2 : 2 ^ 53 ≤ 2 ^ (1023 + 52) := Nat.pow_le_pow_right (by decide) (by decide)
          generalize 2 ^ (1023 + 52) = D at *
          omega
      subst hz
      omega
    · have he : e ≤ 1043 := by
        rcases Nat.lt_or_ge 1043 e with h | h
        · exfalso
          have k1 : 2 ^ 1044 ≤ 2 ^ e := Nat.pow_le_pow_right (by decide) h
          have k2 : 2 ^ 52 * 2 ^ 1044 ≤ (2 ^ 52 + f) * 2 ^ e := Nat.mul_le_mul (by omega) k1
          have k3 : N * 2 ^ (1023 + 52) < 2 ^ 21 * 2 ^ (1023 + 52) := Nat.mul_lt_mul_of_pos_right hN (Nat.pow_pos (by decide))
          rw [h5, ← Nat.pow_add] at k3
          rw [← Nat.pow_add] at k2
          have : (2 : Nat) ^ (52 + 1044) = 2 ^ (21 + (1023 + 52)) := by congr 1
          rw [this] at k2
          exact absurd k3 (Nat.not_lt.mpr k2)
        · exact h
      obtain ⟨k, hk⟩ := Nat.exists_eq_add_of_le he
      have e1 : (1023 + 52) = (k + 32) + e := by omega
      rw [e1, Nat.pow_add, ← Nat.mul_assoc] at h5
      have h7 := Nat.eq_of_mul_eq_mul_right (Nat.pow_pos (by decide)) h5
      rw [Nat.pow_add, ← Nat.mul_assoc] at h7
      generalize N * 2 ^ k = c at h7
      omega
  apply BitVec.eq_of_toNat_eq
  rw [BitVec.toNat_setWidth]
  show u.toNat % 2 ^ 32 = 0
  omega

theorem binding_length {variables : List FreeVar} {vars : List VarInfo} {b : List Nat}
    (h : IsBinding variables vars b) : (boundVars vars b).length = variables.length := by
  obtain ⟨h1, h2⟩ := h
  rw [← h1]
  have hb : ∀ k ∈ b, ∃ v, vars[k]? = some v := by
    intro k hk
    obtain ⟨i, hi, e⟩ := List.getElem_of_mem hk
    have hi' : i < variables.length := h1 ▸ hi
    obtain ⟨v, hv, _⟩ := h2 i variables[i] k (List.getElem?_eq_getElem hi') (by rw [List.getElem?_eq_getElem hi, e])
    exact ⟨v, hv⟩
  clear h1 h2
  unfold boundVars
  induction b with
  | nil => rfl
  | cons k b ih =>
    obtain ⟨v, hv⟩ := hb k (List.mem_cons_self ..)
    rw [List.filterMap_cons, hv]
    simp only [List.length_cons]
    rw [ih (fun k' hk' => hb k' (List.mem_cons_of_mem _ hk'))]

/-- `2^-149` needs more than fifty digits. -/
theorem tiny_digits : ¬ FiftyDigits (1 / 2 ^ 149) := by
  rintro ⟨m, k, h1, h2, h | h⟩
  · have h3 : ((1 : Int) : Rat) = ((m * 10 ^ k * 2 ^ 149 : Int) : Rat) := by
      push_cast
      rw [← h]
      decide +kernel
    rw [Rat.intCast_inj] at h3
    generalize m * 10 ^ k = c at h3
    omega
  · have h3 : (((10 : Int) ^ k : Int) : Rat) = ((m * 2 ^ 149 : Int) : Rat) := by
      push_cast
      rw [← h]
      generalize (10 : Rat) ^ k = t
      grind
    rw [Rat.intCast_inj] at h3
    rcases Nat.lt_or_ge k 149 with hk | hk
    · obtain ⟨r, hr⟩ := Nat.exists_eq_add_of_lt hk
      have e1 : (10 : Int) ^ k = 5 ^ k * 2 ^ k := by rw [← Int.mul_pow]; rfl
      have e2 : (2 : Int) ^ 149 = 2 ^ (r + 1) * 2 ^ k := by
        rw [← Int.pow_add]; congr 1; omega
      rw [e1, e2, ← Int.mul_assoc] at h3
      have h4 := Int.eq_of_mul_eq_mul_right (Int.ne_of_gt (Int.pow_pos (by decide))) h3
      rw [Int.pow_succ, ← Int.mul_assoc] at h4
      have h5 : ∀ j : Nat, (5 : Int) ^ j % 2 = 1 := by
        intro j
        induction j with
        | zero => rfl
        | succ j ih => rw [Int.pow_succ]; omega
      have h6 := h5 k
      generalize m * 2 ^ r = c at h4
      omega
    · have h4 : (10 : Int) ^ 149 ≤ 10 ^ k := by
        obtain ⟨r, rfl⟩ := Nat.exists_eq_add_of_le hk
        rw [Int.pow_add]
        have : (10 : Int) ^ 149 * 1 ≤ 10 ^ 149 * 10 ^ r :=
          Int.mul_le_mul_of_nonneg_left (Int.pow_pos (by decide)) (by decide)
        omega
      rw [h3] at h4
      omega

end TraceDB
