import Verif.Proofs.Floats
import Verif.Props.Predicate
import Verif.Props.Query
/-
C113: predicates about floating point variables compare the numbers that were recorded.
-/
namespace TraceDB

/-- A way to round that moves every number which needs more than fifty digits. -/
noncomputable def nudge (q : Rat) : Rat :=
  open Classical in if FiftyDigits q then q else q * (1 + 1 / 10 ^ 50)

/-- An operation on numbers. -/
def XNum.op (f : Rat → Rat → Rat) : XNum → XNum → XNum
  | .fin a, .fin b => .fin (f a b)
  | _, _ => .nan

/-- Floats that are rounded when they are converted. -/
noncomputable def nudgedFloats : FloatSys where
  F := XNum
  ofInt i := .fin i
  ofF32 b := (f32Value b).rounded nudge
  ofF64 b := (f64Value b).rounded nudge
  add := XNum.op (· + ·)
  sub := XNum.op (· - ·)
  mul := XNum.op (· * ·)
  div := XNum.op (· / ·)
  lt := Cmp.lt.onNumber
  le := Cmp.le.onNumber
  gt := Cmp.gt.onNumber
  ge := Cmp.ge.onNumber
  eq := Cmp.eq.onNumber
  isZero x := decide (x = .fin 0)

theorem nudgedFloats_decimal : DecimalFloats nudgedFloats id nudge where
  cmp op x y := by cases op <;> rfl
  isZero x := rfl
  ofInt i _ := rfl
  ofF32 b := by
    show (f32Value b).rounded nudge = _
    cases f32Value b <;> rfl
  ofF64 b := by
    show (f64Value b).rounded nudge = _
    cases f64Value b <;> rfl
  close q := by
    unfold nudge
    split <;> grind
  exact q h := if_pos h
  add x y a b hx hy _ _ _ := by cases hx; cases hy; rfl
  sub x y a b hx hy _ _ _ := by cases hx; cases hy; rfl
  mul x y a b hx hy _ _ _ := by cases hx; cases hy; rfl

/-- The smallest positive `float` needs 105 digits. -/
example : f32Value 1 = .fin (1 / 2 ^ 149) ∧ ¬ FiftyDigits (1 / 2 ^ 149) ∧ nudge (1 / 2 ^ 149) ≠ 1 / 2 ^ 149 := by
  refine ⟨by decide +kernel, ?_, ?_⟩
  · exact tiny_digits
  · unfold nudge
    rw [if_neg tiny_digits]
    decide +kernel

/-- Two `float`s, 0.1 and 0.25, and the integer 2. -/
def fltVars : List VarInfo :=
  [⟨.word 0x3DCCCCCD, 0, 0, .float, 4, 0, false⟩, ⟨.word 0x3E800000, 1, 0, .float, 4, 0, false⟩,
   ⟨.word 2, 2, 1, .signed, 4, 0, false⟩]

/-- `v0 < v1` and `v1 * v2 = 0.5`. -/
def fltPred : Pred :=
  .node .and 0 [.node .lessThan 0 [pVal 0, pVal 1],
    .node .equal 0 [.node .multiply 0 [pVal 1, pVal 2], .node .floatValue 0x3FE0000000000000 []]]

/-- The formula of this predicate. -/
def fltForm : Form :=
  .conj (.cmp .lt (.value 0) (.value 1)) (.conj (.cmp .eq (.mul (.value 1) (.value 2)) (.float 0x3FE0000000000000)) .tt)

theorem fltPred_reads : ReadsForm 3 fltPred fltForm :=
  .and (.cons (.cmp (op := .lt) (.value (i := 0) (by decide)) (.value (i := 1) (by decide)))
    (.cons (.cmp (op := .eq) (.mul (.value (i := 1) (by decide)) (.value (i := 2) (by decide))) .float) .nil))

/-- 0.1 needs 27 digits, a quarter two. -/
theorem fltForm_comparable : fltForm.Comparable fltVars := by
  have e1 : (Term.value 1).exact fltVars = some (.fin (1 / 4)) := by decide +kernel
  have e2 : (Term.value 2).exact fltVars = some (.fin 2) := by decide +kernel
  have e3 : (Term.float 0x3FE0000000000000).exact fltVars = some (.fin (1 / 2)) := by decide +kernel
  have d1 : FiftyDigits (1 / 4) := ⟨25, 2, by decide, by decide, Or.inr (by decide +kernel)⟩
  have d2 : FiftyDigits 2 := ⟨2, 0, by decide, by decide, Or.inr (by decide +kernel)⟩
  have d3 : FiftyDigits (1 / 2) := ⟨5, 1, by decide, by decide, Or.inr (by decide +kernel)⟩
  refine ⟨Or.inl ⟨Or.inr (Or.inl ⟨_, rfl⟩), Or.inr (Or.inl ⟨_, rfl⟩)⟩, Or.inr ⟨⟨?_, ?_, ?_⟩, ?_⟩, trivial⟩
  · intro x hx; rw [e1] at hx; cases hx; exact ⟨_, rfl, d1⟩
  · intro x hx; rw [e2] at hx; cases hx; exact ⟨_, rfl, d2⟩
  · intro q hq
    rw [e1, e2] at hq
    simp only [ratOp, Option.some.injEq, XNum.fin.injEq] at hq
    rw [← hq, show (1 / 4 : Rat) * 2 = 1 / 2 from by decide +kernel]
    exact d3
  · intro x hx; rw [e3] at hx; cases hx; exact ⟨_, rfl, d3⟩

/-- Predicates about integers, sizes and 4-byte floats hold exactly if they hold for the
recorded numbers, read as rational numbers: comparisons of variables and constants whatever
their values, and comparisons of sums, differences and products as long as fifty digits are
enough. -/
theorem C113_predicates (fs : FloatSys) (val : fs.F → XNum) (round : Rat → Rat) (hf : DecimalFloats fs val round)
    (vs : List VarInfo) (hvs : ∀ v ∈ vs, v.Canonical) (h4 : ∀ v ∈ vs, v.format = .float → v.size ≠ 8)
    (n : Nat) (hn : n ≤ vs.length) (p : Pred) (f : Form) (h : ReadsForm n p f) (hc : f.Comparable vs) :
    predicateSatisfied fs vs p = .ok (f.exactly vs) := by
  rw [C33_four_byte_floats fs vs hvs h4 n hn p f h, form_exactly hf hvs f hc]

/-- The predicate above holds, whatever library of this kind is used. -/
example (fs : FloatSys) (val : fs.F → XNum) (round : Rat → Rat) (hf : DecimalFloats fs val round) :
    predicateSatisfied fs fltVars fltPred = .ok true := by
  rw [C113_predicates fs val round hf fltVars (by decide) (by decide) 3 (by decide) _ _ fltPred_reads fltForm_comparable]
  congr 1
  decide +kernel

/-- Comparing with something that is not a number is never true, not even for equality with
itself. -/
theorem C113_nan (fs : FloatSys) (val : fs.F → XNum) (round : Rat → Rat) (hf : DecimalFloats fs val round)
    (vs : List VarInfo) (hvs : ∀ v ∈ vs, v.Canonical) (h4 : ∀ v ∈ vs, v.format = .float → v.size ≠ 8)
    (i j : U64) (v : VarInfo) (hv : vs[i.toNat]? = some v) (hj : j.toNat < vs.length)
    (hnan : v.number = some .nan) (op : Cmp) (d : U64) :
    predicateSatisfied fs vs (.node op.toKind d [pVal i, pVal j]) = .ok false ∧
    predicateSatisfied fs vs (.node op.toKind d [pVal j, pVal i]) = .ok false := by
  have hi : i.toNat < vs.length := (List.getElem?_eq_some_iff.mp hv).1
  have e : (Term.value i.toNat).exact vs = some .nan := by simp only [Term.exact, hv, hnan]
  have r1 : ReadsForm vs.length (.node op.toKind d [pVal i, pVal j]) (.cmp op (.value i.toNat) (.value j.toNat)) :=
    .cmp (.value hi) (.value hj)
  have r2 : ReadsForm vs.length (.node op.toKind d [pVal j, pVal i]) (.cmp op (.value j.toNat) (.value i.toNat)) :=
    .cmp (.value hj) (.value hi)
  have hs : ∀ k : Nat, (Term.value k).Simple vs := fun k => Or.inr (Or.inl ⟨k, rfl⟩)
  constructor
  · rw [C113_predicates fs val round hf vs hvs h4 vs.length (Nat.le_refl _) _ _ r1 (Or.inl ⟨hs _, hs _⟩),
      Form.exactly, e]
    cases (Term.value j.toNat).exact vs with
    | none => rfl
    | some x => rcases x with _ | (_ | _) | x <;> cases op <;> rfl
  · rw [C113_predicates fs val round hf vs hvs h4 vs.length (Nat.le_refl _) _ _ r2 (Or.inl ⟨hs _, hs _⟩),
      Form.exactly, e]
    cases (Term.value j.toNat).exact vs with
    | none => rfl
    | some x => rcases x with _ | (_ | _) | x <;> cases op <;> rfl

/-- Such a variable. -/
example : ([⟨.word 0x7FC00000, 0, 0, .float, 4, 0, false⟩] : List VarInfo)[(0 : U64).toNat]? =
      some ⟨.word 0x7FC00000, 0, 0, .float, 4, 0, false⟩ ∧
    VarInfo.number ⟨.word 0x7FC00000, 0, 0, .float, 4, 0, false⟩ = some .nan ∧
    VarInfo.Canonical ⟨.word 0x7FC00000, 0, 0, .float, 4, 0, false⟩ := by decide +kernel

/-- The answers at a point: the bindings for which the predicate holds of the recorded
numbers. -/
theorem C113_query (fs : FloatSys) (val : fs.F → XNum) (round : Rat → Rat) (hf : DecimalFloats fs val round)
    (env : Env) (point : Point) (variables : List FreeVar)
    (hard : Pred) (f : Form) (hne : variables ≠ []) (hcan : ∀ v ∈ point.vars, v.Canonical)
    (h4 : ∀ v ∈ point.vars, v.format = .float → v.size ≠ 8)
    (hform : ReadsForm variables.length hard f) (hsize : point.vars.length < 2 ^ 32)
    (hcount : combinations variables point.vars < 2 ^ 64)
    (halloc : env.canAlloc (24 * combinations variables point.vars) = true)
    (hc : ∀ b, IsBinding variables point.vars b → f.Comparable (boundVars point.vars b)) :
    ∃ rs, collectResults env (plainEval fs) point variables hard [] () = .ok (rs, ()) ∧
      ∀ r, r ∈ rs ↔ ∃ b, IsBinding variables point.vars b ∧
        f.exactly (boundVars point.vars b) = true ∧ r = resultOf point b := by
  obtain ⟨rs, h1, h2⟩ := C21_sound_and_complete fs env point variables hard f hne hcan hform hsize hcount halloc
  have key : ∀ b, IsBinding variables point.vars b →
      f.holds (lowFloat fs) (boundVars point.vars b) = f.exactly (boundVars point.vars b) := by
    intro b hb
    have hlen := binding_length hb
    have e1 := satisfied_reads fs (Nat.le_of_eq hlen.symm) (fun v hv => hcan v (boundVars_mem hv)) hform
    have e2 := C113_predicates fs val round hf _ (fun v hv => hcan v (boundVars_mem hv))
      (fun v hv => h4 v (boundVars_mem hv)) _ (Nat.le_of_eq hlen.symm) hard f hform (hc b hb)
    rw [e1] at e2
    exact Res.ok.inj e2
  refine ⟨rs, h1, fun r => (h2 r).trans ⟨?_, ?_⟩⟩
  · rintro ⟨b, hb, hh, rfl⟩
    exact ⟨b, hb, (key b hb) ▸ hh, rfl⟩
  · rintro ⟨b, hb, hh, rfl⟩
    exact ⟨b, hb, (key b hb).symm ▸ hh, rfl⟩

/-- A point with the variables above: `v0 < v1` for two free variables of the float type has
one answer. -/
def fltPoint : Point := ⟨0, 7, [], fltVars, []⟩

example (fs : FloatSys) (val : fs.F → XNum) (round : Rat → Rat) (hf : DecimalFloats fs val round) :
    ∃ rs, collectResults qEnv (plainEval fs) fltPoint [[0], [0]] (.node .lessThan 0 [pVal 0, pVal 1]) [] () = .ok (rs, ()) ∧
      ∀ r, r ∈ rs ↔ ∃ b, IsBinding [[0], [0]] fltVars b ∧
        (Form.cmp .lt (.value 0) (.value 1)).exactly (boundVars fltVars b) = true ∧ r = resultOf fltPoint b :=
  C113_query fs val round hf qEnv fltPoint [[0], [0]] _ _ (by decide) (by decide) (by decide)
    (.cmp (op := .lt) (.value (i := 0) (by decide)) (.value (i := 1) (by decide))) (by decide) (by decide +kernel)
    (by decide +kernel) (fun _ _ => Or.inl ⟨Or.inr (Or.inl ⟨_, rfl⟩), Or.inr (Or.inl ⟨_, rfl⟩)⟩)

/-- A quotient by a 4-byte float which is 0, with either sign, is missing: no comparison with
it holds. -/
theorem C113_division (fs : FloatSys) (val : fs.F → XNum) (round : Rat → Rat) (hf : DecimalFloats fs val round)
    (vs : List VarInfo) (hvs : ∀ v ∈ vs, v.Canonical) (i : U64) (v : VarInfo) (hv : vs[i.toNat]? = some v)
    (hfl : v.format = .float) (h4 : v.size ≠ 8) (h0 : v.number = some (.fin 0)) (p q : Pred) (a b : Term)
    (hp : ReadsTerm vs.length p a) (hq : ReadsTerm vs.length q b) (op : Cmp) (d d' : U64) :
    predicateSatisfied fs vs (.node op.toKind d [.node .divide d' [p, pVal i], q]) = .ok false ∧
    predicateSatisfied fs vs (.node op.toKind d [q, .node .divide d' [p, pVal i]]) = .ok false := by
  have hi : i.toNat < vs.length := (List.getElem?_eq_some_iff.mp hv).1
  have hz : (Term.div a (.value i.toNat)).val (lowFloat fs) vs = none := by
    obtain ⟨vl, nm, ty, fmt, s, b, hb⟩ := v
    dsimp only at hfl h4
    subst hfl
    cases vl with
    | blob bs => simp [VarInfo.number] at h0
    | word u =>
      simp only [VarInfo.number, if_neg h4, Option.some.injEq] at h0
      have hd : FiftyDigits (0 : Rat) := ⟨0, 0, by decide, by decide, Or.inl (by decide +kernel)⟩
      have hzero : fs.isZero (fs.ofF32 (u.setWidth 32)) = true := by
        have e : val (fs.ofF32 (u.setWidth 32)) = .fin 0 := by
          rw [hf.ofF32, h0]
          dsimp only
          rw [hf.exact _ hd]
        rw [hf.isZero, e]
        exact decide_eq_true rfl
      simp only [Term.val, hv, varNumber, lowFloat]
      cases a.val (lowFloat fs) vs with
      | none => rfl
      | some x => simp only [numDiv, Num.isZero, hzero, if_true]
  have r1 : ReadsForm vs.length (.node op.toKind d [.node .divide d' [p, pVal i], q])
      (.cmp op (.div a (.value i.toNat)) b) := .cmp (.div hp (.value hi)) hq
  have r2 : ReadsForm vs.length (.node op.toKind d [q, .node .divide d' [p, pVal i]])
      (.cmp op b (.div a (.value i.toNat))) := .cmp hq (.div hp (.value hi))
  constructor
  · rw [satisfied_reads fs (Nat.le_refl _) hvs r1, Form.holds, hz]
    cases b.val (lowFloat fs) vs <;> rfl
  · rw [satisfied_reads fs (Nat.le_refl _) hvs r2, Form.holds, hz]
    cases b.val (lowFloat fs) vs with
    | none => rfl
    | some x => cases x <;> rfl

/-- The `float` -0.0 as divisor. -/
example (fs : FloatSys) (val : fs.F → XNum) (round : Rat → Rat) (hf : DecimalFloats fs val round) :
    predicateSatisfied fs [⟨.word 0x80000000, 0, 0, .float, 4, 0, false⟩]
      (.node .equal 0 [.node .divide 0 [pNat 1, pVal 0], .node .divide 0 [pNat 1, pVal 0]]) = .ok false :=
  (C113_division fs val round hf _ (by decide) 0 _ rfl rfl (by decide) (by decide +kernel) _ _ _ _ .nat
    (.div .nat (.value (i := 0) (by decide))) .eq 0 0).1

/-- 8-byte floats: every whole number below `2^21` is taken for 0. -/
theorem C113_doubles_zero (fs : FloatSys) (val : fs.F → XNum) (round : Rat → Rat) (hf : DecimalFloats fs val round)
    (vs : List VarInfo) (hvs : ∀ v ∈ vs, v.Canonical) (i : U64) (v : VarInfo) (hv : vs[i.toNat]? = some v)
    (hfl : v.format = .float) (h8 : v.size = 8) (n : Int) (h1 : -2 ^ 21 < n) (h2 : n < 2 ^ 21)
    (hn : v.number = some (.fin n)) (d : U64) :
    predicateSatisfied fs vs (.node .equal d [pVal i, pNat 0]) = .ok true := by
  have hi : i.toNat < vs.length := (List.getElem?_eq_some_iff.mp hv).1
  have r : ReadsForm vs.length (.node .equal d [pVal i, pNat 0]) (.cmp .eq (.value i.toNat) (.nat 0)) :=
    .cmp (op := .eq) (.value hi) .nat
  rw [satisfied_reads fs (Nat.le_refl _) hvs r]
  obtain ⟨vl, nm, ty, fmt, s, b, hb⟩ := v
  dsimp only at hfl h8
  subst hfl h8
  cases vl with
  | blob bs => simp [VarInfo.number] at hn
  | word u =>
    simp only [VarInfo.number, if_true, Option.some.injEq] at hn
    have hz := double_low_zero h1 h2 hn
    have h0 : FiftyDigits ((0 : Int) : Rat) := int_digits (by decide) (by decide)
    simp only [Form.holds, Term.val, hv, varNumber, Cmp.holds, lowFloat, hz, Num.toReal]
    rw [hf.cmp, hf.ofF32, show ((BitVec.toNat (0 : U64) : Nat) : Int) = 0 from rfl, hf.ofInt _ h0,
      show f32Value 0 = .fin ((0 : Int) : Rat) from by decide +kernel]
    dsimp only
    rw [hf.exact _ h0]
    rfl

/-- 1.0 and 2.0, as doubles, are 0. -/
example (fs : FloatSys) (val : fs.F → XNum) (round : Rat → Rat) (hf : DecimalFloats fs val round) :
    predicateSatisfied fs [exOne, exTwo] (.node .equal 0 [pVal 0, pNat 0]) = .ok true ∧
    predicateSatisfied fs [exOne, exTwo] (.node .equal 0 [pVal 1, pNat 0]) = .ok true :=
  ⟨C113_doubles_zero fs val round hf _ (by decide) 0 exOne rfl rfl rfl 1 (by decide) (by decide) (by decide +kernel) 0,
   C113_doubles_zero fs val round hf _ (by decide) 1 exTwo rfl rfl rfl 2 (by decide) (by decide) (by decide +kernel) 0⟩

end TraceDB
