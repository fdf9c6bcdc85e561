import Verif.Proofs.Equality
/-
The evaluator computes the meaning of predicates.
-/
namespace TraceDB

/-- Values of the evaluator for numbers. -/
def PVal.ofNum {fs : FloatSys} : Option (Num fs) → PVal fs
  | none => .invalid
  | some (.int i) => .int i
  | some (.real x) => .flt x

theorem PVal.asFloat_ofNum {fs : FloatSys} (x : Option (Num fs)) :
    (PVal.ofNum x).asFloat = x.map Num.toReal := by
  rcases x with _ | x | x <;> rfl

theorem PVal.compare_ofNum {fs : FloatSys} (op : Cmp) (x y : Option (Num fs)) :
    (PVal.ofNum x).compare op.onInt op.onReal (PVal.ofNum y) = op.holds x y := by
  rcases x with _ | x | x <;> rcases y with _ | y | y <;> rfl

theorem PVal.arith_ofNum {fs : FloatSys} (opI : Int → Int → Int) (opF : fs.F → fs.F → fs.F)
    (x y : Option (Num fs)) :
    (PVal.ofNum x).arith opI opF (PVal.ofNum y) = PVal.ofNum (numOp opI opF x y) := by
  rcases x with _ | x | x <;> rcases y with _ | y | y <;> rfl

theorem PVal.divide_ofNum {fs : FloatSys} (x y : Option (Num fs)) :
    (PVal.ofNum x).divide (PVal.ofNum y) = PVal.ofNum (numDiv x y) := by
  rcases x with _ | x | x <;> rcases y with _ | y | y
  case some.int.some.int | some.real.some.int =>
    by_cases h : (y == 0) = true <;>
      simp [PVal.divide, PVal.ofNum, PVal.asFloat, numDiv, PVal.isZero, Num.isZero, Num.toReal, h]
  case some.int.some.real | some.real.some.real =>
    by_cases h : fs.isZero y = true <;>
      simp [PVal.divide, PVal.ofNum, PVal.asFloat, numDiv, PVal.isZero, Num.isZero, Num.toReal, h]
  all_goals rfl

theorem varAt_ok {vs : List VarInfo} {i : Nat} (h : i < vs.length) :
    ∃ v, vs[i]? = some v ∧ varAt vs i = .ok v ∧ v ∈ vs := by
  refine ⟨vs[i], List.getElem?_eq_getElem h, ?_, List.getElem_mem h⟩
  simp [varAt, List.getElem?_eq_getElem h]

theorem valueOf_eq (fs : FloatSys) {v : VarInfo} (hv : v.Canonical) :
    valueOf fs v = .ok (PVal.ofNum (varNumber (lowFloat fs) v)) := by
  obtain ⟨val, n, t, f, s, b, h⟩ := v
  cases val <;> cases f <;> simp_all [VarInfo.Canonical, valueOf, varNumber, PVal.ofNum, lowFloat]

/-- Evaluating a well-formed arithmetic expression yields its value. -/
theorem evaluate_reads (fs : FloatSys) {n : Nat} {vs : List VarInfo} (hn : n ≤ vs.length)
    (hvs : ∀ v ∈ vs, v.Canonical) {p : Pred} {t : Term} (h : ReadsTerm n p t) :
    evaluate fs vs p = .ok (PVal.ofNum (t.val (lowFloat fs) vs)) := by
  induction h with
  | size hi =>
    obtain ⟨v, h1, h2, _⟩ := varAt_ok (Nat.lt_of_lt_of_le hi hn)
    simp only [evaluate, Pred.kind, Pred.data, if_true, h2, Res.ok_bind, Res.pure_eq, Term.val, h1,
      sizeOf]
    split <;> rfl
  | value hi =>
    obtain ⟨v, h1, h2, h3⟩ := varAt_ok (Nat.lt_of_lt_of_le hi hn)
    simp only [evaluate, Pred.kind, Pred.data, if_true, h2, Res.ok_bind, Term.val, h1]
    exact valueOf_eq fs (hvs v h3)
  | nat => simp only [evaluate, Term.val, PVal.ofNum]
  | integer => simp only [evaluate, Term.val, PVal.ofNum]
  | float => simp only [evaluate, Term.val, PVal.ofNum]
  | add _ _ ih1 ih2 =>
    simp only [evaluate, ih1, ih2, Res.ok_bind, Res.pure_eq, Term.val, PVal.arith_ofNum]
  | sub _ _ ih1 ih2 =>
    simp only [evaluate, ih1, ih2, Res.ok_bind, Res.pure_eq, Term.val, PVal.arith_ofNum]
  | mul _ _ ih1 ih2 =>
    simp only [evaluate, ih1, ih2, Res.ok_bind, Res.pure_eq, Term.val, PVal.arith_ofNum]
  | div _ _ ih1 ih2 =>
    simp only [evaluate, ih1, ih2, Res.ok_bind, Res.pure_eq, Term.val, PVal.divide_ofNum]

theorem evalCompare_reads (fs : FloatSys) {n : Nat} {vs : List VarInfo} (hn : n ≤ vs.length)
    (hvs : ∀ v ∈ vs, v.Canonical) {p q : Pred} {a b : Term} (hp : ReadsTerm n p a)
    (hq : ReadsTerm n q b) (op : Cmp) :
    evalCompare fs vs op.onInt op.onReal [p, q] =
      .ok (op.holds (a.val (lowFloat fs) vs) (b.val (lowFloat fs) vs)) := by
  simp only [evalCompare, evaluate_reads fs hn hvs hp, evaluate_reads fs hn hvs hq, Res.ok_bind,
    Res.pure_eq, PVal.compare_ofNum]

theorem predicateSatisfied_cmp (fs : FloatSys) (vs : List VarInfo) (op : Cmp) (d : U64)
    (cs : List Pred) :
    predicateSatisfied fs vs (.node op.toKind d cs) = evalCompare fs vs op.onInt op.onReal cs := by
  cases op <;> simp only [Cmp.toKind, predicateSatisfied] <;> rfl

/-- Evaluating a well-formed predicate yields its truth value. -/
theorem satisfied_reads (fs : FloatSys) {n : Nat} {vs : List VarInfo} (hn : n ≤ vs.length)
    (hvs : ∀ v ∈ vs, v.Canonical) {p : Pred} {f : Form} (h : ReadsForm n p f) :
    predicateSatisfied fs vs p = .ok (f.holds (lowFloat fs) vs) := by
  refine ReadsForm.rec (motive_1 := fun p f _ => predicateSatisfied fs vs p = .ok (f.holds (lowFloat fs) vs))
    (motive_2 := fun cs f _ => allSatisfied fs vs cs = .ok (f.holds (lowFloat fs) vs))
    (motive_3 := fun cs f _ => anySatisfied fs vs cs = .ok (f.holds (lowFloat fs) vs))
    ?_ ?_ ?_ ?_ ?_ ?_ ?_ ?_ ?_ ?_ h
  · intros; simp only [predicateSatisfied, Form.holds]
  · intro d cs f _ ih; simp only [predicateSatisfied, ih]
  · intro d cs f _ ih; simp only [predicateSatisfied, ih]
  · intro d c f _ ih
    simp only [predicateSatisfied, notSatisfied, ih, Res.ok_bind, Res.pure_eq, Form.holds]
  · intro d i j cs cs' hi hj
    obtain ⟨v, h1, h2, h3⟩ := varAt_ok (Nat.lt_of_lt_of_le hi hn)
    obtain ⟨w, k1, k2, k3⟩ := varAt_ok (Nat.lt_of_lt_of_le hj hn)
    simp only [predicateSatisfied, evalDistinct, Pred.kind, Pred.data, if_true, h2, k2, Res.ok_bind,
      Res.pure_eq, Form.holds, h1, k1]
    have := eqv_iff_eq (hvs v h3) (hvs w k3)
    by_cases e : v = w
    · rw [this.mpr e]; simp [e]
    · have : v.eqv w = false := by
        cases h : v.eqv w
        · rfl
        · exact absurd (this.mp h) e
      rw [this]; simp [e]
  · intro op d p q a b hp hq
    rw [predicateSatisfied_cmp, evalCompare_reads fs hn hvs hp hq]; rfl
  · simp only [allSatisfied, Form.holds]
  · intro c cs f g _ _ ih1 ih2
    simp only [allSatisfied, ih1, Res.ok_bind, Form.holds]
    cases f.holds (lowFloat fs) vs
    · simp
    · simp [ih2]
  · simp only [anySatisfied, Form.holds]
  · intro c cs f g _ _ ih1 ih2
    simp only [anySatisfied, ih1, Res.ok_bind, Form.holds]
    cases f.holds (lowFloat fs) vs
    · simp [ih2]
    · simp

end TraceDB
