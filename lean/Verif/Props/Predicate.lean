import Verif.Proofs.Decides
/-
Properties of predicate evaluation: C29 to C33.
-/
namespace TraceDB

/-! Example data. -/

/-- A toy number system for examples. -/
def exFloats : FloatSys where
  F := Int
  ofInt := id
  ofF32 b := b.toNat
  ofF64 b := b.toNat
  add := (· + ·)
  sub := (· - ·)
  mul := (· * ·)
  div := (· / ·)
  lt x y := decide (x < y)
  le x y := decide (x ≤ y)
  gt x y := decide (x > y)
  ge x y := decide (x ≥ y)
  eq x y := decide (x = y)
  isZero x := decide (x = 0)

/-- A signed 4-byte variable with value -5. -/
def exSigned : VarInfo := ⟨.word (BitVec.ofInt 64 (-5)), 0, 0, .signed, 4, 0, false⟩
/-- An unsigned 8-byte variable with the largest value. -/
def exUnsigned : VarInfo := ⟨.word (BitVec.allOnes 64), 1, 1, .unsigned, 8, 0, false⟩
/-- A pointer to a buffer of 16 bytes. -/
def exPointer : VarInfo := ⟨.word 4096, 2, 2, .pointer, 8, 16, true⟩
/-- A blob. -/
def exBlob : VarInfo := ⟨.blob [1, 2, 3], 3, 3, .blob, 3, 0, false⟩
/-- The double 1.0. -/
def exOne : VarInfo := ⟨.word 0x3FF0000000000000, 4, 4, .float, 8, 0, false⟩
/-- The double 2.0. -/
def exTwo : VarInfo := ⟨.word 0x4000000000000000, 4, 4, .float, 8, 0, false⟩
/-- The variables above. -/
def exVars : List VarInfo := [exSigned, exUnsigned, exPointer, exBlob]

/-- Predicate for a variable reference. -/
def pRef (i : U64) : Pred := .node .varReference i []
/-- Predicate for the value of a variable. -/
def pVal (i : U64) : Pred := .node .varValue 1 [pRef i]
/-- Predicate for the buffer size of a variable. -/
def pSize (i : U64) : Pred := .node .varSize 1 [pRef i]
/-- Predicate for an unsigned constant. -/
def pNat (n : U64) : Pred := .node .unsignedValue n []

theorem exVars_canonical : ∀ v ∈ exVars, v.Canonical := by decide

/-! C29 -/

theorem intVal_val {fs : FloatSys} (fl : VarInfo → fs.F) (vs : List VarInfo) (t : Term) (x : Int)
    (h : t.intVal vs = some x) : t.val fl vs = some (.int x) := by
  induction t generalizing x with
  | size i =>
    simp only [Term.intVal, Term.val] at h ⊢
    cases hv : vs[i]? with
    | none => rw [hv] at h; cases h
    | some v =>
      rw [hv] at h
      simp only at h ⊢
      split at h
      · rename_i hb; rw [if_pos hb]; cases h; rfl
      · cases h
  | value i =>
    simp only [Term.intVal, Term.val] at h ⊢
    cases hv : vs[i]? with
    | none => rw [hv] at h; cases h
    | some v =>
      rw [hv] at h
      obtain ⟨val, n, t, f, s, b, hb⟩ := v
      cases f <;> cases val <;> simp only [varNumber, Option.some.injEq, reduceCtorEq] at h ⊢ <;> rw [h]
  | nat n => simp only [Term.intVal, Option.some.injEq] at h; rw [← h]; rfl
  | integer n => simp only [Term.intVal, Option.some.injEq] at h; rw [← h]; rfl
  | float b => simp [Term.intVal] at h
  | add a b iha ihb =>
    simp only [Term.intVal] at h
    cases ha : a.intVal vs <;> cases hb : b.intVal vs <;> simp only [ha, hb] at h <;> try cases h
    simp only [Term.val, iha _ ha, ihb _ hb, numOp]
  | sub a b iha ihb =>
    simp only [Term.intVal] at h
    cases ha : a.intVal vs <;> cases hb : b.intVal vs <;> simp only [ha, hb] at h <;> try cases h
    simp only [Term.val, iha _ ha, ihb _ hb, numOp]
  | mul a b iha ihb =>
    simp only [Term.intVal] at h
    cases ha : a.intVal vs <;> cases hb : b.intVal vs <;> simp only [ha, hb] at h <;> try cases h
    simp only [Term.val, iha _ ha, ihb _ hb, numOp]
  | div a b _ _ => simp [Term.intVal] at h

/-- Comparisons of integer expressions are those of the mathematical integers,
for every float library. -/
theorem C29_integer_predicates_exact (fs : FloatSys) (vs : List VarInfo) (hvs : ∀ v ∈ vs, v.Canonical)
    (p q : Pred) (a b : Term) (hp : ReadsTerm vs.length p a) (hq : ReadsTerm vs.length q b) (x y : Int)
    (hx : a.intVal vs = some x) (hy : b.intVal vs = some y) (d : U64) :
    predicateSatisfied fs vs (.node .greaterThan d [p, q]) = .ok (decide (x > y)) ∧
    predicateSatisfied fs vs (.node .greaterThanOrEqual d [p, q]) = .ok (decide (x ≥ y)) ∧
    predicateSatisfied fs vs (.node .lessThan d [p, q]) = .ok (decide (x < y)) ∧
    predicateSatisfied fs vs (.node .lessThanOrEqual d [p, q]) = .ok (decide (x ≤ y)) ∧
    predicateSatisfied fs vs (.node .equal d [p, q]) = .ok (decide (x = y)) := by
  have key : ∀ op : Cmp, predicateSatisfied fs vs (.node op.toKind d [p, q]) = .ok (op.onInt x y) := by
    intro op
    rw [satisfied_reads fs (Nat.le_refl _) hvs (.cmp (op := op) hp hq), Form.holds,
      intVal_val _ _ _ _ hx, intVal_val _ _ _ _ hy]
    rfl
  exact ⟨key .gt, key .ge, key .lt, key .le, key .eq⟩

/-- `-5 < 2^64 - 1`, `16 * 2^64 > 2^64`: no wrap-around, no sign confusion. -/
example : predicateSatisfied exFloats exVars (.node .lessThan 2 [pVal 0, pVal 1]) = .ok true ∧
    predicateSatisfied exFloats exVars (.node .greaterThan 2
      [.node .multiply 2 [pSize 2, pVal 1], pVal 1]) = .ok true := by decide +kernel

example : ReadsTerm exVars.length (.node .multiply 2 [pSize 2, pVal 1]) (.mul (.size 2) (.value 1)) ∧
    (Term.mul (.size 2) (.value 1)).intVal exVars = some (16 * (2 ^ 64 - 1)) :=
  ⟨.mul (.size (i := 2) (by decide)) (.value (i := 1) (by decide)), by decide +kernel⟩

/-! C30 -/

/-- A well-formed predicate evaluates to its truth value. -/
theorem C30_well_formed_total (fs : FloatSys) (vs : List VarInfo) (hvs : ∀ v ∈ vs, v.Canonical)
    (n : Nat) (hn : n ≤ vs.length) (p : Pred) (f : Form) (h : ReadsForm n p f) :
    predicateSatisfied fs vs p = .ok (f.holds (lowFloat fs) vs) :=
  satisfied_reads fs hn hvs h

/-- Every predicate object: it returns exactly the outcome given by its meaning;
one without meaning aborts or reads outside the variables. -/
theorem C30_exact_outcome (fs : FloatSys) (vs : List VarInfo) (hvs : ∀ v ∈ vs, v.Canonical) (p : Pred) :
    (∀ b, predicateSatisfied fs vs p = .ok b ↔ Decides (lowFloat fs) vs p b) ∧
    ((¬ ∃ b, Decides (lowFloat fs) vs p b) →
      predicateSatisfied fs vs p = .abort ∨ predicateSatisfied fs vs p = .ub .oobRead) := by
  refine ⟨fun b => ⟨decides_of_ok fs hvs p b, ok_of_decides fs hvs⟩, ?_⟩
  intro h
  have hp := satisfied_plain fs hvs p
  cases hr : predicateSatisfied fs vs p with
  | ok b => exact absurd ⟨b, decides_of_ok fs hvs p b hr⟩ h
  | abort => exact Or.inl rfl
  | ub k => rw [hr] at hp; cases k <;> first | exact Or.inr rfl | exact hp.elim
  | throw e => rw [hr] at hp; exact hp.elim
  | hang => rw [hr] at hp; exact hp.elim

/-- Both kinds of failure occur: a wrong number of arguments aborts, a variable
index out of range is undefined. -/
example : predicateSatisfied exFloats exVars (.node .not 0 []) = .abort ∧
    predicateSatisfied exFloats exVars (.node .equal 2 [pVal 9, pNat 1]) = .ub .oobRead ∧
    predicateSatisfied exFloats exVars (.node .or 2
      [.node .equal 2 [pVal 1, pNat 1], .node .lessThan 2 [pSize 2, pNat 17]]) = .ok true := by
  decide +kernel

/-! C31 -/

/-- Arguments that evaluate to the given truth values. -/
def EvaluateTo (fs : FloatSys) (vs : List VarInfo) (cs : List Pred) (bs : List Bool) : Prop :=
  cs.length = bs.length ∧ ∀ (i : Nat) (c : Pred) (b : Bool), cs[i]? = some c → bs[i]? = some b →
    predicateSatisfied fs vs c = .ok b

theorem evaluateTo_cons {fs : FloatSys} {vs : List VarInfo} {c : Pred} {cs : List Pred} {bs : List Bool}
    (h : EvaluateTo fs vs (c :: cs) bs) :
    ∃ b bs', bs = b :: bs' ∧ predicateSatisfied fs vs c = .ok b ∧ EvaluateTo fs vs cs bs' := by
  cases bs with
  | nil => simp [EvaluateTo] at h
  | cons b bs =>
    refine ⟨b, bs, rfl, h.2 0 c b rfl rfl, by simpa using h.1, ?_⟩
    intro i d e h1 h2
    exact h.2 (i + 1) d e (by simpa using h1) (by simpa using h2)

/-- `and`, `or`, `not`, `distinct` are conjunction, disjunction, negation and
inequality of records; evaluation stops at the first deciding argument, whatever
follows it, and a failing argument that is reached fails the whole. -/
theorem C31_connectives (fs : FloatSys) (vs : List VarInfo) (d : U64) :
    (∀ cs bs, EvaluateTo fs vs cs bs →
      predicateSatisfied fs vs (.node .and d cs) = .ok (bs.all id) ∧
      predicateSatisfied fs vs (.node .or d cs) = .ok (bs.any id)) ∧
    (∀ pre c post, (∀ x ∈ pre, predicateSatisfied fs vs x = .ok true) →
      predicateSatisfied fs vs c ≠ .ok true →
      predicateSatisfied fs vs (.node .and d (pre ++ c :: post)) = predicateSatisfied fs vs c) ∧
    (∀ pre c post, (∀ x ∈ pre, predicateSatisfied fs vs x = .ok false) →
      predicateSatisfied fs vs c ≠ .ok false →
      predicateSatisfied fs vs (.node .or d (pre ++ c :: post)) = predicateSatisfied fs vs c) ∧
    (∀ c b, predicateSatisfied fs vs c = .ok b →
      predicateSatisfied fs vs (.node .not d [c]) = .ok (!b)) ∧
    (∀ i j v w, vs[i.toNat]? = some v → vs[j.toNat]? = some w → v.Canonical → w.Canonical →
      predicateSatisfied fs vs (.node .distinctVars d [pRef i, pRef j]) = .ok (decide (v ≠ w))) := by
  refine ⟨?_, ?_, ?_, ?_, ?_⟩
  · intro cs
    induction cs with
    | nil =>
      intro bs h
      have : bs = [] := by simpa [EvaluateTo, eq_comm] using h.1
      subst this
      simp [predicateSatisfied, allSatisfied, anySatisfied]
    | cons c cs ih =>
      intro bs h
      obtain ⟨b, bs, rfl, h1, h2⟩ := evaluateTo_cons h
      obtain ⟨ih1, ih2⟩ := ih bs h2
      simp only [predicateSatisfied] at ih1 ih2
      simp only [predicateSatisfied, allSatisfied, anySatisfied, h1, Res.ok_bind, List.all_cons,
        List.any_cons, id]
      cases b <;> simp [ih1, ih2]
  · intro pre c post
    induction pre with
    | nil =>
      intro _ hc
      simp only [List.nil_append, predicateSatisfied, allSatisfied]
      cases hr : predicateSatisfied fs vs c with
      | ok b => cases b <;> simp_all
      | _ => rfl
    | cons x pre ih =>
      intro hpre hc
      have ih := ih (fun y hy => hpre y (List.mem_cons_of_mem _ hy)) hc
      simp only [predicateSatisfied] at ih
      simp only [List.cons_append, predicateSatisfied, allSatisfied, hpre x (List.mem_cons_self ..),
        Res.ok_bind, if_true, ih]
  · intro pre c post
    induction pre with
    | nil =>
      intro _ hc
      simp only [List.nil_append, predicateSatisfied, anySatisfied]
      cases hr : predicateSatisfied fs vs c with
      | ok b => cases b <;> simp_all
      | _ => rfl
    | cons x pre ih =>
      intro hpre hc
      have ih := ih (fun y hy => hpre y (List.mem_cons_of_mem _ hy)) hc
      simp only [predicateSatisfied] at ih
      simp only [List.cons_append, predicateSatisfied, anySatisfied, hpre x (List.mem_cons_self ..),
        Res.ok_bind, Bool.false_eq_true, if_false, ih]
  · intro c b h
    simp only [predicateSatisfied, notSatisfied, h, Res.ok_bind, Res.pure_eq]
  · intro i j v w hv hw cv cw
    simp only [predicateSatisfied, evalDistinct, pRef, Pred.kind, Pred.data, if_true, varAt, hv, hw,
      Res.ok_bind, Res.pure_eq]
    have := eqv_iff_eq cv cw
    by_cases e : v = w
    · rw [this.mpr e]; simp [e]
    · have : v.eqv w = false := by
        cases h : v.eqv w
        · rfl
        · exact absurd (this.mp h) e
      rw [this]; simp [e]

/-- An ill-formed argument behind the deciding one is not reached. -/
example : predicateSatisfied exFloats exVars (.node .and 2
      [.node .equal 2 [pVal 0, pNat 1], .node .add 0 []]) = .ok false ∧
    predicateSatisfied exFloats exVars (.node .and 2
      [.node .equal 2 [pNat 1, pNat 1], .node .add 0 []]) = .abort ∧
    predicateSatisfied exFloats exVars (.node .distinctVars 2 [pRef 0, pRef 1]) = .ok true := by
  decide +kernel

/-! C32 -/

theorem missing_none {fs : FloatSys} (fl : VarInfo → fs.F) (vs : List VarInfo) (t : Term)
    (h : t.Missing fl vs) : t.val fl vs = none := by
  have opl : ∀ (opI : Int → Int → Int) (opF : fs.F → fs.F → fs.F) y, numOp opI opF none y = none := by
    intro opI opF y; rcases y with _ | y | y <;> rfl
  have opr : ∀ (opI : Int → Int → Int) (opF : fs.F → fs.F → fs.F) x, numOp opI opF x none = none := by
    intro opI opF x; rcases x with _ | x | x <;> rfl
  induction t with
  | size i =>
    obtain ⟨v, h1, h2⟩ := h
    simp only [Term.val, h1, h2, Bool.false_eq_true, if_false]
  | value i =>
    obtain ⟨v, h1, h2⟩ := h
    simp only [Term.val, h1, varNumber, h2]
  | nat n => exact h.elim
  | integer n => exact h.elim
  | float b => exact h.elim
  | add a b iha ihb =>
    rcases h with h | h
    · simp only [Term.val, iha h, opl]
    · simp only [Term.val, ihb h, opr]
  | sub a b iha ihb =>
    rcases h with h | h
    · simp only [Term.val, iha h, opl]
    · simp only [Term.val, ihb h, opr]
  | mul a b iha ihb =>
    rcases h with h | h
    · simp only [Term.val, iha h, opl]
    · simp only [Term.val, ihb h, opr]
  | div a b iha ihb =>
    rcases h with h | h | ⟨z, h1, h2⟩
    · simp only [Term.val, iha h, numDiv]
    · simp only [Term.val, ihb h]
      rcases a.val fl vs with _ | x <;> rfl
    · simp only [Term.val, h1]
      rcases a.val fl vs with _ | x
      · rfl
      · simp [numDiv, h2]

/-- A comparison with a missing operand is false, for all five operators. -/
theorem C32_missing_values_false (fs : FloatSys) (vs : List VarInfo) (hvs : ∀ v ∈ vs, v.Canonical)
    (p q : Pred) (a b : Term) (hp : ReadsTerm vs.length p a) (hq : ReadsTerm vs.length q b)
    (h : a.Missing (lowFloat fs) vs ∨ b.Missing (lowFloat fs) vs) (op : Cmp) (d : U64) :
    predicateSatisfied fs vs (.node op.toKind d [p, q]) = .ok false := by
  rw [satisfied_reads fs (Nat.le_refl _) hvs (.cmp (op := op) hp hq), Form.holds]
  rcases h with h | h
  · rw [missing_none _ _ _ h]
    rcases b.val (lowFloat fs) vs with _ | y | y <;> rfl
  · rw [missing_none _ _ _ h]
    rcases a.val (lowFloat fs) vs with _ | y | y <;> rfl

/-- `(= (+ (v/value blob) 1) (+ (v/value blob) 1))` is false, and so is `(>= x (/ 1 0))`. -/
example : predicateSatisfied exFloats exVars (.node .equal 2
      [.node .add 2 [pVal 3, pNat 1], .node .add 2 [pVal 3, pNat 1]]) = .ok false ∧
    predicateSatisfied exFloats exVars (.node .greaterThanOrEqual 2
      [pVal 1, .node .divide 2 [pNat 1, pNat 0]]) = .ok false := by decide +kernel

example : (Term.add (.value 3) (.nat 1)).Missing (lowFloat exFloats) exVars :=
  Or.inl ⟨exBlob, rfl, rfl⟩

/-! C33 -/

/-- Recorded numbers of the floats are the ones used, when no float variable has
8 bytes. -/
theorem C33_four_byte_floats (fs : FloatSys) (vs : List VarInfo) (hvs : ∀ v ∈ vs, v.Canonical)
    (h4 : ∀ v ∈ vs, v.format = .float → v.size ≠ 8) (n : Nat) (hn : n ≤ vs.length) (p : Pred) (f : Form)
    (h : ReadsForm n p f) :
    predicateSatisfied fs vs p = .ok (f.holds (recordedFloat fs) vs) := by
  rw [satisfied_reads fs hn hvs h]
  congr 1
  have ht : ∀ t : Term, t.val (lowFloat fs) vs = t.val (recordedFloat fs) vs := by
    intro t
    induction t with
    | value i =>
      simp only [Term.val]
      cases hv : vs[i]? with
      | none => rfl
      | some v =>
        have hm := List.mem_of_getElem? hv
        have := h4 v hm
        obtain ⟨val, nm, t, fmt, s, b, hb⟩ := v
        cases fmt <;> cases val <;> simp_all [varNumber, lowFloat, recordedFloat]
    | add a b iha ihb => simp only [Term.val, iha, ihb]
    | sub a b iha ihb => simp only [Term.val, iha, ihb]
    | mul a b iha ihb => simp only [Term.val, iha, ihb]
    | div a b iha ihb => simp only [Term.val, iha, ihb]
    | _ => rfl
  have hf : ∀ f : Form, f.holds (lowFloat fs) vs = f.holds (recordedFloat fs) vs := by
    intro f
    induction f with
    | conj f g ih1 ih2 => simp only [Form.holds, ih1, ih2]
    | disj f g ih1 ih2 => simp only [Form.holds, ih1, ih2]
    | neg f ih => simp only [Form.holds, ih]
    | cmp op a b => simp only [Form.holds, ht]
    | _ => rfl
  exact hf f

/-- Variables that agree in the low four bytes of floats. -/
def SameLowList (vs ws : List VarInfo) : Prop :=
  vs.length = ws.length ∧ ∀ (i : Nat) (v w : VarInfo), vs[i]? = some v → ws[i]? = some w → SameLow v w

theorem sameLow_varAt {vs ws : List VarInfo} (h : SameLowList vs ws) (i : Nat) :
    (∃ v w, varAt vs i = .ok v ∧ varAt ws i = .ok w ∧ SameLow v w) ∨
    (varAt vs i = .ub .oobRead ∧ varAt ws i = .ub .oobRead) := by
  unfold varAt
  by_cases hi : i < vs.length
  · have hi' : i < ws.length := by rw [← h.1]; exact hi
    left
    refine ⟨vs[i], ws[i], ?_, ?_, h.2 i _ _ (List.getElem?_eq_getElem hi) (List.getElem?_eq_getElem hi')⟩
    · rw [List.getElem?_eq_getElem hi]
    · rw [List.getElem?_eq_getElem hi']
  · right
    rw [List.getElem?_eq_none (by omega), List.getElem?_eq_none (by rw [← h.1]; omega)]
    exact ⟨rfl, rfl⟩

theorem sameLow_value (fs : FloatSys) {v w : VarInfo} (h : SameLow v w) : valueOf fs v = valueOf fs w := by
  rcases h with rfl | ⟨h1, h2, _, _, x, y, h3, h4, h5⟩
  · rfl
  · unfold valueOf; simp only [h1, h2, h3, h4, h5]

theorem sameLow_size (fs : FloatSys) {v w : VarInfo} (h : SameLow v w) : sizeOf fs v = sizeOf fs w := by
  rcases h with rfl | ⟨_, _, h1, h2, _⟩
  · rfl
  · unfold sizeOf; rw [h1, h2]

theorem sameLow_evaluate (fs : FloatSys) {vs ws : List VarInfo} (h : SameLowList vs ws) (p : Pred) :
    evaluate fs vs p = evaluate fs ws p := by
  fun_induction evaluate fs vs p
  case case1 d c hc =>
    simp only [evaluate, hc, if_true]
    rcases sameLow_varAt h c.data.toNat with ⟨v, w, h1, h2, h3⟩ | ⟨h1, h2⟩
    · simp only [h1, h2, Res.ok_bind, sameLow_size fs h3]
    · simp only [h1, h2, Res.ub_bind]
  case case3 d c hc =>
    simp only [evaluate, hc, if_true]
    rcases sameLow_varAt h c.data.toNat with ⟨v, w, h1, h2, h3⟩ | ⟨h1, h2⟩
    · simp only [h1, h2, Res.ok_bind, sameLow_value fs h3]
    · simp only [h1, h2, Res.ub_bind]
  case case8 ih1 ih2 => simp only [evaluate, ih1, ih2]
  case case9 ih1 ih2 => simp only [evaluate, ih1, ih2]
  case case10 ih1 ih2 => simp only [evaluate, ih1, ih2]
  case case11 ih1 ih2 => simp only [evaluate, ih1, ih2]
  case case2 hc => simp only [evaluate, hc, if_false]
  case case4 hc => simp only [evaluate, hc, if_false]
  case case12 p h1 h2 h3 h4 h5 h6 h7 h8 h9 =>
    unfold evaluate
    split <;> first | rfl | skip
    all_goals first
      | exact absurd rfl (h1 _ _)
      | exact absurd rfl (h2 _ _)
      | exact absurd rfl (h3 _ _)
      | exact absurd rfl (h4 _ _)
      | exact absurd rfl (h5 _ _)
      | exact absurd rfl (h6 _ _ _)
      | exact absurd rfl (h7 _ _ _)
      | exact absurd rfl (h8 _ _ _)
      | exact absurd rfl (h9 _ _ _)
  all_goals simp only [evaluate]

theorem sameLow_compare (fs : FloatSys) {vs ws : List VarInfo} (h : SameLowList vs ws)
    (opI : Int → Int → Bool) (opF : fs.F → fs.F → Bool) (cs : List Pred) :
    evalCompare fs vs opI opF cs = evalCompare fs ws opI opF cs := by
  unfold evalCompare
  split
  · rw [sameLow_evaluate fs h, sameLow_evaluate fs h]
  · rfl

mutual
theorem sameLow_satisfied (fs : FloatSys) {vs ws : List VarInfo} (h : SameLowList vs ws) :
    ∀ p : Pred, p.noDistinct = true → predicateSatisfied fs vs p = predicateSatisfied fs ws p
  | .node k d cs => by
    intro hd
    rw [Pred.noDistinct, Bool.and_eq_true, decide_eq_true_iff] at hd
    obtain ⟨h1, h2⟩ := hd
    cases k <;> simp only [predicateSatisfied, sameLow_compare fs h]
    case and => exact sameLow_all fs h cs h2
    case or => exact sameLow_any fs h cs h2
    case not => exact sameLow_not fs h cs h2
    case distinctVars => exact absurd rfl h1
theorem sameLow_all (fs : FloatSys) {vs ws : List VarInfo} (h : SameLowList vs ws) :
    ∀ cs : List Pred, Pred.noDistinctList cs = true → allSatisfied fs vs cs = allSatisfied fs ws cs
  | [] => by intro _; simp only [allSatisfied]
  | c :: cs => by
    intro hd
    rw [Pred.noDistinctList, Bool.and_eq_true] at hd
    simp only [allSatisfied, sameLow_satisfied fs h c hd.1, sameLow_all fs h cs hd.2]
theorem sameLow_any (fs : FloatSys) {vs ws : List VarInfo} (h : SameLowList vs ws) :
    ∀ cs : List Pred, Pred.noDistinctList cs = true → anySatisfied fs vs cs = anySatisfied fs ws cs
  | [] => by intro _; simp only [anySatisfied]
  | c :: cs => by
    intro hd
    rw [Pred.noDistinctList, Bool.and_eq_true] at hd
    simp only [anySatisfied, sameLow_satisfied fs h c hd.1, sameLow_any fs h cs hd.2]
theorem sameLow_not (fs : FloatSys) {vs ws : List VarInfo} (h : SameLowList vs ws) :
    ∀ cs : List Pred, Pred.noDistinctList cs = true → notSatisfied fs vs cs = notSatisfied fs ws cs
  | [] => by intro _; simp only [notSatisfied]
  | [c] => by
    intro hd
    rw [Pred.noDistinctList, Bool.and_eq_true] at hd
    simp only [notSatisfied, sameLow_satisfied fs h c hd.1]
  | _ :: _ :: _ => by intro _; simp only [notSatisfied]
end

/-- Floats that agree in their low four bytes cannot be told apart by any
predicate without `distinct`, whatever the float library: doubles are not read as
doubles. -/
theorem C33_doubles_confused (fs : FloatSys) (vs ws : List VarInfo) (h : SameLowList vs ws) (p : Pred)
    (hd : p.noDistinct = true) : predicateSatisfied fs vs p = predicateSatisfied fs ws p :=
  sameLow_satisfied fs h p hd

/-- 1.0 and 2.0 as doubles. -/
example : SameLowList [exOne] [exTwo] ∧ exOne ≠ exTwo ∧ exOne.Canonical ∧ exTwo.Canonical := by
  refine ⟨⟨rfl, ?_⟩, by decide, by decide, by decide⟩
  intro i v w hv hw
  cases i with
  | zero =>
    cases hv; cases hw
    exact Or.inr ⟨rfl, rfl, rfl, rfl, 0x3FF0000000000000, 0x4000000000000000, rfl, rfl, by decide⟩
  | succ i => simp at hv

end TraceDB
