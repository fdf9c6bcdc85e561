import Verif.Proofs.Predicate
/-
Exact outcome of evaluating arbitrary predicate objects.
-/
namespace TraceDB

/-- Normal return, failed assertion or access outside the variables. -/
def Res.Plain {α : Type} : Res α → Prop
  | .ok _ => True
  | .abort => True
  | .ub .oobRead => True
  | _ => False

theorem Res.Plain.bind {α β : Type} {x : Res α} {f : α → Res β} (h : x.Plain)
    (hf : ∀ a, x = .ok a → (f a).Plain) : (x >>= f).Plain := by
  cases x with
  | ok a => exact hf a rfl
  | throw e => exact h.elim
  | abort => trivial
  | ub k => cases k <;> first | trivial | exact h.elim
  | hang => exact h.elim

theorem varAt_plain (vs : List VarInfo) (i : Nat) : (varAt vs i).Plain := by
  unfold varAt; split <;> trivial

theorem varAt_eq_ok {vs : List VarInfo} {i : Nat} {v : VarInfo} (h : varAt vs i = .ok v) :
    i < vs.length ∧ v ∈ vs ∧ vs[i]? = some v := by
  unfold varAt at h
  split at h
  · rename_i w hw
    cases h
    exact ⟨(List.getElem?_eq_some_iff.mp hw).1, List.mem_of_getElem? hw, hw⟩
  · cases h

theorem evaluate_plain (fs : FloatSys) {vs : List VarInfo} (hvs : ∀ v ∈ vs, v.Canonical) (p : Pred) :
    (evaluate fs vs p).Plain := by
  fun_induction evaluate fs vs p
  case case1 => exact (varAt_plain _ _).bind fun _ _ => trivial
  case case3 =>
    refine (varAt_plain _ _).bind fun v hv => ?_
    rw [valueOf_eq fs (hvs v (varAt_eq_ok hv).2.1)]; trivial
  case case8 ih1 ih2 => exact ih1.bind fun _ _ => ih2.bind fun _ _ => trivial
  case case9 ih1 ih2 => exact ih1.bind fun _ _ => ih2.bind fun _ _ => trivial
  case case10 ih1 ih2 => exact ih1.bind fun _ _ => ih2.bind fun _ _ => trivial
  case case11 ih1 ih2 => exact ih1.bind fun _ _ => ih2.bind fun _ _ => trivial
  all_goals trivial

/-- Only well-formed arithmetic expressions have a value. -/
theorem evaluate_ok (fs : FloatSys) {vs : List VarInfo} {p : Pred} {x : PVal fs}
    (h : evaluate fs vs p = .ok x) : ∃ t, ReadsTerm vs.length p t := by
  fun_induction evaluate fs vs p generalizing x
  case case1 d c hc =>
    obtain ⟨v, h1, _⟩ := Res.bind_eq_ok.mp h
    obtain ⟨k, i, cs⟩ := c
    simp only [Pred.kind] at hc
    subst hc
    exact ⟨_, .size (varAt_eq_ok h1).1⟩
  case case3 d c hc =>
    obtain ⟨v, h1, _⟩ := Res.bind_eq_ok.mp h
    obtain ⟨k, i, cs⟩ := c
    simp only [Pred.kind] at hc
    subst hc
    exact ⟨_, .value (varAt_eq_ok h1).1⟩
  case case5 => exact ⟨_, .nat⟩
  case case6 => exact ⟨_, .integer⟩
  case case7 => exact ⟨_, .float⟩
  case case8 ih1 ih2 =>
    obtain ⟨v, h1, h2⟩ := Res.bind_eq_ok.mp h
    obtain ⟨w, h3, _⟩ := Res.bind_eq_ok.mp h2
    obtain ⟨a, ha⟩ := ih1 h1
    obtain ⟨b, hb⟩ := ih2 h3
    exact ⟨_, .add ha hb⟩
  case case9 ih1 ih2 =>
    obtain ⟨v, h1, h2⟩ := Res.bind_eq_ok.mp h
    obtain ⟨w, h3, _⟩ := Res.bind_eq_ok.mp h2
    obtain ⟨a, ha⟩ := ih1 h1
    obtain ⟨b, hb⟩ := ih2 h3
    exact ⟨_, .sub ha hb⟩
  case case10 ih1 ih2 =>
    obtain ⟨v, h1, h2⟩ := Res.bind_eq_ok.mp h
    obtain ⟨w, h3, _⟩ := Res.bind_eq_ok.mp h2
    obtain ⟨a, ha⟩ := ih1 h1
    obtain ⟨b, hb⟩ := ih2 h3
    exact ⟨_, .mul ha hb⟩
  case case11 ih1 ih2 =>
    obtain ⟨v, h1, h2⟩ := Res.bind_eq_ok.mp h
    obtain ⟨w, h3, _⟩ := Res.bind_eq_ok.mp h2
    obtain ⟨a, ha⟩ := ih1 h1
    obtain ⟨b, hb⟩ := ih2 h3
    exact ⟨_, .div ha hb⟩
  all_goals cases h

theorem evalCompare_plain (fs : FloatSys) {vs : List VarInfo} (hvs : ∀ v ∈ vs, v.Canonical)
    (opI : Int → Int → Bool) (opF : fs.F → fs.F → Bool) (cs : List Pred) :
    (evalCompare fs vs opI opF cs).Plain := by
  unfold evalCompare
  split
  · exact (evaluate_plain fs hvs _).bind fun _ _ => (evaluate_plain fs hvs _).bind fun _ _ => trivial
  · trivial

theorem evalDistinct_plain (vs : List VarInfo) (cs : List Pred) : (evalDistinct vs cs).Plain := by
  unfold evalDistinct
  split
  · split
    · split
      · exact (varAt_plain _ _).bind fun _ _ => (varAt_plain _ _).bind fun _ _ => trivial
      · trivial
    · trivial
  · trivial

mutual
/-- Evaluation returns, aborts or reads outside the variables. -/
theorem satisfied_plain (fs : FloatSys) {vs : List VarInfo} (hvs : ∀ v ∈ vs, v.Canonical) :
    ∀ p, (predicateSatisfied fs vs p).Plain
  | .node k d cs => by
    cases k <;> simp only [predicateSatisfied]
    case and => exact all_plain fs hvs cs
    case or => exact any_plain fs hvs cs
    case not => exact not_plain fs hvs cs
    case distinctVars => exact evalDistinct_plain vs cs
    case greaterThan => exact evalCompare_plain fs hvs _ _ cs
    case greaterThanOrEqual => exact evalCompare_plain fs hvs _ _ cs
    case lessThan => exact evalCompare_plain fs hvs _ _ cs
    case lessThanOrEqual => exact evalCompare_plain fs hvs _ _ cs
    case equal => exact evalCompare_plain fs hvs _ _ cs
    all_goals trivial
theorem all_plain (fs : FloatSys) {vs : List VarInfo} (hvs : ∀ v ∈ vs, v.Canonical) :
    ∀ cs, (allSatisfied fs vs cs).Plain
  | [] => by simp only [allSatisfied]; trivial
  | c :: cs => by
    simp only [allSatisfied]
    refine (satisfied_plain fs hvs c).bind fun b _ => ?_
    cases b
    · trivial
    · exact all_plain fs hvs cs
theorem any_plain (fs : FloatSys) {vs : List VarInfo} (hvs : ∀ v ∈ vs, v.Canonical) :
    ∀ cs, (anySatisfied fs vs cs).Plain
  | [] => by simp only [anySatisfied]; trivial
  | c :: cs => by
    simp only [anySatisfied]
    refine (satisfied_plain fs hvs c).bind fun b _ => ?_
    cases b
    · exact any_plain fs hvs cs
    · trivial
theorem not_plain (fs : FloatSys) {vs : List VarInfo} (hvs : ∀ v ∈ vs, v.Canonical) :
    ∀ cs, (notSatisfied fs vs cs).Plain
  | [] => by simp only [notSatisfied]; trivial
  | [c] => by
    simp only [notSatisfied]
    exact (satisfied_plain fs hvs c).bind fun b _ => trivial
  | _ :: _ :: _ => by simp only [notSatisfied]; trivial
end

theorem evalDistinct_ok {vs : List VarInfo} (hvs : ∀ v ∈ vs, v.Canonical) {cs : List Pred} {b : Bool}
    (h : evalDistinct vs cs = .ok b) : ∃ (i j : U64) (cs0 cs1 : List Pred),
      cs = [.node .varReference i cs0, .node .varReference j cs1] ∧ i.toNat < vs.length ∧
      j.toNat < vs.length ∧ b = decide (vs[i.toNat]? ≠ vs[j.toNat]?) := by
  unfold evalDistinct at h
  split at h
  · rename_i c0 c1
    obtain ⟨k0, i, cs0⟩ := c0
    obtain ⟨k1, j, cs1⟩ := c1
    by_cases h0 : k0 = .varReference
    · by_cases h1 : k1 = .varReference
      · subst h0 h1
        simp only [Pred.kind, Pred.data, if_true] at h
        obtain ⟨v, h2, h3⟩ := Res.bind_eq_ok.mp h
        obtain ⟨w, h4, h5⟩ := Res.bind_eq_ok.mp h3
        cases h5
        obtain ⟨a1, a2, a3⟩ := varAt_eq_ok h2
        obtain ⟨b1, b2, b3⟩ := varAt_eq_ok h4
        refine ⟨i, j, cs0, cs1, rfl, a1, b1, ?_⟩
        rw [a3, b3]
        have := eqv_iff_eq (hvs v a2) (hvs w b2)
        by_cases e : v = w
        · rw [this.mpr e]; simp [e]
        · have : v.eqv w = false := by
            cases h : v.eqv w
            · rfl
            · exact absurd (this.mp h) e
          rw [this]; simp [e]
      · simp only [Pred.kind, h0, h1, if_true, if_false] at h
        cases h
    · simp only [Pred.kind, h0, if_false] at h
      cases h
  · cases h

theorem evalCompare_ok (fs : FloatSys) {vs : List VarInfo} (hvs : ∀ v ∈ vs, v.Canonical) (op : Cmp) (d : U64)
    {cs : List Pred} {b : Bool} (h : evalCompare fs vs op.onInt op.onReal cs = .ok b) :
    Decides (lowFloat fs) vs (.node op.toKind d cs) b := by
  have h0 := h
  unfold evalCompare at h
  split at h
  · rename_i p q
    obtain ⟨x, h1, h2⟩ := Res.bind_eq_ok.mp h
    obtain ⟨y, h3, h4⟩ := Res.bind_eq_ok.mp h2
    obtain ⟨s, hs⟩ := evaluate_ok fs h1
    obtain ⟨t, ht⟩ := evaluate_ok fs h3
    rw [evalCompare_reads fs (Nat.le_refl _) hvs hs ht] at h0
    cases h0
    exact .cmp hs ht
  · cases h

mutual
/-- A normal return comes from the meaning of the predicate. -/
theorem decides_of_ok (fs : FloatSys) {vs : List VarInfo} (hvs : ∀ v ∈ vs, v.Canonical) :
    ∀ (p : Pred) (b : Bool), predicateSatisfied fs vs p = .ok b → Decides (lowFloat fs) vs p b
  | .node k d cs, b => by
    intro h
    cases k
    case and => simp only [predicateSatisfied] at h; exact .and (all_of_ok fs hvs cs b h)
    case or => simp only [predicateSatisfied] at h; exact .or (any_of_ok fs hvs cs b h)
    case not => simp only [predicateSatisfied] at h; exact not_of_ok fs hvs d cs b h
    case null => simp only [predicateSatisfied] at h; cases h; exact .null
    case distinctVars =>
      simp only [predicateSatisfied] at h
      obtain ⟨i, j, cs0, cs1, rfl, h1, h2, rfl⟩ := evalDistinct_ok hvs h
      exact .distinct h1 h2
    case greaterThan => exact evalCompare_ok fs hvs .gt d (by rw [← predicateSatisfied_cmp fs vs .gt d]; exact h)
    case greaterThanOrEqual =>
      exact evalCompare_ok fs hvs .ge d (by rw [← predicateSatisfied_cmp fs vs .ge d]; exact h)
    case lessThan => exact evalCompare_ok fs hvs .lt d (by rw [← predicateSatisfied_cmp fs vs .lt d]; exact h)
    case lessThanOrEqual =>
      exact evalCompare_ok fs hvs .le d (by rw [← predicateSatisfied_cmp fs vs .le d]; exact h)
    case equal => exact evalCompare_ok fs hvs .eq d (by rw [← predicateSatisfied_cmp fs vs .eq d]; exact h)
    all_goals (simp only [predicateSatisfied] at h; cases h)
theorem all_of_ok (fs : FloatSys) {vs : List VarInfo} (hvs : ∀ v ∈ vs, v.Canonical) :
    ∀ (cs : List Pred) (b : Bool), allSatisfied fs vs cs = .ok b → DecidesAll (lowFloat fs) vs cs b
  | [], b => by intro h; simp only [allSatisfied] at h; cases h; exact .nil
  | c :: cs, b => by
    intro h
    simp only [allSatisfied] at h
    obtain ⟨x, h1, h2⟩ := Res.bind_eq_ok.mp h
    cases x
    · cases h2; exact .stop (decides_of_ok fs hvs c false h1)
    · exact .next (decides_of_ok fs hvs c true h1) (all_of_ok fs hvs cs b h2)
theorem any_of_ok (fs : FloatSys) {vs : List VarInfo} (hvs : ∀ v ∈ vs, v.Canonical) :
    ∀ (cs : List Pred) (b : Bool), anySatisfied fs vs cs = .ok b → DecidesAny (lowFloat fs) vs cs b
  | [], b => by intro h; simp only [anySatisfied] at h; cases h; exact .nil
  | c :: cs, b => by
    intro h
    simp only [anySatisfied] at h
    obtain ⟨x, h1, h2⟩ := Res.bind_eq_ok.mp h
    cases x
    · exact .next (decides_of_ok fs hvs c false h1) (any_of_ok fs hvs cs b h2)
    · cases h2; exact .stop (decides_of_ok fs hvs c true h1)
theorem not_of_ok (fs : FloatSys) {vs : List VarInfo} (hvs : ∀ v ∈ vs, v.Canonical) (d : U64) :
    ∀ (cs : List Pred) (b : Bool), notSatisfied fs vs cs = .ok b → Decides (lowFloat fs) vs (.node .not d cs) b
  | [], b => by intro h; simp only [notSatisfied] at h; cases h
  | [c], b => by
    intro h
    simp only [notSatisfied] at h
    obtain ⟨x, h1, h2⟩ := Res.bind_eq_ok.mp h
    cases h2
    exact .not (decides_of_ok fs hvs c x h1)
  | _ :: _ :: _, b => by intro h; simp only [notSatisfied] at h; cases h
end

/-- The evaluator returns what the meaning says. -/
theorem ok_of_decides (fs : FloatSys) {vs : List VarInfo} (hvs : ∀ v ∈ vs, v.Canonical) {p : Pred} {b : Bool}
    (h : Decides (lowFloat fs) vs p b) : predicateSatisfied fs vs p = .ok b := by
  refine Decides.rec (motive_1 := fun p b _ => predicateSatisfied fs vs p = .ok b)
    (motive_2 := fun cs b _ => allSatisfied fs vs cs = .ok b)
    (motive_3 := fun cs b _ => anySatisfied fs vs cs = .ok b)
    ?_ ?_ ?_ ?_ ?_ ?_ ?_ ?_ ?_ ?_ ?_ ?_ h
  · intros; simp only [predicateSatisfied]
  · intro d cs b _ ih; simp only [predicateSatisfied, ih]
  · intro d cs b _ ih; simp only [predicateSatisfied, ih]
  · intro d c b _ ih; simp only [predicateSatisfied, notSatisfied, ih, Res.ok_bind, Res.pure_eq]
  · intro d i j cs cs' hi hj
    exact satisfied_reads fs (Nat.le_refl _) hvs (.distinct hi hj)
  · intro op d p q a b hp hq
    exact satisfied_reads fs (Nat.le_refl _) hvs (.cmp hp hq)
  · simp only [allSatisfied]
  · intro c cs _ ih; simp only [allSatisfied, ih, Res.ok_bind, Bool.false_eq_true, if_false, Res.pure_eq]
  · intro c cs b _ _ ih1 ih2; simp only [allSatisfied, ih1, Res.ok_bind, if_true, ih2]
  · simp only [anySatisfied]
  · intro c cs _ ih; simp only [anySatisfied, ih, Res.ok_bind, if_true, Res.pure_eq]
  · intro c cs b _ _ ih1 ih2; simp only [anySatisfied, ih1, Res.ok_bind, Bool.false_eq_true, if_false, ih2]

end TraceDB
