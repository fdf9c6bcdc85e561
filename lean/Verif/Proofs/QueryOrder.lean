import Verif.Spec.QueryOrder
import Verif.Proofs.QueryVariables
/-
Proofs about other orders of the free variables.
-/
namespace TraceDB

/-! Predicates -/

theorem readsTerm_renamed {fs : FloatSys} (fl : VarInfo → fs.F) {n : Nat} {ρ : Nat → Nat} (hρ : ∀ i : Nat, i < n → ρ i < n)
    (hn : n ≤ 2 ^ 64) {p : Pred} {a : Term} (h : ReadsTerm n p a) :
    ∃ a', ReadsTerm n (p.renamed ρ) a' ∧
      ∀ vs vs' : List VarInfo, (∀ i : Nat, i < n → vs'[ρ i]? = vs[i]?) → a'.val fl vs' = a.val fl vs := by
  have key : ∀ i : U64, i.toNat < n → (BitVec.ofNat 64 (ρ i.toNat)).toNat = ρ i.toNat := fun i hi => by
    have := hρ _ hi
    simp only [BitVec.toNat_ofNat]
    omega
  induction h with
  | @size d i cs hi =>
    refine ⟨_, .size (i := BitVec.ofNat 64 (ρ i.toNat)) (by rw [key i hi]; exact hρ _ hi), fun vs vs' hv => ?_⟩
    simp only [Term.val, key i hi, hv _ hi]
  | @value d i cs hi =>
    refine ⟨_, .value (i := BitVec.ofNat 64 (ρ i.toNat)) (by rw [key i hi]; exact hρ _ hi), fun vs vs' hv => ?_⟩
    simp only [Term.val, key i hi, hv _ hi]
  | nat => exact ⟨_, .nat, fun _ _ _ => rfl⟩
  | integer => exact ⟨_, .integer, fun _ _ _ => rfl⟩
  | float => exact ⟨_, .float, fun _ _ _ => rfl⟩
  | add _ _ ih1 ih2 =>
    obtain ⟨a', ha, ea⟩ := ih1
    obtain ⟨b', hb, eb⟩ := ih2
    exact ⟨_, .add ha hb, fun vs vs' hv => by rw [Term.val, Term.val, ea vs vs' hv, eb vs vs' hv]⟩
  | sub _ _ ih1 ih2 =>
    obtain ⟨a', ha, ea⟩ := ih1
    obtain ⟨b', hb, eb⟩ := ih2
    exact ⟨_, .sub ha hb, fun vs vs' hv => by rw [Term.val, Term.val, ea vs vs' hv, eb vs vs' hv]⟩
  | mul _ _ ih1 ih2 =>
    obtain ⟨a', ha, ea⟩ := ih1
    obtain ⟨b', hb, eb⟩ := ih2
    exact ⟨_, .mul ha hb, fun vs vs' hv => by rw [Term.val, Term.val, ea vs vs' hv, eb vs vs' hv]⟩
  | div _ _ ih1 ih2 =>
    obtain ⟨a', ha, ea⟩ := ih1
    obtain ⟨b', hb, eb⟩ := ih2
    exact ⟨_, .div ha hb, fun vs vs' hv => by rw [Term.val, Term.val, ea vs vs' hv, eb vs vs' hv]⟩

/-- The formula holds for variables in the new order just as before. -/
def SameTruth {fs : FloatSys} (fl : VarInfo → fs.F) (n : Nat) (ρ : Nat → Nat) (f f' : Form) : Prop :=
  ∀ vs vs' : List VarInfo, (∀ i : Nat, i < n → vs'[ρ i]? = vs[i]?) → f'.holds fl vs' = f.holds fl vs

mutual
theorem readsForm_renamed {fs : FloatSys} (fl : VarInfo → fs.F) {n : Nat} {ρ : Nat → Nat} (hρ : ∀ i : Nat, i < n → ρ i < n)
    (hn : n ≤ 2 ^ 64) : ∀ {p : Pred} {f : Form}, ReadsForm n p f →
    ∃ f', ReadsForm n (p.renamed ρ) f' ∧ SameTruth fl n ρ f f'
  | _, _, .null => ⟨_, .null, fun _ _ _ => rfl⟩
  | _, _, .and h => by
    obtain ⟨f', h1, h2⟩ := readsConj_renamed fl hρ hn h
    exact ⟨f', .and h1, h2⟩
  | _, _, .or h => by
    obtain ⟨f', h1, h2⟩ := readsDisj_renamed fl hρ hn h
    exact ⟨f', .or h1, h2⟩
  | _, _, .not h => by
    obtain ⟨f', h1, h2⟩ := readsForm_renamed fl hρ hn h
    exact ⟨_, .not h1, fun vs vs' hv => by rw [Form.holds, Form.holds, h2 vs vs' hv]⟩
  | _, _, .distinct (i := i) (j := j) hi hj => by
    have key : ∀ i : U64, i.toNat < n → (BitVec.ofNat 64 (ρ i.toNat)).toNat = ρ i.toNat := fun i hi => by
      have := hρ _ hi
      simp only [BitVec.toNat_ofNat]
      omega
    refine ⟨_, .distinct (i := BitVec.ofNat 64 (ρ i.toNat)) (j := BitVec.ofNat 64 (ρ j.toNat))
      (by rw [key i hi]; exact hρ _ hi) (by rw [key j hj]; exact hρ _ hj), fun vs vs' hv => ?_⟩
    simp only [Form.holds, key i hi, key j hj, hv _ hi, hv _ hj]
  | _, _, .cmp (op := op) ha hb => by
    obtain ⟨a', ha', ea⟩ := readsTerm_renamed fl hρ hn ha
    obtain ⟨b', hb', eb⟩ := readsTerm_renamed fl hρ hn hb
    refine ⟨.cmp op a' b', ?_, fun vs vs' hv => by rw [Form.holds, Form.holds, ea vs vs' hv, eb vs vs' hv]⟩
    have := ReadsForm.cmp (op := op) (d := 0) ha' hb'
    cases op <;> exact .cmp (op := _) ha' hb'
theorem readsConj_renamed {fs : FloatSys} (fl : VarInfo → fs.F) {n : Nat} {ρ : Nat → Nat} (hρ : ∀ i : Nat, i < n → ρ i < n)
    (hn : n ≤ 2 ^ 64) : ∀ {ps : List Pred} {f : Form}, ReadsConj n ps f →
    ∃ f', ReadsConj n (Pred.renamedEach ρ ps) f' ∧ SameTruth fl n ρ f f'
  | _, _, .nil => ⟨_, .nil, fun _ _ _ => rfl⟩
  | _, _, .cons h1 h2 => by
    obtain ⟨f', hf, ef⟩ := readsForm_renamed fl hρ hn h1
    obtain ⟨g', hg, eg⟩ := readsConj_renamed fl hρ hn h2
    exact ⟨_, .cons hf hg, fun vs vs' hv => by rw [Form.holds, Form.holds, ef vs vs' hv, eg vs vs' hv]⟩
theorem readsDisj_renamed {fs : FloatSys} (fl : VarInfo → fs.F) {n : Nat} {ρ : Nat → Nat} (hρ : ∀ i : Nat, i < n → ρ i < n)
    (hn : n ≤ 2 ^ 64) : ∀ {ps : List Pred} {f : Form}, ReadsDisj n ps f →
    ∃ f', ReadsDisj n (Pred.renamedEach ρ ps) f' ∧ SameTruth fl n ρ f f'
  | _, _, .nil => ⟨_, .nil, fun _ _ _ => rfl⟩
  | _, _, .cons h1 h2 => by
    obtain ⟨f', hf, ef⟩ := readsForm_renamed fl hρ hn h1
    obtain ⟨g', hg, eg⟩ := readsDisj_renamed fl hρ hn h2
    exact ⟨_, .cons hf hg, fun vs vs' hv => by rw [Form.holds, Form.holds, ef vs vs' hv, eg vs vs' hv]⟩
end

/-! Orders -/

theorem range_self {α : Type} (l : List α) : (List.range l.length).filterMap (fun i => l[i]?) = l := by
  induction l with
  | nil => rfl
  | cons a l ih =>
    rw [List.length_cons, List.range_succ_eq_map, List.filterMap_cons, List.filterMap_map]
    simp only [List.getElem?_cons_zero]
    congr 1

theorem reorder_perm {α : Type} {order : List Nat} {l : List α} (h : order.Perm (List.range l.length)) :
    (reorder order l).Perm l := by
  have := h.filterMap fun i => l[i]?
  rw [range_self] at this
  exact this

theorem reorder_get {α : Type} : ∀ {order : List Nat} {l : List α}, (∀ i ∈ order, i < l.length) → ∀ j : Nat,
    (reorder order l)[j]? = (order[j]?).bind fun i => l[i]?
  | [], _, _, _ => rfl
  | i :: order, l, h, j => by
    have hi := h i (List.mem_cons_self ..)
    have ih := reorder_get (order := order) (l := l) fun k hk => h k (List.mem_cons_of_mem _ hk)
    have e : reorder (i :: order) l = l[i] :: reorder order l := by
      unfold reorder
      rw [List.filterMap_cons, List.getElem?_eq_getElem hi]
    rw [e]
    cases j with
    | zero => simp [List.getElem?_eq_getElem hi]
    | succ j => rw [List.getElem?_cons_succ, List.getElem?_cons_succ]; exact ih j

/-- What is used of an order of `n` things. -/
structure OrderOf (n : Nat) (order : List Nat) : Prop where
  length : order.length = n
  lt : ∀ i ∈ order, i < n
  pos : ∀ i : Nat, i < n → order.idxOf i < n ∧ order[order.idxOf i]? = some i
  nodup : order.Nodup

theorem orderOf {n : Nat} {order : List Nat} (h : order.Perm (List.range n)) : OrderOf n order := by
  refine ⟨by rw [h.length_eq, List.length_range], fun i hi => List.mem_range.mp (h.mem_iff.mp hi), fun i hi => ?_,
    h.symm.nodup List.nodup_range⟩
  have hm : i ∈ order := h.mem_iff.mpr (List.mem_range.mpr hi)
  have hl := List.idxOf_lt_length_of_mem hm
  refine ⟨by rw [h.length_eq, List.length_range] at hl; exact hl, ?_⟩
  rw [List.getElem?_eq_getElem hl, List.getElem_idxOf]

theorem OrderOf.back {n : Nat} {order : List Nat} (h : OrderOf n order) {α : Type} {l : List α} (hl : l.length = n) (i : Nat)
    (hi : i < n) : (reorder order l)[order.idxOf i]? = l[i]? := by
  rw [reorder_get (by rw [hl]; exact h.lt), (h.pos i hi).2]
  rfl

theorem OrderOf.reorder_length {n : Nat} {order : List Nat} (h : OrderOf n order) {α : Type} {l : List α} (hl : l.length = n) :
    (reorder order l).length = n := by
  have key : ∀ o : List Nat, (∀ i ∈ o, i < l.length) → (reorder o l).length = o.length := by
    intro o
    induction o with
    | nil => intro _; rfl
    | cons i o ih =>
      intro ho
      unfold reorder
      rw [List.filterMap_cons, List.getElem?_eq_getElem (ho i (List.mem_cons_self ..))]
      simp only [List.length_cons]
      rw [← ih fun k hk => ho k (List.mem_cons_of_mem _ hk)]
      rfl
  rw [key order (by rw [hl]; exact h.lt), h.length]

theorem OrderOf.inj {n : Nat} {order : List Nat} (h : OrderOf n order) {α : Type} {l l' : List α} (hl : l.length = n)
    (hl' : l'.length = n) (e : reorder order l = reorder order l') : l = l' := by
  refine List.ext_getElem? fun i => ?_
  rcases Nat.lt_or_ge i n with hi | hi
  · rw [← h.back hl i hi, ← h.back hl' i hi, e]
  · rw [List.getElem?_eq_none (by omega), List.getElem?_eq_none (by omega)]

/-- The order that undoes an order. -/
def backOrder (n : Nat) (order : List Nat) : List Nat := (List.range n).map fun i => order.idxOf i

theorem OrderOf.onto {n : Nat} {order : List Nat} (h : OrderOf n order) {α : Type} {l : List α} (hl : l.length = n) :
    (reorder (backOrder n order) l).length = n ∧ reorder order (reorder (backOrder n order) l) = l := by
  have hb : ∀ i ∈ backOrder n order, i < l.length := by
    intro i hi
    obtain ⟨k, hk, rfl⟩ := List.mem_map.mp hi
    rw [hl]
    exact (h.pos k (List.mem_range.mp hk)).1
  have hget := reorder_get hb
  have hlen : (reorder (backOrder n order) l).length = n := by
    apply Nat.le_antisymm
    · unfold reorder
      refine Nat.le_trans (List.length_filterMap_le ..) ?_
      simp [backOrder]
    · rcases Nat.lt_or_ge (reorder (backOrder n order) l).length n with hlt | hge
      · have h1 := hget (reorder (backOrder n order) l).length
        rw [List.getElem?_eq_none (Nat.le_refl _)] at h1
        have h2 := (h.pos _ hlt).1
        have h3 : (backOrder n order)[(reorder (backOrder n order) l).length]? =
            some (order.idxOf (reorder (backOrder n order) l).length) := by
          generalize (reorder (backOrder n order) l).length = k at hlt
          rw [backOrder, List.getElem?_map, List.getElem?_range hlt]
          rfl
        rw [h3] at h1
        rw [Option.bind_some] at h1

        rw [List.getElem?_eq_getElem (Nat.lt_of_lt_of_eq h2 hl.symm)] at h1
        cases h1
      · exact hge
  refine ⟨hlen, List.ext_getElem? fun j => ?_⟩
  rw [reorder_get (by rw [hlen]; exact h.lt)]
  rcases Nat.lt_or_ge j n with hj | hj
  · have hj' : j < order.length := by rw [h.length]; exact hj
    have hm := h.lt _ (List.getElem_mem hj')
    rw [List.getElem?_eq_getElem hj', Option.bind_some, hget, backOrder, List.getElem?_map, List.getElem?_range hm]
    simp only [Option.map_some, Option.bind_some]
    have hp := (h.pos _ hm).2
    rw [← List.getElem?_eq_getElem hj'] at hp
    rw [← (List.getElem?_inj hj' h.nodup).mp hp.symm]
  · rw [List.getElem?_eq_none (by rw [h.length]; exact hj), List.getElem?_eq_none (by rw [hl]; exact hj)]
    rfl

/-! Bindings -/

theorem isBinding_reorder {variables : List FreeVar} {order : List Nat} (h : OrderOf variables.length order)
    {vars : List VarInfo} {b : List Nat} (hl : b.length = variables.length) :
    IsBinding (reorder order variables) vars (reorder order b) ↔ IsBinding variables vars b := by
  unfold IsBinding
  rw [h.reorder_length hl, h.reorder_length rfl]
  constructor
  · rintro ⟨_, h2⟩
    refine ⟨hl, fun i fv k hi hk => ?_⟩
    have hn : i < variables.length := (List.getElem?_eq_some_iff.mp hi).1
    exact h2 (order.idxOf i) fv k (by rw [h.back rfl i hn]; exact hi) (by rw [h.back hl i hn]; exact hk)
  · rintro ⟨_, h2⟩
    refine ⟨rfl, fun j fv k hj hk => ?_⟩
    rw [reorder_get h.lt] at hj
    rw [reorder_get (by rw [hl]; exact h.lt)] at hk
    cases ho : order[j]? with
    | none => rw [ho] at hj; cases hj
    | some i =>
      rw [ho] at hj hk
      exact h2 i fv k hj hk

theorem boundVars_length {variables : List FreeVar} {vars : List VarInfo} {b : List Nat} (h : IsBinding variables vars b) :
    (boundVars vars b).length = variables.length := by
  rw [← h.1]
  have : ∀ b' : List Nat, (∀ k ∈ b', k < vars.length) → (boundVars vars b').length = b'.length := by
    intro b'
    induction b' with
    | nil => intro _; rfl
    | cons k b' ih =>
      intro hk
      unfold boundVars
      rw [List.filterMap_cons, List.getElem?_eq_getElem (hk k (List.mem_cons_self ..))]
      simp only [List.length_cons]
      rw [← ih fun i hi => hk i (List.mem_cons_of_mem _ hi)]
      rfl
  exact this b (binding_inrange h)

theorem boundVars_reorder {variables : List FreeVar} {order : List Nat} (h : OrderOf variables.length order)
    {vars : List VarInfo} {b : List Nat} (hb : IsBinding variables vars b) :
    boundVars vars (reorder order b) = reorder order (boundVars vars b) := by
  have hr := binding_inrange hb
  have hg : ∀ (b' : List Nat), (∀ k ∈ b', k < vars.length) → ∀ j : Nat, (boundVars vars b')[j]? = (b'[j]?).bind fun k => vars[k]? :=
    fun b' hb' j => reorder_get hb' j
  have hr' : ∀ k ∈ reorder order b, k < vars.length := fun k hk => by
    obtain ⟨i, _, hi⟩ := List.mem_filterMap.mp hk
    exact hr k (List.mem_of_getElem? hi)
  refine List.ext_getElem? fun j => ?_
  rw [hg _ hr', reorder_get (by rw [hb.1]; exact h.lt), reorder_get (by rw [boundVars_length hb]; exact h.lt)]
  cases order[j]? with
  | none => rfl
  | some i => simp only [Option.bind_some]; rw [hg _ hr]

theorem goodBindings_nodup {fs : FloatSys} (fl : VarInfo → fs.F) (variables : List FreeVar) (f : Form) (p : Point) :
    (goodBindings fl variables f p).Nodup := by
  have : (combos (variables.map fun fv => matchingVars fv p.vars)).Pairwise FirstFastest := by
    apply combos_ordered
    intro v hv
    obtain ⟨fv, _, rfl⟩ := List.mem_map.mp hv
    exact matchingVars_ordered fv p.vars
  refine (this.filter _).imp ?_
  rintro a b ⟨i, x, y, h1, h2, h3, _⟩ rfl
  rw [h1] at h2
  cases h2
  omega

theorem goodBindings_reorder {fs : FloatSys} (fl : VarInfo → fs.F) {variables : List FreeVar} {order : List Nat}
    (h : OrderOf variables.length order) {f f' : Form}
    (ht : SameTruth fl variables.length (fun i => order.idxOf i) f f') (p : Point) :
    (goodBindings fl (reorder order variables) f' p).Perm ((goodBindings fl variables f p).map (reorder order)) := by
  have hmem : ∀ (vs : List FreeVar) (g : Form) (b : List Nat), b ∈ goodBindings fl vs g p ↔
      IsBinding vs p.vars b ∧ g.holds fl (boundVars p.vars b) = true := by
    intro vs g b
    unfold goodBindings
    rw [List.mem_filter, mem_combos_matching]
  have htruth : ∀ b, IsBinding variables p.vars b →
      f'.holds fl (boundVars p.vars (reorder order b)) = f.holds fl (boundVars p.vars b) := by
    intro b hb
    rw [boundVars_reorder h hb]
    exact ht _ _ fun i hi => h.back (boundVars_length hb) i hi
  refine (List.perm_ext_iff_of_nodup (goodBindings_nodup fl _ f' p) ?_).mpr fun b' => ?_
  · unfold List.Nodup
    rw [List.pairwise_map]
    refine (goodBindings_nodup fl variables f p).imp_of_mem fun {a b} ha hb hne e => hne ?_
    exact h.inj ((hmem _ _ _).mp ha).1.1 ((hmem _ _ _).mp hb).1.1 e
  · rw [hmem, List.mem_map]
    constructor
    · rintro ⟨h1, h2⟩
      have hl : b'.length = variables.length := by rw [h1.1, h.reorder_length rfl]
      obtain ⟨g1, g2⟩ := h.onto hl
      refine ⟨_, (hmem _ _ _).mpr ?_, g2⟩
      rw [← g2] at h1 h2
      have hb := (isBinding_reorder h g1).mp h1
      exact ⟨hb, by rw [htruth _ hb] at h2; exact h2⟩
    · rintro ⟨b, hb, rfl⟩
      obtain ⟨h1, h2⟩ := (hmem _ _ _).mp hb
      exact ⟨(isBinding_reorder h h1.1).mpr h1, by rw [htruth _ h1]; exact h2⟩

/-! Answers -/

/-- The answer with its variables in another order. -/
def reorderAnswer (order : List Nat) (r : Point) : Point := { r with vars := reorder order r.vars }

theorem hardAt_reorder (fs : FloatSys) {variables : List FreeVar} {order : List Nat}
    (h : OrderOf variables.length order) {f f' : Form}
    (ht : SameTruth (lowFloat fs) variables.length (fun i => order.idxOf i) f f') (p : Point) :
    (hardAt fs (reorder order variables) f' p).Perm ((hardAt fs variables f p).map (reorderAnswer order)) := by
  rw [← good_hardAt, ← good_hardAt]
  refine ((goodBindings_reorder (lowFloat fs) h ht p).map _).trans ?_
  rw [List.map_map, List.map_map]
  refine .of_eq (List.map_congr_left fun b hb => ?_)
  have hb' : IsBinding variables p.vars b := by
    unfold goodBindings at hb
    rw [List.mem_filter, mem_combos_matching] at hb
    exact hb.1
  simp only [Function.comp_apply, resultOf, reorderAnswer, boundVars_reorder h hb']

theorem hardAt_length (fs : FloatSys) {variables : List FreeVar} {f : Form} {p r : Point}
    (hr : r ∈ hardAt fs variables f p) : r.vars.length = variables.length := by
  rw [← good_hardAt] at hr
  obtain ⟨b, hb, rfl⟩ := List.mem_map.mp hr
  unfold goodBindings at hb
  rw [List.mem_filter, mem_combos_matching] at hb
  exact boundVars_length hb.1

theorem bestOf_map (fs : FloatSys) (sf sf' : List Form) (g : Point → Point) (rs : List Point)
    (h : ∀ r ∈ rs, satCount (lowFloat fs) sf' (g r) = satCount (lowFloat fs) sf r) :
    bestOf fs sf' (rs.map g) = (bestOf fs sf rs).map g := by
  unfold bestOf
  rw [List.filter_map]
  congr 1
  refine List.filter_congr fun r hr => ?_
  simp only [Function.comp_apply]
  rw [decide_eq_decide]
  constructor
  · intro hm r' hr'
    have := hm (g r') (List.mem_map_of_mem hr')
    rwa [h r' hr', h r hr] at this
  · intro hm r' hr'
    obtain ⟨x, hx, rfl⟩ := List.mem_map.mp hr'
    rw [h x hx, h r hr]
    exact hm x hx

theorem satCount_forms {fs : FloatSys} (fl : VarInfo → fs.F) {α : Type} (F F' : α → Form) (r r' : Point) :
    ∀ l : List α, (∀ a ∈ l, (F' a).holds fl r'.vars = (F a).holds fl r.vars) →
      satCount fl (l.map F') r' = satCount fl (l.map F) r
  | [], _ => rfl
  | a :: l, h => by
    have ih := satCount_forms fl F F' r r' l fun b hb => h b (List.mem_cons_of_mem _ hb)
    unfold satCount at ih ⊢
    rw [List.map_cons, List.map_cons, List.countP_cons, List.countP_cons, ih, h a (List.mem_cons_self ..)]

end TraceDB
