import Verif.Spec.QueryRewrite
import Verif.Proofs.QueryDistinct
/-
Proofs about rewriting predicates.
-/
namespace TraceDB

theorem readsTerm_unique {n : Nat} {p : Pred} {a b : Term} (h : ReadsTerm n p a) (h' : ReadsTerm n p b) : a = b := by
  induction h generalizing b with
  | size => cases h'; rfl
  | value => cases h'; rfl
  | nat => cases h'; rfl
  | integer => cases h'; rfl
  | float => cases h'; rfl
  | add _ _ ih1 ih2 => cases h' with | add h1 h2 => rw [ih1 h1, ih2 h2]
  | sub _ _ ih1 ih2 => cases h' with | sub h1 h2 => rw [ih1 h1, ih2 h2]
  | mul _ _ ih1 ih2 => cases h' with | mul h1 h2 => rw [ih1 h1, ih2 h2]
  | div _ _ ih1 ih2 => cases h' with | div h1 h2 => rw [ih1 h1, ih2 h2]

/-- What can be read from an object of each kind. -/
theorem readsForm_inv {n : Nat} {k : PKind} {d : U64} {cs : List Pred} {f : Form} (h : ReadsForm n (.node k d cs) f) :
    (k = .null ∧ f = .tt) ∨ (k = .and ∧ ReadsConj n cs f) ∨ (k = .or ∧ ReadsDisj n cs f) ∨
    (k = .not ∧ ∃ c g, cs = [c] ∧ ReadsForm n c g ∧ f = .neg g) ∨
    (k = .distinctVars ∧ ∃ i j xs ys, cs = [.node .varReference i xs, .node .varReference j ys] ∧ f = .distinct i.toNat j.toNat) ∨
    (∃ op p q a b, k = Cmp.toKind op ∧ cs = [p, q] ∧ ReadsTerm n p a ∧ ReadsTerm n q b ∧ f = .cmp op a b) := by
  generalize e : Pred.node k d cs = x at h
  cases h with
  | null => cases e; exact .inl ⟨rfl, rfl⟩
  | and h => cases e; exact .inr (.inl ⟨rfl, h⟩)
  | or h => cases e; exact .inr (.inr (.inl ⟨rfl, h⟩))
  | not h => cases e; exact .inr (.inr (.inr (.inl ⟨rfl, _, _, rfl, h, rfl⟩)))
  | distinct _ _ => cases e; exact .inr (.inr (.inr (.inr (.inl ⟨rfl, _, _, _, _, rfl, rfl⟩))))
  | cmp ha hb => cases e; exact .inr (.inr (.inr (.inr (.inr ⟨_, _, _, _, _, rfl, rfl, ha, hb, rfl⟩))))

theorem readsForm_and {n : Nat} {d : U64} {cs : List Pred} {f : Form} (h : ReadsForm n (.node .and d cs) f) : ReadsConj n cs f := by
  rcases readsForm_inv h with ⟨e, _⟩ | ⟨_, h⟩ | ⟨e, _⟩ | ⟨e, _⟩ | ⟨e, _⟩ | ⟨op, _, _, _, _, e, _⟩
  · cases e
  · exact h
  · cases e
  · cases e
  · cases e
  · cases op <;> cases e

theorem readsForm_or {n : Nat} {d : U64} {cs : List Pred} {f : Form} (h : ReadsForm n (.node .or d cs) f) : ReadsDisj n cs f := by
  rcases readsForm_inv h with ⟨e, _⟩ | ⟨e, _⟩ | ⟨_, h⟩ | ⟨e, _⟩ | ⟨e, _⟩ | ⟨op, _, _, _, _, e, _⟩
  · cases e
  · cases e
  · exact h
  · cases e
  · cases e
  · cases op <;> cases e

theorem readsForm_not {n : Nat} {d : U64} {c : Pred} {f : Form} (h : ReadsForm n (.node .not d [c]) f) :
    ∃ g, ReadsForm n c g ∧ f = .neg g := by
  rcases readsForm_inv h with ⟨e, _⟩ | ⟨e, _⟩ | ⟨e, _⟩ | ⟨_, _, g, e, h1, h2⟩ | ⟨e, _⟩ | ⟨op, _, _, _, _, e, _⟩
  · cases e
  · cases e
  · cases e
  · cases e; exact ⟨g, h1, h2⟩
  · cases e
  · cases op <;> cases e

theorem readsForm_null {n : Nat} {d : U64} {cs : List Pred} {f : Form} (h : ReadsForm n (.node .null d cs) f) : f = .tt := by
  rcases readsForm_inv h with ⟨_, h⟩ | ⟨e, _⟩ | ⟨e, _⟩ | ⟨e, _⟩ | ⟨e, _⟩ | ⟨op, _, _, _, _, e, _⟩
  · exact h
  · cases e
  · cases e
  · cases e
  · cases e
  · cases op <;> cases e

theorem readsForm_distinct {n : Nat} {d i j : U64} {xs ys : List Pred} {f : Form}
    (h : ReadsForm n (.node .distinctVars d [.node .varReference i xs, .node .varReference j ys]) f) :
    f = .distinct i.toNat j.toNat := by
  rcases readsForm_inv h with ⟨e, _⟩ | ⟨e, _⟩ | ⟨e, _⟩ | ⟨e, _⟩ | ⟨_, _, _, _, _, e, h⟩ | ⟨op, _, _, _, _, e, _⟩
  · cases e
  · cases e
  · cases e
  · cases e
  · cases e; exact h
  · cases op <;> cases e

theorem readsForm_cmp {n : Nat} {op : Cmp} {d : U64} {p q : Pred} {f : Form} (h : ReadsForm n (.node op.toKind d [p, q]) f) :
    ∃ a b, ReadsTerm n p a ∧ ReadsTerm n q b ∧ f = .cmp op a b := by
  rcases readsForm_inv h with ⟨e, _⟩ | ⟨e, _⟩ | ⟨e, _⟩ | ⟨e, _⟩ | ⟨e, _⟩ | ⟨op', _, _, a, b, e, e', h1, h2, h3⟩
  · cases op <;> cases e
  · cases op <;> cases e
  · cases op <;> cases e
  · cases op <;> cases e
  · cases op <;> cases e
  · cases e'
    have : op = op' := by cases op <;> cases op' <;> first | rfl | cases e
    cases this
    exact ⟨a, b, h1, h2, h3⟩

mutual
theorem readsForm_unique {n : Nat} : ∀ {p : Pred} {f g : Form}, ReadsForm n p f → ReadsForm n p g → f = g
  | _, _, _, .null, h' => (readsForm_null h').symm
  | _, _, _, .and h, h' => readsConj_unique h (readsForm_and h')
  | _, _, _, .or h, h' => readsDisj_unique h (readsForm_or h')
  | _, _, _, .not h, h' => by
    obtain ⟨g, h1, rfl⟩ := readsForm_not h'
    rw [readsForm_unique h h1]
  | _, _, _, .distinct _ _, h' => (readsForm_distinct h').symm
  | _, _, _, .cmp ha hb, h' => by
    obtain ⟨a, b, h1, h2, rfl⟩ := readsForm_cmp h'
    rw [readsTerm_unique ha h1, readsTerm_unique hb h2]
theorem readsConj_unique {n : Nat} : ∀ {ps : List Pred} {f g : Form}, ReadsConj n ps f → ReadsConj n ps g → f = g
  | _, _, _, .nil, .nil => rfl
  | _, _, _, .cons h1 h2, .cons g1 g2 => by rw [readsForm_unique h1 g1, readsConj_unique h2 g2]
theorem readsDisj_unique {n : Nat} : ∀ {ps : List Pred} {f g : Form}, ReadsDisj n ps f → ReadsDisj n ps g → f = g
  | _, _, _, .nil, .nil => rfl
  | _, _, _, .cons h1 h2, .cons g1 g2 => by rw [readsForm_unique h1 g1, readsDisj_unique h2 g2]
end

/-- Whether a predicate about `n` variables holds. -/
noncomputable def truth (fs : FloatSys) (n : Nat) (p : Pred) (vs : List VarInfo) : Bool := (formOf n p).holds (lowFloat fs) vs

theorem truth_reads {fs : FloatSys} {n : Nat} {p : Pred} {f : Form} (h : ReadsForm n p f) (vs : List VarInfo) :
    truth fs n p vs = f.holds (lowFloat fs) vs := by
  unfold truth
  rw [readsForm_unique (formOf_reads ⟨f, h⟩) h]

theorem conj_reads {fs : FloatSys} {n : Nat} : ∀ {ps : List Pred}, (∀ p ∈ ps, WellFormed n p) →
    ∃ f, ReadsConj n ps f ∧ ∀ vs, f.holds (lowFloat fs) vs = ps.all fun p => truth fs n p vs
  | [], _ => ⟨_, .nil, fun _ => rfl⟩
  | p :: ps, h => by
    obtain ⟨f, hf, ef⟩ := conj_reads (fs := fs) (ps := ps) fun q hq => h q (List.mem_cons_of_mem _ hq)
    exact ⟨_, .cons (formOf_reads (h p (List.mem_cons_self ..))) hf, fun vs => by rw [Form.holds, ef, List.all_cons]; rfl⟩

theorem disj_reads {fs : FloatSys} {n : Nat} : ∀ {ps : List Pred}, (∀ p ∈ ps, WellFormed n p) →
    ∃ f, ReadsDisj n ps f ∧ ∀ vs, f.holds (lowFloat fs) vs = ps.any fun p => truth fs n p vs
  | [], _ => ⟨_, .nil, fun _ => rfl⟩
  | p :: ps, h => by
    obtain ⟨f, hf, ef⟩ := disj_reads (fs := fs) (ps := ps) fun q hq => h q (List.mem_cons_of_mem _ hq)
    exact ⟨_, .cons (formOf_reads (h p (List.mem_cons_self ..))) hf, fun vs => by rw [Form.holds, ef, List.any_cons]; rfl⟩

theorem conj_wf {n : Nat} : ∀ {ps : List Pred} {f : Form}, ReadsConj n ps f → ∀ p ∈ ps, WellFormed n p
  | _, _, .nil, _, hp => by cases hp
  | _, _, .cons h1 h2, p, hp => by
    rcases List.mem_cons.mp hp with rfl | hp
    · exact ⟨_, h1⟩
    · exact conj_wf h2 p hp

theorem disj_wf {n : Nat} : ∀ {ps : List Pred} {f : Form}, ReadsDisj n ps f → ∀ p ∈ ps, WellFormed n p
  | _, _, .nil, _, hp => by cases hp
  | _, _, .cons h1 h2, p, hp => by
    rcases List.mem_cons.mp hp with rfl | hp
    · exact ⟨_, h1⟩
    · exact disj_wf h2 p hp

theorem wf_and {n : Nat} {d : U64} {ps : List Pred} : WellFormed n (.node .and d ps) ↔ ∀ p ∈ ps, WellFormed n p :=
  ⟨fun ⟨_, h⟩ => conj_wf (readsForm_and h), fun h => by
    obtain ⟨f, hf, _⟩ := conj_reads (fs := ⟨Unit, fun _ => (), fun _ => (), fun _ => (), fun _ _ => (), fun _ _ => (), fun _ _ => (),
      fun _ _ => (), fun _ _ => true, fun _ _ => true, fun _ _ => true, fun _ _ => true, fun _ _ => true, fun _ => true⟩) h
    exact ⟨f, .and hf⟩⟩

theorem wf_or {n : Nat} {d : U64} {ps : List Pred} : WellFormed n (.node .or d ps) ↔ ∀ p ∈ ps, WellFormed n p :=
  ⟨fun ⟨_, h⟩ => disj_wf (readsForm_or h), fun h => by
    obtain ⟨f, hf, _⟩ := disj_reads (fs := ⟨Unit, fun _ => (), fun _ => (), fun _ => (), fun _ _ => (), fun _ _ => (), fun _ _ => (),
      fun _ _ => (), fun _ _ => true, fun _ _ => true, fun _ _ => true, fun _ _ => true, fun _ _ => true, fun _ => true⟩) h
    exact ⟨f, .or hf⟩⟩

theorem wf_not {n : Nat} {d : U64} {p : Pred} : WellFormed n (.node .not d [p]) ↔ WellFormed n p :=
  ⟨fun ⟨_, h⟩ => (readsForm_not h).elim fun g hg => ⟨g, hg.1⟩, fun ⟨_, h⟩ => ⟨_, .not h⟩⟩

theorem wf_null {n : Nat} {d : U64} {cs : List Pred} : WellFormed n (.node .null d cs) := ⟨_, .null⟩

theorem truth_and {fs : FloatSys} {n : Nat} {d : U64} {ps : List Pred} (h : ∀ p ∈ ps, WellFormed n p) (vs : List VarInfo) :
    truth fs n (.node .and d ps) vs = ps.all fun p => truth fs n p vs := by
  obtain ⟨f, hf, ef⟩ := conj_reads (fs := fs) h
  rw [truth_reads (.and hf), ef]

theorem truth_or {fs : FloatSys} {n : Nat} {d : U64} {ps : List Pred} (h : ∀ p ∈ ps, WellFormed n p) (vs : List VarInfo) :
    truth fs n (.node .or d ps) vs = ps.any fun p => truth fs n p vs := by
  obtain ⟨f, hf, ef⟩ := disj_reads (fs := fs) h
  rw [truth_reads (.or hf), ef]

theorem truth_not {fs : FloatSys} {n : Nat} {d : U64} {p : Pred} (h : WellFormed n p) (vs : List VarInfo) :
    truth fs n (.node .not d [p]) vs = !truth fs n p vs := by
  rw [truth_reads (.not (formOf_reads h))]
  rfl

theorem truth_null {fs : FloatSys} {n : Nat} {d : U64} {cs : List Pred} (vs : List VarInfo) :
    truth fs n (.node .null d cs) vs = true := by
  rw [truth_reads .null]
  rfl

theorem holds_mirror {fs : FloatSys} (hm : Mirrored fs) (op : Cmp) (a b : Option (Num fs)) : op.mirror.holds b a = op.holds a b := by
  rcases a with _ | ⟨x⟩ | ⟨x⟩ <;> rcases b with _ | ⟨y⟩ | ⟨y⟩ <;> cases op <;>
    simp only [Cmp.holds, Cmp.mirror, Cmp.onInt, Cmp.onReal, hm.gt, hm.ge, GT.gt, GE.ge] <;>
    first | rfl | exact hm.eq _ _ | exact decide_eq_decide.mpr eq_comm

theorem holds_atMost {fs : FloatSys} (hm : Mirrored fs) (a b : Option (Num fs)) :
    Cmp.holds .le a b = (Cmp.holds .lt a b || Cmp.holds .eq a b) := by
  rcases a with _ | ⟨x⟩ | ⟨x⟩ <;> rcases b with _ | ⟨y⟩ | ⟨y⟩ <;>
    simp only [Cmp.holds, Cmp.onInt, Cmp.onReal, hm.le, Bool.or_self]
  rw [Bool.eq_iff_iff]
  simp only [Bool.or_eq_true, decide_eq_true_eq]
  omega

/-- Well-formed at the same time and then true for the same variables. -/
def Agree (fs : FloatSys) (n : Nat) (p q : Pred) : Prop :=
  (WellFormed n p ↔ WellFormed n q) ∧ (WellFormed n p → ∀ vs, truth fs n p vs = truth fs n q vs)

theorem wf_cmp {n : Nat} {op : Cmp} {d : U64} {p q : Pred} :
    WellFormed n (.node op.toKind d [p, q]) ↔ (∃ a, ReadsTerm n p a) ∧ ∃ b, ReadsTerm n q b :=
  ⟨fun ⟨_, h⟩ => by obtain ⟨a, b, h1, h2, _⟩ := readsForm_cmp h; exact ⟨⟨a, h1⟩, ⟨b, h2⟩⟩,
    fun ⟨⟨_, h1⟩, ⟨_, h2⟩⟩ => ⟨_, .cmp h1 h2⟩⟩

theorem any_same {α : Type} {f g : α → Bool} : ∀ {l : List α}, (∀ x ∈ l, f x = g x) → l.any f = l.any g
  | [], _ => rfl
  | a :: l, h => by
    rw [List.any_cons, List.any_cons, h a (List.mem_cons_self ..), any_same fun x hx => h x (List.mem_cons_of_mem _ hx)]

theorem all_same {α : Type} {f g : α → Bool} : ∀ {l : List α}, (∀ x ∈ l, f x = g x) → l.all f = l.all g
  | [], _ => rfl
  | a :: l, h => by
    rw [List.all_cons, List.all_cons, h a (List.mem_cons_self ..), all_same fun x hx => h x (List.mem_cons_of_mem _ hx)]

theorem and_any {α : Type} (b : Bool) (f : α → Bool) (l : List α) : (b && l.any f) = l.any fun x => b && f x := by
  cases b <;> simp

theorem or_all {α : Type} (b : Bool) (f : α → Bool) (l : List α) : (b || l.all f) = l.all fun x => b || f x := by
  cases b <;> simp

theorem equivalent_agree {fs : FloatSys} {n : Nat} {p q : Pred} (h : Equivalent fs n p q) : Agree fs n p q := by
  induction h with
  | refl => exact ⟨Iff.rfl, fun _ _ => rfl⟩
  | symm _ ih => exact ⟨ih.1.symm, fun h vs => (ih.2 (ih.1.mpr h) vs).symm⟩
  | trans _ _ ih1 ih2 => exact ⟨ih1.1.trans ih2.1, fun h vs => (ih1.2 h vs).trans (ih2.2 (ih1.1.mp h) vs)⟩
  | inNot _ ih =>
    refine ⟨by rw [wf_not, wf_not, ih.1], fun h vs => ?_⟩
    rw [wf_not] at h
    rw [truth_not h, truth_not (ih.1.mp h), ih.2 h]
  | inAnd _ ih =>
    refine ⟨by simp only [wf_and, List.forall_mem_append, List.forall_mem_cons, ih.1], fun h vs => ?_⟩
    have h' := wf_and.mp h
    simp only [List.forall_mem_append, List.forall_mem_cons] at h'
    rw [truth_and (wf_and.mp h), truth_and (by simp only [List.forall_mem_append, List.forall_mem_cons, ← ih.1]; exact h')]
    simp only [List.all_append, List.all_cons, ih.2 h'.2.1]
  | inOr _ ih =>
    refine ⟨by simp only [wf_or, List.forall_mem_append, List.forall_mem_cons, ih.1], fun h vs => ?_⟩
    have h' := wf_or.mp h
    simp only [List.forall_mem_append, List.forall_mem_cons] at h'
    rw [truth_or (wf_or.mp h), truth_or (by simp only [List.forall_mem_append, List.forall_mem_cons, ← ih.1]; exact h')]
    simp only [List.any_append, List.any_cons, ih.2 h'.2.1]
  | permAnd hp =>
    refine ⟨by simp only [wf_and, hp.mem_iff], fun h vs => ?_⟩
    rw [wf_and] at h
    rw [truth_and h, truth_and fun p hm => h p (hp.mem_iff.mpr hm), hp.all_eq]
  | permOr hp =>
    refine ⟨by simp only [wf_or, hp.mem_iff], fun h vs => ?_⟩
    rw [wf_or] at h
    rw [truth_or h, truth_or fun p hm => h p (hp.mem_iff.mpr hm), hp.any_eq]
  | twiceAnd =>
    refine ⟨by simp only [wf_and, List.forall_mem_cons, and_self_left], fun h vs => ?_⟩
    rw [wf_and] at h
    rw [truth_and h, truth_and fun p hm => h p (List.mem_cons_of_mem _ hm)]
    simp only [List.all_cons, Bool.and_self_left]
  | twiceOr =>
    refine ⟨by simp only [wf_or, List.forall_mem_cons, and_self_left], fun h vs => ?_⟩
    rw [wf_or] at h
    rw [truth_or h, truth_or fun p hm => h p (List.mem_cons_of_mem _ hm)]
    simp only [List.any_cons, Bool.or_self_left]
  | nestAnd =>
    refine ⟨by simp only [wf_and, List.forall_mem_cons, List.forall_mem_append], fun h vs => ?_⟩
    have h' := wf_and.mp h
    simp only [List.forall_mem_cons] at h'
    rw [truth_and (wf_and.mp h), truth_and (List.forall_mem_append.mpr ⟨wf_and.mp h'.1, h'.2⟩), List.all_cons,
      truth_and (wf_and.mp h'.1), List.all_append]
  | nestOr =>
    refine ⟨by simp only [wf_or, List.forall_mem_cons, List.forall_mem_append], fun h vs => ?_⟩
    have h' := wf_or.mp h
    simp only [List.forall_mem_cons] at h'
    rw [truth_or (wf_or.mp h), truth_or (List.forall_mem_append.mpr ⟨wf_or.mp h'.1, h'.2⟩), List.any_cons,
      truth_or (wf_or.mp h'.1), List.any_append]
  | oneAnd =>
    refine ⟨by simp [wf_and], fun h vs => ?_⟩
    rw [truth_and (wf_and.mp h)]
    simp
  | oneOr =>
    refine ⟨by simp [wf_or], fun h vs => ?_⟩
    rw [truth_or (wf_or.mp h)]
    simp
  | noAnd =>
    refine ⟨by simp [wf_and, wf_null], fun h vs => ?_⟩
    rw [truth_and (wf_and.mp h), truth_null]
    rfl
  | notNot =>
    refine ⟨by rw [wf_not, wf_not], fun h vs => ?_⟩
    have h1 := wf_not.mp h
    rw [truth_not h1, truth_not (wf_not.mp h1), Bool.not_not]
  | notAnd =>
    refine ⟨by simp [wf_not, wf_and, wf_or], fun h vs => ?_⟩
    have h1 := wf_not.mp h
    have h2 := wf_and.mp h1
    rw [truth_not h1, truth_and h2, truth_or (by simpa [wf_not] using h2), List.any_map, List.not_all_eq_any_not]
    exact any_same fun x hx => by simp only [Function.comp_apply]; rw [truth_not (h2 x hx)]
  | notOr =>
    refine ⟨by simp [wf_not, wf_and, wf_or], fun h vs => ?_⟩
    have h1 := wf_not.mp h
    have h2 := wf_or.mp h1
    rw [truth_not h1, truth_or h2, truth_and (by simpa [wf_not] using h2), List.all_map, List.not_any_eq_all_not]
    exact all_same fun x hx => by simp only [Function.comp_apply]; rw [truth_not (h2 x hx)]
  | contradiction hp =>
    refine ⟨by simp [wf_and, wf_not, wf_or, hp], fun h vs => ?_⟩
    rw [truth_and (wf_and.mp h), truth_or (by simp)]
    simp [truth_not hp]
  | distribute =>
    refine ⟨by simp [wf_and, wf_or]; exact ⟨fun ⟨h1, h2, h3⟩ => ⟨⟨h1, h2⟩, fun x hx => ⟨h1, h3 x hx⟩⟩, fun ⟨⟨h1, h2⟩, h3⟩ => ⟨h1, h2, fun x hx => (h3 x hx).2⟩⟩,
      fun h vs => ?_⟩
    have h1 := wf_and.mp h
    simp only [List.forall_mem_cons] at h1
    have hp := h1.1
    have hx := wf_or.mp h1.2.1
    rw [truth_and (wf_and.mp h)]
    simp only [List.all_cons, List.all_nil, Bool.and_true]
    rw [truth_or hx, and_any, truth_or fun x hm => ?_, List.any_map]
    · refine any_same fun x hm => ?_
      simp only [Function.comp_apply]
      rw [truth_and (by simp [hp, hx x hm])]
      simp
    · obtain ⟨y, hy, rfl⟩ := List.mem_map.mp hm
      exact wf_and.mpr (by simp [hp, hx y hy])
  | distributeOr =>
    refine ⟨by simp [wf_and, wf_or]; exact ⟨fun ⟨h1, h2, h3⟩ => ⟨⟨h1, h2⟩, fun x hx => ⟨h1, h3 x hx⟩⟩, fun ⟨⟨h1, h2⟩, h3⟩ => ⟨h1, h2, fun x hx => (h3 x hx).2⟩⟩,
      fun h vs => ?_⟩
    have h1 := wf_or.mp h
    simp only [List.forall_mem_cons] at h1
    have hp := h1.1
    have hx := wf_and.mp h1.2.1
    rw [truth_or (wf_or.mp h)]
    simp only [List.any_cons, List.any_nil, Bool.or_false]
    rw [truth_and hx, or_all, truth_and fun x hm => ?_, List.all_map]
    · refine all_same fun x hm => ?_
      simp only [Function.comp_apply]
      rw [truth_or (by simp [hp, hx x hm])]
      simp
    · obtain ⟨y, hy, rfl⟩ := List.mem_map.mp hm
      exact wf_or.mpr (by simp [hp, hx y hy])
  | absorb hq =>
    refine ⟨by simp [wf_and, wf_or, hq], fun h vs => ?_⟩
    have h1 := wf_and.mp h
    have hp := h1 _ (List.mem_cons_self ..)
    rw [truth_and h1]
    simp only [List.all_cons, List.all_nil, Bool.and_true]
    rw [truth_or (by simp [hp, hq])]
    simp only [List.any_cons, List.any_nil, Bool.or_false]
    cases truth fs n _ vs <;> rfl
  | absorbOr hq =>
    refine ⟨by simp [wf_and, wf_or, hq], fun h vs => ?_⟩
    have h1 := wf_or.mp h
    have hp := h1 _ (List.mem_cons_self ..)
    rw [truth_or h1]
    simp only [List.any_cons, List.any_nil, Bool.or_false]
    rw [truth_and (by simp [hp, hq])]
    simp only [List.all_cons, List.all_nil, Bool.and_true]
    cases truth fs n _ vs <;> rfl
  | mirror hm =>
    refine ⟨by rw [wf_cmp, wf_cmp, and_comm], fun h vs => ?_⟩
    obtain ⟨⟨a, ha⟩, ⟨b, hb⟩⟩ := wf_cmp.mp h
    rw [truth_reads (.cmp ha hb), truth_reads (.cmp hb ha), Form.holds, Form.holds, holds_mirror hm]
  | atMost hm =>
    have w : ∀ (op : Cmp) d p q, WellFormed n (.node op.toKind d [p, q]) ↔ (∃ a, ReadsTerm n p a) ∧ ∃ b, ReadsTerm n q b :=
      fun _ _ _ _ => wf_cmp
    have w1 := w .le
    have w2 := w .lt
    have w3 := w .eq
    simp only [Cmp.toKind] at w1 w2 w3
    refine ⟨by simp [wf_or, w1, w2, w3], fun h vs => ?_⟩
    obtain ⟨⟨a, ha⟩, ⟨b, hb⟩⟩ := (w1 _ _ _).mp h
    have r1 := fun d => ReadsForm.cmp (op := .le) (d := d) ha hb
    have r2 := fun d => ReadsForm.cmp (op := .lt) (d := d) ha hb
    have r3 := fun d => ReadsForm.cmp (op := .eq) (d := d) ha hb
    simp only [Cmp.toKind] at r1 r2 r3
    rw [truth_reads (r1 _), truth_reads (.or (.cons (r2 _) (.cons (r3 _) .nil)))]
    simp only [Form.holds, Bool.or_false]
    exact holds_atMost hm _ _

theorem equivalentEach_wf {fs : FloatSys} {n : Nat} {ps qs : List Pred} (h : EquivalentEach fs n ps qs)
    (hp : ∀ p ∈ ps, WellFormed n p) : ∀ q ∈ qs, WellFormed n q := by
  induction h with
  | nil => exact hp
  | cons h _ ih =>
    rw [List.forall_mem_cons] at hp ⊢
    exact ⟨(equivalent_agree h).1.mp hp.1, ih hp.2⟩

theorem equivalentEach_count {fs : FloatSys} {n : Nat} {ps qs : List Pred} (h : EquivalentEach fs n ps qs)
    (hp : ∀ p ∈ ps, WellFormed n p) (r : Point) :
    satCount (lowFloat fs) (qs.map (formOf n)) r = satCount (lowFloat fs) (ps.map (formOf n)) r := by
  induction h with
  | nil => rfl
  | cons h _ ih =>
    rw [List.forall_mem_cons] at hp
    have e := (equivalent_agree h).2 hp.1 r.vars
    have ih := ih hp.2
    unfold truth at e
    unfold satCount at ih ⊢
    rw [List.map_cons, List.map_cons, List.countP_cons, List.countP_cons, ih, e]

theorem answersTo_equivalent (fs : FloatSys) (env : Env) (pick : U32 → Nat → Nat) (t : Trace) (variables : List FreeVar)
    (h : Askable env t variables) (p q : Pred) (hp : WellFormed variables.length p) (hpq : Equivalent fs variables.length p q)
    (soft soft' : List Pred) (hs : ∀ q ∈ soft, WellFormed variables.length q)
    (hss : EquivalentEach fs variables.length soft soft') (mask stmt : U64) :
    ∃ rs, answersTo fs env pick t variables true p soft mask stmt = .ok rs ∧
      answersTo fs env pick t variables true q soft' mask stmt = .ok rs := by
  have hq := (equivalent_agree hpq).1.mp hp
  have hs' := equivalentEach_wf hss hs
  refine ⟨_, answersTo_soft fs env pick t variables h p _ (formOf_reads hp) soft _ (by simp) (formsOf_read hs) mask stmt, ?_⟩
  rw [answersTo_soft fs env pick t variables h q _ (formOf_reads hq) soft' _ (by simp) (formsOf_read hs') mask stmt]
  congr 1
  refine flatMap_same fun x _ => ?_
  rw [bestAt_eq, bestAt_eq]
  have e : hardAt fs variables (formOf variables.length q) x = hardAt fs variables (formOf variables.length p) x :=
    List.filter_congr fun r _ => ((equivalent_agree hpq).2 hp r.vars).symm
  rw [e]
  unfold bestOf
  simp only [equivalentEach_count hss hs]

end TraceDB
