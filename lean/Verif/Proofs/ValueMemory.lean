import Verif.Spec.ValueMemory
/-
The memory of predicate values: evaluation with memory follows evaluation without.
-/
namespace TraceDB

variable {fs : FloatSys}

theorem PvMem.at_lt {m : PvMem fs} {a : Nat} {c : PvCell fs} (h : m.at a = some c) : a < m.cells.length := by
  unfold PvMem.at at h
  rcases Nat.lt_or_ge a m.cells.length with h' | h'
  · exact h'
  · rw [List.getElem?_eq_none h'] at h
    cases h

theorem PvMem.at_cells {m : PvMem fs} {a : Nat} {c : PvCell fs} (h : m.at a = some c) : m.cells[a]? = some (some c) := by
  unfold PvMem.at at h
  cases hc : m.cells[a]? with
  | none => rw [hc] at h; cases h
  | some x => rw [hc] at h; simp at h; rw [h]

theorem PvMem.at_alloc (m : PvMem fs) (c : PvCell fs) (a : Nat) :
    (m.alloc c).2.at a = if a = m.cells.length then some c else m.at a := by
  unfold PvMem.at PvMem.alloc
  simp only [List.getElem?_append]
  by_cases h : a < m.cells.length
  · rw [if_pos h, if_neg (by omega)]
  · rw [if_neg h]
    by_cases h' : a = m.cells.length
    · subst h'
      simp
    · rw [if_neg h', List.getElem?_eq_none (by simp; omega), List.getElem?_eq_none (by omega)]

theorem PvMem.at_set (m : PvMem fs) (a b : Nat) :
    PvMem.at { m with cells := m.cells.set a none } b = if b = a then none else m.at b := by
  unfold PvMem.at
  simp only [List.getElem?_set]
  by_cases h : b = a
  · subst h
    rw [if_pos rfl, if_pos rfl]
    split <;> rfl
  · rw [if_neg (fun e => h e.symm), if_neg h]

/-- The object stands for the value. -/
def PvObj.Rep (o : PvObj) (m : PvMem fs) : PVal fs → Prop
  | .invalid => o = ⟨false, true, none⟩
  | .int i => ∃ a, o = ⟨true, true, some a⟩ ∧ m.at a = some (.int i)
  | .flt x => ∃ a, o = ⟨true, false, some a⟩ ∧ m.at a = some (.flt x)

/-- From `m` to `m'` an object was made that stands for the value, and nothing else was
left behind or changed. -/
structure PvMade (m : PvMem fs) (o : PvObj) (m' : PvMem fs) (v : PVal fs) : Prop where
  grows : m.cells.length ≤ m'.cells.length
  keep : ∀ a, o.ptr ≠ some a → m'.at a = m.at a
  fresh : ∀ a, o.ptr = some a → m.cells.length ≤ a
  rep : o.Rep m' v

theorem PvObj.Rep.lt {o : PvObj} {m : PvMem fs} {v : PVal fs} (h : o.Rep m v) {a : Nat} (ha : o.ptr = some a) :
    a < m.cells.length := by
  cases v with
  | invalid => rw [show o = _ from h] at ha; cases ha
  | int i => obtain ⟨b, rfl, hb⟩ := h; cases ha; exact PvMem.at_lt hb
  | flt x => obtain ⟨b, rfl, hb⟩ := h; cases ha; exact PvMem.at_lt hb

theorem PvObj.Rep.of_at {o : PvObj} {m m' : PvMem fs} {v : PVal fs} (h : o.Rep m v)
    (hat : ∀ a, o.ptr = some a → m'.at a = m.at a) : o.Rep m' v := by
  cases v with
  | invalid => exact h
  | int i => obtain ⟨b, rfl, hb⟩ := h; exact ⟨b, rfl, (hat b rfl).trans hb⟩
  | flt x => obtain ⟨b, rfl, hb⟩ := h; exact ⟨b, rfl, (hat b rfl).trans hb⟩

theorem pvMake_made (m : PvMem fs) (v : PVal fs) : PvMade m (m.make v).1 (m.make v).2 v := by
  have key : ∀ c : PvCell fs, m.cells.length ≤ (m.alloc c).2.cells.length ∧
      (∀ a, m.cells.length ≠ a → (m.alloc c).2.at a = m.at a) ∧ (m.alloc c).2.at m.cells.length = some c := by
    intro c
    refine ⟨by simp [PvMem.alloc], fun a ha => ?_, ?_⟩
    · rw [PvMem.at_alloc, if_neg (fun e => ha e.symm)]
    · rw [PvMem.at_alloc, if_pos rfl]
  cases v with
  | invalid => exact ⟨Nat.le_refl _, fun _ _ => rfl, fun a ha => (by cases ha), rfl⟩
  | int i =>
    obtain ⟨k1, k2, k3⟩ := key (.int i)
    exact ⟨k1, fun a ha => k2 a (fun e => ha (by rw [← e]; rfl)), fun a ha => by cases ha; exact Nat.le_refl _, _, rfl, k3⟩
  | flt x =>
    obtain ⟨k1, k2, k3⟩ := key (.flt x)
    exact ⟨k1, fun a ha => k2 a (fun e => ha (by rw [← e]; rfl)), fun a ha => by cases ha; exact Nat.le_refl _, _, rfl, k3⟩

theorem pvDestroy_rep {o : PvObj} {m : PvMem fs} {v : PVal fs} (h : o.Rep m v) :
    ∃ m', m.destroy o = .ok m' ∧ m'.cells.length = m.cells.length ∧
      ∀ b, m'.at b = if o.ptr = some b then none else m.at b := by
  cases v with
  | invalid =>
    rw [show o = _ from h]
    exact ⟨m, rfl, rfl, fun b => by simp⟩
  | int i =>
    obtain ⟨a, rfl, ha⟩ := h
    refine ⟨{ m with cells := m.cells.set a none }, by simp only [PvMem.destroy, PvMem.at_cells ha, if_true], by simp, fun b => ?_⟩
    rw [PvMem.at_set]
    by_cases hb : b = a
    · rw [if_pos hb, if_pos (by rw [hb])]
    · rw [if_neg hb, if_neg (by simpa using fun e => hb e.symm)]
  | flt x =>
    obtain ⟨a, rfl, ha⟩ := h
    refine ⟨{ m with cells := m.cells.set a none }, by simp only [PvMem.destroy, PvMem.at_cells ha, Bool.false_eq_true, if_false],
      by simp, fun b => ?_⟩
    rw [PvMem.at_set]
    by_cases hb : b = a
    · rw [if_pos hb, if_pos (by rw [hb])]
    · rw [if_neg hb, if_neg (by simpa using fun e => hb e.symm)]

theorem pvCopy_rep {o : PvObj} {m : PvMem fs} {v : PVal fs} (h : o.Rep m v) :
    (v = .invalid ∧ m.copy o = .ub .nullDeref) ∨
    (v ≠ .invalid ∧ m.copy o = .ok (m.make v)) := by
  cases v with
  | invalid =>
    rw [show o = _ from h]
    exact .inl ⟨rfl, rfl⟩
  | int i =>
    obtain ⟨a, rfl, ha⟩ := h
    refine .inr ⟨by simp, ?_⟩
    simp [PvMem.copy, PvMem.readInt, PvMem.deref, PvMem.at_cells ha, PvMem.make]
  | flt x =>
    obtain ⟨a, rfl, ha⟩ := h
    refine .inr ⟨by simp, ?_⟩
    simp [PvMem.copy, PvMem.readFloat, PvMem.deref, PvMem.at_cells ha, PvMem.make]

theorem pvCopies_made {m : PvMem fs} {v : PVal fs} : ∀ (n : Nat) {o : PvObj} {m' : PvMem fs}, PvMade m o m' v →
    (v = .invalid ∧ n ≠ 0 ∧ PvMem.copies n o m' = .ub .nullDeref) ∨
    ((v ≠ .invalid ∨ n = 0) ∧ ∃ r, PvMem.copies n o m' = .ok r ∧ PvMade m r.1 r.2 v) := by
  intro n
  induction n with
  | zero => exact fun h => .inr ⟨.inr rfl, _, rfl, h⟩
  | succ n ih =>
    intro o m' h
    rcases pvCopy_rep h.rep with ⟨hv, hc⟩ | ⟨hv, hc⟩
    · exact .inl ⟨hv, by simp, by simp [PvMem.copies, hc]⟩
    · have hm := pvMake_made m' v
      have hne : ∀ a, o.ptr = some a → (m'.make v).1.ptr ≠ some a := fun a ha e => by
        have := hm.fresh a e
        have := h.rep.lt ha
        omega
      have hrep : o.Rep (m'.make v).2 v := h.rep.of_at fun a ha => hm.keep a (hne a ha)
      obtain ⟨m3, d1, d2, d3⟩ := pvDestroy_rep hrep
      have hmade : PvMade m (m'.make v).1 m3 v := by
        have hg := h.grows
        have hg' := hm.grows
        refine ⟨by omega, fun a ha => ?_, fun a ha => by have := hm.fresh a ha; omega, ?_⟩
        · rw [d3]
          by_cases hoa : o.ptr = some a
          · rw [if_pos hoa]
            have := h.fresh a hoa
            unfold PvMem.at
            rw [List.getElem?_eq_none this]
            rfl
          · rw [if_neg hoa, hm.keep a ha, h.keep a hoa]
        · refine hm.rep.of_at fun a ha => ?_
          rw [d3, if_neg (fun e => hne a e ha)]
      have e : PvMem.copies (n + 1) o m' = PvMem.copies n (m'.make v).1 m3 := by
        simp [PvMem.copies, hc, d1]
      rw [e]
      rcases ih hmade with ⟨h1, _, _⟩ | ⟨_, r, h2, h3⟩
      · exact absurd h1 hv
      · exact .inr ⟨.inl hv, r, h2, h3⟩

theorem pvHandOver_made {m : PvMem fs} {v : PVal fs} (elide : Nat → Nat) {o : PvObj} {m' : PvMem fs} (h : PvMade m o m' v) :
    (v = .invalid ∧ elide m'.moves ≠ 0 ∧ PvMem.handOver elide o m' = .ub .nullDeref) ∨
    ((v ≠ .invalid ∨ elide m'.moves = 0) ∧ ∃ r, PvMem.handOver elide o m' = .ok r ∧ PvMade m r.1 r.2 v) :=
  pvCopies_made (elide m'.moves) (m' := { m' with moves := m'.moves + 1 }) ⟨h.grows, h.keep, h.fresh, h.rep.of_at fun _ _ => rfl⟩

/-! Operations on objects are operations on values. -/

theorem pvArith_rep {a b : PvObj} {m : PvMem fs} {x y : PVal fs} (opI : Int → Int → Int) (opF : fs.F → fs.F → fs.F)
    (ha : a.Rep m x) (hb : b.Rep m y) : m.arith opI opF a b = .ok (m.make (x.arith opI opF y)) := by
  cases x with
  | invalid => rw [show a = _ from ha]; cases y <;> simp [PvMem.arith, PVal.arith, PVal.asFloat]
  | int i =>
    obtain ⟨p, rfl, hp⟩ := ha
    cases y with
    | invalid => rw [show b = _ from hb]; simp [PvMem.arith, PVal.arith, PVal.asFloat]
    | int j =>
      obtain ⟨q, rfl, hq⟩ := hb
      simp [PvMem.arith, PVal.arith, PvMem.readInt, PvMem.deref, PvMem.at_cells hp, PvMem.at_cells hq]
    | flt z =>
      obtain ⟨q, rfl, hq⟩ := hb
      simp [PvMem.arith, PVal.arith, PVal.asFloat, PvMem.asFloat, PvMem.readInt, PvMem.readFloat, PvMem.deref,
        PvMem.at_cells hp, PvMem.at_cells hq]
  | flt w =>
    obtain ⟨p, rfl, hp⟩ := ha
    cases y with
    | invalid => rw [show b = _ from hb]; simp [PvMem.arith, PVal.arith, PVal.asFloat]
    | int j =>
      obtain ⟨q, rfl, hq⟩ := hb
      simp [PvMem.arith, PVal.arith, PVal.asFloat, PvMem.asFloat, PvMem.readInt, PvMem.readFloat, PvMem.deref,
        PvMem.at_cells hp, PvMem.at_cells hq]
    | flt z =>
      obtain ⟨q, rfl, hq⟩ := hb
      simp [PvMem.arith, PVal.arith, PVal.asFloat, PvMem.asFloat, PvMem.readFloat, PvMem.deref,
        PvMem.at_cells hp, PvMem.at_cells hq]

theorem pvCompare_rep {a b : PvObj} {m : PvMem fs} {x y : PVal fs} (opI : Int → Int → Bool) (opF : fs.F → fs.F → Bool)
    (ha : a.Rep m x) (hb : b.Rep m y) : m.compare opI opF a b = .ok (x.compare opI opF y) := by
  cases x with
  | invalid => rw [show a = _ from ha]; cases y <;> simp [PvMem.compare, PVal.compare, PVal.asFloat]
  | int i =>
    obtain ⟨p, rfl, hp⟩ := ha
    cases y with
    | invalid => rw [show b = _ from hb]; simp [PvMem.compare, PVal.compare, PVal.asFloat]
    | int j =>
      obtain ⟨q, rfl, hq⟩ := hb
      simp [PvMem.compare, PVal.compare, PvMem.readInt, PvMem.deref, PvMem.at_cells hp, PvMem.at_cells hq]
    | flt z =>
      obtain ⟨q, rfl, hq⟩ := hb
      simp [PvMem.compare, PVal.compare, PVal.asFloat, PvMem.asFloat, PvMem.readInt, PvMem.readFloat, PvMem.deref,
        PvMem.at_cells hp, PvMem.at_cells hq]
  | flt w =>
    obtain ⟨p, rfl, hp⟩ := ha
    cases y with
    | invalid => rw [show b = _ from hb]; simp [PvMem.compare, PVal.compare, PVal.asFloat]
    | int j =>
      obtain ⟨q, rfl, hq⟩ := hb
      simp [PvMem.compare, PVal.compare, PVal.asFloat, PvMem.asFloat, PvMem.readInt, PvMem.readFloat, PvMem.deref,
        PvMem.at_cells hp, PvMem.at_cells hq]
    | flt z =>
      obtain ⟨q, rfl, hq⟩ := hb
      simp [PvMem.compare, PVal.compare, PVal.asFloat, PvMem.asFloat, PvMem.readFloat, PvMem.deref,
        PvMem.at_cells hp, PvMem.at_cells hq]

theorem pvDivide_rep {a b : PvObj} {m : PvMem fs} {x y : PVal fs} (ha : a.Rep m x) (hb : b.Rep m y) :
    m.divide a b = .ok (m.make (x.divide y)) := by
  cases x with
  | invalid => rw [show a = _ from ha]; cases y <;> simp [PvMem.divide, PVal.divide, PVal.asFloat]
  | int i =>
    obtain ⟨p, rfl, hp⟩ := ha
    cases y with
    | invalid => rw [show b = _ from hb]; simp [PvMem.divide, PVal.divide, PVal.asFloat]
    | int j =>
      obtain ⟨q, rfl, hq⟩ := hb
      simp [PvMem.divide, PVal.divide, PvMem.isZero, PVal.isZero, PVal.asFloat, PvMem.asFloat, PvMem.readInt, PvMem.deref,
        PvMem.at_cells hp, PvMem.at_cells hq]
      split <;> simp_all
    | flt z =>
      obtain ⟨q, rfl, hq⟩ := hb
      simp [PvMem.divide, PVal.divide, PvMem.isZero, PVal.isZero, PVal.asFloat, PvMem.asFloat, PvMem.readInt,
        PvMem.readFloat, PvMem.deref, PvMem.at_cells hp, PvMem.at_cells hq]
      split <;> simp_all
  | flt w =>
    obtain ⟨p, rfl, hp⟩ := ha
    cases y with
    | invalid => rw [show b = _ from hb]; simp [PvMem.divide, PVal.divide, PVal.asFloat]
    | int j =>
      obtain ⟨q, rfl, hq⟩ := hb
      simp [PvMem.divide, PVal.divide, PvMem.isZero, PVal.isZero, PVal.asFloat, PvMem.asFloat, PvMem.readInt,
        PvMem.readFloat, PvMem.deref, PvMem.at_cells hp, PvMem.at_cells hq]
      split <;> simp_all
    | flt z =>
      obtain ⟨q, rfl, hq⟩ := hb
      simp [PvMem.divide, PVal.divide, PvMem.isZero, PVal.isZero, PVal.asFloat, PvMem.asFloat, PvMem.readFloat, PvMem.deref,
        PvMem.at_cells hp, PvMem.at_cells hq]
      split <;> simp_all

/-! Following another program. -/

/-- `q` does what `p` does, or meets a null pointer where `B` holds. -/
def PvFollows {α β : Type} (B : Prop) (R : α → β → Prop) (p : Res α) (q : Res β) : Prop :=
  (q = .ub .nullDeref ∧ B) ∨ (∃ a b, p = .ok a ∧ q = .ok b ∧ R a b) ∨ (∃ e, p = .throw e ∧ q = .throw e) ∨
  (p = .abort ∧ q = .abort) ∨ (∃ k, p = .ub k ∧ q = .ub k) ∨ (p = .hang ∧ q = .hang)

theorem PvFollows.bind {α β γ δ : Type} {B : Prop} {R : α → β → Prop} {S : γ → δ → Prop} {p : Res α} {q : Res β}
    {f : α → Res γ} {g : β → Res δ} (h : PvFollows B R p q)
    (hf : ∀ a b, p = .ok a → R a b → PvFollows B S (f a) (g b)) : PvFollows B S (p >>= f) (q >>= g) := by
  rcases h with ⟨rfl, hB⟩ | ⟨a, b, rfl, rfl, hR⟩ | ⟨e, rfl, rfl⟩ | ⟨rfl, rfl⟩ | ⟨k, rfl, rfl⟩ | ⟨rfl, rfl⟩
  · exact .inl ⟨rfl, hB⟩
  · exact hf a b rfl hR
  · exact .inr (.inr (.inl ⟨e, rfl, rfl⟩))
  · exact .inr (.inr (.inr (.inl ⟨rfl, rfl⟩)))
  · exact .inr (.inr (.inr (.inr (.inl ⟨k, rfl, rfl⟩))))
  · exact .inr (.inr (.inr (.inr (.inr ⟨rfl, rfl⟩))))

theorem PvFollows.ok {α β : Type} {B : Prop} {R : α → β → Prop} {a : α} {b : β} (h : R a b) :
    PvFollows B R (.ok a) (.ok b) := .inr (.inl ⟨a, b, rfl, rfl, h⟩)

theorem PvFollows.abort {α β : Type} {B : Prop} {R : α → β → Prop} : PvFollows B R (.abort : Res α) (.abort : Res β) :=
  .inr (.inr (.inr (.inl ⟨rfl, rfl⟩)))

theorem PvFollows.self {α : Type} {B : Prop} (p : Res α) : PvFollows B (fun a b => a = b) p p := by
  cases p with
  | ok a => exact .ok rfl
  | throw e => exact .inr (.inr (.inl ⟨e, rfl, rfl⟩))
  | abort => exact .abort
  | ub k => exact .inr (.inr (.inr (.inr (.inl ⟨k, rfl, rfl⟩))))
  | hang => exact .inr (.inr (.inr (.inr (.inr ⟨rfl, rfl⟩))))

/-- The outcome of evaluating to a value. -/
def PvValue (m : PvMem fs) (v : PVal fs) (r : PvObj × PvMem fs) : Prop := PvMade m r.1 r.2 v

theorem pvReturn {B : Prop} {m : PvMem fs} {v : PVal fs} (elide : Nat → Nat) {o : PvObj} {m' : PvMem fs}
    (h : PvMade m o m' v) (hB : v = .invalid → (∃ n, elide n ≠ 0) → B) :
    PvFollows B (PvValue m) (.ok v) (PvMem.handOver elide o m') := by
  rcases pvHandOver_made elide h with ⟨h1, h2, h3⟩ | ⟨_, r, h2, h3⟩
  · exact .inl ⟨h3, hB h1 ⟨_, h2⟩⟩
  · exact .inr (.inl ⟨v, r, rfl, h2, h3⟩)

/-- Two objects are destroyed, the younger one first. -/
theorem pvDestroy_two {m m1 m2 m3 : PvMem fs} {v0 v1 : PvObj} {x y : PVal fs} (h0 : PvMade m v0 m1 x)
    (h1 : PvMade m1 v1 m2 y)
    (hk : ∀ a, a < m2.cells.length → m3.at a = m2.at a) :
    ∃ m4 m5, m3.destroy v1 = .ok m4 ∧ m4.destroy v0 = .ok m5 ∧ m5.cells.length = m3.cells.length ∧
      (∀ a, a < m.cells.length → m5.at a = m.at a) ∧ (∀ a, m.cells.length ≤ a → a < m2.cells.length → m5.at a = none) ∧
      (∀ a, m2.cells.length ≤ a → m5.at a = m3.at a) := by
  have r1 : v1.Rep m3 y := h1.rep.of_at fun a ha => hk a (h1.rep.lt ha)
  obtain ⟨m4, e1, l1, d1⟩ := pvDestroy_rep r1
  have g1 := h0.grows
  have g2 := h1.grows
  have r0 : v0.Rep m4 x := h0.rep.of_at fun a ha => by
    have hlt := h0.rep.lt ha
    have hne : v1.ptr ≠ some a := fun e => by have := h1.fresh a e; omega
    rw [d1, if_neg hne, hk a (by omega), h1.keep a hne]
  obtain ⟨m5, e2, l2, d2⟩ := pvDestroy_rep r0
  refine ⟨m4, m5, e1, e2, by omega, ?_, ?_, ?_⟩
  · intro a ha
    have n0 : v0.ptr ≠ some a := fun e => by have := h0.fresh a e; omega
    have n1 : v1.ptr ≠ some a := fun e => by have := h1.fresh a e; omega
    rw [d2, if_neg n0, d1, if_neg n1, hk a (by omega), h1.keep a n1, h0.keep a n0]
  · intro a ha hlt
    rw [d2]
    by_cases n0 : v0.ptr = some a
    · rw [if_pos n0]
    rw [if_neg n0, d1]
    by_cases n1 : v1.ptr = some a
    · rw [if_pos n1]
    rw [if_neg n1, hk a hlt, h1.keep a n1, h0.keep a n0]
    unfold PvMem.at
    rw [List.getElem?_eq_none ha]
    rfl
  · intro a ha
    have n0 : v0.ptr ≠ some a := fun e => by have := h0.rep.lt e; omega
    have n1 : v1.ptr ≠ some a := fun e => by have := h1.rep.lt e; omega
    rw [d2, if_neg n0, d1, if_neg n1]

theorem pvAt_none {m : PvMem fs} {a : Nat} (h : m.cells.length ≤ a) : m.at a = none := by
  unfold PvMem.at
  rw [List.getElem?_eq_none h]
  rfl

theorem pvBinary {B : Prop} {elide : Nat → Nat} {op : PvObj → PvObj → PvMem fs → Res (PvObj × PvMem fs)}
    {vop : PVal fs → PVal fs → PVal fs}
    (hop : ∀ a b m x y, PvObj.Rep a m x → PvObj.Rep b m y → op a b m = .ok (PvMem.make m (vop x y)))
    {left right : Res (PVal fs)} {leftM rightM : PvMem fs → Res (PvObj × PvMem fs)}
    (hl : ∀ m, PvFollows B (PvValue m) left (leftM m)) (hr : ∀ m, PvFollows B (PvValue m) right (rightM m))
    (hB : ∀ x y, left = .ok x → right = .ok y → vop x y = .invalid → (∃ n, elide n ≠ 0) → B) (m : PvMem fs) :
    PvFollows B (PvValue m) (left >>= fun x => right >>= fun y => pure (vop x y)) (PvMem.binary elide op leftM rightM m) := by
  unfold PvMem.binary
  refine (hl m).bind fun x r0 e0 h0 => ?_
  obtain ⟨v0, m1⟩ := r0
  refine (hr m1).bind fun y r1 e1 h1 => ?_
  obtain ⟨v1, m2⟩ := r1
  have h0 : PvMade m v0 m1 x := h0
  have h1 : PvMade m1 v1 m2 y := h1
  have r0 : v0.Rep m2 x := h0.rep.of_at fun a ha => h1.keep a fun e => by
    have := h1.fresh a e
    have := h0.rep.lt ha
    omega
  simp only [hop v0 v1 m2 x y r0 h1.rep, Res.ok_bind, Res.pure_eq]
  have hret := pvReturn (B := B) elide (pvMake_made m2 (vop x y)) (hB x y e0 e1)
  have := hret.bind (f := fun v => .ok v) (S := PvValue m)
    (g := fun r => r.2.destroy v1 >>= fun m => m.destroy v0 >>= fun m => .ok (r.1, m)) (fun z r ez hz => by
      obtain ⟨r, m3⟩ := r
      have hz : PvMade m2 r m3 z := hz
      have g0 := h0.grows
      have g1 := h1.grows
      have gz := hz.grows
      obtain ⟨m4, m5, d1, d2, dl, k1, k2, k3⟩ := pvDestroy_two h0 h1 fun a ha => hz.keep a fun e => by
        have := hz.fresh a e
        omega
      simp only [d1, d2, Res.ok_bind]
      refine .ok ⟨by show m.cells.length ≤ m5.cells.length; omega, fun a ha => ?_, fun a ha => ?_, ?_⟩
      · show m5.at a = m.at a
        rcases Nat.lt_or_ge a m.cells.length with h | h
        · exact k1 a h
        rw [pvAt_none h]
        rcases Nat.lt_or_ge a m2.cells.length with h' | h'
        · exact k2 a h h'
        · rw [k3 a h', hz.keep a ha, pvAt_none h']
      · have := hz.fresh a ha
        omega
      · exact hz.rep.of_at fun a ha => k3 a (hz.fresh a ha))
  exact this

/-- Evaluating with memory follows evaluating without. -/
theorem evaluateMem_follows {B : Prop} (elide : Nat → Nat) (vs : List VarInfo) (p : Pred) (m : PvMem fs)
    (hB : ∀ q, q.Within p → evaluate fs vs q = .ok .invalid → (∃ n, elide n ≠ 0) → B) :
    PvFollows B (PvValue m) (evaluate fs vs p) (evaluateMem elide fs vs p m) := by
  have leaf : ∀ (m : PvMem fs) (v : PVal fs), (v = .invalid → (∃ n, elide n ≠ 0) → B) →
      PvFollows B (PvValue m) (.ok v) (PvMem.handOver elide (m.make v).1 (m.make v).2) := fun m v hv =>
    pvReturn elide (pvMake_made m v) hv
  induction p using evaluate.induct generalizing m with
  | case1 d c hc =>
    simp only [evaluate, evaluateMem, hc, if_true]
    refine (PvFollows.self (varAt vs c.data.toNat)).bind fun v v' e hvv => ?_
    subst hvv
    refine leaf _ _ fun h hn => hB _ (.refl _) ?_ hn
    simp [evaluate, hc, e, h]
  | case2 d c hc => simp only [evaluate, evaluateMem, hc, if_false]; exact .abort
  | case3 d c hc =>
    simp only [evaluate, evaluateMem, hc, if_true]
    refine (PvFollows.self (varAt vs c.data.toNat)).bind fun v v' e hvv => ?_
    subst hvv
    have h2 := (PvFollows.self (B := B) (valueOf fs v)).bind (f := fun x => .ok x) (S := PvValue m)
      (g := fun x => PvMem.handOver elide (m.make x).1 (m.make x).2) (fun x x' e' hxx => by
        subst hxx
        refine leaf _ _ fun h hn => hB _ (.refl _) ?_ hn
        simp [evaluate, hc, e, e', h])
    have : (valueOf fs v >>= fun x => Res.ok x) = valueOf fs v := by cases valueOf fs v <;> rfl
    rwa [this] at h2
  | case4 d c hc => simp only [evaluate, evaluateMem, hc, if_false]; exact .abort
  | case5 d cs =>
    simp only [evaluate, evaluateMem]
    exact leaf _ _ fun h => by cases h
  | case6 d cs =>
    simp only [evaluate, evaluateMem]
    exact leaf _ _ fun h => by cases h
  | case7 d cs =>
    simp only [evaluate, evaluateMem]
    exact leaf _ _ fun h => by cases h
  | case8 d a b iha ihb =>
    simp only [evaluate, evaluateMem]
    exact pvBinary (fun _ _ _ _ _ => pvArith_rep _ _) (fun m => iha m fun q hq => hB q (.child (by simp) hq))
      (fun m => ihb m fun q hq => hB q (.child (by simp) hq))
      (fun x y hx hy hv hn => hB _ (.refl _) (by simp [evaluate, hx, hy, hv]) hn) m
  | case9 d a b iha ihb =>
    simp only [evaluate, evaluateMem]
    exact pvBinary (fun _ _ _ _ _ => pvArith_rep _ _) (fun m => iha m fun q hq => hB q (.child (by simp) hq))
      (fun m => ihb m fun q hq => hB q (.child (by simp) hq))
      (fun x y hx hy hv hn => hB _ (.refl _) (by simp [evaluate, hx, hy, hv]) hn) m
  | case10 d a b iha ihb =>
    simp only [evaluate, evaluateMem]
    exact pvBinary (fun _ _ _ _ _ => pvArith_rep _ _) (fun m => iha m fun q hq => hB q (.child (by simp) hq))
      (fun m => ihb m fun q hq => hB q (.child (by simp) hq))
      (fun x y hx hy hv hn => hB _ (.refl _) (by simp [evaluate, hx, hy, hv]) hn) m
  | case11 d a b iha ihb =>
    simp only [evaluate, evaluateMem]
    exact pvBinary (fun _ _ _ _ _ => pvDivide_rep) (fun m => iha m fun q hq => hB q (.child (by simp) hq))
      (fun m => ihb m fun q hq => hB q (.child (by simp) hq))
      (fun x y hx hy hv hn => hB _ (.refl _) (by simp [evaluate, hx, hy, hv]) hn) m
  | case12 t h1 h2 h3 h4 h5 h6 h7 h8 h9 =>
    have e1 : evaluate fs vs t = .abort := by rw [evaluate] <;> assumption
    have e2 : evaluateMem elide fs vs t m = .abort := by rw [evaluateMem] <;> assumption
    rw [e1, e2]
    exact .abort

/-- The outcome of deciding a predicate. -/
def PvDecided (m : PvMem fs) (b : Bool) (r : Bool × PvMem fs) : Prop := b = r.1 ∧ m.SameHeap r.2

theorem evalCompareMem_follows {B : Prop} (elide : Nat → Nat) (vs : List VarInfo) (opI : Int → Int → Bool)
    (opF : fs.F → fs.F → Bool) (cs : List Pred) (m : PvMem fs)
    (hB : ∀ c ∈ cs, ∀ q, q.Within c → evaluate fs vs q = .ok .invalid → (∃ n, elide n ≠ 0) → B) :
    PvFollows B (PvDecided m) (evalCompare fs vs opI opF cs) (evalCompareMem elide fs vs opI opF cs m) := by
  match cs with
  | [] => exact .abort
  | [_] => exact .abort
  | _ :: _ :: _ :: _ => exact .abort
  | [a, b] =>
    simp only [evalCompare, evalCompareMem]
    refine (evaluateMem_follows elide vs a m (hB a (by simp))).bind fun x r0 e0 h0 => ?_
    obtain ⟨v0, m1⟩ := r0
    refine (evaluateMem_follows elide vs b m1 (hB b (by simp))).bind fun y r1 e1 h1 => ?_
    obtain ⟨v1, m2⟩ := r1
    have h0 : PvMade m v0 m1 x := h0
    have h1 : PvMade m1 v1 m2 y := h1
    have r0 : v0.Rep m2 x := h0.rep.of_at fun a ha => h1.keep a fun e => by
      have := h1.fresh a e
      have := h0.rep.lt ha
      omega
    obtain ⟨m4, m5, d1, d2, dl, k1, k2, k3⟩ := pvDestroy_two h0 h1 fun a _ => rfl
    simp only [pvCompare_rep opI opF r0 h1.rep, d1, d2, Res.ok_bind, Res.pure_eq]
    refine .ok ⟨rfl, fun a => ?_⟩
    have g0 := h0.grows
    have g1 := h1.grows
    rcases Nat.lt_or_ge a m.cells.length with h | h
    · exact k1 a h
    rw [pvAt_none h]
    rcases Nat.lt_or_ge a m2.cells.length with h' | h'
    · exact k2 a h h'
    · exact (k3 a h').trans (pvAt_none h')

theorem PvFollows.mono {α β : Type} {B : Prop} {R S : α → β → Prop} {p : Res α} {q : Res β} (h : PvFollows B R p q)
    (hRS : ∀ a b, R a b → S a b) : PvFollows B S p q := by
  rcases h with h | ⟨a, b, h1, h2, h3⟩ | h
  · exact .inl h
  · exact .inr (.inl ⟨a, b, h1, h2, hRS a b h3⟩)
  · exact .inr (.inr h)

theorem PvMem.SameHeap.trans {m m' m'' : PvMem fs} (h : m.SameHeap m') (h' : m'.SameHeap m'') : m.SameHeap m'' :=
  fun a => (h' a).trans (h a)

mutual
theorem satisfiedMem_follows {B : Prop} (elide : Nat → Nat) (vs : List VarInfo) : ∀ (p : Pred) (m : PvMem fs),
    (∀ q, q.Within p → evaluate fs vs q = .ok .invalid → (∃ n, elide n ≠ 0) → B) →
    PvFollows B (PvDecided m) (predicateSatisfied fs vs p) (satisfiedMem elide fs vs p m)
  | .node k d cs, m, hB => by
    have hcs : ∀ c ∈ cs, ∀ q, q.Within c → evaluate fs vs q = .ok .invalid → (∃ n, elide n ≠ 0) → B :=
      fun c hc q hq => hB q (.child hc hq)
    cases k <;> simp only [predicateSatisfied, satisfiedMem]
    case null => exact .ok ⟨rfl, fun _ => rfl⟩
    case and => exact allSatisfiedMem_follows elide vs cs m hcs
    case or => exact anySatisfiedMem_follows elide vs cs m hcs
    case not => exact notSatisfiedMem_follows elide vs cs m hcs
    case distinctVars =>
      have h2 := (PvFollows.self (B := B) (evalDistinct vs cs)).bind (f := fun x => .ok x) (S := PvDecided m)
        (g := fun x => .ok (x, m)) (fun x x' _ hxx => .ok ⟨hxx, fun _ => rfl⟩)
      have : (evalDistinct vs cs >>= fun x => Res.ok x) = evalDistinct vs cs := by cases evalDistinct vs cs <;> rfl
      rwa [this] at h2
    case greaterThan => exact evalCompareMem_follows elide vs _ _ cs m hcs
    case greaterThanOrEqual => exact evalCompareMem_follows elide vs _ _ cs m hcs
    case lessThan => exact evalCompareMem_follows elide vs _ _ cs m hcs
    case lessThanOrEqual => exact evalCompareMem_follows elide vs _ _ cs m hcs
    case equal => exact evalCompareMem_follows elide vs _ _ cs m hcs
    all_goals exact .abort

theorem allSatisfiedMem_follows {B : Prop} (elide : Nat → Nat) (vs : List VarInfo) : ∀ (cs : List Pred) (m : PvMem fs),
    (∀ c ∈ cs, ∀ q, q.Within c → evaluate fs vs q = .ok .invalid → (∃ n, elide n ≠ 0) → B) →
    PvFollows B (PvDecided m) (allSatisfied fs vs cs) (allSatisfiedMem elide fs vs cs m)
  | [], m, _ => by simp only [allSatisfied, allSatisfiedMem]; exact .ok ⟨rfl, fun _ => rfl⟩
  | c :: cs, m, hB => by
    simp only [allSatisfied, allSatisfiedMem]
    refine (satisfiedMem_follows elide vs c m (hB c (by simp))).bind fun b r _ h => ?_
    obtain ⟨b', m'⟩ := r
    obtain ⟨rfl, h⟩ := h
    cases b with
    | false => exact .ok ⟨rfl, h⟩
    | true =>
      exact (allSatisfiedMem_follows elide vs cs m' fun x hx => hB x (by simp [hx])).mono fun a r hr => ⟨hr.1, h.trans hr.2⟩

theorem anySatisfiedMem_follows {B : Prop} (elide : Nat → Nat) (vs : List VarInfo) : ∀ (cs : List Pred) (m : PvMem fs),
    (∀ c ∈ cs, ∀ q, q.Within c → evaluate fs vs q = .ok .invalid → (∃ n, elide n ≠ 0) → B) →
    PvFollows B (PvDecided m) (anySatisfied fs vs cs) (anySatisfiedMem elide fs vs cs m)
  | [], m, _ => by simp only [anySatisfied, anySatisfiedMem]; exact .ok ⟨rfl, fun _ => rfl⟩
  | c :: cs, m, hB => by
    simp only [anySatisfied, anySatisfiedMem]
    refine (satisfiedMem_follows elide vs c m (hB c (by simp))).bind fun b r _ h => ?_
    obtain ⟨b', m'⟩ := r
    obtain ⟨rfl, h⟩ := h
    cases b with
    | true => exact .ok ⟨rfl, h⟩
    | false =>
      exact (anySatisfiedMem_follows elide vs cs m' fun x hx => hB x (by simp [hx])).mono fun a r hr => ⟨hr.1, h.trans hr.2⟩

theorem notSatisfiedMem_follows {B : Prop} (elide : Nat → Nat) (vs : List VarInfo) : ∀ (cs : List Pred) (m : PvMem fs),
    (∀ c ∈ cs, ∀ q, q.Within c → evaluate fs vs q = .ok .invalid → (∃ n, elide n ≠ 0) → B) →
    PvFollows B (PvDecided m) (notSatisfied fs vs cs) (notSatisfiedMem elide fs vs cs m)
  | [], m, _ => by simp only [notSatisfied, notSatisfiedMem]; exact .abort
  | [c], m, hB => by
    simp only [notSatisfied, notSatisfiedMem]
    refine (satisfiedMem_follows elide vs c m (hB c (by simp))).bind fun b r _ h => ?_
    obtain ⟨b', m'⟩ := r
    obtain ⟨rfl, h⟩ := h
    exact .ok ⟨rfl, h⟩
  | _ :: _ :: _, m, _ => by simp only [notSatisfied, notSatisfiedMem]; exact .abort
end

/-! Copies that are made. -/

theorem pvReturn_null {m : PvMem fs} {elide : Nat → Nat} (he : ∀ n, elide n ≠ 0) {o : PvObj} {m' : PvMem fs}
    (h : PvMade m o m' .invalid) : PvMem.handOver elide o m' = .ub .nullDeref := by
  rcases pvHandOver_made elide h with ⟨_, _, h⟩ | ⟨h | h, _⟩
  · exact h
  · exact absurd rfl h
  · exact absurd h (he _)

theorem pvBinary_null {elide : Nat → Nat} (he : ∀ n, elide n ≠ 0)
    {op : PvObj → PvObj → PvMem fs → Res (PvObj × PvMem fs)} {vop : PVal fs → PVal fs → PVal fs}
    (hop : ∀ a b m x y, PvObj.Rep a m x → PvObj.Rep b m y → op a b m = .ok (PvMem.make m (vop x y)))
    {left right : Res (PVal fs)} {leftM rightM : PvMem fs → Res (PvObj × PvMem fs)}
    (hl : ∀ m, PvFollows True (PvValue m) left (leftM m)) (hr : ∀ m, PvFollows True (PvValue m) right (rightM m))
    {x y : PVal fs} (hx : left = .ok x) (hy : right = .ok y) (hv : vop x y = .invalid) (m : PvMem fs) :
    PvMem.binary elide op leftM rightM m = .ub .nullDeref := by
  unfold PvMem.binary
  rcases hl m with ⟨h, _⟩ | ⟨x', r0, h, h', h0⟩ | ⟨e, h, _⟩ | ⟨h, _⟩ | ⟨k, h, _⟩ | ⟨h, _⟩
  · rw [h]; rfl
  all_goals rw [hx] at h
  all_goals cases h
  obtain ⟨v0, m1⟩ := r0
  rw [h']
  simp only [Res.ok_bind]
  rcases hr m1 with ⟨h, _⟩ | ⟨x', r1, h, h', h1⟩ | ⟨e, h, _⟩ | ⟨h, _⟩ | ⟨k, h, _⟩ | ⟨h, _⟩
  · rw [h]; rfl
  all_goals rw [hy] at h
  all_goals cases h
  obtain ⟨v1, m2⟩ := r1
  rw [h']
  have h0 : PvMade m v0 m1 x := h0
  have h1 : PvMade m1 v1 m2 y := h1
  have r0 : v0.Rep m2 x := h0.rep.of_at fun a ha => h1.keep a fun e => by
    have := h1.fresh a e
    have := h0.rep.lt ha
    omega
  simp only [hop v0 v1 m2 x y r0 h1.rep, Res.ok_bind, hv]
  rw [pvReturn_null he (pvMake_made m2 .invalid)]
  rfl

theorem arith_parts {α : Type} {l r : Res α} {f : α → α → α} {v : α} (h : (l >>= fun x => r >>= fun y => .ok (f x y)) = .ok v) :
    ∃ x y, l = .ok x ∧ r = .ok y ∧ f x y = v := by
  obtain ⟨x, hx, h⟩ := Res.bind_eq_ok.mp h
  obtain ⟨y, hy, h⟩ := Res.bind_eq_ok.mp h
  cases h
  exact ⟨x, y, hx, hy, rfl⟩

/-- A missing value that is copied. -/
theorem evaluateMem_null {elide : Nat → Nat} (he : ∀ n, elide n ≠ 0) (vs : List VarInfo) (p : Pred) (m : PvMem fs)
    (hp : evaluate fs vs p = .ok .invalid) : evaluateMem elide fs vs p m = .ub .nullDeref := by
  have fol : ∀ (p : Pred) (m : PvMem fs), PvFollows True (PvValue m) (evaluate fs vs p) (evaluateMem elide fs vs p m) :=
    fun p m => evaluateMem_follows elide vs p m fun _ _ _ _ => trivial
  induction p using evaluate.induct with
  | case1 d c hc =>
    simp only [evaluate, hc, if_true, Res.pure_eq] at hp
    simp only [evaluateMem, hc, if_true]
    obtain ⟨v, hv, h⟩ := Res.bind_eq_ok.mp hp
    cases h' : sizeOf fs v <;> rw [h'] at h <;> cases h
    simp only [hv, Res.ok_bind, h']
    exact pvReturn_null he (pvMake_made m .invalid)
  | case2 d c hc => simp [evaluate, hc] at hp
  | case3 d c hc =>
    simp only [evaluate, hc, if_true] at hp
    simp only [evaluateMem, hc, if_true]
    obtain ⟨v, hv, h⟩ := Res.bind_eq_ok.mp hp
    simp only [hv, Res.ok_bind, h]
    exact pvReturn_null he (pvMake_made m .invalid)
  | case4 d c hc => simp [evaluate, hc] at hp
  | case5 d cs => simp [evaluate] at hp
  | case6 d cs => simp [evaluate] at hp
  | case7 d cs => simp [evaluate] at hp
  | case8 d a b iha ihb =>
    simp only [evaluate, Res.pure_eq] at hp
    obtain ⟨x, y, hx, hy, hv⟩ := arith_parts hp
    simp only [evaluateMem]
    exact pvBinary_null he (fun _ _ _ _ _ => pvArith_rep _ _) (fol a) (fol b) hx hy hv m
  | case9 d a b iha ihb =>
    simp only [evaluate, Res.pure_eq] at hp
    obtain ⟨x, y, hx, hy, hv⟩ := arith_parts hp
    simp only [evaluateMem]
    exact pvBinary_null he (fun _ _ _ _ _ => pvArith_rep _ _) (fol a) (fol b) hx hy hv m
  | case10 d a b iha ihb =>
    simp only [evaluate, Res.pure_eq] at hp
    obtain ⟨x, y, hx, hy, hv⟩ := arith_parts hp
    simp only [evaluateMem]
    exact pvBinary_null he (fun _ _ _ _ _ => pvArith_rep _ _) (fol a) (fol b) hx hy hv m
  | case11 d a b iha ihb =>
    simp only [evaluate, Res.pure_eq] at hp
    obtain ⟨x, y, hx, hy, hv⟩ := arith_parts hp
    simp only [evaluateMem]
    exact pvBinary_null he (fun _ _ _ _ _ => pvDivide_rep) (fol a) (fol b) hx hy hv m
  | case12 t h1 h2 h3 h4 h5 h6 h7 h8 h9 =>
    have e1 : evaluate fs vs t = .abort := by rw [evaluate] <;> assumption
    rw [e1] at hp
    cases hp

end TraceDB
