import Verif.Spec.VectorRace
/-
Lemmas about the vector of traces under concurrent access.
-/
namespace TraceDB

/-! ### The adding thread alone -/

/-- The adding thread gets from one state to the other on its own. -/
def VGoes {α : Type} (m : VMem α) (w : VProc α Unit) (m' : VMem α) (w' : VProc α Unit) : Prop :=
  ∃ k, ∀ rs, VSys.run ⟨m, w, rs⟩ (List.replicate k 0) = ⟨m', w', rs⟩

theorem VGoes.refl {α : Type} (m : VMem α) (w : VProc α Unit) : VGoes m w m w := ⟨0, fun _ => rfl⟩

theorem vrun_append {α : Type} (st : VSys α) (a b : List Nat) : st.run (a ++ b) = (st.run a).run b := by
  simp [VSys.run]

theorem VGoes.trans {α : Type} {m₁ m₂ m₃ : VMem α} {w₁ w₂ w₃ : VProc α Unit} (h : VGoes m₁ w₁ m₂ w₂)
    (h' : VGoes m₂ w₂ m₃ w₃) : VGoes m₁ w₁ m₃ w₃ := by
  obtain ⟨k, hk⟩ := h
  obtain ⟨k', hk'⟩ := h'
  refine ⟨k + k', fun rs => ?_⟩
  rw [← List.replicate_append_replicate, vrun_append, hk, hk']

theorem VGoes.act {α : Type} (m : VMem α) (c : VMem α → VMem α) (n : VMem α → VProc α Unit) :
    VGoes m (.act c n) (c m) (n m) := ⟨1, fun _ => rfl⟩

theorem VMem.write_same {α : Type} (m : VMem α) (p : VPtr) (a : Option α) :
    (m.write p a).block p.block = (m.block p.block).map (·.set p.off a) := by
  simp [VMem.write]

theorem VMem.write_other {α : Type} (m : VMem α) (p : VPtr) (a : Option α) (b : Nat) (h : b ≠ p.block) :
    (m.write p a).block b = m.block b := by
  simp [VMem.write, h]

/-- Two memories that differ only in one block. -/
structure VMem.Only {α : Type} (m m' : VMem α) (b : Nat) : Prop where
  block : ∀ b', b' ≠ b → m'.block b' = m.block b'
  next : m'.next = m.next
  start : m'.start = m.start
  finish : m'.finish = m.finish
  cap : m'.cap = m.cap

theorem VMem.Only.refl {α : Type} (m : VMem α) (b : Nat) : m.Only m b := ⟨fun _ _ => rfl, rfl, rfl, rfl, rfl⟩

theorem VMem.Only.trans {α : Type} {m m' m'' : VMem α} {b : Nat} (h : m.Only m' b) (h' : m'.Only m'' b) :
    m.Only m'' b :=
  ⟨fun b' hb => (h'.block b' hb).trans (h.block b' hb), h'.next.trans h.next, h'.start.trans h.start,
    h'.finish.trans h.finish, h'.cap.trans h.cap⟩

theorem VMem.only_write {α : Type} (m : VMem α) (p : VPtr) (a : Option α) : m.Only (m.write p a) p.block :=
  ⟨fun b hb => m.write_other p a b hb, rfl, rfl, rfl, rfl⟩

theorem copyP_goes {α : Type} (old new : Nat) (hne : old ≠ new) (rest : VProc α Unit) (s : List (Option α))
    (k : Nat) : ∀ (i : Nat) (m : VMem α) (t : List (Option α)), m.block old = some s → m.block new = some t →
    (∀ j : Nat, i ≤ j → j < i + k → ∃ a : α, s[j]? = some (some a)) → i + k ≤ t.length →
    ∃ (m' : VMem α) (t' : List (Option α)), VGoes m (copyP old new rest i k) m' rest ∧ m.Only m' new ∧
      m'.block new = some t' ∧ t'.length = t.length ∧
      (∀ j : Nat, i ≤ j → j < i + k → t'[j]? = s[j]?) ∧ (∀ j : Nat, j < i ∨ i + k ≤ j → t'[j]? = t[j]?) := by
  induction k with
  | zero =>
    intro i m t _ ht _ _
    exact ⟨m, t, VGoes.refl _ _, VMem.Only.refl _ _, ht, rfl, fun j h h' => by omega, fun j _ => rfl⟩
  | succ k ih =>
    intro i m t hs ht hall hlen
    obtain ⟨a, ha⟩ := hall i (Nat.le_refl _) (by omega)
    have hread : m.read ⟨old, i⟩ = .ok a := by simp [VMem.read, hs, ha]
    have ho : (m.write ⟨new, i⟩ (some a)).block old = some s := by
      rw [m.write_other _ _ _ (by simpa using hne), hs]
    have hn : (m.write ⟨new, i⟩ (some a)).block new = some (t.set i (some a)) := by
      have h := m.write_same ⟨new, i⟩ (some a)
      simp only at h
      rw [h, ht]; rfl
    obtain ⟨m', t', hg, hon, hb, hl, hin, hout⟩ := ih (i + 1) (m.write ⟨new, i⟩ (some a)) (t.set i (some a)) ho hn
      (fun j h h' => hall j (by omega) (by omega)) (by simp; omega)
    refine ⟨m', t', ?_, (m.only_write ⟨new, i⟩ (some a)).trans hon, hb, by simpa using hl, ?_, ?_⟩
    · have h := VGoes.act m (fun m => match m.read ⟨old, i⟩ with
          | .ok a => m.write ⟨new, i⟩ (some a)
          | _ => m) (fun _ => copyP old new rest (i + 1) k)
      simp only [hread] at h
      exact h.trans hg
    · intro j h h'
      by_cases hj : j = i
      · subst hj
        rw [hout j (by omega), List.getElem?_set_self (by omega), ha]
      · exact hin j (by omega) (by omega)
    · intro j h
      rw [hout j (by omega), List.getElem?_set_ne (by omega)]

theorem destroyP_goes {α : Type} (old : Nat) (rest : VProc α Unit) (k : Nat) : ∀ (i : Nat) (m : VMem α),
    ∃ m' : VMem α, VGoes m (destroyP old rest i k) m' rest ∧ m.Only m' old := by
  induction k with
  | zero => exact fun i m => ⟨m, VGoes.refl _ _, VMem.Only.refl _ _⟩
  | succ k ih =>
    intro i m
    obtain ⟨m', hg, ho⟩ := ih (i + 1) (m.write ⟨old, i⟩ none)
    exact ⟨m', (VGoes.act m _ _).trans hg, (m.only_write ⟨old, i⟩ none).trans ho⟩

/-- What is left of an addition to a full vector once the old block is freed. -/
def tailP {α : Type} (new n c : Nat) (rest : VProc α Unit) : VProc α Unit :=
  .act (fun m => { m with start := ⟨new, 0⟩ }) fun _ =>
  .act (fun m => { m with finish := ⟨new, n + 1⟩ }) fun _ =>
  .act (fun m => { m with cap := ⟨new, c⟩ }) fun _ => rest

/-- An addition to a full vector up to the freeing of the old block. -/
theorem pushP_full {α : Type} (grow : Nat → Nat) (a : α) (rest : VProc α Unit) (m : VMem α) (l : List α)
    (h : m.Holds l l.length) (hgrow : l.length < grow l.length) :
    ∃ (m' : VMem α) (t : List (Option α)),
      VGoes m (pushP grow a rest) m' (tailP m.next l.length (grow l.length) rest) ∧
      m'.block m.start.block = none ∧ m'.start = m.start ∧ m'.next = m.next + 1 ∧
      m'.block m.next = some t ∧ t.length = grow l.length ∧
      (∀ i : Nat, i < (l ++ [a]).length → t[i]? = some (l ++ [a])[i]?) := by
  obtain ⟨hst, hfi, hca, _, hkn, s, hs, hsl, hel⟩ := h
  -- the check
  have h1 := VGoes.act m id (fun m =>
    if m.finish ≠ m.cap then
      .act (fun m => m.write m.finish (some a)) fun _ =>
      .act (fun m => { m with finish := ⟨m.finish.block, m.finish.off + 1⟩ }) fun _ => rest
    else
      let n := m.finish.off
      let old := m.start.block
      .act (fun m => { m with
          block := fun b => if b = m.next then some (List.replicate (grow n) none) else m.block b
          next := m.next + 1 }) fun m =>
        let new := m.next
        .act (fun m => m.write ⟨new, n⟩ (some a)) fun _ =>
        copyP old new (destroyP old
          (.act (fun m => { m with block := fun b => if b = old then none else m.block b }) fun _ =>
           .act (fun m => { m with start := ⟨new, 0⟩ }) fun _ =>
           .act (fun m => { m with finish := ⟨new, n + 1⟩ }) fun _ =>
           .act (fun m => { m with cap := ⟨new, grow n⟩ }) fun _ => rest) 0 n) 0 n)
  have hfc : ¬ m.finish ≠ m.cap := by rw [hfi, hca]; simp
  simp only [if_neg hfc, id_eq] at h1
  have hoff : m.finish.off = l.length := by rw [hfi]
  rw [hoff] at h1
  -- the allocation
  have h2 := h1.trans (VGoes.act m _ _)
  -- the new element
  have h3 := h2.trans (VGoes.act _ _ _)
  generalize hm2 : (VMem.write (α := α)
    { m with
      block := fun b => if b = m.next then some (List.replicate (grow l.length) none) else m.block b
      next := m.next + 1 } ⟨m.next, l.length⟩ (some a)) = m2 at h3
  have hne : m.start.block ≠ m.next := Nat.ne_of_lt hkn
  have hb2 : m2.block m.start.block = some s := by
    rw [← hm2, VMem.write_other _ _ _ _ (by simpa using hne)]
    simp [hne, hs]
  have hn2 : m2.block m.next = some ((List.replicate (grow l.length) none).set l.length (some a)) := by
    rw [← hm2]; simp [VMem.write]
  have hs2 : m2.start = m.start := by rw [← hm2]; rfl
  have hx2 : m2.next = m.next + 1 := by rw [← hm2]; rfl
  -- the copies
  obtain ⟨m3, t, hg3, ho3, ht3, htl, hin, hout⟩ := copyP_goes m.start.block m.next hne
    (destroyP m.start.block
      (.act (fun m' => { m' with block := fun b => if b = m.start.block then none else m'.block b }) fun _ =>
        tailP m.next l.length (grow l.length) rest) 0 l.length) s l.length 0 m2 _ hb2 hn2
    (fun j _ hj => ⟨l[j]'(by omega), by rw [hel j (by omega), List.getElem?_eq_getElem (by omega)]⟩)
    (by simp; omega)
  -- the destructions
  obtain ⟨m4, hg4, ho4⟩ := destroyP_goes m.start.block
    (.act (fun m' => { m' with block := fun b => if b = m.start.block then none else m'.block b }) fun _ =>
      tailP m.next l.length (grow l.length) rest) l.length 0 m3
  have h5 := (h3.trans hg3).trans (hg4.trans (VGoes.act m4 _ _))
  refine ⟨_, t, h5, by simp, ?_, ?_, ?_, by simpa using htl, ?_⟩
  · simp only [ho4.start, ho3.start, hs2]
  · simp only [ho4.next, ho3.next, hx2]
  · simp only [hne.symm, if_false]
    rw [ho4.block _ hne.symm, ht3]
  · intro i hi
    rcases Nat.lt_or_ge i l.length with hil | hil
    · rw [hin i (Nat.zero_le _) (by omega), hel i hil, List.getElem?_append_left hil]
    · have : i = l.length := by simp at hi; omega
      subst this
      rw [hout l.length (Or.inr (by omega)), List.getElem?_set_self (by simpa using hgrow)]
      simp

theorem tailP_goes {α : Type} (new n c : Nat) (rest : VProc α Unit) (m : VMem α) :
    VGoes m (tailP new n c rest)
      { m with start := ⟨new, 0⟩, finish := ⟨new, n + 1⟩, cap := ⟨new, c⟩ } rest :=
  ((VGoes.act m _ _).trans (VGoes.act _ _ _)).trans (VGoes.act _ _ _)

/-- An addition on its own. -/
theorem pushP_goes {α : Type} (grow : Nat → Nat) (a : α) (rest : VProc α Unit) (m : VMem α) (l : List α) (c : Nat)
    (h : m.Holds l c) (hgrow : ∀ n, n < grow n) :
    ∃ (m' : VMem α) (c' : Nat), VGoes m (pushP grow a rest) m' rest ∧ m'.Holds (l ++ [a]) c' ∧
      c' = if l.length = c then grow c else c := by
  rcases Nat.eq_or_lt_of_le h.room with hc | hc
  · rw [← hc] at h
    obtain ⟨m', t, hg, _, _, hnx, hb, htl, hel⟩ := pushP_full grow a rest m l h (hgrow _)
    refine ⟨_, grow l.length, hg.trans (tailP_goes _ _ _ _ _), ⟨rfl, by simp, rfl, ?_, ?_, t, hb, htl, hel⟩, by simp [hc]⟩
    · have := hgrow l.length
      simp; omega
    · simp [hnx]
  · obtain ⟨hst, hfi, hca, _, hkn, s, hs, hsl, hel⟩ := h
    have hfc : m.finish ≠ m.cap := by rw [hfi, hca]; simp; omega
    have h1 : VGoes m (pushP grow a rest) m _ := VGoes.act m id _
    simp only [hfc, ne_eq, not_false_eq_true, if_true] at h1
    have h3 := (h1.trans (VGoes.act m _ _)).trans (VGoes.act _ _ _)
    refine ⟨_, c, h3, ⟨hst, ?_, hca, by simp; omega, hkn, s.set l.length (some a), ?_, by simpa using hsl, ?_⟩,
      by rw [if_neg (by omega)]⟩
    · simp [VMem.write, hfi]
    · simp [VMem.write, hfi, hs]
    · intro i hi
      rcases Nat.lt_or_ge i l.length with hil | hil
      · rw [List.getElem?_set_ne (by omega), hel i hil, List.getElem?_append_left hil]
      · have : i = l.length := by simp at hi; omega
        subst this
        rw [List.getElem?_set_self (by omega)]
        simp

theorem pushAllP_goes {α : Type} (grow : Nat → Nat) (hgrow : ∀ n, n < grow n) (adds : List α) :
    ∀ (m : VMem α) (l : List α) (c : Nat), m.Holds l c →
    ∃ (m' : VMem α) (c' : Nat), VGoes m (pushAllP grow adds) m' (.done (.ok ())) ∧ m'.Holds (l ++ adds) c' := by
  induction adds with
  | nil => exact fun m l c h => ⟨m, c, VGoes.refl _ _, by simpa using h⟩
  | cons a as ih =>
    intro m l c h
    obtain ⟨m1, c1, hg1, h1, _⟩ := pushP_goes grow a (pushAllP grow as) m l c h hgrow
    obtain ⟨m2, c2, hg2, h2⟩ := ih m1 _ c1 h1
    exact ⟨m2, c2, hg1.trans hg2, by simpa using h2⟩

/-- The capacity with doubling: a power of two less than twice the number of elements. -/
theorem pushAllP_doubling {α : Type} (adds : List α) :
    ∀ (m : VMem α) (l : List α) (j : Nat), m.Holds l (2 ^ j) → l ≠ [] → 2 ^ j < 2 * l.length →
    ∃ (m' : VMem α) (j' : Nat), VGoes m (pushAllP (fun n => max 1 (2 * n)) adds) m' (.done (.ok ())) ∧
      m'.Holds (l ++ adds) (2 ^ j') ∧ 2 ^ j' < 2 * (l ++ adds).length := by
  induction adds with
  | nil => exact fun m l j h _ hj => ⟨m, j, VGoes.refl _ _, by simpa using h, by simpa using hj⟩
  | cons a as ih =>
    intro m l j h hl hj
    obtain ⟨m1, c1, hg1, h1, hc1⟩ := pushP_goes (fun n => max 1 (2 * n)) a
      (pushAllP (fun n => max 1 (2 * n)) as) m l _ h (fun n => by omega)
    have hp : 0 < 2 ^ j := Nat.two_pow_pos j
    have key : ∃ j1, c1 = 2 ^ j1 ∧ 2 ^ j1 < 2 * (l ++ [a]).length := by
      by_cases hfull : l.length = 2 ^ j
      · rw [if_pos hfull] at hc1
        refine ⟨j + 1, ?_, ?_⟩
        · rw [hc1, Nat.pow_succ]; omega
        · rw [Nat.pow_succ]; simp; omega
      · rw [if_neg hfull] at hc1
        exact ⟨j, hc1, by simp; omega⟩
    obtain ⟨j1, rfl, hj1⟩ := key
    obtain ⟨m2, j2, hg2, h2, hj2⟩ := ih m1 _ j1 h1 (by simp) hj1
    exact ⟨m2, j2, hg1.trans hg2, by simpa using h2, by simpa using hj2⟩

/-! ### Readers while there is room -/

/-- A thread does not change the memory and ends well, as long as the memory meets `I` with a
number that does not decrease. -/
def VSafe {α β : Type} (I : VMem α → Nat → Prop) (Q : Res β → Prop) : VProc α β → Nat → Prop
  | .done r, _ => Q r
  | .act c n, lo => ∀ m s, I m s → lo ≤ s → c m = m ∧ VSafe I Q (n m) s

theorem VSafe.mono {α β : Type} {I : VMem α → Nat → Prop} {Q : Res β → Prop} (p : VProc α β) {lo lo' : Nat}
    (h : VSafe I Q p lo) (hle : lo ≤ lo') : VSafe I Q p lo' := by
  cases p with
  | done r => exact h
  | act c n => exact fun m s hI hs => h m s hI (Nat.le_trans hle hs)

/-- The memory holds the first `s` elements of `all` in block `b`. -/
def VPrefix {α : Type} (all : List α) (old c b : Nat) (m : VMem α) (s : Nat) : Prop :=
  m.Holds (all.take s) c ∧ m.start.block = b ∧ old ≤ s ∧ s ≤ all.length

theorem sizeP_safe {α : Type} (all : List α) (old c b : Nat) (Q : Res (VAnswer α) → Prop)
    (next : Nat → VProc α (VAnswer α))
    (h : ∀ n s, old ≤ n → n ≤ s → s ≤ all.length → VSafe (VPrefix all old c b) Q (next n) s) (lo : Nat) :
    VSafe (VPrefix all old c b) Q (sizeP next) lo := by
  intro m s hI _
  refine ⟨rfl, ?_⟩
  intro m' s' hI' hs'
  refine ⟨rfl, ?_⟩
  obtain ⟨hh, hb, ho, hl⟩ := hI
  obtain ⟨hh', hb', ho', hl'⟩ := hI'
  simp only [hh.finish, hb, hb', if_true, hh'.start, List.length_take, Nat.sub_zero]
  rw [Nat.min_eq_left hl]
  exact h s s' ho hs' hl'

theorem lookP_safe {α : Type} (all : List α) (old c b idx : Nat) (Q : Res (VAnswer α) → Prop) (k : Nat)
    (h : ∀ a : α, all[idx]? = some a → Q (.ok (.elem a))) :
    ∀ lo, idx < lo → VSafe (VPrefix all old c b) Q (lookP ⟨b, idx⟩ k) lo := by
  have key : ∀ lo m s, idx < lo → VPrefix all old c b m s → lo ≤ s →
      ∃ a : α, all[idx]? = some a ∧ m.read ⟨b, idx⟩ = .ok a := by
    intro lo m s hlo hI hs
    obtain ⟨hh, hb, _, hl⟩ := hI
    obtain ⟨t, ht, _, hel⟩ := hh.slots
    have hi : idx < all.length := by omega
    have := hel idx (by simp; omega)
    rw [List.getElem?_take_of_lt (by omega), List.getElem?_eq_getElem hi] at this
    exact ⟨all[idx], List.getElem?_eq_getElem hi, by simp [VMem.read, ← hb, ht, this]⟩
  induction k with
  | zero =>
    intro lo hlo m s hI hs
    obtain ⟨a, ha, hr⟩ := key lo m s hlo hI hs
    refine ⟨rfl, ?_⟩
    simp only [hr]
    exact h a ha
  | succ k ih =>
    intro lo hlo m s hI hs
    obtain ⟨a, ha, hr⟩ := key lo m s hlo hI hs
    refine ⟨rfl, ?_⟩
    simp only [hr]
    exact ih s (by omega)

theorem vreader_safe {α : Type} (all : List α) (old c b : Nat) (rd : VReader) (lo : Nat) :
    VSafe (VPrefix all old c b) (rd.good old all) rd.proc lo := by
  cases rd with
  | count =>
    exact sizeP_safe all old c b (VReader.good old all .count) (fun n => .done (.ok (.number n)))
      (fun n s ho hn hs => ⟨n, rfl, ho, Nat.le_trans hn hs⟩) lo
  | use idx k =>
    refine sizeP_safe all old c b (VReader.good old all (.use idx k)) (fun n =>
      if n ≤ idx then .done .abort else .act id fun m => lookP ⟨m.start.block, m.start.off + idx⟩ k)
      (fun n s ho hn hs => ?_) lo
    by_cases hni : n ≤ idx
    · simp only [hni, if_true]
      exact Or.inr ⟨rfl, by omega⟩
    · simp only [hni, if_false]
      intro m s' hI hs'
      refine ⟨rfl, ?_⟩
      simp only [hI.2.1, hI.1.start, Nat.zero_add]
      exact lookP_safe all old c b idx _ k (fun a ha => Or.inl ⟨a, ha, rfl⟩) s' (by omega)

/-- Where the adding thread is while there is room. -/
inductive VWriting {α : Type} (grow : Nat → Nat) (all : List α) (m : VMem α) (s : Nat) : VProc α Unit → Prop
  | idle : VWriting grow all m s (pushAllP grow (all.drop s))
  | checked (a : α) (as : List α) : all.drop s = a :: as →
    VWriting grow all m s (.act (fun m => m.write m.finish (some a)) fun _ =>
      .act (fun m => { m with finish := ⟨m.finish.block, m.finish.off + 1⟩ }) fun _ => pushAllP grow as)
  | written (a : α) (as : List α) : all.drop s = a :: as →
    (∀ t : List (Option α), m.block m.start.block = some t → t[s]? = some (some a)) →
    VWriting grow all m s
      (.act (fun m => { m with finish := ⟨m.finish.block, m.finish.off + 1⟩ }) fun _ => pushAllP grow as)

theorem vdrop_cons_facts {α : Type} {all : List α} {s : Nat} {a : α} {as : List α} (h : all.drop s = a :: as) :
    s < all.length ∧ all[s]? = some a ∧ all.drop (s + 1) = as := by
  have h0 : all[s]? = some a := by
    have := congrArg (fun l => l[0]?) h
    simpa using this
  refine ⟨(List.getElem?_eq_some_iff.mp h0).1, h0, ?_⟩
  have := congrArg (List.drop 1) h
  simpa [List.drop_drop] using this

/-- A step of the adding thread while there is room. -/
theorem vwriting_step {α : Type} (grow : Nat → Nat) (all : List α) (old c b : Nat) (hc : all.length ≤ c) (m : VMem α)
    (s : Nat) (w : VProc α Unit) (hI : VPrefix all old c b m s) (hw : VWriting grow all m s w)
    (ch : VMem α → VMem α) (nx : VMem α → VProc α Unit) (e : w = .act ch nx) :
    ∃ s', s ≤ s' ∧ VPrefix all old c b (ch m) s' ∧ VWriting grow all (ch m) s' (nx m) := by
  have hI0 := hI
  obtain ⟨⟨hst, hfi, hca, hro, hkn, t, ht, htl, hel⟩, hb, ho, hl⟩ := hI
  have hts : (all.take s).length = s := by simp; omega
  rw [hts] at hfi hel
  cases hw with
  | idle =>
    cases hd : all.drop s with
    | nil => rw [hd] at e; simp [pushAllP] at e
    | cons a as =>
      rw [hd] at e
      obtain ⟨hlt, hat, hdr⟩ := vdrop_cons_facts hd
      simp only [pushAllP, pushP, VProc.act.injEq] at e
      obtain ⟨rfl, rfl⟩ := e
      refine ⟨s, Nat.le_refl _, hI0, ?_⟩
      have hne : m.finish ≠ m.cap := by rw [hfi, hca]; simp; omega
      simp only [hne, ne_eq, not_false_eq_true, if_true]
      exact .checked a as hd
  | checked a as hd =>
    obtain ⟨hlt, hat, hdr⟩ := vdrop_cons_facts hd
    simp only [VProc.act.injEq] at e
    obtain ⟨rfl, rfl⟩ := e
    have hbl : (m.write m.finish (some a)).block m.start.block = some (t.set s (some a)) := by
      simp [VMem.write, hfi, ht]
    refine ⟨s, Nat.le_refl _, ⟨⟨hst, ?_, hca, hro, hkn, t.set s (some a), hbl, by simpa using htl, ?_⟩, hb, ho, hl⟩,
      .written a as hd ?_⟩
    · rw [hts]; exact hfi
    · rw [hts]
      intro i hi
      rw [List.getElem?_set_ne (by omega)]
      exact hel i hi
    · intro t' ht'
      have : t' = t.set s (some a) := by
        have h := ht'.symm.trans hbl
        exact Option.some.inj h
      rw [this, List.getElem?_set_self (by omega)]
  | written a as hd hsl =>
    obtain ⟨hlt, hat, hdr⟩ := vdrop_cons_facts hd
    simp only [VProc.act.injEq] at e
    obtain ⟨rfl, rfl⟩ := e
    refine ⟨s + 1, by omega, ⟨⟨hst, ?_, hca, by simp; omega, hkn, t, ht, htl, ?_⟩, hb, by omega, by omega⟩, ?_⟩
    · simp [hfi]; omega
    · intro i hi
      have hi' : i < s + 1 := by simp at hi; omega
      rw [List.getElem?_take_of_lt hi']
      rcases Nat.lt_or_ge i s with his | his
      · rw [hel i his, List.getElem?_take_of_lt his]
      · have : i = s := by omega
        subst this
        rw [hsl t ht, hat]
    · rw [← hdr]
      exact .idle

/-- The whole system while there is room. -/
def VGood {α : Type} (grow : Nat → Nat) (all : List α) (old c b : Nat) (rds : List VReader) (st : VSys α) : Prop :=
  ∃ s, VPrefix all old c b st.mem s ∧ VWriting grow all st.mem s st.writer ∧
    ∀ (i : Nat) (rd : VReader), rds[i]? = some rd →
      ∃ p, st.readers[i]? = some p ∧ VSafe (VPrefix all old c b) (rd.good old all) p s

theorem vgood_step {α : Type} (grow : Nat → Nat) (all : List α) (old c b : Nat) (hc : all.length ≤ c)
    (rds : List VReader) (st : VSys α) (hlen : st.readers.length = rds.length)
    (h : VGood grow all old c b rds st) (th : Nat) :
    VGood grow all old c b rds (st.step th) ∧ (st.step th).readers.length = rds.length := by
  obtain ⟨s, hI, hw, hr⟩ := h
  cases th with
  | zero =>
    cases hwr : st.writer with
    | done r => simp only [VSys.step, hwr]; exact ⟨⟨s, hI, hw, hr⟩, hlen⟩
    | act ch nx =>
      obtain ⟨s', hs, hI', hw'⟩ := vwriting_step grow all old c b hc st.mem s st.writer hI hw ch nx hwr
      simp only [VSys.step, hwr]
      refine ⟨⟨s', hI', hw', fun i rd hrd => ?_⟩, hlen⟩
      obtain ⟨p, hp, hsafe⟩ := hr i rd hrd
      exact ⟨p, hp, hsafe.mono p hs⟩
  | succ i =>
    cases hri : st.readers[i]? with
    | none => simp only [VSys.step, hri]; exact ⟨⟨s, hI, hw, hr⟩, hlen⟩
    | some p =>
      cases p with
      | done r => simp only [VSys.step, hri]; exact ⟨⟨s, hI, hw, hr⟩, hlen⟩
      | act ch nx =>
        have hi : i < st.readers.length := (List.getElem?_eq_some_iff.mp hri).1
        have hrd : rds[i]? = some rds[i] := List.getElem?_eq_getElem (by omega)
        obtain ⟨p, hp, hsafe⟩ := hr i _ hrd
        rw [hri] at hp
        cases hp
        obtain ⟨hch, hnx⟩ := hsafe st.mem s hI (Nat.le_refl _)
        simp only [VSys.step, hri, hch, List.length_set]
        refine ⟨⟨s, hI, hw, fun j rd' hrd' => ?_⟩, hlen⟩
        by_cases hj : j = i
        · subst hj
          rw [hrd] at hrd'
          cases hrd'
          exact ⟨nx st.mem, by simp [List.getElem?_set_self hi], hnx⟩
        · obtain ⟨p', hp', hsafe'⟩ := hr j rd' hrd'
          exact ⟨p', by simp only; rw [List.getElem?_set_ne (by omega)]; exact hp', hsafe'⟩

theorem vgood_run {α : Type} (grow : Nat → Nat) (all : List α) (old c b : Nat) (hc : all.length ≤ c)
    (rds : List VReader) (sched : List Nat) : ∀ st : VSys α, st.readers.length = rds.length →
    VGood grow all old c b rds st → VGood grow all old c b rds (st.run sched) := by
  induction sched with
  | nil => exact fun st _ h => h
  | cons t ts ih =>
    intro st hlen h
    obtain ⟨h', hlen'⟩ := vgood_step grow all old c b hc rds st hlen h t
    exact ih _ hlen' h'

theorem vgood_init {α : Type} (grow : Nat → Nat) (m : VMem α) (l adds : List α) (c : Nat) (h : m.Holds l c)
    (rds : List VReader) : VGood grow (l ++ adds) l.length c m.start.block rds (VSys.init grow m adds rds) := by
  refine ⟨l.length, ⟨by simpa [VSys.init] using h, rfl, Nat.le_refl _, by simp⟩, ?_, fun i rd hrd => ?_⟩
  · have : pushAllP grow adds = pushAllP grow ((l ++ adds).drop l.length) := by simp
    simp only [VSys.init]
    rw [this]
    exact .idle
  · exact ⟨rd.proc, by simp [VSys.init, hrd], vreader_safe _ _ _ _ rd _⟩

/-! ### Readers finish -/

/-- A thread has at most `n` steps to go, whatever happens to the memory. -/
def VWithin {α β : Type} : Nat → VProc α β → Prop
  | _, .done _ => True
  | 0, .act _ _ => False
  | n + 1, .act _ nx => ∀ m, VWithin n (nx m)

theorem VWithin.succ {α β : Type} (n : Nat) : ∀ p : VProc α β, VWithin n p → VWithin (n + 1) p := by
  induction n with
  | zero => intro p h; cases p with
    | done r => exact trivial
    | act c nx => exact h.elim
  | succ n ih => intro p h; cases p with
    | done r => exact trivial
    | act c nx => exact fun m => ih _ (h m)

theorem lookP_within {α : Type} (p : VPtr) (k : Nat) : VWithin (k + 1) (lookP (α := α) p k) := by
  induction k with
  | zero =>
    intro m
    cases h : m.read p <;> simp only [VWithin, h]
  | succ k ih =>
    intro m
    cases h : m.read p <;> simp only [h] <;> first | exact ih | simp only [VWithin]

theorem vreader_within {α : Type} (rd : VReader) : VWithin rd.steps (rd.proc (α := α)) := by
  cases rd with
  | count =>
    intro m m'
    by_cases h : m.finish.block = m'.start.block
    · simp only [h, if_true]; exact trivial
    · simp only [h, if_false]; exact trivial
  | use idx k =>
    intro m m'
    by_cases h : m.finish.block = m'.start.block
    · simp only [h, if_true]
      by_cases h' : m.finish.off - m'.start.off ≤ idx
      · simp only [h', if_true]; exact trivial
      · simp only [h', if_false]; exact fun m'' => lookP_within _ k
    · simp only [h, if_false]; exact trivial

theorem vwithin_run {α : Type} (i : Nat) (sched : List Nat) : ∀ (st : VSys α) (p : VProc α (VAnswer α)),
    st.readers[i]? = some p → VWithin (sched.count (i + 1)) p → ∃ r, (st.run sched).outcome i = some r := by
  induction sched with
  | nil =>
    intro st p hp hw
    cases p with
    | done r => exact ⟨r, by simp [VSys.run, VSys.outcome, hp]⟩
    | act c nx => exact hw.elim
  | cons t ts ih =>
    intro st p hp hw
    have hrun : st.run (t :: ts) = (st.step t).run ts := rfl
    rw [hrun]
    by_cases ht : t = i + 1
    · subst ht
      rw [List.count_cons_self] at hw
      have hi : i < st.readers.length := (List.getElem?_eq_some_iff.mp hp).1
      cases p with
      | done r =>
        refine ih _ (.done r) ?_ (by simp [VWithin])
        simp [VSys.step, hp]
      | act c nx =>
        refine ih _ (nx st.mem) ?_ (hw st.mem)
        simp only [VSys.step, hp]
        rw [List.getElem?_set_self hi]
    · rw [List.count_cons_of_ne ht] at hw
      refine ih _ p ?_ hw
      cases t with
      | zero => cases hwr : st.writer <;> simp [VSys.step, hwr, hp]
      | succ j =>
        have hj : j ≠ i := fun h => ht (by rw [h])
        cases hrj : st.readers[j]? with
        | none => simp [VSys.step, hrj, hp]
        | some q => cases q <;> simp [VSys.step, hrj, hp, List.getElem?_set_ne hj]

/-! ### Readers while the block is replaced -/

/-- A step of a reader. -/
theorem reader_act {α : Type} (m : VMem α) (w : VProc α Unit) (rs : List (VProc α (VAnswer α))) (i : Nat)
    (c : VMem α → VMem α) (n : VMem α → VProc α (VAnswer α)) (h : rs[i]? = some (.act c n)) :
    VSys.run ⟨m, w, rs⟩ [i + 1] = ⟨c m, w, rs.set i (n m)⟩ := by
  simp [VSys.run, VSys.step, h]

theorem lookP_freed {α : Type} (m : VMem α) (w : VProc α Unit) (rs : List (VProc α (VAnswer α))) (i : Nat)
    (p : VPtr) (k : Nat) (h : rs[i]? = some (lookP p k)) (hm : m.block p.block = none) :
    (VSys.run ⟨m, w, rs⟩ [i + 1]).outcome i = some (.ub .dangling) := by
  have hi : i < rs.length := (List.getElem?_eq_some_iff.mp h).1
  cases k with
  | zero =>
    rw [lookP] at h
    rw [reader_act m w rs i _ _ h]
    simp [VSys.outcome, VMem.read, hm, hi]
  | succ k =>
    rw [lookP] at h
    rw [reader_act m w rs i _ _ h]
    simp [VSys.outcome, VMem.read, hm, hi]

/-- The first three steps of a reader: it has its reference. -/
theorem use_reference {α : Type} (m : VMem α) (l : List α) (c : Nat) (h : m.Holds l c) (w : VProc α Unit)
    (rs : List (VProc α (VAnswer α))) (i idx k : Nat) (hr : rs[i]? = some (useP idx k)) (hidx : idx < l.length) :
    ∃ rs', VSys.run ⟨m, w, rs⟩ [i + 1, i + 1, i + 1] = ⟨m, w, rs'⟩ ∧
      rs'[i]? = some (lookP ⟨m.start.block, idx⟩ k) := by
  have hi : i < rs.length := (List.getElem?_eq_some_iff.mp hr).1
  have hb : m.finish.block = m.start.block := by rw [h.finish]
  have ho : ¬ m.finish.off - m.start.off ≤ idx := by rw [h.finish, h.start]; simp; omega
  have e : [i + 1, i + 1, i + 1] = [i + 1] ++ ([i + 1] ++ [i + 1]) := rfl
  rw [e, vrun_append, reader_act m w rs i _ _ hr, vrun_append, reader_act _ _ _ i _ _ (List.getElem?_set_self hi)]
  simp only [hb, if_true, ho, if_false, id_eq, List.set_set]
  rw [reader_act _ _ _ i _ _ (List.getElem?_set_self hi)]
  refine ⟨_, rfl, ?_⟩
  simp [hi, h.start]

end TraceDB
