import Verif.Model.LispGc
/-
Lemmas for C80: what garbage collection leaves alone.
-/
namespace TraceDB

variable {μ σ : Type}

/-- What an operation does to the objects: which database and parent each has. -/
inductive Reshaped (h h' : LispHeap μ) : ObjOp μ → LispAnswer μ → Prop
  | base {o} (hx : h'.objs.map (fun o => (o.db, o.view)) = h.objs.map (fun o => (o.db, o.view)) ++ [(h.dbs.length, none)])
      (hl : h'.dbs.length = h.dbs.length + 1) : Reshaped h h' o (.object h.objs.length)
  | view {i f : Nat} {x : LispObj μ} (hx : h.objs[i]? = some x)
      (hs : h'.objs.map (fun o => (o.db, o.view)) = h.objs.map (fun o => (o.db, o.view)) ++ [(x.db, some (i, f))])
      (hl : h'.dbs.length = h.dbs.length) : Reshaped h h' (.restrict i f) (.object h.objs.length)
  | same {o x} (hs : h'.objs.map (fun o => (o.db, o.view)) = h.objs.map (fun o => (o.db, o.view)))
      (hl : h'.dbs.length = h.dbs.length) (hx : ∀ i, x ≠ .object i) (ho : o ≠ .create) : Reshaped h h' o x

theorem map_set_same {h : LispHeap μ} {i : Nat} {o : LispObj μ} (ho : h.objs[i]? = some o) (sl : List μ) :
    (h.objs.set i { o with slot := sl }).map (fun o => (o.db, o.view)) = h.objs.map (fun o => (o.db, o.view)) := by
  rw [List.map_set]
  apply List.ext_getElem?
  intro j
  rw [List.getElem?_set]
  split
  · rename_i hij
    subst hij
    have := (List.getElem?_eq_some_iff.mp ho).1
    have he := (List.getElem?_eq_some_iff.mp ho).2
    simp [this, he]
  · rfl

theorem reshaped {w : World} {version : Nat} {ev : Evaluator σ} {h h' : LispHeap μ} {s s' : σ} {op : ObjOp μ}
    {x : LispAnswer μ} (hs : lispStep w version ev h s op = .ok (x, h', s')) : Reshaped h h' op x := by
  cases op with
  | create =>
    cases hs
    exact .base (by simp) (by simp)
  | restrict i f =>
    simp only [lispStep] at hs
    cases hi : h.objs[i]? with
    | none => rw [hi] at hs; cases hs
    | some o =>
      rw [hi] at hs; cases hs
      exact .view hi (by simp) rfl
  | add i a =>
    simp only [lispStep] at hs
    cases hi : h.objs[i]? with
    | none => rw [hi] at hs; cases hs
    | some o =>
      rw [hi] at hs
      simp only at hs
      cases hd : h.dbs[o.db]? with
      | none => rw [hd] at hs; cases hs
      | some db =>
        rw [hd] at hs
        obtain ⟨⟨y, h2⟩, h1, hs⟩ := Res.bind_eq_ok.mp hs
        cases hs
        cases a with
        | trace src k m =>
          obtain ⟨⟨n, db'⟩, _, h1⟩ := Res.bind_eq_ok.mp h1
          simp only at h1
          split at h1
          · cases h1; exact .same rfl (by simp) (by simp) (by simp)
          · cases h1; exact .same (map_set_same hi _) (by simp) (by simp) (by simp)
        | points ps names m =>
          obtain ⟨⟨n, db'⟩, _, h1⟩ := Res.bind_eq_ok.mp h1
          cases h1; exact .same (map_set_same hi _) (by simp) (by simp) (by simp)
  | get i idx file =>
    simp only [lispStep] at hs
    cases hi : h.objs[i]? with
    | none => rw [hi] at hs; cases hs
    | some o =>
      rw [hi] at hs
      simp only at hs
      cases hd : h.dbs[o.db]? with
      | none => rw [hd] at hs; cases hs
      | some db =>
        rw [hd] at hs
        obtain ⟨y, h1, hs⟩ := Res.bind_eq_ok.mp hs
        cases hs
        refine .same rfl rfl ?_ (by simp)
        simp only [LispHeap.get] at h1
        split at h1
        · split at h1
          · cases h1
          · obtain ⟨ps, _, h1⟩ := Res.bind_eq_ok.mp h1
            split at h1
            · cases h1; simp
            · cases h1
        · cases h1
  | query i idx q =>
    simp only [lispStep] at hs
    cases hi : h.objs[i]? with
    | none => rw [hi] at hs; cases hs
    | some o =>
      rw [hi] at hs
      simp only at hs
      cases hd : h.dbs[o.db]? with
      | none => rw [hd] at hs; cases hs
      | some db =>
        rw [hd] at hs
        simp only [LispHeap.query] at hs
        split at hs
        · split at hs
          · obtain ⟨⟨ps, c, s2⟩, _, hs⟩ := Res.bind_eq_ok.mp hs
            cases hs
            exact .same rfl (by simp) (by simp) (by simp)
          · cases hs
        · cases hs
  | copy i =>
    simp only [lispStep] at hs
    cases hi : h.objs[i]? with
    | none => rw [hi] at hs; cases hs
    | some o =>
      rw [hi] at hs
      simp only at hs
      split at hs
      · cases hs; exact .same rfl rfl (by simp) (by simp)
      · cases hd : h.dbs[o.db]? with
        | none => rw [hd] at hs; cases hs
        | some db =>
          rw [hd] at hs
          simp only at hs
          split at hs
          · cases hs
          · cases hs; exact .base (by simp) (by simp)

/-! ### The invariant -/

/-- Database and parent of an object. -/
def LispHeap.shape (h : LispHeap μ) : List (Nat × Option (Nat × Nat)) := h.objs.map fun o => (o.db, o.view)

/-- `slotsReach` on shapes. -/
def shapeReach (l : List (Nat × Option (Nat × Nat))) : Nat → Nat → List Nat
  | 0, i => [i]
  | n + 1, i =>
    i :: match l[i]? with
      | some (_, some (p, _)) => shapeReach l n p
      | _ => []

theorem slotsReach_shape (h : LispHeap μ) : ∀ n i, slotsReach h.objs n i = shapeReach h.shape n i
  | 0, i => rfl
  | n + 1, i => by
    unfold slotsReach shapeReach LispHeap.shape
    rw [List.getElem?_map]
    cases h.objs[i]? with
    | none => rfl
    | some o =>
      obtain ⟨d, v, sl⟩ := o
      cases v with
      | none => rfl
      | some v => exact congrArg _ (slotsReach_shape h n v.1)

/-- Shapes: parents come first and have the same database; base objects have databases
of their own. -/
structure ShapeOk (l : List (Nat × Option (Nat × Nat))) (n : Nat) : Prop where
  lt : ∀ (i d : Nat) v, l[i]? = some (d, v) → d < n
  parent : ∀ (i d p f : Nat), l[i]? = some (d, some (p, f)) → p < i ∧ ∃ v, l[p]? = some (d, v)
  own : ∀ (i j d : Nat), l[i]? = some (d, none) → l[j]? = some (d, none) → i = j

theorem ShapeOk.reach_base {l : List (Nat × Option (Nat × Nat))} {n : Nat} (H : ShapeOk l n) :
    ∀ (k i d : Nat) v, i ≤ k → l[i]? = some (d, v) → ∃ b ∈ shapeReach l k i, l[b]? = some (d, none) := by
  intro k
  induction k with
  | zero =>
    intro i d v hi hl
    cases v with
    | none => exact ⟨i, by simp [shapeReach], hl⟩
    | some v => have := (H.parent i d v.1 v.2 hl).1; omega
  | succ k ih =>
    intro i d v hi hl
    cases v with
    | none => exact ⟨i, by simp [shapeReach], hl⟩
    | some v =>
      obtain ⟨hp, v', hv⟩ := H.parent i d v.1 v.2 hl
      obtain ⟨b, hb, hbl⟩ := ih v.1 d v' (by omega) hv
      refine ⟨b, ?_, hbl⟩
      unfold shapeReach
      rw [hl]
      exact List.mem_cons_of_mem _ hb

/-- New objects at the end do not change what older ones reach. -/
theorem ShapeOk.reach_append {l : List (Nat × Option (Nat × Nat))} {n : Nat} (H : ShapeOk l n) (x : Nat × Option (Nat × Nat)) :
    ∀ (k i : Nat), i < l.length → shapeReach (l ++ [x]) k i = shapeReach l k i := by
  intro k
  induction k with
  | zero => intros; rfl
  | succ k ih =>
    intro i hi
    unfold shapeReach
    rw [List.getElem?_append_left hi]
    cases hl : l[i]? with
    | none => rfl
    | some y =>
      obtain ⟨d, v⟩ := y
      cases v with
      | none => rfl
      | some v =>
        have := (H.parent i d v.1 v.2 hl).1
        exact congrArg _ (ih v.1 (by omega))

/-- More steps than objects do not matter. -/
theorem ShapeOk.reach_fuel {l : List (Nat × Option (Nat × Nat))} {n : Nat} (H : ShapeOk l n) :
    ∀ (k k' i : Nat), i ≤ k → i ≤ k' → shapeReach l k i = shapeReach l k' i := by
  intro k
  induction k with
  | zero =>
    intro k' i hi _
    have hi : i = 0 := by omega
    subst hi
    cases k' with
    | zero => rfl
    | succ k' =>
      unfold shapeReach
      cases hl : l[0]? with
      | none => rfl
      | some y =>
        obtain ⟨d, v⟩ := y
        cases v with
        | none => rfl
        | some v => have := (H.parent 0 d v.1 v.2 hl).1; omega
  | succ k ih =>
    intro k' i hi hi'
    cases k' with
    | zero =>
      have hi : i = 0 := by omega
      subst hi
      unfold shapeReach
      cases hl : l[0]? with
      | none => rfl
      | some y =>
        obtain ⟨d, v⟩ := y
        cases v with
        | none => rfl
        | some v => have := (H.parent 0 d v.1 v.2 hl).1; omega
    | succ k' =>
      unfold shapeReach
      cases hl : l[i]? with
      | none => rfl
      | some y =>
        obtain ⟨d, v⟩ := y
        cases v with
        | none => rfl
        | some v =>
          have := (H.parent i d v.1 v.2 hl).1
          exact congrArg _ (ih k' v.1 (by omega) (by omega))

theorem ShapeOk.base {l : List (Nat × Option (Nat × Nat))} {n : Nat} (H : ShapeOk l n) : ShapeOk (l ++ [(n, none)]) (n + 1) where
  lt := by
    intro i d v h
    rcases Nat.lt_or_ge i l.length with hi | hi
    · rw [List.getElem?_append_left hi] at h
      have := H.lt i d v h; omega
    · rw [List.getElem?_append_right hi] at h
      obtain ⟨h1, h2⟩ := List.getElem?_eq_some_iff.mp h
      simp only [List.length_singleton] at h1
      simp at h2
      omega
  parent := by
    intro i d p f h
    rcases Nat.lt_or_ge i l.length with hi | hi
    · rw [List.getElem?_append_left hi] at h
      obtain ⟨h1, v, h2⟩ := H.parent i d p f h
      exact ⟨h1, v, by rw [List.getElem?_append_left (by omega)]; exact h2⟩
    · rw [List.getElem?_append_right hi] at h
      obtain ⟨h1, h2⟩ := List.getElem?_eq_some_iff.mp h
      simp at h2
  own := by
    intro i j d hi hj
    have key : ∀ i : Nat, (l ++ [(n, none)])[i]? = some (d, none) → (i = l.length ∧ d = n) ∨ l[i]? = some (d, none) := by
      intro i h
      rcases Nat.lt_or_ge i l.length with hi | hi
      · rw [List.getElem?_append_left hi] at h; exact .inr h
      · rw [List.getElem?_append_right hi] at h
        obtain ⟨h1, h2⟩ := List.getElem?_eq_some_iff.mp h
        simp only [List.length_singleton] at h1
        simp at h2
        exact .inl ⟨by omega, by omega⟩
    rcases key i hi with ⟨h1, h2⟩ | h1 <;> rcases key j hj with ⟨h3, h4⟩ | h3
    · omega
    · have := H.lt j d _ h3; omega
    · have := H.lt i d _ h1; omega
    · exact H.own i j d h1 h3

theorem ShapeOk.view {l : List (Nat × Option (Nat × Nat))} {n : Nat} (H : ShapeOk l n) {i d f : Nat} {v}
    (hi : l[i]? = some (d, v)) : ShapeOk (l ++ [(d, some (i, f))]) n where
  lt := by
    intro j d' v' h
    rcases Nat.lt_or_ge j l.length with hj | hj
    · rw [List.getElem?_append_left hj] at h
      exact H.lt j d' v' h
    · rw [List.getElem?_append_right hj] at h
      obtain ⟨h1, h2⟩ := List.getElem?_eq_some_iff.mp h
      simp at h2
      rw [← h2.1]
      exact H.lt i d v hi
  parent := by
    intro j d' p f' h
    rcases Nat.lt_or_ge j l.length with hj | hj
    · rw [List.getElem?_append_left hj] at h
      obtain ⟨h1, v, h2⟩ := H.parent j d' p f' h
      exact ⟨h1, v, by rw [List.getElem?_append_left (by omega)]; exact h2⟩
    · rw [List.getElem?_append_right hj] at h
      obtain ⟨h1, h2⟩ := List.getElem?_eq_some_iff.mp h
      simp only [List.length_singleton] at h1
      simp at h2
      have hlt := (List.getElem?_eq_some_iff.mp hi).1
      obtain ⟨rfl, rfl, rfl⟩ := h2
      exact ⟨by omega, v, by rw [List.getElem?_append_left (by omega)]; exact hi⟩
  own := by
    intro a b d' ha hb
    have key : ∀ i' : Nat, (l ++ [(d, some (i, f))])[i']? = some (d', none) → l[i']? = some (d', none) := by
      intro i' h
      rcases Nat.lt_or_ge i' l.length with hj | hj
      · rw [List.getElem?_append_left hj] at h; exact h
      · rw [List.getElem?_append_right hj] at h
        obtain ⟨h1, h2⟩ := List.getElem?_eq_some_iff.mp h
        simp at h2
    exact H.own a b d' (key a ha) (key b hb)

/-- The invariant of an image. -/
structure GcImage.Inv (cap : FinCapture) (g : GcImage μ) : Prop where
  shape : ShapeOk g.heap.shape g.heap.dbs.length
  refsLt : ∀ i ∈ g.refs, i < g.heap.shape.length
  refs : ∀ i ∈ g.refs, ∀ j ∈ shapeReach g.heap.shape i i, j ∉ g.collected
  pendingNodup : g.pending.Nodup
  pending : ∀ i ∈ g.pending, i ∉ g.collected ∧ ∃ d, g.heap.shape[i]? = some (d, none)
  freed : ∀ d ∈ g.freed, ∃ b ∈ g.collected, g.heap.shape[b]? = some (d, none)
  kept : cap = .object → g.freed = []
  colLt : ∀ i ∈ g.collected, i < g.heap.shape.length

theorem inv_fresh (cap : FinCapture) : (GcImage.fresh : GcImage μ).Inv cap where
  shape := ⟨by simp [GcImage.fresh, LispHeap.shape], by simp [GcImage.fresh, LispHeap.shape], by simp [GcImage.fresh, LispHeap.shape]⟩
  refsLt := by simp [GcImage.fresh]
  refs := by simp [GcImage.fresh]
  pendingNodup := by simp [GcImage.fresh]
  pending := by simp [GcImage.fresh]
  freed := by simp [GcImage.fresh]
  kept := fun _ => rfl
  colLt := by simp [GcImage.fresh]

theorem GcImage.Inv.reach {cap : FinCapture} {g : GcImage μ} (H : g.Inv cap) (j : Nat) :
    j ∈ g.reach cap ↔ (∃ i ∈ g.refs, j ∈ shapeReach g.heap.shape i i) ∨
      (cap = .object ∧ ∃ i ∈ g.pending, j ∈ shapeReach g.heap.shape i i) := by
  have hlen : g.heap.shape.length = g.heap.objs.length := by simp [LispHeap.shape]
  have hf : ∀ i, i < g.heap.shape.length →
      slotsReach g.heap.objs g.heap.objs.length i = shapeReach g.heap.shape i i := by
    intro i hi
    rw [slotsReach_shape]
    exact H.shape.reach_fuel _ _ _ (by omega) (Nat.le_refl _)
  have hp : ∀ i ∈ g.pending, i < g.heap.shape.length := by
    intro i hi
    obtain ⟨_, d, hd⟩ := H.pending i hi
    exact (List.getElem?_eq_some_iff.mp hd).1
  unfold GcImage.reach
  rw [List.mem_flatMap]
  constructor
  · rintro ⟨i, hi, hj⟩
    rcases List.mem_append.mp hi with hi | hi
    · rw [hf i (H.refsLt i hi)] at hj
      exact .inl ⟨i, hi, hj⟩
    · cases cap with
      | object =>
        rw [hf i (hp i hi)] at hj
        exact .inr ⟨rfl, i, hi, hj⟩
      | pointer => simp at hi
  · rintro (⟨i, hi, hj⟩ | ⟨rfl, i, hi, hj⟩)
    · exact ⟨i, List.mem_append_left _ hi, by rw [hf i (H.refsLt i hi)]; exact hj⟩
    · exact ⟨i, List.mem_append_right _ hi, by rw [hf i (hp i hi)]; exact hj⟩

theorem self_mem_reach (l : List (Nat × Option (Nat × Nat))) (k i : Nat) : i ∈ shapeReach l k i := by
  cases k <;> simp [shapeReach]

/-- Finalizers that are due free each database once. -/
theorem finalizeAll_ok {g : GcImage μ} {n : Nat} (hs : ShapeOk g.heap.shape n) {dead : List Nat} (is : List Nat) :
    ∀ (freed : List Nat), is.Nodup → (∀ i ∈ is, ∃ d, g.heap.shape[i]? = some (d, none)) →
      (∀ d ∈ freed, ∀ i ∈ is, g.heap.shape[i]? ≠ some (d, none)) →
      ∃ new, finalizeAll g.heap.objs dead is freed = .ok (freed ++ new) ∧
        ∀ d ∈ new, ∃ i ∈ is, i ∈ dead ∧ g.heap.shape[i]? = some (d, none) := by
  induction is with
  | nil => intro freed _ _ _; exact ⟨[], by simp [finalizeAll], by simp⟩
  | cons i is ih =>
    intro freed hn hb hf
    obtain ⟨hni, hn⟩ := List.nodup_cons.mp hn
    unfold finalizeAll
    by_cases hd : dead.contains i = true
    · rw [if_pos hd]
      obtain ⟨d, hd'⟩ := hb i (by simp)
      have hs' := hd'
      unfold LispHeap.shape at hs'
      rw [List.getElem?_map] at hs'
      cases ho : g.heap.objs[i]? with
      | none => rw [ho] at hs'; simp at hs'
      | some o =>
        rw [ho] at hs'
        simp only [Option.map_some, Option.some.injEq, Prod.mk.injEq] at hs'
        have hdb : o.db = d := hs'.1
        simp only [hdb]
        rw [if_neg (by
          intro hc
          exact hf d (by simpa using hc) i (by simp) hd')]
        obtain ⟨new, h1, h2⟩ := ih (freed ++ [d]) hn (fun j hj => hb j (by simp [hj])) (by
          intro d' hd'' j hj hje
          rcases List.mem_append.mp hd'' with h | h
          · exact hf d' h j (by simp [hj]) hje
          · rw [List.mem_singleton.mp h] at hje
            exact hni (hs.own i j d hd' hje ▸ hj))
        refine ⟨d :: new, by rw [h1]; simp, ?_⟩
        intro d' hd''
        rcases List.mem_cons.mp hd'' with rfl | h
        · exact ⟨i, by simp, by simpa using hd, hd'⟩
        · obtain ⟨j, hj, h3⟩ := h2 d' h
          exact ⟨j, by simp [hj], h3⟩
    · rw [if_neg hd]
      obtain ⟨new, h1, h2⟩ := ih freed hn (fun j hj => hb j (by simp [hj])) (fun d hd j hj => hf d hd j (by simp [hj]))
      refine ⟨new, h1, ?_⟩
      intro d' hd''
      obtain ⟨j, hj, h3⟩ := h2 d' hd''
      exact ⟨j, by simp [hj], h3⟩

/-- What the program refers to is there. -/
theorem GcImage.Inv.usable {cap : FinCapture} {g : GcImage μ} (H : g.Inv cap) {i : Nat} (hi : i ∈ g.refs) :
    ∃ x, g.heap.objs[i]? = some x ∧ x.db ∉ g.freed ∧ i ∉ g.collected := by
  have hlt := H.refsLt i hi
  have hlt' : i < g.heap.objs.length := by simpa [LispHeap.shape] using hlt
  refine ⟨g.heap.objs[i], List.getElem?_eq_getElem hlt', ?_, H.refs i hi i (self_mem_reach _ _ _)⟩
  intro hf
  obtain ⟨b, hb, hbs⟩ := H.freed _ hf
  have hsi : g.heap.shape[i]? = some (g.heap.objs[i].db, g.heap.objs[i].view) := by
    unfold LispHeap.shape
    rw [List.getElem?_map, List.getElem?_eq_getElem hlt']
    rfl
  obtain ⟨b', hb', hbs'⟩ := H.shape.reach_base i i _ _ (Nat.le_refl _) hsi
  rw [H.shape.own b b' _ hbs hbs'] at hb
  exact H.refs i hi b' hb' hb

/-- An operation keeps the invariant. -/
theorem GcImage.Inv.op {cap : FinCapture} {g : GcImage μ} (H : g.Inv cap) {h' : LispHeap μ} {o : ObjOp μ} {x : LispAnswer μ}
    (hr : Reshaped g.heap h' o x) (hg : ∀ i, o.given = some i → i ∈ g.refs) :
    ({ g with heap := h', refs := refsAfter x g.refs, pending := pendingAfter o x g.pending } : GcImage μ).Inv cap := by
  have hlen : g.heap.shape.length = g.heap.objs.length := by simp [LispHeap.shape]
  cases hr with
  | base hx hl =>
    have hx : h'.shape = g.heap.shape ++ [(g.heap.dbs.length, none)] := hx
    have hok := H.shape.base
    rw [← hx, ← hl] at hok
    have hold : ∀ (i : Nat) (y : Nat × Option (Nat × Nat)), g.heap.shape[i]? = some y → h'.shape[i]? = some y := by
      intro i y hi
      rw [hx, List.getElem?_append_left (List.getElem?_eq_some_iff.mp hi).1]; exact hi
    have hnew : h'.shape[g.heap.objs.length]? = some (g.heap.dbs.length, none) := by
      rw [hx, ← hlen]; simp
    refine ⟨hok, ?_, ?_, ?_, ?_, ?_, H.kept, ?_⟩
    · intro i hi
      simp only at hi ⊢
      rw [hx, List.length_append, List.length_singleton]
      rcases List.mem_append.mp hi with hi | hi
      · have := H.refsLt i hi; omega
      · rw [List.mem_singleton.mp hi]; omega
    · intro i hi j hj
      simp only at hi hj ⊢
      rcases List.mem_append.mp hi with hi | hi
      · rw [hx, H.shape.reach_append _ _ _ (H.refsLt i hi)] at hj
        exact H.refs i hi j hj
      · rw [List.mem_singleton.mp hi] at hj
        have : j = g.heap.objs.length := by
          generalize hn : g.heap.objs.length = n at *
          cases n with
          | zero => simpa [shapeReach] using hj
          | succ n => unfold shapeReach at hj; rw [hnew] at hj; simpa using hj
        intro hc
        have := H.colLt j hc
        omega
    · simp only
      cases o with
      | create =>
        simp only [pendingAfter]
        rw [List.nodup_append]
        refine ⟨H.pendingNodup, by simp, ?_⟩
        rintro a ha b hb rfl
        obtain ⟨_, d, hd⟩ := H.pending a ha
        have := (List.getElem?_eq_some_iff.mp hd).1
        have := List.mem_singleton.mp hb
        omega
      | _ => exact H.pendingNodup
    · intro i hi
      simp only at hi ⊢
      have hcase : i ∈ g.pending ∨ i = g.heap.objs.length := by
        cases o with
        | create =>
          rcases List.mem_append.mp hi with h | h
          · exact .inl h
          · exact .inr (List.mem_singleton.mp h)
        | _ => exact .inl hi
      rcases hcase with h | rfl
      · obtain ⟨h1, d, h2⟩ := H.pending i h
        exact ⟨h1, d, hold i _ h2⟩
      · refine ⟨?_, _, hnew⟩
        intro hc
        have := H.colLt _ hc
        omega
    · intro d hd
      obtain ⟨b, h1, h2⟩ := H.freed d hd
      exact ⟨b, h1, hold b _ h2⟩
    · intro i hi
      have := H.colLt i hi
      simp only
      rw [hx, List.length_append]
      omega
  | @view i f x hi hs hl =>
    have hx : h'.shape = g.heap.shape ++ [(x.db, some (i, f))] := hs
    have hsi : g.heap.shape[i]? = some (x.db, x.view) := by
      unfold LispHeap.shape; rw [List.getElem?_map, hi]; rfl
    have hok := H.shape.view (f := f) hsi
    rw [← hx, ← hl] at hok
    have hold : ∀ (i : Nat) (y : Nat × Option (Nat × Nat)), g.heap.shape[i]? = some y → h'.shape[i]? = some y := by
      intro i y hi
      rw [hx, List.getElem?_append_left (List.getElem?_eq_some_iff.mp hi).1]; exact hi
    have hnew : h'.shape[g.heap.objs.length]? = some (x.db, some (i, f)) := by
      rw [hx, ← hlen]; simp
    have hir : i ∈ g.refs := hg i rfl
    refine ⟨hok, ?_, ?_, H.pendingNodup, ?_, ?_, H.kept, ?_⟩
    · intro j hj
      simp only at hj ⊢
      rw [hx, List.length_append, List.length_singleton]
      rcases List.mem_append.mp hj with hj | hj
      · have := H.refsLt j hj; omega
      · rw [List.mem_singleton.mp hj]; omega
    · intro j hj k hk
      simp only at hj hk ⊢
      rcases List.mem_append.mp hj with hj | hj
      · rw [hx, H.shape.reach_append _ _ _ (H.refsLt j hj)] at hk
        exact H.refs j hj k hk
      · rw [List.mem_singleton.mp hj] at hk
        have hil := H.refsLt i hir
        have : k = g.heap.objs.length ∨ k ∈ shapeReach g.heap.shape i i := by
          generalize hn : g.heap.objs.length = n at *
          cases n with
          | zero => omega
          | succ n =>
            unfold shapeReach at hk
            rw [hnew] at hk
            rcases List.mem_cons.mp hk with h | h
            · exact .inl h
            · right
              simp only at h
              rw [hx, H.shape.reach_append _ _ _ hil] at h
              rwa [H.shape.reach_fuel n i i (by omega) (Nat.le_refl _)] at h
        rcases this with rfl | h
        · intro hc
          have := H.colLt _ hc
          omega
        · exact H.refs i hir k h
    · intro j hj
      obtain ⟨h1, d, h2⟩ := H.pending j hj
      exact ⟨h1, d, hold j _ h2⟩
    · intro d hd
      obtain ⟨b, h1, h2⟩ := H.freed d hd
      exact ⟨b, h1, hold b _ h2⟩
    · intro j hj
      have := H.colLt j hj
      simp only
      rw [hx, List.length_append]
      omega
  | same hs hl hx ho =>
    have hs : h'.shape = g.heap.shape := hs
    have hrefs : refsAfter x g.refs = g.refs := by
      cases x with
      | object i => exact absurd rfl (hx i)
      | _ => rfl
    have hpend : pendingAfter o x g.pending = g.pending := by
      cases o with
      | create => exact absurd rfl ho
      | _ => rfl
    rw [hrefs, hpend]
    exact ⟨by simp only; rw [hs, hl]; exact H.shape, by simp only [hs]; exact H.refsLt, by simp only [hs]; exact H.refs,
      H.pendingNodup, by simp only [hs]; exact H.pending, by simp only [hs]; exact H.freed, H.kept,
      by simp only [hs]; exact H.colLt⟩

/-- Forgetting keeps the invariant. -/
theorem GcImage.Inv.forget {cap : FinCapture} {g : GcImage μ} (H : g.Inv cap) (i : Nat) :
    ({ g with refs := g.refs.filter (· != i) } : GcImage μ).Inv cap :=
  ⟨H.shape, fun j hj => H.refsLt j (List.mem_filter.mp hj).1, fun j hj => H.refs j (List.mem_filter.mp hj).1,
    H.pendingNodup, H.pending, H.freed, H.kept, H.colLt⟩

/-- A collection succeeds and keeps the invariant. -/
theorem GcImage.Inv.collect {cap : FinCapture} {g : GcImage μ} (H : g.Inv cap) (choice : Nat → Bool) {dead : List Nat}
    (hdead : dead = (List.range g.heap.objs.length).filter fun i =>
      choice i && !(g.reach cap).contains i && !g.collected.contains i) :
    ∃ freed, finalizeAll g.heap.objs dead g.pending g.freed = .ok freed ∧
      ({ g with collected := g.collected ++ dead, pending := g.pending.filter (!dead.contains ·), freed := freed } : GcImage μ).Inv cap := by
  have hlen : g.heap.shape.length = g.heap.objs.length := by simp [LispHeap.shape]
  have hd : ∀ i, i ∈ dead ↔ i < g.heap.objs.length ∧ choice i = true ∧ i ∉ g.reach cap ∧ i ∉ g.collected := by
    intro i
    rw [hdead]
    simp [List.mem_filter, and_assoc]
  obtain ⟨new, h1, h2⟩ := finalizeAll_ok H.shape (dead := dead) g.pending g.freed H.pendingNodup
    (fun i hi => (H.pending i hi).2) (by
      intro d hdf i hi hs
      obtain ⟨b, hb, hbs⟩ := H.freed d hdf
      rw [H.shape.own b i d hbs hs] at hb
      exact (H.pending i hi).1 hb)
  refine ⟨g.freed ++ new, h1, H.shape, H.refsLt, ?_, H.pendingNodup.filter _, ?_, ?_, ?_, ?_⟩
  · intro i hi j hj hc
    rcases List.mem_append.mp hc with hc | hc
    · exact H.refs i hi j hj hc
    · exact ((hd j).mp hc).2.2.1 ((H.reach j).mpr (.inl ⟨i, hi, hj⟩))
  · intro i hi
    obtain ⟨hi, hnd⟩ := List.mem_filter.mp hi
    obtain ⟨h3, h4⟩ := H.pending i hi
    refine ⟨?_, h4⟩
    intro hc
    rcases List.mem_append.mp hc with hc | hc
    · exact h3 hc
    · simp [hc] at hnd
  · intro d hdf
    rcases List.mem_append.mp hdf with h | h
    · obtain ⟨b, h3, h4⟩ := H.freed d h
      exact ⟨b, List.mem_append_left _ h3, h4⟩
    · obtain ⟨i, _, h4, h5⟩ := h2 d h
      exact ⟨i, List.mem_append_right _ h4, h5⟩
  · intro hcap
    simp only
    rw [H.kept hcap, List.nil_append]
    cases new with
    | nil => rfl
    | cons d new =>
      obtain ⟨i, hi, h4, _⟩ := h2 d (by simp)
      exact absurd ((H.reach i).mpr (.inr ⟨hcap, i, hi, self_mem_reach _ _ _⟩)) ((hd i).mp h4).2.2.1
  · intro i hi
    rcases List.mem_append.mp hi with h | h
    · exact H.colLt i h
    · rw [hlen]; exact ((hd i).mp h).1

end TraceDB
