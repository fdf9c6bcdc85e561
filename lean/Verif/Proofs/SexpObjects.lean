import Verif.Spec.SexpObjects
namespace TraceDB

/-! Reading -/

theorem goodForms_points (s : List (SForm (Option LPoint))) :
    goodForms Option.isSome s = (filePoints s).map some := by
  induction s with
  | nil => rfl
  | cons x s ih =>
    cases x with
    | form x => cases x <;> simp [goodForms, filePoints, ih]
    | eofSymbol => rfl
    | malformed => rfl

theorem brokenForms_points (s : List (SForm (Option LPoint))) :
    brokenForms Option.isSome s = fileBroken s := by
  induction s with
  | nil => rfl
  | cons x s ih =>
    cases x with
    | form x => cases x <;> simp [brokenForms, fileBroken, ih]
    | eofSymbol => rfl
    | malformed => rfl

/-- Reading without a limit. -/
theorem readStream_all {α : Type} (ig : Bool) (accept : α → Bool) (s : List (SForm α)) (c : Nat) :
    readStream ig accept none c s =
      if !ig && brokenForms accept s then .throw .lisp
      else .ok (goodForms accept s, s.drop ((goodForms accept s).length + 1)) := by
  induction s generalizing c with
  | nil => simp [readStream, goodForms, brokenForms]
  | cons x s ih =>
    cases x with
    | eofSymbol => simp [readStream, goodForms, brokenForms]
    | malformed => cases ig <;> simp [readStream, goodForms, brokenForms]
    | form x =>
      cases h : accept x
      · simp [readStream, goodForms, brokenForms, h]
      · simp only [readStream, goodForms, brokenForms, h, Bool.and_self, ↓reduceIte, ih (c + 1),
          List.length_cons, List.drop_succ_cons]
        cases !ig && brokenForms accept s <;> rfl

/-- Reading with a limit. -/
theorem readStream_max {α : Type} (ig : Bool) (accept : α → Bool) (k : Nat) (s : List (SForm α)) (c : Nat) (hc : c ≤ k) :
    readStream ig accept (some k) c s =
      if !ig && brokenForms accept s && decide ((goodForms accept s).length ≤ k - c) then .throw .lisp
      else .ok ((goodForms accept s).take (k - c), s.drop (min (goodForms accept s).length (k - c) + 1)) := by
  induction s generalizing c with
  | nil => simp [readStream, goodForms, brokenForms]
  | cons x s ih =>
    cases x with
    | eofSymbol => simp [readStream, goodForms, brokenForms]
    | malformed => cases ig <;> simp [readStream, goodForms, brokenForms]
    | form x =>
      cases h : accept x
      · simp [readStream, goodForms, brokenForms, h]
      · by_cases hk : c < k
        · have e : k - c = (k - (c + 1)) + 1 := by omega
          simp only [readStream, goodForms, brokenForms, h, hk, decide_true, Bool.and_self, ↓reduceIte,
            ih (c + 1) hk, List.length_cons, e, Nat.add_le_add_iff_right, List.take_succ_cons]
          cases !ig && brokenForms accept s && decide ((goodForms accept s).length ≤ k - (c + 1))
          · simp only [bind, Res.bind, pure, Nat.add_min_add_right, List.drop_succ_cons, Bool.false_eq_true, ↓reduceIte]
          · rfl
        · have e : k - c = 0 := by omega
          simp [readStream, goodForms, brokenForms, h, hk, e]

/-- Reading a file. -/
theorem readSexpTrace_eq (ig : Bool) (s : List (SForm (Option LPoint))) (max : Option Nat) :
    readSexpTrace ig (some s) max =
      if readFails ig s max then .throw .lisp else .ok (readPointsOf s max) := by
  cases max with
  | none =>
    simp only [readSexpTrace, readStream_all, goodForms_points, brokenForms_points, readFails, readPointsOf]
    by_cases h : (!ig && fileBroken s) = true <;> simp [h, bind, Res.bind, pure, List.filterMap_map]
  | some k =>
    simp only [readSexpTrace, readStream_max ig _ k s 0 (Nat.zero_le _), goodForms_points, brokenForms_points,
      List.length_map, readFails, readPointsOf, Nat.sub_zero]
    by_cases h : (!ig && fileBroken s && decide ((filePoints s).length ≤ k)) = true <;>
      simp only [h, Bool.false_eq_true, ↓reduceIte] <;> simp [bind, Res.bind, pure, ← List.map_take, List.filterMap_map]

/-! Objects -/

/-- The objects of the model and of the specification. -/
structure SexpRel {μ : Type} (objs : List (SexpObj μ)) (S : List (SpecSexp μ)) : Prop where
  len : objs.length = S.length
  item : ∀ (i : Nat) o s, objs[i]? = some o → S[i]? = some s →
    o.traces = s.items.map (·.1) ∧ o.view = s.view ∧
    (o.view = none → o.slot = s.items.map (·.2)) ∧ ∀ p f, o.view = some (p, f) → p < i

/-- Every object returns the metadata of its own traces. -/
def MetaRel {μ : Type} (objs : List (SexpObj μ)) (S : List (SpecSexp μ)) : Prop :=
  ∀ (i : Nat) s, S[i]? = some s → sexpMeta objs i = s.items.map (·.2)

theorem SexpRel.both {μ : Type} {objs : List (SexpObj μ)} {S : List (SpecSexp μ)} (h : SexpRel objs S) (i : Nat) :
    (objs[i]? = none ∧ S[i]? = none) ∨ ∃ o s, objs[i]? = some o ∧ S[i]? = some s := by
  rcases Nat.lt_or_ge i objs.length with hi | hi
  · exact .inr ⟨objs[i], S[i]'(h.len ▸ hi), List.getElem?_eq_getElem hi, List.getElem?_eq_getElem (h.len ▸ hi)⟩
  · exact .inl ⟨List.getElem?_eq_none hi, List.getElem?_eq_none (h.len ▸ hi)⟩

theorem sexpMetaFrom_fuel {μ : Type} {objs : List (SexpObj μ)}
    (h : ∀ (i : Nat) o p f, objs[i]? = some o → o.view = some (p, f) → p < i) (n i : Nat) (hn : i < n) :
    sexpMetaFrom objs n i = sexpMeta objs i := by
  induction i using Nat.strongRecOn generalizing n with
  | ind i ih =>
    obtain ⟨n, rfl⟩ : ∃ k, n = k + 1 := ⟨n - 1, by omega⟩
    simp only [sexpMeta, sexpMetaFrom]
    rcases ho : objs[i]? with _ | o
    · rfl
    · rcases hv : o.view with _ | ⟨p, f⟩
      · simp [hv]
      · have hp := h i o p f ho hv
        simp only [hv]
        rw [ih p hp n (by omega), ih p hp i hp]

/-- The metadata of a restriction are those of its parent. -/
theorem sexpMeta_view {μ : Type} {objs : List (SexpObj μ)} {S : List (SpecSexp μ)} (h : SexpRel objs S)
    (i : Nat) (o : SexpObj μ) (p f : Nat) (ho : objs[i]? = some o) (hv : o.view = some (p, f)) :
    sexpMeta objs i = sexpMeta objs p := by
  have hord : ∀ (i : Nat) o p f, objs[i]? = some o → o.view = some (p, f) → p < i := by
    intro i o p f ho hv
    rcases h.both i with ⟨hn, _⟩ | ⟨o', s, ho', hs⟩
    · simp [hn] at ho
    · rw [ho] at ho'
      cases ho'
      exact (h.item i o s ho hs).2.2.2 p f hv
  have hp := hord i o p f ho hv
  rw [← sexpMetaFrom_fuel hord i p hp]
  simp [sexpMeta, sexpMetaFrom, ho, hv]

theorem sexpMeta_root {μ : Type} {objs : List (SexpObj μ)} (i : Nat) (o : SexpObj μ)
    (ho : objs[i]? = some o) (hv : o.view = none) : sexpMeta objs i = o.slot := by
  simp [sexpMeta, sexpMetaFrom, ho, hv]

/-- New objects change nothing for the others. -/
theorem sexpMetaFrom_append {μ : Type} {objs : List (SexpObj μ)} {S : List (SpecSexp μ)} (h : SexpRel objs S)
    (o : SexpObj μ) (n i : Nat) (hi : i < objs.length) :
    sexpMetaFrom (objs ++ [o]) n i = sexpMetaFrom objs n i := by
  induction n generalizing i with
  | zero => rfl
  | succ n ih =>
    simp only [sexpMetaFrom, List.getElem?_append_left hi]
    rcases h.both i with ⟨hn, _⟩ | ⟨o', s, ho', hs⟩
    · simp [hn]
    · rcases hv : o'.view with _ | ⟨p, f⟩
      · simp [ho', hv]
      · have hp := (h.item i o' s ho' hs).2.2.2 p f hv
        simp only [ho', hv]
        exact ih p (by omega)

/-- Changing an object nobody restricts changes nothing for the others. -/
theorem sexpMetaFrom_set {μ : Type} (objs : List (SexpObj μ)) (i : Nat) (o : SexpObj μ)
    (hno : ∀ (j : Nat) o' f, objs[j]? = some o' → o'.view ≠ some (i, f)) (n j : Nat) (hj : j ≠ i) :
    sexpMetaFrom (objs.set i o) n j = sexpMetaFrom objs n j := by
  induction n generalizing j with
  | zero => rfl
  | succ n ih =>
    simp only [sexpMetaFrom, List.getElem?_set_ne (Ne.symm hj)]
    rcases ho : objs[j]? with _ | o'
    · rfl
    · rcases hv : o'.view with _ | ⟨p, f⟩
      · simp [hv]
      · simp only [hv]
        exact ih p (fun e => hno j o' f ho (e ▸ hv))

theorem SexpRel.append {μ : Type} {objs : List (SexpObj μ)} {S : List (SpecSexp μ)} (h : SexpRel objs S)
    (o : SexpObj μ) (s : SpecSexp μ) (ht : o.traces = s.items.map (·.1)) (hv : o.view = s.view)
    (hs : o.view = none → o.slot = s.items.map (·.2)) (hp : ∀ p f, o.view = some (p, f) → p < objs.length) :
    SexpRel (objs ++ [o]) (S ++ [s]) := by
  refine ⟨by simp [h.len], ?_⟩
  intro i o' s' ho' hs'
  rcases Nat.lt_trichotomy i objs.length with hi | hi | hi
  · rw [List.getElem?_append_left hi] at ho'
    rw [List.getElem?_append_left (h.len ▸ hi)] at hs'
    exact h.item i o' s' ho' hs'
  · subst hi
    rw [List.getElem?_append_right (Nat.le_refl _)] at ho'
    rw [List.getElem?_append_right (by rw [h.len]; exact Nat.le_refl _)] at hs'
    simp only [Nat.sub_self, h.len, List.getElem?_cons_zero, Option.some.injEq] at ho' hs'
    subst ho' hs'
    exact ⟨ht, hv, hs, hp⟩
  · rw [List.getElem?_eq_none (by simp; omega)] at ho'
    cases ho'

theorem SexpRel.push {μ : Type} {objs : List (SexpObj μ)} {S : List (SpecSexp μ)} (h : SexpRel objs S)
    (i : Nat) (o : SexpObj μ) (ho : objs[i]? = some o) (ps : List LPoint) (m : μ) :
    SexpRel (sexpPush objs i o ps m) (S.modify i fun o => { o with items := (ps, m) :: o.items }) := by
  have hlt : i < objs.length := by
    rcases Nat.lt_or_ge i objs.length with h | h
    · exact h
    · rw [List.getElem?_eq_none h] at ho
      cases ho
  refine ⟨by simp [sexpPush, h.len], ?_⟩
  intro j o' s' ho' hs'
  simp only [sexpPush, List.getElem?_set, List.getElem?_modify] at ho' hs'
  by_cases hj : i = j
  · subst hj
    obtain ⟨s, hs⟩ : ∃ s, S[i]? = some s := ⟨S[i]'(h.len ▸ hlt), List.getElem?_eq_getElem _⟩
    simp only [hlt, ↓reduceIte, Option.some.injEq, hs, Option.map_eq_map, Option.map_some] at ho' hs'
    subst ho' hs'
    obtain ⟨h1, h2, h3, h4⟩ := h.item i o s ho hs
    refine ⟨by simp [h1], h2, ?_, h4⟩
    intro hv
    simp only at hv
    simp [sexpMeta_root i o ho hv, h3 hv]
  · simp only [hj, ↓reduceIte] at ho' hs'
    rcases hS : S[j]? with _ | s
    · simp [hS] at hs'
    · simp only [hS, Option.map_eq_map, Option.map_some, id_eq, Option.some.injEq] at hs'
      subst hs'
      exact h.item j o' s ho' hS

theorem MetaRel.append {μ : Type} {objs : List (SexpObj μ)} {S : List (SpecSexp μ)} (h : SexpRel objs S)
    (hm : MetaRel objs S) (o : SexpObj μ) (s : SpecSexp μ)
    (hs : sexpMeta (objs ++ [o]) objs.length = s.items.map (·.2)) : MetaRel (objs ++ [o]) (S ++ [s]) := by
  intro i s' hs'
  rcases Nat.lt_trichotomy i objs.length with hi | hi | hi
  · rw [List.getElem?_append_left (h.len ▸ hi)] at hs'
    rw [sexpMeta, sexpMetaFrom_append h o _ i hi]
    exact hm i s' hs'
  · subst hi
    rw [List.getElem?_append_right (by rw [h.len]; exact Nat.le_refl _)] at hs'
    simp only [h.len, Nat.sub_self, List.getElem?_cons_zero, Option.some.injEq] at hs'
    subst hs'
    exact hs
  · rw [List.getElem?_eq_none (by simp; have := h.len; omega)] at hs'
    cases hs'

theorem at_fst {μ : Type} (s : SpecSexp μ) (idx : Nat) : (s.at idx).1 = ((s.items.map (·.1))[idx]?).getD [] := by
  simp only [SpecSexp.at, List.getElem?_map]
  cases s.items[idx]? <;> rfl

theorem at_snd {μ : Type} (s : SpecSexp μ) (idx : Nat) : (s.at idx).2 = (s.items.map (·.2))[idx]? := by
  simp only [SpecSexp.at, List.getElem?_map]
  cases s.items[idx]? <;> rfl

/-- An operation keeps the objects and the specification together. -/
theorem sexpStep_rel {μ : Type} (ig : Bool) {objs : List (SexpObj μ)} {S : List (SpecSexp μ)} (h : SexpRel objs S)
    (op : SexpOp μ) : SexpRel (sexpStep ig objs op).2 (specSexpStep ig S op) := by
  cases op with
  | create => exact h.append _ _ rfl rfl (fun _ => rfl) (by simp)
  | restrict i f =>
    rcases h.both i with ⟨h1, h2⟩ | ⟨o, s, h1, h2⟩
    · simpa [sexpStep, specSexpStep, h1, h2] using h
    · simp only [sexpStep, specSexpStep, h1, h2]
      refine h.append _ _ ?_ rfl (by simp) ?_
      · simp [(h.item i o s h1 h2).1]
      · intro p f' e
        simp only [Option.some.injEq, Prod.mk.injEq] at e
        rw [← e.1]
        exact (List.getElem?_eq_some_iff.1 h1).1
  | copy i =>
    rcases h.both i with ⟨h1, h2⟩ | ⟨o, s, h1, h2⟩
    · simpa [sexpStep, specSexpStep, h1, h2] using h
    · obtain ⟨a, b, c, d⟩ := h.item i o s h1 h2
      obtain ⟨l, v⟩ := s
      cases v with
      | some x => simpa [sexpStep, specSexpStep, h1, h2, b] using h
      | none =>
        simp only at b
        simp only [sexpStep, specSexpStep, h1, h2, b, Option.isSome_none, Bool.false_eq_true, ↓reduceIte]
        exact h.append _ _ a b c (by simp [b])
  | add i file max m =>
    rcases h.both i with ⟨h1, h2⟩ | ⟨o, s, h1, h2⟩
    · simp only [sexpStep, h1, specSexpStep]
      cases hst : (SexpOp.add i file max m).stored ig with
      | none => exact h
      | some x =>
        obtain ⟨j, x⟩ := x
        have : j = i := by
          cases file with
          | none => simp [SexpOp.stored] at hst
          | some s =>
            simp only [SexpOp.stored] at hst
            split at hst
            · cases hst
            · simp only [Option.some.injEq, Prod.mk.injEq] at hst
              exact hst.1.symm
        subst this
        simp only
        rw [List.modify_eq_self (by simpa using h2)]
        exact h
    · cases file with
      | none => simpa [sexpStep, specSexpStep, h1, readSexpTrace, SexpOp.stored] using h
      | some s' =>
        simp only [sexpStep, h1, specSexpStep, readSexpTrace_eq, SexpOp.stored]
        cases hf : readFails ig s' max
        · cases hp : readPointsOf s' max with
          | nil => simpa using h
          | cons p ps => simpa using h.push i o h1 (p :: ps) m
        · simpa using h
  | addPoints i ps m =>
    rcases h.both i with ⟨h1, h2⟩ | ⟨o, s, h1, h2⟩
    · simp only [sexpStep, h1, specSexpStep, SexpOp.stored]
      rw [List.modify_eq_self (by simpa using h2)]
      exact h
    · simpa only [sexpStep, h1, specSexpStep, SexpOp.stored] using h.push i o h1 ps m
  | get i idx file => cases h1 : objs[i]? <;> simpa [sexpStep, specSexpStep, SexpOp.stored, h1] using h
  | count i => cases h1 : objs[i]? <;> simpa [sexpStep, specSexpStep, SexpOp.stored, h1] using h
  | size i idx => cases h1 : objs[i]? <;> simpa [sexpStep, specSexpStep, SexpOp.stored, h1] using h
  | types i idx => cases h1 : objs[i]? <;> simpa [sexpStep, specSexpStep, SexpOp.stored, h1] using h
  | query i idx q pick => cases h1 : objs[i]? <;> simpa [sexpStep, specSexpStep, SexpOp.stored, h1] using h

/-- The answer of an operation, with the metadata that `trace-metadata` returns. -/
theorem sexpStep_answer {μ : Type} (ig : Bool) {objs : List (SexpObj μ)} {S : List (SpecSexp μ)} (h : SexpRel objs S)
    (op : SexpOp μ) :
    sexpPoints (sexpStep ig objs op).1 = sexpPoints (specSexpAnswer ig S op) ∧
    ((∀ i, op.object = some i → ∀ s, S[i]? = some s → sexpMeta objs i = s.items.map (·.2)) →
      (sexpStep ig objs op).1 = specSexpAnswer ig S op) := by
  have key : ∀ i, op.object = some i →
      (objs[i]? = none ∧ S[i]? = none) ∨ ∃ o s, objs[i]? = some o ∧ S[i]? = some s ∧
        o.traces = s.items.map (·.1) ∧ o.view = s.view := by
    intro i _
    rcases h.both i with h1 | ⟨o, s, h1, h2⟩
    · exact .inl h1
    · exact .inr ⟨o, s, h1, h2, (h.item i o s h1 h2).1, (h.item i o s h1 h2).2.1⟩
  cases op with
  | create => simp [sexpStep, specSexpAnswer, SexpOp.object, h.len]
  | restrict i f =>
    rcases key i rfl with ⟨h1, h2⟩ | ⟨o, s, h1, h2, h3, h4⟩ <;>
      simp [sexpStep, specSexpAnswer, SexpOp.object, specSexpOf, h1, h2, h.len]
  | copy i =>
    rcases key i rfl with ⟨h1, h2⟩ | ⟨o, s, h1, h2, h3, h4⟩
    · simp [sexpStep, specSexpAnswer, SexpOp.object, h1, h2]
    · rcases hv : s.view with _ | v <;>
        simp [sexpStep, specSexpAnswer, SexpOp.object, specSexpOf, h1, h2, h.len, h4, hv]
  | add i file max m =>
    rcases key i rfl with ⟨h1, h2⟩ | ⟨o, s, h1, h2, h3, h4⟩
    · simp [sexpStep, specSexpAnswer, SexpOp.object, h1, h2]
    · cases file with
      | none => simp [sexpStep, specSexpAnswer, SexpOp.object, specSexpOf, h1, h2, readSexpTrace]
      | some s' =>
        simp only [sexpStep, specSexpAnswer, SexpOp.object, specSexpOf, h1, h2, readSexpTrace_eq]
        cases hf : readFails ig s' max
        · cases hp : readPointsOf s' max <;> simp
        · simp
  | addPoints i ps m =>
    rcases key i rfl with ⟨h1, h2⟩ | ⟨o, s, h1, h2, h3, h4⟩ <;>
      simp [sexpStep, specSexpAnswer, SexpOp.object, specSexpOf, h1, h2]
  | count i =>
    rcases key i rfl with ⟨h1, h2⟩ | ⟨o, s, h1, h2, h3, h4⟩ <;>
      simp [sexpStep, specSexpAnswer, SexpOp.object, specSexpOf, h1, h2, *]
  | size i idx =>
    rcases key i rfl with ⟨h1, h2⟩ | ⟨o, s, h1, h2, h3, h4⟩
    · simp [sexpStep, specSexpAnswer, SexpOp.object, specSexpOf, h1, h2]
    · simp only [sexpStep, specSexpAnswer, SexpOp.object, specSexpOf, h1, h2, h3, at_fst, implies_true, and_self]
  | types i idx =>
    rcases key i rfl with ⟨h1, h2⟩ | ⟨o, s, h1, h2, h3, h4⟩
    · simp [sexpStep, specSexpAnswer, SexpOp.object, specSexpOf, h1, h2]
    · simp only [sexpStep, specSexpAnswer, SexpOp.object, specSexpOf, h1, h2, h3, at_fst, implies_true, and_self]
  | get i idx file =>
    rcases key i rfl with ⟨h1, h2⟩ | ⟨o, s, h1, h2, h3, h4⟩
    · simp [sexpStep, specSexpAnswer, SexpOp.object, h1, h2]
    · have e : (if o.view.isSome then o.traces[idx]?.getD [] else ofFile file (o.traces[idx]?.getD [])) =
          ofFile (if s.view.isSome then none else file) (s.at idx).1 := by
        rw [at_fst, h3, h4]
        cases s.view <;> simp [ofFile]
      simp only [sexpStep, specSexpAnswer, SexpOp.object, specSexpOf, h1, h2, e, sexpPoints, true_and]
      intro hm
      rw [hm i rfl s h2, at_snd]
  | query i idx q pick =>
    rcases key i rfl with ⟨h1, h2⟩ | ⟨o, s, h1, h2, h3, h4⟩
    · simp [sexpStep, specSexpAnswer, SexpOp.object, h1, h2]
    · simp only [sexpStep, specSexpAnswer, SexpOp.object, specSexpOf, h1, h2]
      have e : o.traces[idx]?.getD [] = (s.at idx).1 := by rw [at_fst, h3]
      rw [e]
      cases hq : q.soft with
      | cons => simp
      | nil =>
        cases ht : (s.at idx).1 with
        | nil => simp
        | cons p ps =>
          simp only [List.isEmpty_nil, ↓reduceIte, List.isEmpty_cons, Bool.false_eq_true, ne_eq,
            not_true_eq_false, reduceCtorEq]
          cases sexpQueryAt (p :: ps) q pick <;>
            simp only [bind, Res.bind, pure, sexpPoints, true_and, implies_true, and_self]
          intro hm
          rw [hm i rfl s h2, at_snd]

theorem MetaRel.push {μ : Type} {objs : List (SexpObj μ)} {S : List (SpecSexp μ)} (h : SexpRel objs S) (hm : MetaRel objs S)
    (i : Nat) (o : SexpObj μ) (ho : objs[i]? = some o) (ps : List LPoint) (m : μ)
    (hu : (∀ o, S[i]? = some o → o.view = none) ∧ ∀ (j : Nat) o f, S[j]? = some o → o.view ≠ some (i, f)) :
    MetaRel (sexpPush objs i o ps m) (S.modify i fun o => { o with items := (ps, m) :: o.items }) := by
  have hlt := (List.getElem?_eq_some_iff.1 ho).1
  intro j s' hs'
  simp only [List.getElem?_modify] at hs'
  rcases hS : S[j]? with _ | s
  · simp [hS] at hs'
  · by_cases hj : i = j
    · subst hj
      simp only [↓reduceIte, hS, Option.map_eq_map, Option.map_some, Option.some.injEq] at hs'
      subst hs'
      have hv : o.view = none := by rw [(h.item i o s ho hS).2.1]; exact hu.1 s hS
      rw [sexpPush, sexpMeta_root i { o with traces := ps :: o.traces, slot := m :: sexpMeta objs i }
        (by simp [hlt]) hv]
      simp [hm i s hS]
    · simp only [hj, ↓reduceIte, hS, Option.map_eq_map, Option.map_some, id_eq, Option.some.injEq] at hs'
      subst hs'
      rw [sexpPush, sexpMeta, sexpMetaFrom_set _ _ _ ?_ _ _ (Ne.symm hj)]
      · exact hm j s hS
      · intro k o' f ho'
        rcases h.both k with ⟨hn, _⟩ | ⟨o'', s'', ho'', hs''⟩
        · simp [hn] at ho'
        · rw [ho'] at ho''
          cases ho''
          rw [(h.item k o' s'' ho' hs'').2.1]
          exact hu.2 k s'' f hs''

/-- Operations that leave restricted databases alone keep the metadata in step. -/
theorem sexpStep_meta {μ : Type} (ig : Bool) {objs : List (SexpObj μ)} {S : List (SpecSexp μ)} (h : SexpRel objs S)
    (hm : MetaRel objs S) (op : SexpOp μ) (hu : op.Untouched ig S) :
    MetaRel (sexpStep ig objs op).2 (specSexpStep ig S op) := by
  cases op with
  | create =>
    refine hm.append h _ _ ?_
    rw [sexpMeta_root objs.length ⟨[], [], none⟩ (by simp) rfl]
    rfl
  | restrict i f =>
    have hr := sexpStep_rel ig h (.restrict i f)
    rcases h.both i with ⟨h1, h2⟩ | ⟨o, s, h1, h2⟩
    · simpa [sexpStep, specSexpStep, h1, h2] using hm
    · simp only [sexpStep, specSexpStep, h1, h2] at hr ⊢
      refine hm.append h _ _ ?_
      rw [sexpMeta_view hr objs.length _ i f (by simp; rfl) rfl, sexpMeta,
        sexpMetaFrom_append h _ _ i (List.getElem?_eq_some_iff.1 h1).1]
      have := hm i s h2
      simp only [sexpMeta] at this
      rw [this]
      simp
  | copy i =>
    rcases h.both i with ⟨h1, h2⟩ | ⟨o, s, h1, h2⟩
    · simpa [sexpStep, specSexpStep, h1, h2] using hm
    · obtain ⟨a, b, c, d⟩ := h.item i o s h1 h2
      obtain ⟨l, v⟩ := s
      cases v with
      | some x => simpa [sexpStep, specSexpStep, h1, h2, b] using hm
      | none =>
        simp only at b
        simp only [sexpStep, specSexpStep, h1, h2, b, Option.isSome_none, Bool.false_eq_true, ↓reduceIte]
        refine hm.append h _ _ ?_
        rw [sexpMeta_root objs.length o (by simp) b]
        exact c b
  | add i file max m =>
    rcases h.both i with ⟨h1, h2⟩ | ⟨o, s, h1, h2⟩
    · simp only [sexpStep, h1, specSexpStep]
      cases hst : (SexpOp.add i file max m).stored ig with
      | none => exact hm
      | some x =>
        obtain ⟨j, x⟩ := x
        have : j = i := by
          cases file with
          | none => simp [SexpOp.stored] at hst
          | some s =>
            simp only [SexpOp.stored] at hst
            split at hst
            · cases hst
            · simp only [Option.some.injEq, Prod.mk.injEq] at hst
              exact hst.1.symm
        subst this
        simp only
        rw [List.modify_eq_self (by simpa using h2)]
        exact hm
    · cases file with
      | none => simpa [sexpStep, specSexpStep, h1, readSexpTrace, SexpOp.stored] using hm
      | some s' =>
        simp only [SexpOp.Untouched, SexpOp.stored] at hu
        simp only [sexpStep, h1, specSexpStep, readSexpTrace_eq, SexpOp.stored]
        cases hf : readFails ig s' max
        · cases hp : readPointsOf s' max with
          | nil => simpa using hm
          | cons p ps => simpa using hm.push h i o h1 (p :: ps) m (hu i _ m (by simp [hf, hp]; rfl))
        · simpa using hm
  | addPoints i ps m =>
    rcases h.both i with ⟨h1, h2⟩ | ⟨o, s, h1, h2⟩
    · simp only [sexpStep, h1, specSexpStep, SexpOp.stored]
      rw [List.modify_eq_self (by simpa using h2)]
      exact hm
    · simpa only [sexpStep, h1, specSexpStep, SexpOp.stored] using hm.push h i o h1 ps m (hu i ps m rfl)
  | get i idx file => cases h1 : objs[i]? <;> simpa [sexpStep, specSexpStep, SexpOp.stored, h1] using hm
  | count i => cases h1 : objs[i]? <;> simpa [sexpStep, specSexpStep, SexpOp.stored, h1] using hm
  | size i idx => cases h1 : objs[i]? <;> simpa [sexpStep, specSexpStep, SexpOp.stored, h1] using hm
  | types i idx => cases h1 : objs[i]? <;> simpa [sexpStep, specSexpStep, SexpOp.stored, h1] using hm
  | query i idx q pick => cases h1 : objs[i]? <;> simpa [sexpStep, specSexpStep, SexpOp.stored, h1] using hm

theorem sexpRun_rel {μ : Type} (ig : Bool) {objs : List (SexpObj μ)} {S : List (SpecSexp μ)} (h : SexpRel objs S)
    (ops : List (SexpOp μ)) : SexpRel (sexpRun ig objs ops).2 (specSexpAfter ig S ops) := by
  induction ops generalizing objs S with
  | nil => exact h
  | cons op ops ih => exact ih (sexpStep_rel ig h op)

theorem sexpRun_points {μ : Type} (ig : Bool) {objs : List (SexpObj μ)} {S : List (SpecSexp μ)} (h : SexpRel objs S)
    (ops : List (SexpOp μ)) :
    (sexpRun ig objs ops).1.map sexpPoints = (specSexpRun ig S ops).map sexpPoints := by
  induction ops generalizing objs S with
  | nil => rfl
  | cons op ops ih =>
    simp only [sexpRun, specSexpRun, List.map_cons, (sexpStep_answer ig h op).1, ih (sexpStep_rel ig h op)]

theorem sexpRun_exact {μ : Type} (ig : Bool) {objs : List (SexpObj μ)} {S : List (SpecSexp μ)} (h : SexpRel objs S)
    (hm : MetaRel objs S) (ops : List (SexpOp μ)) (hu : SexpUntouched ig S ops) :
    (sexpRun ig objs ops).1 = specSexpRun ig S ops := by
  induction ops generalizing objs S with
  | nil => rfl
  | cons op ops ih =>
    simp only [sexpRun, specSexpRun, (sexpStep_answer ig h op).2 (fun i _ s hs => hm i s hs),
      ih (sexpStep_rel ig h op) (sexpStep_meta ig h hm op hu.1) hu.2]

theorem sexpRel_nil {μ : Type} : SexpRel ([] : List (SexpObj μ)) [] := ⟨rfl, by simp⟩

theorem metaRel_nil {μ : Type} : MetaRel ([] : List (SexpObj μ)) [] := by simp [MetaRel]

end TraceDB
