import Verif.Spec.QueryDistinct
import Verif.Proofs.QueryOrder
/-
Proofs about queries whose answers are distinct.
-/
namespace TraceDB

theorem pairs_same : ∀ xs ys : List VarInfo,
    (xs.length == ys.length && (xs.zip ys).all fun (x, y) => x.nameIndex == y.nameIndex && x.typeIndex == y.typeIndex) = true ↔
      xs.map (fun v => (v.nameIndex, v.typeIndex)) = ys.map fun v => (v.nameIndex, v.typeIndex)
  | [], [] => by simp
  | [], _ :: _ => by simp
  | _ :: _, [] => by simp
  | x :: xs, y :: ys => by
    have ih := pairs_same xs ys
    simp only [Bool.and_eq_true, beq_iff_eq] at ih
    simp only [List.length_cons, List.zip_cons_cons, List.all_cons, List.map_cons, List.cons.injEq, Bool.and_eq_true,
      beq_iff_eq, Prod.mk.injEq, ← ih]
    constructor
    · rintro ⟨h1, h2, h3⟩
      exact ⟨h2, by omega, h3⟩
    · rintro ⟨h2, h1, h3⟩
      exact ⟨by omega, h2, h3⟩

theorem sameBinding_binding (a b : Point) : sameBinding a b = true ↔ a.binding = b.binding := by
  unfold sameBinding Point.binding
  rw [Bool.and_assoc, Bool.and_eq_true, pairs_same, beq_iff_eq, Prod.mk.injEq]

/-- Some element of the set has this binding. -/
theorem any_binding (set : List Point) (p : Point) :
    set.any (sameBinding · p) = true ↔ p.binding ∈ set.map Point.binding := by
  rw [List.any_eq_true, List.mem_map]
  constructor
  · rintro ⟨x, hx, h⟩
    exact ⟨x, hx, (sameBinding_binding _ _).mp h⟩
  · rintro ⟨x, hx, h⟩
    exact ⟨x, hx, (sameBinding_binding _ _).mpr h⟩

theorem dedupLoop_congr : ∀ (l set set' : List Point),
    (∀ p ∈ l, (p.binding ∈ set.map Point.binding ↔ p.binding ∈ set'.map Point.binding)) → dedupLoop set l = dedupLoop set' l
  | [], _, _, _ => rfl
  | p :: l, set, set', h => by
    have hp := h p (List.mem_cons_self ..)
    have e : set.any (sameBinding · p) = set'.any (sameBinding · p) := by
      rw [Bool.eq_iff_iff, any_binding, any_binding, hp]
    unfold dedupLoop
    rw [e, dedupLoop_congr l set set' fun q hq => h q (List.mem_cons_of_mem _ hq),
      dedupLoop_congr l (p :: set) (p :: set') fun q hq => by
        simp only [List.map_cons, List.mem_cons, h q (List.mem_cons_of_mem _ hq)]]

/-- A filter by what the answers bind can be applied before or after. -/
theorem dedupLoop_filter (P : Point → Bool) (hP : ∀ a b : Point, a.binding = b.binding → P a = P b) :
    ∀ (l set set' : List Point),
      (∀ p : Point, P p = true → (p.binding ∈ set.map Point.binding ↔ p.binding ∈ set'.map Point.binding)) →
      dedupLoop set' (l.filter P) = (dedupLoop set l).filter P
  | [], _, _, _ => rfl
  | p :: l, set, set', h => by
    by_cases hp : P p = true
    · have e : set.any (sameBinding · p) = set'.any (sameBinding · p) := by
        rw [Bool.eq_iff_iff, any_binding, any_binding, h p hp]
      rw [List.filter_cons_of_pos hp]
      unfold dedupLoop
      rw [← e]
      split
      · exact dedupLoop_filter P hP l set set' h
      · rw [List.filter_cons_of_pos hp]
        congr 1
        exact dedupLoop_filter P hP l (p :: set) (p :: set') fun q hq => by
          simp only [List.map_cons, List.mem_cons, h q hq]
    · rw [List.filter_cons_of_neg hp]
      conv => rhs; unfold dedupLoop
      split
      · exact dedupLoop_filter P hP l set set' h
      · rw [List.filter_cons_of_neg hp]
        refine dedupLoop_filter P hP l (p :: set) set' fun q hq => ?_
        rw [← h q hq, List.map_cons, List.mem_cons]
        exact ⟨fun ho => ho.resolve_left fun e => hp (hP _ _ e ▸ hq), .inr⟩

theorem deduplicate_filter (P : Point → Bool) (hP : ∀ a b : Point, a.binding = b.binding → P a = P b) (l : List Point) :
    deduplicate (l.filter P) = (deduplicate l).filter P :=
  dedupLoop_filter P hP l [] [] fun _ _ => Iff.rfl

theorem dedupLoop_cons (set : List Point) (p : Point) (l : List Point) :
    dedupLoop set (p :: l) = if set.any (sameBinding · p) then dedupLoop set l else p :: dedupLoop (p :: set) l := rfl

theorem dedupLoop_append : ∀ (a b set : List Point), dedupLoop set (a ++ b) = dedupLoop set a ++ dedupLoop (a ++ set) b
  | [], _, _ => rfl
  | p :: a, b, set => by
    rw [List.cons_append, dedupLoop_cons, dedupLoop_cons]
    split
    · next hs =>
      rw [dedupLoop_append a b set]
      congr 1
      refine (dedupLoop_congr b _ _ fun q _ => ?_)
      rw [any_binding] at hs
      simp only [List.cons_append, List.map_cons, List.map_append, List.mem_cons, List.mem_append]
      constructor
      · exact .inr
      · rintro (e | h)
        · rw [e]; exact .inr hs
        · exact h
    · rw [dedupLoop_append a b (p :: set), List.cons_append]
      congr 2
      refine dedupLoop_congr b _ _ fun q _ => ?_
      simp only [List.cons_append, List.map_cons, List.map_append, List.mem_cons, List.mem_append]
      constructor
      · rintro (h | h | h)
        · exact .inr (.inl h)
        · exact .inl h
        · exact .inr (.inr h)
      · rintro (h | h | h)
        · exact .inr (.inl h)
        · exact .inl h
        · exact .inr (.inr h)

theorem mem_dedupLoop : ∀ (l set : List Point) (b : U64 × List (U32 × U32)),
    b ∈ (dedupLoop set l).map Point.binding ↔ b ∈ l.map Point.binding ∧ b ∉ set.map Point.binding
  | [], _, _ => by simp [dedupLoop]
  | p :: l, set, b => by
    unfold dedupLoop
    split
    · next hs =>
      rw [any_binding] at hs
      rw [mem_dedupLoop l set b, List.map_cons, List.mem_cons]
      constructor
      · rintro ⟨h1, h2⟩
        exact ⟨.inr h1, h2⟩
      · rintro ⟨rfl | h1, h2⟩
        · exact absurd hs h2
        · exact ⟨h1, h2⟩
    · next hs =>
      rw [any_binding] at hs
      rw [List.map_cons, List.mem_cons, mem_dedupLoop l (p :: set) b, List.map_cons, List.mem_cons, List.map_cons, List.mem_cons]
      constructor
      · rintro (rfl | ⟨h1, h2⟩)
        · exact ⟨.inl rfl, hs⟩
        · exact ⟨.inr h1, fun h => h2 (.inr h)⟩
      · rintro ⟨rfl | h1, h2⟩
        · exact .inl rfl
        · by_cases e : b = p.binding
          · exact .inl e
          · exact .inr ⟨h1, fun h => h.elim e h2⟩

theorem mem_deduplicate (l : List Point) (b : U64 × List (U32 × U32)) :
    b ∈ (deduplicate l).map Point.binding ↔ b ∈ l.map Point.binding := by
  unfold deduplicate
  rw [mem_dedupLoop]
  simp

theorem dedupLoop_nodup : ∀ (l set : List Point), ((dedupLoop set l).map Point.binding).Nodup
  | [], _ => by simp [dedupLoop]
  | p :: l, set => by
    unfold dedupLoop
    split
    · exact dedupLoop_nodup l set
    · rw [List.map_cons, List.nodup_cons]
      refine ⟨fun h => ?_, dedupLoop_nodup l _⟩
      rw [mem_dedupLoop] at h
      exact h.2 (by simp)

theorem deduplicate_nodup (l : List Point) : ((deduplicate l).map Point.binding).Nodup := dedupLoop_nodup l []

/-- After other answers, only those with new bindings are kept. -/
theorem deduplicate_append (a b : List Point) :
    deduplicate (a ++ b) = deduplicate a ++
      (deduplicate b).filter fun r => decide (r.binding ∉ (deduplicate a).map Point.binding) := by
  unfold deduplicate
  rw [dedupLoop_append, List.append_nil]
  congr 1
  have hd : ∀ x, x ∈ (dedupLoop [] a).map Point.binding ↔ x ∈ a.map Point.binding := fun x => mem_deduplicate a x
  simp only [hd]
  rw [← dedupLoop_filter (fun r => decide (r.binding ∉ a.map Point.binding)) (fun x y e => by simp only [e]) b [] a fun q hq => by
    simp only [decide_eq_true_eq] at hq
    simp [hq]]
  clear hd
  have gen : ∀ (b set : List Point), (∀ x ∈ a, x.binding ∈ set.map Point.binding) →
      dedupLoop set b = dedupLoop set (b.filter fun r => decide (r.binding ∉ a.map Point.binding)) := by
    intro b
    induction b with
    | nil => intro _ _; rfl
    | cons p b ih =>
      intro set hset
      by_cases hp : p.binding ∈ a.map Point.binding
      · rw [List.filter_cons_of_neg (by simp only [decide_eq_true_eq, Decidable.not_not]; exact hp)]
        have hs : set.any (sameBinding · p) = true := by
          rw [any_binding]
          obtain ⟨x, hx, e⟩ := List.mem_map.mp hp
          rw [← e]
          exact hset x hx
        conv => lhs; unfold dedupLoop
        rw [if_pos hs]
        exact ih set hset
      · rw [List.filter_cons_of_pos (by simp only [decide_eq_true_eq]; exact hp)]
        unfold dedupLoop
        rw [ih set hset, ih (p :: set) fun x hx => by
          rw [List.map_cons]
          exact List.mem_cons_of_mem _ (hset x hx)]
  exact gen b a fun x hx => List.mem_map_of_mem hx

/-- Duplicates are removed from the answers that there are otherwise. -/
theorem answersTo_distinct {fs : FloatSys} {env : Env} {pick : U32 → Nat → Nat} {t : Trace} {variables : List FreeVar}
    {hard : Pred} {soft : List Pred} {mask stmt : U64} {rs : List Point}
    (h : answersTo fs env pick t variables true hard soft mask stmt = .ok rs) :
    answersTo fs env pick t variables false hard soft mask stmt = .ok (deduplicate rs) := by
  unfold answersTo queryTrace at h ⊢
  cases hq : query env pick (plainEval fs) t ⟨variables, hard, soft, 0, mask, stmt⟩ [] () with
  | ok x =>
    rw [hq] at h
    cases h
    rfl
  | throw e => rw [hq] at h; cases h
  | abort => rw [hq] at h; cases h
  | ub k => rw [hq] at h; cases h
  | hang => rw [hq] at h; cases h

theorem fitsTypes_binding : ∀ (fvs : List FreeVar) (xs ys : List VarInfo),
    xs.map (fun v => (v.nameIndex, v.typeIndex)) = ys.map (fun v => (v.nameIndex, v.typeIndex)) →
    fitsTypes fvs xs = fitsTypes fvs ys
  | [], [], [], _ => rfl
  | [], [], _ :: _, h => by cases h
  | [], _ :: _, [], h => by cases h
  | [], _ :: _, _ :: _, _ => rfl
  | _ :: _, [], [], _ => rfl
  | _ :: _, [], _ :: _, h => by cases h
  | _ :: _, _ :: _, [], h => by cases h
  | fv :: fvs, x :: xs, y :: ys, h => by
    simp only [List.map_cons, List.cons.injEq, Prod.mk.injEq] at h
    unfold fitsTypes
    rw [h.1.2, fitsTypes_binding fvs xs ys h.2]

theorem reorder_map {α β : Type} (f : α → β) (order : List Nat) (l : List α) :
    (reorder order l).map f = reorder order (l.map f) := by
  unfold reorder
  rw [List.map_filterMap]
  congr 1
  funext i
  rw [List.getElem?_map]

theorem reorderAnswer_binding (order : List Nat) (r : Point) :
    (reorderAnswer order r).binding = (r.binding.1, reorder order r.binding.2) := by
  unfold reorderAnswer Point.binding
  rw [reorder_map]

theorem answers_length (fs : FloatSys) (env : Env) (pick : U32 → Nat → Nat) (t : Trace) (variables : List FreeVar)
    (h : Askable env t variables) (p : Pred) (hp : WellFormed variables.length p) (soft : List Pred)
    (hs : ∀ q ∈ soft, WellFormed variables.length q) (mask stmt : U64) (rs : List Point)
    (ha : answersTo fs env pick t variables true p soft mask stmt = .ok rs) :
    ∀ r ∈ rs, r.vars.length = variables.length := by
  rw [answersTo_soft fs env pick t variables h p _ (formOf_reads hp) soft _ (by simp) (formsOf_read hs) mask stmt] at ha
  cases ha
  intro r hr
  obtain ⟨x, _, hx⟩ := List.mem_flatMap.mp hr
  rw [bestAt_eq] at hx
  exact hardAt_length fs (List.mem_filter.mp hx).1

end TraceDB
