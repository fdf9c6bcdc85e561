import Verif.Spec.Statements
/-
Helper lemmas: changing the tree place by place from the end of the text is the same as
changing it all at once.
-/
namespace TraceDB

theorem fullStatement_eq (pk : AstKind) (i : Nat) (x : Ast) :
    isFullStatement pk i x = canBeTraced pk i x := by
  obtain ⟨k, t, b, a, cs⟩ := x
  cases pk <;> cases k <;>
    simp [isFullStatement, canBeTraced, traceableStmt, isBranch, Ast.kind, Ast.text,
      AstKind.isTraceableParent, AstKind.isStatement, Ast.isEmptyStatement, Ast.startsWithElse,
      bne, Bool.and_comm]

/-- A change at a place. -/
abbrev Edit := AstPath × (Ast → Ast)

/-- Changes in turn. -/
def applyEdits (es : List Edit) (x : Ast) : Ast := es.foldl (fun r e => r.modifyAt e.2 e.1) x

/-- The changes below child `i`. -/
def stripEdit (i : Nat) : Edit → Option Edit
  | ([], _) => none
  | (j :: p, f) => if j = i then some (p, f) else none

theorem applyEdits_below (es : List Edit) (h : ∀ e ∈ es, e.1 ≠ []) (k : AstKind) (t : List U8)
    (b a : List PointEvent) (cs : List Ast) :
    applyEdits es (.mk k t b a cs) =
      .mk k t b a (cs.mapIdx fun i c => applyEdits (es.filterMap (stripEdit i)) c) := by
  induction es generalizing cs with
  | nil =>
    simp only [applyEdits, List.foldl_nil, List.filterMap_nil]
    congr 1
    apply List.ext_getElem?
    intro m
    simp
  | cons e es ih =>
    obtain ⟨p, f⟩ := e
    cases p with
    | nil => exact absurd rfl (h ([], f) (by simp))
    | cons j p =>
      have hr : applyEdits ((j :: p, f) :: es) (.mk k t b a cs) =
          applyEdits es (.mk k t b a (cs.modify j (Ast.modifyAt f p))) := rfl
      rw [hr, ih (fun e he => h e (List.mem_cons_of_mem _ he))]
      congr 1
      apply List.ext_getElem?
      intro m
      rw [List.getElem?_mapIdx, List.getElem?_mapIdx, List.getElem?_modify]
      by_cases hm : j = m
      · subst hm
        cases hc : cs[j]? <;> simp [stripEdit, applyEdits]
      · cases hc : cs[m]? <;> simp [stripEdit, hm]

/-- The changed child. -/
def tracedEdit (after : Bool) (ids : Nat → Nat) (pk : AstKind) (num : Nat) (x : Ast) : Ast → Ast :=
  instrumentAst after (ids num) (!traceableStmt pk x)

mutual
/-- All changes of a tree, relative to its root. -/
def Ast.edits (after : Bool) (ids : Nat → Nat) (filter : Nat → Bool) (pk : AstKind) (i num : Nat) :
    Ast → List Edit
  | .mk k t b a cs =>
    (if canBeTraced pk i (.mk k t b a cs) && filter num then
      [([], tracedEdit after ids pk num (.mk k t b a cs))] else []) ++
    Ast.editsEach after ids filter k 0 (num + 1) cs
/-- Those of the children from number `i` on, relative to the parent. -/
def Ast.editsEach (after : Bool) (ids : Nat → Nat) (filter : Nat → Bool) (pk : AstKind) (i num : Nat) :
    List Ast → List Edit
  | [] => []
  | c :: cs =>
    (c.edits after ids filter pk i num).map (fun e => (i :: e.1, e.2)) ++
      Ast.editsEach after ids filter pk (i + 1) (num + c.count) cs
end

mutual
/-- The tree changed all at once. -/
def Ast.edited (after : Bool) (ids : Nat → Nat) (filter : Nat → Bool) (pk : AstKind) (i num : Nat) :
    Ast → Ast
  | .mk k t b a cs =>
    let x := Ast.mk k t b a (Ast.editedEach after ids filter k 0 (num + 1) cs)
    if canBeTraced pk i (.mk k t b a cs) && filter num then
      tracedEdit after ids pk num (.mk k t b a cs) x
    else x
def Ast.editedEach (after : Bool) (ids : Nat → Nat) (filter : Nat → Bool) (pk : AstKind) (i num : Nat) :
    List Ast → List Ast
  | [] => []
  | c :: cs =>
    c.edited after ids filter pk i num :: Ast.editedEach after ids filter pk (i + 1) (num + c.count) cs
end

/-- Later places first. -/
abbrev EditsOrdered (es : List Edit) : Prop :=
  es.Pairwise fun a b => pathLater b.1 a.1 = false

theorem editsEach_ne_nil (after : Bool) (ids : Nat → Nat) (filter : Nat → Bool) (cs : List Ast) :
    ∀ (pk : AstKind) (i num : Nat), ∀ e ∈ Ast.editsEach after ids filter pk i num cs, e.1 ≠ [] := by
  induction cs with
  | nil => intro pk i num e he; simp [Ast.editsEach] at he
  | cons c cs ih =>
    intro pk i num e he
    rw [Ast.editsEach, List.mem_append] at he
    rcases he with he | he
    · obtain ⟨e', _, rfl⟩ := List.mem_map.mp he
      simp
    · exact ih _ _ _ e he

/-- The children from number `i` on: what is changed below child number `j`. -/
theorem strip_editsEach_lt (after : Bool) (ids : Nat → Nat) (filter : Nat → Bool) (cs : List Ast) :
    ∀ (pk : AstKind) (i num j : Nat), j < i →
      (Ast.editsEach after ids filter pk i num cs).filterMap (stripEdit j) = [] := by
  induction cs with
  | nil => intros; simp [Ast.editsEach]
  | cons c cs ih =>
    intro pk i num j hj
    rw [Ast.editsEach, List.filterMap_append, ih pk (i + 1) _ j (by omega), List.append_nil,
      List.filterMap_map, List.filterMap_eq_nil_iff]
    intro e _
    simp [stripEdit, show i ≠ j by omega]

theorem strip_own (i : Nat) (l : List Edit) :
    (l.map fun e => (i :: e.1, e.2)).filterMap (stripEdit i) = l := by
  rw [List.filterMap_map]
  induction l with
  | nil => rfl
  | cons e l ih => simp [stripEdit] at ih ⊢; exact ih

theorem strip_other (i j : Nat) (h : i ≠ j) (l : List Edit) :
    (l.map fun e => (i :: e.1, e.2)).filterMap (stripEdit j) = [] := by
  rw [List.filterMap_map, List.filterMap_eq_nil_iff]
  intro e _
  simp [stripEdit, h]

theorem ordered_strip (i : Nat) (es : List Edit) (h : EditsOrdered es) :
    EditsOrdered (es.filterMap (stripEdit i)) := by
  apply List.Pairwise.filterMap (stripEdit i) _ h
  rintro ⟨p, f⟩ ⟨q, g⟩ hpq ⟨p', f'⟩ hp ⟨q', g'⟩ hq
  cases p with
  | nil => simp [stripEdit] at hp
  | cons a p =>
    cases q with
    | nil => simp [stripEdit] at hq
    | cons b q =>
      by_cases ha : a = i <;> by_cases hb : b = i <;>
        simp [stripEdit, ha, hb] at hp hq
      obtain ⟨rfl, rfl⟩ := hp
      obtain ⟨rfl, rfl⟩ := hq
      subst ha; subst hb
      simpa [pathLater] using hpq

theorem pathLater_nil {p : AstPath} (h : pathLater p [] = false) : p = [] := by
  cases p with
  | nil => rfl
  | cons a p => simp [pathLater] at h

/-- The change of the root comes last. -/
theorem root_edit_last (es : List Edit) (rest : List Edit) (f : Ast → Ast)
    (hp : es.Perm (([], f) :: rest)) (ho : EditsOrdered es) (hr : ∀ e ∈ rest, e.1 ≠ []) :
    ∃ es', es = es' ++ [([], f)] ∧ es'.Perm rest := by
  have hm : (([], f) : Edit) ∈ es := hp.mem_iff.mpr (by simp)
  obtain ⟨pre, post, rfl⟩ := List.append_of_mem hm
  have hpost : ∀ e ∈ post, e.1 = [] := by
    intro e he
    have := (List.pairwise_append.mp ho).2.1
    exact pathLater_nil ((List.pairwise_cons.mp this).1 e he)
  have hperm : (pre ++ post).Perm rest := by
    have : (([], f) :: (pre ++ post)).Perm (([], f) :: rest) :=
      (List.perm_middle.symm).trans hp
    exact (List.perm_cons _).mp this
  have : post = [] := by
    cases post with
    | nil => rfl
    | cons e post =>
      exact absurd (hpost e (by simp)) (hr e (hperm.mem_iff.mp (by simp)))
  subst this
  exact ⟨pre, rfl, by simpa using hperm⟩

mutual
theorem applyEdits_edited (after : Bool) (ids : Nat → Nat) (filter : Nat → Bool) :
    ∀ (x : Ast) (pk : AstKind) (i num : Nat) (es : List Edit),
      es.Perm (x.edits after ids filter pk i num) → EditsOrdered es →
      applyEdits es x = x.edited after ids filter pk i num
  | .mk k t b a cs, pk, i, num, es, hp, ho => by
    have hin : ∀ es' : List Edit, es'.Perm (Ast.editsEach after ids filter k 0 (num + 1) cs) →
        EditsOrdered es' → applyEdits es' (.mk k t b a cs) =
          .mk k t b a (Ast.editedEach after ids filter k 0 (num + 1) cs) := by
      intro es' hp' ho'
      rw [applyEdits_below es' (fun e he =>
        editsEach_ne_nil after ids filter cs _ _ _ e (hp'.mem_iff.mp he))]
      congr 1
      have := applyEdits_editedEach after ids filter cs k 0 (num + 1) es' ho'
        (fun j _ => hp'.filterMap _)
      simpa using this
    rw [Ast.edits] at hp
    rw [Ast.edited]
    by_cases hc : canBeTraced pk i (.mk k t b a cs) && filter num
    · rw [if_pos hc] at hp
      obtain ⟨es', rfl, hp'⟩ := root_edit_last es _ _ hp ho (editsEach_ne_nil after ids filter cs _ _ _)
      have happ : applyEdits (es' ++ [([], tracedEdit after ids pk num (.mk k t b a cs))]) (.mk k t b a cs) =
          tracedEdit after ids pk num (.mk k t b a cs) (applyEdits es' (.mk k t b a cs)) := by
        simp [applyEdits, Ast.modifyAt]
      rw [happ, hin es' hp' (List.pairwise_append.mp ho).1]
      simp [hc]
    · rw [if_neg hc, List.nil_append] at hp
      rw [hin es hp ho]
      simp [hc]
theorem applyEdits_editedEach (after : Bool) (ids : Nat → Nat) (filter : Nat → Bool) :
    ∀ (cs : List Ast) (pk : AstKind) (i num : Nat) (es : List Edit), EditsOrdered es →
      (∀ j, i ≤ j → (es.filterMap (stripEdit j)).Perm
        ((Ast.editsEach after ids filter pk i num cs).filterMap (stripEdit j))) →
      (cs.mapIdx fun j c => applyEdits (es.filterMap (stripEdit (i + j))) c) =
        Ast.editedEach after ids filter pk i num cs
  | [], pk, i, num, es, ho, hp => rfl
  | c :: cs, pk, i, num, es, ho, hp => by
    rw [List.mapIdx_cons, Ast.editedEach]
    congr 1
    · have h := hp i (Nat.le_refl i)
      rw [Ast.editsEach, List.filterMap_append, strip_own,
        strip_editsEach_lt after ids filter cs pk (i + 1) _ i (by omega), List.append_nil] at h
      exact applyEdits_edited after ids filter c pk i num _ h (ordered_strip _ _ ho)
    · rw [← applyEdits_editedEach after ids filter cs pk (i + 1) (num + c.count) es ho ?_]
      · apply List.ext_getElem?
        intro m
        simp [Nat.add_comm, Nat.add_left_comm]
      · intro j hj
        have h := hp j (by omega)
        rwa [Ast.editsEach, List.filterMap_append, strip_other i j (by omega), List.nil_append] at h
end

/-! The order -/

theorem pathLater_asymm : ∀ (p q : AstPath), pathLater p q = true → pathLater q p = false
  | [], q, h => by simp [pathLater] at h
  | _ :: _, [], _ => by simp [pathLater]
  | a :: p, b :: q, h => by
    simp only [pathLater, Bool.or_eq_true, decide_eq_true_eq, Bool.and_eq_true, beq_iff_eq] at h
    rcases h with h | ⟨rfl, h⟩
    · simp [pathLater, show ¬ a < b by omega, show b ≠ a by omega]
    · simp [pathLater, pathLater_asymm p q h]

theorem notLater_trans : ∀ (p q r : AstPath), pathLater q p = false → pathLater r q = false →
    pathLater r p = false
  | p, q, [], _, _ => by simp [pathLater]
  | p, [], r :: rs, _, h => by simp [pathLater] at h
  | [], q :: qs, r :: rs, h, _ => by simp [pathLater] at h
  | a :: p, b :: q, c :: r, h1, h2 => by
    simp only [pathLater, Bool.or_eq_false_iff, decide_eq_false_iff_not, Bool.and_eq_false_iff,
      beq_eq_false_iff_ne] at h1 h2 ⊢
    refine ⟨by omega, ?_⟩
    by_cases hca : c = a
    · right
      subst hca
      have hb : b = c := by omega
      subst hb
      exact notLater_trans p q r (by simpa using h1.2) (by simpa using h2.2)
    · exact Or.inl hca

theorem sortedSites_ordered (l : List (AstSite × Nat)) :
    (sortedSites l).Pairwise fun a b => pathLater b.1.path a.1.path = false := by
  have := List.pairwise_mergeSort (le := fun a b : AstSite × Nat => !pathLater b.1.path a.1.path)
    (fun a b c h1 h2 => by
      simp only [Bool.not_eq_true'] at h1 h2 ⊢
      exact notLater_trans _ _ _ h1 h2)
    (fun a b => by
      cases h : pathLater b.1.path a.1.path with
      | false => simp
      | true => simp [pathLater_asymm _ _ h]) l
  exact this.imp (fun h => by simpa using h)

/-! Numbers -/

mutual
theorem sites_length : ∀ (x : Ast) (path : AstPath), (x.sites path).length + 1 = x.count
  | .mk k t b a cs, path => by rw [Ast.sites, Ast.count, sitesList_length]
theorem sitesList_length : ∀ (cs : List Ast) (path : AstPath) (pk : AstKind) (i : Nat),
    (sitesList path pk i cs).length = Ast.countEach cs
  | [], _, _, _ => rfl
  | c :: cs, path, pk, i => by
    rw [sitesList, Ast.countEach, List.length_cons, List.length_append, sitesList_length cs,
      ← sites_length c (path ++ [i])]
    omega
end

/-- The change for a site. -/
def siteEdit (after : Bool) (ids : Nat → Nat) (s : AstSite × Nat) : Edit :=
  (s.1.path, tracedEdit after ids s.1.parent s.2 s.1.ast)

/-- Is a site to be changed? -/
def siteTraced (filter : Nat → Bool) (s : AstSite × Nat) : Bool :=
  canBeTraced s.1.parent s.1.index s.1.ast && filter s.2

mutual
theorem sites_edits (after : Bool) (ids : Nat → Nat) (filter : Nat → Bool) :
    ∀ (x : Ast) (path : AstPath) (pk : AstKind) (i num : Nat),
      (((⟨path, pk, i, x⟩ :: x.sites path : List AstSite).zipIdx num).filter (siteTraced filter)).map
        (siteEdit after ids) =
      (x.edits after ids filter pk i num).map fun e => (path ++ e.1, e.2)
  | .mk k t b a cs, path, pk, i, num => by
    rw [Ast.sites, List.zipIdx_cons, Ast.edits, List.map_append,
      ← sitesList_edits after ids filter cs path k 0 (num + 1)]
    by_cases hc : canBeTraced pk i (.mk k t b a cs) && filter num
    · rw [List.filter_cons_of_pos (by exact hc), if_pos hc]
      simp [siteEdit]
    · rw [List.filter_cons_of_neg (by exact hc), if_neg hc]
      simp
theorem sitesList_edits (after : Bool) (ids : Nat → Nat) (filter : Nat → Bool) :
    ∀ (cs : List Ast) (path : AstPath) (pk : AstKind) (i num : Nat),
      (((sitesList path pk i cs).zipIdx num).filter (siteTraced filter)).map (siteEdit after ids) =
      (Ast.editsEach after ids filter pk i num cs).map fun e => (path ++ e.1, e.2)
  | [], _, _, _, _ => rfl
  | c :: cs, path, pk, i, num => by
    rw [sitesList, ← List.cons_append, List.zipIdx_append, List.filter_append, List.map_append,
      sites_edits after ids filter c (path ++ [i]) pk i num, List.length_cons, sites_length,
      sitesList_edits after ids filter cs path pk (i + 1), Ast.editsEach, List.map_append, List.map_map]
    simp [Function.comp_def]
end

theorem instrumentBody_edited (after : Bool) (ids : Nat → Nat) (filter : Nat → Bool) (k : AstKind)
    (t : List U8) (b a : List PointEvent) (cs : List Ast) :
    instrumentBody after ids filter (.mk k t b a cs) =
      .mk k t b a (Ast.editedEach after ids filter k 0 0 cs) := by
  have h1 : instrumentBody after ids filter (.mk k t b a cs) =
      applyEdits ((sortedSites (tracedSites filter (.mk k t b a cs))).map (siteEdit after ids))
        (.mk k t b a cs) := by
    rw [instrumentBody, applyEdits, List.foldl_map]
    rfl
  have hperm : ((sortedSites (tracedSites filter (.mk k t b a cs))).map (siteEdit after ids)).Perm
      (Ast.editsEach after ids filter k 0 0 cs) := by
    refine ((List.mergeSort_perm _ _).map _).trans ?_
    have := sitesList_edits after ids filter cs [] k 0 0
    simp only [List.nil_append, List.map_id'] at this
    rw [← this]
    exact List.Perm.refl _
  have ho : EditsOrdered ((sortedSites (tracedSites filter (.mk k t b a cs))).map (siteEdit after ids)) :=
    List.pairwise_map.mpr (sortedSites_ordered _)
  rw [h1, applyEdits_below _ (fun e he =>
    editsEach_ne_nil after ids filter cs _ _ _ e (hperm.mem_iff.mp he))]
  congr 1
  have := applyEdits_editedEach after ids filter cs k 0 0 _ ho (fun j _ => hperm.filterMap _)
  simpa using this

end TraceDB
