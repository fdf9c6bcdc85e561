import Verif.Spec.Uninstrument
import Verif.Proofs.StatementEdits
/-
Helper lemmas: removing blocks from the last to the first is the same as removing them
all at once, and undoes the instrumentation.
-/
namespace TraceDB

/-- Changes from the last place to the first. -/
abbrev unwrapAt (ps : List AstPath) (x : Ast) : Ast := ps.foldr (fun p r => r.modifyAt unwrapBlock p) x

mutual
/-- The annotated blocks of a tree, relative to its root. -/
def Ast.wrappersIn : Ast → List AstPath
  | .mk k t b a cs => (if (Ast.mk k t b a cs).isWrapper then [[]] else []) ++ wrappersEach 0 cs
def wrappersEach (i : Nat) : List Ast → List AstPath
  | [] => []
  | c :: cs => c.wrappersIn.map (i :: ·) ++ wrappersEach (i + 1) cs
end

mutual
/-- The tree without the annotated blocks. -/
def Ast.unwrapped : Ast → Ast
  | .mk k t b a cs =>
    let x := Ast.mk k t b a (unwrappedEach cs)
    if (Ast.mk k t b a cs).isWrapper then unwrapBlock x else x
def unwrappedEach : List Ast → List Ast
  | [] => []
  | c :: cs => c.unwrapped :: unwrappedEach cs
end

mutual
theorem sites_wrappers : ∀ (x : Ast) (path : AstPath) (pk : AstKind) (i : Nat),
    ((⟨path, pk, i, x⟩ :: x.sites path : List AstSite).filter fun s => s.ast.isWrapper).map (fun s => s.path) =
      x.wrappersIn.map (path ++ ·)
  | .mk k t b a cs, path, pk, i => by
    rw [Ast.sites, Ast.wrappersIn, List.map_append, ← sitesList_wrappers cs path k 0]
    by_cases h : (Ast.mk k t b a cs).isWrapper
    · simp [List.filter_cons, h]
    · simp [List.filter_cons, h]
theorem sitesList_wrappers : ∀ (cs : List Ast) (path : AstPath) (pk : AstKind) (i : Nat),
    ((sitesList path pk i cs).filter fun s => s.ast.isWrapper).map (fun s => s.path) =
      (wrappersEach i cs).map (path ++ ·)
  | [], _, _, _ => rfl
  | c :: cs, path, pk, i => by
    rw [sitesList, ← List.cons_append, List.filter_append, List.map_append, sites_wrappers c (path ++ [i]) pk i,
      sitesList_wrappers cs path pk (i + 1), wrappersEach, List.map_append, List.map_map]
    simp [Function.comp_def]
end

theorem unwrapAt_child (i : Nat) (ps : List AstPath) (k : AstKind) (t : List U8) (b a : List PointEvent)
    (cs : List Ast) :
    unwrapAt (ps.map (i :: ·)) (.mk k t b a cs) = .mk k t b a (cs.modify i (unwrapAt ps)) := by
  induction ps with
  | nil =>
    simp only [unwrapAt, List.map_nil, List.foldr_nil]
    congr 1
    apply List.ext_getElem?
    intro m
    rw [List.getElem?_modify]
    by_cases h : i = m <;> simp [h]
  | cons p ps ih =>
    have : unwrapAt ((p :: ps).map (i :: ·)) (.mk k t b a cs) =
        (unwrapAt (ps.map (i :: ·)) (.mk k t b a cs)).modifyAt unwrapBlock (i :: p) := rfl
    rw [this, ih, Ast.modifyAt]
    congr 1
    apply List.ext_getElem?
    intro m
    rw [List.getElem?_modify, List.getElem?_modify, List.getElem?_modify]
    by_cases h : i = m
    · subst h
      cases cs[i]? <;> simp [unwrapAt]
    · simp [h]

theorem modify_after {α : Type} (f : α → α) (x : α) (post : List α) : ∀ (pre : List α),
    (pre ++ x :: post).modify pre.length f = pre ++ f x :: post
  | [] => rfl
  | y :: pre => by
    show y :: (pre ++ x :: post).modify pre.length f = _
    rw [modify_after f x post pre]
    rfl

mutual
theorem unwrapAt_in : ∀ (x : Ast), unwrapAt x.wrappersIn x = x.unwrapped
  | .mk k t b a cs => by
    have h : unwrapAt (wrappersEach 0 cs) (.mk k t b a cs) = .mk k t b a (unwrappedEach cs) := by
      simpa using unwrapAt_each cs [] k t b a
    rw [Ast.wrappersIn, Ast.unwrapped]
    by_cases hw : (Ast.mk k t b a cs).isWrapper
    · rw [if_pos hw]
      simp only [hw, if_true]
      show Ast.modifyAt unwrapBlock [] (unwrapAt (wrappersEach 0 cs) (.mk k t b a cs)) = _
      rw [h, Ast.modifyAt]
    · rw [if_neg hw]
      simp only [hw, List.nil_append]
      exact h
theorem unwrapAt_each : ∀ (cs pre : List Ast) (k : AstKind) (t : List U8) (b a : List PointEvent),
    unwrapAt (wrappersEach pre.length cs) (.mk k t b a (pre ++ cs)) = .mk k t b a (pre ++ unwrappedEach cs)
  | [], pre, k, t, b, a => by simp [wrappersEach, unwrappedEach, unwrapAt]
  | c :: cs, pre, k, t, b, a => by
    have ih := unwrapAt_each cs (pre ++ [c]) k t b a
    rw [List.length_append, List.length_singleton, List.append_assoc, List.append_assoc] at ih
    have : unwrapAt (wrappersEach pre.length (c :: cs)) (.mk k t b a (pre ++ c :: cs)) =
        unwrapAt (c.wrappersIn.map (pre.length :: ·))
          (unwrapAt (wrappersEach (pre.length + 1) cs) (.mk k t b a (pre ++ c :: cs))) := by
      rw [wrappersEach, unwrapAt, List.foldr_append]
    rw [this]
    simp only [List.singleton_append] at ih
    rw [ih, unwrapAt_child]
    congr 1
    rw [modify_after, unwrapAt_in c, unwrappedEach]
end

theorem removeWrappers_eq (k : AstKind) (t : List U8) (b a : List PointEvent) (cs : List Ast) :
    removeWrappers (.mk k t b a cs) = .mk k t b a (unwrappedEach cs) := by
  have h := unwrapAt_each cs [] k t b a
  have hs := sitesList_wrappers cs [] k 0
  simp only [List.nil_append, List.map_id'] at hs
  rw [removeWrappers, List.foldl_reverse, wrapperPaths, Ast.sites, hs]
  exact h

mutual
/-- Removing blocks and calls undoes the changes. -/
theorem unwrapped_edited (after : Bool) (ids : Nat → Nat) (filter : Nat → Bool) :
    ∀ (x : Ast) (pk : AstKind) (i num : Nat), x.plain = true → x.bracesShown = true →
      (x.edited after ids filter pk i num).unwrapped.cutCalls = x
  | .mk k t b a cs, pk, i, num, hp, hb => by
    rw [Ast.plain, Bool.and_eq_true, Bool.and_eq_true] at hp
    rw [Ast.bracesShown, Bool.and_eq_true] at hb
    obtain ⟨⟨h1, h2⟩, h3⟩ := hp
    rw [List.isEmpty_iff] at h1 h2
    subst h1; subst h2
    have ih := unwrapped_editedEach after ids filter cs k 0 (num + 1) h3 hb.2
    have hw : ∀ (b a : List PointEvent) (cs : List Ast), (Ast.mk k t b a cs).isWrapper = false := by
      intro b a cs
      have := hb.1
      simp only [Ast.isWrapper, Ast.kind, Ast.text]
      cases t <;> simp_all
    have hin : ∀ (b a : List PointEvent),
        (Ast.mk k t b a (Ast.editedEach after ids filter k 0 (num + 1) cs)).unwrapped.cutCalls = .mk k t [] [] cs := by
      intro b a
      rw [Ast.unwrapped]
      simp only [hw, Bool.false_eq_true, if_false]
      rw [Ast.cutCalls, ih]
    rw [Ast.edited]
    by_cases hc : canBeTraced pk i (.mk k t [] [] cs) && filter num
    · simp only [hc, if_true, tracedEdit, instrumentAst]
      split
      · rw [Ast.unwrapped]
        simp only [Ast.isWrapper, Ast.kind, Ast.text, unwrappedEach, unwrapBlock]
        exact hin _ _
      · exact hin _ _
    · simp only [hc]
      exact hin _ _
theorem unwrapped_editedEach (after : Bool) (ids : Nat → Nat) (filter : Nat → Bool) :
    ∀ (cs : List Ast) (pk : AstKind) (i num : Nat), Ast.plainEach cs = true → Ast.bracesShownEach cs = true →
      cutCallsEach (unwrappedEach (Ast.editedEach after ids filter pk i num cs)) = cs
  | [], _, _, _, _, _ => rfl
  | c :: cs, pk, i, num, hp, hb => by
    rw [Ast.plainEach, Bool.and_eq_true] at hp
    rw [Ast.bracesShownEach, Bool.and_eq_true] at hb
    rw [Ast.editedEach, unwrappedEach, cutCallsEach, unwrapped_edited after ids filter c pk i num hp.1 hb.1,
      unwrapped_editedEach after ids filter cs pk (i + 1) _ hp.2 hb.2]
end

/-- A file without its instrumentation is the file before. -/
theorem root_restored (after : Bool) (ids : Nat → Nat) (filter : Nat → Bool) (x : Ast)
    (hp : x.plain = true) (hb : x.bracesShown = true) :
    (removeWrappers (instrumentBody after ids filter x)).cutCalls = x := by
  obtain ⟨k, t, b, a, cs⟩ := x
  rw [instrumentBody_edited, removeWrappers_eq, Ast.cutCalls]
  rw [Ast.plain, Bool.and_eq_true, Bool.and_eq_true] at hp
  rw [Ast.bracesShown, Bool.and_eq_true] at hb
  obtain ⟨⟨h1, h2⟩, h3⟩ := hp
  rw [List.isEmpty_iff] at h1 h2
  subst h1; subst h2
  rw [unwrapped_editedEach after ids filter cs k 0 0 h3 hb.2]

end TraceDB
