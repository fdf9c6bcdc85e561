import Verif.Spec.FunctionNames
import Verif.Proofs.StatementRuns
/-
Lemmas for C119.
-/
namespace TraceDB

theorem keywordNames_eq (name : List U8) : misidentifiedFunction name = keywordNames.contains name := by
  have : keywordNames = [[115, 116, 114, 117, 99, 116], [101, 110, 117, 109], [99, 108, 97, 115, 115],
    [110, 97, 109, 101, 115, 112, 97, 99, 101]] := by decide
  rw [this]
  rfl

/-- A site of a branch without braces. -/
def bareSite (s : AstSite × Nat) : Bool := s.1.ast.kind != .block && isBranch s.1.parent s.1.index

theorem isBareBranch_eq (pk : AstKind) (i : Nat) (k : AstKind) : isBareBranch pk i k = (k != .block && isBranch pk i) := by
  cases pk <;> rfl

mutual
theorem sites_bare : ∀ (x : Ast) (path : AstPath) (pk : AstKind) (i num : Nat),
    (((⟨path, pk, i, x⟩ :: x.sites path : List AstSite).zipIdx num).filter bareSite).map (·.2) = x.bareBranches pk i num
  | .mk k t b a cs, path, pk, i, num => by
    rw [Ast.sites, List.zipIdx_cons, Ast.bareBranches, ← sitesList_bare cs path k 0 (num + 1), isBareBranch_eq]
    by_cases hc : (k != .block && isBranch pk i) = true
    · rw [List.filter_cons_of_pos (by exact hc), if_pos hc]
      rfl
    · rw [List.filter_cons_of_neg (by exact hc), if_neg hc]
      rfl
theorem sitesList_bare : ∀ (cs : List Ast) (path : AstPath) (pk : AstKind) (i num : Nat),
    (((sitesList path pk i cs).zipIdx num).filter bareSite).map (·.2) = Ast.bareBranchesEach pk i num cs
  | [], _, _, _, _ => rfl
  | c :: cs, path, pk, i, num => by
    rw [sitesList, ← List.cons_append, List.zipIdx_append, List.filter_append, List.map_append,
      sites_bare c (path ++ [i]) pk i num, List.length_cons, sites_length, sitesList_bare cs path pk (i + 1), Ast.bareBranchesEach]
end

/-- A number belongs to one site. -/
theorem bare_number {l : List AstSite} {s : AstSite × Nat} (hs : s ∈ l.zipIdx) :
    (((l.zipIdx.filter bareSite).map (·.2)).contains s.2) = bareSite s := by
  rw [Bool.eq_iff_iff, List.contains_iff_mem, List.mem_map]
  constructor
  · rintro ⟨s', hs', e⟩
    obtain ⟨h1, h2⟩ := List.mem_filter.mp hs'
    have e1 := List.mem_zipIdx_iff_getElem?.mp hs
    have e2 := List.mem_zipIdx_iff_getElem?.mp h1
    rw [e, e1] at e2
    have : s = s' := Prod.ext (Option.some.inj e2) e.symm
    rw [this]
    exact h2
  · intro h
    exact ⟨s, List.mem_filter.mpr ⟨hs, h⟩, rfl⟩

theorem branch_not_traceable {pk : AstKind} {i : Nat} (h : isBranch pk i = true) (x : Ast) : traceableStmt pk x = false := by
  have : pk.isTraceableParent = false := by cases pk <;> first | rfl | cases h
  simp [traceableStmt, this]

theorem instrumentFunction_eq (name : List U8) (after : Bool) (ids : Nat → Nat) (filter : Nat → Bool) (root : Ast) :
    instrumentFunction name after ids filter root = instrumentBody after ids (pointsNamed name filter root) root := by
  obtain ⟨k, t, b, a, cs⟩ := root
  have hsites : tracedSitesIn name filter (.mk k t b a cs) = tracedSites (pointsNamed name filter (.mk k t b a cs)) (.mk k t b a cs) := by
    unfold tracedSitesIn tracedSites
    refine List.filter_congr fun s hs => ?_
    have hb := bare_number hs
    rw [Ast.sites, sitesList_bare] at hb
    unfold pointsNamed
    dsimp only
    rw [hb, ← keywordNames_eq]
    unfold canBeTracedIn traceableStmtIn canBeTraced bareSite
    cases misidentifiedFunction name <;> simp only [Bool.not_true, Bool.not_false, Bool.and_true, Bool.and_false, Bool.true_or,
      Bool.false_or]
    cases s.1.ast.kind != .block && isBranch s.1.parent s.1.index <;> simp
  have hwrap : ∀ s ∈ tracedSitesIn name filter (.mk k t b a cs),
      traceableStmtIn name s.1.parent s.1.ast = traceableStmt s.1.parent s.1.ast := by
    intro s hs
    have h := (List.mem_filter.mp hs).2
    unfold traceableStmtIn at h ⊢
    unfold canBeTracedIn traceableStmtIn at h
    cases hm : misidentifiedFunction name with
    | false => simp
    | true =>
      rw [hm] at h
      simp only [Bool.not_true, Bool.and_false, Bool.false_or, Bool.and_eq_true] at h
      rw [branch_not_traceable h.1.2]
      rfl
  unfold instrumentFunction instrumentBody
  rw [← hsites]
  have hin : ∀ s ∈ sortedSites (tracedSitesIn name filter (.mk k t b a cs)),
      traceableStmtIn name s.1.parent s.1.ast = traceableStmt s.1.parent s.1.ast :=
    fun s hs => hwrap s ((List.mergeSort_perm _ _).mem_iff.mp hs)
  generalize sortedSites (tracedSitesIn name filter (.mk k t b a cs)) = l at hin
  generalize (Ast.mk k t b a cs) = r
  induction l generalizing r with
  | nil => rfl
  | cons s l ih =>
    rw [List.foldl_cons, List.foldl_cons, hin s (by simp)]
    exact ih (fun s hs => hin s (List.mem_cons_of_mem _ hs)) _

mutual
theorem labelsSafe_bare (F : Nat → Bool) : ∀ (x : Ast) (pk : AstKind) (i num : Nat),
    x.switchesBraced = true → (∀ e, pk = .switch e → x.kind.isLabelled = false) → (∀ m ∈ x.bareBranches pk i num, F m = true) →
    x.labelsSafe F pk i num
  | .mk k t b a cs, pk, i, num, hs, hp, hF => by
    unfold Ast.switchesBraced at hs
    rw [Bool.and_eq_true] at hs
    rw [Ast.bareBranches] at hF
    rw [Ast.labelsSafe]
    refine ⟨?_, labelsSafeEach_bare F cs k 0 (num + 1) hs.2 ?_ fun m hm => hF m (List.mem_append_right _ hm)⟩
    · intro hk hh
      rcases hh with hh | ⟨e, he⟩
      · refine Or.inl ⟨hh, hF num (List.mem_append_left _ ?_)⟩
        rw [isBareBranch_eq, hh]
        have hne : (k != .block) = true := by cases k <;> first | rfl | cases hk
        rw [hne]
        simp
      · have := hp e he
        simp only [Ast.kind] at this
        rw [this] at hk
        cases hk
    · intro e he c hc
      subst he
      have h1 := hs.1
      simp only [List.all_eq_true, Bool.not_eq_true'] at h1
      exact h1 c hc
theorem labelsSafeEach_bare (F : Nat → Bool) : ∀ (cs : List Ast) (pk : AstKind) (i num : Nat),
    Ast.switchesBracedEach cs = true → (∀ e, pk = .switch e → ∀ c ∈ cs, c.kind.isLabelled = false) →
    (∀ m ∈ Ast.bareBranchesEach pk i num cs, F m = true) → Ast.labelsSafeEach F pk i num cs
  | [], _, _, _, _, _, _ => trivial
  | c :: cs, pk, i, num, hs, hp, hF => by
    rw [Ast.switchesBracedEach, Bool.and_eq_true] at hs
    rw [Ast.bareBranchesEach] at hF
    rw [Ast.labelsSafeEach]
    exact ⟨labelsSafe_bare F c pk i num hs.1 (fun e he => hp e he c (by simp)) fun m hm => hF m (List.mem_append_left _ hm),
      labelsSafeEach_bare F cs pk (i + 1) _ hs.2 (fun e he d hd => hp e he d (List.mem_cons_of_mem _ hd))
        fun m hm => hF m (List.mem_append_right _ hm)⟩
end

/-- Without a filter, no label is a problem. -/
theorem labelsSafe_named (name : List U8) (root : Ast) (hk : root.kind = .block) (hb : root.switchesBraced = true) :
    root.bodyLabelsSafe (pointsNamed name (fun _ => true) root) := by
  obtain ⟨k, t, b, a, cs⟩ := root
  cases hk
  unfold Ast.switchesBraced at hb
  rw [Bool.and_eq_true] at hb
  refine labelsSafeEach_bare _ cs .block 0 0 hb.2 (by intro e he; cases he) fun m hm => ?_
  unfold pointsNamed
  dsimp only
  rw [List.contains_iff_mem.mpr hm, Bool.or_true, Bool.and_true]

end TraceDB
