import Verif.Proofs.Groups
/-
Helper lemmas: preprocessing keeps trees without points so, and what is next to unparsed
text is left alone.
-/
namespace TraceDB

theorem plainEach_append : ∀ (l m : List Ast), Ast.plainEach (l ++ m) = (Ast.plainEach l && Ast.plainEach m)
  | [], m => by simp [Ast.plainEach]
  | c :: l, m => by rw [List.cons_append, Ast.plainEach, Ast.plainEach, plainEach_append l m, Bool.and_assoc]

theorem attachText_plain : ∀ (l : List Ast) (t : List U8) (ts m : List Ast), Ast.plainEach ts = true →
    Ast.plainEach l = true → attachText t ts l = some m → Ast.plainEach m = true
  | [], _, _, _, _, _, h => by simp [attachText] at h
  | .mk k t' b a cs :: r, t, ts, m, hts, hl, h => by
    simp only [Ast.plainEach, Ast.plain, Bool.and_eq_true, List.isEmpty_iff] at hl
    obtain ⟨⟨⟨rfl, rfl⟩, hcs⟩, hr⟩ := hl
    cases k <;> simp [attachText] at h
    · subst h
      simp [Ast.plainEach, Ast.plain, plainEach_append, hts, hcs, hr]
    · obtain ⟨r', h1, rfl⟩ := h
      simp [Ast.plainEach, Ast.plain, hcs, attachText_plain r t ts r' hts hr h1]

theorem joinRow_plain : ∀ (l : List Ast), Ast.plainEach l = true → Ast.plainEach (joinRow l) = true
  | [], _ => rfl
  | .mk k t b a cs :: r, h => by
    have h' := h
    simp only [Ast.plainEach, Ast.plain, Bool.and_eq_true, List.isEmpty_iff] at h'
    obtain ⟨⟨⟨rfl, rfl⟩, hcs⟩, hr⟩ := h'
    have ih := joinRow_plain r hr
    have hno : Ast.plainEach (.mk k t [] [] cs :: joinRow r) = true := by
      simp [Ast.plainEach, Ast.plain, hcs, ih]
    rw [joinRow]
    split
    · cases he : attachText t cs (joinRow r) with
      | none => exact hno
      | some m => exact attachText_plain _ _ _ _ hcs ih he
    · exact hno

theorem asFragment_plain : ∀ (l : List Ast), Ast.plainEach (l.map Ast.asFragment) = Ast.plainEach l
  | [] => rfl
  | .mk k t b a cs :: r => by
    simp [Ast.plainEach, Ast.asFragment, Ast.plain, asFragment_plain r]

theorem kids_plain (ρ : Nat → Bool) (k : AstKind) (cs : List Ast) (h : Ast.plainEach (Ast.resolveEach ρ cs) = true) :
    Ast.plainEach (kidsOf ρ k cs) = true := by
  rw [kidsOf]
  split
  · exact joinRow_plain _ h
  · exact h

mutual
theorem resolve_plain (ρ : Nat → Bool) : ∀ (x : Ast), x.plain = true → Ast.plainEach (x.resolve ρ) = true
  | .mk k t b a cs, h => by
    simp only [Ast.plain, Bool.and_eq_true, List.isEmpty_iff] at h
    obtain ⟨⟨rfl, rfl⟩, hcs⟩ := h
    have h1 := resolveEach_plain ρ cs hcs
    have h2 := fun c => resolveItems_plain ρ cs c hcs
    have h3 := resolveOther_plain ρ cs hcs
    have hif : ∀ c : Nat, Ast.plainEach (if ρ c then Ast.resolveItems ρ true cs else Ast.resolveOther ρ cs) = true := by
      intro c
      split
      · exact h2 true
      · exact h3
    by_cases hg : k.isGroupPart = true
    · cases k <;> simp [AstKind.isGroupPart] at hg <;>
        simp only [Ast.resolve, loosePoints, List.nil_append, List.append_nil] <;>
        first | exact hif _ | exact h2 false
    · rw [resolve_other ρ (by simpa using hg)]
      simp [Ast.plainEach, Ast.plain, kids_plain ρ k cs h1]
theorem resolveEach_plain (ρ : Nat → Bool) : ∀ (cs : List Ast), Ast.plainEach cs = true →
    Ast.plainEach (Ast.resolveEach ρ cs) = true
  | [], _ => rfl
  | c :: cs, h => by
    rw [Ast.plainEach, Bool.and_eq_true] at h
    rw [Ast.resolveEach, plainEach_append, resolve_plain ρ c h.1, resolveEach_plain ρ cs h.2]
    rfl
theorem resolveItems_plain (ρ : Nat → Bool) : ∀ (cs : List Ast) (cond : Bool), Ast.plainEach cs = true →
    Ast.plainEach (Ast.resolveItems ρ cond cs) = true
  | [], _, _ => rfl
  | c :: cs, cond, h => by
    rw [Ast.plainEach, Bool.and_eq_true] at h
    rw [Ast.resolveItems, plainEach_append, resolveItems_plain ρ cs false h.2, Bool.and_true]
    split
    · rfl
    · split
      · rw [asFragment_plain]
        exact resolve_plain ρ c h.1
      · exact resolve_plain ρ c h.1
theorem resolveOther_plain (ρ : Nat → Bool) : ∀ (cs : List Ast), Ast.plainEach cs = true →
    Ast.plainEach (Ast.resolveOther ρ cs) = true
  | [], _ => rfl
  | c :: cs, h => by
    rw [Ast.plainEach, Bool.and_eq_true] at h
    rw [Ast.resolveOther, plainEach_append, resolveOther_plain ρ cs h.2, Bool.and_true]
    split
    · exact resolve_plain ρ c h.1
    · rfl
end

theorem preprocess_plain (ρ : Nat → Bool) (x : Ast) (h : x.plain = true) : (x.preprocess ρ).plain = true := by
  obtain ⟨k, t, b, a, cs⟩ := x
  rw [Ast.plain, Bool.and_eq_true] at h
  rw [Ast.preprocess, Ast.plain, h.1, Bool.true_and]
  exact kids_plain ρ k cs (resolveEach_plain ρ cs h.2)

/-! Next to unparsed text -/

/-- A changed AST: itself with changed children and maybe points, or a block with it. -/
theorem editedC_cases (after : Bool) (ids : Nat → Nat) (filter : Nat → Bool) (k : AstKind) (t : List U8)
    (cs : List Ast) (pk : AstKind) (i : Nat) (pinc inc : Bool) (num : Nat) :
    (∃ b a, ((b = [] ∧ a = []) ∨ (traceableStmt pk (.mk k t [] [] cs) = true ∧ inc = false ∧ pinc = false)) ∧
      (Ast.mk k t [] [] cs).editedC after ids filter pk i pinc inc num =
        .mk k t b a (Ast.editedCEach after ids filter k inc 0 none (num + 1) cs)) ∨
    (inc = false ∧ ∃ b a, (Ast.mk k t [] [] cs).editedC after ids filter pk i pinc inc num =
        .mk .block [] [] [] [.mk k t b a (Ast.editedCEach after ids filter k inc 0 none (num + 1) cs)]) := by
  rw [Ast.editedC]
  by_cases hc : canBeTraced pk i (.mk k t [] [] cs) && (filter num && notRuledOut pk i pinc inc)
  · simp only [hc, if_true]
    simp only [Bool.and_eq_true, notRuledOut, Bool.not_eq_true', Bool.or_eq_true] at hc
    rw [tracedEdit]
    cases hw : traceableStmt pk (.mk k t [] [] cs)
    · exact Or.inr ⟨hc.2.2.1, _, _, rfl⟩
    · refine Or.inl ⟨_, _, Or.inr ⟨rfl, hc.2.2.1, ?_⟩, rfl⟩
      rcases hc.2.2.2 with h | h
      · have hp : pk.isTraceableParent = true := by
          cases hp : pk.isTraceableParent
          · simp [traceableStmt, hp] at hw
          · rfl
        rw [parent_noBranch hp] at h
        cases h
      · exact h
  · simp only [hc]
    exact Or.inl ⟨[], [], Or.inl ⟨rfl, rfl⟩, rfl⟩

/-- Incomplete ASTs are left alone. -/
theorem untouched_incomplete (after : Bool) (ids : Nat → Nat) (filter : Nat → Bool) (c : Ast)
    (hp : c.plain = true) (pk : AstKind) (i : Nat) (pinc : Bool) (num : Nat) :
    (c.editedC after ids filter pk i pinc true num).untouched = true := by
  obtain ⟨k, t, b, a, cs⟩ := c
  simp only [Ast.plain, Bool.and_eq_true, List.isEmpty_iff] at hp
  obtain ⟨⟨rfl, rfl⟩, hcs⟩ := hp
  rw [editedC_skip k t [] [] cs pk i pinc true num (Or.inr rfl)]
  match cs, hcs with
  | [], _ => rfl
  | .mk k' t' b' a' cs' :: [], hcs =>
    simp only [Ast.plainEach, Ast.plain, Bool.and_eq_true, List.isEmpty_iff] at hcs
    obtain ⟨⟨⟨rfl, rfl⟩, _⟩, _⟩ := hcs
    rw [Ast.editedCEach, Ast.editedCEach]
    rcases editedC_cases after ids filter k' t' cs' k 0 true
      (possiblyIncomplete none (List.head? ([] : List Ast))) (num + 1) with ⟨b, a, h, he⟩ | ⟨_, b, a, he⟩
    · rw [he]
      rcases h with ⟨rfl, rfl⟩ | ⟨_, _, h⟩
      · rfl
      · cases h
    · rw [he]
      rfl
  | c :: d :: cs, _ =>
    rw [Ast.editedCEach, Ast.editedCEach]
    simp [Ast.untouched]

theorem getLast?_edited (after : Bool) (ids : Nat → Nat) (filter : Nat → Bool) (pk : AstKind)
    (hp : pk.isTraceableParent = true) : ∀ (cs : List Ast) (pinc : Bool) (i : Nat) (prev : Option Ast) (num : Nat),
    ((Ast.editedCEach after ids filter pk pinc i prev num cs).getLast?.any fun x => x.kind.isCStatement) =
      (cs.getLast?.any fun x => x.kind.isCStatement)
  | [], _, _, _, _ => rfl
  | [c], pinc, i, prev, num => by
    simp [Ast.editedCEach, editedC_kind _ _ _ _ _ _ hp]
  | c :: d :: cs, pinc, i, prev, num => by
    have ih := getLast?_edited after ids filter pk hp (d :: cs) pinc (i + 1) (some c) (num + c.count)
    rw [Ast.editedCEach, List.getLast?_cons_cons]
    rw [Ast.editedCEach] at ih ⊢
    rw [List.getLast?_cons_cons]
    exact ih

/-- What may be a piece was one before, and makes the next one incomplete. -/
theorem piece_incomplete (after : Bool) (ids : Nat → Nat) (filter : Nat → Bool) (c : Ast) (hp : c.plain = true)
    (pk : AstKind) (i : Nat) (pinc inc : Bool) (num : Nat)
    (h : (c.editedC after ids filter pk i pinc inc num).mayBePiece = true) (next : Option Ast) :
    possiblyIncomplete (some c) next = true := by
  obtain ⟨k, t, b, a, cs⟩ := c
  simp only [Ast.plain, Bool.and_eq_true, List.isEmpty_iff] at hp
  obtain ⟨⟨rfl, rfl⟩, hcs⟩ := hp
  rcases editedC_cases after ids filter k t cs pk i pinc inc num with ⟨b, a, _, he⟩ | ⟨_, b, a, he⟩
  · rw [he, Ast.mayBePiece] at h
    cases k <;> simp only [finishedHere, Bool.not_eq_true', Bool.true_eq_false] at h
    · rw [getLast?_edited after ids filter _ rfl] at h
      simp only [possiblyIncomplete, Ast.isUnfinishedGroup, endsInStatement_eq, h]
      rfl
    · rfl
  · rw [he] at h
    cases h

theorem fragment_kind (after : Bool) (ids : Nat → Nat) (filter : Nat → Bool) (c : Ast) (hp : c.plain = true)
    (pk : AstKind) (i : Nat) (pinc inc : Bool) (num : Nat)
    (h : (c.editedC after ids filter pk i pinc inc num).kind = .fragment) : c.kind = .fragment := by
  obtain ⟨k, t, b, a, cs⟩ := c
  simp only [Ast.plain, Bool.and_eq_true, List.isEmpty_iff] at hp
  obtain ⟨⟨rfl, rfl⟩, hcs⟩ := hp
  rcases editedC_cases after ids filter k t cs pk i pinc inc num with ⟨b, a, _, he⟩ | ⟨_, b, a, he⟩
  · rw [he] at h
    exact h
  · rw [he] at h
    cases h

theorem keptRow_edited (after : Bool) (ids : Nat → Nat) (filter : Nat → Bool) (pk : AstKind) :
    ∀ (cs : List Ast) (pinc : Bool) (i : Nat) (prev : Option Ast) (num : Nat), Ast.plainEach cs = true →
      keptRow (Ast.editedCEach after ids filter pk pinc i prev num cs) = true
  | [], _, _, _, _, _ => rfl
  | [c], _, _, _, _, _ => by simp [Ast.editedCEach, keptRow]
  | c :: d :: cs, pinc, i, prev, num, h => by
    have h' := h
    rw [Ast.plainEach, Bool.and_eq_true, Ast.plainEach, Bool.and_eq_true] at h'
    have ih := keptRow_edited after ids filter pk (d :: cs) pinc (i + 1) (some c) (num + c.count) (by
      rw [Ast.plainEach, h'.2.1, h'.2.2]; rfl)
    rw [Ast.editedCEach, keptRow, ih, Bool.and_true]
    rw [Ast.editedCEach]
    simp only [List.head?_cons, Bool.and_eq_true, Bool.or_eq_true, bne_iff_ne, Bool.not_eq_true']
    refine ⟨?_, ?_⟩
    · by_cases hk : (d.editedC after ids filter pk (i + 1) pinc (possiblyIncomplete (some c) cs.head?)
          (num + c.count)).kind = .fragment
      · have hd := fragment_kind after ids filter d h'.2.1 _ _ _ _ _ hk
        have hinc : possiblyIncomplete prev (some d) = true := by
          simp [possiblyIncomplete, hd, AstKind.isFragment]
        rw [hinc]
        exact Or.inr (untouched_incomplete after ids filter c h'.1 pk i pinc num)
      · exact Or.inl hk
    · cases hm : (c.editedC after ids filter pk i pinc (possiblyIncomplete prev (some d)) num).mayBePiece
      · exact Or.inl rfl
      · rw [piece_incomplete after ids filter c h'.1 _ _ _ _ _ hm cs.head?]
        exact Or.inr (untouched_incomplete after ids filter d h'.2.1 pk (i + 1) pinc (num + c.count))

mutual
theorem kept_edited (after : Bool) (ids : Nat → Nat) (filter : Nat → Bool) :
    ∀ (c : Ast) (pk : AstKind) (i : Nat) (pinc inc : Bool) (num : Nat), c.plain = true →
      (c.editedC after ids filter pk i pinc inc num).kept = true
  | .mk k t b a cs, pk, i, pinc, inc, num, h => by
    simp only [Ast.plain, Bool.and_eq_true, List.isEmpty_iff] at h
    obtain ⟨⟨rfl, rfl⟩, hcs⟩ := h
    have h1 := keptRow_edited after ids filter k cs inc 0 none (num + 1) hcs
    have h2 := keptEach_edited after ids filter cs k inc 0 none (num + 1) hcs
    rcases editedC_cases after ids filter k t cs pk i pinc inc num with ⟨b, a, _, he⟩ | ⟨_, b, a, he⟩
    · rw [he, Ast.kept, h1, h2]
      rfl
    · rw [he]
      simp [Ast.kept, Ast.keptEach, keptRow, h1, h2]
theorem keptEach_edited (after : Bool) (ids : Nat → Nat) (filter : Nat → Bool) :
    ∀ (cs : List Ast) (pk : AstKind) (pinc : Bool) (i : Nat) (prev : Option Ast) (num : Nat),
      Ast.plainEach cs = true → Ast.keptEach (Ast.editedCEach after ids filter pk pinc i prev num cs) = true
  | [], _, _, _, _, _, _ => rfl
  | c :: cs, pk, pinc, i, prev, num, h => by
    rw [Ast.plainEach, Bool.and_eq_true] at h
    rw [Ast.editedCEach, Ast.keptEach, kept_edited after ids filter c pk i pinc _ num h.1,
      keptEach_edited after ids filter cs pk pinc (i + 1) _ _ h.2]
    rfl
end

/-! Bodies where nothing is incomplete -/

mutual
theorem editedC_finished (after : Bool) (ids : Nat → Nat) (filter : Nat → Bool) :
    ∀ (c : Ast) (pk : AstKind) (i num : Nat), c.finished = true →
      c.editedC after ids filter pk i false false num = c.edited after ids filter pk i num
  | .mk k t b a cs, pk, i, num, h => by
    rw [Ast.finished, Bool.and_eq_true] at h
    rw [Ast.editedC, Ast.edited, editedCEach_finished after ids filter cs k 0 none (num + 1) h.2 rfl]
    simp [notRuledOut]
theorem editedCEach_finished (after : Bool) (ids : Nat → Nat) (filter : Nat → Bool) :
    ∀ (cs : List Ast) (pk : AstKind) (i : Nat) (prev : Option Ast) (num : Nat), Ast.finishedEach cs = true →
      possiblyIncomplete prev none = false →
      Ast.editedCEach after ids filter pk false i prev num cs = Ast.editedEach after ids filter pk i num cs
  | [], _, _, _, _, _, _ => rfl
  | c :: cs, pk, i, prev, num, h, hp => by
    rw [Ast.finishedEach, Bool.and_eq_true] at h
    rw [Ast.editedCEach, Ast.editedEach, finished_next hp h.2, editedC_finished after ids filter c pk i num h.1,
      editedCEach_finished after ids filter cs pk (i + 1) _ _ h.2 (finished_prev h.1)]
end

/-- Instrumenting and then preprocessing gives the preprocessed body with points. -/
theorem preprocess_instrumented (ρ : Nat → Bool) (after full : Bool) (ids : Nat → Nat) (filter : Nat → Bool)
    (t : List U8) (cs : List Ast) (hfit : FitEach full ids filter .block 0 0 cs) (hpl : placedRow cs = true) :
    ∃ (ids' : Nat → Nat) (filter' : Nat → Bool),
      (instrumentGroups after ids filter (.mk .block t [] [] cs)).preprocess ρ =
        instrumentBody after ids' filter' ((Ast.mk .block t [] [] cs).preprocess ρ) ∧
      ((Ast.mk .block t [] [] cs).preprocess ρ).bodyLabelsSafe filter' ∧
      (full = true → Ast.actionsTracedEach ids' filter' .block 0 0
        ((Ast.mk .block t [] [] cs).preprocess ρ).children = true) := by
  have h := (below_rel after full ids filter ρ (.mk .block t [] [] cs) false 0 hfit hpl (fun _ => rfl)).1 rfl
  obtain ⟨ids', filter', h1, h2, h3⟩ := chosenEach_edited after full _ _ _ _ h 0
  refine ⟨ids', filter', ?_, h2, h3⟩
  rw [instrumentGroups_edited]
  show Ast.mk .block t [] [] (kidsOf ρ .block _) = instrumentBody after ids' filter' (.mk .block t [] [] (kidsOf ρ .block cs))
  rw [instrumentBody_edited]
  exact congrArg _ h1

end TraceDB
