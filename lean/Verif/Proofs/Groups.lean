import Verif.Proofs.GroupEdits
/-
Helper lemmas: preprocessing an instrumented body gives the preprocessed body with points at
some of the places.
-/
namespace TraceDB

/-! Places -/

theorem traceableStmt_move {pk pk' : AstKind} (h : pk.isTraceableParent = pk'.isTraceableParent) (x : Ast) :
    traceableStmt pk x = traceableStmt pk' x := by
  simp only [traceableStmt, h]

theorem canBeTraced_move {pk pk' : AstKind} {i i' : Nat} (h : pk.isTraceableParent = pk'.isTraceableParent)
    (hb : isBranch pk i = isBranch pk' i') (x : Ast) : canBeTraced pk i x = canBeTraced pk' i' x := by
  simp only [canBeTraced, traceableStmt_move h, hb]

theorem chosen_move {after full : Bool} {pk pk' : AstKind} {i i' : Nat}
    (h : pk.isTraceableParent = pk'.isTraceableParent)
    (hb : isBranch pk i = isBranch pk' i') (hh : ¬ hangs pk' i') {x x' : Ast}
    (hc : Chosen after full pk i x x') : Chosen after full pk' i' x x' := by
  obtain ⟨k, t, b, a, cs⟩ := x
  rw [Chosen] at hc ⊢
  obtain ⟨cs', h1, h2⟩ := hc
  refine ⟨cs', h1, ?_⟩
  rcases h2 with ⟨h2, _, h4⟩ | ⟨id, h2, h3, h4⟩
  · exact Or.inl ⟨h2, fun _ h => absurd h hh, h4⟩
  · exact Or.inr ⟨id, by rw [← canBeTraced_move h hb]; exact h2, by rw [← traceableStmt_move h]; exact h3, h4⟩

theorem parent_noBranch {pk : AstKind} (h : pk.isTraceableParent = true) (i : Nat) : isBranch pk i = false := by
  cases pk <;> simp [AstKind.isTraceableParent] at h <;> rfl

theorem parent_noHang {pk : AstKind} (h : pk.isTraceableParent = true) (i : Nat) : ¬ hangs pk i := by
  rintro (h' | ⟨e, rfl⟩)
  · rw [parent_noBranch h] at h'
    cases h'
  · cases h

/-- Below such ASTs nothing is a place. -/
def AstKind.isInert : AstKind → Bool
  | .expr | .simple _ | .directive | .fragment => true
  | _ => false

theorem inert_parent {pk : AstKind} (h : pk.isInert = true) : pk.isTraceableParent = false := by
  cases pk <;> simp [AstKind.isInert] at h <;> rfl

theorem inert_noBranch {pk : AstKind} (h : pk.isInert = true) (i : Nat) : isBranch pk i = false := by
  cases pk <;> simp [AstKind.isInert] at h <;> rfl

theorem inert_noHang {pk : AstKind} (h : pk.isInert = true) (i : Nat) : ¬ hangs pk i := by
  rintro (h' | ⟨e, rfl⟩)
  · rw [inert_noBranch h] at h'
    cases h'
  · cases h

theorem chosenEach_inert {after full : Bool} {pk pk' : AstKind} (h : pk.isInert = true) (h' : pk'.isInert = true) :
    ∀ (cs cs' : List Ast) (i i' : Nat), ChosenEach after full pk i cs cs' → ChosenEach after full pk' i' cs cs'
  | [], _, _, _, hc => hc
  | c :: cs, l, i, i', hc => by
    rw [ChosenEach] at hc ⊢
    obtain ⟨c', cs', rfl, h1, h2⟩ := hc
    exact ⟨c', cs', rfl, chosen_move (by rw [inert_parent h, inert_parent h'])
      (by rw [inert_noBranch h, inert_noBranch h']) (inert_noHang h' i') h1, chosenEach_inert h h' cs cs' _ _ h2⟩

theorem chosenEach_parent {after full : Bool} {pk pk' : AstKind} (h : pk.isTraceableParent = true)
    (h' : pk'.isTraceableParent = true) :
    ∀ (cs cs' : List Ast) (i i' : Nat), ChosenEach after full pk i cs cs' → ChosenEach after full pk' i' cs cs'
  | [], _, _, _, hc => hc
  | c :: cs, l, i, i', hc => by
    rw [ChosenEach] at hc ⊢
    obtain ⟨c', cs', rfl, h1, h2⟩ := hc
    exact ⟨c', cs', rfl, chosen_move (by rw [h, h']) (by rw [parent_noBranch h, parent_noBranch h'])
      (parent_noHang h' i') h1, chosenEach_parent h h' cs cs' _ _ h2⟩

theorem chosenEach_append {after full : Bool} {pk : AstKind} :
    ∀ (cs cs' ds ds' : List Ast) (i : Nat), ChosenEach after full pk i cs cs' →
      ChosenEach after full pk (i + cs.length) ds ds' → ChosenEach after full pk i (cs ++ ds) (cs' ++ ds')
  | [], l, _, _, _, h, h' => by
    rw [ChosenEach] at h
    subst h
    exact h'
  | c :: cs, l, ds, ds', i, h, h' => by
    rw [ChosenEach] at h
    obtain ⟨c', cs', rfl, h1, h2⟩ := h
    rw [List.cons_append, List.cons_append, ChosenEach]
    refine ⟨c', cs' ++ ds', rfl, h1, chosenEach_append cs cs' ds ds' (i + 1) h2 ?_⟩
    rwa [List.length_cons, show i + (cs.length + 1) = i + 1 + cs.length by omega] at h'

/-! Rows after preprocessing -/

/-- Two rows of statements: the second has points at some of the places of the first, but
none at a statement after unparsed text.  `s`: there is such text before, `e`: at the end. -/
def RowRel (after full : Bool) : Bool → List Ast → List Ast → Bool → Prop
  | s, [], l', e => l' = [] ∧ e = s
  | s, x :: r, l', e => ∃ x' r', l' = x' :: r' ∧
    ((s = false ∧ (∃ t cs cs', x = .mk .fragment t [] [] cs ∧ x' = .mk .fragment t [] [] cs' ∧
        ChosenEach after full .fragment 0 cs cs') ∧ RowRel after full true r r' e) ∨
     (s = false ∧ x.kind ≠ .fragment ∧ x'.kind ≠ .fragment ∧ Chosen after full .block 0 x x' ∧
        RowRel after full false r r' e) ∨
     (s = true ∧ full = false ∧ (∃ n t cs cs', x = .mk (.simple n) t [] [] cs ∧
        x' = .mk (.simple n) t [] [] cs' ∧ ChosenEach after full (.simple n) 0 cs cs') ∧
        RowRel after full false r r' e))

theorem rowRel_append {after full : Bool} : ∀ (l l' m m' : List Ast) (s e e' : Bool),
    RowRel after full s l l' e → RowRel after full e m m' e' → RowRel after full s (l ++ m) (l' ++ m') e'
  | [], l', m, m', s, e, e', h, h' => by
    rw [RowRel] at h
    obtain ⟨rfl, rfl⟩ := h
    exact h'
  | x :: r, l', m, m', s, e, e', h, h' => by
    rw [RowRel] at h
    obtain ⟨x', r', rfl, h⟩ := h
    rw [List.cons_append, List.cons_append, RowRel]
    refine ⟨x', r' ++ m', rfl, ?_⟩
    rcases h with ⟨h1, h2, h3⟩ | ⟨h1, h2, h3, h4, h5⟩ | ⟨h1, h2, h3, h4⟩
    · exact Or.inl ⟨h1, h2, rowRel_append r r' m m' _ e e' h3 h'⟩
    · exact Or.inr (Or.inl ⟨h1, h2, h3, h4, rowRel_append r r' m m' _ e e' h5 h'⟩)
    · exact Or.inr (Or.inr ⟨h1, h2, h3, rowRel_append r r' m m' _ e e' h4 h'⟩)

theorem joinRow_other {x : Ast} (r : List Ast) (h : x.kind ≠ .fragment) : joinRow (x :: r) = x :: joinRow r := by
  obtain ⟨k, t, b, a, cs⟩ := x
  have : k.isFragment = false := by
    cases k <;> first | rfl | exact absurd rfl h
  simp [joinRow, this]

theorem joinRow_chosen {after full : Bool} : ∀ (l l' : List Ast) (s : Bool), RowRel after full s l l' false →
    (s = false → ChosenEach after full .block 0 (joinRow l) (joinRow l')) ∧
    (s = true → ∀ (t : List U8) (ts ts' : List Ast), ChosenEach after full .fragment 0 ts ts' →
      ∃ m m', attachText t ts (joinRow l) = some m ∧ attachText t ts' (joinRow l') = some m' ∧
        ChosenEach after full .block 0 m m')
  | [], l', s, h => by
    rw [RowRel] at h
    obtain ⟨rfl, rfl⟩ := h
    exact ⟨fun _ => rfl, by simp⟩
  | x :: r, l', s, h => by
    rw [RowRel] at h
    obtain ⟨x', r', rfl, h⟩ := h
    rcases h with ⟨rfl, ⟨t, cs, cs', rfl, rfl, hcs⟩, h3⟩ | ⟨rfl, h2, h3, h4, h5⟩ |
      ⟨rfl, hf, ⟨n, t, cs, cs', rfl, rfl, hcs⟩, h4⟩
    · refine ⟨fun _ => ?_, by simp⟩
      obtain ⟨m, m', hm, hm', hmm⟩ := (joinRow_chosen r r' true h3).2 rfl t cs cs' hcs
      simp only [joinRow, AstKind.isFragment, List.isEmpty_nil, Bool.and_true, if_true, hm, hm']
      exact hmm
    · refine ⟨fun _ => ?_, by simp⟩
      rw [joinRow_other r h2, joinRow_other r' h3, ChosenEach]
      exact ⟨x', _, rfl, h4, chosenEach_parent rfl rfl _ _ _ _ ((joinRow_chosen r r' false h5).1 rfl)⟩
    · refine ⟨by simp, fun _ t' ts ts' hts => ?_⟩
      rw [joinRow_other r (by simp [Ast.kind]), joinRow_other r' (by simp [Ast.kind])]
      simp only [attachText, List.isEmpty_nil, if_true, Option.some.injEq]
      refine ⟨_, _, rfl, rfl, ?_⟩
      rw [ChosenEach]
      refine ⟨_, _, rfl, ?_, chosenEach_parent rfl rfl _ _ _ _ ((joinRow_chosen r r' false h4).1 rfl)⟩
      rw [Chosen]
      refine ⟨ts' ++ cs', chosenEach_append ts ts' cs cs' 0 (chosenEach_inert rfl rfl _ _ _ _ hts)
        (chosenEach_inert rfl rfl _ _ _ _ hcs), Or.inl ⟨rfl, by simp [AstKind.isLabelled], by simp [hf]⟩⟩

/-! Preprocessing -/

/-- The children after preprocessing. -/
def kidsOf (ρ : Nat → Bool) (k : AstKind) (cs : List Ast) : List Ast :=
  if k.isRow then joinRow (Ast.resolveEach ρ cs) else Ast.resolveEach ρ cs

theorem resolve_other (ρ : Nat → Bool) {k : AstKind} (hk : k.isGroupPart = false) (t : List U8)
    (b a : List PointEvent) (cs : List Ast) :
    (Ast.mk k t b a cs).resolve ρ = [.mk k t b a (kidsOf ρ k cs)] := by
  cases k <;> simp [AstKind.isGroupPart] at hk <;> rfl

/-- What is known of ASTs in their places. -/
structure FitEach (full : Bool) (ids : Nat → Nat) (filter : Nat → Bool) (pk : AstKind) (i num : Nat)
    (cs : List Ast) : Prop where
  plain : Ast.plainEach cs = true
  placed : Ast.placedEach cs = true
  safe : Ast.labelsSafeEach filter pk i num cs
  full : full = true → (∀ n, filter n = true) ∧ Ast.actionsTracedEach ids filter pk i num cs = true ∧
    Ast.finishedEach cs = true

/-- The same for one. -/
structure FitOne (full : Bool) (ids : Nat → Nat) (filter : Nat → Bool) (pk : AstKind) (i num : Nat)
    (c : Ast) : Prop where
  plain : c.plain = true
  placed : c.placed = true
  safe : c.labelsSafe filter pk i num
  full : full = true → (∀ n, filter n = true) ∧ c.actionsTraced ids filter pk i num = true ∧ c.finished = true

theorem FitEach.head {full : Bool} {ids : Nat → Nat} {filter : Nat → Bool} {pk : AstKind} {i num : Nat}
    {c : Ast} {cs : List Ast} (h : FitEach full ids filter pk i num (c :: cs)) :
    FitOne full ids filter pk i num c := by
  obtain ⟨h1, h2, h3, h4⟩ := h
  rw [Ast.plainEach, Bool.and_eq_true] at h1
  rw [Ast.placedEach, Bool.and_eq_true] at h2
  rw [Ast.actionsTracedEach, Ast.finishedEach, Bool.and_eq_true, Bool.and_eq_true] at h4
  exact ⟨h1.1, h2.1, h3.1, fun h => ⟨(h4 h).1, (h4 h).2.1.1, (h4 h).2.2.1⟩⟩

theorem FitEach.tail {full : Bool} {ids : Nat → Nat} {filter : Nat → Bool} {pk : AstKind} {i num : Nat}
    {c : Ast} {cs : List Ast} (h : FitEach full ids filter pk i num (c :: cs)) :
    FitEach full ids filter pk (i + 1) (num + c.count) cs := by
  obtain ⟨h1, h2, h3, h4⟩ := h
  rw [Ast.plainEach, Bool.and_eq_true] at h1
  rw [Ast.placedEach, Bool.and_eq_true] at h2
  rw [Ast.actionsTracedEach, Ast.finishedEach, Bool.and_eq_true, Bool.and_eq_true] at h4
  exact ⟨h1.2, h2.2, h3.2, fun h => ⟨(h4 h).1, (h4 h).2.1.2, (h4 h).2.2.2⟩⟩

theorem FitOne.below {full : Bool} {ids : Nat → Nat} {filter : Nat → Bool} {pk k : AstKind} {i num : Nat}
    {t : List U8} {b a : List PointEvent} {cs : List Ast}
    (h : FitOne full ids filter pk i num (.mk k t b a cs)) :
    b = [] ∧ a = [] ∧ placedIn k cs = true ∧ FitEach full ids filter k 0 (num + 1) cs := by
  obtain ⟨h1, h2, h3, h4⟩ := h
  simp only [Ast.plain, Bool.and_eq_true, List.isEmpty_iff] at h1
  rw [Ast.placed, Bool.and_eq_true] at h2
  rw [Ast.labelsSafe] at h3
  refine ⟨h1.1.1, h1.1.2, h2.1, h1.2, h2.2, h3.2, fun hf => ?_⟩
  obtain ⟨h5, h6, h7⟩ := h4 hf
  unfold Ast.actionsTraced at h6
  rw [Bool.and_eq_true] at h6
  rw [Ast.finished, Bool.and_eq_true] at h7
  exact ⟨h5, h6.2, h7.2⟩

/-- The statement about the children of an AST. -/
def BelowRel (after full : Bool) (ids : Nat → Nat) (filter : Nat → Bool) (ρ : Nat → Bool) (k : AstKind)
    (cs : List Ast) : Prop :=
  ∀ (inc : Bool) (num : Nat), FitEach full ids filter k 0 num cs → placedIn k cs = true →
    (full = true → inc = false) →
    (k.isGroupPart = false → ChosenEach after full k 0 (kidsOf ρ k cs)
      (kidsOf ρ k (Ast.editedCEach after ids filter k inc 0 none num cs))) ∧
    (k.isGroupPart = true → ∃ e, RowRel after full false ((Ast.mk k [] [] [] cs).resolve ρ)
      ((Ast.mk k [] [] [] (Ast.editedCEach after ids filter k inc 0 none num cs)).resolve ρ) e ∧
      (e = true → (Ast.mk k [] [] [] cs).opens = true))

theorem canBeTraced_children (pk : AstKind) (i : Nat) (k : AstKind) (t : List U8) (b a b' a' : List PointEvent)
    (cs cs' : List Ast) : canBeTraced pk i (.mk k t b a cs) = canBeTraced pk i (.mk k t b' a' cs') := rfl

theorem traceableStmt_children (pk : AstKind) (k : AstKind) (t : List U8) (b a b' a' : List PointEvent)
    (cs cs' : List Ast) : traceableStmt pk (.mk k t b a cs) = traceableStmt pk (.mk k t b' a' cs') := rfl

/-- The result of preprocessing one AST that is no group. -/
theorem elem_rel {after full : Bool} {ids : Nat → Nat} {filter : Nat → Bool} (ρ : Nat → Bool) (k : AstKind)
    (t : List U8) (b a : List PointEvent) (cs : List Ast) (pk : AstKind) (i : Nat) (pinc inc : Bool) (num : Nat)
    (hb : BelowRel after full ids filter ρ k cs) (hfit : FitOne full ids filter pk i num (.mk k t b a cs))
    (hk : k.isGroupPart = false) (hfr : k ≠ .fragment) (hhang : hangs pk i → inc = false)
    (hfull : full = true → pinc = false ∧ inc = false) :
    ∃ x0 x1, (Ast.mk k t b a cs).resolve ρ = [x0] ∧
      ((Ast.mk k t b a cs).editedC after ids filter pk i pinc inc num).resolve ρ = [x1] ∧
      Chosen after full pk i x0 x1 ∧ x0.kind = k ∧ (pk.isTraceableParent = true → x1.kind = k) := by
  have hsafe := hfit.safe
  have hact := hfit.full
  obtain ⟨rfl, rfl, hpl, hfe⟩ := hfit.below
  have hkids := (hb inc (num + 1) hfe hpl (fun h => (hfull h).2)).1 hk
  rw [Ast.labelsSafe] at hsafe
  by_cases hc : canBeTraced pk i (.mk k t [] [] cs) && (filter num && notRuledOut pk i pinc inc)
  · rw [Ast.editedC]
    simp only [hc, if_true]
    rw [Bool.and_eq_true] at hc
    refine ⟨_, instrumentAst after (ids num) (!traceableStmt pk (.mk k t [] [] cs))
      (.mk k t [] [] (kidsOf ρ k (Ast.editedCEach after ids filter k inc 0 none (num + 1) cs))),
      resolve_other ρ hk _ _ _ _, ?_, ?_, rfl, ?_⟩
    · rw [tracedEdit]
      cases hw : traceableStmt pk (.mk k t [] [] cs)
      · simp only [instrumentAst, Bool.not_false, if_true]
        rw [resolve_other ρ rfl]
        simp only [kidsOf, AstKind.isRow, if_true, Ast.resolveEach, List.append_nil]
        rw [resolve_other ρ hk, joinRow_other (x := .mk k t _ _ _) [] hfr]
        rfl
      · simp only [instrumentAst, Bool.not_true]
        exact resolve_other ρ hk _ _ _ _
    · rw [Chosen]
      refine ⟨_, hkids, Or.inr ⟨ids num, hc.1, rfl, ?_⟩⟩
      rintro hf n rfl
      have h2 := (hact hf).2.1
      unfold Ast.actionsTraced at h2
      rw [Bool.and_eq_true] at h2
      have h3 := h2.1
      simp only [Bool.and_eq_true, beq_iff_eq] at h3
      exact h3.2
    · intro hp
      have : traceableStmt pk (.mk k t [] [] cs) = true := by
        have h1 := hc.1
        rw [canBeTraced, parent_noBranch hp] at h1
        simpa using h1
      rw [this]
      rfl
  · rw [Ast.editedC]
    simp only [hc]
    refine ⟨_, _, resolve_other ρ hk _ _ _ _, resolve_other ρ hk _ _ _ _, ?_, rfl, fun _ => rfl⟩
    rw [Chosen]
    refine ⟨_, hkids, Or.inl ⟨rfl, ?_, ?_⟩⟩
    · intro hlab hh
      have hi := hhang hh
      rcases hsafe.1 hlab hh with ⟨h1, h2⟩ | hq
      · exfalso
        apply hc
        have hnb : k ≠ .block := by rintro rfl; simp [AstKind.isLabelled] at hlab
        simp [canBeTraced, h1, h2, notRuledOut, hi, Ast.kind, hnb]
      · refine ⟨?_, ?_⟩
        · rw [editedCEach_quiet after ids filter cs k inc 0 none (num + 1)
            (fun m h1 h2 => hq m (by omega) (by omega))]
        · cases hf : full
          · rfl
          · have := hq num (Nat.le_refl _) (by omega)
            rw [(hact hf).1] at this
            cases this
    · intro hf
      cases hsim : k.isSimple
      · rfl
      · exfalso
        apply hc
        have h2 := (hact hf).2.1
        unfold Ast.actionsTraced at h2
        rw [Bool.and_eq_true] at h2
        have h3 := h2.1
        cases k <;> simp [AstKind.isSimple] at hsim
        simp only [Bool.and_eq_true, beq_iff_eq, fullStatement_eq] at h3
        simp [h3.1.1, h3.1.2, notRuledOut, (hfull hf).1, (hfull hf).2]

theorem isCStatement_eq (k : AstKind) : k.isCStatement = k.isProperStatement := by cases k <;> rfl

theorem endsInStatement_eq (cs : List Ast) :
    endsInStatement cs = cs.getLast?.any fun x => x.kind.isCStatement := by
  simp only [endsInStatement, isCStatement_eq]
  cases cs.getLast? <;> rfl

theorem opens_kind {x : Ast} (h : x.opens = true) : x.kind.isProperStatement = false := by
  obtain ⟨k, t, b, a, cs⟩ := x
  unfold Ast.opens at h
  cases k <;> simp at h <;> rfl

/-- A part that may end with a piece of a statement does not end with a statement. -/
theorem opensEnd_last : ∀ (cs : List Ast) (cond : Bool), placedPart cond cs = true →
    Ast.opensEnd cond cs = true → endsInStatement cs = false
  | [], _, _, h => by simp [Ast.opensEnd] at h
  | [x], cond, _, h => by
    simp only [Ast.opensEnd, Bool.or_false, Bool.and_eq_true, Bool.or_eq_true, beq_iff_eq] at h
    rw [endsInStatement]
    simp only [List.getLast?_singleton]
    rcases h.1.2 with h | h
    · rw [h]; rfl
    · exact opens_kind h
  | x :: y :: r, cond, hp, h => by
    rw [placedPart, Bool.and_eq_true] at hp
    have hl : endsInStatement (x :: y :: r) = endsInStatement (y :: r) := by
      simp [endsInStatement, List.getLast?_cons_cons]
    rw [hl]
    rw [Ast.opensEnd, Bool.or_eq_true] at h
    rcases h with h | h
    · simp only [Bool.and_eq_true, partEnds, List.head?_cons, Option.all_some] at h
      have h2 := hp.2
      rw [placedPart, Bool.and_eq_true] at h2
      have h3 := h2.1
      simp only [Bool.false_eq_true, if_false, h.2, if_true, List.isEmpty_iff] at h3
      subst h3
      rw [endsInStatement]
      have h4 := h.2
      simp only [List.getLast?_singleton]
      generalize y.kind = ky at h4
      cases ky <;> simp [AstKind.isAlternative] at h4 <;> rfl
    · exact opensEnd_last (y :: r) false hp.2 h

/-- What may end with a piece of a statement makes the next one incomplete. -/
theorem opens_incomplete {x : Ast} (h : x.opens = true) (hp : x.placed = true)
    (ha : x.kind.isAlternative = false) (next : Option Ast) : possiblyIncomplete (some x) next = true := by
  obtain ⟨k, t, b, a, cs⟩ := x
  rw [Ast.placed, Bool.and_eq_true] at hp
  unfold Ast.opens at h
  cases k <;> simp [AstKind.isAlternative, Ast.kind] at h ha
  · have := opensEnd_last cs true hp.1 h
    simp [possiblyIncomplete, Ast.isUnfinishedGroup, this]
  · simp [possiblyIncomplete, Ast.kind, AstKind.isFragment]

theorem possiblyIncomplete_of_prev {prev : Option Ast} (h : possiblyIncomplete prev none = true)
    (next : Option Ast) : possiblyIncomplete prev next = true := by
  simp only [possiblyIncomplete, Bool.or_false] at h
  simp only [possiblyIncomplete, h, Bool.true_or]

theorem finished_next {prev : Option Ast} {cs : List Ast} (h : possiblyIncomplete prev none = false)
    (hf : Ast.finishedEach cs = true) : possiblyIncomplete prev cs.head? = false := by
  simp only [possiblyIncomplete, Bool.or_false] at h
  simp only [possiblyIncomplete, h, Bool.false_or]
  cases cs with
  | nil => rfl
  | cons c cs =>
    obtain ⟨k, t, b, a, ccs⟩ := c
    rw [Ast.finishedEach, Ast.finished, Bool.and_eq_true, Bool.and_eq_true] at hf
    have := hf.1.1
    cases k <;> simp [finishedHere] at this <;> rfl

theorem finished_prev {x : Ast} (hf : x.finished = true) : possiblyIncomplete (some x) none = false := by
  obtain ⟨k, t, b, a, cs⟩ := x
  rw [Ast.finished, Bool.and_eq_true] at hf
  have h := hf.1
  cases k <;> simp [finishedHere] at h <;>
    first | rfl | (simp only [possiblyIncomplete, Ast.isUnfinishedGroup, endsInStatement_eq, h]; rfl)

/-- Between ASTs that are no groups and no unparsed text an AST is complete. -/
theorem incomplete_false {prev next : Option Ast}
    (hp : ∀ p, prev = some p → p.kind.isGroupPart = false ∧ p.kind.isFragment = false)
    (hn : ∀ p, next = some p → p.kind.isFragment = false) : possiblyIncomplete prev next = false := by
  have h1 : ∀ p : Ast, p.kind.isGroupPart = false → p.isUnfinishedGroup = false := by
    rintro ⟨k, t, b, a, cs⟩ h
    cases k <;> simp [Ast.kind, AstKind.isGroupPart] at h <;> rfl
  cases prev with
  | none =>
    cases next with
    | none => rfl
    | some n => simp [possiblyIncomplete, hn n rfl]
  | some p =>
    cases next with
    | none => simp [possiblyIncomplete, hp p rfl, h1 p (hp p rfl).1]
    | some n => simp [possiblyIncomplete, hp p rfl, h1 p (hp p rfl).1, hn n rfl]

/-- An AST that is no place is not changed itself. -/
theorem editedC_skip {after : Bool} {ids : Nat → Nat} {filter : Nat → Bool} (k : AstKind)
    (t : List U8) (b a : List PointEvent) (cs : List Ast) (pk : AstKind) (i : Nat) (pinc inc : Bool) (num : Nat)
    (h : canBeTraced pk i (.mk k t b a cs) = false ∨ inc = true) :
    (Ast.mk k t b a cs).editedC after ids filter pk i pinc inc num =
      .mk k t b a (Ast.editedCEach after ids filter k inc 0 none (num + 1) cs) := by
  rw [Ast.editedC]
  rcases h with h | h <;> simp [h, notRuledOut]

theorem noPlace_row {pk k : AstKind} {i : Nat} (hp : pk.isTraceableParent = true)
    (h : k.isGroupPart = true ∨ k.isFragment = true ∨ k = .expr) (t : List U8) (b a : List PointEvent) (cs : List Ast) :
    canBeTraced pk i (.mk k t b a cs) = false := by
  rw [canBeTraced, parent_noBranch hp]
  simp only [traceableStmt, Ast.kind, Bool.and_false, Bool.or_false]
  cases k <;> simp [AstKind.isGroupPart, AstKind.isFragment] at h <;>
    simp [AstKind.isTraceableParent, AstKind.isStatement]

theorem loose_resolve (ρ : Nat → Bool) {k : AstKind} (t : List U8) (cs : List Ast) (h : k.isGroupPart = true) :
    (Ast.mk k t [] [] cs).resolve ρ = (Ast.mk k [] [] [] cs).resolve ρ := by
  cases k <;> simp [AstKind.isGroupPart] at h <;> simp [Ast.resolve]

theorem opens_text {k : AstKind} (t : List U8) (cs : List Ast) :
    (Ast.mk k t [] [] cs).opens = (Ast.mk k [] [] [] cs).opens := by
  unfold Ast.opens
  rfl

/-- An AST in a row of statements. -/
theorem elem_row {after full : Bool} {ids : Nat → Nat} {filter : Nat → Bool} (ρ : Nat → Bool) (k : AstKind)
    (t : List U8) (b a : List PointEvent) (cs : List Ast) (pk : AstKind) (i : Nat) (pinc inc : Bool) (num : Nat)
    (s : Bool) (hb : BelowRel after full ids filter ρ k cs)
    (hfit : FitOne full ids filter pk i num (.mk k t b a cs)) (hp : pk.isTraceableParent = true)
    (hs : s = true → inc = true ∧ k.isSimple = true)
    (hfull : full = true → pinc = false ∧ inc = false) :
    ∃ e, RowRel after full s ((Ast.mk k t b a cs).resolve ρ)
      (((Ast.mk k t b a cs).editedC after ids filter pk i pinc inc num).resolve ρ) e ∧
      (e = true → (Ast.mk k t b a cs).opens = true) := by
  obtain ⟨rfl, rfl, hpl, hfe⟩ := hfit.below
  have hbel := hb inc (num + 1) hfe hpl (fun h => (hfull h).2)
  by_cases hg : k.isGroupPart = true
  · have hsf : s = false := by
      cases s
      · rfl
      · have := (hs rfl).2
        cases k <;> simp [AstKind.isSimple, AstKind.isGroupPart] at this hg
    subst hsf
    obtain ⟨e, h1, h2⟩ := hbel.2 hg
    rw [editedC_skip k t [] [] cs pk i pinc inc num (Or.inl (noPlace_row hp (Or.inl hg) t [] [] cs)),
      loose_resolve ρ t _ hg, loose_resolve ρ t _ hg, opens_text]
    exact ⟨e, h1, h2⟩
  · have hg : k.isGroupPart = false := by simpa using hg
    by_cases hfr : k = .fragment
    · subst hfr
      have hsf : s = false := by
        cases s
        · rfl
        · have := (hs rfl).2
          simp [AstKind.isSimple] at this
      subst hsf
      refine ⟨true, ?_, fun _ => by unfold Ast.opens; rfl⟩
      rw [editedC_skip _ t [] [] cs pk i pinc inc num (Or.inl (noPlace_row hp (Or.inr (Or.inl rfl)) t [] [] cs)),
        resolve_other ρ rfl, resolve_other ρ rfl, RowRel]
      exact ⟨_, [], rfl, Or.inl ⟨rfl, ⟨t, _, _, rfl, rfl, hbel.1 rfl⟩, rfl, rfl⟩⟩
    · refine ⟨false, ?_, by simp⟩
      cases s with
      | true =>
        obtain ⟨rfl, hsim⟩ := hs rfl
        have hff : full = false := by
          cases full
          · rfl
          · exact absurd (hfull rfl).2 (by simp)
        rw [editedC_skip k t [] [] cs pk i pinc true num (Or.inr rfl), resolve_other ρ hg, resolve_other ρ hg, RowRel]
        cases k <;> simp [AstKind.isSimple] at hsim
        exact ⟨_, [], rfl, Or.inr (Or.inr ⟨rfl, hff, ⟨_, t, _, _, rfl, rfl, hbel.1 rfl⟩, rfl, rfl⟩)⟩
      | false =>
        obtain ⟨x0, x1, h0, h1, hc, hk0, hk1⟩ := elem_rel ρ k t [] [] cs pk i pinc inc num hb hfit hg hfr
          (fun h => absurd h (parent_noHang hp i)) hfull
        rw [h0, h1, RowRel]
        refine ⟨x1, [], rfl, Or.inr (Or.inl ⟨rfl, by rw [hk0]; exact hfr, by rw [hk1 hp]; exact hfr, ?_, rfl, rfl⟩)⟩
        exact chosen_move hp (parent_noBranch hp i) (parent_noHang rfl 0) hc

/-- What is given about ASTs and what comes before them. -/
structure RowFit (full : Bool) (pinc : Bool) (prev : Option Ast) : Prop where
  full : full = true → pinc = false ∧ possiblyIncomplete prev none = false

theorem RowFit.next {full pinc : Bool} {prev : Option Ast} {ids : Nat → Nat} {filter : Nat → Bool} {pk : AstKind}
    {i num : Nat} {c : Ast} {cs : List Ast} (h : RowFit full pinc prev)
    (hfit : FitEach full ids filter pk i num (c :: cs)) : RowFit full pinc (some c) :=
  ⟨fun hf => ⟨(h.full hf).1, finished_prev (hfit.head.full hf).2.2⟩⟩

theorem RowFit.own {full pinc : Bool} {prev : Option Ast} {ids : Nat → Nat} {filter : Nat → Bool} {pk : AstKind}
    {i num : Nat} {c : Ast} {cs : List Ast} (h : RowFit full pinc prev)
    (hfit : FitEach full ids filter pk i num (c :: cs)) :
    full = true → pinc = false ∧ possiblyIncomplete prev cs.head? = false :=
  fun hf => ⟨(h.full hf).1, finished_next (h.full hf).2 (hfit.tail.full hf).2.2⟩

theorem alternative_part {k : AstKind} (h : k.isAlternative = true) : k.isGroupPart = true := by
  cases k <;> simp [AstKind.isAlternative] at h <;> rfl

/-- The kind of a child in a row stays. -/
theorem editedC_kind {after : Bool} {ids : Nat → Nat} {filter : Nat → Bool} (c : Ast) (pk : AstKind) (i : Nat)
    (pinc inc : Bool) (num : Nat) (hp : pk.isTraceableParent = true) :
    (c.editedC after ids filter pk i pinc inc num).kind = c.kind := by
  obtain ⟨k, t, b, a, cs⟩ := c
  rw [Ast.editedC]
  by_cases hc : canBeTraced pk i (.mk k t b a cs) && (filter num && notRuledOut pk i pinc inc)
  · simp only [hc, if_true]
    rw [Bool.and_eq_true] at hc
    have : traceableStmt pk (.mk k t b a cs) = true := by
      have h1 := hc.1
      rw [canBeTraced, parent_noBranch hp] at h1
      simpa using h1
    rw [tracedEdit, this]
    rfl
  · simp only [hc]
    rfl

mutual
theorem below_rel (after full : Bool) (ids : Nat → Nat) (filter ρ : Nat → Bool) :
    ∀ (x : Ast), BelowRel after full ids filter ρ x.kind x.children
  | .mk k t b a cs => by
    intro inc num hfit hpl hfull
    simp only [Ast.kind, Ast.children] at *
    have hrf : RowFit full inc none := ⟨fun hf => ⟨hfull hf, rfl⟩⟩
    have hrow : k.isRow = true → placedRow cs = true →
        ChosenEach after full k 0 (kidsOf ρ k cs)
          (kidsOf ρ k (Ast.editedCEach after ids filter k inc 0 none num cs)) := by
      intro hk hpr
      have hp : k.isTraceableParent = true := by
        cases k <;> simp [AstKind.isRow] at hk <;> rfl
      simp only [kidsOf, hk, if_true]
      exact chosenEach_parent rfl hp _ _ _ _
        ((joinRow_chosen _ _ false (row_rel after full ids filter ρ cs k inc 0 none num false hp hfit hpr
          (by simp) hrf)).1 rfl)
    have hpart : ∀ cond, k.isTraceableParent = true → placedPart cond cs = true →
        (∃ e, RowRel after full false (Ast.resolveItems ρ cond cs)
          (Ast.resolveItems ρ cond (Ast.editedCEach after ids filter k inc 0 none num cs)) e ∧
          (e = true → Ast.opensEnd cond cs = true)) ∧
        (∃ e, RowRel after full false (Ast.resolveOther ρ cs)
          (Ast.resolveOther ρ (Ast.editedCEach after ids filter k inc 0 none num cs)) e ∧
          (e = true → Ast.opensEnd cond cs = true)) := by
      intro cond hp hpp
      refine ⟨?_, other_rel after full ids filter ρ cs k inc 0 none num cond hp hfit hpp hrf⟩
      obtain ⟨e, h1, h2⟩ := items_rel after full ids filter ρ cs k inc 0 none num cond false hp hfit hpp
        (by simp) (by simp) hrf
      exact ⟨e, h1, fun he => (h2 he).resolve_right (by simp)⟩
    have hgroup : ∀ c : Nat, k.isTraceableParent = true → placedPart true cs = true →
        ∃ e, RowRel after full false (if ρ c then Ast.resolveItems ρ true cs else Ast.resolveOther ρ cs)
          (if ρ c then Ast.resolveItems ρ true (Ast.editedCEach after ids filter k inc 0 none num cs)
            else Ast.resolveOther ρ (Ast.editedCEach after ids filter k inc 0 none num cs)) e ∧
          (e = true → Ast.opensEnd true cs = true) := by
      intro c hp hpp
      obtain ⟨h1, h2⟩ := hpart true hp hpp
      cases ρ c
      · exact h2
      · exact h1
    have hother : k.isTraceableParent = false → k.isGroupPart = false →
        (cs.all fun c => !c.kind.isGroupPart && !c.kind.isFragment) = true →
        ChosenEach after full k 0 (kidsOf ρ k cs)
          (kidsOf ρ k (Ast.editedCEach after ids filter k inc 0 none num cs)) := by
      intro hp _ hall
      have hr : k.isRow = false := by
        cases k <;> simp [AstKind.isTraceableParent] at hp <;> rfl
      simp only [kidsOf, hr]
      exact each_rel after full ids filter ρ cs k inc 0 none num hfit hall (by simp) hrf
    refine ⟨fun hg => ?_, fun hg => ?_⟩
    · cases k <;> first | exact hrow rfl hpl | exact hother rfl rfl hpl | simp [AstKind.isGroupPart] at hg
    · cases k <;> simp [AstKind.isGroupPart] at hg
      · obtain ⟨e, h1, h2⟩ := hgroup _ rfl hpl
        refine ⟨e, ?_, ?_⟩
        · simpa [Ast.resolve, loosePoints] using h1
        · intro he
          unfold Ast.opens
          exact h2 he
      · obtain ⟨e, h1, h2⟩ := hgroup _ rfl hpl
        refine ⟨e, ?_, ?_⟩
        · simpa [Ast.resolve, loosePoints] using h1
        · intro he
          unfold Ast.opens
          exact h2 he
      · obtain ⟨⟨e, h1, h2⟩, _⟩ := hpart false rfl hpl
        refine ⟨e, ?_, ?_⟩
        · simpa [Ast.resolve, loosePoints] using h1
        · intro he
          unfold Ast.opens
          exact h2 he
theorem each_rel (after full : Bool) (ids : Nat → Nat) (filter ρ : Nat → Bool) :
    ∀ (cs : List Ast) (pk : AstKind) (pinc : Bool) (i : Nat) (prev : Option Ast) (num : Nat),
      FitEach full ids filter pk i num cs →
      (cs.all fun c => !c.kind.isGroupPart && !c.kind.isFragment) = true →
      (∀ p, prev = some p → p.kind.isGroupPart = false ∧ p.kind.isFragment = false) →
      RowFit full pinc prev →
      ChosenEach after full pk i (Ast.resolveEach ρ cs)
        (Ast.resolveEach ρ (Ast.editedCEach after ids filter pk pinc i prev num cs))
  | [], _, _, _, _, _, _, _, _, _ => rfl
  | .mk k t b a ccs :: cs, pk, pinc, i, prev, num, hfit, hall, hprev, hrf => by
    rw [List.all_cons, Bool.and_eq_true, Bool.and_eq_true] at hall
    simp only [Ast.kind, Bool.not_eq_true'] at hall
    obtain ⟨⟨hg, hfr⟩, hall⟩ := hall
    have hinc : possiblyIncomplete prev cs.head? = false := by
      refine incomplete_false hprev ?_
      intro p hp
      have hm : p ∈ cs := List.mem_of_mem_head? hp
      have := List.all_eq_true.mp hall p hm
      simp only [Bool.and_eq_true, Bool.not_eq_true'] at this
      exact this.2
    have hb := below_rel after full ids filter ρ (.mk k t b a ccs)
    obtain ⟨x0, x1, h0, h1, hc, _, _⟩ := elem_rel ρ k t b a ccs pk i pinc (possiblyIncomplete prev cs.head?) num hb
      hfit.head hg (by rintro rfl; simp [AstKind.isFragment] at hfr) (fun _ => hinc) (hrf.own hfit)
    rw [Ast.editedCEach, Ast.resolveEach, Ast.resolveEach, h0, h1, List.singleton_append, List.singleton_append,
      ChosenEach]
    refine ⟨x1, _, rfl, hc, each_rel after full ids filter ρ cs pk pinc (i + 1) _ _ hfit.tail hall ?_
      (hrf.next hfit)⟩
    intro p hp
    cases hp
    exact ⟨hg, hfr⟩
theorem row_rel (after full : Bool) (ids : Nat → Nat) (filter ρ : Nat → Bool) :
    ∀ (cs : List Ast) (pk : AstKind) (pinc : Bool) (i : Nat) (prev : Option Ast) (num : Nat) (s : Bool),
      pk.isTraceableParent = true → FitEach full ids filter pk i num cs → placedRow cs = true →
      (s = true → possiblyIncomplete prev none = true ∧ nextSimple cs = true) → RowFit full pinc prev →
      RowRel after full s (Ast.resolveEach ρ cs)
        (Ast.resolveEach ρ (Ast.editedCEach after ids filter pk pinc i prev num cs)) false
  | [], _, _, _, _, _, s, _, _, _, hs, _ => by
    cases s
    · exact ⟨rfl, rfl⟩
    · have := (hs rfl).2
      simp [nextSimple] at this
  | .mk k t b a ccs :: cs, pk, pinc, i, prev, num, s, hp, hfit, hpl, hs, hrf => by
    rw [placedRow, Bool.and_eq_true, Bool.and_eq_true, Bool.or_eq_true, Bool.not_eq_true', Bool.not_eq_true'] at hpl
    obtain ⟨⟨ha, ho⟩, hpl⟩ := hpl
    have hb := below_rel after full ids filter ρ (.mk k t b a ccs)
    obtain ⟨e, h1, h2⟩ := elem_row ρ k t b a ccs pk i pinc (possiblyIncomplete prev cs.head?) num s hb hfit.head hp
      (fun h => ⟨possiblyIncomplete_of_prev (hs h).1 _, by simpa [nextSimple, Ast.kind] using (hs h).2⟩)
      (hrf.own hfit)
    rw [Ast.editedCEach, Ast.resolveEach, Ast.resolveEach]
    refine rowRel_append _ _ _ _ s e false h1
      (row_rel after full ids filter ρ cs pk pinc (i + 1) _ _ e hp hfit.tail hpl ?_ (hrf.next hfit))
    intro he
    have hop := h2 he
    exact ⟨opens_incomplete hop hfit.head.placed ha none, ho.resolve_left (by rw [hop]; simp)⟩
theorem items_rel (after full : Bool) (ids : Nat → Nat) (filter ρ : Nat → Bool) :
    ∀ (cs : List Ast) (pk : AstKind) (pinc : Bool) (i : Nat) (prev : Option Ast) (num : Nat) (cond s : Bool),
      pk.isTraceableParent = true → FitEach full ids filter pk i num cs → placedPart cond cs = true →
      (cond = true → s = false) →
      (s = true → partEnds cs = true ∨ (possiblyIncomplete prev none = true ∧ nextSimple cs = true)) →
      RowFit full pinc prev →
      ∃ e, RowRel after full s (Ast.resolveItems ρ cond cs)
        (Ast.resolveItems ρ cond (Ast.editedCEach after ids filter pk pinc i prev num cs)) e ∧
        (e = true → Ast.opensEnd cond cs = true ∨ (s = true ∧ partEnds cs = true))
  | [], _, _, _, _, _, _, s, _, _, _, _, _, _ => ⟨s, ⟨rfl, rfl⟩, fun h => Or.inr ⟨h, rfl⟩⟩
  | .mk k t b a ccs :: cs, pk, pinc, i, prev, num, cond, s, hp, hfit, hpl, hcs, hs, hrf => by
    have hb := below_rel after full ids filter ρ (.mk k t b a ccs)
    rw [placedPart, Bool.and_eq_true] at hpl
    obtain ⟨hx, hpl⟩ := hpl
    rw [Ast.editedCEach, Ast.resolveItems, Ast.resolveItems, editedC_kind _ _ _ _ _ _ hp]
    cases cond with
    | true =>
      have hsf := hcs rfl
      subst hsf
      simp only [Bool.true_or, if_true, List.nil_append]
      obtain ⟨e, h1, h2⟩ := items_rel after full ids filter ρ cs pk pinc (i + 1) (some (.mk k t b a ccs)) _ false false
        hp hfit.tail hpl (by simp) (by simp) (hrf.next hfit)
      refine ⟨e, h1, fun he => Or.inl ?_⟩
      rw [Ast.opensEnd, (h2 he).resolve_right (by simp), Bool.or_true]
    | false =>
      simp only [Bool.false_or, Bool.false_eq_true, if_false, Ast.kind] at hx ⊢
      by_cases halt : k.isAlternative = true
      · simp only [halt, if_true, List.isEmpty_iff, List.nil_append] at hx ⊢
        subst hx
        exact ⟨s, ⟨rfl, rfl⟩, fun he => Or.inr ⟨he, by simp [partEnds, Ast.kind, halt]⟩⟩
      · simp only [halt] at hx ⊢
        have hs' : s = true → possiblyIncomplete prev none = true ∧ nextSimple (.mk k t b a ccs :: cs) = true := by
          intro h
          exact (hs h).resolve_left (by simp [partEnds, Ast.kind, halt])
        by_cases hex : k = .expr
        · subst hex
          have hsf : s = false := by
            cases s
            · rfl
            · have := (hs' rfl).2
              simp [nextSimple, Ast.kind, AstKind.isSimple] at this
          subst hsf
          simp only [Bool.false_eq_true, if_false, beq_self_eq_true, if_true] at hx ⊢
          obtain ⟨rfl, rfl, hpl', hfe⟩ := hfit.head.below
          have hkids := (hb (possiblyIncomplete prev cs.head?) (num + 1) hfe hpl'
            (fun h => (hrf.own hfit h).2)).1 rfl
          obtain ⟨e, h1, h2⟩ := items_rel after full ids filter ρ cs pk pinc (i + 1) (some (.mk .expr t [] [] ccs)) _
            false true hp hfit.tail hpl (by simp) (fun _ => Or.inl hx) (hrf.next hfit)
          refine ⟨e, ?_, fun he => Or.inl ?_⟩
          · rw [editedC_skip _ t [] [] ccs pk i pinc _ num
              (Or.inl (noPlace_row hp (Or.inr (Or.inr rfl)) t [] [] ccs)), resolve_other ρ rfl, resolve_other ρ rfl]
            simp only [List.map_cons, List.map_nil, Ast.asFragment, List.singleton_append]
            rw [RowRel]
            exact ⟨_, _, rfl, Or.inl ⟨rfl, ⟨t, _, _, rfl, rfl, chosenEach_inert rfl rfl _ _ _ _ hkids⟩, h1⟩⟩
          · simp [Ast.opensEnd, Ast.kind, hx]
        · have hex' : (k == AstKind.expr) = false := by simpa using hex
          simp only [hex', Bool.false_eq_true, if_false, Bool.or_eq_true, Bool.not_eq_true'] at hx ⊢
          obtain ⟨e, h1, h2⟩ := elem_row ρ k t b a ccs pk i pinc (possiblyIncomplete prev cs.head?) num s hb
            hfit.head hp
            (fun h => ⟨possiblyIncomplete_of_prev (hs' h).1 _, by simpa [nextSimple, Ast.kind] using (hs' h).2⟩)
            (hrf.own hfit)
          have hal : k.isAlternative = false := by simpa using halt
          obtain ⟨e', h3, h4⟩ := items_rel after full ids filter ρ cs pk pinc (i + 1) (some (.mk k t b a ccs)) _
            false e hp hfit.tail hpl (by simp) (fun he => by
              have hop := h2 he
              rcases hx with (hx | hx) | hx
              · rw [hop] at hx; cases hx
              · exact Or.inl hx
              · exact Or.inr ⟨opens_incomplete hop hfit.head.placed hal none, hx⟩) (hrf.next hfit)
          refine ⟨e', rowRel_append _ _ _ _ s e e' h1 h3, fun he' => Or.inl ?_⟩
          rw [Ast.opensEnd]
          rcases h4 he' with h | ⟨h, h'⟩
          · rw [h, Bool.or_true]
          · simp [h2 h, h']
theorem other_rel (after full : Bool) (ids : Nat → Nat) (filter ρ : Nat → Bool) :
    ∀ (cs : List Ast) (pk : AstKind) (pinc : Bool) (i : Nat) (prev : Option Ast) (num : Nat) (cond : Bool),
      pk.isTraceableParent = true → FitEach full ids filter pk i num cs → placedPart cond cs = true →
      RowFit full pinc prev →
      ∃ e, RowRel after full false (Ast.resolveOther ρ cs)
        (Ast.resolveOther ρ (Ast.editedCEach after ids filter pk pinc i prev num cs)) e ∧
        (e = true → Ast.opensEnd cond cs = true)
  | [], _, _, _, _, _, _, _, _, _, _ => ⟨false, ⟨rfl, rfl⟩, by simp⟩
  | .mk k t b a ccs :: cs, pk, pinc, i, prev, num, cond, hp, hfit, hpl, hrf => by
    have hb := below_rel after full ids filter ρ (.mk k t b a ccs)
    rw [placedPart, Bool.and_eq_true] at hpl
    obtain ⟨hx, hpl⟩ := hpl
    obtain ⟨e, h1, h2⟩ := other_rel after full ids filter ρ cs pk pinc (i + 1) (some (.mk k t b a ccs)) _ false hp
      hfit.tail hpl (hrf.next hfit)
    rw [Ast.editedCEach, Ast.resolveOther, Ast.resolveOther, editedC_kind _ _ _ _ _ _ hp]
    by_cases halt : (Ast.mk k t b a ccs).kind.isAlternative = true
    · cases cond with
      | true => simp [halt] at hx
      | false =>
        simp only [Bool.false_eq_true, if_false, halt, if_true, List.isEmpty_iff] at hx ⊢
        subst hx
        obtain ⟨e', h3, h4⟩ := elem_row ρ k t b a ccs pk i pinc (possiblyIncomplete prev none) num false hb
          hfit.head hp (by simp) (hrf.own hfit)
        refine ⟨e', ?_, fun he => ?_⟩
        · simpa [Ast.resolveOther, Ast.editedCEach] using h3
        · simp [Ast.opensEnd, partEnds, h4 he]
    · simp only [halt, List.nil_append]
      refine ⟨e, h1, fun he => ?_⟩
      rw [Ast.opensEnd, h2 he, Bool.or_true]
end

end TraceDB
