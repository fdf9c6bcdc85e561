import Verif.Proofs.Statements
/-
Helper lemmas: the instrumented tree is the tree of its text, does what the tree with
points does, and besides the points what the tree itself does.
-/
namespace TraceDB

/-! Shape -/

theorem shaped_instrumentAst (after : Bool) (id : Nat) (wrap : Bool) (x : Ast) :
    (instrumentAst after id wrap x).shaped = x.shaped := by
  obtain ⟨k, t, b, a, cs⟩ := x
  cases wrap <;> simp [instrumentAst, Ast.shaped, Ast.shapedEach, branchesSingle]

theorem single_wrapped (after : Bool) (id : Nat) (x : Ast) :
    (instrumentAst after id true x).single = true := by
  obtain ⟨k, t, b, a, cs⟩ := x
  simp [instrumentAst, Ast.single]

mutual
theorem edited_quiet (after : Bool) (ids : Nat → Nat) (filter : Nat → Bool) :
    ∀ (x : Ast) (pk : AstKind) (i num : Nat), (∀ m, num ≤ m → m < num + x.count → filter m = false) →
      x.edited after ids filter pk i num = x
  | .mk k t b a cs, pk, i, num, h => by
    rw [Ast.count] at h
    have h0 := h num (Nat.le_refl _) (by omega)
    rw [Ast.edited, editedEach_quiet after ids filter cs k 0 (num + 1)
      (fun m h1 h2 => h m (by omega) (by omega))]
    simp [h0]
theorem editedEach_quiet (after : Bool) (ids : Nat → Nat) (filter : Nat → Bool) :
    ∀ (cs : List Ast) (pk : AstKind) (i num : Nat),
      (∀ m, num ≤ m → m < num + Ast.countEach cs → filter m = false) →
      Ast.editedEach after ids filter pk i num cs = cs
  | [], _, _, _, _ => rfl
  | c :: cs, pk, i, num, h => by
    rw [Ast.countEach] at h
    rw [Ast.editedEach, edited_quiet after ids filter c pk i num (fun m h1 h2 => h m h1 (by omega)),
      editedEach_quiet after ids filter cs pk (i + 1) (num + c.count) (fun m h1 h2 => h m (by omega) (by omega))]
end

/-- A place for one statement. -/
def hangs (pk : AstKind) (i : Nat) : Prop := isBranch pk i = true ∨ ∃ e, pk = .switch e

theorem edited_single (after : Bool) (ids : Nat → Nat) (filter : Nat → Bool) (x : Ast) (pk : AstKind)
    (i num : Nat) (hsafe : x.labelsSafe filter pk i num) (hs : x.single = true) (hh : hangs pk i) :
    (x.edited after ids filter pk i num).single = true := by
  obtain ⟨k, t, b, a, cs⟩ := x
  by_cases hc : canBeTraced pk i (.mk k t b a cs) && filter num
  · have hw : traceableStmt pk (.mk k t b a cs) = false := by
      have : pk.isTraceableParent = false := by
        rcases hh with hh | ⟨e, rfl⟩
        · cases pk <;> simp [isBranch] at hh <;> rfl
        · rfl
      simp [traceableStmt, this]
    rw [Ast.edited]
    simp only [hc, if_true, tracedEdit, hw, Bool.not_false]
    exact single_wrapped _ _ _
  · by_cases hk : k.isLabelled
    · rw [Ast.labelsSafe] at hsafe
      rcases hsafe.1 hk hh with ⟨h1, h2⟩ | hq
      · have hkb : k ≠ .block := by intro h; subst h; simp [AstKind.isLabelled] at hk
        simp [canBeTraced, h1, h2, Ast.kind, hkb] at hc
      · rw [edited_quiet after ids filter _ pk i num (by rw [Ast.count]; exact fun m h1 h2 => hq m h1 (by omega))]
        exact hs
    · rw [Ast.edited]
      simp only [hc]
      cases k <;> simp [AstKind.isLabelled] at hk <;> simp [Ast.single] at hs ⊢ <;> exact hs

mutual
theorem edited_shaped (after : Bool) (ids : Nat → Nat) (filter : Nat → Bool) :
    ∀ (x : Ast) (pk : AstKind) (i num : Nat), x.shaped = true → x.labelsSafe filter pk i num →
      (x.edited after ids filter pk i num).shaped = true
  | .mk k t b a cs, pk, i, num, h, hsafe => by
    rw [Ast.shaped, Bool.and_eq_true] at h
    rw [Ast.labelsSafe] at hsafe
    have h' : (Ast.mk k t b a (Ast.editedEach after ids filter k 0 (num + 1) cs)).shaped = true := by
      rw [Ast.shaped, Bool.and_eq_true]
      refine ⟨?_, editedEach_shaped after ids filter cs k 0 (num + 1) h.2 hsafe.2⟩
      have hb := h.1
      have hs := hsafe.2
      cases k with
      | expr | simple _ | block | label _ | case _ | directive => rfl
      | group c => simp [branchesSingle] at hb
      | elifGroup c => simp [branchesSingle] at hb
      | elseGroup => simp [branchesSingle] at hb
      | fragment => simp [branchesSingle] at hb
      | ite c =>
        match cs, hb, hs with
        | [c0, x], hb, hs =>
          exact edited_single after ids filter x _ _ _ hs.2.1 hb (Or.inl rfl)
        | [c0, x, y], hb, hs =>
          simp only [branchesSingle, Bool.and_eq_true] at hb
          simp only [Ast.editedEach, branchesSingle, Bool.and_eq_true]
          exact ⟨edited_single after ids filter x _ _ _ hs.2.1 hb.1 (Or.inl rfl),
            edited_single after ids filter y _ _ _ hs.2.2.1 hb.2 (Or.inl rfl)⟩
      | whileLoop c =>
        match cs, hb, hs with
        | [c0, x], hb, hs =>
          exact edited_single after ids filter x _ _ _ hs.2.1 hb (Or.inl rfl)
      | doLoop c =>
        match cs, hb, hs with
        | [x, c0], hb, hs =>
          exact edited_single after ids filter x _ _ _ hs.1 hb (Or.inl rfl)
      | forLoop i c u =>
        match cs, hb, hs with
        | [c0, c1, c2, x], hb, hs =>
          exact edited_single after ids filter x _ _ _ hs.2.2.2.1 hb (Or.inl rfl)
      | switch e =>
        match cs, hb, hs with
        | [c0, x], hb, hs =>
          exact edited_single after ids filter x _ _ _ hs.2.1 hb (Or.inr ⟨e, rfl⟩)
    rw [Ast.edited]
    by_cases hc : canBeTraced pk i (.mk k t b a cs) && filter num
    · simp only [hc, if_true, tracedEdit, shaped_instrumentAst]
      exact h'
    · simp only [hc, Bool.false_eq_true, if_false]
      exact h'
theorem editedEach_shaped (after : Bool) (ids : Nat → Nat) (filter : Nat → Bool) :
    ∀ (cs : List Ast) (pk : AstKind) (i num : Nat), Ast.shapedEach cs = true →
      Ast.labelsSafeEach filter pk i num cs →
      Ast.shapedEach (Ast.editedEach after ids filter pk i num cs) = true
  | [], _, _, _, _, _ => rfl
  | c :: cs, pk, i, num, h, hs => by
    rw [Ast.shapedEach, Bool.and_eq_true] at h
    rw [Ast.labelsSafeEach] at hs
    rw [Ast.editedEach, Ast.shapedEach, edited_shaped after ids filter c pk i num h.1 hs.1,
      editedEach_shaped after ids filter cs pk (i + 1) _ h.2 hs.2]
    rfl
end

/-! The tree with points -/

theorem mean_instrumentAst {σ : Type} (w : ActWorld σ) (n : Nat) (after : Bool) (id : Nat) (wrap : Bool)
    (k : AstKind) (t : List U8) (b a : List PointEvent) (cs : List Ast) :
    (instrumentAst after id wrap (.mk k t b a cs)).mean w n =
      (Ast.mk k t (b ++ [⟨id, false⟩]) (a ++ if after then [⟨id, true⟩] else []) cs).mean w n := by
  cases wrap with
  | false => rfl
  | true =>
    have hself : ∀ ys : List (Meaning σ), meanSeq [meanSeq ys] = meanSeq ys := by
      intro ys
      have := meanSeq_nested [] ys []
      simpa using this
    show meanSeq [meanSeq [Ast.mean w n _]] = _
    rw [hself, Ast.mean, hself]

mutual
theorem mean_edited {σ : Type} (w : ActWorld σ) (n : Nat) (after : Bool) (ids : Nat → Nat) (filter : Nat → Bool) :
    ∀ (x : Ast) (pk : AstKind) (i num : Nat),
      (x.edited after ids filter pk i num).mean w n = (x.withPoints after ids filter pk i num).mean w n
  | .mk k t b a cs, pk, i, num => by
    rw [Ast.edited, Ast.withPoints, fullStatement_eq]
    by_cases hc : canBeTraced pk i (.mk k t b a cs) && filter num
    · simp only [hc, if_true, tracedEdit, mean_instrumentAst]
      rw [Ast.mean, Ast.mean, mean_editedEach w n after ids filter cs k 0 (num + 1)]
    · simp only [hc, Bool.false_eq_true, if_false]
      rw [Ast.mean, Ast.mean, mean_editedEach w n after ids filter cs k 0 (num + 1)]
theorem mean_editedEach {σ : Type} (w : ActWorld σ) (n : Nat) (after : Bool) (ids : Nat → Nat)
    (filter : Nat → Bool) : ∀ (cs : List Ast) (pk : AstKind) (i num : Nat),
      Ast.meanEach w n (Ast.editedEach after ids filter pk i num cs) =
      Ast.meanEach w n (Ast.withPointsEach after ids filter pk i num cs)
  | [], _, _, _ => rfl
  | c :: cs, pk, i, num => by
    rw [Ast.editedEach, Ast.withPointsEach, Ast.meanEach, Ast.meanEach,
      mean_edited w n after ids filter c pk i num, mean_editedEach w n after ids filter cs]
end

/-- The text of the instrumented body does what the tree with points does. -/
theorem read_instrumented (after : Bool) (ids : Nat → Nat) (filter : Nat → Bool) (root : Ast)
    (hs : root.shaped = true) (hl : root.bodyLabelsSafe filter) (hk : root.kind = .block) :
    ∃ l, (instrumentBody after ids filter root).read = some l ∧
      ∀ (σ : Type) (w : ActWorld σ) (n : Nat),
        meanSeq (meanEach w n l) = (root.bodyWithPoints after ids filter).mean w n := by
  obtain ⟨k, t, b, a, cs⟩ := root
  cases hk
  rw [Ast.shaped, Bool.and_eq_true] at hs
  have hsh : (Ast.mk .block t b a (Ast.editedEach after ids filter .block 0 0 cs)).shaped = true := by
    rw [Ast.shaped, Bool.and_eq_true]
    exact ⟨rfl, editedEach_shaped after ids filter cs .block 0 0 hs.2 hl⟩
  obtain ⟨l, hr, hm, _⟩ := read_shaped _ hsh
  refine ⟨l, by rw [instrumentBody_edited]; exact hr, ?_⟩
  intro σ w n
  rw [hm σ w n, Ast.bodyWithPoints, Ast.mean, Ast.mean, mean_editedEach]

/-! What is left without the points -/

theorem ownSteps_append (l l' : List Step) : ownSteps (l ++ l') = ownSteps l ++ ownSteps l' := by
  simp [ownSteps]

theorem ownRan_andThen {σ : Type} (r : Ran σ) (k : σ → Ran σ) :
    ownRan (r.andThen k) = (ownRan r).andThen fun s => ownRan (k s) := by
  obtain ⟨l, s, f⟩ := r
  cases f <;> simp [ownRan, Ran.andThen, ownSteps_append]

theorem ownRan_nothing {σ : Type} (s : σ) : ownRan (Ran.nothing s) = Ran.nothing s := rfl

/-- The same but for the points. -/
def SameBut {σ : Type} (m m' : Meaning σ) : Prop :=
  m.labs = m'.labs ∧ ∀ e s, m'.run e s = ownRan (m.run e s)

theorem sameBut_guard {σ : Type} {labs : CLabel → Bool} {run run' : Option CLabel → σ → Ran σ}
    (h : ∀ e s, run' e s = ownRan (run e s)) : SameBut (.guard labs run) (.guard labs run') := by
  refine ⟨rfl, fun e s => ?_⟩
  cases e with
  | none => exact h none s
  | some l =>
    simp only [Meaning.guard]
    split
    · exact h _ s
    · rfl

/-- Lists of these, points left out. -/
inductive SameButs {σ : Type} : List (Meaning σ) → List (Meaning σ) → Prop
  | nil : SameButs [] []
  | cons {m m' ms ms'} : SameBut m m' → SameButs ms ms' → SameButs (m :: ms) (m' :: ms')
  | point {e ms ms'} : SameButs ms ms' → SameButs (meanPoint e :: ms) ms'

theorem sameButs_labs {σ : Type} {ms ms' : List (Meaning σ)} (h : SameButs ms ms') (l : CLabel) :
    (ms.any fun m => m.labs l) = ms'.any fun m => m.labs l := by
  induction h with
  | nil => rfl
  | cons h _ ih => simp only [List.any_cons, h.1, ih]
  | point _ ih => simpa only [List.any_cons, meanPoint, Meaning.guard, Bool.false_or] using ih

theorem sameButs_none {σ : Type} {ms ms' : List (Meaning σ)} (h : SameButs ms ms') :
    ∀ s, runSeq ms' none s = ownRan (runSeq ms none s) := by
  induction h with
  | nil => intro s; rfl
  | cons h _ ih =>
    intro s
    rw [runSeq, runSeq, ownRan_andThen, h.2, funext ih]
  | point _ ih =>
    intro s
    rw [runSeq, ownRan_andThen, ih]
    exact (Ran.nothing_andThen s (fun s => ownRan (runSeq _ none s))).symm

theorem sameButs_some {σ : Type} {ms ms' : List (Meaning σ)} (h : SameButs ms ms') (l : CLabel) :
    ∀ s, runSeq ms' (some l) s = ownRan (runSeq ms (some l) s) := by
  induction h with
  | nil => intro s; rfl
  | @cons m m' ms ms' h hs ih =>
    intro s
    rw [runSeq, runSeq, h.1]
    by_cases hl : m'.labs l
    · rw [if_pos hl, if_pos hl, ownRan_andThen, h.2, funext (sameButs_none hs)]
    · rw [if_neg hl, if_neg hl]
      exact ih s
  | point _ ih =>
    intro s
    rw [runSeq]
    exact ih s

theorem sameButs_seq {σ : Type} {ms ms' : List (Meaning σ)} (h : SameButs ms ms') :
    SameBut (meanSeq ms) (meanSeq ms') := by
  refine ⟨funext fun l => sameButs_labs h l, fun e s => ?_⟩
  cases e with
  | none => exact sameButs_none h s
  | some l => exact sameButs_some h l s

theorem sameBut_act {σ : Type} (w : ActWorld σ) (a : Nat) : SameBut (meanAct w a) (meanAct w a) :=
  sameBut_guard fun _ _ => rfl

theorem sameBut_lab {σ : Type} (l : CLabel) : SameBut (meanLab l : Meaning σ) (meanLab l) :=
  sameBut_guard fun _ _ => rfl

theorem ownRan_afterRound {σ : Type} (r : Ran σ) (k : σ → Ran σ) :
    ownRan (afterRound r k) = afterRound (ownRan r) fun s => ownRan (k s) := by
  obtain ⟨l, s, f⟩ := r
  cases f <;> simp [ownRan, afterRound, Ran.andThen, ownSteps_append]

theorem ownRan_afterSwitch {σ : Type} (r : Ran σ) : ownRan (afterSwitch r) = afterSwitch (ownRan r) := by
  obtain ⟨l, s, f⟩ := r
  cases f <;> rfl

theorem ownRan_rounds {σ : Type} (w : ActWorld σ) (c : Nat) {x x' : Meaning σ} (h : SameBut x x')
    (step : σ → Ran σ) (hstep : ∀ s, ownRan (step s) = step s) :
    ∀ n s, rounds w c x' step n s = ownRan (rounds w c x step n s)
  | 0, s => rfl
  | n + 1, s => by
    simp only [rounds]
    rw [ownRan_andThen]
    congr 1
    funext s'
    split
    · rw [ownRan_afterRound, h.2]
      congr 1
      funext s''
      rw [ownRan_andThen, hstep, funext (ownRan_rounds w c h step hstep n)]
    · rfl

theorem guard_congr {σ : Type} {labs labs' : CLabel → Bool} {run run' : Option CLabel → σ → Ran σ}
    (hl : labs = labs') (h : ∀ e s, run' e s = ownRan (run e s)) :
    SameBut (.guard labs run) (.guard labs' run') := by
  subst hl
  exact sameBut_guard h

theorem sameBut_ite {σ : Type} (w : ActWorld σ) (c : Nat) {x x' y y' : Meaning σ} (hx : SameBut x x')
    (hy : SameBut y y') : SameBut (meanIte w c x y) (meanIte w c x' y') := by
  refine guard_congr (by rw [hx.1, hy.1]) fun e s => ?_
  cases e with
  | none =>
    simp only
    rw [ownRan_andThen]
    congr 1
    funext s'
    split
    · exact hx.2 none s'
    · exact hy.2 none s'
  | some l =>
    simp only [hx.1]
    split
    · exact hx.2 _ s
    · exact hy.2 _ s

theorem sameBut_while {σ : Type} (w : ActWorld σ) (n c : Nat) {x x' : Meaning σ} (hx : SameBut x x') :
    SameBut (meanWhile w n c x) (meanWhile w n c x') := by
  have hr := ownRan_rounds w c hx Ran.nothing (fun _ => rfl) n
  refine guard_congr hx.1 fun e s => ?_
  cases e with
  | none => exact hr s
  | some l =>
    simp only
    rw [ownRan_afterRound, hx.2, funext hr]

theorem sameBut_do {σ : Type} (w : ActWorld σ) (n c : Nat) {x x' : Meaning σ} (hx : SameBut x x') :
    SameBut (meanDo w n c x) (meanDo w n c x') := by
  have hr := ownRan_rounds w c hx Ran.nothing (fun _ => rfl) n
  refine guard_congr hx.1 fun e s => ?_
  rw [ownRan_afterRound, hx.2, funext hr]

theorem sameBut_for {σ : Type} (w : ActWorld σ) (n i c u : Nat) {x x' : Meaning σ} (hx : SameBut x x') :
    SameBut (meanFor w n i c u x) (meanFor w n i c u x') := by
  have hr := ownRan_rounds w c hx (evalStep w u) (fun _ => rfl) n
  refine guard_congr hx.1 fun e s => ?_
  cases e with
  | none =>
    simp only
    rw [ownRan_andThen, funext hr]
    rfl
  | some l =>
    simp only
    rw [ownRan_afterRound, hx.2]
    congr 1
    funext s'
    rw [ownRan_andThen, funext hr]
    rfl

theorem sameBut_switch {σ : Type} (w : ActWorld σ) (c : Nat) {x x' : Meaning σ} (hx : SameBut x x') :
    SameBut (meanSwitch w c x) (meanSwitch w c x') := by
  refine guard_congr (by rw [hx.1]) fun e s => ?_
  cases e with
  | none =>
    simp only
    rw [ownRan_andThen, hx.1]
    congr 1
    funext s'
    split
    · rw [ownRan_afterSwitch, hx.2]
    · split
      · rw [ownRan_afterSwitch, hx.2]
      · rfl
  | some l =>
    simp only
    rw [ownRan_afterSwitch, hx.2]

/-- One by one the same but for the points. -/
inductive SameButEach {σ : Type} : List (Meaning σ) → List (Meaning σ) → Prop
  | nil : SameButEach [] []
  | cons {m m' ms ms'} : SameBut m m' → SameButEach ms ms' → SameButEach (m :: ms) (m' :: ms')

theorem SameButEach.toSameButs {σ : Type} {ms ms' : List (Meaning σ)} (h : SameButEach ms ms') :
    SameButs ms ms' := by
  induction h with
  | nil => exact .nil
  | cons h _ ih => exact .cons h ih

theorem sameBut_one {σ : Type} {m m' : Meaning σ} (h : SameBut m m') : SameButEach [m] [m'] :=
  .cons h .nil

theorem sameBut_empty {σ : Type} : SameBut (meanSeq [] : Meaning σ) (meanSeq []) :=
  sameButs_seq .nil

theorem sameBut_astMeans {σ : Type} (w : ActWorld σ) (n : Nat) (k : AstKind) {ms ms' : List (Meaning σ)}
    (h : SameButEach ms ms') : SameButEach (astMeans w n k ms) (astMeans w n k ms') := by
  cases k with
  | expr | directive | group c | elifGroup c | elseGroup | fragment => exact .nil
  | simple a => exact sameBut_one (sameBut_act w a)
  | block => exact sameBut_one (sameButs_seq h.toSameButs)
  | label l => exact .cons (sameBut_lab _) h
  | case v =>
    cases v with
    | none => exact .cons (sameBut_lab _) h
    | some v => exact .cons (sameBut_lab _) h
  | ite c =>
    match ms, ms', h with
    | [], [], _ => exact .nil
    | [_], [_], _ => exact .nil
    | [_, x], [_, x'], .cons _ (.cons hx _) => exact sameBut_one (sameBut_ite w c hx sameBut_empty)
    | [_, x, y], [_, x', y'], .cons _ (.cons hx (.cons hy _)) => exact sameBut_one (sameBut_ite w c hx hy)
    | _ :: _ :: _ :: _ :: _, _ :: _ :: _ :: _ :: _, _ => exact .nil
  | whileLoop c =>
    match ms, ms', h with
    | [], [], _ => exact .nil
    | [_], [_], _ => exact .nil
    | [_, x], [_, x'], .cons _ (.cons hx _) => exact sameBut_one (sameBut_while w n c hx)
    | _ :: _ :: _ :: _, _ :: _ :: _ :: _, _ => exact .nil
  | doLoop c =>
    match ms, ms', h with
    | [], [], _ => exact .nil
    | [_], [_], _ => exact .nil
    | [x, _], [x', _], .cons hx (.cons _ _) => exact sameBut_one (sameBut_do w n c hx)
    | _ :: _ :: _ :: _, _ :: _ :: _ :: _, _ => exact .nil
  | forLoop i c u =>
    match ms, ms', h with
    | [], [], _ => exact .nil
    | [_], [_], _ => exact .nil
    | [_, _], [_, _], _ => exact .nil
    | [_, _, _], [_, _, _], _ => exact .nil
    | [_, _, _, x], [_, _, _, x'], .cons _ (.cons _ (.cons _ (.cons hx _))) =>
      exact sameBut_one (sameBut_for w n i c u hx)
    | _ :: _ :: _ :: _ :: _ :: _, _ :: _ :: _ :: _ :: _ :: _, _ => exact .nil
  | switch e =>
    match ms, ms', h with
    | [], [], _ => exact .nil
    | [_], [_], _ => exact .nil
    | [_, x], [_, x'], .cons _ (.cons hx _) => exact sameBut_one (sameBut_switch w e hx)
    | _ :: _ :: _ :: _, _ :: _ :: _ :: _, _ => exact .nil

theorem sameButs_points {σ : Type} (b : List PointEvent) {ms ms' : List (Meaning σ)} (h : SameButs ms ms') :
    SameButs (b.map meanPoint ++ ms) ms' := by
  induction b with
  | nil => exact h
  | cons e b ih => exact .point ih

theorem sameButs_append_points {σ : Type} (a : List PointEvent) {ms ms' : List (Meaning σ)}
    (h : SameButs ms ms') : SameButs (ms ++ a.map meanPoint) ms' := by
  induction h with
  | nil => simpa using sameButs_points a (.nil : SameButs ([] : List (Meaning σ)) [])
  | cons h _ ih => exact .cons h ih
  | point _ ih => exact .point ih

mutual
theorem withPoints_sameBut {σ : Type} (w : ActWorld σ) (n : Nat) (after : Bool) (ids : Nat → Nat)
    (filter : Nat → Bool) : ∀ (x : Ast) (pk : AstKind) (i num : Nat), x.plain = true →
      SameBut ((x.withPoints after ids filter pk i num).mean w n) (x.mean w n)
  | .mk k t b a cs, pk, i, num, hp => by
    rw [Ast.plain] at hp
    simp only [Bool.and_eq_true, List.isEmpty_iff] at hp
    obtain ⟨⟨rfl, rfl⟩, hp⟩ := hp
    have hc := (sameBut_astMeans w n k (withPointsEach_sameBut w n after ids filter cs k 0 (num + 1) hp)).toSameButs
    have hany : ∀ b' a' : List PointEvent,
        SameBut ((Ast.mk k t b' a' (Ast.withPointsEach after ids filter k 0 (num + 1) cs)).mean w n)
          ((Ast.mk k t [] [] cs).mean w n) := by
      intro b' a'
      rw [Ast.mean, Ast.mean]
      simp only [List.map_nil, List.nil_append, List.append_nil]
      exact sameButs_seq (sameButs_append_points a' (sameButs_points b' hc))
    rw [Ast.withPoints]
    split
    · exact hany _ _
    · exact hany _ _
theorem withPointsEach_sameBut {σ : Type} (w : ActWorld σ) (n : Nat) (after : Bool) (ids : Nat → Nat)
    (filter : Nat → Bool) : ∀ (cs : List Ast) (pk : AstKind) (i num : Nat), Ast.plainEach cs = true →
      SameButEach (Ast.meanEach w n (Ast.withPointsEach after ids filter pk i num cs)) (Ast.meanEach w n cs)
  | [], _, _, _, _ => .nil
  | c :: cs, pk, i, num, hp => by
    rw [Ast.plainEach, Bool.and_eq_true] at hp
    rw [Ast.withPointsEach, Ast.meanEach, Ast.meanEach]
    exact .cons (withPoints_sameBut w n after ids filter c pk i num hp.1)
      (withPointsEach_sameBut w n after ids filter cs pk (i + 1) _ hp.2)
end

theorem bodyWithPoints_sameBut {σ : Type} (w : ActWorld σ) (n : Nat) (after : Bool) (ids : Nat → Nat)
    (filter : Nat → Bool) (root : Ast) (hp : root.plain = true) :
    SameBut ((root.bodyWithPoints after ids filter).mean w n) (root.mean w n) := by
  obtain ⟨k, t, b, a, cs⟩ := root
  rw [Ast.plain] at hp
  simp only [Bool.and_eq_true, List.isEmpty_iff] at hp
  obtain ⟨⟨rfl, rfl⟩, hp⟩ := hp
  rw [Ast.bodyWithPoints, Ast.mean, Ast.mean]
  simp only [List.map_nil, List.nil_append, List.append_nil]
  exact sameButs_seq (sameBut_astMeans w n k (withPointsEach_sameBut w n after ids filter cs k 0 0 hp)).toSameButs

theorem callBody_sameBut {σ : Type} {x x' : Meaning σ} (h : SameBut x x') :
    ∀ (m : Nat) (e : Option CLabel) (s : σ), callBody x' m e s = ownRan (callBody x m e s)
  | 0, _, _ => rfl
  | m + 1, e, s => by
    rw [callBody, callBody, h.2]
    obtain ⟨l, s', f⟩ := x.run e s
    cases f with
    | goto g =>
      simp only [ownRan]
      have := ownRan_andThen (l, s', Flow.normal) (callBody x m (some (.named g)))
      rw [ownRan] at this
      rw [this, funext fun s => callBody_sameBut h m (some (.named g)) s]
      rfl
    | _ => rfl

/-! Points before actions -/

theorem announced_nil : Announced [] := by
  intro pre a post h
  simp at h

theorem announced_append {l l' : List Step} (h : Announced l) (h' : Announced l') : Announced (l ++ l') := by
  intro pre a post he
  rcases List.append_eq_append_iff.mp he with ⟨c, hc1, hc2⟩ | ⟨c, hc1, hc2⟩
  · obtain ⟨p, rfl⟩ := h' c a post hc2
    exact ⟨l ++ p, by rw [hc1, List.append_assoc]⟩
  · cases c with
    | nil =>
      obtain ⟨p, hp⟩ := h' [] a post (by simpa using hc2.symm)
      simp at hp
    | cons d c =>
      simp only [List.cons_append, List.cons.injEq] at hc2
      obtain ⟨rfl, _⟩ := hc2
      exact h pre a c hc1

theorem announced_asked (c : Nat) : Announced [.asked c] := by
  intro pre a post h
  cases pre with
  | nil => simp at h
  | cons p pre => simp at h

theorem announced_point (e : PointEvent) : Announced [.point e] := by
  intro pre a post h
  cases pre with
  | nil => simp at h
  | cons p pre => simp at h

theorem announced_did (a : Nat) : Announced [.point ⟨a, false⟩, .did a] := by
  intro pre b post h
  match pre, h with
  | [p], h =>
    simp only [List.cons_append, List.nil_append, List.cons.injEq] at h
    obtain ⟨rfl, h, _⟩ := h
    cases h
    exact ⟨[], rfl⟩
  | [], h => simp at h
  | p :: q :: pre, h => simp at h

theorem announced_andThen {σ : Type} {r : Ran σ} {k : σ → Ran σ} (h : Announced r.1)
    (hk : ∀ s, Announced (k s).1) : Announced (r.andThen k).1 := by
  obtain ⟨l, s, f⟩ := r
  cases f <;> simp only [Ran.andThen] <;> try exact h
  exact announced_append h (hk s)

theorem announced_afterRound {σ : Type} {r : Ran σ} {k : σ → Ran σ} (h : Announced r.1)
    (hk : ∀ s, Announced (k s).1) : Announced (afterRound r k).1 := by
  obtain ⟨l, s, f⟩ := r
  cases f <;> simp only [afterRound] <;> try exact h
  all_goals exact announced_andThen h hk

theorem announced_afterSwitch {σ : Type} {r : Ran σ} (h : Announced r.1) : Announced (afterSwitch r).1 := by
  obtain ⟨l, s, f⟩ := r
  cases f <;> exact h

/-- All runs have their points. -/
def Announces {σ : Type} (m : Meaning σ) : Prop := ∀ e s, Announced (m.run e s).1

theorem announces_guard {σ : Type} {labs : CLabel → Bool} {run : Option CLabel → σ → Ran σ}
    (h : ∀ e s, Announced (run e s).1) : Announces (.guard labs run) := by
  intro e s
  cases e with
  | none => exact h none s
  | some l =>
    simp only [Meaning.guard]
    split
    · exact h _ s
    · exact announced_nil

theorem announces_seq {σ : Type} {ms : List (Meaning σ)} (h : ∀ m ∈ ms, Announces m) :
    Announces (meanSeq ms) := by
  show ∀ e s, Announced (runSeq ms e s).1
  induction ms with
  | nil => intro e s; cases e <;> exact announced_nil
  | cons m ms ih =>
    have ih := ih fun m hm => h m (List.mem_cons_of_mem _ hm)
    intro e s
    cases e with
    | none => exact announced_andThen (h m (by simp) _ _) (ih none)
    | some l =>
      rw [runSeq]
      split
      · exact announced_andThen (h m (by simp) _ _) (ih none)
      · exact ih _ s

theorem announces_point {σ : Type} (e : PointEvent) : Announces (meanPoint e : Meaning σ) :=
  announces_guard fun _ _ => announced_point e

theorem announces_lab {σ : Type} (l : CLabel) : Announces (meanLab l : Meaning σ) :=
  announces_guard fun _ _ => announced_nil

theorem announced_rounds {σ : Type} (w : ActWorld σ) (c : Nat) {x : Meaning σ} (h : Announces x)
    (step : σ → Ran σ) (hs : ∀ s, Announced (step s).1) : ∀ n s, Announced (rounds w c x step n s).1
  | 0, _ => announced_nil
  | n + 1, s => by
    rw [rounds]
    refine announced_andThen (announced_asked c) fun s' => ?_
    split
    · exact announced_afterRound (h _ _) fun s'' =>
        announced_andThen (hs s'') (announced_rounds w c h step hs n)
    · exact announced_nil

theorem announces_astMeans {σ : Type} (w : ActWorld σ) (n : Nat) (k : AstKind) (hk : ∀ a, k ≠ .simple a)
    {ms : List (Meaning σ)} (h : ∀ m ∈ ms, Announces m) : ∀ m ∈ astMeans w n k ms, Announces m := by
  have hnil : ∀ s : σ, Announced (Ran.nothing s).1 := fun _ => announced_nil
  have hev : ∀ (u : Nat) (s : σ), Announced (evalStep w u s).1 := fun u _ => announced_asked u
  intro m hm
  unfold astMeans at hm
  split at hm
  · simp at hm
  · exact absurd rfl (hk _)
  · rw [List.mem_singleton] at hm; subst hm; exact announces_seq h
  · rcases List.mem_cons.mp hm with rfl | hm
    · exact announces_lab _
    · exact h m hm
  · rcases List.mem_cons.mp hm with rfl | hm
    · exact announces_lab _
    · exact h m hm
  · rcases List.mem_cons.mp hm with rfl | hm
    · exact announces_lab _
    · exact h m hm
  · rename_i c _ x
    have hx := h x (by simp)
    rw [List.mem_singleton] at hm; subst hm
    refine announces_guard fun e s => ?_
    cases e with
    | none =>
      refine announced_andThen (announced_asked _) fun s' => ?_
      split
      · exact hx _ _
      · exact announced_nil
    | some l =>
      simp only
      split
      · exact hx _ _
      · exact announced_nil
  · rename_i c _ x y
    have hx := h x (by simp)
    have hy := h y (by simp)
    rw [List.mem_singleton] at hm; subst hm
    refine announces_guard fun e s => ?_
    cases e with
    | none =>
      refine announced_andThen (announced_asked _) fun s' => ?_
      split
      · exact hx _ _
      · exact hy _ _
    | some l =>
      simp only
      split
      · exact hx _ _
      · exact hy _ _
  · rename_i c _ x
    have hx := h x (by simp)
    rw [List.mem_singleton] at hm; subst hm
    refine announces_guard fun e s => ?_
    cases e with
    | none => exact announced_rounds w c hx _ hnil n s
    | some l => exact announced_afterRound (hx _ _) (announced_rounds w c hx _ hnil n)
  · rename_i c x _
    have hx := h x (by simp)
    rw [List.mem_singleton] at hm; subst hm
    exact announces_guard fun e s => announced_afterRound (hx _ _) (announced_rounds w c hx _ hnil n)
  · rename_i i c u _ _ _ x
    have hx := h x (by simp)
    rw [List.mem_singleton] at hm; subst hm
    refine announces_guard fun e s => ?_
    cases e with
    | none => exact announced_andThen (hev i s) (announced_rounds w c hx _ (hev u) n)
    | some l =>
      exact announced_afterRound (hx _ _) fun s' =>
        announced_andThen (hev u s') (announced_rounds w c hx _ (hev u) n)
  · rename_i e _ x
    have hx := h x (by simp)
    rw [List.mem_singleton] at hm; subst hm
    refine announces_guard fun en s => ?_
    cases en with
    | none =>
      refine announced_andThen (announced_asked _) fun s' => ?_
      split
      · exact announced_afterSwitch (hx _ _)
      · split
        · exact announced_afterSwitch (hx _ _)
        · exact announced_nil
    | some l => exact announced_afterSwitch (hx _ _)
  · simp at hm

mutual
theorem announces_withPoints {σ : Type} (w : ActWorld σ) (n : Nat) (after : Bool) (ids : Nat → Nat)
    (filter : Nat → Bool) : ∀ (x : Ast) (pk : AstKind) (i num : Nat), x.plain = true →
      x.actionsTraced ids filter pk i num = true →
      Announces ((x.withPoints after ids filter pk i num).mean w n)
  | .mk k t b a cs, pk, i, num, hp, ht => by
    rw [Ast.plain] at hp
    simp only [Bool.and_eq_true, List.isEmpty_iff] at hp
    obtain ⟨⟨rfl, rfl⟩, hp⟩ := hp
    unfold Ast.actionsTraced at ht
    rw [Bool.and_eq_true] at ht
    have hin := announces_withPointsEach w n after ids filter cs k 0 (num + 1) hp ht.2
    by_cases hk : ∃ x, k = .simple x
    · obtain ⟨x, rfl⟩ := hk
      have h1 := ht.1
      simp only [Bool.and_eq_true, beq_iff_eq] at h1
      rw [Ast.withPoints]
      simp only [h1.1.1, h1.1.2, h1.2, Bool.and_self, if_true, List.nil_append]
      rw [Ast.mean]
      show Announces (meanSeq (meanPoint ⟨x, false⟩ :: meanAct w x ::
        (if after = true then [⟨x, true⟩] else [] : List PointEvent).map meanPoint))
      have hrest : ∀ e s, Announced
          (runSeq ((if after = true then [⟨x, true⟩] else [] : List PointEvent).map meanPoint) e (s : σ)).1 :=
        announces_seq (σ := σ) (by
          intro m hm
          obtain ⟨e, _, rfl⟩ := List.mem_map.mp hm
          exact announces_point e)
      intro e s
      cases e with
      | none =>
        show Announced (Ran.andThen (([.point ⟨x, false⟩], s, .normal) : Ran σ) fun s =>
          Ran.andThen ([.did x], w.act x s) _).1
        rw [← Ran.andThen_assoc]
        refine announced_andThen ?_ (hrest none)
        exact announced_did x
      | some l => exact hrest (some l) s
    · have hcore := announces_astMeans w n k (fun a h => hk ⟨a, h⟩) hin
      have hany : ∀ b' a' : List PointEvent,
          Announces ((Ast.mk k t b' a' (Ast.withPointsEach after ids filter k 0 (num + 1) cs)).mean w n) := by
        intro b' a'
        rw [Ast.mean]
        refine announces_seq fun m hm => ?_
        rw [List.mem_append, List.mem_append] at hm
        rcases hm with (hm | hm) | hm
        · obtain ⟨e, _, rfl⟩ := List.mem_map.mp hm
          exact announces_point e
        · exact hcore m hm
        · obtain ⟨e, _, rfl⟩ := List.mem_map.mp hm
          exact announces_point e
      rw [Ast.withPoints]
      split
      · exact hany _ _
      · exact hany _ _
theorem announces_withPointsEach {σ : Type} (w : ActWorld σ) (n : Nat) (after : Bool) (ids : Nat → Nat)
    (filter : Nat → Bool) : ∀ (cs : List Ast) (pk : AstKind) (i num : Nat), Ast.plainEach cs = true →
      Ast.actionsTracedEach ids filter pk i num cs = true →
      ∀ m ∈ Ast.meanEach w n (Ast.withPointsEach after ids filter pk i num cs), Announces m
  | [], _, _, _, _, _ => by intro m hm; simp [Ast.withPointsEach, Ast.meanEach] at hm
  | c :: cs, pk, i, num, hp, ht => by
    rw [Ast.plainEach, Bool.and_eq_true] at hp
    rw [Ast.actionsTracedEach, Bool.and_eq_true] at ht
    rw [Ast.withPointsEach, Ast.meanEach]
    intro m hm
    rcases List.mem_cons.mp hm with rfl | hm
    · exact announces_withPoints w n after ids filter c pk i num hp.1 ht.1
    · exact announces_withPointsEach w n after ids filter cs pk (i + 1) _ hp.2 ht.2 m hm
end

theorem announced_callBody {σ : Type} {x : Meaning σ} (h : Announces x) :
    ∀ (m : Nat) (e : Option CLabel) (s : σ), Announced (callBody x m e s).1
  | 0, _, _ => announced_nil
  | m + 1, e, s => by
    rw [callBody]
    have hx := h e s
    revert hx
    generalize x.run e s = r
    intro hx
    obtain ⟨l, s', f⟩ := r
    cases f with
    | goto g => exact announced_andThen hx (announced_callBody h m _)
    | _ => exact hx

/-! Without a filter -/

mutual
theorem labelsSafe_all : ∀ (x : Ast) (pk : AstKind) (i num : Nat),
    x.switchesBraced = true → (∀ e, pk = .switch e → x.kind.isLabelled = false) →
    x.labelsSafe (fun _ => true) pk i num
  | .mk k t b a cs, pk, i, num, hs, hp => by
    unfold Ast.switchesBraced at hs
    rw [Bool.and_eq_true] at hs
    rw [Ast.labelsSafe]
    refine ⟨?_, labelsSafeEach_all cs k 0 (num + 1) hs.2 ?_⟩
    · intro hk hh
      rcases hh with hh | ⟨e, he⟩
      · exact Or.inl ⟨hh, rfl⟩
      · have := hp e he
        simp only [Ast.kind] at this
        rw [this] at hk
        cases hk
    · intro e he c hc
      subst he
      have h1 := hs.1
      simp only [List.all_eq_true, Bool.not_eq_true'] at h1
      exact h1 c hc
theorem labelsSafeEach_all : ∀ (cs : List Ast) (pk : AstKind) (i num : Nat),
    Ast.switchesBracedEach cs = true → (∀ e, pk = .switch e → ∀ c ∈ cs, c.kind.isLabelled = false) →
    Ast.labelsSafeEach (fun _ => true) pk i num cs
  | [], _, _, _, _, _ => trivial
  | c :: cs, pk, i, num, hs, hp => by
    rw [Ast.switchesBracedEach, Bool.and_eq_true] at hs
    rw [Ast.labelsSafeEach]
    exact ⟨labelsSafe_all c pk i num hs.1 (fun e he => hp e he c (by simp)),
      labelsSafeEach_all cs pk (i + 1) _ hs.2 (fun e he d hd => hp e he d (List.mem_cons_of_mem _ hd))⟩
end

end TraceDB
