import Verif.Spec.Groups
import Verif.Proofs.StatementRuns
/-
Helper lemmas: which places of a body with groups are changed; and trees where some of the
places were chosen.
-/
namespace TraceDB

mutual
/-- The tree changed all at once, but for ASTs that may be incomplete. -/
def Ast.editedC (after : Bool) (ids : Nat → Nat) (filter : Nat → Bool) (pk : AstKind) (i : Nat)
    (pinc inc : Bool) (num : Nat) : Ast → Ast
  | .mk k t b a cs =>
    let x := Ast.mk k t b a (Ast.editedCEach after ids filter k inc 0 none (num + 1) cs)
    if canBeTraced pk i (.mk k t b a cs) && (filter num && notRuledOut pk i pinc inc) then
      tracedEdit after ids pk num (.mk k t b a cs) x
    else x
def Ast.editedCEach (after : Bool) (ids : Nat → Nat) (filter : Nat → Bool) (pk : AstKind) (pinc : Bool)
    (i : Nat) (prev : Option Ast) (num : Nat) : List Ast → List Ast
  | [] => []
  | c :: cs =>
    c.editedC after ids filter pk i pinc (possiblyIncomplete prev cs.head?) num ::
      Ast.editedCEach after ids filter pk pinc (i + 1) (some c) (num + c.count) cs
end

mutual
theorem completeBelow_length : ∀ (x : Ast) (inc : Bool), (x.completeBelow inc).length + 1 = x.count
  | .mk k t b a cs, inc => by rw [Ast.completeBelow, Ast.count, completeEach_length cs]
theorem completeEach_length : ∀ (cs : List Ast) (pk : AstKind) (pinc : Bool) (i : Nat) (prev : Option Ast),
    (Ast.completeEach pk pinc i prev cs).length = Ast.countEach cs
  | [], _, _, _, _ => rfl
  | c :: cs, pk, pinc, i, prev => by
    rw [Ast.completeEach, List.length_cons, List.length_append, completeEach_length cs, Ast.countEach,
      ← completeBelow_length c (possiblyIncomplete prev cs.head?)]
    omega
end

mutual
theorem edited_complete (after : Bool) (ids : Nat → Nat) (f filter : Nat → Bool) :
    ∀ (x : Ast) (pk : AstKind) (i : Nat) (pinc inc : Bool) (num : Nat),
      (∀ (j : Nat) (v : Bool), (notRuledOut pk i pinc inc :: x.completeBelow inc)[j]? = some v →
        f (num + j) = (filter (num + j) && v)) →
      x.edited after ids f pk i num = x.editedC after ids filter pk i pinc inc num
  | .mk k t b a cs, pk, i, pinc, inc, num, h => by
    rw [Ast.edited, Ast.editedC, editedEach_complete after ids f filter cs k inc 0 none (num + 1)
      (fun j v hv => by
        have := h (j + 1) v (by rw [List.getElem?_cons_succ]; exact hv)
        rwa [show num + (j + 1) = num + 1 + j by omega] at this),
      show f num = (filter num && notRuledOut pk i pinc inc) from h 0 _ rfl]
theorem editedEach_complete (after : Bool) (ids : Nat → Nat) (f filter : Nat → Bool) :
    ∀ (cs : List Ast) (pk : AstKind) (pinc : Bool) (i : Nat) (prev : Option Ast) (num : Nat),
      (∀ (j : Nat) (v : Bool), (Ast.completeEach pk pinc i prev cs)[j]? = some v →
        f (num + j) = (filter (num + j) && v)) →
      Ast.editedEach after ids f pk i num cs = Ast.editedCEach after ids filter pk pinc i prev num cs
  | [], _, _, _, _, _, _ => rfl
  | c :: cs, pk, pinc, i, prev, num, h => by
    rw [Ast.completeEach, ← List.cons_append] at h
    have hl : (notRuledOut pk i pinc (possiblyIncomplete prev cs.head?) ::
        c.completeBelow (possiblyIncomplete prev cs.head?)).length = c.count := by
      rw [List.length_cons, completeBelow_length]
    rw [Ast.editedEach, Ast.editedCEach,
      edited_complete after ids f filter c pk i pinc (possiblyIncomplete prev cs.head?) num (fun j v hv => by
        refine h j v ?_
        rw [List.getElem?_append_left]
        · exact hv
        · exact (List.getElem?_eq_some_iff.mp hv).1),
      editedEach_complete after ids f filter cs pk pinc (i + 1) (some c) (num + c.count) (fun j v hv => by
        have := h (c.count + j) v (by rw [← hl, List.getElem?_append_right (by omega)]; simpa using hv)
        rwa [← Nat.add_assoc] at this)]
end

/-- The instrumented body. -/
theorem instrumentGroups_edited (after : Bool) (ids : Nat → Nat) (filter : Nat → Bool) (k : AstKind)
    (t : List U8) (b a : List PointEvent) (cs : List Ast) :
    instrumentGroups after ids filter (.mk k t b a cs) =
      .mk k t b a (Ast.editedCEach after ids filter k false 0 none 0 cs) := by
  rw [instrumentGroups, instrumentBody_edited]
  congr 1
  refine editedEach_complete after ids _ filter cs k false 0 none 0 ?_
  intro j v hv
  rw [Ast.completeBelow, Nat.zero_add, hv]
  rfl

mutual
theorem editedC_quiet (after : Bool) (ids : Nat → Nat) (filter : Nat → Bool) :
    ∀ (x : Ast) (pk : AstKind) (i : Nat) (pinc inc : Bool) (num : Nat),
      (∀ m, num ≤ m → m < num + x.count → filter m = false) →
      x.editedC after ids filter pk i pinc inc num = x
  | .mk k t b a cs, pk, i, pinc, inc, num, h => by
    rw [Ast.count] at h
    have h0 := h num (Nat.le_refl _) (by omega)
    rw [Ast.editedC, editedCEach_quiet after ids filter cs k inc 0 none (num + 1)
      (fun m h1 h2 => h m (by omega) (by omega))]
    simp [h0]
theorem editedCEach_quiet (after : Bool) (ids : Nat → Nat) (filter : Nat → Bool) :
    ∀ (cs : List Ast) (pk : AstKind) (pinc : Bool) (i : Nat) (prev : Option Ast) (num : Nat),
      (∀ m, num ≤ m → m < num + Ast.countEach cs → filter m = false) →
      Ast.editedCEach after ids filter pk pinc i prev num cs = cs
  | [], _, _, _, _, _, _ => rfl
  | c :: cs, pk, pinc, i, prev, num, h => by
    rw [Ast.countEach] at h
    rw [Ast.editedCEach, editedC_quiet after ids filter c pk i pinc _ num (fun m h1 h2 => h m h1 (by omega)),
      editedCEach_quiet after ids filter cs pk pinc (i + 1) _ (num + c.count)
        (fun m h1 h2 => h m (by omega) (by omega))]
end

/-! Changes only depend on the numbers in the tree -/

/-- Two ways to choose that are the same for `n` numbers. -/
def AgreeOn (num n : Nat) (ids ids' : Nat → Nat) (filter filter' : Nat → Bool) : Prop :=
  ∀ m, num ≤ m → m < num + n → ids m = ids' m ∧ filter m = filter' m

theorem AgreeOn.sub {num n num' n' : Nat} {ids ids' : Nat → Nat} {filter filter' : Nat → Bool}
    (h : AgreeOn num n ids ids' filter filter') (h1 : num ≤ num') (h2 : num' + n' ≤ num + n) :
    AgreeOn num' n' ids ids' filter filter' :=
  fun m a b => h m (by omega) (by omega)

mutual
theorem edited_agree (after : Bool) (ids ids' : Nat → Nat) (filter filter' : Nat → Bool) :
    ∀ (x : Ast) (pk : AstKind) (i num : Nat), AgreeOn num x.count ids ids' filter filter' →
      x.edited after ids filter pk i num = x.edited after ids' filter' pk i num
  | .mk k t b a cs, pk, i, num, h => by
    rw [Ast.count] at h
    have h0 := h num (Nat.le_refl _) (by omega)
    rw [Ast.edited, Ast.edited, editedEach_agree after ids ids' filter filter' cs k 0 (num + 1)
      (h.sub (by omega) (by omega)), tracedEdit, tracedEdit, h0.1, h0.2]
theorem editedEach_agree (after : Bool) (ids ids' : Nat → Nat) (filter filter' : Nat → Bool) :
    ∀ (cs : List Ast) (pk : AstKind) (i num : Nat), AgreeOn num (Ast.countEach cs) ids ids' filter filter' →
      Ast.editedEach after ids filter pk i num cs = Ast.editedEach after ids' filter' pk i num cs
  | [], _, _, _, _ => rfl
  | c :: cs, pk, i, num, h => by
    rw [Ast.countEach] at h
    rw [Ast.editedEach, Ast.editedEach,
      edited_agree after ids ids' filter filter' c pk i num (h.sub (by omega) (by omega)),
      editedEach_agree after ids ids' filter filter' cs pk (i + 1) (num + c.count) (h.sub (by omega) (by omega))]
end

mutual
theorem labelsSafe_agree (ids ids' : Nat → Nat) (filter filter' : Nat → Bool) :
    ∀ (x : Ast) (pk : AstKind) (i num : Nat), AgreeOn num x.count ids ids' filter filter' →
      x.labelsSafe filter pk i num → x.labelsSafe filter' pk i num
  | .mk k t b a cs, pk, i, num, h, hs => by
    rw [Ast.count] at h
    rw [Ast.labelsSafe] at hs ⊢
    refine ⟨fun hk hh => ?_, labelsSafeEach_agree ids ids' filter filter' cs k 0 (num + 1)
      (h.sub (by omega) (by omega)) hs.2⟩
    rcases hs.1 hk hh with ⟨h1, h2⟩ | hq
    · exact Or.inl ⟨h1, by rw [← (h num (Nat.le_refl _) (by omega)).2]; exact h2⟩
    · exact Or.inr fun m h1 h2 => by rw [← (h m h1 (by omega)).2]; exact hq m h1 h2
theorem labelsSafeEach_agree (ids ids' : Nat → Nat) (filter filter' : Nat → Bool) :
    ∀ (cs : List Ast) (pk : AstKind) (i num : Nat), AgreeOn num (Ast.countEach cs) ids ids' filter filter' →
      Ast.labelsSafeEach filter pk i num cs → Ast.labelsSafeEach filter' pk i num cs
  | [], _, _, _, _, _ => trivial
  | c :: cs, pk, i, num, h, hs => by
    rw [Ast.countEach] at h
    exact ⟨labelsSafe_agree ids ids' filter filter' c pk i num (h.sub (by omega) (by omega)) hs.1,
      labelsSafeEach_agree ids ids' filter filter' cs pk (i + 1) (num + c.count) (h.sub (by omega) (by omega)) hs.2⟩
end

mutual
theorem actionsTraced_agree (ids ids' : Nat → Nat) (filter filter' : Nat → Bool) :
    ∀ (x : Ast) (pk : AstKind) (i num : Nat), AgreeOn num x.count ids ids' filter filter' →
      x.actionsTraced ids filter pk i num = x.actionsTraced ids' filter' pk i num
  | .mk k t b a cs, pk, i, num, h => by
    rw [Ast.count] at h
    have h0 := h num (Nat.le_refl _) (by omega)
    unfold Ast.actionsTraced
    rw [actionsTracedEach_agree ids ids' filter filter' cs k 0 (num + 1)
      (h.sub (by omega) (by omega)), h0.1, h0.2]
theorem actionsTracedEach_agree (ids ids' : Nat → Nat) (filter filter' : Nat → Bool) :
    ∀ (cs : List Ast) (pk : AstKind) (i num : Nat), AgreeOn num (Ast.countEach cs) ids ids' filter filter' →
      Ast.actionsTracedEach ids filter pk i num cs = Ast.actionsTracedEach ids' filter' pk i num cs
  | [], _, _, _, _ => rfl
  | c :: cs, pk, i, num, h => by
    rw [Ast.countEach] at h
    rw [Ast.actionsTracedEach, Ast.actionsTracedEach,
      actionsTraced_agree ids ids' filter filter' c pk i num (h.sub (by omega) (by omega)),
      actionsTracedEach_agree ids ids' filter filter' cs pk (i + 1) (num + c.count) (h.sub (by omega) (by omega))]
end

/-! Trees where some of the places were chosen -/

mutual
/-- `x'` is `x` with points at some of the places; a labelled statement in a place for one
statement is one of them, or nothing is chosen inside.  If `full`, all statements without
statements inside are chosen, and their ids are the numbers of their actions. -/
def Chosen (after full : Bool) (pk : AstKind) (i : Nat) : Ast → Ast → Prop
  | .mk k t b a cs, x' => ∃ cs', ChosenEach after full k 0 cs cs' ∧
      ((x' = .mk k t b a cs' ∧ (k.isLabelled = true → hangs pk i → cs' = cs ∧ full = false) ∧
          (full = true → k.isSimple = false)) ∨
       ∃ id, canBeTraced pk i (.mk k t b a cs) = true ∧
        x' = instrumentAst after id (!traceableStmt pk (.mk k t b a cs)) (.mk k t b a cs') ∧
        (full = true → ∀ n, k = .simple n → id = n))
def ChosenEach (after full : Bool) (pk : AstKind) (i : Nat) : List Ast → List Ast → Prop
  | [], l => l = []
  | c :: cs, l => ∃ c' cs', l = c' :: cs' ∧ Chosen after full pk i c c' ∧ ChosenEach after full pk (i + 1) cs cs'
end

mutual
theorem labelsSafe_quiet : ∀ (x : Ast) (pk : AstKind) (i num : Nat), x.labelsSafe (fun _ => false) pk i num
  | .mk k t b a cs, pk, i, num => by
    rw [Ast.labelsSafe]
    exact ⟨fun _ _ => Or.inr fun _ _ _ => rfl, labelsSafe_none cs k 0 (num + 1)⟩
theorem labelsSafe_none : ∀ (cs : List Ast) (pk : AstKind) (i num : Nat),
    Ast.labelsSafeEach (fun _ => false) pk i num cs
  | [], _, _, _ => trivial
  | c :: cs, pk, i, num => ⟨labelsSafe_quiet c pk i num, labelsSafe_none cs pk (i + 1) (num + c.count)⟩
end

theorem traced_hangs {pk : AstKind} {i : Nat} {x : Ast} (hc : canBeTraced pk i x = true) (hh : hangs pk i) :
    isBranch pk i = true := by
  rcases hh with hh | ⟨e, rfl⟩
  · exact hh
  · simp [canBeTraced, traceableStmt, AstKind.isTraceableParent, isBranch] at hc

mutual
theorem chosen_edited (after full : Bool) : ∀ (x : Ast) (pk : AstKind) (i : Nat) (x' : Ast),
    Chosen after full pk i x x' → ∀ num, ∃ (ids : Nat → Nat) (filter : Nat → Bool),
      x' = x.edited after ids filter pk i num ∧ x.labelsSafe filter pk i num ∧
      (full = true → x.actionsTraced ids filter pk i num = true)
  | .mk k t b a cs, pk, i, x', h, num => by
    rw [Chosen] at h
    obtain ⟨cs', hcs, h⟩ := h
    obtain ⟨ids, filter, he, hl, hact⟩ := chosenEach_edited after full cs k 0 cs' hcs (num + 1)
    rcases h with ⟨hx, hlab, hfull⟩ | ⟨id, hc, hx, hid⟩
    · by_cases hq : k.isLabelled = true ∧ hangs pk i
      · obtain ⟨hsame, hf⟩ := hlab hq.1 hq.2
        refine ⟨ids, fun _ => false, ?_, ?_, by simp [hf]⟩
        · rw [edited_quiet after ids (fun _ => false) _ pk i num (fun _ _ _ => rfl), hx, hsame]
        · rw [Ast.labelsSafe]
          refine ⟨fun _ _ => Or.inr fun _ _ _ => rfl, ?_⟩
          exact labelsSafe_none cs k 0 (num + 1)
      · have hag : AgreeOn (num + 1) (Ast.countEach cs) ids ids filter
            (fun m => if m = num then false else filter m) := by
          intro m h1 _
          refine ⟨rfl, ?_⟩
          exact (if_neg (show ¬ m = num by omega)).symm
        refine ⟨ids, fun m => if m = num then false else filter m, ?_, ?_, ?_⟩
        · rw [Ast.edited, ← editedEach_agree after ids ids filter _ cs k 0 (num + 1) hag, ← he, hx]
          simp
        · rw [Ast.labelsSafe]
          exact ⟨fun h1 h2 => absurd ⟨h1, h2⟩ hq, labelsSafeEach_agree ids ids filter _ cs k 0 (num + 1) hag hl⟩
        · intro hf
          unfold Ast.actionsTraced
          rw [← actionsTracedEach_agree ids ids filter _ cs k 0 (num + 1) hag, hact hf,
            Bool.and_true]
          have := hfull hf
          cases k <;> simp [AstKind.isSimple] at this ⊢
    · have hag : AgreeOn (num + 1) (Ast.countEach cs) ids (fun m => if m = num then id else ids m) filter
          (fun m => if m = num then true else filter m) := by
        intro m h1 _
        refine ⟨?_, ?_⟩ <;> exact (if_neg (show ¬ m = num by omega)).symm
      refine ⟨fun m => if m = num then id else ids m, fun m => if m = num then true else filter m, ?_, ?_, ?_⟩
      · rw [Ast.edited, ← editedEach_agree after _ _ filter _ cs k 0 (num + 1) hag, ← he, hx]
        simp [hc, tracedEdit]
      · rw [Ast.labelsSafe]
        refine ⟨fun h1 h2 => Or.inl ⟨traced_hangs hc h2, by simp⟩, ?_⟩
        exact labelsSafeEach_agree _ _ filter _ cs k 0 (num + 1) hag hl
      · intro hf
        unfold Ast.actionsTraced
        rw [← actionsTracedEach_agree _ _ filter _ cs k 0 (num + 1) hag, hact hf,
          Bool.and_true]
        cases k <;> simp [fullStatement_eq, hc]
        exact hid hf _ rfl
theorem chosenEach_edited (after full : Bool) : ∀ (cs : List Ast) (pk : AstKind) (i : Nat) (l : List Ast),
    ChosenEach after full pk i cs l → ∀ num, ∃ (ids : Nat → Nat) (filter : Nat → Bool),
      l = Ast.editedEach after ids filter pk i num cs ∧ Ast.labelsSafeEach filter pk i num cs ∧
      (full = true → Ast.actionsTracedEach ids filter pk i num cs = true)
  | [], _, _, l, h, _ => by
    rw [ChosenEach] at h
    exact ⟨fun _ => 0, fun _ => false, h, trivial, fun _ => rfl⟩
  | c :: cs, pk, i, l, h, num => by
    rw [ChosenEach] at h
    obtain ⟨c', cs', rfl, hc, hcs⟩ := h
    obtain ⟨ids, filter, he, hl, ha⟩ := chosen_edited after full c pk i c' hc num
    obtain ⟨ids', filter', he', hl', ha'⟩ := chosenEach_edited after full cs pk (i + 1) cs' hcs (num + c.count)
    have hag : AgreeOn num c.count ids (fun m => if m < num + c.count then ids m else ids' m) filter
        (fun m => if m < num + c.count then filter m else filter' m) := by
      intro m _ h2
      refine ⟨?_, ?_⟩ <;> exact (if_pos h2).symm
    have hag' : AgreeOn (num + c.count) (Ast.countEach cs) ids'
        (fun m => if m < num + c.count then ids m else ids' m) filter'
        (fun m => if m < num + c.count then filter m else filter' m) := by
      intro m h1 _
      refine ⟨?_, ?_⟩ <;> exact (if_neg (show ¬ m < num + c.count by omega)).symm
    refine ⟨fun m => if m < num + c.count then ids m else ids' m,
      fun m => if m < num + c.count then filter m else filter' m, ?_, ?_, ?_⟩
    · rw [Ast.editedEach, ← edited_agree after _ _ _ _ c pk i num hag,
        ← editedEach_agree after _ _ _ _ cs pk (i + 1) (num + c.count) hag', ← he, ← he']
    · exact ⟨labelsSafe_agree _ _ _ _ c pk i num hag hl,
        labelsSafeEach_agree _ _ _ _ cs pk (i + 1) (num + c.count) hag' hl'⟩
    · intro hf
      rw [Ast.actionsTracedEach, ← actionsTraced_agree _ _ _ _ c pk i num hag, ha hf,
        ← actionsTracedEach_agree _ _ _ _ cs pk (i + 1) (num + c.count) hag', ha' hf]
      rfl
end

end TraceDB
