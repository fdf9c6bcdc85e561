import Verif.Proofs.GroupKept
import Verif.Props.Statements
/-
C83: instrumentation and conditional compilation.
-/
namespace TraceDB

/-- C83: for every choice of the conditions of `#if` and `#ifdef`, the preprocessed text of an
instrumented function does the steps of the preprocessed original apart from the points,
with the same final state and end; groups may be nested, and may end with the beginning of
the statement after them. -/
theorem C83_same_behaviour (ρ : Nat → Bool) (after : Bool) (ids : Nat → Nat) (filter : Nat → Bool) (root : Ast)
    (hk : root.kind = .block) (hp : root.plain = true) (hpl : root.placed = true)
    (hs : (root.preprocess ρ).shaped = true) (hl : root.bodyLabelsSafe filter) :
    ∃ l₀ l, (root.preprocess ρ).read = some l₀ ∧
      ((instrumentGroups after ids filter root).preprocess ρ).read = some l ∧
      ∀ (σ : Type) (w : ActWorld σ) (n m : Nat) (s : σ),
        callBody (meanSeq (meanEach w n l₀)) m none s =
        ownRan (callBody (meanSeq (meanEach w n l)) m none s) := by
  obtain ⟨k, t, b, a, cs⟩ := root
  cases hk
  have hp' := hp
  simp only [Ast.plain, Bool.and_eq_true, List.isEmpty_iff] at hp'
  obtain ⟨⟨rfl, rfl⟩, hcs⟩ := hp'
  rw [Ast.placed, Bool.and_eq_true] at hpl
  obtain ⟨ids', filter', he, hsafe, _⟩ := preprocess_instrumented ρ after false ids filter t cs
    ⟨hcs, hpl.2, hl, by simp⟩ hpl.1
  rw [he]
  exact C64_same_behaviour after ids' filter' _ rfl (preprocess_plain ρ _ hp) hs hsafe

/-- C83: without a filter this is so if no `switch` has a labelled statement for a body. -/
theorem C83_no_filter (ρ : Nat → Bool) (after : Bool) (ids : Nat → Nat) (root : Ast)
    (hk : root.kind = .block) (hp : root.plain = true) (hpl : root.placed = true)
    (hs : (root.preprocess ρ).shaped = true) (hb : root.switchesBraced = true) :
    ∃ l₀ l, (root.preprocess ρ).read = some l₀ ∧
      ((instrumentGroups after ids (fun _ => true) root).preprocess ρ).read = some l ∧
      ∀ (σ : Type) (w : ActWorld σ) (n m : Nat) (s : σ),
        callBody (meanSeq (meanEach w n l₀)) m none s =
        ownRan (callBody (meanSeq (meanEach w n l)) m none s) := by
  refine C83_same_behaviour ρ after ids _ root hk hp hpl hs ?_
  obtain ⟨k, t, b, a, cs⟩ := root
  cases hk
  unfold Ast.switchesBraced at hb
  rw [Bool.and_eq_true] at hb
  exact labelsSafeEach_all cs .block 0 0 hb.2 (by intro e he; cases he)

/-- C83: if all text was parsed and all groups end with a statement, nothing is lost: for
every choice of the conditions, directly before each action its point is recorded. -/
theorem C83_announced (ρ : Nat → Bool) (after : Bool) (ids : Nat → Nat) (t : List U8) (cs : List Ast)
    (hp : (Ast.mk .block t [] [] cs).plain = true) (hpl : (Ast.mk .block t [] [] cs).placed = true)
    (hs : ((Ast.mk .block t [] [] cs).preprocess ρ).shaped = true)
    (hb : (Ast.mk .block t [] [] cs).switchesBraced = true)
    (hf : (Ast.mk .block t [] [] cs).finished = true)
    (ht : Ast.actionsTracedEach ids (fun _ => true) .block 0 0 cs = true) :
    ∃ l, ((instrumentGroups after ids (fun _ => true) (.mk .block t [] [] cs)).preprocess ρ).read = some l ∧
      ∀ (σ : Type) (w : ActWorld σ) (n m : Nat) (s : σ),
        Announced (callBody (meanSeq (meanEach w n l)) m none s).1 := by
  have hp' := hp
  simp only [Ast.plain, Bool.and_eq_true] at hp'
  rw [Ast.placed, Bool.and_eq_true] at hpl
  rw [Ast.finished, Bool.and_eq_true] at hf
  unfold Ast.switchesBraced at hb
  rw [Bool.and_eq_true] at hb
  obtain ⟨ids', filter', he, hsafe, hact⟩ := preprocess_instrumented ρ after true ids (fun _ => true) t cs
    ⟨hp'.2, hpl.2, labelsSafeEach_all cs .block 0 0 hb.2 (by intro e he; cases he), fun _ => ⟨fun _ => rfl, ht, hf.2⟩⟩
    hpl.1
  rw [he]
  exact C64_announced after ids' filter' t _ (preprocess_plain ρ _ hp) hs hsafe (hact rfl)

/-- C83: no calls and no braces are put next to unparsed text, nor before a statement that
follows a group which may end with a piece of a statement. -/
theorem C83_pieces_kept (after : Bool) (ids : Nat → Nat) (filter : Nat → Bool) (root : Ast)
    (hp : root.plain = true) : (instrumentGroups after ids filter root).kept = true := by
  obtain ⟨k, t, b, a, cs⟩ := root
  rw [Ast.plain, Bool.and_eq_true] at hp
  rw [instrumentGroups_edited, Ast.kept, keptRow_edited after ids filter k cs false 0 none 0 hp.2,
    keptEach_edited after ids filter cs k false 0 none 0 hp.2]
  rfl

/-- C83: where all text was parsed and all groups end with a statement, incompleteness rules
out nothing. -/
theorem C83_nothing_ruled_out (after : Bool) (ids : Nat → Nat) (filter : Nat → Bool) (root : Ast)
    (hf : root.finished = true) : instrumentGroups after ids filter root = instrumentBody after ids filter root := by
  obtain ⟨k, t, b, a, cs⟩ := root
  rw [Ast.finished, Bool.and_eq_true] at hf
  rw [instrumentGroups_edited, instrumentBody_edited, editedCEach_finished after ids filter cs k 0 none 0 hf.2 rfl]

/-! An example -/

/-- Unparsed text, "const". -/
def gpConst : Ast := .mk .fragment [99, 111, 110, 115, 116, 32] [] [] []

/-- ```
{ f0();
#ifdef A0
  f3(); while (c0) f6();
#elif A1
  f9();
#else
  const
#endif
  x12; f13();
#ifdef A2
  if (c1) f18();
#endif
  f19(); }
``` -/
def gpBody : Ast :=
  stOf .block [stAct 0,
    stOf (.group 0) [stExpr, stAct 3, stOf (.whileLoop 0) [stExpr, stAct 6],
      stOf (.elifGroup 1) [stExpr, stAct 9, stOf .elseGroup [gpConst]]],
    stAct 12, stAct 13,
    stOf (.group 2) [stExpr, stOf (.ite 1) [stExpr, stAct 18]],
    stAct 19]

example : gpBody.kind = .block ∧ gpBody.plain = true ∧ gpBody.placed = true ∧ gpBody.switchesBraced = true ∧
    (gpBody.preprocess fun _ => true).shaped = true ∧ (gpBody.preprocess fun c => c == 1).shaped = true ∧
    (gpBody.preprocess fun _ => false).shaped = true := by decide +kernel

example : gpBody.bodyLabelsSafe (fun _ => true) :=
  labelsSafeEach_all _ .block 0 0 (by decide +kernel) (by intro e he; cases he)

/-- Without looking for incomplete statements a call is put after "const". -/
example : (instrumentGroups false id (fun _ => true) gpBody).kept = true ∧
    (instrumentBody false id (fun _ => true) gpBody).kept = false := by
  rw [gpBody, stOf, instrumentGroups_edited, instrumentBody_edited]
  decide +kernel

/-- The steps of a run of the text of a body. -/
def gpSteps (x : Ast) : Option (List Step) :=
  x.read.map fun l => (callBody (meanSeq (meanEach stWorld 9 l)) 9 none 0).1

example : gpSteps ((instrumentGroups false id (fun _ => true) gpBody).preprocess fun _ => false) =
    some [.point ⟨0, false⟩, .did 0, .did 12, .point ⟨13, false⟩, .did 13, .point ⟨19, false⟩, .did 19] := by
  rw [gpBody, stOf, instrumentGroups_edited]
  decide +kernel

example : gpSteps ((instrumentGroups false id (fun _ => true) gpBody).preprocess fun _ => true) =
    some [.point ⟨0, false⟩, .did 0, .point ⟨3, false⟩, .did 3, .point ⟨4, false⟩, .asked 0, .point ⟨6, false⟩,
      .did 6, .asked 0, .did 12, .point ⟨13, false⟩, .did 13, .point ⟨16, false⟩, .asked 1, .point ⟨18, false⟩,
      .did 18, .point ⟨19, false⟩, .did 19] := by
  rw [gpBody, stOf, instrumentGroups_edited]
  decide +kernel

/-- `{ f0(); #ifdef A0 f3(); #ifdef A1 f6(); #endif f7(); #endif f8(); }` -/
def gpFinished : List Ast :=
  [stAct 0, stOf (.group 0) [stExpr, stAct 3, stOf (.group 1) [stExpr, stAct 6], stAct 7], stAct 8]

example : (stOf .block gpFinished).plain = true ∧ (stOf .block gpFinished).placed = true ∧
    ((stOf .block gpFinished).preprocess fun c => c == 0).shaped = true ∧
    (stOf .block gpFinished).switchesBraced = true ∧ (stOf .block gpFinished).finished = true ∧
    Ast.actionsTracedEach id (fun _ => true) .block 0 0 gpFinished = true := by decide +kernel

/-! What is lost, and what can go wrong -/

/-- C83: after a group with `#else` a full statement is not recorded, whatever the conditions:
`{ #ifdef A0 f2(); #else f4(); #endif f5(); }` -/
theorem C83_else_unrecorded :
    ∃ root : Ast, root.kind = .block ∧ root.plain = true ∧ root.placed = true ∧
      (∀ ρ : Nat → Bool, (root.preprocess ρ).shaped = true) ∧
      isFullStatement .block 1 (stAct 5) = true ∧ root.children[1]? = some (stAct 5) ∧
      ∀ ρ : Nat → Bool, gpSteps ((instrumentGroups false id (fun _ => true) root).preprocess ρ) =
        some (if ρ 0 then [.point ⟨2, false⟩, .did 2, .did 5] else [.point ⟨4, false⟩, .did 4, .did 5]) := by
  refine ⟨stOf .block [stOf (.group 0) [stExpr, stAct 2, stOf .elseGroup [stAct 4]], stAct 5],
    rfl, by decide +kernel, by decide +kernel, fun ρ => ?_, by decide +kernel, rfl, fun ρ => ?_⟩
  · simp only [stOf, stAct, stExpr, Ast.preprocess, Ast.resolveEach, Ast.resolve, AstKind.isRow, if_true]
    cases ρ 0 <;> rfl
  · rw [stOf, instrumentGroups_edited]
    simp only [Ast.preprocess, AstKind.isRow, if_true]
    have h : (Ast.editedCEach false id (fun _ => true) .block false 0 none 0
        [stOf (.group 0) [stExpr, stAct 2, stOf .elseGroup [stAct 4]], stAct 5]) =
        [.mk (.group 0) [] [] [] [stExpr, .mk (.simple 2) [102, 40, 41, 59] [⟨2, false⟩] [] [],
          .mk .elseGroup [] [] [] [.mk (.simple 4) [102, 40, 41, 59] [⟨4, false⟩] [] []]], stAct 5] := by
      rfl
    rw [h]
    simp only [stAct, stExpr, Ast.resolveEach, Ast.resolve]
    cases ρ 0 <;> rfl

/-- C83: a directive between the beginning of a statement and its rest: a call is put between
them, and the result does not compile.
`{ #ifdef A0 const #endif #define B x4; }` -/
theorem C83_directive_between :
    ∃ (root : Ast) (ρ : Nat → Bool), root.kind = .block ∧ root.plain = true ∧
      (root.preprocess ρ).shaped = true ∧ (root.preprocess ρ).read.isSome = true ∧
      ((instrumentGroups false id (fun _ => true) root).preprocess ρ).read.isNone = true := by
  refine ⟨stOf .block [stOf (.group 0) [stExpr, gpConst], stOf .directive [], stAct 4], fun _ => true,
    rfl, by decide +kernel, by decide +kernel, by decide +kernel, ?_⟩
  rw [stOf, instrumentGroups_edited]
  decide +kernel

/-- C83: so does another group between them that is not compiled.
`{ #ifdef A0 const #endif #ifdef A1 f5(); #endif x6; }` with A0 but not A1. -/
theorem C83_group_between :
    ∃ (root : Ast) (ρ : Nat → Bool), root.kind = .block ∧ root.plain = true ∧
      (root.preprocess ρ).shaped = true ∧ (root.preprocess ρ).read.isSome = true ∧
      ((instrumentGroups false id (fun _ => true) root).preprocess ρ).read.isNone = true := by
  refine ⟨stOf .block [stOf (.group 0) [stExpr, gpConst], stOf (.group 1) [stExpr, stAct 5], stAct 6],
    fun c => c == 0, rfl, by decide +kernel, by decide +kernel, by decide +kernel, ?_⟩
  rw [stOf, instrumentGroups_edited]
  decide +kernel

end TraceDB
