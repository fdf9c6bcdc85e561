import Verif.Proofs.StatementRuns
/-
C64: an instrumented function does what it did before, and records a point before (and
after) each full statement.
-/
namespace TraceDB

/-- C64: the text of an instrumented function, as a compiler reads it, does what the
function does with a point before each full statement that the filter accepts (and one
after it, if asked for), whatever its actions and conditions do, for runs that end, are
cut off or go on forever (all bounds `n` on rounds and `m` on jumps). -/
theorem C64_instrumented_runs (after : Bool) (ids : Nat → Nat) (filter : Nat → Bool) (root : Ast)
    (hk : root.kind = .block) (hs : root.shaped = true) (hl : root.bodyLabelsSafe filter) :
    ∃ l, (instrumentBody after ids filter root).read = some l ∧
      ∀ (σ : Type) (w : ActWorld σ) (n m : Nat) (s : σ),
        callBody (meanSeq (meanEach w n l)) m none s =
        callBody ((root.bodyWithPoints after ids filter).mean w n) m none s := by
  obtain ⟨l, hr, hm⟩ := read_instrumented after ids filter root hs hl hk
  exact ⟨l, hr, fun σ w n m s => by rw [hm]⟩

/-- C64: but for the points the instrumented function does the same steps, with the same
final state and the same end, as the original one. -/
theorem C64_same_behaviour (after : Bool) (ids : Nat → Nat) (filter : Nat → Bool) (root : Ast)
    (hk : root.kind = .block) (hp : root.plain = true) (hs : root.shaped = true)
    (hl : root.bodyLabelsSafe filter) :
    ∃ l₀ l, root.read = some l₀ ∧ (instrumentBody after ids filter root).read = some l ∧
      ∀ (σ : Type) (w : ActWorld σ) (n m : Nat) (s : σ),
        callBody (meanSeq (meanEach w n l₀)) m none s =
        ownRan (callBody (meanSeq (meanEach w n l)) m none s) := by
  obtain ⟨l, hr, hm⟩ := read_instrumented after ids filter root hs hl hk
  obtain ⟨l₀, hr₀, hm₀, _⟩ := read_shaped root hs
  refine ⟨l₀, l, hr₀, hr, fun σ w n m s => ?_⟩
  rw [hm, hm₀]
  exact callBody_sameBut (bodyWithPoints_sameBut w n after ids filter root hp) m none s

/-- C64: if all statements without statements inside are full ones, then directly before
each of their actions its point is recorded. -/
theorem C64_announced (after : Bool) (ids : Nat → Nat) (filter : Nat → Bool) (t : List U8) (cs : List Ast)
    (hp : (Ast.mk .block t [] [] cs).plain = true) (hs : (Ast.mk .block t [] [] cs).shaped = true)
    (hl : (Ast.mk .block t [] [] cs).bodyLabelsSafe filter)
    (ht : Ast.actionsTracedEach ids filter .block 0 0 cs = true) :
    ∃ l, (instrumentBody after ids filter (.mk .block t [] [] cs)).read = some l ∧
      ∀ (σ : Type) (w : ActWorld σ) (n m : Nat) (s : σ),
        Announced (callBody (meanSeq (meanEach w n l)) m none s).1 := by
  obtain ⟨l, hr, hm⟩ := read_instrumented after ids filter _ hs hl rfl
  refine ⟨l, hr, fun σ w n m s => ?_⟩
  rw [hm]
  refine announced_callBody ?_ m none s
  rw [Ast.bodyWithPoints, Ast.mean]
  simp only [Ast.plain, List.isEmpty_nil, Bool.true_and] at hp
  refine announces_seq fun x hx => ?_
  simp only [List.map_nil, List.nil_append, List.append_nil] at hx
  exact announces_astMeans w n .block (fun a h => (by cases h))
    (announces_withPointsEach w n after ids filter cs .block 0 0 hp ht) x hx

/-- C64: without a filter this is so for all functions where no `switch` has a labelled
statement for a body. -/
theorem C64_no_filter (after : Bool) (ids : Nat → Nat) (root : Ast)
    (hk : root.kind = .block) (hp : root.plain = true) (hs : root.shaped = true)
    (hb : root.switchesBraced = true) :
    ∃ l₀ l, root.read = some l₀ ∧ (instrumentBody after ids (fun _ => true) root).read = some l ∧
      ∀ (σ : Type) (w : ActWorld σ) (n m : Nat) (s : σ),
        callBody (meanSeq (meanEach w n l₀)) m none s =
        ownRan (callBody (meanSeq (meanEach w n l)) m none s) := by
  refine C64_same_behaviour after ids _ root hk hp hs ?_
  obtain ⟨k, t, b, a, cs⟩ := root
  cases hk
  unfold Ast.switchesBraced at hb
  rw [Bool.and_eq_true] at hb
  exact labelsSafeEach_all cs .block 0 0 hb.2 (by intro e he; cases he)

/-! An example -/

/-- A condition or value. -/
def stExpr : Ast := .mk .expr [] [] [] []
/-- An action with text "f();". -/
def stAct (a : Nat) : Ast := .mk (.simple a) [102, 40, 41, 59] [] [] []
/-- An AST without points. -/
def stOf (k : AstKind) (cs : List Ast) : Ast := .mk k [] [] [] cs

/-- `{ f0(); while (c0) f3(); if (c1) L5: f7(); else { f9(); }
switch (e2) { case 1: f15(); default: f17(); } do f19(); while (c3); }` -/
def stBody : Ast :=
  stOf .block [stAct 0, stOf (.whileLoop 0) [stExpr, stAct 3],
    stOf (.ite 1) [stExpr, stOf (.label 5) [stAct 7], stOf .block [stAct 9]],
    stOf (.switch 2) [stExpr, stOf .block [stOf (.case (some 1)) [stExpr, stAct 15], stOf (.case none) [stAct 17]]],
    stOf (.doLoop 3) [stAct 19, stExpr]]

example : stBody.kind = .block ∧ stBody.plain = true ∧ stBody.shaped = true ∧ stBody.switchesBraced = true ∧
    Ast.actionsTracedEach id (fun _ => true) .block 0 0 stBody.children = true := by decide +kernel

example : stBody.bodyLabelsSafe (fun _ => true) :=
  labelsSafeEach_all _ .block 0 0 (by decide +kernel) (by intro e he; cases he)

/-- Conditions hold once in a while. -/
def stWorld : ActWorld Nat := ⟨fun _ s => (s, .normal), fun _ s => (s + 1, s % 2 == 0), fun _ s => (s, 1)⟩

example : ((instrumentBody false id (fun _ => true) stBody).read.map fun l =>
    (callBody (meanSeq (meanEach stWorld 9 l)) 9 none 0).1.take 8) =
    some [.point ⟨0, false⟩, .did 0, .point ⟨1, false⟩, .asked 0, .point ⟨3, false⟩, .did 3, .asked 0,
      .point ⟨4, false⟩] := by
  rw [stBody, stOf, instrumentBody_edited]
  decide +kernel

/-! What can go wrong -/

/-- C64: a `switch` with a labelled statement for a body: the calls are put between the
label and the statement, which is then run always.  `{ switch (e0) case 1: f3(); }` -/
theorem C64_unbraced_switch :
    ∃ (root : Ast) (l₀ l : List CStmt) (w : ActWorld Unit), root.kind = .block ∧ root.plain = true ∧ root.shaped = true ∧
      root.read = some l₀ ∧ (instrumentBody false id (fun _ => true) root).read = some l ∧
      .did 3 ∉ (callBody (meanSeq (meanEach w 1 l₀)) 1 none ()).1 ∧
      .did 3 ∈ (callBody (meanSeq (meanEach w 1 l)) 1 none ()).1 :=
  ⟨stOf .block [stOf (.switch 0) [stExpr, stOf (.case (some 1)) [stExpr, stAct 3]]],
    [.block [.switch 0 [.lab (.case 1), .act 3]]],
    [.block [.point ⟨0, false⟩, .switch 0 [.lab (.case 1), .point ⟨4, false⟩], .act 3]],
    ⟨fun _ s => (s, .normal), fun _ s => (s, false), fun _ s => (s, 0)⟩,
    by decide +kernel, by decide +kernel, by decide +kernel, rfl, by rw [stOf, instrumentBody_edited]; rfl,
    by decide +kernel, by decide +kernel⟩

/-- C64: a filter that accepts the statement after a label but not the labelled one, the
body of a loop: it is run although the condition never holds.
`{ while (c0) L1: f3(); }` -/
theorem C64_filtered_label :
    ∃ (root : Ast) (l₀ l : List CStmt) (w : ActWorld Unit), root.kind = .block ∧ root.plain = true ∧ root.shaped = true ∧
      root.switchesBraced = true ∧
      root.read = some l₀ ∧ (instrumentBody false id (fun num => num == 3) root).read = some l ∧
      .did 3 ∉ (callBody (meanSeq (meanEach w 1 l₀)) 1 none ()).1 ∧
      .did 3 ∈ (callBody (meanSeq (meanEach w 1 l)) 1 none ()).1 :=
  ⟨stOf .block [stOf (.whileLoop 0) [stExpr, stOf (.label 1) [stAct 3]]],
    [.block [.whileLoop 0 [.lab (.named 1), .act 3]]],
    [.block [.whileLoop 0 [.lab (.named 1), .point ⟨3, false⟩], .act 3]],
    ⟨fun _ s => (s, .normal), fun _ s => (s, false), fun _ s => (s, 0)⟩,
    by decide +kernel, by decide +kernel, by decide +kernel, by decide +kernel, rfl,
    by rw [stOf, instrumentBody_edited]; rfl, by decide +kernel, by decide +kernel⟩

/-- C64: the same in a conditional with two branches does not compile.
`{ if (c0) L1: f3(); else f4(); }` -/
theorem C64_filtered_branch :
    ∃ root : Ast, root.kind = .block ∧ root.plain = true ∧ root.shaped = true ∧ root.read.isSome = true ∧
      (instrumentBody false id (fun num => num == 3) root).read.isNone = true :=
  ⟨stOf .block [stOf (.ite 0) [stExpr, stOf (.label 1) [stAct 3], stAct 4]],
    by decide +kernel, by decide +kernel, by decide +kernel, by decide +kernel, by decide +kernel⟩

/-- C64: no point is recorded for a statement in a block whose text merely starts with
"else", like `elsewhere();`. -/
theorem C64_else_text (t : List U8) (a : Nat) (after : Bool) (ids : Nat → Nat) (filter : Nat → Bool) :
    instrumentBody after ids filter
        (stOf .block [.mk (.simple a) (101 :: 108 :: 115 :: 101 :: t) [] [] []]) =
      stOf .block [.mk (.simple a) (101 :: 108 :: 115 :: 101 :: t) [] [] []] := by
  rw [stOf, instrumentBody_edited]
  simp [Ast.editedEach, Ast.edited, canBeTraced, traceableStmt, Ast.startsWithElse, Ast.text, isBranch]

example : (101 :: 108 :: 115 :: 101 :: "where();".toUTF8.toList.map fun x => x.toBitVec) =
    "elsewhere();".toUTF8.toList.map fun x => x.toBitVec := by decide +kernel

end TraceDB
