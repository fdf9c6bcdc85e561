import Verif.Proofs.FunctionNames
import Verif.Props.Statements
/-
C119: functions with names like keywords.
-/
namespace TraceDB

/-- **C119.**  The text of a function with any name, instrumented, does what the function does with a point
before (and after, if asked for) each statement that gets points in a function of this name. -/
theorem C119_runs (name : List U8) (after : Bool) (ids : Nat → Nat) (filter : Nat → Bool) (root : Ast)
    (hk : root.kind = .block) (hs : root.shaped = true) (hl : root.bodyLabelsSafe (pointsNamed name filter root)) :
    ∃ l, (instrumentFunction name after ids filter root).read = some l ∧
      ∀ (σ : Type) (w : ActWorld σ) (n m : Nat) (s : σ),
        callBody (meanSeq (meanEach w n l)) m none s =
        callBody ((root.bodyWithPoints after ids (pointsNamed name filter root)).mean w n) m none s := by
  rw [instrumentFunction_eq]
  exact C64_instrumented_runs after ids _ root hk hs hl

/-- **C119, without a filter.**  Whatever its name, the function does the same steps as before, but for the
points. -/
theorem C119_same_behaviour (name : List U8) (after : Bool) (ids : Nat → Nat) (root : Ast)
    (hk : root.kind = .block) (hp : root.plain = true) (hs : root.shaped = true) (hb : root.switchesBraced = true) :
    ∃ l₀ l, root.read = some l₀ ∧ (instrumentFunction name after ids (fun _ => true) root).read = some l ∧
      ∀ (σ : Type) (w : ActWorld σ) (n m : Nat) (s : σ),
        callBody (meanSeq (meanEach w n l₀)) m none s =
        ownRan (callBody (meanSeq (meanEach w n l)) m none s) := by
  rw [instrumentFunction_eq]
  exact C64_same_behaviour after ids _ root hk hp hs (labelsSafe_named name root hk hb)

/-- **C119, violation.**  `class` and `namespace` are ordinary names in C.  A function with such a name gets
points in branches and bodies without braces only: if it has none of them, it is left as it is, whatever its
statements. -/
theorem C119_unrecorded (after : Bool) (ids : Nat → Nat) (filter : Nat → Bool) (name : List U8)
    (hname : name = ascii "class" ∨ name = ascii "namespace") (t : List U8) (b a : List PointEvent) (cs : List Ast)
    (hb : Ast.bareBranchesEach .block 0 0 cs = []) :
    instrumentFunction name after ids filter (.mk .block t b a cs) = .mk .block t b a cs := by
  have hn : keywordNames.contains name = true := by rcases hname with rfl | rfl <;> decide
  rw [instrumentFunction_eq]
  have hf : pointsNamed name filter (.mk .block t b a cs) = fun _ => false := by
    funext n
    simp only [pointsNamed, hn, hb]
    simp
  have hnone : tracedSites (fun _ => false) (.mk .block t b a cs) = [] := by simp [tracedSites]
  rw [hf, instrumentBody, hnone]
  simp [sortedSites]

/-! The function of C64: `{ f0(); while (c0) f3(); if (c1) L5: f7(); else { f9(); } … do f19(); while (c3); }`
is called `class`: points are recorded for `f3`, the labelled `f7` and `f19` only. -/

example : stBody.kind = .block ∧ stBody.shaped = true ∧ stBody.plain = true ∧ stBody.switchesBraced = true ∧
    stBody.bodyLabelsSafe (pointsNamed (ascii "class") (fun _ => true) stBody) :=
  ⟨by decide, by decide +kernel, by decide +kernel, by decide +kernel, labelsSafe_named _ _ (by decide) (by decide +kernel)⟩

def fnPoints (name : String) : Option (List Step) :=
  (instrumentFunction (ascii name) false id (fun _ => true) stBody).read.map fun l =>
    (callBody (meanSeq (meanEach stWorld 9 l)) 9 none 0).1.filter fun s => match s with | .point _ => true | _ => false

example : fnPoints "class" = some [.point ⟨3, false⟩, .point ⟨6, false⟩, .point ⟨19, false⟩] ∧
    (fnPoints "klass").map List.length = some 11 := by
  unfold fnPoints
  simp only [instrumentFunction_eq, stBody, stOf, instrumentBody_edited]
  decide +kernel

/-- A function without such branches: `{ f0(); f1(); }`. -/
example : instrumentFunction (ascii "class") false id (fun _ => true) (stOf .block [stAct 0, stAct 1]) = stOf .block [stAct 0, stAct 1] :=
  C119_unrecorded false id (fun _ => true) (ascii "class") (.inl rfl) [] [] [] [stAct 0, stAct 1] (by decide +kernel)

end TraceDB
