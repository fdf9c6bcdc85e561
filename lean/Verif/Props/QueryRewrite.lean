import Verif.Proofs.QueryRewrite
import Verif.Props.QueryOrder
import Verif.Props.Floats
/-
C126: rewriting the predicates of a query.
-/
namespace TraceDB

/-- C126.  Rewriting hard and soft predicates by laws of logic changes no answer, with and without
duplicates. -/
theorem C126_rewrite (fs : FloatSys) (env : Env) (pick : U32 → Nat → Nat) (t : Trace) (variables : List FreeVar)
    (h : Askable env t variables) (p q : Pred) (hp : WellFormed variables.length p) (hpq : Equivalent fs variables.length p q)
    (soft soft' : List Pred) (hs : ∀ q ∈ soft, WellFormed variables.length q)
    (hss : EquivalentEach fs variables.length soft soft') (keep : Bool) (mask stmt : U64) :
    ∃ rs, answersTo fs env pick t variables keep p soft mask stmt = .ok rs ∧
      answersTo fs env pick t variables keep q soft' mask stmt = .ok rs := by
  obtain ⟨rs, h1, h2⟩ := answersTo_equivalent fs env pick t variables h p q hp hpq soft soft' hs hss mask stmt
  cases keep with
  | true => exact ⟨rs, h1, h2⟩
  | false => exact ⟨_, answersTo_distinct h1, answersTo_distinct h2⟩

theorem exFloats_mirrored : Mirrored exFloats :=
  ⟨fun _ _ => rfl, fun _ _ => rfl, fun x y => decide_eq_decide.mpr eq_comm, fun x y => by
    rw [Bool.eq_iff_iff]
    simp only [exFloats, Bool.or_eq_true, decide_eq_true_eq]
    exact Int.le_iff_lt_or_eq⟩

/-- `(not (or (not (< v0 v1)) p))` is `(and (> v1 v0) (not p))`. -/
theorem qBelow_rewritten (p : Pred) : Equivalent exFloats 2
    (.node .not 1 [.node .or 2 [.node .not 1 [qBelow], p]])
    (.node .and 2 [.node .greaterThan 0 [.node .varValue 0 [.node .varReference 1 []], .node .varValue 0 [.node .varReference 0 []]],
      .node .not 1 [p]]) :=
  .trans (.notOr (g := 2) (k := 1))
    (.trans (.inAnd (e := 2) (xs := []) (p := .node .not 1 [.node .not 1 [qBelow]]) .notNot)
      (.inAnd (xs := []) (.mirror (op := .lt) exFloats_mirrored)))

example := C126_rewrite exFloats qEnv (fun _ _ => 0) qMixed [[0], [1, 2]] ⟨by decide, by decide, by decide⟩ _ _
  (wf_not.mpr (wf_or.mpr (by simp [wf_not, wf_null, qBelow_wellFormed]))) (qBelow_rewritten (.node .null 0 []))
  [qBelow] [.node .and 1 [qBelow]] (by simp [qBelow_wellFormed]) (.cons (.symm .oneAnd) .nil) false 0 0

/-- C126.  The laws of comparisons hold for the decimal floats the code computes with, as far as their
comparisons compare numbers. -/
theorem C126_decimal (fs : FloatSys) (val : fs.F → XNum) (round : Rat → Rat) (hf : DecimalFloats fs val round) : Mirrored fs := by
  have hlt : ∀ x y, fs.lt x y = (val x).lt (val y) := hf.cmp .lt
  have hgt : ∀ x y, fs.gt x y = (val y).lt (val x) := hf.cmp .gt
  have heq : ∀ x y, fs.eq x y = (val x).eq (val y) := hf.cmp .eq
  have hle : ∀ x y, fs.le x y = ((val x).lt (val y) || (val x).eq (val y)) := hf.cmp .le
  have hge : ∀ x y, fs.ge x y = ((val y).lt (val x) || (val x).eq (val y)) := hf.cmp .ge
  have comm : ∀ a b : XNum, a.eq b = b.eq a := by
    intro a b
    cases a <;> cases b <;> simp only [XNum.eq]
    · exact Bool.beq_comm
    · exact decide_eq_decide.mpr eq_comm
  refine ⟨fun x y => by rw [hgt, hlt], fun x y => by rw [hge, hle, comm], fun x y => by rw [heq, heq, comm],
    fun x y => by rw [hle, hlt, heq]⟩

example : Mirrored nudgedFloats := C126_decimal _ _ _ nudgedFloats_decimal

/-- The size of the variable is below 5. -/
def qShort : Pred := .node .lessThan 0 [.node .varSize 0 [.node .varReference 0 []], .node .unsignedValue 5 []]

/-- The size of the variable is at least 5. -/
def qLong : Pred := .node .greaterThanOrEqual 0 [.node .varSize 0 [.node .varReference 0 []], .node .unsignedValue 5 []]

/-- C126.  Other laws fail: where a size is not known, it is neither below 5 nor at least 5, so `not` of
one is not the other; and where a predicate is not well-formed, the order of arguments matters. -/
theorem C126_limits :
    WellFormed 1 qShort ∧ WellFormed 1 qLong ∧
    answersTo exFloats qEnv (fun _ _ => 0) qTwice [[0]] true (.node .not 1 [qShort]) [] 0 0 =
      answersTo exFloats qEnv (fun _ _ => 0) qTwice [[0]] true .nullPred [] 0 0 ∧
    answersTo exFloats qEnv (fun _ _ => 0) qTwice [[0]] true .nullPred [] 0 0 =
      .ok [⟨0, 7, [], [qVar 0 0 1], []⟩, ⟨1, 7, [], [qVar 0 0 4], []⟩, ⟨2, 8, [], [qVar 0 0 9], []⟩] ∧
    answersTo exFloats qEnv (fun _ _ => 0) qTwice [[0]] true qLong [] 0 0 = .ok [] ∧
    answersTo exFloats qEnv (fun _ _ => 0) qTwice [[0]] true (.node .or 2 [.nullPred, .node .unsignedValue 5 []]) [] 0 0 =
      answersTo exFloats qEnv (fun _ _ => 0) qTwice [[0]] true .nullPred [] 0 0 ∧
    answersTo exFloats qEnv (fun _ _ => 0) qTwice [[0]] true (.node .or 2 [.node .unsignedValue 5 [], .nullPred]) [] 0 0 =
      .abort := by
  refine ⟨⟨_, .cmp (op := .lt) (.size (i := 0) (by decide)) .nat⟩, ⟨_, .cmp (op := .ge) (.size (i := 0) (by decide)) .nat⟩, ?_⟩
  decide +kernel

end TraceDB
