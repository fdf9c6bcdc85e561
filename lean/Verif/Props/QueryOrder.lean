import Verif.Proofs.QueryOrder
import Verif.Props.QueryVariables
/-
C124: the order of the free variables of a query.
-/
namespace TraceDB

/-- C124.  A query with its free variables in another order has the same answers, with their
variables in the other order, though maybe not in the same order. -/
theorem C124_order (fs : FloatSys) (env : Env) (pick : U32 → Nat → Nat) (t : Trace) (variables : List FreeVar)
    (h : Askable env t variables) (order : List Nat) (ho : order.Perm (List.range variables.length))
    (hn : variables.length ≤ 2 ^ 64) (p : Pred) (hp : WellFormed variables.length p) (soft : List Pred)
    (hs : ∀ q ∈ soft, WellFormed variables.length q) (mask stmt : U64) :
    ∃ rs rs', answersTo fs env pick t variables true p soft mask stmt = .ok rs ∧
      answersTo fs env pick t (reorder order variables) true (p.reordered order) (soft.map (Pred.reordered order)) mask stmt =
        .ok rs' ∧
      rs'.Perm (rs.map fun r => { r with vars := reorder order r.vars }) := by
  have oo := orderOf ho
  have hperm : (reorder order variables).Perm variables := reorder_perm ho
  have hlen : (reorder order variables).length = variables.length := hperm.length_eq
  have hcomb : ∀ vars : List VarInfo, combinations (reorder order variables) vars = combinations variables vars := fun vars =>
    (hperm.map (candidates vars)).foldr_eq' (fun x _ y _ z => Nat.mul_left_comm y x z) 1
  have h' : Askable env t (reorder order variables) := by
    refine ⟨fun e => h.vars (List.length_eq_zero_iff.mp (by rw [← hlen, e]; rfl)), h.canonical, fun x hx => ?_⟩
    rw [hcomb]
    exact h.size x hx
  -- the renamed predicates
  have hex : ∀ q : Pred, ∃ g : Form, WellFormed variables.length q →
      ReadsForm (reorder order variables).length (q.reordered order) g ∧
        SameTruth (lowFloat fs) variables.length (fun i => order.idxOf i) (formOf variables.length q) g := by
    intro q
    by_cases hq : WellFormed variables.length q
    · obtain ⟨g, h1, h2⟩ := readsForm_renamed (lowFloat fs) (fun i hi => (oo.pos i hi).1) hn (formOf_reads hq)
      exact ⟨g, fun _ => ⟨by rw [hlen]; exact h1, h2⟩⟩
    · exact ⟨.tt, fun h => absurd h hq⟩
  obtain ⟨F', hF'⟩ := Classical.axiomOfChoice hex
  refine ⟨_, _, answersTo_soft fs env pick t variables h p _ (formOf_reads hp) soft _ (by simp) (formsOf_read hs) mask stmt,
    answersTo_soft fs env pick t _ h' _ _ (hF' p hp).1 (soft.map (Pred.reordered order)) (soft.map F') (by simp) ?_ mask stmt, ?_⟩
  · intro i q g hq hg
    rw [List.getElem?_map] at hq hg
    cases hi : soft[i]? with
    | none => rw [hi] at hq; cases hq
    | some q0 =>
      rw [hi] at hq hg
      cases hq
      cases hg
      exact (hF' q0 (hs q0 (List.mem_of_getElem? hi))).1
  · rw [List.map_flatMap]
    refine flatMap_perm _ fun x _ => ?_
    rw [bestAt_eq, bestAt_eq]
    refine (bestOf_perm fs _ (hardAt_reorder fs oo (hF' p hp).2 x)).trans ?_
    refine .of_eq (bestOf_map fs _ _ (reorderAnswer order) _ fun r hr => ?_)
    refine satCount_forms (lowFloat fs) (formOf variables.length) F' r (reorderAnswer order r) soft fun q hq => ?_
    exact (hF' q (hs q hq)).2 _ _ fun i hi => oo.back (hardAt_length fs hr) i hi

/-- The value of the first variable is below that of the second. -/
def qBelow : Pred :=
  .node .lessThan 0 [.node .varValue 0 [.node .varReference 0 []], .node .varValue 0 [.node .varReference 1 []]]

theorem qBelow_wellFormed : WellFormed 2 qBelow :=
  ⟨_, .cmp (op := .lt) (.value (i := 0) (by decide)) (.value (i := 1) (by decide))⟩

example := C124_order exFloats qEnv (fun _ _ => 0) qMixed [[0], [1, 2]] ⟨by decide, by decide, by decide⟩ [1, 0]
  (.swap 0 1 []) (by decide) qBelow qBelow_wellFormed [qBelow] (by simp [qBelow_wellFormed]) 0 0

/-- One point with two variables of each of two types. -/
def qFourVars : Trace := ⟨[], [], [⟨0, 7, [], [qVar 0 0 1, qVar 1 0 2, qVar 2 1 6, qVar 3 1 7], []⟩]⟩

/-- C124.  The order of the answers can indeed be another: the first variable changes fastest. -/
theorem C124_other_order :
    answersTo exFloats qEnv (fun _ _ => 0) qFourVars [[0], [1]] true qBelow [] 0 0 =
      .ok [⟨0, 7, [], [qVar 0 0 1, qVar 2 1 6], []⟩, ⟨0, 7, [], [qVar 1 0 2, qVar 2 1 6], []⟩,
        ⟨0, 7, [], [qVar 0 0 1, qVar 3 1 7], []⟩, ⟨0, 7, [], [qVar 1 0 2, qVar 3 1 7], []⟩] ∧
    answersTo exFloats qEnv (fun _ _ => 0) qFourVars (reorder [1, 0] [[0], [1]]) true (qBelow.reordered [1, 0]) [] 0 0 =
      .ok [⟨0, 7, [], [qVar 2 1 6, qVar 0 0 1], []⟩, ⟨0, 7, [], [qVar 3 1 7, qVar 0 0 1], []⟩,
        ⟨0, 7, [], [qVar 2 1 6, qVar 1 0 2], []⟩, ⟨0, 7, [], [qVar 3 1 7, qVar 1 0 2], []⟩] := by decide +kernel

end TraceDB
