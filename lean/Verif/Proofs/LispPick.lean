import Verif.Spec.LispPick
import Verif.Props.LispQuery
/-
Lemmas about queries with `pick`.
-/
namespace TraceDB

/-- A query from Lisp is a query of the trace followed by the conversion of its results. -/
theorem lispQuery_split {σ : Type} (env : Env) (rng : U32 → Nat → Nat) (ev : Evaluator σ) (t : Trace) (q : LQuery) (s : σ) :
    (lispQuery env rng ev t q [] s >>= fun r => .ok (r.1, r.2.2)) =
      (getTypes t >>= fun types => freeVars types q.varTypes >>= fun fvs => fileArgs q.file >>= fun a =>
        (query env rng ev t ⟨fvs, q.hard, q.soft, q.seed, a.1, a.2⟩ [] s >>= fun r => .ok (r.1, r.2.2)) >>= fun r =>
          lispPoints t (if q.filter.isSome then r.1 else deduplicate r.1) >>= fun ps =>
            .ok (match q.filter with | some g => removeDuplicates sameBindings (ps.filter g) | none => ps, r.2)) := by
  simp only [lispQuery, queryTrace, Res.bind_assoc, Res.ok_bind, Res.pure_eq]
  refine congrArg (fun k => getTypes t >>= k) (funext fun types => ?_)
  refine congrArg (fun k => freeVars types q.varTypes >>= k) (funext fun fvs => ?_)
  refine congrArg (fun k => fileArgs q.file >>= k) (funext fun a => ?_)
  refine congrArg (fun k => query env rng ev t _ [] s >>= k) (funext fun r => ?_)
  refine congrArg (fun k => lispPoints t _ >>= k) (funext fun ps => ?_)
  cases q.filter <;> rfl

theorem query_picked {σ : Type} (env : Env) (rng : U32 → Nat → Nat) (ev : Evaluator σ) (t : Trace) (seed : U32)
    (hseed : seed ≠ 0) (hrng : ∀ n, 0 < n → rng seed n < n) :
    ∃ choice : Option Point, (choice = none ↔ t.points = []) ∧ (∀ p, choice = some p → p ∈ t.points) ∧
      ∀ (variables : List FreeVar) (hard : Pred) (soft : List Pred) (s : σ),
      (query env rng ev t ⟨variables, hard, soft, seed, 0, 0⟩ [] s >>= fun r => .ok (r.1, r.2.2)) =
        (query env rng ev { t with points := choice.toList } ⟨variables, hard, soft, 0, 0, 0⟩ [] s >>= fun r => .ok (r.1, r.2.2)) := by
  have h : ∀ points : List Point, getPoints points [] 0 0 = (points, [((0, 0), points)]) := by
    intro points
    have : passing points 0 0 = points := by
      unfold passing
      rw [List.filter_eq_self]
      intro p _
      simp
    simp only [getPoints, List.lookup_nil, filterPoints_eq, this]
  by_cases he : t.points = []
  · refine ⟨none, by simp [he], by simp, fun variables hard soft s => ?_⟩
    simp only [query, h, he, queryPoints, queryAll, Option.toList_none, ne_eq, hseed, not_false_eq_true, if_true,
      List.isEmpty_nil, not_true, if_false, Res.ok_bind, Res.pure_eq]
  · have hlen : 0 < t.points.length := List.length_pos_iff.mpr he
    have hk := hrng _ hlen
    refine ⟨some t.points[rng seed t.points.length], by simp [he], ?_, fun variables hard soft s => ?_⟩
    · intro p hp
      cases hp
      exact List.getElem_mem hk
    have hemp : t.points.isEmpty = false := by simpa using he
    simp only [query, h, queryPoints, queryAll, Option.toList_some, ne_eq, hseed, not_false_eq_true, if_true,
      hemp, Bool.false_eq_true, not_true, if_false, Res.bind_assoc, Res.ok_bind, Res.pure_eq,
      List.getElem?_eq_getElem hk, List.append_nil]

/-- Names and types of results that differ in values only. -/
theorem dedup_represented {t : Trace} {rs all : List Point} (hsub : ∀ p ∈ rs, p ∈ all) {ls as : List LPoint}
    (h1 : lispPoints t (deduplicate rs) = .ok ls) (h2 : lispPoints t (deduplicate all) = .ok as) :
    ∀ r ∈ ls, ∃ a ∈ as, exactKey r = exactKey a := by
  intro r hr
  obtain ⟨p, hp, e⟩ := (lispPoints_mem h1).1 r hr
  have hp := hsub p ((C34_first_of_each_class rs).1.subset hp)
  have hf := (C34_first_of_each_class all).2.2 (bindingKey p)
  cases hfind : all.find? (fun x => decide (bindingKey x = bindingKey p)) with
  | none =>
    rw [List.find?_eq_none] at hfind
    exact absurd (by simp) (hfind p hp)
  | some p' =>
    rw [hfind] at hf
    have hp' := List.mem_of_find?_eq_some hf
    have hk := List.find?_some hf
    simp only [decide_eq_true_eq] at hk
    obtain ⟨a, ha, e'⟩ := (lispPoints_mem h2).2 p' hp'
    exact ⟨a, ha, (exactKey_of_bindingKey e' e hk).symm⟩

theorem filtered_represented {t : Trace} {rs all : List Point} (hsub : ∀ p ∈ rs, p ∈ all) {ls as : List LPoint}
    (g : LPoint → Bool) (h1 : lispPoints t rs = .ok ls) (h2 : lispPoints t all = .ok as) :
    ∀ r ∈ removeDuplicates sameBindings (ls.filter g), ∃ a ∈ removeDuplicates sameBindings (as.filter g),
      foldedKey r = foldedKey a := by
  intro r hr
  obtain ⟨r1, _, _⟩ := removeDuplicates_spec sameBindings foldedKey sameBindings_iff (ls.filter g)
  obtain ⟨_, r2, _⟩ := removeDuplicates_spec sameBindings foldedKey sameBindings_iff (as.filter g)
  obtain ⟨hr, hg⟩ := List.mem_filter.mp (r1 r hr)
  obtain ⟨p, hp, e⟩ := (lispPoints_mem h1).1 r hr
  obtain ⟨a, ha, e'⟩ := (lispPoints_mem h2).2 p (hsub p hp)
  rw [e] at e'
  cases e'
  obtain ⟨x, hx, e⟩ := r2 r (List.mem_filter.mpr ⟨ha, hg⟩)
  exact ⟨x, hx, e.symm⟩

end TraceDB
