import Verif.Spec.QueryLaws
import Verif.Props.Query
/-
Proofs of the laws of queries.
-/
namespace TraceDB

/-- All combinations at the points with the statement. -/
def allAnswers (t : Trace) (variables : List FreeVar) (mask stmt : U64) : List Point :=
  (passing t.points mask stmt).flatMap fun p => (combos (variables.map fun fv => matchingVars fv p.vars)).map (resultOf p)

theorem flatMap_filter_eq {α β : Type} (l : List α) (g : α → List β) (P : β → Bool) :
    (l.flatMap fun a => (g a).filter P) = (l.flatMap g).filter P := by
  induction l with
  | nil => rfl
  | cons a l ih => rw [List.flatMap_cons, List.flatMap_cons, List.filter_append, ih]

/-- The answers are those of all combinations that satisfy the formula. -/
theorem answersTo_form (fs : FloatSys) (env : Env) (pick : U32 → Nat → Nat) (t : Trace) (variables : List FreeVar)
    (h : Askable env t variables) (hard : Pred) (f : Form) (hf : ReadsForm variables.length hard f) (mask stmt : U64) :
    answersTo fs env pick t variables true hard [] mask stmt =
      .ok ((allAnswers t variables mask stmt).filter fun r => f.holds (lowFloat fs) r.vars) := by
  have h0 : getPoints t.points [] mask stmt = (passing t.points mask stmt,
      [((mask, stmt), passing t.points mask stmt)]) := by
    simp only [getPoints, List.lookup_nil, filterPoints_eq]
  have h1 := queryAll_ok (env := env) (ev := plainEval fs) (variables := variables) (hard := hard)
    (soft := []) (s := ()) (points := passing t.points mask stmt)
    (fun p => (goodBindings (lowFloat fs) variables f p).map (resultOf p)) (by
      intro p hp
      have hp' : p ∈ t.points := (List.mem_filter.mp hp).1
      obtain ⟨a1, a2, a3⟩ := h.size p hp'
      exact collectResults_hard fs env p variables hard f h.vars (h.canonical p hp') hf a1 (by omega) a3)
  simp only [answersTo, queryTrace, query, h0, queryPoints, ne_eq, not_true_eq_false, if_false, h1, Res.ok_bind,
    Res.pure_eq, if_true]
  rw [allAnswers, ← flatMap_filter_eq]
  congr 2
  funext p
  unfold goodBindings
  rw [List.filter_map]
  rfl

/-- The answers at a point with the greatest number of satisfied formulas. -/
def bestAt (fs : FloatSys) (variables : List FreeVar) (f : Form) (sf : List Form) (p : Point) : List Point :=
  let rs := (goodBindings (lowFloat fs) variables f p).map (resultOf p)
  rs.filter fun r => decide (∀ r' ∈ rs, satCount (lowFloat fs) sf r' ≤ satCount (lowFloat fs) sf r)

theorem answersTo_soft (fs : FloatSys) (env : Env) (pick : U32 → Nat → Nat) (t : Trace) (variables : List FreeVar)
    (h : Askable env t variables) (hard : Pred) (f : Form) (hf : ReadsForm variables.length hard f)
    (soft : List Pred) (sf : List Form) (hlen : sf.length = soft.length)
    (hsoft : ∀ (i : Nat) (p : Pred) (g : Form), soft[i]? = some p → sf[i]? = some g → ReadsForm variables.length p g)
    (mask stmt : U64) :
    answersTo fs env pick t variables true hard soft mask stmt =
      .ok ((passing t.points mask stmt).flatMap (bestAt fs variables f sf)) := by
  have h0 : getPoints t.points [] mask stmt = (passing t.points mask stmt,
      [((mask, stmt), passing t.points mask stmt)]) := by
    simp only [getPoints, List.lookup_nil, filterPoints_eq]
  have h1 := queryAll_ok (env := env) (ev := plainEval fs) (variables := variables) (hard := hard)
    (soft := soft) (s := ()) (points := passing t.points mask stmt) (bestAt fs variables f sf) (by
      intro p hp
      have hp' : p ∈ t.points := (List.mem_filter.mp hp).1
      obtain ⟨a1, a2, a3⟩ := h.size p hp'
      have hgb : (goodBindings (lowFloat fs) variables f p).length < 2 ^ 32 := by
        refine Nat.lt_of_le_of_lt (List.length_filter_le ..) ?_
        rw [length_combos, sizeProduct_matching]
        exact a2
      by_cases he : soft = []
      · subst he
        cases sf with
        | cons _ _ => cases hlen
        | nil =>
          rw [collectResults_hard fs env p variables hard f h.vars (h.canonical p hp') hf a1 (by omega) a3]
          unfold bestAt
          congr 2
          symm
          rw [List.filter_eq_self]
          intro r _
          simp [satCount]
      · rw [collectResults_soft fs env p variables hard f soft sf h.vars (h.canonical p hp') hf hlen hsoft he a1 (by omega)
          a3 hgb, keepMax_map]
        rfl)
  simp only [answersTo, queryTrace, query, h0, queryPoints, ne_eq, not_true_eq_false, if_false, h1, Res.ok_bind,
    Res.pure_eq, if_true]

/-- Some formula of a predicate. -/
noncomputable def formOf (n : Nat) (p : Pred) : Form :=
  open Classical in if h : WellFormed n p then h.choose else .tt

theorem formOf_reads {n : Nat} {p : Pred} (h : WellFormed n p) : ReadsForm n p (formOf n p) := by
  unfold formOf
  rw [dif_pos h]
  exact h.choose_spec

theorem formsOf_read {n : Nat} {ps : List Pred} (h : ∀ p ∈ ps, WellFormed n p) (i : Nat) (p : Pred) (g : Form)
    (hp : ps[i]? = some p) (hg : (ps.map (formOf n))[i]? = some g) : ReadsForm n p g := by
  rw [List.getElem?_map, hp] at hg
  cases hg
  exact formOf_reads (h p (List.mem_of_getElem? hp))

theorem bestAt_congr (fs : FloatSys) (variables : List FreeVar) (f : Form) (sf sf' : List Form) (p : Point)
    (k : Nat) (h : ∀ r ∈ (goodBindings (lowFloat fs) variables f p).map (resultOf p),
      satCount (lowFloat fs) sf' r = satCount (lowFloat fs) sf r + k) :
    bestAt fs variables f sf' p = bestAt fs variables f sf p := by
  unfold bestAt
  refine List.filter_congr fun r hr => ?_
  rw [decide_eq_decide]
  constructor
  · intro hm r' hr'
    have := hm r' hr'
    rw [h r' hr', h r hr] at this
    omega
  · intro hm r' hr'
    have := hm r' hr'
    rw [h r' hr', h r hr]
    omega

theorem flatMap_same {α β : Type} {l : List α} {g g' : α → List β} (h : ∀ a ∈ l, g a = g' a) : l.flatMap g = l.flatMap g' := by
  induction l with
  | nil => rfl
  | cons a l ih =>
    rw [List.flatMap_cons, List.flatMap_cons, h a (List.mem_cons_self ..), ih fun b hb => h b (List.mem_cons_of_mem _ hb)]

theorem flatMap_sublist {α β : Type} {l : List α} {g g' : α → List β} (h : ∀ a ∈ l, (g a).Sublist (g' a)) :
    (l.flatMap g).Sublist (l.flatMap g') := by
  induction l with
  | nil => exact List.Sublist.refl _
  | cons a l ih =>
    rw [List.flatMap_cons, List.flatMap_cons]
    exact (h a (List.mem_cons_self ..)).append (ih fun b hb => h b (List.mem_cons_of_mem _ hb))

end TraceDB
