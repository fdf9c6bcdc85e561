import Verif.Proofs.Predicate
import Verif.Proofs.Cartesian
/-
The query engine without predicate cache.
-/
namespace TraceDB

theorem lookupVars_eq (vars : List VarInfo) (b : List Nat) (h : ∀ k ∈ b, k < vars.length) :
    lookupVars vars b = .ok (boundVars vars b) ∧ (boundVars vars b).length = b.length := by
  induction b with
  | nil => exact ⟨rfl, rfl⟩
  | cons k b ih =>
    obtain ⟨h1, h2⟩ := ih (fun j hj => h j (List.mem_cons_of_mem _ hj))
    obtain ⟨v, h3, h4, _⟩ := varAt_ok (h k (List.mem_cons_self ..))
    have e : boundVars vars (k :: b) = v :: boundVars vars b := by
      simp [boundVars, List.filterMap_cons, h3]
    refine ⟨?_, by rw [e]; simp [h2]⟩
    simp only [lookupVars, h4, Res.ok_bind, h1, Res.pure_eq, e]

theorem binding_inrange {variables : List FreeVar} {vars : List VarInfo} {b : List Nat}
    (h : IsBinding variables vars b) : ∀ k ∈ b, k < vars.length := by
  intro k hk
  obtain ⟨i, hi, rfl⟩ := List.mem_iff_getElem.mp hk
  have hi' : i < variables.length := by rw [← h.1]; exact hi
  obtain ⟨v, hv, _⟩ := h.2 i variables[i] b[i] (List.getElem?_eq_getElem hi') (List.getElem?_eq_getElem hi)
  exact (List.getElem?_eq_some_iff.mp hv).1

theorem boundVars_mem {vars : List VarInfo} {b : List Nat} {v : VarInfo} (h : v ∈ boundVars vars b) :
    v ∈ vars := by
  unfold boundVars at h
  rw [List.mem_filterMap] at h
  obtain ⟨k, _, hk⟩ := h
  exact List.mem_of_getElem? hk

theorem boundVars_range (vars : List VarInfo) : boundVars vars (List.range vars.length) = vars := by
  unfold boundVars
  apply List.ext_getElem?
  intro i
  have key : ∀ vars : List VarInfo, (List.range vars.length).filterMap (vars[·]?) = vars := by
    intro vars
    induction vars with
    | nil => rfl
    | cons v vars ih =>
      rw [List.length_cons, List.range_succ_eq_map, List.filterMap_cons, List.filterMap_map]
      simp only [List.getElem?_cons_zero]
      congr 1
  rw [key]

theorem satisfies_plain (fs : FloatSys) {p : Pred} {point : Point} {b : List Nat}
    (h : ∀ k ∈ b, k < point.vars.length) :
    satisfies (plainEval fs) p point b () =
      (predicateSatisfied fs (boundVars point.vars b) p >>= fun x => .ok (x, ())) := by
  simp only [satisfies, (lookupVars_eq _ _ h).1, Res.ok_bind, plainEval, Res.pure_eq]

theorem hardLoop_plain (fs : FloatSys) {hard : Pred} {point : Point} {bs : List (List Nat)}
    {h : List VarInfo → Bool} (hin : ∀ b ∈ bs, ∀ k ∈ b, k < point.vars.length)
    (hh : ∀ b ∈ bs, predicateSatisfied fs (boundVars point.vars b) hard = .ok (h (boundVars point.vars b))) :
    hardLoop (plainEval fs) hard point bs () =
      .ok ((bs.filter fun b => h (boundVars point.vars b)).map (resultOf point), ()) := by
  induction bs with
  | nil => rfl
  | cons b bs ih =>
    have ih := ih (fun c hc => hin c (List.mem_cons_of_mem _ hc)) (fun c hc => hh c (List.mem_cons_of_mem _ hc))
    have hb := hin b (List.mem_cons_self ..)
    simp only [hardLoop, satisfies_plain fs hb, hh b (List.mem_cons_self ..), Res.ok_bind]
    by_cases hc : h (boundVars point.vars b) = true
    · simp only [hc, if_true, (lookupVars_eq _ _ hb).1, Res.ok_bind, ih, Res.pure_eq, List.filter_cons,
        List.map_cons, resultOf]
    · simp only [hc, ih, List.filter_cons]
      rfl

theorem softCount_plain (fs : FloatSys) {r : Point} {soft : List Pred} {sf : List Form} {n : Nat}
    (hn : n = r.vars.length) (hv : ∀ v ∈ r.vars, v.Canonical)
    (hlen : sf.length = soft.length)
    (hs : ∀ (i : Nat) (p : Pred) (f : Form), soft[i]? = some p → sf[i]? = some f → ReadsForm n p f) :
    softCount (plainEval fs) r (List.range n) soft () = .ok (satCount (lowFloat fs) sf r, ()) := by
  induction soft generalizing sf with
  | nil =>
    have : sf = [] := by simpa using hlen
    subst this; rfl
  | cons p soft ih =>
    cases sf with
    | nil => simp at hlen
    | cons f sf =>
      have hp := hs 0 p f (by simp) (by simp)
      have ih := ih (sf := sf) (by simpa using hlen) (fun i p f h1 h2 => hs (i + 1) p f (by simpa using h1) (by simpa using h2))
      simp only [softCount]
      rw [satisfies_plain fs (by intro k hk; rw [List.mem_range] at hk; omega), hn, boundVars_range,
        satisfied_reads fs (by omega) hv hp, ← hn]
      simp only [Res.ok_bind, ih, Res.pure_eq, satCount, List.countP_cons]
      rw [Nat.add_comm]

theorem softCounts_plain (fs : FloatSys) {soft : List Pred} {sf : List Form} {n : Nat} {rs : List Point}
    (hn : ∀ r ∈ rs, n = r.vars.length) (hv : ∀ r ∈ rs, ∀ v ∈ r.vars, v.Canonical)
    (hlen : sf.length = soft.length)
    (hs : ∀ (i : Nat) (p : Pred) (f : Form), soft[i]? = some p → sf[i]? = some f → ReadsForm n p f) :
    softCounts (plainEval fs) soft (List.range n) rs () =
      .ok (rs.map (satCount (lowFloat fs) sf), ()) := by
  induction rs with
  | nil => rfl
  | cons r rs ih =>
    have ih := ih (fun r hr => hn r (List.mem_cons_of_mem _ hr)) (fun r hr => hv r (List.mem_cons_of_mem _ hr))
    simp only [softCounts, softCount_plain fs (hn r (List.mem_cons_self ..)) (hv r (List.mem_cons_self ..)) hlen hs,
      Res.ok_bind, ih, Res.pure_eq, List.map_cons]

theorem foldl_max_ge (l : List Nat) (a : Nat) : a ≤ l.foldl max a ∧ ∀ x ∈ l, x ≤ l.foldl max a := by
  induction l generalizing a with
  | nil => simp
  | cons y l ih =>
    obtain ⟨h1, h2⟩ := ih (max a y)
    simp only [List.foldl_cons, List.mem_cons, forall_eq_or_imp]
    exact ⟨by omega, by omega, h2⟩

theorem foldl_max_mem (l : List Nat) (a : Nat) : l.foldl max a = a ∨ l.foldl max a ∈ l := by
  induction l generalizing a with
  | nil => simp
  | cons y l ih =>
    simp only [List.foldl_cons, List.mem_cons]
    rcases ih (max a y) with h | h
    · rw [h]; rcases Nat.le_total a y with hay | hay
      · right; left; omega
      · left; omega
    · right; right; exact h

/-- `keepMax` keeps the results whose count is maximal. -/
theorem keepMax_map (c : Point → Nat) (rs : List Point) :
    keepMax (rs.map c) rs = rs.filter fun r => decide (∀ r' ∈ rs, c r' ≤ c r) := by
  have hz : ∀ (l : List Point) (q : Nat → Bool),
      ((l.zip (l.map c)).filter fun rc => q rc.2).map (·.1) = l.filter fun r => q (c r) := by
    intro l q
    induction l with
    | nil => rfl
    | cons x l ih =>
      simp only [List.map_cons, List.zip_cons_cons, List.filter_cons]
      split
      · simp only [List.map_cons, ih]
      · exact ih
  unfold keepMax
  rw [hz rs (fun n => n == maxSat (rs.map c))]
  apply List.filter_congr
  intro r hr
  have hge := (foldl_max_ge (rs.map c) 0).2
  unfold maxSat
  rw [Bool.eq_iff_iff, beq_iff_eq, decide_eq_true_iff]
  constructor
  · intro h r' hr'
    rw [h]; exact hge _ (List.mem_map_of_mem hr')
  · intro h
    have h1 := hge (c r) (List.mem_map_of_mem hr)
    rcases foldl_max_mem (rs.map c) 0 with h2 | h2
    · omega
    · obtain ⟨r', h3, h4⟩ := List.mem_map.mp h2
      have := h r' h3
      omega

/-- Some result is maximal. -/
theorem keepMax_ne_nil (c : Point → Nat) (rs : List Point) (h : rs ≠ []) :
    ∃ r ∈ rs, ∀ r' ∈ rs, c r' ≤ c r := by
  induction rs with
  | nil => exact absurd rfl h
  | cons x rs ih =>
    by_cases hr : rs = []
    · subst hr; exact ⟨x, by simp, by simp⟩
    · obtain ⟨r, h1, h2⟩ := ih hr
      by_cases hx : c r ≤ c x
      · refine ⟨x, by simp, ?_⟩
        intro r' hr'
        rcases List.mem_cons.mp hr' with rfl | hr'
        · omega
        · have := h2 r' hr'; omega
      · refine ⟨r, List.mem_cons_of_mem _ h1, ?_⟩
        intro r' hr'
        rcases List.mem_cons.mp hr' with rfl | hr'
        · omega
        · exact h2 r' hr'

/-- The bindings that satisfy a formula, in the order the code finds them. -/
def goodBindings {fs : FloatSys} (fl : VarInfo → fs.F) (variables : List FreeVar) (f : Form)
    (point : Point) : List (List Nat) :=
  (combos (variables.map fun fv => matchingVars fv point.vars)).filter fun b =>
    f.holds fl (boundVars point.vars b)

theorem goodBindings_results {fs : FloatSys} (fl : VarInfo → fs.F) (variables : List FreeVar) (f : Form)
    (point : Point) :
    ResultsAt fl variables f point ((goodBindings fl variables f point).map (resultOf point)) := by
  refine ⟨goodBindings fl variables f point, rfl, ?_, ?_⟩
  · apply List.Pairwise.filter
    apply combos_ordered
    intro v hv
    obtain ⟨fv, _, rfl⟩ := List.mem_map.mp hv
    exact matchingVars_ordered fv point.vars
  · intro b
    unfold goodBindings
    rw [List.mem_filter, mem_combos_matching]

theorem hardLoop_reads (fs : FloatSys) (point : Point) (variables : List FreeVar) (hard : Pred) (f : Form)
    (hcan : ∀ v ∈ point.vars, v.Canonical) (hform : ReadsForm variables.length hard f)
    {l : List (List Nat)} (hl : ∀ b ∈ l, IsBinding variables point.vars b) :
    hardLoop (plainEval fs) hard point l () =
      .ok ((l.filter fun b => f.holds (lowFloat fs) (boundVars point.vars b)).map (resultOf point), ()) := by
  refine hardLoop_plain fs (h := fun vs => f.holds (lowFloat fs) vs) ?_ ?_
  · intro b hb; exact binding_inrange (hl b hb)
  · intro b hb
    have hib := hl b hb
    refine satisfied_reads fs (n := variables.length) ?_ (fun v hv => hcan v (boundVars_mem hv)) hform
    rw [(lookupVars_eq _ _ (binding_inrange hib)).2, hib.1]; exact Nat.le_refl _

/-- Results at a point without soft predicates. -/
theorem collectResults_hard (fs : FloatSys) (env : Env) (point : Point) (variables : List FreeVar)
    (hard : Pred) (f : Form) (hne : variables ≠ []) (hcan : ∀ v ∈ point.vars, v.Canonical)
    (hform : ReadsForm variables.length hard f) (hsize : point.vars.length < 2 ^ 32)
    (hcount : combinations variables point.vars < 2 ^ 64)
    (halloc : env.canAlloc (24 * combinations variables point.vars) = true) :
    collectResults env (plainEval fs) point variables hard [] () =
      .ok ((goodBindings (lowFloat fs) variables f point).map (resultOf point), ()) := by
  have hemp : variables.isEmpty = false := by
    cases variables with
    | nil => exact absurd rfl hne
    | cons _ _ => rfl
  have hc := cartesian_eq_all env (variables.map fun fv => matchingVars fv point.vars)
    (by rw [sizeProduct_matching]; exact hcount) (by rw [sizeProduct_matching]; exact halloc)
  have hh := hardLoop_reads fs point variables hard f hcan hform
    (l := combos (variables.map fun fv => matchingVars fv point.vars))
    (fun b hb => (mem_combos_matching _ _ _).mp hb)
  have hsz : ¬ (2 ^ 32 ≤ point.vars.length ∧ ¬ false = true) := by omega
  simp only [collectResults, firstResults, hemp, Bool.false_eq_true, if_false, Res.ok_bind]
  rw [if_neg (by omega)]
  rw [hc]
  simp only [Res.ok_bind, hh, List.nil_append, List.isEmpty_nil, if_true, Res.pure_eq, goodBindings]

/-- Results at a point with soft predicates. -/
theorem collectResults_soft (fs : FloatSys) (env : Env) (point : Point) (variables : List FreeVar)
    (hard : Pred) (f : Form) (soft : List Pred) (sf : List Form)
    (hne : variables ≠ []) (hcan : ∀ v ∈ point.vars, v.Canonical)
    (hform : ReadsForm variables.length hard f) (hlen : sf.length = soft.length)
    (hsoft : ∀ (i : Nat) (p : Pred) (g : Form), soft[i]? = some p → sf[i]? = some g →
      ReadsForm variables.length p g) (hsne : soft ≠ [])
    (hsize : point.vars.length < 2 ^ 32)
    (hcount : combinations variables point.vars < 2 ^ 64)
    (halloc : env.canAlloc (24 * combinations variables point.vars) = true)
    (hres : (goodBindings (lowFloat fs) variables f point).length < 2 ^ 32) :
    collectResults env (plainEval fs) point variables hard soft () =
      .ok (keepMax (((goodBindings (lowFloat fs) variables f point).map (resultOf point)).map
          (satCount (lowFloat fs) sf))
        ((goodBindings (lowFloat fs) variables f point).map (resultOf point)), ()) := by
  have hemp : variables.isEmpty = false := by
    cases variables with
    | nil => exact absurd rfl hne
    | cons _ _ => rfl
  have hsemp : soft.isEmpty = false := by
    cases soft with
    | nil => exact absurd rfl hsne
    | cons _ _ => rfl
  have hc := cartesian_eq_all env (variables.map fun fv => matchingVars fv point.vars)
    (by rw [sizeProduct_matching]; exact hcount) (by rw [sizeProduct_matching]; exact halloc)
  have hh := hardLoop_reads fs point variables hard f hcan hform
    (l := combos (variables.map fun fv => matchingVars fv point.vars))
    (fun b hb => (mem_combos_matching _ _ _).mp hb)
  have hcs := softCounts_plain fs (soft := soft) (sf := sf) (n := variables.length)
    (rs := (goodBindings (lowFloat fs) variables f point).map (resultOf point)) ?_ ?_ hlen hsoft
  · simp only [collectResults, firstResults, hemp, Bool.false_eq_true, if_false, Res.ok_bind]
    rw [if_neg (by omega)]
    rw [hc]
    simp only [Res.ok_bind, hh, List.nil_append, hsemp, Bool.false_eq_true, if_false]
    simp only [goodBindings] at hcs hres ⊢
    rw [hcs]
    simp only [Res.ok_bind]
    rw [if_neg (by rw [List.length_map]; omega)]
    rfl
  · intro r hr
    obtain ⟨b, hb, rfl⟩ := List.mem_map.mp hr
    have hib := (mem_combos_matching _ _ _).mp (List.mem_filter.mp hb).1
    show variables.length = (boundVars point.vars b).length
    rw [(lookupVars_eq _ _ (binding_inrange hib)).2, hib.1]
  · intro r hr v hv
    obtain ⟨b, hb, rfl⟩ := List.mem_map.mp hr
    exact hcan v (boundVars_mem hv)

/-- Per-point results are concatenated in order. -/
theorem queryAll_ok {σ : Type} {env : Env} {ev : Evaluator σ} {variables : List FreeVar} {hard : Pred}
    {soft : List Pred} (g : Point → List Point) {s : σ} {points : List Point}
    (h : ∀ p ∈ points, collectResults env ev p variables hard soft s = .ok (g p, s)) :
    queryAll env ev variables hard soft points s = .ok (points.flatMap g, s) := by
  induction points with
  | nil => rfl
  | cons p ps ih =>
    simp only [queryAll, h p (List.mem_cons_self ..), Res.ok_bind,
      ih (fun q hq => h q (List.mem_cons_of_mem _ hq)), Res.pure_eq, List.flatMap_cons]

end TraceDB
