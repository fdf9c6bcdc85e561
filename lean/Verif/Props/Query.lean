import Verif.Proofs.PredicateCache
import Verif.Proofs.Hash
import Verif.Proofs.Canonical
import Verif.Props.Predicate
/-
Properties of queries: C21 to C28, C34 and C35.
-/
namespace TraceDB

/-! Example data: a point with three variables of types 0, 1, 0. -/

/-- A plain environment in which every allocation succeeds. -/
def qEnv : Env := { canAlloc := fun _ => true, junk := some fun _ => 0, coin := fun _ _ => false }
/-- An unsigned variable. -/
def qVar (name type : U32) (n : U64) : VarInfo := ⟨.word n, name, type, .unsigned, 8, 0, false⟩
/-- A point with three variables. -/
def qPoint : Point := ⟨0, 7, [], [qVar 0 0 1, qVar 1 1 5, qVar 2 0 9], [3]⟩
/-- A point with one variable. -/
def qPoint' : Point := ⟨1, 8, [], [qVar 0 0 4], []⟩
/-- A trace with two points. -/
def qTrace : Trace := ⟨[], [], [qPoint, qPoint']⟩
/-- `(< v0 v1)` -/
def qLess : Pred := .node .lessThan 2 [pVal 0, pVal 1]
/-- Two free variables of type 0. -/
def qVars2 : List FreeVar := [[0], [0]]
/-- A query for `v0 < v1`. -/
def qQuery : Query := ⟨qVars2, qLess, [], 0, 0, 0⟩

theorem qLess_reads : ReadsForm 2 qLess (.cmp .lt (.value 0) (.value 1)) :=
  .cmp (op := .lt) (.value (i := 0) (by decide)) (.value (i := 1) (by decide))

theorem qPoint_canonical : (∀ v ∈ qPoint.vars, v.Canonical) ∧ ∀ v ∈ qPoint'.vars, v.Canonical := by decide

/-! C21 -/

/-- The results at a point are exactly the bindings to variables of allowed types
for which the hard predicate holds. -/
theorem C21_sound_and_complete (fs : FloatSys) (env : Env) (point : Point) (variables : List FreeVar)
    (hard : Pred) (f : Form) (hne : variables ≠ []) (hcan : ∀ v ∈ point.vars, v.Canonical)
    (hform : ReadsForm variables.length hard f) (hsize : point.vars.length < 2 ^ 32)
    (hcount : combinations variables point.vars < 2 ^ 64)
    (halloc : env.canAlloc (24 * combinations variables point.vars) = true) :
    ∃ rs, collectResults env (plainEval fs) point variables hard [] () = .ok (rs, ()) ∧
      ∀ r, r ∈ rs ↔ ∃ b, IsBinding variables point.vars b ∧
        f.holds (lowFloat fs) (boundVars point.vars b) = true ∧ r = resultOf point b := by
  refine ⟨_, collectResults_hard fs env point variables hard f hne hcan hform hsize hcount halloc, ?_⟩
  obtain ⟨bs, h1, _, h3⟩ := goodBindings_results (lowFloat fs) variables f point
  intro r
  rw [h1, List.mem_map]
  constructor
  · rintro ⟨b, hb, rfl⟩
    exact ⟨b, ((h3 b).mp hb).1, ((h3 b).mp hb).2, rfl⟩
  · rintro ⟨b, hb1, hb2, rfl⟩
    exact ⟨b, (h3 b).mpr ⟨hb1, hb2⟩, rfl⟩

/-- Four combinations, one of which satisfies `v0 < v1`. -/
example : combinations qVars2 qPoint.vars = 4 ∧
    collectResults qEnv (plainEval exFloats) qPoint qVars2 qLess [] () =
      .ok ([{ qPoint with vars := [qVar 0 0 1, qVar 2 0 9] }], ()) := by decide +kernel

/-- The same for every point of every trace the reader accepts. -/
theorem C21_on_accepted_traces (fs : FloatSys) (renv env : Env) (maxPoints : U64) (stream : IStream) (t : Trace)
    (hread : readTrace renv maxPoints stream = .ok t) (point : Point) (hp : point ∈ t.points)
    (variables : List FreeVar) (hard : Pred) (f : Form) (hne : variables ≠ [])
    (hform : ReadsForm variables.length hard f) (hsize : point.vars.length < 2 ^ 32)
    (hcount : combinations variables point.vars < 2 ^ 64)
    (halloc : env.canAlloc (24 * combinations variables point.vars) = true) :
    ∃ rs, collectResults env (plainEval fs) point variables hard [] () = .ok (rs, ()) ∧
      ∀ r, r ∈ rs ↔ ∃ b, IsBinding variables point.vars b ∧
        f.holds (lowFloat fs) (boundVars point.vars b) = true ∧ r = resultOf point b :=
  C21_sound_and_complete fs env point variables hard f hne (accepted_canonical hread point hp) hform hsize hcount
    halloc

/-! C24, C25 -/

theorem filterPoints_eq (points : List Point) (mask stmt : U64) :
    filterPoints points mask stmt = passing points mask stmt := by
  unfold filterPoints passing
  congr 1

theorem passing_zero (points : List Point) : passing points 0 0 = points := by
  unfold passing
  rw [List.filter_eq_self]
  intro p _
  simp

/-- A query with a filter is the unfiltered query of the points that pass. -/
theorem C24_statement_filter {σ : Type} (env : Env) (pick : U32 → Nat → Nat) (ev : Evaluator σ)
    (t : Trace) (q : Query) (s : σ) :
    (query env pick ev t q [] s >>= fun r => .ok (r.1, r.2.2)) =
      (query env pick ev { t with points := t.points.filter fun p => decide (p.statement &&& q.mask = q.stmt) }
        { q with mask := 0, stmt := 0 } [] s >>= fun r => .ok (r.1, r.2.2)) := by
  have h : ∀ points : List Point, ∀ mask stmt, getPoints points [] mask stmt =
      (passing points mask stmt, [((mask, stmt), passing points mask stmt)]) := by
    intro points mask stmt
    simp only [getPoints, List.lookup_nil, filterPoints_eq]
  have h0 : passing (t.points.filter fun p => decide (p.statement &&& q.mask = q.stmt)) 0 0 =
      passing t.points q.mask q.stmt := passing_zero _
  simp only [query, h, h0]
  cases queryPoints env pick ev (passing t.points q.mask q.stmt) q.variables q.hard q.soft q.seed s <;> rfl

/-- The unfiltered query examines every point: it is the concatenation of what is
found at each point in order. -/
theorem C24_unfiltered {σ : Type} (env : Env) (pick : U32 → Nat → Nat) (ev : Evaluator σ)
    (t : Trace) (q : Query) (s : σ) (hseed : q.seed = 0) (hm : q.mask = 0) (hs : q.stmt = 0)
    (g : Point → List Point)
    (h : ∀ p ∈ t.points, collectResults env ev p q.variables q.hard q.soft s = .ok (g p, s)) :
    (query env pick ev t q [] s >>= fun r => .ok (r.1, r.2.2)) = .ok (t.points.flatMap g, s) := by
  have h0 : getPoints t.points [] 0 0 = (t.points, [((0, 0), t.points)]) := by
    simp only [getPoints, List.lookup_nil, filterPoints_eq, passing_zero]
  simp only [query, hm, hs, h0, queryPoints, hseed, ne_eq, not_true_eq_false, if_false,
    queryAll_ok g h, Res.ok_bind, Res.pure_eq]

/-- Mask 0b1000 and statement 8 select the second point only. -/
example : (query qEnv (fun _ _ => 0) (plainEval exFloats) qTrace ⟨[[0]], .nullPred, [], 0, 8, 8⟩ [] () >>=
      fun r => .ok (r.1, r.2.2)) = .ok ([qPoint'], ()) := by decide +kernel

/-- The cache of a trace after some filter requests. -/
def cacheAfter (points : List Point) (requests : List (U64 × U64)) : PointsCache :=
  requests.foldl (fun cache r => (getPoints points cache r.1 r.2).2) []

theorem cache_entries (points : List Point) (requests : List (U64 × U64)) (cache : PointsCache)
    (h : ∀ k ps, cache.lookup k = some ps → ps = passing points k.1 k.2) :
    ∀ k ps, (requests.foldl (fun cache r => (getPoints points cache r.1 r.2).2) cache).lookup k = some ps →
      ps = passing points k.1 k.2 := by
  induction requests generalizing cache with
  | nil => exact h
  | cons r requests ih =>
    rw [List.foldl_cons]
    refine ih _ ?_
    intro k ps hk
    unfold getPoints at hk
    split at hk
    · exact h k ps hk
    · simp only [List.lookup_cons] at hk
      split at hk
      · rename_i hb
        rw [beq_iff_eq] at hb
        subst hb
        cases hk
        exact filterPoints_eq _ _ _
      · exact h k ps hk

/-- Whatever was requested before, a request returns the points that pass. -/
theorem C25_filter_cache_unobservable (points : List Point) (requests : List (U64 × U64)) (mask stmt : U64) :
    (getPoints points (cacheAfter points requests) mask stmt).1 =
      points.filter (fun p => decide (p.statement &&& mask = stmt)) := by
  have h := cache_entries points requests [] (by simp)
  unfold getPoints
  split
  · rename_i ps hps
    exact h (mask, stmt) ps hps
  · exact filterPoints_eq _ _ _

/-- Whole queries do not depend on earlier requests either. -/
theorem C25_queries_unaffected {σ : Type} (env : Env) (pick : U32 → Nat → Nat) (ev : Evaluator σ)
    (t : Trace) (q : Query) (requests : List (U64 × U64)) (s : σ) :
    (query env pick ev t q (cacheAfter t.points requests) s >>= fun r => .ok (r.1, r.2.2)) =
      (query env pick ev t q [] s >>= fun r => .ok (r.1, r.2.2)) := by
  have h1 := C25_filter_cache_unobservable t.points requests q.mask q.stmt
  have h2 := C25_filter_cache_unobservable t.points [] q.mask q.stmt
  simp only [cacheAfter, List.foldl_nil] at h2
  simp only [query, h1, h2, Res.bind_assoc, Res.ok_bind, Res.pure_eq]

/-- The second request for (15, 7) is answered from the cache. -/
example : (cacheAfter qTrace.points [(15, 7), (0, 0)]).lookup (15, 7) = some [qPoint] ∧
    (getPoints qTrace.points (cacheAfter qTrace.points [(15, 7), (0, 0)]) 15 7).1 = [qPoint] ∧
    (getPoints qTrace.points (cacheAfter qTrace.points [(15, 7), (0, 0)]) 7 15).1 = [] := by decide +kernel

/-! C23 -/

/-- Results of a query without seed: point after point in trace order; at each point
every satisfying binding exactly once, ordered with the first free variable
varying fastest (no two bindings are the same). -/
theorem C23_order_and_multiplicity (fs : FloatSys) (env : Env) (pick : U32 → Nat → Nat) (t : Trace) (q : Query)
    (f : Form) (hne : q.variables ≠ []) (hsoft : q.soft = []) (hseed : q.seed = 0)
    (hcan : ∀ p ∈ t.points, ∀ v ∈ p.vars, v.Canonical)
    (hform : ReadsForm q.variables.length q.hard f)
    (hsize : ∀ p ∈ t.points, p.vars.length < 2 ^ 32 ∧ combinations q.variables p.vars < 2 ^ 64 ∧
      env.canAlloc (24 * combinations q.variables p.vars) = true) :
    ∃ rss : List (List Point),
      (query env pick (plainEval fs) t q [] () >>= fun r => .ok r.1) = .ok rss.flatten ∧
      rss.length = (passing t.points q.mask q.stmt).length ∧
      ∀ (i : Nat) (p : Point) (rs : List Point), (passing t.points q.mask q.stmt)[i]? = some p →
        rss[i]? = some rs → ResultsAt (lowFloat fs) q.variables f p rs := by
  refine ⟨(passing t.points q.mask q.stmt).map fun p =>
    (goodBindings (lowFloat fs) q.variables f p).map (resultOf p), ?_, by simp, ?_⟩
  · have h0 : getPoints t.points [] q.mask q.stmt = (passing t.points q.mask q.stmt,
      [((q.mask, q.stmt), passing t.points q.mask q.stmt)]) := by
      simp only [getPoints, List.lookup_nil, filterPoints_eq]
    have h1 := queryAll_ok (env := env) (ev := plainEval fs) (variables := q.variables) (hard := q.hard)
      (soft := []) (s := ()) (points := passing t.points q.mask q.stmt)
      (fun p => (goodBindings (lowFloat fs) q.variables f p).map (resultOf p)) (by
        intro p hp
        have hp' : p ∈ t.points := (List.mem_filter.mp hp).1
        obtain ⟨a1, a2, a3⟩ := hsize p hp'
        exact collectResults_hard fs env p q.variables q.hard f hne (hcan p hp') hform a1 a2 a3)
    simp only [query, h0, queryPoints, hseed, hsoft, ne_eq, not_true_eq_false, if_false, h1, Res.ok_bind,
      Res.pure_eq, List.flatMap_def]
  · intro i p rs hp hrs
    rw [List.getElem?_map, hp] at hrs
    cases hrs
    exact goodBindings_results _ _ _ _

/-- Different positions of an ordered list of bindings hold different bindings. -/
theorem C23_no_repetition (bs : List (List Nat)) (h : bs.Pairwise FirstFastest) : bs.Nodup := by
  refine h.imp ?_
  rintro b _ ⟨i, x, y, h1, h2, h3, _⟩ rfl
  rw [h1] at h2
  cases h2
  omega

/-- Without a predicate: two points, 4 + 1 results, first variable fastest. -/
example : (query qEnv (fun _ _ => 0) (plainEval exFloats) qTrace ⟨qVars2, .nullPred, [], 0, 0, 0⟩ [] () >>=
      fun r => .ok (r.1.map fun p => p.vars.map (·.nameIndex))) =
    .ok [[0, 0], [2, 0], [0, 2], [2, 2], [0, 0]] := by decide +kernel

/-! C34 -/

theorem sameBinding_iff (a b : Point) : sameBinding a b = true ↔ bindingKey a = bindingKey b := by
  have h : ∀ xs ys : List VarInfo,
      (xs.length == ys.length && (xs.zip ys).all fun (x, y) =>
        x.nameIndex == y.nameIndex && x.typeIndex == y.typeIndex) = true ↔
      (xs.map fun v => (v.nameIndex, v.typeIndex)) = ys.map fun v => (v.nameIndex, v.typeIndex) := by
    intro xs
    induction xs with
    | nil => intro ys; cases ys <;> simp
    | cons x xs ih =>
      intro ys
      cases ys with
      | nil => simp
      | cons y ys =>
        have := ih ys
        simp only [Bool.and_eq_true, beq_iff_eq] at this
        simp only [List.length_cons, List.zip_cons_cons, List.all_cons, Bool.and_eq_true, beq_iff_eq,
          Nat.add_right_cancel_iff, List.map_cons, List.cons.injEq, Prod.mk.injEq]
        rw [← this]
        constructor
        · rintro ⟨h1, h2, h3⟩; exact ⟨h2, h1, h3⟩
        · rintro ⟨h1, h2, h3⟩; exact ⟨h2, h1, h3⟩
  unfold sameBinding bindingKey
  rw [Bool.and_assoc, Bool.and_eq_true, h, beq_iff_eq, Prod.mk.injEq]

theorem dedupLoop_spec (ps set : List Point) :
    (dedupLoop set ps).Sublist ps ∧
    (dedupLoop set ps).Pairwise (fun a b => bindingKey a ≠ bindingKey b) ∧
    (∀ r ∈ dedupLoop set ps, ∀ x ∈ set, bindingKey x ≠ bindingKey r) ∧
    ∀ k, (∀ x ∈ set, bindingKey x ≠ k) →
      (dedupLoop set ps).find? (fun p => decide (bindingKey p = k)) =
        ps.find? (fun p => decide (bindingKey p = k)) := by
  induction ps generalizing set with
  | nil => simp [dedupLoop]
  | cons p ps ih =>
    unfold dedupLoop
    by_cases hp : set.any (sameBinding · p) = true
    · rw [if_pos hp]
      obtain ⟨h1, h2, h3, h4⟩ := ih set
      obtain ⟨x, hx1, hx2⟩ := List.any_eq_true.mp hp
      rw [sameBinding_iff] at hx2
      refine ⟨h1.trans (List.sublist_cons_self ..), h2, h3, ?_⟩
      intro k hk
      rw [h4 k hk, List.find?_cons_of_neg]
      simpa [← hx2] using hk x hx1
    · rw [if_neg hp]
      obtain ⟨h1, h2, h3, h4⟩ := ih (p :: set)
      have hnew : ∀ x ∈ set, bindingKey x ≠ bindingKey p := by
        intro x hx e
        exact hp (List.any_eq_true.mpr ⟨x, hx, (sameBinding_iff _ _).mpr e⟩)
      refine ⟨h1.cons_cons p, ?_, ?_, ?_⟩
      · rw [List.pairwise_cons]
        exact ⟨fun r hr => h3 r hr p (List.mem_cons_self ..), h2⟩
      · intro r hr x hx
        rcases List.mem_cons.mp hr with rfl | hr
        · exact hnew x hx
        · exact h3 r hr x (List.mem_cons_of_mem _ hx)
      · intro k hk
        by_cases e : bindingKey p = k
        · rw [List.find?_cons_of_pos (by simpa using e), List.find?_cons_of_pos (by simpa using e)]
        · rw [List.find?_cons_of_neg (by simpa using e), List.find?_cons_of_neg (by simpa using e)]
          refine h4 k ?_
          intro x hx
          rcases List.mem_cons.mp hx with rfl | hx
          · exact e
          · exact hk x hx

/-- Duplicate removal: a sublist, no two elements with the same key, and for every
key the first element with that key is the one that stays. -/
theorem C34_first_of_each_class (ps : List Point) :
    (deduplicate ps).Sublist ps ∧
    (deduplicate ps).Pairwise (fun a b => bindingKey a ≠ bindingKey b) ∧
    ∀ k, (deduplicate ps).find? (fun p => decide (bindingKey p = k)) =
      ps.find? (fun p => decide (bindingKey p = k)) := by
  obtain ⟨h1, h2, _, h4⟩ := dedupLoop_spec ps []
  exact ⟨h1, h2, fun k => h4 k (by simp)⟩

theorem dedupLoop_of_distinct (ps set : List Point)
    (h : ps.Pairwise (fun a b => bindingKey a ≠ bindingKey b))
    (hs : ∀ r ∈ ps, ∀ x ∈ set, bindingKey x ≠ bindingKey r) : dedupLoop set ps = ps := by
  induction ps generalizing set with
  | nil => rfl
  | cons p ps ih =>
    rw [List.pairwise_cons] at h
    have hp : ¬ set.any (sameBinding · p) = true := by
      intro hp
      obtain ⟨x, hx1, hx2⟩ := List.any_eq_true.mp hp
      exact hs p (List.mem_cons_self ..) x hx1 ((sameBinding_iff _ _).mp hx2)
    rw [dedupLoop, if_neg hp, ih (p :: set) h.2]
    intro r hr x hx
    rcases List.mem_cons.mp hx with rfl | hx
    · exact h.1 r hr
    · exact hs r (List.mem_cons_of_mem _ hr) x hx

/-- Duplicate removal is idempotent. -/
theorem C34_idempotent (ps : List Point) : deduplicate (deduplicate ps) = deduplicate ps :=
  dedupLoop_of_distinct _ [] (C34_first_of_each_class ps).2.1 (by simp)

/-- Through the interface: when duplicates are to be kept the client gets all results,
otherwise the first of each class. -/
theorem C34_interface {σ : Type} (env : Env) (pick : U32 → Nat → Nat) (ev : Evaluator σ) (t : Trace) (q : Query)
    (keep : Bool) (c c' : PointsCache) (s s' : σ) (rs : List Point)
    (h : queryTrace env pick ev t q keep c s = .ok (rs, c', s')) :
    ∃ all, query env pick ev t q c s = .ok (all, c', s') ∧ (keep = true → rs = all) ∧
      (keep = false → rs.Sublist all ∧ rs.Pairwise (fun a b => bindingKey a ≠ bindingKey b) ∧
        ∀ k, rs.find? (fun p => decide (bindingKey p = k)) = all.find? (fun p => decide (bindingKey p = k))) := by
  unfold queryTrace at h
  obtain ⟨⟨all, c1, s1⟩, h1, h2⟩ := Res.bind_eq_ok.mp h
  cases h2
  refine ⟨all, h1, fun hk => by simp [hk], fun hk => ?_⟩
  simp only [hk]
  exact C34_first_of_each_class all

example : (queryTrace qEnv (fun _ _ => 0) (plainEval exFloats) ⟨[], [], [qPoint', qPoint, qPoint']⟩
      ⟨[[0]], .nullPred, [], 0, 0, 0⟩ false [] () >>= fun r => .ok r.1.length) = .ok 3 ∧
    (queryTrace qEnv (fun _ _ => 0) (plainEval exFloats) ⟨[], [], [qPoint', qPoint, qPoint']⟩
      ⟨[[0]], .nullPred, [], 0, 0, 0⟩ true [] () >>= fun r => .ok r.1.length) = .ok 4 := by decide +kernel

/-- Points that differ in values only are duplicates. -/
example : deduplicate [qPoint', { qPoint' with vars := [qVar 0 0 6], counter := 5 }, qPoint, qPoint'] =
    [qPoint', qPoint] := by decide +kernel

/-! C22 -/

theorem collectResults_novars {σ : Type} (env : Env) (ev : Evaluator σ) (point : Point) (s : σ)
    (halloc : env.canAlloc 24 = true) (hev : ev .nullPred [] s = .ok (true, s)) :
    collectResults env ev point [] .nullPred [] s =
      .ok ([{ point with sizes := [], vars := [], aux := [] }, { point with vars := [] }], s) := by
  have hc : cartesian env [] = .ok [[]] := by
    rw [cartesian_eq_all env [] (by decide) (by simpa [sizeProduct] using halloc)]; rfl
  simp only [collectResults, firstResults, List.isEmpty_nil, if_true, Pred.nullPred, Pred.kind, Res.ok_bind,
    not_true_eq_false, and_false, if_false, List.map_nil, hc, hardLoop, satisfies, lookupVars,
    Res.pure_eq, emptyResult, List.cons_append, List.nil_append]
  rw [show ev (Pred.node .null 0 []) [] s = .ok (true, s) from hev]
  rfl

/-- Without free variables every point that passes the filter yields two results,
not the documented one. -/
theorem C22_two_results_per_point (fs : FloatSys) (env : Env) (pick : U32 → Nat → Nat) (t : Trace) (mask stmt : U64)
    (halloc : env.canAlloc 24 = true) :
    (query env pick (plainEval fs) t ⟨[], .nullPred, [], 0, mask, stmt⟩ [] () >>= fun r => .ok r.1) =
      .ok ((passing t.points mask stmt).flatMap fun p =>
        [{ p with sizes := [], vars := [], aux := [] }, { p with vars := [] }]) := by
  have h0 : getPoints t.points [] mask stmt = (passing t.points mask stmt,
      [((mask, stmt), passing t.points mask stmt)]) := by
    simp only [getPoints, List.lookup_nil, filterPoints_eq]
  have h1 := queryAll_ok (env := env) (ev := plainEval fs) (variables := []) (hard := .nullPred)
    (soft := []) (s := ()) (points := passing t.points mask stmt)
    (fun p => [{ p with sizes := [], vars := [], aux := [] }, { p with vars := [] }])
    (fun p _ => collectResults_novars env (plainEval fs) p () halloc rfl)
  simp only [query, h0, queryPoints, ne_eq, not_true_eq_false, if_false, h1, Res.ok_bind, Res.pure_eq]

/-- The documentation's "each trace point will generate one result" fails for every
trace with a point. -/
theorem C22_not_one_result (fs : FloatSys) (env : Env) (pick : U32 → Nat → Nat) (t : Trace)
    (halloc : env.canAlloc 24 = true) :
    ∃ rs, (query env pick (plainEval fs) t ⟨[], .nullPred, [], 0, 0, 0⟩ [] () >>= fun r => .ok r.1) = .ok rs ∧
      rs.length = 2 * t.points.length := by
  refine ⟨_, C22_two_results_per_point fs env pick t 0 0 halloc, ?_⟩
  rw [passing_zero]
  induction t.points with
  | nil => rfl
  | cons p ps ih => simp only [List.flatMap_cons, List.length_append, List.length_cons, List.length_nil, ih]; omega

/-- With duplicate removal one result per statement remains: the empty result of the
first point with that statement. -/
theorem C22_deduplicated (fs : FloatSys) (env : Env) (pick : U32 → Nat → Nat) (t : Trace) (mask stmt : U64)
    (halloc : env.canAlloc 24 = true) :
    ∃ rs, (queryTrace env pick (plainEval fs) t ⟨[], .nullPred, [], 0, mask, stmt⟩ false [] () >>=
        fun r => .ok r.1) = .ok rs ∧
      rs.Pairwise (fun a b => a.statement ≠ b.statement) ∧
      (∀ id, rs.find? (fun r => decide (r.statement = id)) =
        ((passing t.points mask stmt).find? (fun p => decide (p.statement = id))).map
          fun p => { p with sizes := [], vars := [], aux := [] }) := by
  have hq := C22_two_results_per_point fs env pick t mask stmt halloc
  obtain ⟨x, hx1, hx2⟩ := Res.bind_eq_ok.mp hq
  have hx : x.1 = _ := Res.ok.inj hx2
  refine ⟨deduplicate x.1, ?_, ?_, ?_⟩
  · simp only [queryTrace, hx1, Res.ok_bind, Res.pure_eq, Bool.false_eq_true, if_false]
  all_goals
    rw [hx]
    generalize passing t.points mask stmt = points
    obtain ⟨h1, h2, h3⟩ := C34_first_of_each_class (points.flatMap fun p =>
      [{ p with sizes := [], vars := [], aux := [] }, { p with vars := [] }])
    have hv : ∀ r ∈ points.flatMap fun p =>
        [{ p with sizes := [], vars := [], aux := [] }, { p with vars := [] }], r.vars = [] := by
      intro r hr
      obtain ⟨p, _, hp⟩ := List.mem_flatMap.mp hr
      simp only [List.mem_cons, List.not_mem_nil, or_false] at hp
      rcases hp with rfl | rfl <;> rfl
  · refine List.Pairwise.imp_of_mem ?_ h2
    intro a b ha hb hab e
    apply hab
    unfold bindingKey
    rw [hv a (h1.subset ha), hv b (h1.subset hb), e]
  · intro id
    have hfind : ∀ l : List Point, (∀ r ∈ l, r.vars = []) →
        l.find? (fun r => decide (r.statement = id)) = l.find? (fun r => decide (bindingKey r = (id, []))) := by
      intro l hl
      induction l with
      | nil => rfl
      | cons r l ih =>
        have hr := hl r (List.mem_cons_self ..)
        have ih := ih (fun r hr => hl r (List.mem_cons_of_mem _ hr))
        by_cases e : r.statement = id
        · rw [List.find?_cons_of_pos (by simpa using e), List.find?_cons_of_pos (by simp [bindingKey, hr, e])]
        · rw [List.find?_cons_of_neg (by simpa using e), List.find?_cons_of_neg (by simp [bindingKey, hr, e]), ih]
    rw [hfind _ (fun r hr => hv r (h1.subset hr)), h3, ← hfind _ hv]
    clear h1 h2 h3 hv hfind
    induction points with
    | nil => rfl
    | cons p ps ih =>
      simp only [List.flatMap_cons, List.cons_append, List.nil_append]
      by_cases e : p.statement = id
      · rw [List.find?_cons_of_pos (by simpa using e), List.find?_cons_of_pos (by simpa using e)]; rfl
      · rw [List.find?_cons_of_neg (by simpa using e), List.find?_cons_of_neg (by simpa using e),
          List.find?_cons_of_neg (by simpa using e), ih]

/-- A hard predicate without free variables aborts the process. -/
theorem C22_predicate_aborts {σ : Type} (env : Env) (ev : Evaluator σ) (point : Point) (hard : Pred)
    (soft : List Pred) (s : σ) (h : hard.kind ≠ .null) :
    collectResults env ev point [] hard soft s = .abort := by
  simp only [collectResults, firstResults, List.isEmpty_nil, if_true, h, if_false, Res.abort_bind]

example : (queryTrace qEnv (fun _ _ => 0) (plainEval exFloats) ⟨[], [], [qPoint, qPoint', qPoint]⟩
      ⟨[], .nullPred, [], 0, 0, 0⟩ false [] () >>= fun r => .ok r.1) =
    .ok [⟨0, 7, [], [], []⟩, ⟨1, 8, [], [], []⟩] := by decide +kernel

/-! C26 -/

/-- The session without cache. -/
def runPlain (fs : FloatSys) (env : Env) (pick : U32 → Nat → Nat) :
    List (Trace × Query) → Res (List (List Point))
  | [] => .ok []
  | (t, q) :: rest => do
    let (rs, _, _) ← query env pick (plainEval fs) t q [] ()
    let more ← runPlain fs env pick rest
    pure (rs :: more)

theorem Sim.to_eq {α σ : Type} {Inv : σ → Prop} {x : Res (α × σ)} {y : Res (α × Unit)} (h : Sim Inv x y) :
    (x >>= fun r => .ok r.1) = (y >>= fun r => .ok r.1) := by
  cases x <;> cases y <;> try exact h.elim
  · obtain ⟨h, _⟩ := h
    simp only [Res.ok_bind]; rw [h]
  · rw [show _ = _ from h]; rfl
  · rfl
  · rw [show _ = _ from h]; rfl
  · rfl

theorem runQueries_sim (fs : FloatSys) (ce : CacheEnv) (env : Env) (pick : U32 → Nat → Nat)
    (K : Pred → List VarInfo → Prop) (hd : DeadConsistent ce) (hnc : NoCollision fs ce K)
    (session : List (Trace × Query)) (hK : ∀ tq ∈ session, ∀ p vs, QueryKeys tq.1 tq.2 p vs → K p vs)
    (s : CacheState) (hs : CacheOk fs ce K s) :
    (runQueries fs ce env pick session s >>= fun r => .ok r.1) = runPlain fs env pick session := by
  induction session generalizing s with
  | nil => rfl
  | cons tq rest ih =>
    obtain ⟨t, q⟩ := tq
    have hpts : ∀ point ∈ (getPoints t.points [] q.mask q.stmt).1, point ∈ t.points := by
      intro point hp
      simp only [getPoints, List.lookup_nil] at hp
      exact (List.mem_filter.mp hp).1
    have hsim := queryPoints_sim (cachedEval_sim hd hnc) (env := env) (pick := pick)
      (points := (getPoints t.points [] q.mask q.stmt).1) (variables := q.variables) (hard := q.hard)
      (soft := q.soft) (seed := q.seed) hs (fun point hp p vs hpk =>
        hK (t, q) (List.mem_cons_self ..) p vs ⟨point, hpts point hp, hpk⟩)
    simp only [runQueries, runPlain, query, Res.bind_assoc, Res.ok_bind, Res.pure_eq]
    generalize queryPoints env pick (cachedEval fs ce) _ q.variables q.hard q.soft q.seed s = x at hsim
    generalize queryPoints env pick (plainEval fs) _ q.variables q.hard q.soft q.seed () = y at hsim
    cases x <;> cases y <;> try exact hsim.elim
    · rename_i a b
      obtain ⟨a, s1⟩ := a
      obtain ⟨b, u⟩ := b
      obtain ⟨rfl, hs1⟩ := hsim
      have := ih (fun tq htq => hK tq (List.mem_cons_of_mem _ htq)) { s1 with query := s1.query + 1 } hs1
      simp only [Res.ok_bind, ← this, Res.bind_assoc]
    · rw [show _ = _ from hsim]; rfl
    · rfl
    · rw [show _ = _ from hsim]; rfl
    · rfl

/-- Sessions with the process-wide cache give the results of sessions without it,
if comparing with dead keys has some (per evaluation) fixed outcome and no two keys
with different answers that occur in the session have the same hash. -/
theorem C26_cache_unobservable_without_collisions (fs : FloatSys) (ce : CacheEnv) (env : Env)
    (pick : U32 → Nat → Nat) (session : List (Trace × Query)) (hd : DeadConsistent ce)
    (hnc : NoCollision fs ce fun p vs => ∃ tq ∈ session, QueryKeys tq.1 tq.2 p vs) :
    (runQueries fs ce env pick session ⟨[], 0, 0⟩ >>= fun r => .ok r.1) = runPlain fs env pick session :=
  runQueries_sim fs ce env pick _ hd hnc session (fun tq htq _ _ h => ⟨tq, htq, h⟩) _ (by intro e he; cases he)

/-- Evaluating a key twice reads a dangling reference. -/
theorem C26_second_evaluation_undefined (fs : FloatSys) (ce : CacheEnv) (p : Pred) (vs : List VarInfo) (q b)
    (hdead : ce.dead = none) (hh : ce.hash 1 p vs = ce.hash 0 p vs)
    (hok : predicateSatisfied fs vs p = .ok b) :
    (cachedEval fs ce p vs ⟨[], 0, q⟩ >>= fun r => cachedEval fs ce p vs r.2) = .ub .dangling := by
  have hrefl : p.eqv p = true := (Pred.eqv_iff_eq p p).mpr rfl
  simp [cachedEval, cacheFind, compareKey, hok, answerAt, hdead, hrefl, hh]

/-- If keys collide and dead keys compare equal, the second key gets the answer of the
first. -/
theorem C26_collision_gives_wrong_answer (fs : FloatSys) (ce : CacheEnv) (p : Pred) (vs vs' : List VarInfo) (q b)
    (hdead : ce.dead = some fun _ _ _ => true) (hh : ce.hash 1 p vs' = ce.hash 0 p vs)
    (hok : predicateSatisfied fs vs p = .ok b) :
    (cachedEval fs ce p vs ⟨[], 0, q⟩ >>= fun r => cachedEval fs ce p vs' r.2 >>= fun r => .ok r.1) = .ok b := by
  have hrefl : p.eqv p = true := (Pred.eqv_iff_eq p p).mpr rfl
  simp [cachedEval, cacheFind, compareKey, hok, answerAt, hdead, hrefl, hh]

/-- A comparison with a dead key that changes between the lookups of one evaluation gives
a wrong answer without any collision: the same key is true the first time and false
the second. -/
theorem C26_changing_comparison_gives_wrong_answer (fs : FloatSys) (ce : CacheEnv) (p : Pred) (vs : List VarInfo)
    (q : Nat) (hdead : ce.dead = some fun _ k _ => k == 0) (hh : ce.hash 1 p vs = ce.hash 0 p vs)
    (hok : predicateSatisfied fs vs p = .ok true) :
    (cachedEval fs ce p vs ⟨[], 0, q⟩ >>= fun r => cachedEval fs ce p vs r.2 >>= fun r' => .ok (r.1, r'.1)) =
      .ok (true, false) := by
  have hrefl : p.eqv p = true := (Pred.eqv_iff_eq p p).mpr rfl
  simp [cachedEval, cacheFind, compareKey, hok, answerAt, hdead, hrefl, hh]

/-- A hash without collisions on two keys. -/
def exHash : Nat → Pred → List VarInfo → U64 := fun _ _ vs => match vs with
  | ⟨.word u, _, _, _, _, _, _⟩ :: _ => u
  | _ => 0

/-- Wrong answer through a collision: `5 = 5` is true, then `6 = 5` is answered "true". -/
example : predicateSatisfied exFloats [qVar 0 0 5] (.node .equal 2 [pVal 0, pNat 5]) = .ok true ∧
    predicateSatisfied exFloats [qVar 0 0 6] (.node .equal 2 [pVal 0, pNat 5]) = .ok false ∧
    (cachedEval exFloats ⟨fun _ _ _ => 0, some fun _ _ _ => true⟩ (.node .equal 2 [pVal 0, pNat 5]) [qVar 0 0 5]
        ⟨[], 0, 0⟩ >>= fun r => cachedEval exFloats ⟨fun _ _ _ => 0, some fun _ _ _ => true⟩
          (.node .equal 2 [pVal 0, pNat 5]) [qVar 0 0 6] r.2 >>= fun r => .ok r.1) = .ok true := by
  decide +kernel

/-- Wrong answer without any collision, when the comparison with the dead key changes
between the lookups of one evaluation: the second evaluation of `5 = 5` is false. -/
example : (cachedEval exFloats ⟨exHash, some fun _ k _ => k == 0⟩ (.node .equal 2 [pVal 0, pNat 5]) [qVar 0 0 5]
        ⟨[], 0, 0⟩ >>= fun r => cachedEval exFloats ⟨exHash, some fun _ k _ => k == 0⟩
          (.node .equal 2 [pVal 0, pNat 5]) [qVar 0 0 5] r.2 >>= fun r => .ok r.1) = .ok false := by
  decide +kernel

/-- The hypotheses of the main theorem are met by a session that asks the same
question twice. -/
example : DeadConsistent ⟨exHash, some fun _ _ _ => true⟩ ∧
    NoCollision exFloats ⟨exHash, some fun _ _ _ => true⟩
      (fun p vs => p = .node .equal 2 [pVal 0, pNat 5] ∧ (vs = [qVar 0 0 5] ∨ vs = [qVar 0 0 6])) ∧
    (cachedEval exFloats ⟨exHash, some fun _ _ _ => true⟩ (.node .equal 2 [pVal 0, pNat 5]) [qVar 0 0 5]
        ⟨[], 0, 0⟩ >>= fun r => cachedEval exFloats ⟨exHash, some fun _ _ _ => true⟩
          (.node .equal 2 [pVal 0, pNat 5]) [qVar 0 0 6] r.2 >>= fun r => .ok r.1) = .ok false := by
  refine ⟨⟨fun _ _ => true, rfl⟩, ?_, by decide +kernel⟩
  rintro t t' p vs p' vs' ⟨rfl, h1⟩ ⟨rfl, h2⟩ h
  rcases h1 with rfl | rfl <;> rcases h2 with rfl | rfl
  · rfl
  · exact absurd h (by simp [exHash, qVar])
  · exact absurd h (by simp [exHash, qVar])
  · rfl

/-! C27 -/

/-- With a seed: nothing if no point passes, otherwise what one of the passing points
yields. -/
theorem C27_one_point {σ : Type} (env : Env) (pick : U32 → Nat → Nat) (ev : Evaluator σ) (t : Trace) (q : Query) (s : σ)
    (hseed : q.seed ≠ 0) (hpick : ∀ n, 0 < n → pick q.seed n < n) :
    (passing t.points q.mask q.stmt = [] →
      (query env pick ev t q [] s >>= fun r => .ok (r.1, r.2.2)) = .ok ([], s)) ∧
    (passing t.points q.mask q.stmt ≠ [] → ∃ p ∈ passing t.points q.mask q.stmt,
      (query env pick ev t q [] s >>= fun r => .ok (r.1, r.2.2)) =
        collectResults env ev p q.variables q.hard q.soft s) := by
  have h0 : getPoints t.points [] q.mask q.stmt = (passing t.points q.mask q.stmt,
      [((q.mask, q.stmt), passing t.points q.mask q.stmt)]) := by
    simp only [getPoints, List.lookup_nil, filterPoints_eq]
  simp only [query, h0, queryPoints, hseed, ne_eq, not_false_eq_true, if_true]
  generalize passing t.points q.mask q.stmt = points
  constructor
  · rintro rfl
    rfl
  · intro hne
    have hlen : 0 < points.length := List.length_pos_iff.mpr hne
    have hk := hpick _ hlen
    refine ⟨points[pick q.seed points.length], List.getElem_mem _, ?_⟩
    have hemp : points.isEmpty = false := by simpa using hne
    simp only [hemp, Bool.false_eq_true, if_false, List.getElem?_eq_getElem hk, Res.bind_assoc, Res.ok_bind,
      Res.pure_eq]
    cases collectResults env ev points[pick q.seed points.length] q.variables q.hard q.soft s <;> rfl

/-- Hence a contiguous part of the results without seed. -/
theorem C27_contiguous (fs : FloatSys) (env : Env) (pick : U32 → Nat → Nat) (t : Trace) (q : Query)
    (hseed : q.seed ≠ 0) (hpick : ∀ n, 0 < n → pick q.seed n < n) (all : List Point)
    (hall : (query env pick (plainEval fs) t { q with seed := 0 } [] () >>= fun r => .ok r.1) = .ok all) :
    ∃ rs, (query env pick (plainEval fs) t q [] () >>= fun r => .ok r.1) = .ok rs ∧ rs <:+: all := by
  have h0 : getPoints t.points [] q.mask q.stmt = (passing t.points q.mask q.stmt,
      [((q.mask, q.stmt), passing t.points q.mask q.stmt)]) := by
    simp only [getPoints, List.lookup_nil, filterPoints_eq]
  obtain ⟨hnone, hsome⟩ := C27_one_point env pick (plainEval fs) t q () hseed hpick
  have hmap : (query env pick (plainEval fs) t q [] () >>= fun r => .ok r.1) =
      ((query env pick (plainEval fs) t q [] () >>= fun r => .ok (r.1, r.2.2)) >>= fun r => .ok r.1) := by
    simp only [Res.bind_assoc, Res.ok_bind]
  have key : ∀ (points : List Point) (all : List Point),
      queryAll env (plainEval fs) q.variables q.hard q.soft points () = .ok (all, ()) →
      ∀ p ∈ points, ∃ rs, collectResults env (plainEval fs) p q.variables q.hard q.soft () = .ok (rs, ()) ∧
        rs <:+: all := by
    intro points
    induction points with
    | nil => intro all _ p hp; cases hp
    | cons p0 ps ih =>
      intro all h p hp
      simp only [queryAll] at h
      obtain ⟨⟨r, u⟩, h1, h2⟩ := Res.bind_eq_ok.mp h
      obtain ⟨⟨rest, u'⟩, h3, h4⟩ := Res.bind_eq_ok.mp h2
      cases h4
      rcases List.mem_cons.mp hp with rfl | hp
      · exact ⟨r, h1, (List.prefix_append r rest).isInfix⟩
      · obtain ⟨rs, k1, k2⟩ := ih rest h3 p hp
        exact ⟨rs, k1, k2.trans (List.suffix_append r rest).isInfix⟩
  by_cases hp : passing t.points q.mask q.stmt = []
  · exact ⟨[], by rw [hmap, hnone hp]; rfl, List.nil_infix⟩
  · obtain ⟨p, hpm, hq⟩ := hsome hp
    simp only [query, h0, queryPoints, ne_eq, not_true_eq_false, if_false, Res.bind_assoc, Res.ok_bind,
      Res.pure_eq] at hall
    obtain ⟨⟨a, u⟩, h1, h2⟩ := Res.bind_eq_ok.mp hall
    cases h2
    obtain ⟨rs, k1, k2⟩ := key _ _ h1 p hpm
    exact ⟨rs, by rw [hmap, hq, k1]; rfl, k2⟩

example : (query qEnv (fun _ n => 1 % n) (plainEval exFloats) qTrace ⟨[[0]], .nullPred, [], 5, 0, 0⟩ [] () >>=
      fun r => .ok r.1) = .ok [qPoint'] := by decide +kernel

/-! C28 -/

/-- With soft predicates the hard results with the greatest number of satisfied soft
predicates are kept, in order. -/
theorem C28_soft_predicates_maximised (fs : FloatSys) (env : Env) (point : Point) (variables : List FreeVar)
    (hard : Pred) (f : Form) (soft : List Pred) (sf : List Form)
    (hne : variables ≠ []) (hcan : ∀ v ∈ point.vars, v.Canonical)
    (hform : ReadsForm variables.length hard f) (hsne : soft ≠ []) (hlen : sf.length = soft.length)
    (hsoft : ∀ (i : Nat) (p : Pred) (g : Form), soft[i]? = some p → sf[i]? = some g →
      ReadsForm variables.length p g)
    (hsize : point.vars.length < 2 ^ 32)
    (hcount : combinations variables point.vars < 2 ^ 32)
    (halloc : env.canAlloc (24 * combinations variables point.vars) = true) :
    ∃ rs kept, collectResults env (plainEval fs) point variables hard [] () = .ok (rs, ()) ∧
      collectResults env (plainEval fs) point variables hard soft () = .ok (kept, ()) ∧
      kept = rs.filter (fun r => decide (∀ r' ∈ rs,
        satCount (lowFloat fs) sf r' ≤ satCount (lowFloat fs) sf r)) ∧
      (rs ≠ [] → kept ≠ []) := by
  have hc64 : combinations variables point.vars < 2 ^ 64 := by omega
  have hgb : (goodBindings (lowFloat fs) variables f point).length < 2 ^ 32 := by
    refine Nat.lt_of_le_of_lt (List.length_filter_le ..) ?_
    rw [length_combos, sizeProduct_matching]
    exact hcount
  refine ⟨_, _, collectResults_hard fs env point variables hard f hne hcan hform hsize hc64 halloc,
    collectResults_soft fs env point variables hard f soft sf hne hcan hform hlen hsoft hsne hsize hc64 halloc hgb,
    keepMax_map _ _, ?_⟩
  intro h
  obtain ⟨r, hr1, hr2⟩ := keepMax_ne_nil (satCount (lowFloat fs) sf) _ h
  rw [keepMax_map]
  refine List.ne_nil_of_mem (a := r) ?_
  rw [List.mem_filter]
  exact ⟨hr1, by simpa using hr2⟩

/-- Soft predicates `v0 = 9` and `v0 = 8`: the variable with value 9 is kept. -/
example : collectResults qEnv (plainEval exFloats) qPoint [[0]] .nullPred
      [.node .equal 2 [pVal 0, pNat 9], .node .equal 2 [pVal 0, pNat 8]] () =
    .ok ([{ qPoint with vars := [qVar 2 0 9] }], ()) := by decide +kernel

/-! C35 -/

/-- In general the first `combinations mod 2^64` bindings (first free variable
fastest) are examined and the others are missed. -/
theorem C35_count_wraps (fs : FloatSys) (env : Env) (point : Point) (variables : List FreeVar)
    (hard : Pred) (f : Form) (hne : variables ≠ []) (hcan : ∀ v ∈ point.vars, v.Canonical)
    (hform : ReadsForm variables.length hard f) (hsize : point.vars.length < 2 ^ 32)
    (halloc : env.canAlloc (24 * (combinations variables point.vars % 2 ^ 64)) = true) :
    ∃ bs : List (List Nat), bs.Pairwise FirstFastest ∧ (∀ b, b ∈ bs ↔ IsBinding variables point.vars b) ∧
      bs.length = combinations variables point.vars ∧
      collectResults env (plainEval fs) point variables hard [] () =
        .ok (((bs.take (combinations variables point.vars % 2 ^ 64)).filter fun b =>
          f.holds (lowFloat fs) (boundVars point.vars b)).map (resultOf point), ()) := by
  refine ⟨combos (variables.map fun fv => matchingVars fv point.vars), ?_, ?_, ?_, ?_⟩
  · apply combos_ordered
    intro v hv
    obtain ⟨fv, _, rfl⟩ := List.mem_map.mp hv
    exact matchingVars_ordered fv point.vars
  · exact fun b => mem_combos_matching _ _ _
  · rw [length_combos, sizeProduct_matching]
  · have hemp : variables.isEmpty = false := by simpa using hne
    have hc := cartesian_eq env (variables.map fun fv => matchingVars fv point.vars)
      (by rw [sizeProduct_matching]; exact halloc)
    rw [sizeProduct_matching] at hc
    have hsz : ¬ 2 ^ 32 ≤ point.vars.length := by omega
    simp only [collectResults, firstResults, hemp, Bool.false_eq_true, if_false, Res.ok_bind, hsz, false_and,
      hc, List.isEmpty_nil, if_true, List.nil_append, Res.pure_eq]
    rw [hardLoop_reads fs point variables hard f hcan hform
      (fun b hb => (mem_combos_matching _ _ _).mp (List.mem_of_mem_take hb))]
    rfl

/-- 64 free variables with two candidates each: nothing is returned although every
choice of candidates is a binding and there is no predicate. -/
theorem C35_nothing_returned (fs : FloatSys) (env : Env) (halloc : env.canAlloc 0 = true) (v w : VarInfo)
    (hv : v.Canonical) (hw : w.Canonical) (hvt : v.typeIndex = 0) (hwt : w.typeIndex = 0)
    (counter stmt : U64) (sizes aux) :
    collectResults env (plainEval fs) ⟨counter, stmt, sizes, [v, w], aux⟩ (List.replicate 64 [0]) .nullPred [] () =
        .ok ([], ()) ∧
      combinations (List.replicate 64 [0]) [v, w] = 2 ^ 64 ∧
      ∀ b : List Nat, b.length = 64 → (∀ k ∈ b, k < 2) → IsBinding (List.replicate 64 [0]) [v, w] b := by
  have hcand : candidates [v, w] [0] = 2 := by simp [candidates, hvt, hwt]
  have hcomb : combinations (List.replicate 64 [0]) [v, w] = 2 ^ 64 := by
    unfold combinations
    rw [List.map_replicate, hcand]
    decide
  refine ⟨?_, hcomb, ?_⟩
  · obtain ⟨bs, _, _, _, h⟩ := C35_count_wraps fs env ⟨counter, stmt, sizes, [v, w], aux⟩ (List.replicate 64 [0])
      .nullPred .tt (by decide) (by
        intro x hx
        simp only [List.mem_cons, List.not_mem_nil, or_false] at hx
        rcases hx with rfl | rfl
        · exact hv
        · exact hw) .null (by simp) (by
          rw [show combinations (List.replicate 64 [0]) [v, w] = 2 ^ 64 from hcomb]
          simpa using halloc)
    rw [h]
    rw [show combinations (List.replicate 64 [0])
      (Point.vars ⟨counter, stmt, sizes, [v, w], aux⟩) = 2 ^ 64 from hcomb]
    simp
  · intro b hb hk
    refine ⟨by simpa using hb, ?_⟩
    intro i fv k hi hbk
    have h2 := hk k (List.mem_of_getElem? hbk)
    have hfv : fv = [0] := (List.mem_replicate.mp (List.mem_of_getElem? hi)).2
    subst hfv
    match k, h2 with
    | 0, _ => exact ⟨v, rfl, by simp [hvt]⟩
    | 1, _ => exact ⟨w, rfl, by simp [hwt]⟩

/-- The query of the theorem on two concrete variables. -/
example : collectResults qEnv (plainEval exFloats) ⟨0, 0, [], [qVar 0 0 1, qVar 1 0 2], []⟩
    (List.replicate 64 [0]) .nullPred [] () = .ok ([], ()) := by decide +kernel

end TraceDB
