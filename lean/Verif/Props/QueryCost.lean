import Verif.Proofs.QueryCost
/-
C95: what queries evaluate, and what they leave behind in the caches.
-/
namespace TraceDB

theorem query_getPoints {σ : Type} (env : Env) (pick : U32 → Nat → Nat) (ev : Evaluator σ) (t : Trace) (q : Query)
    (requests : List (U64 × U64)) (s : σ) {rs : List Point} {c' : PointsCache} {s' : σ}
    (h : query env pick ev t q (cacheAfter t.points requests) s = .ok (rs, c', s')) :
    queryPoints env pick ev (passing t.points q.mask q.stmt) q.variables q.hard q.soft q.seed s = .ok (rs, s') := by
  have h1 := C25_filter_cache_unobservable t.points requests q.mask q.stmt
  unfold query at h
  generalize getPoints t.points (cacheAfter t.points requests) q.mask q.stmt = gp at h h1
  obtain ⟨points, cc⟩ := gp
  obtain ⟨⟨rs1, s1⟩, h2, h3⟩ := Res.bind_eq_ok.mp h
  cases h3
  dsimp only at h1
  subst h1
  exact h2

/-- Watching the evaluations changes neither the outcome nor the state. -/
theorem C95_watching {σ : Type} (env : Env) (pick : U32 → Nat → Nat) (ev : Evaluator σ) (t : Trace) (q : Query)
    (c : PointsCache) (s : σ) (l : List Evaluation) :
    (query env pick (watched ev) t q c (s, l) >>= fun r => .ok (r.1, r.2.1, r.2.2.1)) = query env pick ev t q c s := by
  unfold query
  generalize getPoints t.points c q.mask q.stmt = gp
  obtain ⟨points, cc⟩ := gp
  dsimp only
  rw [← queryPoints_forget env pick ev points q.variables q.hard q.soft q.seed s l]
  simp only [forget, Res.bind_assoc, Res.ok_bind, Res.pure_eq]

/-- The evaluations of a query without seed: point after point, at each point that
passes the filter the hard predicate once per binding and then every soft predicate
once per result; nothing else. -/
theorem C95_evaluations {σ : Type} (env : Env) (pick : U32 → Nat → Nat) (ev : Evaluator σ) (t : Trace) (q : Query)
    (requests : List (U64 × U64)) (s s' : σ) (l l' : List Evaluation) (rs : List Point) (c' : PointsCache)
    (hseed : q.seed = 0) (hlt : ∀ p ∈ t.points, combinations q.variables p.vars < 2 ^ 64)
    (h : query env pick (watched ev) t q (cacheAfter t.points requests) (s, l) = .ok (rs, c', (s', l'))) :
    ∃ ms : List (List Evaluation), l' = l ++ ms.flatten ∧ ms.length = (passing t.points q.mask q.stmt).length ∧
      ∀ (i : Nat) (p : Point) (m : List Evaluation), (passing t.points q.mask q.stmt)[i]? = some p →
        ms[i]? = some m → EvaluatedAt q p m := by
  have h1 := query_getPoints env pick (watched ev) t q requests (s, l) h
  simp only [queryPoints, hseed, ne_eq, not_true_eq_false, if_false] at h1
  exact queryAll_log (fun p hp => hlt p (List.mem_filter.mp hp).1) h1

/-- With a seed only one point is examined. -/
theorem C95_evaluations_seed {σ : Type} (env : Env) (pick : U32 → Nat → Nat) (ev : Evaluator σ) (t : Trace) (q : Query)
    (requests : List (U64 × U64)) (s s' : σ) (l l' : List Evaluation) (rs : List Point) (c' : PointsCache)
    (hseed : q.seed ≠ 0) (hlt : ∀ p ∈ t.points, combinations q.variables p.vars < 2 ^ 64)
    (h : query env pick (watched ev) t q (cacheAfter t.points requests) (s, l) = .ok (rs, c', (s', l'))) :
    (passing t.points q.mask q.stmt = [] ∧ l' = l) ∨
      ∃ p ∈ passing t.points q.mask q.stmt, ∃ m, l' = l ++ m ∧ EvaluatedAt q p m := by
  have h1 := query_getPoints env pick (watched ev) t q requests (s, l) h
  unfold queryPoints at h1
  rw [if_pos hseed] at h1
  split at h1
  · rename_i he
    cases h1
    exact .inl ⟨List.isEmpty_iff.mp he, rfl⟩
  · split at h1
    · cases h1
    · rename_i p hp
      have hp' := List.mem_of_getElem? hp
      exact .inr ⟨p, hp', collectResults_log (hlt p (List.mem_filter.mp hp').1) h1⟩

/-- Number of evaluations: without soft predicates the number of combinations of
candidates, added up over the points that pass. -/
theorem C95_count {σ : Type} (env : Env) (pick : U32 → Nat → Nat) (ev : Evaluator σ) (t : Trace) (q : Query)
    (requests : List (U64 × U64)) (s s' : σ) (l l' : List Evaluation) (rs : List Point) (c' : PointsCache)
    (hseed : q.seed = 0) (hlt : ∀ p ∈ t.points, combinations q.variables p.vars < 2 ^ 64)
    (h : query env pick (watched ev) t q (cacheAfter t.points requests) (s, l) = .ok (rs, c', (s', l'))) :
    ∃ n, n ≤ ((passing t.points q.mask q.stmt).map fun p =>
          combinations q.variables p.vars + if q.variables.isEmpty then 1 else 0).sum ∧
      l'.length = l.length + ((passing t.points q.mask q.stmt).map fun p => combinations q.variables p.vars).sum +
        n * q.soft.length := by
  obtain ⟨ms, h1, h2, h3⟩ := C95_evaluations env pick ev t q requests s s' l l' rs c' hseed hlt h
  rw [h1, List.length_append]
  generalize passing t.points q.mask q.stmt = ps at h2 h3
  clear h1 h hlt
  suffices hs : ∃ n, n ≤ (ps.map fun p => combinations q.variables p.vars + if q.variables.isEmpty then 1 else 0).sum ∧
      ms.flatten.length = (ps.map fun p => combinations q.variables p.vars).sum + n * q.soft.length by
    obtain ⟨n, a, b⟩ := hs
    exact ⟨n, a, by omega⟩
  induction ps generalizing ms with
  | nil =>
    cases ms with
    | nil => exact ⟨0, by simp, by simp⟩
    | cons m ms => cases h2
  | cons p ps ih =>
    cases ms with
    | nil => cases h2
    | cons m ms =>
      obtain ⟨n1, a1, b1⟩ := (h3 0 p m rfl rfl).length
      obtain ⟨n2, a2, b2⟩ := ih ms (by simpa using h2) (fun i p m hp hm => h3 (i + 1) p m hp hm)
      refine ⟨n1 + n2, ?_, ?_⟩
      · simp only [List.map_cons, List.sum_cons]; omega
      · simp only [List.map_cons, List.sum_cons, List.flatten_cons, List.length_append, b1, b2, Nat.add_mul]; omega

/-- Two free variables, the predicate `v0 < v1` and it once more as a soft predicate:
4 + 1 evaluations of the hard predicate, one of them true, and one of the soft one. -/
example : (∀ p ∈ qTrace.points, combinations qVars2 p.vars < 2 ^ 64) ∧
    (query qEnv (fun _ _ => 0) (watched (plainEval exFloats)) qTrace ⟨qVars2, qLess, [qLess], 0, 0, 0⟩
        (cacheAfter qTrace.points [(15, 7)]) ((), []) >>= fun r => .ok (r.2.2.2.map fun e =>
          (e.vars.map (·.nameIndex), e.answer))) =
      .ok [([0, 0], false), ([2, 0], false), ([0, 2], true), ([2, 2], false), ([0, 2], true), ([0, 0], false)] := by
  decide +kernel

/-- With a seed only the chosen point. -/
example : (query qEnv (fun _ n => 1 % n) (watched (plainEval exFloats)) qTrace ⟨qVars2, qLess, [qLess], 5, 0, 0⟩
        (cacheAfter qTrace.points []) ((), []) >>= fun r => .ok (r.2.2.2.map fun e =>
          (e.vars.map (·.nameIndex), e.answer))) = .ok [([0, 0], false)] := by
  decide +kernel

/-- The predicate cache during a query: the clock counts the evaluations, no entry is
lost, at most one is added per evaluation, and every key evaluated has left its hash. -/
theorem C95_predicate_cache (fs : FloatSys) (ce : CacheEnv) (env : Env) (pick : U32 → Nat → Nat) (t : Trace)
    (q : Query) (c c' : PointsCache) (s s' : CacheState) (l : List Evaluation) (rs : List Point)
    (h : query env pick (watched (cachedEval fs ce)) t q c (s, []) = .ok (rs, c', (s', l))) :
    s'.now = s.now + l.length ∧
    (∃ new, s'.entries.map CacheEntry.keyOf = new ++ s.entries.map CacheEntry.keyOf ∧ new.length ≤ l.length) ∧
    ∀ (i : Nat) (e : Evaluation), l[i]? = some e →
      ce.hash (s.now + i) e.pred e.vars ∈ s'.entries.map CacheEntry.hash :=
  query_keeps (I := Grown ce (s.entries.map CacheEntry.keyOf) s.now) (grown_keeps fs ce _ _)
    ⟨by simp, ⟨[], rfl, by simp⟩, by simp⟩ h

/-- Five evaluations with different hashes leave five entries; an evaluation whose hash
was seen before and whose key compares equal leaves none. -/
example : (query qEnv (fun _ _ => 0) (watched (cachedEval exFloats ⟨fun t _ _ => BitVec.ofNat 64 t, none⟩)) qTrace
        ⟨qVars2, qLess, [], 0, 0, 0⟩ [] (⟨[], 0, 0⟩, []) >>= fun r => .ok (r.2.2.1.entries.length, r.2.2.2.length)) =
      .ok (5, 5) ∧
    (query qEnv (fun _ _ => 0) (watched (cachedEval exFloats ⟨fun _ _ _ => 0, some fun _ _ _ => true⟩)) qTrace
        ⟨qVars2, qLess, [], 0, 0, 0⟩ [] (⟨[], 0, 0⟩, []) >>= fun r => .ok (r.2.2.1.entries.length, r.2.2.2.length)) =
      .ok (1, 5) := by
  decide +kernel

/-- Over whole sessions, whatever becomes of the traces: no entry is lost, and at most
one is added per evaluation. -/
theorem C95_session (fs : FloatSys) (ce : CacheEnv) (env : Env) (pick : U32 → Nat → Nat)
    (session : List (Trace × Query)) (s s' : CacheState) (rss : List (List Point))
    (h : runQueries fs ce env pick session s = .ok (rss, s')) :
    ∃ new, s'.entries.map CacheEntry.keyOf = new ++ s.entries.map CacheEntry.keyOf ∧ s.now + new.length ≤ s'.now := by
  induction session generalizing s rss with
  | nil => cases h; exact ⟨[], rfl, by simp⟩
  | cons tq rest ih =>
    obtain ⟨t, q⟩ := tq
    simp only [runQueries] at h
    obtain ⟨⟨rs, c1, s1⟩, h1, h2⟩ := Res.bind_eq_ok.mp h
    obtain ⟨⟨more, s2⟩, h3, h4⟩ := Res.bind_eq_ok.mp h2
    cases h4
    have hw := C95_watching env pick (cachedEval fs ce) t q [] s []
    rw [h1] at hw
    obtain ⟨⟨rs', c', sl, l⟩, h5, h6⟩ := Res.bind_eq_ok.mp hw
    cases h6
    obtain ⟨a, ⟨new, b, d⟩, _⟩ := C95_predicate_cache fs ce env pick t q [] c' s sl l rs' h5
    obtain ⟨new2, e, f⟩ := ih _ _ h3
    dsimp only at e f
    exact ⟨new2 ++ new, by rw [e, b, List.append_assoc], by rw [List.length_append]; dsimp only; omega⟩

/-- Two queries for the same thing on the same trace, with different hashes. -/
example : (runQueries exFloats ⟨fun t _ _ => BitVec.ofNat 64 t, none⟩ qEnv (fun _ _ => 0)
        [(qTrace, ⟨qVars2, qLess, [], 0, 0, 0⟩), (qTrace, ⟨[[0]], .nullPred, [], 0, 0, 0⟩)] ⟨[], 0, 0⟩ >>= fun r =>
      .ok (r.2.entries.length, r.2.now)) = .ok (8, 8) := by
  decide +kernel

/-- There is no bound: querying one trace after the other, each with a value not seen
before, leaves an entry for every trace, if the hashes of the keys differ. -/
theorem C95_cache_grows (fs : FloatSys) (ce : CacheEnv) (env : Env) (pick : U32 → Nat → Nat) (p : Pred)
    (values : List U64) (hnd : values.Nodup) (halloc : env.canAlloc 24 = true)
    (hh : ∀ t t' n n', n ≠ n' → ce.hash t p [oneVar n] ≠ ce.hash t' p [oneVar n'])
    (hp : ∀ n, ∃ b, predicateSatisfied fs [oneVar n] p = .ok b) :
    ∃ rss s', runQueries fs ce env pick (values.map fun n => (oneVarTrace n, typeZeroQuery p)) ⟨[], 0, 0⟩ =
      .ok (rss, s') ∧ s'.entries.length = values.length := by
  suffices hs : ∀ (s : CacheState), (∀ e ∈ s.entries, ∃ t n, n ∉ values ∧ e.hash = ce.hash t p [oneVar n]) →
      ∃ rss s', runQueries fs ce env pick (values.map fun n => (oneVarTrace n, typeZeroQuery p)) s =
        .ok (rss, s') ∧ s'.entries.length = s.entries.length + values.length by
    simpa using hs ⟨[], 0, 0⟩ (by simp)
  induction values with
  | nil => exact fun s _ => ⟨[], s, rfl, rfl⟩
  | cons n values ih =>
    intro s hs
    rw [List.nodup_cons] at hnd
    obtain ⟨b, hb⟩ := hp n
    have hq := oneVar_query (fs := fs) (ce := ce) (env := env) (pick := pick) (s := s) halloc (by
      intro e he
      obtain ⟨t, m, hm, e1⟩ := hs e he
      rw [e1]
      exact hh _ _ _ _ (fun h => hm (h ▸ List.mem_cons_self ..))) hb
    obtain ⟨rss, s', h1, h2⟩ := ih hnd.2 ⟨⟨p, [oneVar n],
          ce.hash s.now p [oneVar n], s.now, s.query, b⟩ :: s.entries, s.now + 1, s.query + 1⟩ (by
      intro e he
      rcases List.mem_cons.mp he with rfl | he
      · exact ⟨s.now, n, hnd.1, rfl⟩
      · obtain ⟨t, m, hm, e1⟩ := hs e he
        exact ⟨t, m, fun h => hm (List.mem_cons_of_mem _ h), e1⟩)
    refine ⟨(if b then (oneVarTrace n).points else []) :: rss, s', ?_, by rw [h2]; simp; omega⟩
    simp only [List.map_cons, runQueries, hq, Res.ok_bind, h1, Res.pure_eq]

/-- Such a hash and such a predicate. -/
example : (∀ (t t' : Nat) (n n' : U64), n ≠ n' →
      exHash t .nullPred [oneVar n] ≠ exHash t' .nullPred [oneVar n']) ∧
    (∀ n, ∃ b, predicateSatisfied exFloats [oneVar n] .nullPred = .ok b) ∧ ([5, 6, 7] : List U64).Nodup ∧
    qEnv.canAlloc 24 = true :=
  ⟨fun _ _ _ _ h => h, fun _ => ⟨true, rfl⟩, by decide, by decide⟩

/-- The filter cache of a trace: one entry for every different request ever made, each
with its own copy of the points that pass. -/
theorem C95_filter_cache (points : List Point) (requests : List (U64 × U64)) :
    ∃ ks : List (U64 × U64), ks.Nodup ∧ (∀ k, k ∈ ks ↔ k ∈ requests) ∧
      (cacheAfter points requests).length = ks.length ∧
      keptPoints (cacheAfter points requests) = (ks.map fun k => (passing points k.1 k.2).length).sum := by
  obtain ⟨h1, h2, h3⟩ := cacheAfter_entries points requests [] (by simp) (by simp)
  refine ⟨(cacheAfter points requests).map (·.1), h1, fun k => (h3 k).trans (by simp), by simp, ?_⟩
  unfold keptPoints
  congr 1
  rw [List.map_map]
  apply List.map_congr_left
  intro e he
  simp only [Function.comp]
  rw [← h2 e he]

/-- Nothing bounds it either: `n` masks that let everything pass keep the trace `n`
times. -/
theorem C95_filter_cache_grows (points : List Point) (masks : List U64) (hnd : masks.Nodup)
    (hpass : ∀ m ∈ masks, ∀ p ∈ points, p.statement &&& m = 0) :
    keptPoints (cacheAfter points (masks.map fun m => (m, 0))) = masks.length * points.length := by
  obtain ⟨ks, h1, h2, h3, h4⟩ := C95_filter_cache points (masks.map fun m => (m, 0))
  have hperm : ks.Perm (masks.map fun m => (m, 0)) := by
    rw [List.perm_ext_iff_of_nodup h1]
    · exact h2
    · exact List.Pairwise.map _ (fun a b hab h => hab (by simpa using h)) hnd
  rw [h4, (hperm.map _).sum_nat, List.map_map]
  clear h4 hperm h3 h2 h1 hnd
  induction masks with
  | nil => simp
  | cons m masks ih =>
    rw [List.map_cons, List.sum_cons, ih (fun m hm => hpass m (List.mem_cons_of_mem _ hm)), List.length_cons,
      Nat.succ_mul, Nat.add_comm]
    congr 2
    simp only [Function.comp, passing]
    rw [List.filter_eq_self.mpr]
    intro p hp
    simpa using hpass m (List.mem_cons_self ..) p hp

/-- Three requests, two of them different. -/
example : keptPoints (cacheAfter qTrace.points [(15, 7), (0, 0), (15, 7)]) = 3 ∧
    (cacheAfter qTrace.points [(15, 7), (0, 0), (15, 7)]).length = 2 := by
  decide +kernel

/-- Two masks that let both points pass. -/
example : keptPoints (cacheAfter qTrace.points [(16, 0), (32, 0)]) = 4 :=
  C95_filter_cache_grows qTrace.points [16, 32] (by decide) (by
    simp only [List.mem_cons, List.not_mem_nil, or_false, qTrace]
    rintro m (rfl | rfl) p (rfl | rfl) <;> rfl)

end TraceDB
