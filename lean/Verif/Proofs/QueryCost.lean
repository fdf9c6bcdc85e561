import Verif.Props.Query
import Verif.Spec.QueryCost
/-
Lemmas about what queries evaluate and what the caches keep.
-/
namespace TraceDB

/-! Watching does not change anything. -/

section Forget
variable {σ : Type}

/-- Forget the log. -/
abbrev forget {α : Type} (x : Res (α × (σ × List Evaluation))) : Res (α × σ) := x >>= fun r => .ok (r.1, r.2.1)

theorem forget_bind {α β : Type} (x : Res (α × (σ × List Evaluation))) (y : Res (α × σ))
    (f : α × (σ × List Evaluation) → Res (β × (σ × List Evaluation))) (g : α × σ → Res (β × σ))
    (h : forget x = y) (hfg : ∀ a s l, forget (f (a, (s, l))) = g (a, s)) :
    forget (x >>= f) = y >>= g := by
  subst h
  cases x with
  | ok r => obtain ⟨a, s, l⟩ := r; simpa only [forget, Res.ok_bind] using hfg a s l
  | throw e => rfl
  | abort => rfl
  | ub k => rfl
  | hang => rfl

theorem forget_bind_res {α β : Type} (x : Res α)
    (f : α → Res (β × (σ × List Evaluation))) (g : α → Res (β × σ))
    (hfg : ∀ a, forget (f a) = g a) :
    forget (x >>= f) = x >>= g := by
  cases x with
  | ok a => simpa only [forget, Res.ok_bind] using hfg a
  | throw e => rfl
  | abort => rfl
  | ub k => rfl
  | hang => rfl

theorem watched_forget (ev : Evaluator σ) (p : Pred) (vs : List VarInfo) (s : σ) (l : List Evaluation) :
    forget (watched ev p vs (s, l)) = ev p vs s := by
  simp only [forget, watched]
  cases ev p vs s with
  | ok r => rfl
  | throw e => rfl
  | abort => rfl
  | ub k => rfl
  | hang => rfl

theorem satisfies_forget (ev : Evaluator σ) (p : Pred) (point : Point) (b : List Nat) (s : σ) (l : List Evaluation) :
    forget (satisfies (watched ev) p point b (s, l)) = satisfies ev p point b s :=
  forget_bind_res _ _ _ fun vs => watched_forget ev p vs s l

theorem hardLoop_forget (ev : Evaluator σ) (hard : Pred) (point : Point) (bs : List (List Nat)) (s : σ)
    (l : List Evaluation) :
    forget (hardLoop (watched ev) hard point bs (s, l)) = hardLoop ev hard point bs s := by
  induction bs generalizing s l with
  | nil => rfl
  | cons b bs ih =>
    simp only [hardLoop]
    refine forget_bind _ _ _ _ (satisfies_forget ev hard point b s l) ?_
    intro sat s l
    cases sat with
    | false => exact ih s l
    | true =>
      refine forget_bind_res _ _ _ fun vars => ?_
      exact forget_bind _ _ _ _ (ih s l) fun rest s l => rfl

theorem softCount_forget (ev : Evaluator σ) (r : Point) (b : List Nat) (ps : List Pred) (s : σ)
    (l : List Evaluation) :
    forget (softCount (watched ev) r b ps (s, l)) = softCount ev r b ps s := by
  induction ps generalizing s l with
  | nil => rfl
  | cons p ps ih =>
    simp only [softCount]
    refine forget_bind _ _ _ _ (satisfies_forget ev p r b s l) ?_
    intro sat s l
    exact forget_bind _ _ _ _ (ih s l) fun rest s l => rfl

theorem softCounts_forget (ev : Evaluator σ) (soft : List Pred) (b : List Nat) (rs : List Point) (s : σ)
    (l : List Evaluation) :
    forget (softCounts (watched ev) soft b rs (s, l)) = softCounts ev soft b rs s := by
  induction rs generalizing s l with
  | nil => rfl
  | cons r rs ih =>
    simp only [softCounts]
    refine forget_bind _ _ _ _ (softCount_forget ev r b soft s l) ?_
    intro n s l
    exact forget_bind _ _ _ _ (ih s l) fun rest s l => rfl

theorem collectResults_forget (env : Env) (ev : Evaluator σ) (point : Point) (variables : List FreeVar)
    (hard : Pred) (soft : List Pred) (s : σ) (l : List Evaluation) :
    forget (collectResults env (watched ev) point variables hard soft (s, l)) =
      collectResults env ev point variables hard soft s := by
  unfold collectResults
  refine forget_bind_res _ _ _ fun first => ?_
  split
  · rfl
  refine forget_bind_res _ _ _ fun bs => ?_
  refine forget_bind _ _ _ _ (hardLoop_forget ev hard point bs s l) ?_
  intro found s l
  dsimp only
  split
  · rfl
  refine forget_bind _ _ _ _ (softCounts_forget ev soft _ _ s l) ?_
  intro counts s l
  dsimp only
  split <;> rfl

theorem queryAll_forget (env : Env) (ev : Evaluator σ) (variables : List FreeVar)
    (hard : Pred) (soft : List Pred) (points : List Point) (s : σ) (l : List Evaluation) :
    forget (queryAll env (watched ev) variables hard soft points (s, l)) =
      queryAll env ev variables hard soft points s := by
  induction points generalizing s l with
  | nil => rfl
  | cons p ps ih =>
    simp only [queryAll]
    refine forget_bind _ _ _ _ (collectResults_forget env ev p variables hard soft s l) ?_
    intro r s l
    exact forget_bind _ _ _ _ (ih s l) fun rest s l => rfl

theorem queryPoints_forget (env : Env) (pick : U32 → Nat → Nat) (ev : Evaluator σ) (points : List Point)
    (variables : List FreeVar) (hard : Pred) (soft : List Pred) (seed : U32) (s : σ) (l : List Evaluation) :
    forget (queryPoints env pick (watched ev) points variables hard soft seed (s, l)) =
      queryPoints env pick ev points variables hard soft seed s := by
  unfold queryPoints
  split
  · split
    · rfl
    · split
      · rfl
      · exact collectResults_forget ..
  · exact queryAll_forget ..

end Forget

/-! What is written down. -/

section Log
variable {σ : Type}

theorem watched_ok {ev : Evaluator σ} {p : Pred} {vs : List VarInfo} {s s' : σ} {l l' : List Evaluation} {b : Bool}
    (h : watched ev p vs (s, l) = .ok (b, (s', l'))) : l' = l ++ [⟨p, vs, b⟩] := by
  unfold watched at h
  obtain ⟨⟨b1, s1⟩, _, h2⟩ := Res.bind_eq_ok.mp h
  cases h2
  rfl

theorem satisfies_log {ev : Evaluator σ} {p : Pred} {point : Point} {b : List Nat} {s s' : σ}
    {l l' : List Evaluation} {a : Bool} (hb : ∀ k ∈ b, k < point.vars.length)
    (h : satisfies (watched ev) p point b (s, l) = .ok (a, (s', l'))) :
    l' = l ++ [⟨p, boundVars point.vars b, a⟩] := by
  unfold satisfies at h
  rw [(lookupVars_eq _ _ hb).1, Res.ok_bind] at h
  exact watched_ok h

theorem hardLoop_log {ev : Evaluator σ} {hard : Pred} {point : Point} {bs : List (List Nat)} {s s' : σ}
    {l l' : List Evaluation} {rs : List Point} (hb : ∀ b ∈ bs, ∀ k ∈ b, k < point.vars.length)
    (h : hardLoop (watched ev) hard point bs (s, l) = .ok (rs, (s', l'))) :
    ∃ hs, l' = l ++ hs ∧
      hs.map (fun e => (e.pred, e.vars)) = bs.map (fun b => (hard, boundVars point.vars b)) ∧
      rs.map (·.vars) = (hs.filter Evaluation.answer).map Evaluation.vars := by
  induction bs generalizing s l rs with
  | nil => cases h; exact ⟨[], by simp, rfl, rfl⟩
  | cons b bs ih =>
    have hb0 := hb b (List.mem_cons_self ..)
    have hb1 := fun c hc => hb c (List.mem_cons_of_mem _ hc)
    simp only [hardLoop] at h
    obtain ⟨⟨sat, s1, l1⟩, h1, h2⟩ := Res.bind_eq_ok.mp h
    have hl1 := satisfies_log hb0 h1
    cases sat with
    | false =>
      obtain ⟨hs, h3, h4, h5⟩ := ih hb1 h2
      exact ⟨⟨hard, boundVars point.vars b, false⟩ :: hs, by rw [h3, hl1]; simp, by simp [h4], by simp [h5]⟩
    | true =>
      simp only [if_true] at h2
      obtain ⟨vars, h6, h7⟩ := Res.bind_eq_ok.mp h2
      obtain ⟨⟨rest, s2, l2⟩, h8, h9⟩ := Res.bind_eq_ok.mp h7
      cases h9
      obtain ⟨hs, h3, h4, h5⟩ := ih hb1 h8
      rw [(lookupVars_eq _ _ hb0).1] at h6
      cases h6
      exact ⟨⟨hard, boundVars point.vars b, true⟩ :: hs, by rw [h3, hl1]; simp, by simp [h4], by simp [h5]⟩

theorem softCount_log {ev : Evaluator σ} {r : Point} {b : List Nat} {ps : List Pred} {s s' : σ}
    {l l' : List Evaluation} {n : Nat} (hb : ∀ k ∈ b, k < r.vars.length)
    (h : softCount (watched ev) r b ps (s, l) = .ok (n, (s', l'))) :
    ∃ ss, l' = l ++ ss ∧ ss.map (fun e => (e.pred, e.vars)) = ps.map fun f => (f, boundVars r.vars b) := by
  induction ps generalizing s l n with
  | nil => cases h; exact ⟨[], by simp, rfl⟩
  | cons p ps ih =>
    simp only [softCount] at h
    obtain ⟨⟨sat, s1, l1⟩, h1, h2⟩ := Res.bind_eq_ok.mp h
    obtain ⟨⟨n1, s2, l2⟩, h3, h4⟩ := Res.bind_eq_ok.mp h2
    cases h4
    obtain ⟨ss, h5, h6⟩ := ih h3
    have hl1 := satisfies_log hb h1
    exact ⟨⟨p, boundVars r.vars b, sat⟩ :: ss, by rw [h5, hl1]; simp, by simp [h6]⟩

theorem softCounts_log {ev : Evaluator σ} {n : Nat} {soft : List Pred} {rs : List Point} {s s' : σ}
    {l l' : List Evaluation} {ns : List Nat} (hn : ∀ r ∈ rs, r.vars.length = n)
    (h : softCounts (watched ev) soft (List.range n) rs (s, l) = .ok (ns, (s', l'))) :
    ∃ ss, l' = l ++ ss ∧
      ss.map (fun e => (e.pred, e.vars)) = (rs.map (·.vars)).flatMap fun vs => soft.map fun f => (f, vs) := by
  induction rs generalizing s l ns with
  | nil => cases h; exact ⟨[], by simp, rfl⟩
  | cons r rs ih =>
    simp only [softCounts] at h
    obtain ⟨⟨m, s1, l1⟩, h1, h2⟩ := Res.bind_eq_ok.mp h
    obtain ⟨⟨n1, s2, l2⟩, h3, h4⟩ := Res.bind_eq_ok.mp h2
    cases h4
    obtain ⟨ss, h5, h6⟩ := ih (fun r hr => hn r (List.mem_cons_of_mem _ hr)) h3
    have hr := hn r (List.mem_cons_self ..)
    subst hr
    obtain ⟨s0, h7, h8⟩ := softCount_log (by simp) h1
    rw [boundVars_range] at h8
    exact ⟨s0 ++ ss, by rw [h5, h7]; simp, by simp [h6, h8]⟩

theorem collectResults_log {env : Env} {ev : Evaluator σ} {point : Point} {q : Query} {s s' : σ}
    {l l' : List Evaluation} {rs : List Point} (hlt : combinations q.variables point.vars < 2 ^ 64)
    (h : collectResults env (watched ev) point q.variables q.hard q.soft (s, l) = .ok (rs, (s', l'))) :
    ∃ m, l' = l ++ m ∧ EvaluatedAt q point m := by
  unfold collectResults at h
  obtain ⟨first, h1, h2⟩ := Res.bind_eq_ok.mp h
  split at h2
  · cases h2
  obtain ⟨bs, h3, h4⟩ := Res.bind_eq_ok.mp h2
  have hall : bs = combos (q.variables.map fun fv => matchingVars fv point.vars) := by
    rw [← sizeProduct_matching] at hlt
    unfold cartesian at h3
    simp only [cartesianCount_eq, Nat.mod_eq_of_lt hlt] at h3
    split at h3
    · rw [cartesianLoop_range _ _ (Nat.le_refl _), ← length_combos, List.take_length] at h3
      cases h3; rfl
    · cases h3
  have hbind : ∀ b, b ∈ bs ↔ IsBinding q.variables point.vars b := by
    intro b; rw [hall]; exact mem_combos_matching _ _ _
  have hord : bs.Pairwise FirstFastest := by
    rw [hall]
    refine combos_ordered _ ?_
    intro v hv
    obtain ⟨fv, _, rfl⟩ := List.mem_map.mp hv
    exact matchingVars_ordered _ _
  have hin : ∀ b ∈ bs, ∀ k ∈ b, k < point.vars.length := fun b hb => binding_inrange ((hbind b).mp hb)
  obtain ⟨⟨found, s1, l1⟩, h5, h6⟩ := Res.bind_eq_ok.mp h4
  obtain ⟨hs, h7, h8, h9⟩ := hardLoop_log hin h5
  have hfirst : first.map (·.vars) = if q.variables.isEmpty then [[]] else [] := by
    unfold firstResults at h1
    split at h1
    · rename_i he
      split at h1
      · cases h1; simp [he, emptyResult]
      · cases h1
    · rename_i he
      cases h1; simp [he]
  dsimp only at h6
  split at h6
  · rename_i hsoft
    cases h6
    refine ⟨hs, h7, bs, hs, [], by simp, hord, hbind, h8, ?_⟩
    rw [List.isEmpty_iff] at hsoft
    simp [hsoft, List.flatMap_def]
  · obtain ⟨⟨counts, s2, l2⟩, h10, h11⟩ := Res.bind_eq_ok.mp h6
    dsimp only at h11
    split at h11
    · cases h11
    cases h11
    have hlen : ∀ r ∈ first ++ found, r.vars.length = q.variables.length := by
      intro r hr
      rcases List.mem_append.mp hr with hr | hr
      · have : r.vars ∈ first.map (·.vars) := List.mem_map.mpr ⟨r, hr, rfl⟩
        rw [hfirst] at this
        split at this
        · rename_i he
          rw [List.isEmpty_iff] at he
          simp at this
          simp [this, he]
        · simp at this
      · obtain ⟨b, hb, hv⟩ := hardLoop_vars h5 r hr
        have h12 := lookupVars_eq point.vars b (hin b hb)
        rw [h12.1, Res.ok.injEq] at hv
        rw [← hv, h12.2]
        exact ((hbind b).mp hb).1
    obtain ⟨ss, h13, h14⟩ := softCounts_log hlen h10
    refine ⟨hs ++ ss, by rw [h13, h7]; simp, bs, hs, ss, rfl, hord, hbind, h8, ?_⟩
    rw [h14, List.map_append, hfirst, h9]

theorem queryAll_log {env : Env} {ev : Evaluator σ} {q : Query} {points : List Point} {s s' : σ}
    {l l' : List Evaluation} {rs : List Point} (hlt : ∀ p ∈ points, combinations q.variables p.vars < 2 ^ 64)
    (h : queryAll env (watched ev) q.variables q.hard q.soft points (s, l) = .ok (rs, (s', l'))) :
    ∃ ms : List (List Evaluation), l' = l ++ ms.flatten ∧ ms.length = points.length ∧
      ∀ (i : Nat) (p : Point) (m : List Evaluation), points[i]? = some p → ms[i]? = some m → EvaluatedAt q p m := by
  induction points generalizing s l rs with
  | nil => cases h; exact ⟨[], by simp, rfl, by simp⟩
  | cons p ps ih =>
    simp only [queryAll] at h
    obtain ⟨⟨r, s1, l1⟩, h1, h2⟩ := Res.bind_eq_ok.mp h
    obtain ⟨⟨rs2, s2, l2⟩, h3, h4⟩ := Res.bind_eq_ok.mp h2
    cases h4
    obtain ⟨m, hm, he⟩ := collectResults_log (hlt p (List.mem_cons_self ..)) h1
    obtain ⟨ms, h5, h6, h7⟩ := ih (fun p hp => hlt p (List.mem_cons_of_mem _ hp)) h3
    refine ⟨m :: ms, by rw [h5, hm]; simp, by simp [h6], ?_⟩
    intro i p' m' hp hm
    cases i with
    | zero => cases hp; cases hm; exact he
    | succ i => exact h7 i p' m' hp hm

/-- How many evaluations there are at a point. -/
theorem EvaluatedAt.length {q : Query} {p : Point} {m : List Evaluation} (h : EvaluatedAt q p m) :
    ∃ n, n ≤ combinations q.variables p.vars + (if q.variables.isEmpty then 1 else 0) ∧
      m.length = combinations q.variables p.vars + n * q.soft.length := by
  obtain ⟨bs, hs, ss, rfl, h1, h2, h3, h4⟩ := h
  have hbs : bs.length = combinations q.variables p.vars := by
    have hc : (combos (q.variables.map fun fv => matchingVars fv p.vars)).Pairwise FirstFastest := by
      refine combos_ordered _ ?_
      intro v hv
      obtain ⟨fv, _, rfl⟩ := List.mem_map.mp hv
      exact matchingVars_ordered _ _
    rw [← sizeProduct_matching, ← length_combos]
    have n1 := C23_no_repetition _ h1
    have n2 := C23_no_repetition _ hc
    refine (List.Perm.length_eq ?_)
    rw [List.perm_ext_iff_of_nodup n1 n2]
    intro b
    rw [h2, mem_combos_matching]
  have e1 : hs.length = bs.length := by simpa using congrArg List.length h3
  have e2 := congrArg List.length h4
  rw [List.length_map, List.length_flatMap] at e2
  simp only [List.length_map] at e2
  rw [List.map_const', List.sum_replicate_nat, List.length_append, List.length_map] at e2
  refine ⟨_, ?_, by rw [List.length_append, e2, e1, hbs]⟩
  have := List.length_filter_le Evaluation.answer hs
  split <;> simp <;> omega

end Log

/-! The predicate cache. -/

/-- What of an entry stays for ever. -/
def CacheEntry.keyOf (e : CacheEntry) : Pred × List VarInfo × U64 := (e.pred, e.vars, e.hash)

theorem map_modify_key (es : List CacheEntry) (i : Nat) (b : Bool) :
    (es.modify i fun e => { e with answer := b }).map CacheEntry.keyOf = es.map CacheEntry.keyOf := by
  induction es generalizing i with
  | nil => cases i <;> rfl
  | cons e es ih =>
    cases i with
    | zero => rfl
    | succ i => simp only [List.modify_succ_cons, List.map_cons, ih]

theorem cacheFind_hash {ce : CacheEnv} {t k q : Nat} {p : Pred} {h : U64} {es : List CacheEntry} {i : Nat}
    (hf : cacheFind ce t k q p h es = .ok (some i)) : ∃ e ∈ es, e.hash = h := by
  induction es generalizing i with
  | nil => cases hf
  | cons e es ih =>
    simp only [cacheFind] at hf
    have rest : ∀ r, (cacheFind ce t k q p h es >>= fun r => pure (r.map (· + 1))) = Res.ok (some r) →
        ∃ e' ∈ e :: es, e'.hash = h := by
      intro r h2
      obtain ⟨r', h3, h4⟩ := Res.bind_eq_ok.mp h2
      cases r' with
      | none => cases h4
      | some j =>
        obtain ⟨e', he', hh⟩ := ih h3
        exact ⟨e', List.mem_cons_of_mem _ he', hh⟩
    split at hf
    · rename_i he; exact ⟨e, List.mem_cons_self .., he⟩
    · rw [Res.ok_bind] at hf
      exact rest i hf

/-- One evaluation: the entries stay, at most one is added, and afterwards there is one
with the hash of the key. -/
theorem cachedEval_entries {fs : FloatSys} {ce : CacheEnv} {p : Pred} {vs : List VarInfo} {s s' : CacheState}
    {b : Bool} (h : cachedEval fs ce p vs s = .ok (b, s')) :
    s'.now = s.now + 1 ∧ s'.query = s.query ∧
    (s'.entries.map CacheEntry.keyOf = s.entries.map CacheEntry.keyOf ∨
      s'.entries.map CacheEntry.keyOf = (p, vs, ce.hash s.now p vs) :: s.entries.map CacheEntry.keyOf) ∧
    ∃ e ∈ s'.entries, e.hash = ce.hash s.now p vs := by
  unfold cachedEval at h
  obtain ⟨r, h1, h2⟩ := Res.bind_eq_ok.mp h
  cases r with
  | some i =>
    dsimp only at h2
    rw [Res.ok_bind] at h2
    obtain ⟨r3, h3, h4⟩ := Res.bind_eq_ok.mp h2
    cases r3 with
    | some j =>
      cases h4
      exact ⟨rfl, rfl, .inl rfl, cacheFind_hash h1⟩
    | none =>
      cases h4
      exact ⟨rfl, rfl, .inr rfl, _, List.mem_cons_self .., rfl⟩
  | none =>
    dsimp only at h2
    obtain ⟨a, _, h5⟩ := Res.bind_eq_ok.mp h2
    obtain ⟨r2, h6, h7⟩ := Res.bind_eq_ok.mp h5
    cases r2 with
    | some i =>
      dsimp only at h7
      rw [Res.pure_eq, Res.ok_bind] at h7
      obtain ⟨r3, h8, h9⟩ := Res.bind_eq_ok.mp h7
      cases r3 with
      | some j =>
        cases h9
        exact ⟨rfl, rfl, .inl (map_modify_key ..), cacheFind_hash h8⟩
      | none =>
        cases h9
        refine ⟨rfl, rfl, .inr ?_, _, List.mem_cons_self .., rfl⟩
        simp only [List.map_cons, map_modify_key, CacheEntry.keyOf]
    | none =>
      dsimp only at h7
      rw [Res.pure_eq, Res.ok_bind] at h7
      obtain ⟨r3, h8, h9⟩ := Res.bind_eq_ok.mp h7
      have : r3 = some 0 := by
        simp only [cacheFind, compareKey, if_true, Res.ok_bind, Res.pure_eq] at h8
        cases h8; rfl
      subst this
      cases h9
      exact ⟨rfl, rfl, .inr rfl, _, List.mem_cons_self .., rfl⟩

/-! What every evaluation keeps, a query keeps. -/

section Inv
variable {σ : Type} {ev : Evaluator σ} {I : σ → Prop}

/-- Every evaluation that succeeds keeps `I`. -/
def Keeps (ev : Evaluator σ) (I : σ → Prop) : Prop :=
  ∀ p vs s b s', I s → ev p vs s = .ok (b, s') → I s'

theorem satisfies_keeps (hk : Keeps ev I) {p : Pred} {point : Point} {b : List Nat} {s s' : σ} {a : Bool}
    (hs : I s) (h : satisfies ev p point b s = .ok (a, s')) : I s' := by
  obtain ⟨vs, _, h2⟩ := Res.bind_eq_ok.mp h
  exact hk _ _ _ _ _ hs h2

theorem hardLoop_keeps (hk : Keeps ev I) {hard : Pred} {point : Point} {bs : List (List Nat)} {s s' : σ}
    {rs : List Point} (hs : I s) (h : hardLoop ev hard point bs s = .ok (rs, s')) : I s' := by
  induction bs generalizing s rs with
  | nil => cases h; exact hs
  | cons b bs ih =>
    simp only [hardLoop] at h
    obtain ⟨⟨sat, s1⟩, h1, h2⟩ := Res.bind_eq_ok.mp h
    have hs1 := satisfies_keeps hk hs h1
    cases sat with
    | false => exact ih hs1 h2
    | true =>
      simp only [if_true] at h2
      obtain ⟨vars, h3, h4⟩ := Res.bind_eq_ok.mp h2
      obtain ⟨⟨rest, s2⟩, h5, h6⟩ := Res.bind_eq_ok.mp h4
      cases h6
      exact ih hs1 h5

theorem softCount_keeps (hk : Keeps ev I) {r : Point} {b : List Nat} {ps : List Pred} {s s' : σ} {n : Nat}
    (hs : I s) (h : softCount ev r b ps s = .ok (n, s')) : I s' := by
  induction ps generalizing s n with
  | nil => cases h; exact hs
  | cons p ps ih =>
    simp only [softCount] at h
    obtain ⟨⟨sat, s1⟩, h1, h2⟩ := Res.bind_eq_ok.mp h
    obtain ⟨⟨n1, s2⟩, h3, h4⟩ := Res.bind_eq_ok.mp h2
    cases h4
    exact ih (satisfies_keeps hk hs h1) h3

theorem softCounts_keeps (hk : Keeps ev I) {soft : List Pred} {b : List Nat} {rs : List Point} {s s' : σ}
    {ns : List Nat} (hs : I s) (h : softCounts ev soft b rs s = .ok (ns, s')) : I s' := by
  induction rs generalizing s ns with
  | nil => cases h; exact hs
  | cons r rs ih =>
    simp only [softCounts] at h
    obtain ⟨⟨n, s1⟩, h1, h2⟩ := Res.bind_eq_ok.mp h
    obtain ⟨⟨n1, s2⟩, h3, h4⟩ := Res.bind_eq_ok.mp h2
    cases h4
    exact ih (softCount_keeps hk hs h1) h3

theorem collectResults_keeps (hk : Keeps ev I) {env : Env} {point : Point} {variables : List FreeVar} {hard : Pred}
    {soft : List Pred} {s s' : σ} {rs : List Point} (hs : I s)
    (h : collectResults env ev point variables hard soft s = .ok (rs, s')) : I s' := by
  unfold collectResults at h
  obtain ⟨first, _, h2⟩ := Res.bind_eq_ok.mp h
  split at h2
  · cases h2
  obtain ⟨bs, _, h4⟩ := Res.bind_eq_ok.mp h2
  obtain ⟨⟨found, s1⟩, h5, h6⟩ := Res.bind_eq_ok.mp h4
  have hs1 := hardLoop_keeps hk hs h5
  dsimp only at h6
  split at h6
  · cases h6; exact hs1
  obtain ⟨⟨counts, s2⟩, h7, h8⟩ := Res.bind_eq_ok.mp h6
  dsimp only at h8
  split at h8
  · cases h8
  · cases h8
    exact softCounts_keeps hk hs1 h7

theorem queryAll_keeps (hk : Keeps ev I) {env : Env} {variables : List FreeVar} {hard : Pred} {soft : List Pred}
    {points : List Point} {s s' : σ} {rs : List Point} (hs : I s)
    (h : queryAll env ev variables hard soft points s = .ok (rs, s')) : I s' := by
  induction points generalizing s rs with
  | nil => cases h; exact hs
  | cons p ps ih =>
    simp only [queryAll] at h
    obtain ⟨⟨n, s1⟩, h1, h2⟩ := Res.bind_eq_ok.mp h
    obtain ⟨⟨n1, s2⟩, h3, h4⟩ := Res.bind_eq_ok.mp h2
    cases h4
    exact ih (collectResults_keeps hk hs h1) h3

theorem query_keeps (hk : Keeps ev I) {env : Env} {pick : U32 → Nat → Nat} {t : Trace} {q : Query}
    {c c' : PointsCache} {s s' : σ} {rs : List Point} (hs : I s)
    (h : query env pick ev t q c s = .ok (rs, c', s')) : I s' := by
  unfold query at h
  generalize getPoints t.points c q.mask q.stmt = gp at h
  obtain ⟨points, cc⟩ := gp
  obtain ⟨⟨rs1, s1⟩, h1, h2⟩ := Res.bind_eq_ok.mp h
  cases h2
  unfold queryPoints at h1
  split at h1
  · split at h1
    · cases h1; exact hs
    · split at h1
      · cases h1
      · exact collectResults_keeps hk hs h1
  · exact queryAll_keeps hk hs h1

end Inv

/-- What is true of the cache during a watched session that began with the entries
`k0` at time `n0`. -/
def Grown (ce : CacheEnv) (k0 : List (Pred × List VarInfo × U64)) (n0 : Nat) (x : CacheState × List Evaluation) :
    Prop :=
  x.1.now = n0 + x.2.length ∧
  (∃ new, x.1.entries.map CacheEntry.keyOf = new ++ k0 ∧ new.length ≤ x.2.length) ∧
  ∀ (i : Nat) (e : Evaluation), x.2[i]? = some e →
    ce.hash (n0 + i) e.pred e.vars ∈ x.1.entries.map CacheEntry.hash

theorem hashes_of_keys (es : List CacheEntry) :
    es.map CacheEntry.hash = (es.map CacheEntry.keyOf).map fun k => k.2.2 := by
  simp [CacheEntry.keyOf]

theorem grown_keeps (fs : FloatSys) (ce : CacheEnv) (k0 : List (Pred × List VarInfo × U64)) (n0 : Nat) :
    Keeps (watched (cachedEval fs ce)) (Grown ce k0 n0) := by
  rintro p vs ⟨s, l⟩ b ⟨s', l'⟩ ⟨h1, ⟨new, h2, h2'⟩, h3⟩ h
  have hl := watched_ok h
  have hf := watched_forget (cachedEval fs ce) p vs s l
  rw [h, forget, Res.ok_bind] at hf
  obtain ⟨e1, _, e3, e, he, e4⟩ := cachedEval_entries hf.symm
  dsimp only at h1 h2 h2' h3 ⊢
  refine ⟨by rw [e1, h1, hl]; simp; omega, ?_, ?_⟩
  · rcases e3 with e3 | e3
    · exact ⟨new, by rw [e3, h2], by rw [hl]; simp; omega⟩
    · exact ⟨_ :: new, by rw [e3, h2]; rfl, by rw [hl]; simp; omega⟩
  · intro i ev hi
    rw [hl] at hi
    rcases Nat.lt_or_ge i l.length with hlt | hge
    · rw [List.getElem?_append_left hlt] at hi
      have := h3 i ev hi
      rw [hashes_of_keys] at this ⊢
      rcases e3 with e3 | e3
      · rw [e3]; exact this
      · rw [e3]; exact List.mem_cons_of_mem _ this
    · rw [List.getElem?_append_right hge] at hi
      have h0 : i = l.length := by
        have := (List.getElem?_eq_some_iff.mp hi).1
        simp at this; omega
      subst h0
      simp at hi
      subst hi
      rw [← h1]
      exact List.mem_map.mpr ⟨e, he, e4⟩

/-! The filter cache. -/

theorem lookup_isSome_mem {α β : Type} [BEq α] [LawfulBEq α] (c : List (α × β)) (k : α) :
    (c.lookup k).isSome ↔ k ∈ c.map (·.1) := by
  induction c with
  | nil => simp
  | cons x c ih =>
    rw [List.lookup_cons]
    by_cases hk : k == x.1
    · simp [eq_of_beq hk]
    · have : k ≠ x.1 := fun h => hk (by simp [h])
      simp only [hk, List.map_cons, List.mem_cons, this, false_or]
      exact ih

/-- The entries are the requests made, each once, with the points that pass. -/
theorem cacheAfter_entries (points : List Point) (requests : List (U64 × U64)) (c : PointsCache)
    (hn : (c.map (·.1)).Nodup) (hc : ∀ e ∈ c, e.2 = passing points e.1.1 e.1.2) :
    let c' := requests.foldl (fun cache r => (getPoints points cache r.1 r.2).2) c
    (c'.map (·.1)).Nodup ∧ (∀ e ∈ c', e.2 = passing points e.1.1 e.1.2) ∧
      ∀ k, k ∈ c'.map (·.1) ↔ k ∈ c.map (·.1) ∨ k ∈ requests := by
  induction requests generalizing c with
  | nil => exact ⟨hn, hc, by simp⟩
  | cons r rs ih =>
    simp only [List.foldl_cons]
    have key : ((getPoints points c r.1 r.2).2.map (·.1)).Nodup ∧
        (∀ e ∈ (getPoints points c r.1 r.2).2, e.2 = passing points e.1.1 e.1.2) ∧
        ∀ k, k ∈ (getPoints points c r.1 r.2).2.map (·.1) ↔ k ∈ c.map (·.1) ∨ k = r := by
      have hm := lookup_isSome_mem c (r.1, r.2)
      unfold getPoints
      split
      · rename_i ps hps
        rw [hps] at hm
        have hm' := hm.mp rfl
        refine ⟨hn, hc, fun k => ⟨.inl, ?_⟩⟩
        rintro (h | rfl)
        · exact h
        · exact hm'
      · rename_i hnone
        rw [hnone] at hm
        have hm' : (r.1, r.2) ∉ c.map (·.1) := fun h => by simpa using hm.mpr h
        refine ⟨?_, ?_, ?_⟩
        · simp only [List.map_cons, List.nodup_cons]
          exact ⟨hm', hn⟩
        · intro e he
          rcases List.mem_cons.mp he with rfl | he
          · exact filterPoints_eq ..
          · exact hc e he
        · intro k
          simp only [List.map_cons, List.mem_cons]
          exact ⟨fun h => h.symm, fun h => h.symm⟩
    obtain ⟨a, b, d⟩ := ih _ key.1 key.2.1
    refine ⟨a, b, fun k => ?_⟩
    rw [d, key.2.2, List.mem_cons, or_assoc]

/-! A cache that only grows. -/

theorem cacheFind_none {ce : CacheEnv} (t k q : Nat) (p : Pred) {h : U64} {es : List CacheEntry}
    (hn : ∀ e ∈ es, e.hash ≠ h) : cacheFind ce t k q p h es = .ok none := by
  induction es with
  | nil => rfl
  | cons e es ih =>
    simp only [cacheFind, if_neg (hn e (List.mem_cons_self ..)), Res.ok_bind, Bool.false_eq_true, if_false,
      ih (fun e he => hn e (List.mem_cons_of_mem _ he)), Res.pure_eq, Option.map_none]

theorem cachedEval_new {fs : FloatSys} {ce : CacheEnv} {p : Pred} {vs : List VarInfo} {s : CacheState} {b : Bool}
    (hn : ∀ e ∈ s.entries, e.hash ≠ ce.hash s.now p vs) (hb : predicateSatisfied fs vs p = .ok b) :
    cachedEval fs ce p vs s = .ok (b, ⟨⟨p, vs, ce.hash s.now p vs, s.now, s.query, b⟩ :: s.entries, s.now + 1, s.query⟩) := by
  unfold cachedEval
  simp only [cacheFind_none _ _ _ _ hn, hb, Res.ok_bind, Res.pure_eq, cacheFind, if_true, compareKey, answerAt]
  rfl

/-- One query on a trace with one variable adds one entry. -/
theorem oneVar_query {fs : FloatSys} {ce : CacheEnv} {env : Env} {pick : U32 → Nat → Nat} {p : Pred} {n : U64}
    {s : CacheState} {b : Bool} (halloc : env.canAlloc 24 = true)
    (hn : ∀ e ∈ s.entries, e.hash ≠ ce.hash s.now p [oneVar n])
    (hb : predicateSatisfied fs [oneVar n] p = .ok b) :
    query env pick (cachedEval fs ce) (oneVarTrace n) (typeZeroQuery p) [] s =
      .ok (if b then (oneVarTrace n).points else [], [((0, 0), (oneVarTrace n).points)],
        ⟨⟨p, [oneVar n], ce.hash s.now p [oneVar n], s.now, s.query, b⟩ :: s.entries, s.now + 1, s.query⟩) := by
  have hc : cartesian env (([[0]] : List FreeVar).map fun fv => matchingVars fv [oneVar n]) = .ok [[0]] := by
    have : (([[0]] : List FreeVar).map fun fv => matchingVars fv [oneVar n]) = [[0]] := rfl
    rw [this]
    exact cartesian_eq_all env [[0]] (by decide) halloc
  have hpts : getPoints (oneVarTrace n).points [] 0 0 =
      ((oneVarTrace n).points, [((0, 0), (oneVarTrace n).points)]) := by
    simp only [getPoints, List.lookup_nil, filterPoints_eq, passing_zero]
  have he := cachedEval_new (p := p) hn hb
  simp only [oneVarTrace] at hpts
  cases b
  all_goals
    simp only [query, typeZeroQuery, oneVarTrace, hpts, queryPoints, ne_eq, not_true_eq_false, if_false, queryAll]
    unfold collectResults
    simp only [firstResults, List.isEmpty_cons, Bool.false_eq_true, if_false, Res.ok_bind, hc, hardLoop,
      satisfies, lookupVars, varAt, List.getElem?_cons_zero, Res.pure_eq, he, List.isEmpty_nil, if_true]
    rfl

end TraceDB
