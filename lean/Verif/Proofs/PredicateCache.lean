import Verif.Model.PredicateCache
import Verif.Proofs.Query
/-
The predicate cache does not change answers as long as keys with different
answers have different hashes.
-/
namespace TraceDB

/-- Two computations with different states agree: same outcome, same result, and
the invariant of the first state. -/
def Sim {α σ : Type} (Inv : σ → Prop) (x : Res (α × σ)) (y : Res (α × Unit)) : Prop :=
  match x, y with
  | .ok (a, s), .ok (b, _) => a = b ∧ Inv s
  | .throw e, .throw e' => e = e'
  | .abort, .abort => True
  | .ub k, .ub k' => k = k'
  | .hang, .hang => True
  | _, _ => False

theorem Sim.bind {α β σ : Type} {Inv : σ → Prop} {x : Res (α × σ)} {y : Res (α × Unit)}
    {f : α × σ → Res (β × σ)} {g : α × Unit → Res (β × Unit)} (h : Sim Inv x y)
    (hf : ∀ a s, Inv s → Sim Inv (f (a, s)) (g (a, ()))) : Sim Inv (x >>= f) (y >>= g) := by
  cases x with
  | ok a =>
    cases y with
    | ok b =>
      obtain ⟨a, s⟩ := a
      obtain ⟨b, u⟩ := b
      obtain ⟨rfl, hs⟩ := h
      exact hf a s hs
    | _ => exact h.elim
  | throw e => cases y <;> first | exact h | exact h.elim
  | abort => cases y <;> first | exact h | exact h.elim
  | ub k => cases y <;> first | exact h | exact h.elim
  | hang => cases y <;> first | exact h | exact h.elim

theorem Sim.bind_res {α β σ : Type} {Inv : σ → Prop} (x : Res α) {f : α → Res (β × σ)}
    {g : α → Res (β × Unit)} (hf : ∀ a, x = .ok a → Sim Inv (f a) (g a)) : Sim Inv (x >>= f) (x >>= g) := by
  cases x with
  | ok a => exact hf a rfl
  | throw e => exact rfl
  | abort => exact trivial
  | ub k => exact rfl
  | hang => exact trivial

/-- An evaluator that agrees with plain evaluation on the keys in `K`. -/
def EvalSim {σ : Type} (fs : FloatSys) (Inv : σ → Prop) (K : Pred → List VarInfo → Prop)
    (ev : Evaluator σ) : Prop :=
  ∀ p vs s, K p vs → Inv s → Sim Inv (ev p vs s) (plainEval fs p vs ())

theorem satisfies_sim {σ : Type} {fs : FloatSys} {Inv : σ → Prop} {K : Pred → List VarInfo → Prop}
    {ev : Evaluator σ} (hev : EvalSim fs Inv K ev) {p : Pred} {point : Point} {b : List Nat} {s : σ}
    (hs : Inv s) (hK : ∀ vs, lookupVars point.vars b = .ok vs → K p vs) :
    Sim Inv (satisfies ev p point b s) (satisfies (plainEval fs) p point b ()) := by
  unfold satisfies
  exact Sim.bind_res _ (fun vs h => hev p vs s (hK vs h) hs)

theorem hardLoop_sim {σ : Type} {fs : FloatSys} {Inv : σ → Prop} {K : Pred → List VarInfo → Prop}
    {ev : Evaluator σ} (hev : EvalSim fs Inv K ev) {hard : Pred} {point : Point} {bs : List (List Nat)} {s : σ}
    (hs : Inv s) (hK : ∀ b ∈ bs, ∀ vs, lookupVars point.vars b = .ok vs → K hard vs) :
    Sim Inv (hardLoop ev hard point bs s) (hardLoop (plainEval fs) hard point bs ()) := by
  induction bs generalizing s with
  | nil => exact ⟨rfl, hs⟩
  | cons b bs ih =>
    simp only [hardLoop]
    refine Sim.bind (satisfies_sim hev hs (hK b (List.mem_cons_self ..))) ?_
    intro a s hs
    have ih := fun s hs => ih (s := s) hs (fun c hc => hK c (List.mem_cons_of_mem _ hc))
    cases a with
    | true =>
      simp only [if_true]
      refine Sim.bind_res _ (fun vars _ => ?_)
      refine Sim.bind (ih s hs) ?_
      intro r s hs
      exact ⟨rfl, hs⟩
    | false => exact ih s hs

theorem softCount_sim {σ : Type} {fs : FloatSys} {Inv : σ → Prop} {K : Pred → List VarInfo → Prop}
    {ev : Evaluator σ} (hev : EvalSim fs Inv K ev) {r : Point} {b : List Nat} {soft : List Pred} {s : σ}
    (hs : Inv s) (hK : ∀ p ∈ soft, ∀ vs, lookupVars r.vars b = .ok vs → K p vs) :
    Sim Inv (softCount ev r b soft s) (softCount (plainEval fs) r b soft ()) := by
  induction soft generalizing s with
  | nil => exact ⟨rfl, hs⟩
  | cons p soft ih =>
    simp only [softCount]
    refine Sim.bind (satisfies_sim hev hs (hK p (List.mem_cons_self ..))) ?_
    intro a s hs
    refine Sim.bind (ih hs (fun c hc => hK c (List.mem_cons_of_mem _ hc))) ?_
    intro n s hs
    exact ⟨rfl, hs⟩

theorem softCounts_sim {σ : Type} {fs : FloatSys} {Inv : σ → Prop} {K : Pred → List VarInfo → Prop}
    {ev : Evaluator σ} (hev : EvalSim fs Inv K ev) {soft : List Pred} {b : List Nat} {rs : List Point} {s : σ}
    (hs : Inv s) (hK : ∀ r ∈ rs, ∀ p ∈ soft, ∀ vs, lookupVars r.vars b = .ok vs → K p vs) :
    Sim Inv (softCounts ev soft b rs s) (softCounts (plainEval fs) soft b rs ()) := by
  induction rs generalizing s with
  | nil => exact ⟨rfl, hs⟩
  | cons r rs ih =>
    simp only [softCounts]
    refine Sim.bind (softCount_sim hev hs (hK r (List.mem_cons_self ..))) ?_
    intro a s hs
    refine Sim.bind (ih hs (fun c hc => hK c (List.mem_cons_of_mem _ hc))) ?_
    intro n s hs
    exact ⟨rfl, hs⟩

theorem mem_of_mem_take {α : Type} {l : List α} {n : Nat} {x : α} (h : x ∈ l.take n) : x ∈ l :=
  List.mem_of_mem_take h

/-- Whatever `cartesian` returns are bindings. -/
theorem cartesian_bindings {env : Env} {variables : List FreeVar} {vars : List VarInfo} {bs : List (List Nat)}
    (h : cartesian env (variables.map fun fv => matchingVars fv vars) = .ok bs) :
    ∀ b ∈ bs, IsBinding variables vars b := by
  unfold cartesian at h
  simp only [cartesianCount_eq] at h
  split at h
  · rw [cartesianLoop_range _ _ (Nat.mod_le _ _)] at h
    cases h
    intro b hb
    exact (mem_combos_matching _ _ _).mp (List.mem_of_mem_take hb)
  · cases h

/-- The results of the loop over bindings. -/
theorem hardLoop_vars {σ : Type} {ev : Evaluator σ} {hard : Pred} {point : Point} {bs : List (List Nat)} {s s' : σ}
    {rs : List Point} (h : hardLoop ev hard point bs s = .ok (rs, s')) :
    ∀ r ∈ rs, ∃ b ∈ bs, lookupVars point.vars b = .ok r.vars := by
  induction bs generalizing s s' rs with
  | nil => simp only [hardLoop] at h; cases h; simp
  | cons b bs ih =>
    simp only [hardLoop] at h
    obtain ⟨⟨sat, s1⟩, h1, h2⟩ := Res.bind_eq_ok.mp h
    cases sat with
    | false =>
      intro r hr
      obtain ⟨c, hc, hv⟩ := ih h2 r hr
      exact ⟨c, List.mem_cons_of_mem _ hc, hv⟩
    | true =>
      simp only [if_true] at h2
      obtain ⟨vars, h3, h4⟩ := Res.bind_eq_ok.mp h2
      obtain ⟨⟨rest, s2⟩, h5, h6⟩ := Res.bind_eq_ok.mp h4
      cases h6
      intro r hr
      rcases List.mem_cons.mp hr with rfl | hr
      · exact ⟨b, List.mem_cons_self .., h3⟩
      · obtain ⟨c, hc, hv⟩ := ih h5 r hr
        exact ⟨c, List.mem_cons_of_mem _ hc, hv⟩

/-- The keys evaluated at a point. -/
def PointKeys (variables : List FreeVar) (preds : List Pred) (point : Point) (p : Pred)
    (vs : List VarInfo) : Prop :=
  p ∈ preds ∧ ∃ b, IsBinding variables point.vars b ∧ vs = boundVars point.vars b

theorem collectResults_sim {σ : Type} {fs : FloatSys} {Inv : σ → Prop} {K : Pred → List VarInfo → Prop}
    {ev : Evaluator σ} (hev : EvalSim fs Inv K ev) {env : Env} {point : Point} {variables : List FreeVar}
    {hard : Pred} {soft : List Pred} {s : σ} (hs : Inv s)
    (hK : ∀ p vs, PointKeys variables (hard :: soft) point p vs → K p vs) :
    Sim Inv (collectResults env ev point variables hard soft s)
      (collectResults env (plainEval fs) point variables hard soft ()) := by
  unfold collectResults
  refine Sim.bind_res _ (fun first hfirst => ?_)
  split
  · exact trivial
  refine Sim.bind_res _ (fun bs hbs => ?_)
  have hbind := cartesian_bindings hbs
  have hlk : ∀ b ∈ bs, ∀ vs, lookupVars point.vars b = .ok vs → vs = boundVars point.vars b := by
    intro b hb vs hvs
    rw [(lookupVars_eq _ _ (binding_inrange (hbind b hb))).1] at hvs
    cases hvs; rfl
  have h1 := hardLoop_sim hev (hard := hard) (point := point) (bs := bs) hs (fun b hb vs hvs =>
    hK hard vs ⟨List.mem_cons_self .., b, hbind b hb, hlk b hb vs hvs⟩)
  -- the results of the loop are needed below
  cases hx : hardLoop ev hard point bs s with
  | ok a =>
    obtain ⟨found, s1⟩ := a
    rw [hx] at h1
    cases hy : hardLoop (plainEval fs) hard point bs () with
    | ok b =>
      obtain ⟨found', u⟩ := b
      rw [hy] at h1
      obtain ⟨rfl, hs1⟩ := h1
      simp only [Res.ok_bind]
      split
      · exact ⟨rfl, hs1⟩
      · refine Sim.bind (softCounts_sim hev hs1 ?_) ?_
        · intro r hr p hp vs hvs
          rcases List.mem_append.mp hr with hr | hr
          · -- the result without bindings
            unfold firstResults at hfirst
            by_cases hemp : variables.isEmpty = true
            · simp only [hemp, if_true] at hfirst
              have hv : variables = [] := by simpa using hemp
              split at hfirst
              · cases hfirst
                rw [List.mem_singleton] at hr
                subst hr
                subst hv
                simp only [List.length_nil, List.range_zero, lookupVars] at hvs
                cases hvs
                exact hK p [] ⟨List.mem_cons_of_mem _ hp, [], ⟨rfl, by simp⟩, rfl⟩
              · cases hfirst
            · simp only [hemp] at hfirst
              cases hfirst
              simp at hr
          · obtain ⟨b, hb, hv⟩ := hardLoop_vars hx r hr
            have hrv := hlk b hb _ hv
            have hlen : r.vars.length = variables.length := by
              rw [hrv, (lookupVars_eq _ _ (binding_inrange (hbind b hb))).2, (hbind b hb).1]
            rw [← hlen, (lookupVars_eq _ _ (by intro k hk; rw [List.mem_range] at hk; exact hk)).1,
              boundVars_range] at hvs
            cases hvs
            exact hK p _ ⟨List.mem_cons_of_mem _ hp, b, hbind b hb, hrv⟩
        · intro counts s2 hs2
          split
          · exact trivial
          · exact ⟨rfl, hs2⟩
    | _ => rw [hy] at h1; exact h1.elim
  | throw e =>
    rw [hx] at h1
    cases hy : hardLoop (plainEval fs) hard point bs () <;> rw [hy] at h1 <;>
      first | exact h1 | exact h1.elim
  | abort =>
    rw [hx] at h1
    cases hy : hardLoop (plainEval fs) hard point bs () <;> rw [hy] at h1 <;>
      first | exact h1 | exact h1.elim
  | ub k =>
    rw [hx] at h1
    cases hy : hardLoop (plainEval fs) hard point bs () <;> rw [hy] at h1 <;>
      first | exact h1 | exact h1.elim
  | hang =>
    rw [hx] at h1
    cases hy : hardLoop (plainEval fs) hard point bs () <;> rw [hy] at h1 <;>
      first | exact h1 | exact h1.elim

theorem queryAll_sim {σ : Type} {fs : FloatSys} {Inv : σ → Prop} {K : Pred → List VarInfo → Prop}
    {ev : Evaluator σ} (hev : EvalSim fs Inv K ev) {env : Env} {points : List Point} {variables : List FreeVar}
    {hard : Pred} {soft : List Pred} {s : σ} (hs : Inv s)
    (hK : ∀ point ∈ points, ∀ p vs, PointKeys variables (hard :: soft) point p vs → K p vs) :
    Sim Inv (queryAll env ev variables hard soft points s)
      (queryAll env (plainEval fs) variables hard soft points ()) := by
  induction points generalizing s with
  | nil => exact ⟨rfl, hs⟩
  | cons q qs ih =>
    simp only [queryAll]
    refine Sim.bind (collectResults_sim hev hs (hK q (List.mem_cons_self ..))) ?_
    intro a s hs
    refine Sim.bind (ih hs (fun c hc => hK c (List.mem_cons_of_mem _ hc))) ?_
    intro n s hs
    exact ⟨rfl, hs⟩

theorem queryPoints_sim {σ : Type} {fs : FloatSys} {Inv : σ → Prop} {K : Pred → List VarInfo → Prop}
    {ev : Evaluator σ} (hev : EvalSim fs Inv K ev) {env : Env} {pick : U32 → Nat → Nat} {points : List Point}
    {variables : List FreeVar} {hard : Pred} {soft : List Pred} {seed : U32} {s : σ} (hs : Inv s)
    (hK : ∀ point ∈ points, ∀ p vs, PointKeys variables (hard :: soft) point p vs → K p vs) :
    Sim Inv (queryPoints env pick ev points variables hard soft seed s)
      (queryPoints env pick (plainEval fs) points variables hard soft seed ()) := by
  unfold queryPoints
  split
  · split
    · exact ⟨rfl, hs⟩
    · split
      · exact rfl
      · rename_i p hp
        exact collectResults_sim hev hs (hK p (List.mem_of_getElem? hp))
  · exact queryAll_sim hev hs hK

/-- Keys evaluated by a query on a trace. -/
def QueryKeys (t : Trace) (q : Query) (p : Pred) (vs : List VarInfo) : Prop :=
  ∃ point ∈ t.points, PointKeys q.variables (q.hard :: q.soft) point p vs

/-! The cache itself. -/

/-- No two keys in `K` with different outcomes have the same hash (at any
times). -/
def NoCollision (fs : FloatSys) (ce : CacheEnv) (K : Pred → List VarInfo → Prop) : Prop :=
  ∀ t t' p vs p' vs', K p vs → K p' vs' → ce.hash t p vs = ce.hash t' p' vs' →
    predicateSatisfied fs vs p = predicateSatisfied fs vs' p'

/-- Comparisons with dead keys yield some result, and the same result in each
lookup of one evaluation. -/
def DeadConsistent (ce : CacheEnv) : Prop :=
  ∃ f : Nat → CacheEntry → Bool, ce.dead = some (fun t _ e => f t e)

/-- Every entry holds the outcome of its key. -/
def CacheOk (fs : FloatSys) (ce : CacheEnv) (K : Pred → List VarInfo → Prop) (s : CacheState) : Prop :=
  ∀ e ∈ s.entries, K e.pred e.vars ∧ e.hash = ce.hash e.born e.pred e.vars ∧ e.born < s.now ∧
    predicateSatisfied fs e.vars e.pred = .ok e.answer

theorem compareKey_same {ce : CacheEnv} (hd : DeadConsistent ce) (t k k' q : Nat) (p : Pred) (e : CacheEntry) :
    compareKey ce t k q p e = compareKey ce t k' q p e ∧ ∃ b, compareKey ce t k q p e = .ok b := by
  obtain ⟨f, hf⟩ := hd
  simp only [compareKey, hf]
  refine ⟨trivial, ?_⟩
  split
  · exact ⟨_, rfl⟩
  · split
    · exact ⟨_, rfl⟩
    · exact ⟨_, rfl⟩

theorem cacheFind_same {ce : CacheEnv} (hd : DeadConsistent ce) (t k k' q : Nat) (p : Pred) (h : U64)
    (es : List CacheEntry) :
    cacheFind ce t k q p h es = cacheFind ce t k' q p h es ∧
      ∃ r, cacheFind ce t k q p h es = .ok r ∧
        ∀ i, r = some i → ∃ e, es[i]? = some e ∧ e.hash = h := by
  induction es with
  | nil => exact ⟨rfl, none, rfl, by simp⟩
  | cons e es ih =>
    obtain ⟨ih1, r, ih2, ih3⟩ := ih
    obtain ⟨h1, b, h2⟩ := compareKey_same hd t k k' q p e
    simp only [cacheFind, ← h1, ← ih1, ih2]
    refine ⟨trivial, ?_⟩
    by_cases hh : e.hash = h
    · simp only [hh, if_true, h2, Res.ok_bind]
      cases b with
      | true => exact ⟨some 0, rfl, by intro i hi; cases hi; exact ⟨e, rfl, hh⟩⟩
      | false =>
        refine ⟨r.map (· + 1), rfl, ?_⟩
        intro i hi
        obtain ⟨j, rfl, rfl⟩ := Option.map_eq_some_iff.mp hi
        simpa using ih3 j rfl
    · simp only [hh, if_false, Res.ok_bind, Bool.false_eq_true]
      refine ⟨r.map (· + 1), rfl, ?_⟩
      intro i hi
      obtain ⟨j, rfl, rfl⟩ := Option.map_eq_some_iff.mp hi
      simpa using ih3 j rfl

/-- The cached evaluator agrees with plain evaluation. -/
theorem cachedEval_sim {fs : FloatSys} {ce : CacheEnv} {K : Pred → List VarInfo → Prop}
    (hd : DeadConsistent ce) (hnc : NoCollision fs ce K) :
    EvalSim fs (CacheOk fs ce K) K (cachedEval fs ce) := by
  intro p vs s hK hs
  obtain ⟨_, r, h1, h2⟩ := cacheFind_same hd s.now 0 0 s.query p (ce.hash s.now p vs) s.entries
  have h3 := (cacheFind_same hd s.now 0 1 s.query p (ce.hash s.now p vs) s.entries).1
  have h4 := (cacheFind_same hd s.now 0 2 s.query p (ce.hash s.now p vs) s.entries).1
  unfold cachedEval plainEval
  simp only [h1, Res.ok_bind]
  cases r with
  | some i =>
    obtain ⟨e, h5, h6⟩ := h2 i rfl
    obtain ⟨k1, k2, k3, k4⟩ := hs e (List.mem_of_getElem? h5)
    have hans : predicateSatisfied fs vs p = .ok e.answer := by
      rw [← k4]
      exact hnc _ _ _ _ _ _ hK k1 (by rw [← h6, k2])
    simp only [Res.ok_bind, ← h4, h1, hans, Res.pure_eq, answerAt, h5]
    refine ⟨rfl, ?_⟩
    intro e' he'
    obtain ⟨j1, j2, j3, j4⟩ := hs e' he'
    exact ⟨j1, j2, Nat.lt_succ_of_lt j3, j4⟩
  | none =>
    simp only [Res.bind_assoc]
    refine Sim.bind_res _ (fun b hb => ?_)
    simp only [← h3, h1, Res.ok_bind, Res.pure_eq, cacheFind, if_true, compareKey, answerAt,
      List.getElem?_cons_zero]
    refine ⟨rfl, ?_⟩
    intro e' he'
    rcases List.mem_cons.mp he' with rfl | he'
    · exact ⟨hK, rfl, Nat.lt_succ_self _, hb⟩
    · obtain ⟨j1, j2, j3, j4⟩ := hs e' he'
      exact ⟨j1, j2, Nat.lt_succ_of_lt j3, j4⟩

end TraceDB
