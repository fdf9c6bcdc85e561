import Verif.Proofs.ConcurrentQuery
/-
Threads that need different lists of points, or lists that are cached.
-/
namespace TraceDB

theorem filterPoints_passing (points : List Point) (mask stmt : U64) :
    filterPoints points mask stmt = passing points mask stmt := by
  unfold filterPoints passing
  congr 1

/-- The list a thread needs. -/
def QueryJob.own (j : QueryJob) (s : QShared) : Option (List Point) := s.get j.trace (j.query.mask, j.query.stmt)

theorem QueryJob.own_blind (j : QueryJob) : Blind j.own := fun _ _ _ _ => rfl

section Points
variable {fs : FloatSys} {others : (QShared → Option (List Point)) → Prop} {j : QueryJob}

theorem copyPointsP_safe {s : QShared} {ps : List Point} (hs : AnswersRight fs s) (ho : j.own s = some ps) :
    (copyPointsP j.trace j.query.mask j.query.stmt).Safe (Rely fs j.own) (Guar fs others)
      (Ends (Steady fs j.own (some ps)) (.ok ps)) s := by
  intro s' hr
  have h : s'.get j.trace (j.query.mask, j.query.stmt) = some ps := by
    rw [← ho, ← hr.same]; rfl
  simp only [h, Option.getD_some]
  exact ⟨Guar.refl .., fun _ _ => ⟨hr.right hs, h⟩, rfl⟩

theorem set_guar {s : QShared} {ps : List Point}
    (hothers : ∀ o, others o → ∀ s ps, o (s.set j.trace (j.query.mask, j.query.stmt) ps) = o s) :
    Guar fs others s (s.set j.trace (j.query.mask, j.query.stmt) ps) :=
  ⟨id, fun _ _ h => h, fun o h => hothers o h s ps⟩

theorem fillP_safe {s : QShared} {acc : List Point} (ps : List Point)
    (hothers : ∀ o, others o → ∀ s ps, o (s.set j.trace (j.query.mask, j.query.stmt) ps) = o s)
    (hs : AnswersRight fs s) (ho : j.own s = some acc) :
    (fillP j.trace j.query.mask j.query.stmt ps).Safe (Rely fs j.own) (Guar fs others)
      (Ends (Steady fs j.own (some (acc ++ filterPoints ps j.query.mask j.query.stmt))) (.ok ())) s := by
  induction ps generalizing s acc with
  | nil => exact ⟨fun _ _ => ⟨hs, by rw [ho]; simp [filterPoints]⟩, rfl⟩
  | cons p ps ih =>
    unfold fillP
    cases hp : (p.statement &&& j.query.mask == j.query.stmt) with
    | false =>
      have : filterPoints (p :: ps) j.query.mask j.query.stmt = filterPoints ps j.query.mask j.query.stmt := by
        simp [filterPoints, hp]
      simp only [Bool.false_eq_true, if_false, this]
      exact ih hs ho
    | true =>
      have : filterPoints (p :: ps) j.query.mask j.query.stmt = p :: filterPoints ps j.query.mask j.query.stmt := by
        simp [filterPoints, hp]
      simp only [if_true, this]
      intro s' hr
      have hg : s'.get j.trace (j.query.mask, j.query.stmt) = some acc := by rw [← ho, ← hr.same]; rfl
      refine ⟨set_guar hothers, ?_⟩
      simp only [hg, Option.getD_some]
      have := ih (s := s'.set j.trace (j.query.mask, j.query.stmt) (acc ++ [p])) (acc := acc ++ [p])
        (hr.right hs) (by simp [QueryJob.own])
      rw [List.append_assoc] at this
      exact this

theorem getPointsP_safe {s : QShared} {points : List Point} (hs : AnswersRight fs s)
    (ho : j.own s = some (filterPoints points j.query.mask j.query.stmt) ∨ j.own s = none ∧
      ∀ o, others o → ∀ s ps, o (s.set j.trace (j.query.mask, j.query.stmt) ps) = o s) :
    (getPointsP j.trace points j.query.mask j.query.stmt).Safe (Rely fs j.own) (Guar fs others)
      (Ends (Steady fs j.own (some (filterPoints points j.query.mask j.query.stmt)))
        (.ok (filterPoints points j.query.mask j.query.stmt))) s := by
  intro s' hr
  refine ⟨Guar.refl .., ?_⟩
  have hs' := hr.right hs
  simp only [id]
  rcases ho with ho | ⟨ho, hothers⟩
  · have hg : s'.get j.trace (j.query.mask, j.query.stmt) = some (filterPoints points j.query.mask j.query.stmt) := by
      rw [← ho, ← hr.same]; rfl
    rw [hg]
    exact copyPointsP_safe hs' hg
  · have hg : s'.get j.trace (j.query.mask, j.query.stmt) = none := by rw [← ho, ← hr.same]; rfl
    rw [hg]
    intro s2 hr2
    refine ⟨set_guar hothers, ?_⟩
    have h1 := fillP_safe (fs := fs) (others := others) (j := j) (acc := [])
      (s := s2.set j.trace (j.query.mask, j.query.stmt) []) points hothers (hr2.right hs') (by simp [QueryJob.own])
    refine h1.bind ?_
    rintro s3 r ⟨hs3, rfl⟩
    exact copyPointsP_safe (hs3 _ rfl).1 (hs3 _ rfl).2

end Points

theorem aloneAnswer_eq (fs : FloatSys) (env : Env) (pick : U32 → Nat → Nat) (traces : Nat → Trace) (j : QueryJob) :
    aloneAnswer fs env pick traces j =
      ((queryPoints env pick (plainEval fs) (filterPoints (traces j.trace).points j.query.mask j.query.stmt)
        j.query.variables j.query.hard j.query.soft j.query.seed ()).fst >>= fun rs =>
        .ok (if j.keepDuplicates then rs else deduplicate rs)) := by
  unfold aloneAnswer queryTrace query getPoints
  simp only [List.lookup_nil]
  cases queryPoints env pick (plainEval fs) (filterPoints (traces j.trace).points j.query.mask j.query.stmt)
        j.query.variables j.query.hard j.query.soft j.query.seed () <;> rfl

theorem queryP_safe {fs : FloatSys} {others : (QShared → Option (List Point)) → Prop} {j : QueryJob} (env : Env)
    (pick : U32 → Nat → Nat) (traces : Nat → Trace) {s : QShared} (hblind : ∀ o, others o → Blind o)
    (hs : AnswersRight fs s)
    (ho : j.own s = some (filterPoints (traces j.trace).points j.query.mask j.query.stmt) ∨ j.own s = none ∧
      ∀ o, others o → ∀ s ps, o (s.set j.trace (j.query.mask, j.query.stmt) ps) = o s) :
    (queryP false fs env pick traces j).Safe (Rely fs j.own) (Guar fs others)
      (fun _ r => r = aloneAnswer fs env pick traces j) s := by
  unfold queryP
  refine (getPointsP_safe hs ho).bind ?_
  rintro s' r ⟨hs', rfl⟩
  simp only [QProc.ok_bind]
  have h := (queryPointsP_gives (cachedP_gives (fs := fs) (others := others) j.own_blind hblind
    (some (filterPoints (traces j.trace).points j.query.mask j.query.stmt))) env pick j.query
    (filterPoints (traces j.trace).points j.query.mask j.query.stmt)).bind
    (f := fun rs => QProc.done (.ok (if j.keepDuplicates then rs else deduplicate rs)))
    (g := fun rs => Res.ok (if j.keepDuplicates then rs else deduplicate rs)) (fun rs _ => Gives.done _)
  refine (h s' (hs' _ rfl)).mono ?_
  rintro _ r ⟨_, rfl⟩
  rw [aloneAnswer_eq]

/-- The lists the other threads need. -/
def othersOf (jobs : List QueryJob) (i : Nat) (o : QShared → Option (List Point)) : Prop :=
  ∃ (k : Nat) (b : QueryJob), k ≠ i ∧ jobs[k]? = some b ∧ o = b.own

/-- The job of thread `i`, if there is one. -/
def ownOf (jobs : List QueryJob) (i : Nat) (s : QShared) : Option (List Point) := (jobs[i]?).bind fun j => j.own s

theorem init_safe (fs : FloatSys) (env : Env) (pick : U32 → Nat → Nat) (traces : Nat → Trace) (s : QShared)
    (jobs : List QueryJob) (hs : s.Right fs traces) (hap : Apart s jobs) :
    (QSys.init false fs env pick traces s jobs).Safe (fun i => Rely fs (ownOf jobs i))
      (fun i => Guar fs (othersOf jobs i))
      (fun i r => ∀ j, jobs[i]? = some j → r = aloneAnswer fs env pick traces j) := by
  refine ⟨fun i p hp => ?_⟩
  simp only [QSys.init, List.getElem?_map, Option.map_eq_some_iff] at hp
  obtain ⟨j, hj, rfl⟩ := hp
  have hown : ownOf jobs i = j.own := by funext s; simp [ownOf, hj]
  rw [hown]
  refine (queryP_safe (fs := fs) (others := othersOf jobs i) env pick traces ?_ hs.answers ?_).mono ?_
  · rintro o ⟨k, b, _, _, rfl⟩
    exact b.own_blind
  · cases ho : j.own s with
    | some ps =>
      left
      rw [filterPoints_passing, hs.lists _ _ _ ho]
    | none =>
      refine Or.inr ⟨rfl, ?_⟩
      rintro o ⟨k, b, hk, hb, rfl⟩ s' ps
      unfold QueryJob.own
      rw [QShared.get_set, if_neg]
      rintro ⟨h1, h2⟩
      simp only [Prod.mk.injEq] at h2
      have := hap i k j b (Ne.symm hk) hj hb h1.symm h2.1.symm h2.2.symm
      unfold QueryJob.own at ho
      rw [ho] at this
      cases this
  · rintro _ r rfl j' hj'
    rw [hj] at hj'
    cases hj'
    rfl

theorem rely_refl (fs : FloatSys) (own : QShared → Option (List Point)) (s : QShared) : Rely fs own s s :=
  ⟨id, fun _ _ h => h, rfl⟩

theorem rely_trans (fs : FloatSys) (own : QShared → Option (List Point)) (a b c : QShared) (h : Rely fs own a b)
    (h' : Rely fs own b c) : Rely fs own a c :=
  ⟨fun x => h'.right (h.right x), fun p vs x => h'.grow p vs (h.grow p vs x), h'.same.trans h.same⟩

theorem guar_rely (fs : FloatSys) (jobs : List QueryJob) (i k : Nat) (a b : QShared) (hne : i ≠ k)
    (h : Guar fs (othersOf jobs i) a b) : Rely fs (ownOf jobs k) a b := by
  refine ⟨h.right, h.grow, ?_⟩
  cases hk : jobs[k]? with
  | none => simp [ownOf, hk]
  | some j =>
    have := h.same j.own ⟨k, j, Ne.symm hne, hk, rfl⟩
    simpa [ownOf, hk] using this

theorem apart_outcome (fs : FloatSys) (env : Env) (pick : U32 → Nat → Nat) (traces : Nat → Trace) (s : QShared)
    (jobs : List QueryJob) (hs : s.Right fs traces) (hap : Apart s jobs) (schedule : List Nat) (i : Nat)
    (j : QueryJob) (r : Res (List Point)) (hj : jobs[i]? = some j)
    (hr : ((QSys.init false fs env pick traces s jobs).run schedule).outcome i = some r) :
    r = aloneAnswer fs env pick traces j := by
  have h := (init_safe fs env pick traces s jobs hs hap).run (fun i => rely_refl fs (ownOf jobs i))
    (fun i => rely_trans fs (ownOf jobs i)) (fun i k a b => guar_rely fs jobs i k a b) schedule
  exact h.outcome hr j hj

/-! Every query can be finished -/

/-- `n` steps of a thread alone. -/
def QProc.steps {α : Type} : Nat → QShared → QProc α → QShared × QProc α
  | 0, s, p => (s, p)
  | _ + 1, s, .done r => (s, .done r)
  | n + 1, s, .act c k => QProc.steps n (c s) (k s)

theorem QProc.finishes {α : Type} (p : QProc α) (s : QShared) : ∃ n s' r, p.steps n s = (s', .done r) := by
  induction p generalizing s with
  | done r => exact ⟨0, s, r, rfl⟩
  | act c k ih =>
    obtain ⟨n, s', r, h⟩ := ih s (c s)
    exact ⟨n + 1, s', r, h⟩

theorem run_replicate (st : QSys) (i n : Nat) (p : QProc (List Point)) (hp : st.threads[i]? = some p) :
    st.run (List.replicate n i) =
      { shared := (p.steps n st.shared).1, threads := st.threads.set i (p.steps n st.shared).2 } := by
  induction n generalizing st p with
  | zero =>
    simp only [QProc.steps, List.replicate_zero, QSys.run, List.foldl_nil]
    have : st.threads.set i p = st.threads := by
      obtain ⟨h, rfl⟩ := List.getElem?_eq_some_iff.mp hp
      exact List.set_getElem_self h
    rw [this]
  | succ n ih =>
    rw [List.replicate_succ]
    show (st.step i).run (List.replicate n i) = _
    cases p with
    | done r =>
      have : st.step i = st := by simp [QSys.step, hp]
      rw [this, ih st _ hp]
      cases n <;> rfl
    | act c k =>
      have hst : st.step i = { shared := c st.shared, threads := st.threads.set i (k st.shared) } := by
        simp [QSys.step, hp]
      rw [hst, ih _ (k st.shared)]
      · simp [QProc.steps]
      · show (st.threads.set i (k st.shared))[i]? = _
        rw [set_lookup hp]; simp

theorem can_finish (st : QSys) (i : Nat) (h : i < st.threads.length) :
    ∃ n r, (st.run (List.replicate n i)).outcome i = some r := by
  obtain ⟨p, hp⟩ : ∃ p, st.threads[i]? = some p := ⟨_, List.getElem?_eq_getElem h⟩
  obtain ⟨n, s', r, hn⟩ := p.finishes st.shared
  refine ⟨n, r, ?_⟩
  rw [run_replicate st i n p hp, hn]
  unfold QSys.outcome
  simp only
  rw [set_lookup hp]
  simp

end TraceDB
