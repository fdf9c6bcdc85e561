import Verif.Proofs.DataRaceAsks
import Verif.Proofs.ConcurrentQueryRace
/-
Which accesses a query makes when it runs alone, and the races of queries.
-/
namespace TraceDB

/-- The accesses of a query that runs alone. -/
theorem queryR_trail (early : Bool) (fs : FloatSys) (env : Env) (pick : U32 → Nat → Nat) (traces : Nat → Trace)
    (j : QueryJob) {s : QShared} {rs : List Point} (hs : s.Right fs traces)
    (hok : aloneAnswer fs env pick traces j = .ok rs)
    (hlt : ∀ p ∈ j.chosen pick traces, combinations j.query.variables p.vars < 2 ^ 64) (m : MapRef) :
    ((m, true) ∈ (queryR early fs env pick traces j).trail s ↔
      (m = .points j.trace ∧ j.Unfiltered s) ∨ (m = .answers ∧ j.AsksNew fs pick traces s)) ∧
    ((∃ w, (m, w) ∈ (queryR early fs env pick traces j).trail s) ↔
      m = .points j.trace ∨ (m = .answers ∧ j.AsksSome fs pick traces)) := by
  obtain ⟨s1, h1, h2, _, _, _, ⟨w, hw⟩, h4, h5⟩ := getPointsR_alone j.trace (traces j.trace).points j.query.mask
    j.query.stmt s (fun ps h => hs.lists _ _ ps h)
  rw [aloneAnswer_eq, filterPoints_passing] at hok
  obtain ⟨rs', h6, _⟩ := Res.bind_eq_ok.mp hok
  obtain ⟨A, hA, h7⟩ := queryPointsR_asking (early := early) hlt h6
  have h8 := h7.map fun rs => if j.keepDuplicates then rs else deduplicate rs
  obtain ⟨s2, h9, h10⟩ := h8 s1 (by
    intro p vs b h
    rw [h2] at h
    exact hs.answers p vs b h)
  have ht : (queryR early fs env pick traces j).trail s =
      (getPointsR j.trace (traces j.trace).points j.query.mask j.query.stmt).trail s ++
      (queryPointsR early fs env pick j.query (passing (traces j.trace).points j.query.mask j.query.stmt) >>= fun rs =>
        RProc.done (.ok (if j.keepDuplicates then rs else deduplicate rs))).trail s1 := by
    unfold queryR
    exact (RProc.bind_alone h1).2
  rw [ht]
  generalize (queryPointsR early fs env pick j.query (passing (traces j.trace).points j.query.mask j.query.stmt) >>=
    fun rs => RProc.done (.ok (if j.keepDuplicates then rs else deduplicate rs))).trail s1 = T at h10
  generalize (getPointsR j.trace (traces j.trace).points j.query.mask j.query.stmt).trail s = U at hw h4 h5
  have hnew : (MapRef.answers, true) ∈ T ↔ j.AsksNew fs pick traces s := by
    rw [h10.writes, h2]
    constructor
    · rintro ⟨x, hx, hn⟩
      exact ⟨x.1, x.2, (hA _ _).mp hx, hn⟩
    · rintro ⟨p, vs, ha, hn⟩
      exact ⟨(p, vs), (hA _ _).mpr ha, hn⟩
  have hsome : (∃ w, (MapRef.answers, w) ∈ T) ↔ j.AsksSome fs pick traces := by
    constructor
    · rintro ⟨w, hw⟩
      have hne : A ≠ [] := fun h => by
        rw [h10.any.mpr h] at hw
        cases hw
      obtain ⟨x, hx⟩ := List.exists_mem_of_ne_nil A hne
      exact ⟨x.1, x.2, (hA _ _).mp hx⟩
    · rintro ⟨p, vs, ha⟩
      have hne : T ≠ [] := fun h => by
        have := (hA _ _).mpr ha
        rw [h10.any.mp h] at this
        cases this
      obtain ⟨x, hx⟩ := List.exists_mem_of_ne_nil T hne
      have := h10.maps x hx
      exact ⟨x.2, by rw [← this]; exact hx⟩
  constructor
  · rw [List.mem_append]
    constructor
    · rintro (h | h)
      · have := h4 _ h
        simp only at this
        subst this
        exact .inl ⟨rfl, h5.mp h⟩
      · have := h10.maps _ h
        simp only at this
        subst this
        exact .inr ⟨rfl, hnew.mp h⟩
    · rintro (⟨rfl, h⟩ | ⟨rfl, h⟩)
      · exact .inl (h5.mpr h)
      · exact .inr (hnew.mpr h)
  · constructor
    · rintro ⟨b, h⟩
      rcases List.mem_append.mp h with h | h
      · exact .inl (h4 _ h)
      · have := h10.maps _ h
        simp only at this
        subst this
        exact .inr ⟨rfl, hsome.mp ⟨b, h⟩⟩
    · rintro (rfl | ⟨rfl, h⟩)
      · exact ⟨w, List.mem_append.mpr (.inl hw)⟩
      · obtain ⟨b, h⟩ := hsome.mpr h
        exact ⟨b, List.mem_append.mpr (.inr h)⟩

/-- What a query that runs alone leaves in the caches. -/
theorem queryR_after (early : Bool) (fs : FloatSys) (env : Env) (pick : U32 → Nat → Nat) (traces : Nat → Trace)
    (j : QueryJob) {s : QShared} (hs : s.Right fs traces) (hj : j.Sound fs env pick traces) :
    ∃ s', ((queryR early fs env pick traces j).final s).2 = s' ∧ s'.Right fs traces ∧
      (∀ k key, (s.get k key).isSome = true → (s'.get k key).isSome = true) ∧ AnswersGrow s s' ∧
      ¬ j.Unfiltered s' ∧ ¬ j.AsksNew fs pick traces s' := by
  obtain ⟨s1, h1, h2, h3, h4, h5, _⟩ := getPointsR_alone j.trace (traces j.trace).points j.query.mask
    j.query.stmt s (fun ps h => hs.lists _ _ ps h)
  obtain ⟨rs, hok⟩ := hj.answers
  rw [aloneAnswer_eq, filterPoints_passing] at hok
  obtain ⟨rs', h6, _⟩ := Res.bind_eq_ok.mp hok
  obtain ⟨A, hA, h7⟩ := queryPointsR_asking (early := early) hj.few h6
  have h8 := h7.map fun rs => if j.keepDuplicates then rs else deduplicate rs
  obtain ⟨s2, h9, h10⟩ := h8 s1 (by
    intro p vs b h
    rw [h2] at h
    exact hs.answers p vs b h)
  have hget : ∀ k key, s2.get k key = s1.get k key := by
    intro k key
    unfold QShared.get
    rw [h10.points]
  refine ⟨s2, ?_, ⟨fun k key ps h => ?_, h10.right⟩, fun k key h => ?_, fun p vs h => ?_, ?_, ?_⟩
  · unfold queryR
    rw [(RProc.bind_alone h1).1]
    exact congrArg Prod.snd h9
  · rw [hget] at h
    rcases h4 k key ps h with ⟨rfl, rfl, rfl⟩ | h
    · rfl
    · exact hs.lists k key ps h
  · rw [hget]
    exact h3 k key h
  · exact h10.grow p vs (by rw [h2]; exact h)
  · unfold QueryJob.Unfiltered
    rw [hget]
    intro h
    rw [h] at h5
    cases h5
  · rintro ⟨p, vs, ha, hn⟩
    have := h10.after (p, vs) ((hA p vs).mpr ha)
    simp only [hn] at this
    cases this

theorem RProc.final_after {α : Type} (n : Nat) (p : RProc α) (s : QShared) :
    (p.after n s).1.final (p.after n s).2 = p.final s := by
  induction n generalizing p s with
  | zero => rfl
  | succ n ih =>
    cases p with
    | done r => rfl
    | act m w c k => exact ih (k s) (c s)

/-- A query that has run to its end alone, in the model without annotations. -/
theorem alone_shared {early : Bool} {fs : FloatSys} {env : Env} {pick : U32 → Nat → Nat} {traces : Nat → Trace}
    {s : QShared} {j : QueryJob} {n : Nat} {r : Res (List Point)}
    (h : ((QSys.init early fs env pick traces s [j]).run (List.replicate n 0)).outcome 0 = some r) :
    ((QSys.init early fs env pick traces s [j]).run (List.replicate n 0)).shared =
      ((queryR early fs env pick traces j).final s).2 := by
  rw [← RSys.erase_init, ← RSys.erase_run,
    rrun_replicate (RSys.init early fs env pick traces s [j]) 0 n _ rfl] at h ⊢
  simp only [RSys.erase, RSys.init, List.map_cons, List.map_nil, List.set_cons_zero, QSys.outcome,
    List.getElem?_cons_zero] at h ⊢
  have hf := RProc.final_after n (queryR early fs env pick traces j) s
  generalize (queryR early fs env pick traces j).after n s = x at h hf ⊢
  obtain ⟨p, s'⟩ := x
  cases p with
  | done r => rw [← hf]; rfl
  | act m w c k => simp [RProc.erase] at h

/-- What a query gives that runs alone. -/
theorem alone_result {early : Bool} {fs : FloatSys} {env : Env} {pick : U32 → Nat → Nat} {traces : Nat → Trace}
    {s : QShared} {j : QueryJob} {n : Nat} {r : Res (List Point)}
    (h : ((QSys.init early fs env pick traces s [j]).run (List.replicate n 0)).outcome 0 = some r) :
    ((queryR early fs env pick traces j).final s).1 = r := by
  rw [← RSys.erase_init, ← RSys.erase_run,
    rrun_replicate (RSys.init early fs env pick traces s [j]) 0 n _ rfl] at h
  simp only [RSys.erase, RSys.init, List.map_cons, List.map_nil, List.set_cons_zero, QSys.outcome,
    List.getElem?_cons_zero] at h
  have hf := RProc.final_after n (queryR early fs env pick traces j) s
  generalize (queryR early fs env pick traces j).after n s = x at h hf
  obtain ⟨p, s'⟩ := x
  cases p with
  | done r => rw [← hf]; simpa [RProc.erase, RProc.final] using h
  | act m w c k => simp [RProc.erase] at h

/-- What queries made one after another leave in the caches. -/
theorem afterQueries_known {early : Bool} {fs : FloatSys} {env : Env} {pick : U32 → Nat → Nat} {traces : Nat → Trace}
    {s s' : QShared} {jobs : List QueryJob} (h : AfterQueries early fs env pick traces s jobs s')
    (hs : s.Right fs traces) (hj : ∀ j ∈ jobs, j.Sound fs env pick traces) :
    s'.Right fs traces ∧ (∀ k key, (s.get k key).isSome = true → (s'.get k key).isSome = true) ∧ AnswersGrow s s' ∧
      ∀ j ∈ jobs, ¬ j.Unfiltered s' ∧ ¬ j.AsksNew fs pick traces s' := by
  induction h with
  | none => exact ⟨hs, fun _ _ h => h, fun _ _ h => h, by simp⟩
  | @query s s' j jobs n r hr _ ih =>
    rw [alone_shared hr] at ih
    obtain ⟨s1, h1, h2, h3, h4, h5, h6⟩ := queryR_after early fs env pick traces j hs (hj j List.mem_cons_self)
    rw [h1] at ih
    obtain ⟨e1, e2, e3, e4⟩ := ih h2 fun k hk => hj k (List.mem_cons_of_mem _ hk)
    refine ⟨e1, fun k key h => e2 k key (h3 k key h), fun p vs h => e3 p vs (h4 p vs h), fun k hk => ?_⟩
    rcases List.mem_cons.mp hk with rfl | hk
    · constructor
      · intro h
        unfold QueryJob.Unfiltered at h h5
        cases hg : s1.get k.trace (k.query.mask, k.query.stmt) with
        | none => exact h5 hg
        | some ps =>
          have := e2 _ _ (by rw [hg]; rfl : (s1.get k.trace (k.query.mask, k.query.stmt)).isSome = true)
          rw [h] at this
          cases this
      · rintro ⟨p, vs, ha, hn⟩
        cases hg : s1.answers.get p vs with
        | none => exact h6 ⟨p, vs, ha, hg⟩
        | some b =>
          have := e3 p vs (by rw [hg]; rfl)
          rw [hn] at this
          cases this
    · exact e4 k hk

/-- The races of queries. -/
theorem race_iff (early : Bool) (fs : FloatSys) (env : Env) (pick : U32 → Nat → Nat) (traces : Nat → Trace)
    {s : QShared} {jobs : List QueryJob} (hs : s.Right fs traces) (hj : ∀ j ∈ jobs, j.Sound fs env pick traces) :
    (∃ schedule, ((RSys.init early fs env pick traces s jobs).run schedule).Race) ↔
      ∃ (i k : Nat) (a b : QueryJob), i ≠ k ∧ jobs[i]? = some a ∧ jobs[k]? = some b ∧
        ((a.trace = b.trace ∧ a.Unfiltered s) ∨ (a.AsksNew fs pick traces s ∧ b.AsksSome fs pick traces)) := by
  have hh := init_honest early fs env pick traces s jobs
  have ht := fun (j : QueryJob) (hm : j ∈ jobs) (m : MapRef) =>
    queryR_trail early fs env pick traces j hs (Classical.choose_spec (hj j hm).answers) (hj j hm).few m
  have hth : ∀ (i : Nat) p, (RSys.init early fs env pick traces s jobs).threads[i]? = some p ↔
      ∃ j, jobs[i]? = some j ∧ queryR early fs env pick traces j = p := by
    intro i p
    simp only [RSys.init, List.getElem?_map, Option.map_eq_some_iff]
  constructor
  · intro h
    have hc : (RSys.init early fs env pick traces s jobs).Clash := Classical.byContradiction fun hn => by
      obtain ⟨schedule, hr⟩ := h
      exact no_race_without_clash _ hh hn schedule hr
    obtain ⟨i, k, p, q, m, w, hne, hp, hq, h1, h2⟩ := hc
    obtain ⟨a, ha, rfl⟩ := (hth i p).mp hp
    obtain ⟨b, hb, rfl⟩ := (hth k q).mp hq
    refine ⟨i, k, a, b, hne, ha, hb, ?_⟩
    have e2 := (ht b (List.mem_of_getElem? hb) m).2.mp ⟨w, h2⟩
    rcases (ht a (List.mem_of_getElem? ha) m).1.mp h1 with ⟨rfl, hu⟩ | ⟨rfl, hu⟩
    · rcases e2 with h | ⟨h, _⟩
      · exact .inl ⟨MapRef.points.inj h, hu⟩
      · cases h
    · rcases e2 with h | ⟨_, h⟩
      · cases h
      · exact .inr ⟨hu, h⟩
  · rintro ⟨i, k, a, b, hne, ha, hb, h⟩
    apply race_of_clash _ hh
    rcases h with ⟨ht', hu⟩ | ⟨hn, hsome⟩
    · obtain ⟨w, hw⟩ := (ht b (List.mem_of_getElem? hb) (.points b.trace)).2.mpr (.inl rfl)
      refine ⟨i, k, _, _, .points b.trace, w, hne, (hth i _).mpr ⟨a, ha, rfl⟩, (hth k _).mpr ⟨b, hb, rfl⟩, ?_, hw⟩
      exact (ht a (List.mem_of_getElem? ha) _).1.mpr (.inl ⟨by rw [ht'], hu⟩)
    · obtain ⟨w, hw⟩ := (ht b (List.mem_of_getElem? hb) .answers).2.mpr (.inr ⟨rfl, hsome⟩)
      refine ⟨i, k, _, _, .answers, w, hne, (hth i _).mpr ⟨a, ha, rfl⟩, (hth k _).mpr ⟨b, hb, rfl⟩, ?_, hw⟩
      exact (ht a (List.mem_of_getElem? ha) _).1.mpr (.inr ⟨rfl, hn⟩)

/-- Without races every query gives what it gives alone. -/
theorem race_free_result (early : Bool) (fs : FloatSys) (env : Env) (pick : U32 → Nat → Nat) (traces : Nat → Trace)
    {s : QShared} {jobs : List QueryJob} (hs : s.Right fs traces)
    (hfree : ∀ schedule, ¬ ((RSys.init early fs env pick traces s jobs).run schedule).Race)
    (schedule : List Nat) (i : Nat) (j : QueryJob) (r : Res (List Point)) (hj : jobs[i]? = some j)
    (hr : ((RSys.init early fs env pick traces s jobs).run schedule).threads[i]? = some (.done r)) :
    r = aloneAnswer fs env pick traces j := by
  have hh := init_honest early fs env pick traces s jobs
  have hc : ¬ (RSys.init early fs env pick traces s jobs).Clash := fun h => by
    obtain ⟨schedule, h⟩ := race_of_clash _ hh h
    exact hfree schedule h
  obtain ⟨⟨count, h1⟩, _⟩ := no_race _ hh hc schedule
  have h2 := (h1 i (queryR early fs env pick traces j) (by simp [RSys.init, hj])).1
  rw [hr] at h2
  have h3 := RProc.final_after (count i) (queryR early fs env pick traces j) s
  have h4 : ((queryR early fs env pick traces j).after (count i) s).1 = .done r := (Option.some.inj h2).symm
  rw [h4] at h3
  obtain ⟨n, s', r', e1, e2⟩ := run_to_end (st := QSys.init early fs env pick traces s [j]) (i := 0) rfl
    (alone_outcome early fs env pick traces j hs)
  subst e2
  rw [← alone_result e1, ← h3]
  rfl

end TraceDB
