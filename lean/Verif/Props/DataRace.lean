import Verif.Proofs.DataRaceTrail
import Verif.Proofs.DataRaceAdd
import Verif.Props.ConcurrentQuery
import Verif.Props.Concurrent
/-
Property C107: data races.
-/
namespace TraceDB

/-- The threads whose accesses are looked at here are those of C70: with every schedule the
caches are the same and so is what every thread has returned. -/
theorem C107_same_runs (early : Bool) (fs : FloatSys) (env : Env) (pick : U32 → Nat → Nat) (traces : Nat → Trace)
    (s : QShared) (jobs : List QueryJob) (schedule : List Nat) :
    ((RSys.init early fs env pick traces s jobs).run schedule).shared =
      ((QSys.init early fs env pick traces s jobs).run schedule).shared ∧
    ∀ i r, ((RSys.init early fs env pick traces s jobs).run schedule).threads[i]? = some (.done r) ↔
      ((QSys.init early fs env pick traces s jobs).run schedule).outcome i = some r := by
  rw [← RSys.erase_init, ← RSys.erase_run]
  refine ⟨rfl, fun i r => ?_⟩
  simp only [QSys.outcome, RSys.erase, List.getElem?_map]
  cases ((RSys.init early fs env pick traces s jobs).run schedule).threads[i]? with
  | none => simp
  | some p => cases p <;> simp [RProc.erase]

/-- Queries that several threads make at a time have a data race exactly if two of them ask
the same trace and one of them has to make its list of points, or one of them asks something
whose answer is not known and another one asks anything, be it about another trace or another
database. -/
theorem C107_queries (early : Bool) (fs : FloatSys) (env : Env) (pick : U32 → Nat → Nat) (traces : Nat → Trace)
    (s : QShared) (jobs : List QueryJob) (hs : s.Right fs traces) (hj : ∀ j ∈ jobs, j.Sound fs env pick traces) :
    (∃ schedule, ((RSys.init early fs env pick traces s jobs).run schedule).Race) ↔
      ∃ (i k : Nat) (a b : QueryJob), i ≠ k ∧ jobs[i]? = some a ∧ jobs[k]? = some b ∧
        ((a.trace = b.trace ∧ a.Unfiltered s) ∨ (a.AsksNew fs pick traces s ∧ b.AsksSome fs pick traces)) :=
  race_iff early fs env pick traces hs hj

theorem cqJob_sound : (cqJob 0).Sound exFloats qEnv (fun _ _ => 0) cqTraces where
  answers := ⟨[{ qPoint with vars := [qVar 0 0 1, qVar 2 0 9] }], by decide +kernel⟩
  few := by
    intro p hp
    rw [show (cqJob 0).chosen (fun _ _ => 0) cqTraces = [qPoint, qPoint'] by decide +kernel] at hp
    simp only [List.mem_cons, List.not_mem_nil, or_false] at hp
    rcases hp with rfl | rfl <;> decide +kernel

theorem cqFilter_sound (i : Nat) (hi : i = 0 ∨ i = 1) : (cqFilter i).Sound exFloats qEnv (fun _ _ => 0) cqTraces where
  answers := by
    refine ⟨[(0, 0), (2, 0), (0, 2), (2, 2)].map fun (x, y) =>
      { qPoint with vars := [(qPoint.vars[x]?).getD (qVar 0 0 0), (qPoint.vars[y]?).getD (qVar 0 0 0)] }, ?_⟩
    rcases hi with rfl | rfl <;> decide +kernel
  few := by
    intro p hp
    have : (cqFilter i).chosen (fun _ _ => 0) cqTraces = [qPoint] := by
      rcases hi with rfl | rfl <;> decide +kernel
    rw [this] at hp
    simp only [List.mem_cons, List.not_mem_nil, or_false] at hp
    subst hp
    rcases hi with rfl | rfl <;> decide +kernel

theorem qVars2_binding : IsBinding qVars2 qPoint.vars [0, 0] := by
  refine ⟨rfl, fun i fv k h1 h2 => ?_⟩
  match i with
  | 0 => cases h1; cases h2; exact ⟨_, rfl, by decide⟩
  | 1 => cases h1; cases h2; exact ⟨_, rfl, by decide⟩
  | n + 2 => simp at h2

/-- Two threads with the same query: after the first has looked into the map it is about to
change it, and the second is about to look. -/
example : (∀ j ∈ [cqJob 0, cqJob 0], j.Sound exFloats qEnv (fun _ _ => 0) cqTraces) ∧
    ((RSys.init true exFloats qEnv (fun _ _ => 0) cqTraces cqCold [cqJob 0, cqJob 0]).run [0]).about 0 =
      some (.points 0, true) ∧
    ((RSys.init true exFloats qEnv (fun _ _ => 0) cqTraces cqCold [cqJob 0, cqJob 0]).run [0]).about 1 =
      some (.points 0, false) := by
  refine ⟨fun j h => ?_, by decide +kernel, by decide +kernel⟩
  simp only [List.mem_cons, List.not_mem_nil, or_false, or_self] at h
  subst h
  exact cqJob_sound

/-- With empty caches two queries of the same trace always have a race, and so do any two
queries that both find a binding to try. -/
theorem C107_cold (early : Bool) (fs : FloatSys) (env : Env) (pick : U32 → Nat → Nat) (traces : Nat → Trace)
    (a b : QueryJob) (ha : a.Sound fs env pick traces) (hb : b.Sound fs env pick traces) :
    (∃ schedule, ((RSys.init early fs env pick traces cqCold [a, b]).run schedule).Race) ↔
      a.trace = b.trace ∨
        ((∃ p ∈ a.chosen pick traces, ∃ v, IsBinding a.query.variables p.vars v) ∧
          ∃ p ∈ b.chosen pick traces, ∃ v, IsBinding b.query.variables p.vars v) := by
  have hsome : ∀ j : QueryJob, j.AsksSome fs pick traces ↔
      ∃ p ∈ j.chosen pick traces, ∃ v, IsBinding j.query.variables p.vars v := by
    intro j
    constructor
    · rintro ⟨_, _, ⟨h1, h2⟩ | ⟨h1, h2, _, _⟩⟩
      · exact ⟨_, h1, _, h2⟩
      · exact ⟨_, h1, _, h2⟩
    · rintro ⟨p, hp, v, hv⟩
      exact ⟨_, _, .hard hp hv⟩
  have hnew : ∀ j : QueryJob, j.AsksNew fs pick traces cqCold ↔ j.AsksSome fs pick traces := by
    intro j
    constructor
    · rintro ⟨p, vs, h, _⟩; exact ⟨p, vs, h⟩
    · rintro ⟨p, vs, h⟩; exact ⟨p, vs, h, rfl⟩
  rw [C107_queries early fs env pick traces cqCold [a, b] (cqCold_right fs traces) (by
    intro j hj
    simp only [List.mem_cons, List.not_mem_nil, or_false] at hj
    rcases hj with rfl | rfl
    · exact ha
    · exact hb)]
  rw [← hsome, ← hsome]
  constructor
  · rintro ⟨i, k, x, y, hne, hx, hy, h⟩
    rw [hnew] at h
    match i, k with
    | 0, 0 => exact absurd rfl hne
    | 1, 1 => exact absurd rfl hne
    | 0, 1 =>
      cases hx; cases hy
      rcases h with ⟨h, _⟩ | h
      · exact .inl h
      · exact .inr h
    | 1, 0 =>
      cases hx; cases hy
      rcases h with ⟨h, _⟩ | h
      · exact .inl h.symm
      · exact .inr ⟨h.2, h.1⟩
    | n + 2, _ => simp at hx
    | 0, n + 2 => simp at hy
    | 1, n + 2 => simp at hy
  · intro h
    refine ⟨0, 1, a, b, by simp, rfl, rfl, ?_⟩
    rw [hnew]
    rcases h with h | h
    · exact .inl ⟨h, rfl⟩
    · exact .inr h

/-- Queries of different traces: the first trace could be in one database and the second in
another. -/
example : (cqJob 0).trace ≠ (cqFilter 1).trace ∧
    ∃ schedule, ((RSys.init false exFloats qEnv (fun _ _ => 0) cqTraces cqCold [cqJob 0, cqFilter 1]).run schedule).Race := by
  refine ⟨by decide, (C107_cold _ _ _ _ _ _ _ cqJob_sound (cqFilter_sound 1 (.inr rfl))).mpr (.inr ⟨?_, ?_⟩)⟩
  · exact ⟨qPoint, by decide +kernel, [0, 0], qVars2_binding⟩
  · exact ⟨qPoint, by decide +kernel, [0, 0], qVars2_binding⟩

/-- Queries that have been made before, one after another, have no race: however many threads
repeat them, whatever the schedule. -/
theorem C107_repeated (early : Bool) (fs : FloatSys) (env : Env) (pick : U32 → Nat → Nat) (traces : Nat → Trace)
    (s s' : QShared) (before jobs : List QueryJob) (hs : s.Right fs traces)
    (hj : ∀ j ∈ before, j.Sound fs env pick traces) (hbefore : AfterQueries early fs env pick traces s before s')
    (hsub : ∀ j ∈ jobs, j ∈ before) (schedule : List Nat) :
    ¬ ((RSys.init early fs env pick traces s' jobs).run schedule).Race := by
  intro hr
  obtain ⟨h1, _, _, h2⟩ := afterQueries_known hbefore hs hj
  obtain ⟨i, k, a, b, _, ha, _, h⟩ := (C107_queries early fs env pick traces s' jobs h1
    fun j hjm => hj j (hsub j hjm)).mp ⟨schedule, hr⟩
  have := h2 a (hsub a (List.mem_of_getElem? ha))
  rcases h with ⟨_, h⟩ | ⟨h, _⟩
  · exact this.1 h
  · exact this.2 h

/-- Two queries have been made; three threads repeat them. -/
example : ∃ s', AfterQueries true exFloats qEnv (fun _ _ => 0) cqTraces cqCold [cqJob 0, cqFilter 0] s' ∧
    ∀ schedule, ¬ ((RSys.init true exFloats qEnv (fun _ _ => 0) cqTraces s' [cqJob 0, cqFilter 0, cqJob 0]).run schedule).Race := by
  have h : ∀ j ∈ [cqJob 0, cqFilter 0], j.Sound exFloats qEnv (fun _ _ => 0) cqTraces := by
    intro j hj
    simp only [List.mem_cons, List.not_mem_nil, or_false] at hj
    rcases hj with rfl | rfl
    · exact cqJob_sound
    · exact cqFilter_sound 0 (.inl rfl)
  obtain ⟨n, h1⟩ := C70_uninterrupted true exFloats qEnv (fun _ _ => 0) cqTraces cqCold (cqJob 0) (cqCold_right _ _)
  have hr := (afterQueries_known (.query h1 .none) (cqCold_right _ _) (fun j hj => h j (by simp at hj; simp [hj]))).1
  obtain ⟨m, h2⟩ := C70_uninterrupted true exFloats qEnv (fun _ _ => 0) cqTraces _ (cqFilter 0) hr
  have ha : AfterQueries true exFloats qEnv (fun _ _ => 0) cqTraces cqCold [cqJob 0, cqFilter 0] _ := .query h1 (.query h2 .none)
  exact ⟨_, ha, fun schedule => C107_repeated _ _ _ _ _ _ _ _ _ (cqCold_right _ _) h ha (by simp) schedule⟩

/-- If the queries have no race, every one of them gives what it gives alone, in either order of
evaluation and whatever the schedule. -/
theorem C107_race_free (early : Bool) (fs : FloatSys) (env : Env) (pick : U32 → Nat → Nat) (traces : Nat → Trace)
    (s : QShared) (jobs : List QueryJob) (hs : s.Right fs traces)
    (hfree : ∀ schedule, ¬ ((RSys.init early fs env pick traces s jobs).run schedule).Race)
    (schedule : List Nat) (i : Nat) (j : QueryJob) (r : Res (List Point)) (hj : jobs[i]? = some j)
    (hr : ((RSys.init early fs env pick traces s jobs).run schedule).threads[i]? = some (.done r)) :
    r = aloneAnswer fs env pick traces j :=
  race_free_result early fs env pick traces hs hfree schedule i j r hj hr

/-- A query without bindings to try next to one of another trace. -/
example : (∀ schedule, ¬ ((RSys.init true exFloats qEnv (fun _ _ => 0) cqTraces cqCold
      [cqJob 0, ⟨1, ⟨[[9]], .nullPred, [], 0, 0, 0⟩, true⟩]).run schedule).Race) ∧
    (((RSys.init true exFloats qEnv (fun _ _ => 0) cqTraces cqCold
      [cqJob 0, ⟨1, ⟨[[9]], .nullPred, [], 0, 0, 0⟩, true⟩]).run ((List.replicate 60 [0, 1]).flatten)).threads.all
      fun p => match p with | .done (.ok _) => true | _ => false) = true := by
  constructor
  · intro schedule hr
    have hb : (⟨1, ⟨[[9]], .nullPred, [], 0, 0, 0⟩, true⟩ : QueryJob).Sound exFloats qEnv (fun _ _ => 0) cqTraces := by
      refine ⟨⟨[], by decide +kernel⟩, fun p hp => ?_⟩
      rw [show (⟨1, ⟨[[9]], .nullPred, [], 0, 0, 0⟩, true⟩ : QueryJob).chosen (fun _ _ => 0) cqTraces = [qPoint, qPoint']
        by decide +kernel] at hp
      simp only [List.mem_cons, List.not_mem_nil, or_false] at hp
      rcases hp with rfl | rfl <;> decide +kernel
    rcases (C107_cold _ _ _ _ _ _ _ cqJob_sound hb).mp ⟨schedule, hr⟩ with h | ⟨_, p, hp, v, hv⟩
    · exact absurd h (by decide)
    · rw [show (⟨1, ⟨[[9]], .nullPred, [], 0, 0, 0⟩, true⟩ : QueryJob).chosen (fun _ _ => 0) cqTraces = [qPoint, qPoint']
        by decide +kernel] at hp
      obtain ⟨h1, h2⟩ := hv
      match v, h1 with
      | [x], _ =>
        obtain ⟨w, hw, hm⟩ := h2 0 [9] x rfl rfl
        have hw := List.mem_of_getElem? hw
        simp only [List.mem_cons, List.not_mem_nil, or_false] at hp
        rcases hp with rfl | rfl <;> simp [qPoint, qPoint', qVar] at hw
        · rcases hw with rfl | rfl | rfl <;> simp at hm
        · subst hw; simp at hm
  · decide +kernel

/-- However many threads add traces, the vector of the database has no data race. -/
theorem C107_vector (grow : Nat → Nat) (aux : U64) (db : Db) (jobs : List Job) (schedule : List Nat) :
    ¬ ((AddSys.init aux db jobs).run grow schedule).Race .traces := by
  rintro ⟨i, k, a, b, w, hne, ha, hb, h1, h2⟩
  have hok := run_ok grow db (AddSys.init aux db jobs) schedule (init_ok aux db jobs)
  have e1 := hok.holder i a ha (about_holds h1)
  have e2 := hok.holder k b hb (about_holds h2)
  rw [e1] at e2
  exact hne (Option.some.inj e2)

/-- Threads that add written traces have a race on the static variable exactly if two of the
traces have auxiliary values among the points that are read. -/
theorem C107_adding (grow : Nat → Nat) (aux : U64) (db : Db) (jobs : List Job)
    (hj : ∀ j ∈ jobs, ∃ t, j.Adds t) :
    (∃ schedule, ((AddSys.init aux db jobs).run grow schedule).Race .value) ↔
      ∃ (i k : Nat) (a b : Job) (t u : Trace), i ≠ k ∧ jobs[i]? = some a ∧ jobs[k]? = some b ∧
        a.Adds t ∧ b.Adds u ∧ a.ReadsAux t ∧ b.ReadsAux u := by
  have hth : ∀ i : Nat, (AddSys.init aux db jobs).threads[i]? = (jobs[i]?).map Job.start := by
    intro i; simp [AddSys.init]
  have hstart : ∀ (j : Job) (t : Trace), j.Adds t → j.start = .reading (readTraceP j.env j.maxPoints (IStream.ofBytes (writeTrace t))) := by
    intro j t h
    unfold Job.start
    rw [h.file]
  constructor
  · rintro ⟨schedule, i, k, a, b, w, hne, ha, hb, h1, h2⟩
    have key : ∀ (i : Nat) (th : Thread) (w : Bool),
        ((AddSys.init aux db jobs).run grow schedule).threads[i]? = some th → th.about = some (.value, w) →
        ∃ j t, jobs[i]? = some j ∧ j.Adds t ∧ j.ReadsAux t := by
      intro i th w hi hab
      have hlt : i < jobs.length := by
        have := (List.getElem?_eq_some_iff.mp hi).1
        rw [run_length] at this
        simpa [AddSys.init] using this
      obtain ⟨t, ht⟩ := hj jobs[i] (List.getElem_mem hlt)
      refine ⟨jobs[i], t, List.getElem?_eq_getElem hlt, ht, ?_⟩
      rcases readTraceP_head ht with ⟨h, _⟩ | ⟨_, h⟩
      · exact h
      · exfalso
        refine (run_quiet grow _ schedule i ?_ th hi).not_value w hab
        intro x hx
        rw [hth, List.getElem?_eq_getElem hlt] at hx
        simp only [Option.map_some, Option.some.injEq] at hx
        subst hx
        rw [hstart _ t ht]
        exact h
    obtain ⟨j, t, e1, e2, e3⟩ := key i a true ha h1
    obtain ⟨j', u, e4, e5, e6⟩ := key k b w hb h2
    exact ⟨i, k, j, j', t, u, hne, e1, e4, e2, e5, e3, e6⟩
  · rintro ⟨i, k, a, b, t, u, hne, ha, hb, h1, h2, h3, h4⟩
    have key : ∀ (j : Job) (t : Trace), j.Adds t → j.ReadsAux t → j.start.about = some (.value, true) := by
      intro j t h1 h2
      rw [hstart j t h1]
      rcases readTraceP_head h1 with ⟨_, got, p, h⟩ | ⟨h, _⟩
      · rw [h]; rfl
      · exact absurd h2 h
    exact ⟨[], i, k, a.start, b.start, true, hne, by show (AddSys.init aux db jobs).threads[i]? = _; rw [hth, ha]; rfl,
      by show (AddSys.init aux db jobs).threads[k]? = _; rw [hth, hb]; rfl, key a t h1 h3, key b u h2 h4⟩

theorem auxJob_adds : (auxJob 11).Adds (auxTrace 11) where
  file := by decide +kernel
  writable := {
    header := ⟨by simp [auxTrace], by simp [auxTrace], by simp [auxTrace], by simp [auxTrace]⟩
    portable := by simp [auxTrace]
    vars := by simp [auxTrace]
    reserved := MemMap.Rep.construct.ok }
  memory := fun _ => rfl

/-- Two calls that both read an auxiliary value; with a third trace that has none. -/
example : (auxJob 11).ReadsAux (auxTrace 11) ∧
    (∃ schedule, ((AddSys.init 0 Db.create [auxJob 11, auxJob 11]).run (fun n => n) schedule).Race .value) ∧
    (⟨exEnv, some (IStream.ofBytes plainBytes), 0⟩ : Job).Adds ⟨[], [], [⟨0, 9, [], [], []⟩]⟩ ∧
    ¬ (⟨exEnv, some (IStream.ofBytes plainBytes), 0⟩ : Job).ReadsAux ⟨[], [], [⟨0, 9, [], [], []⟩]⟩ := by
  have h : (auxJob 11).ReadsAux (auxTrace 11) := ⟨⟨0, 7, [], [], [11]⟩, by simp [Job.read, auxJob, auxTrace], by simp⟩
  refine ⟨h, (C107_adding _ _ _ _ ?_).mpr ⟨0, 1, _, _, _, _, by simp, rfl, rfl, auxJob_adds, auxJob_adds, h, h⟩, ?_, ?_⟩
  · intro j hj
    simp only [List.mem_cons, List.not_mem_nil, or_false, or_self] at hj
    subst hj
    exact ⟨_, auxJob_adds⟩
  · exact { file := by decide +kernel
            writable := { header := ⟨by simp, by simp, by simp, by simp⟩, portable := by simp, vars := by simp,
                          reserved := MemMap.Rep.construct.ok }
            memory := fun _ => rfl }
  · rintro ⟨p, hp, h⟩
    simp [Job.read] at hp
    subst hp
    exact h rfl

end TraceDB
