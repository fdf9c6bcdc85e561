import Verif.Proofs.ConcurrentQueryRace
import Verif.Proofs.ConcurrentQuerySound
import Verif.Props.Query
/-
Property C70: queries made by several threads at a time.
-/
namespace TraceDB

/-! Example data: two traces with the same points. -/

/-- Nothing is cached. -/
def cqCold : QShared := ⟨fun _ => [], []⟩
/-- Two traces (of the same or of different databases). -/
def cqTraces : Nat → Trace := fun _ => qTrace
/-- `v0 < v1` asked of trace `i`, all points. -/
def cqJob (i : Nat) : QueryJob := ⟨i, qQuery, true⟩
/-- Points with statement 7 of trace `i`, all pairs of variables of type 0. -/
def cqFilter (i : Nat) : QueryJob := ⟨i, ⟨qVars2, .nullPred, [], 0, 7, 7⟩, true⟩

theorem cqCold_right (fs : FloatSys) (traces : Nat → Trace) : cqCold.Right fs traces :=
  ⟨fun _ _ _ h => (nomatch h), fun _ _ _ h => (nomatch h)⟩

/-! C70 -/

/-- Threads whose queries use different filters or traces, or filters whose points
are cached already, get the answers they would get alone, whatever the schedule
(if the answer is computed before its entry is made). -/
theorem C70_apart (fs : FloatSys) (env : Env) (pick : U32 → Nat → Nat) (traces : Nat → Trace) (s : QShared)
    (jobs : List QueryJob) (hs : s.Right fs traces) (hap : Apart s jobs) (schedule : List Nat) (i : Nat)
    (j : QueryJob) (r : Res (List Point)) (hj : jobs[i]? = some j)
    (hr : ((QSys.init false fs env pick traces s jobs).run schedule).outcome i = some r) :
    r = aloneAnswer fs env pick traces j :=
  apart_outcome fs env pick traces s jobs hs hap schedule i j r hj hr

/-- Three threads with different filters or traces; after a schedule with many
switches all have finished with results. -/
example : Apart cqCold [cqJob 0, cqJob 1, cqFilter 0] ∧
    (∀ i < 3, (((QSys.init false exFloats qEnv (fun _ _ => 0) cqTraces cqCold [cqJob 0, cqJob 1, cqFilter 0]).run
      ((List.replicate 40 [0, 1, 2]).flatten)).outcome i).isSome = true) := by
  constructor
  · intro i k a b hne ha hb h1 h2 h3
    exfalso
    match i, k with
    | 0, 0 => exact hne rfl
    | 1, 1 => exact hne rfl
    | 2, 2 => exact hne rfl
    | 0, 1 => cases ha; cases hb; simp [cqJob] at h1
    | 1, 0 => cases ha; cases hb; simp [cqJob] at h1
    | 0, 2 => cases ha; cases hb; simp [cqJob, cqFilter, qQuery] at h2
    | 2, 0 => cases ha; cases hb; simp [cqJob, cqFilter, qQuery] at h2
    | 1, 2 => cases ha; cases hb; simp [cqJob, cqFilter] at h1
    | 2, 1 => cases ha; cases hb; simp [cqJob, cqFilter] at h1
    | n + 3, _ => simp at ha
    | 0, n + 3 => simp at hb
    | 1, n + 3 => simp at hb
    | 2, n + 3 => simp at hb
  · decide +kernel

/-- Whatever the threads ask, whatever the schedule and in whatever order the answer
and its entry are made: every result is justified by the trace, so at worst results
are missing or repeated. -/
theorem C70_nothing_invented (early : Bool) (fs : FloatSys) (env : Env) (pick : U32 → Nat → Nat)
    (traces : Nat → Trace) (s : QShared) (jobs : List QueryJob) (hs : s.Right fs traces) (schedule : List Nat)
    (i : Nat) (j : QueryJob) (rs : List Point) (hj : jobs[i]? = some j)
    (hr : ((QSys.init early fs env pick traces s jobs).run schedule).outcome i = some (.ok rs)) :
    ∀ r ∈ rs, Justified fs (traces j.trace) j.query r :=
  sound_outcome early fs env pick traces s jobs hs schedule i j rs hj hr

/-- Two threads with the same query that take turns both get results. -/
example : ∀ i < 2, ((((QSys.init true exFloats qEnv (fun _ _ => 0) cqTraces cqCold [cqJob 0, cqJob 0]).run
      ((List.replicate 60 [0, 1]).flatten)).outcome i).map fun r =>
        match r with | .ok rs => rs.length | _ => 0) = some 2 := by decide +kernel

/-- Nothing blocks: at any time a thread that goes on alone finishes. -/
theorem C70_no_deadlock (early : Bool) (fs : FloatSys) (env : Env) (pick : U32 → Nat → Nat) (traces : Nat → Trace)
    (s : QShared) (jobs : List QueryJob) (schedule : List Nat) (i : Nat) (hi : i < jobs.length) :
    ∃ n r, ((QSys.init early fs env pick traces s jobs).run (schedule ++ List.replicate n i)).outcome i = some r := by
  have hlen : ∀ (st : QSys) (l : List Nat), (st.run l).threads.length = st.threads.length := by
    intro st l
    unfold QSys.run
    induction l generalizing st with
    | nil => rfl
    | cons k l ih =>
      rw [List.foldl_cons, ih]
      unfold QSys.step
      split
      · simp
      · rfl
  obtain ⟨n, r, h⟩ := can_finish ((QSys.init early fs env pick traces s jobs).run schedule) i (by
    rw [hlen]; simpa [QSys.init] using hi)
  exact ⟨n, r, by rw [qrun_append]; exact h⟩

/-- A query that is not interrupted gives the answer it gives without caches, in
either order. -/
theorem C70_uninterrupted (early : Bool) (fs : FloatSys) (env : Env) (pick : U32 → Nat → Nat) (traces : Nat → Trace)
    (s : QShared) (j : QueryJob) (hs : s.Right fs traces) :
    ∃ n, ((QSys.init early fs env pick traces s [j]).run (List.replicate n 0)).outcome 0 =
      some (aloneAnswer fs env pick traces j) := by
  obtain ⟨n, s', r, h1, h2⟩ := run_to_end (st := QSys.init early fs env pick traces s [j]) (i := 0) rfl
    (alone_outcome early fs env pick traces j hs)
  exact ⟨n, by rw [h1, h2]⟩

example : (((QSys.init true exFloats qEnv (fun _ _ => 0) cqTraces cqCold [cqJob 0]).run
      (List.replicate 40 0)).outcome 0) =
    some (.ok [{ qPoint with vars := [qVar 0 0 1, qVar 2 0 9] }]) := by decide +kernel

/-- What a query gives over a list of points. -/
def overPoints (fs : FloatSys) (env : Env) (pick : U32 → Nat → Nat) (j : QueryJob) (ps : List Point) : Res (List Point) :=
  aloneAnswer fs env pick (fun _ => ⟨[], [], ps⟩) { j with query := { j.query with mask := 0, stmt := 0 } }

theorem answerOver_eq (fs : FloatSys) (env : Env) (pick : U32 → Nat → Nat) (j : QueryJob) (ps : List Point) :
    answerOver fs env pick j ps = overPoints fs env pick j ps := by
  unfold overPoints
  rw [aloneAnswer_eq]
  simp only [filterPoints_passing]
  rw [passing_zero]
  rfl

/-- Two threads ask the same of a trace whose points are not cached for the filter:
for every number `k` of points that pass there is a schedule in which the second
thread gets the results of the first `k` of them only. -/
theorem C70_missing_results (early : Bool) (fs : FloatSys) (env : Env) (pick : U32 → Nat → Nat)
    (traces : Nat → Trace) (s : QShared) (j : QueryJob) (hs : s.Right fs traces)
    (hcold : s.get j.trace (j.query.mask, j.query.stmt) = none) (k : Nat)
    (hk : k ≤ (passing (traces j.trace).points j.query.mask j.query.stmt).length) :
    ∃ schedule, ((QSys.init early fs env pick traces s [j, j]).run schedule).outcome 1 =
      some (overPoints fs env pick j ((passing (traces j.trace).points j.query.mask j.query.stmt).take k)) := by
  rw [← filterPoints_passing] at hk ⊢
  rw [← answerOver_eq]
  exact torn early fs env pick traces s j hs.answers hcold k hk

/-- There is also a schedule in which the first thread gets the results of all
points twice. -/
theorem C70_repeated_results (early : Bool) (fs : FloatSys) (env : Env) (pick : U32 → Nat → Nat)
    (traces : Nat → Trace) (s : QShared) (j : QueryJob) (hs : s.Right fs traces)
    (hcold : s.get j.trace (j.query.mask, j.query.stmt) = none) :
    ∃ schedule, ((QSys.init early fs env pick traces s [j, j]).run schedule).outcome 0 =
      some (overPoints fs env pick j (passing (traces j.trace).points j.query.mask j.query.stmt ++
        passing (traces j.trace).points j.query.mask j.query.stmt)) := by
  rw [← filterPoints_passing, ← answerOver_eq]
  exact doubled early fs env pick traces s j hs.answers hcold

/-- With the example query the second thread gets nothing, or the first its result
twice, where one result is right. -/
example : aloneAnswer exFloats qEnv (fun _ _ => 0) cqTraces (cqJob 0) =
      .ok [{ qPoint with vars := [qVar 0 0 1, qVar 2 0 9] }] ∧
    overPoints exFloats qEnv (fun _ _ => 0) (cqJob 0) [] = .ok [] ∧
    overPoints exFloats qEnv (fun _ _ => 0) (cqJob 0) (qTrace.points ++ qTrace.points) =
      .ok [{ qPoint with vars := [qVar 0 0 1, qVar 2 0 9] }, { qPoint with vars := [qVar 0 0 1, qVar 2 0 9] }] ∧
    cqCold.get (cqJob 0).trace ((cqJob 0).query.mask, (cqJob 0).query.stmt) = none := by decide +kernel

/-- If the entry is made before the answer is computed, threads with the same
predicate disturb each other even when they query different traces: the second
thread finds the entry, which still says false, and gets no result. -/
theorem C70_wrong_answer_early :
    ∃ schedule, ((QSys.init true exFloats qEnv (fun _ _ => 0) cqTraces cqCold [cqJob 0, cqJob 1]).run schedule).outcome 1 =
        some (.ok []) ∧
      aloneAnswer exFloats qEnv (fun _ _ => 0) cqTraces (cqJob 1) =
        .ok [{ qPoint with vars := [qVar 0 0 1, qVar 2 0 9] }] :=
  ⟨List.replicate 15 0 ++ List.replicate 60 1, by decide +kernel⟩

end TraceDB
