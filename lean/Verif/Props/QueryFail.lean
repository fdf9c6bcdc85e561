import Verif.Proofs.QueryFail
import Verif.Props.ConcurrentQuery
/-
Property C114: queries after queries that ran out of memory.
-/
namespace TraceDB

/-! Example data: a trace with three points that pass the filter and one that does not. -/

/-- A point of statement `st` with the variables of `qPoint`. -/
def qfPoint (st : U64) : Point := { qPoint with statement := st }
/-- The traces. -/
def qfTraces : Nat → Trace := fun _ => { qTrace with points := [qfPoint 7, qfPoint 1, qfPoint 7, qfPoint 7] }
/-- `v0 < v1` at the points of statement 7. -/
def qfJob : QueryJob := ⟨0, { qQuery with mask := 7, stmt := 7 }, true⟩
/-- The result at a point of statement 7. -/
def qfResult : Point := { qfPoint 7 with vars := [qVar 0 0 1, qVar 2 0 9] }

/-! C114 -/

/-- A query that completes gives the right answer if no earlier query over the same points ran
out of memory, whatever happened to queries over other points (if the answer is computed before
its entry is made). -/
theorem C114_right (fs : FloatSys) (env : Env) (pick : U32 → Nat → Nat) (traces : Nat → Trace) (s : QShared)
    (h : List Attempt) (hs : s.Right fs traces) (n : Nat) (a : Attempt) (r : Res (List Point)) (ha : h[n]? = some a)
    (hr : (runAttempts false fs env pick traces h s).1[n]? = some (some r))
    (hok : ∀ m < n, ∀ b, h[m]? = some b → b.job.SamePoints a.job →
      (runAttempts false fs env pick traces h s).1[m]? ≠ some none) :
    r = aloneAnswer fs env pick traces a.job := by
  refine attempts_right env pick h s (Cut.of_right hs) n a r ?_ ha hr hok
  cases e : a.job.own s with
  | none => exact Or.inl rfl
  | some ps => exact Or.inr (by rw [hs.lists _ _ _ e, ← filterPoints_passing])

/-- A query over all points runs out of memory, at two different places; the one over the points of
statement 7 does not, and is made twice. -/
example : ((runAttempts false exFloats qEnv (fun _ _ => 0) qfTraces
      [⟨cqJob 0, some 4⟩, ⟨qfJob, none⟩, ⟨cqJob 0, some 9⟩, ⟨qfJob, some 100⟩] cqCold).1 =
    [none, some (.ok [qfResult, qfResult, qfResult]), none, some (.ok [qfResult, qfResult, qfResult])]) ∧
    ¬ (cqJob 0).SamePoints qfJob := by
  constructor
  · decide +kernel
  · rintro ⟨_, h, _⟩
    revert h
    decide

/-- After any queries, failed or not, a query that completes gives the answer for the first `k` points
that pass its filter, for some `k`. -/
theorem C114_cut (fs : FloatSys) (env : Env) (pick : U32 → Nat → Nat) (traces : Nat → Trace) (s : QShared)
    (h : List Attempt) (hs : s.Right fs traces) (n : Nat) (a : Attempt) (r : Res (List Point)) (ha : h[n]? = some a)
    (hr : (runAttempts false fs env pick traces h s).1[n]? = some (some r)) :
    ∃ k, r = firstAnswers fs env pick traces a.job k :=
  attempts_cut env pick h s (Cut.of_right hs) n a r ha hr

/-- Two of three points. -/
example : (runAttempts false exFloats qEnv (fun _ _ => 0) qfTraces [⟨qfJob, some 4⟩, ⟨qfJob, none⟩] cqCold).1 =
      [none, some (.ok [qfResult, qfResult])] ∧
    firstAnswers exFloats qEnv (fun _ _ => 0) qfTraces qfJob 2 = .ok [qfResult, qfResult] := by decide +kernel

/-- The points are lost for ever: for every `k` memory can run out in a query over points that
are not cached such that from then on every query over these points that completes, whatever it
asks and whatever is done in between, sees the first `k` of them only. -/
theorem C114_lost (fs : FloatSys) (env : Env) (pick : U32 → Nat → Nat) (traces : Nat → Trace) (s : QShared)
    (j : QueryJob) (hs : s.Right fs traces) (hcold : s.get j.trace (j.query.mask, j.query.stmt) = none) (k : Nat)
    (hk : k ≤ (passing (traces j.trace).points j.query.mask j.query.stmt).length) :
    ∃ m, ∀ h : List Attempt,
      (runAttempts false fs env pick traces (⟨j, some m⟩ :: h) s).1[0]? = some none ∧
      ∀ (n : Nat) (a : Attempt) (r : Res (List Point)), h[n]? = some a → a.job.SamePoints j →
        (runAttempts false fs env pick traces (⟨j, some m⟩ :: h) s).1[n + 1]? = some (some r) →
        r = firstAnswers fs env pick traces a.job k := by
  rw [← filterPoints_passing] at hk
  obtain ⟨h1, h2, h3⟩ := Attempt.run_torn false (fs := fs) (traces := traces) env pick j hcold k hk
  refine ⟨k + 2, fun h => ⟨?_, fun n a r ha hsame hr => ?_⟩⟩
  · unfold runAttempts
    simp only [List.getElem?_cons_zero, h1]
  · unfold runAttempts at hr
    simp only [List.getElem?_cons_succ] at hr
    have hans : AnswersRight fs ((Attempt.mk j (some (k + 2))).run false fs env pick traces s).2 := by
      intro p vs b hb
      rw [h3] at hb
      exact hs.answers p vs b hb
    have hown : a.job.own ((Attempt.mk j (some (k + 2))).run false fs env pick traces s).2 =
        some ((passing (traces a.job.trace).points a.job.query.mask a.job.query.stmt).take k) := by
      rw [← filterPoints_passing]
      have e : ∀ s, a.job.own s = j.own s := fun s => by
        unfold QueryJob.own; rw [hsame.1, hsame.2.1, hsame.2.2]
      rw [e, h2]
      unfold QueryJob.pts
      rw [hsame.1, hsame.2.1, hsame.2.2]
    rw [← answerOver_first]
    exact attempts_lost env pick h _ hans n a r _ hown ha hr

/-- One point of three is left; another query over the same points, with no predicate,
is affected too. -/
example : (runAttempts false exFloats qEnv (fun _ _ => 0) qfTraces
      [⟨qfJob, some 3⟩, ⟨cqJob 0, none⟩, ⟨qfJob, none⟩,
        ⟨{ qfJob with query := { qfJob.query with hard := .nullPred } }, none⟩] cqCold).1.map
      (fun o => match o with | some (.ok rs) => rs.length | _ => 0) = [0, 4, 1, 4] ∧
    (aloneAnswer exFloats qEnv (fun _ _ => 0) qfTraces qfJob = .ok [qfResult, qfResult, qfResult]) ∧
    (match aloneAnswer exFloats qEnv (fun _ _ => 0) qfTraces
      { qfJob with query := { qfJob.query with hard := .nullPred } } with | .ok rs => rs.length | _ => 0) = 12 ∧
    cqCold.get qfJob.trace (qfJob.query.mask, qfJob.query.stmt) = none := by decide +kernel

/-- Nothing is invented: whatever ran out of memory before, wherever, and in whatever order an answer and its
entry are made, every result of a query is justified by the trace. -/
theorem C114_nothing_invented (early : Bool) (fs : FloatSys) (env : Env) (pick : U32 → Nat → Nat)
    (traces : Nat → Trace) (s : QShared) (h : List Attempt) (hs : s.Right fs traces) (n : Nat) (a : Attempt)
    (rs : List Point) (ha : h[n]? = some a)
    (hr : (runAttempts early fs env pick traces h s).1[n]? = some (some (.ok rs))) :
    ∀ r ∈ rs, Justified fs (traces a.job.trace) a.job.query r := by
  refine attempts_sound early env pick h s ⟨fun i key ps h p hp => ?_, fun p vs h => hs.answers p vs true h⟩ n a rs ha hr
  rw [← hs.lists i key ps h]; exact hp

/-- Results after two failed queries, the entries made first. -/
example : (runAttempts true exFloats qEnv (fun _ _ => 0) qfTraces
      [⟨cqJob 0, some 9⟩, ⟨qfJob, some 4⟩, ⟨qfJob, none⟩] cqCold).1 =
      [none, none, some (.ok [qfResult, qfResult])] := by decide +kernel

/-- If the entry is made before the answer is computed, a query that runs out of memory in between takes
results away from queries of every other trace. -/
theorem C114_wrong_answer_early :
    ∃ m, (runAttempts true exFloats qEnv (fun _ _ => 0) cqTraces [⟨cqJob 0, some m⟩, ⟨cqJob 1, none⟩] cqCold).1 =
        [none, some (.ok [])] ∧
      aloneAnswer exFloats qEnv (fun _ _ => 0) cqTraces (cqJob 1) =
        .ok [{ qPoint with vars := [qVar 0 0 1, qVar 2 0 9] }] :=
  ⟨15, by decide +kernel⟩

end TraceDB
