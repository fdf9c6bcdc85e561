import Verif.Proofs.ConcurrentRun
import Verif.Props.Reader
/-
Properties of threads that add traces to one database: C45 and C46.
-/
namespace TraceDB

/-- A stream with one point: statement 7 and one auxiliary value. -/
def auxBytes (value : Nat) : List U8 :=
  leBytes 8 0 ++ leBytes 4 0 ++ [1] ++ leBytes 8 7 ++ [4] ++ leBytes 8 value ++ [0]

/-- The trace of that stream. -/
def auxTrace (value : U64) : Trace := ⟨[], [], [⟨0, 7, [], [], [value]⟩]⟩

/-- Adding such a stream. -/
def auxJob (value : Nat) : Job := ⟨exEnv, some (IStream.ofBytes (auxBytes value)), 0⟩

/-- Adding a file that cannot be opened. -/
def failJob : Job := ⟨exEnv, none, 0⟩

/-- The first thread stores its value, then the second one, then both go on. -/
def mixingSchedule : List Nat := [0, 1] ++ List.replicate 6 0 ++ List.replicate 6 1

/-! C45 -/

/-- At every moment of every execution: the database is the one from the beginning
followed by the traces of the calls that have stored theirs, each exactly once. -/
theorem C45_stored_once (grow : Nat → Nat) (aux : U64) (db : Db) (jobs : List Job) (schedule : List Nat) :
    ∃ stored : List (Nat × Trace), (stored.map Prod.fst).Nodup ∧
      (∀ i t, (i, t) ∈ stored ↔ ∃ th, ((AddSys.init aux db jobs).run grow schedule).threads[i]? = some th ∧
        th.stored = some t) ∧
      ((AddSys.init aux db jobs).run grow schedule).db.traces = db.traces ++ stored.map Prod.snd :=
  AddSys.Ok.stored (run_ok grow db _ schedule (init_ok aux db jobs))

/-- When all calls have returned: exactly the calls that returned 1 have their trace in
the database, once; the earlier traces are where they were. -/
theorem C45_all_returned (grow : Nat → Nat) (aux : U64) (db : Db) (jobs : List Job) (schedule : List Nat)
    (hend : ∀ (i : Nat) (th : Thread), ((AddSys.init aux db jobs).run grow schedule).threads[i]? = some th → th.Ended) :
    ∃ stored : List (Nat × Trace), (stored.map Prod.fst).Nodup ∧
      (∀ i t, (i, t) ∈ stored ↔
        ((AddSys.init aux db jobs).run grow schedule).threads[i]? = some (.returned (some t))) ∧
      ((AddSys.init aux db jobs).run grow schedule).db.traces = db.traces ++ stored.map Prod.snd := by
  obtain ⟨stored, h1, h2, h3⟩ := C45_stored_once grow aux db jobs schedule
  refine ⟨stored, h1, fun i t => ?_, h3⟩
  rw [h2 i t]
  constructor
  · rintro ⟨th, hth, hs⟩
    have he := hend i th hth
    cases th <;> simp only [Thread.Ended, Thread.stored] at he hs <;> simp_all
  · intro h
    exact ⟨_, h, rfl⟩

/-- Which calls succeed does not depend on the schedule: a call that has ended returned
1 exactly if its stream, read alone, is accepted. -/
theorem C45_outcomes (grow : Nat → Nat) (aux : U64) (db : Db) (jobs : List Job) (schedule : List Nat) (i : Nat) (j : Job)
    (th : Thread) (hj : jobs[i]? = some j)
    (hth : ((AddSys.init aux db jobs).run grow schedule).threads[i]? = some th) (hend : th.Ended) :
    (∃ t, th = .returned (some t)) ↔ ∃ s t, j.source = some s ∧ readTrace j.env j.maxPoints s = .ok t := by
  have hg := (run_good grow jobs _ schedule (init_good aux db jobs) i j th hj hth).agrees
  cases th with
  | returned r =>
    cases r with
    | some t =>
      obtain ⟨s, t', h1, h2, _⟩ := hg
      exact ⟨fun _ => ⟨s, t', h1, h2⟩, fun _ => ⟨t, rfl⟩⟩
    | none =>
      constructor
      · rintro ⟨t, h⟩; simp at h
      · rintro ⟨s, t, h1, h2⟩
        rcases hg with h | ⟨s', e, h, h'⟩
        · rw [h] at h1; simp at h1
        · rw [h] at h1
          cases h1
          rw [h'] at h2; simp at h2
  | crashed =>
    constructor
    · rintro ⟨t, h⟩; simp at h
    · rintro ⟨s, t, h1, h2⟩
      obtain ⟨s', h, h'⟩ := hg
      rw [h] at h1
      cases h1
      rcases h' with h' | h' | ⟨k, h'⟩ <;> rw [h'] at h2 <;> simp at h2
  | _ => simp [Thread.Ended] at hend

/-- From every reachable state all calls can come to their end: there is no
deadlock. -/
theorem C45_no_deadlock (grow : Nat → Nat) (aux : U64) (db : Db) (jobs : List Job) (schedule : List Nat) :
    ∃ rest, ∀ (i : Nat) (th : Thread),
      ((AddSys.init aux db jobs).run grow (schedule ++ rest)).threads[i]? = some th → th.Ended := by
  obtain ⟨rest, h⟩ := finish_all grow db _ (run_ok grow db _ schedule (init_ok aux db jobs))
  exact ⟨rest, by rw [run_append]; exact h⟩

/-- Three calls, one of which fails, interleaved: two traces are added behind the one
that was there, in the order in which the mutex was taken. -/
example : ((AddSys.init 0 (Db.create.addTrace (fun n => n) exTrace) [auxJob 11, failJob, auxJob 22]).run (fun n => n)
      [0, 0, 2, 2, 2, 0, 2, 0, 1, 2, 2, 0, 2, 0, 0, 0, 0]).db.traces =
    [exTrace, auxTrace 22, auxTrace 11] := by decide +kernel

/-! C46 -/

/-- Under every schedule a trace that a call has stored is the one the reader gets from
the same stream when it runs alone, except for auxiliary values; a call that failed or
crashed does so alone, too. -/
theorem C46_only_aux_values_mix (grow : Nat → Nat) (aux : U64) (db : Db) (jobs : List Job) (schedule : List Nat)
    (i : Nat) (j : Job) (th : Thread) (hj : jobs[i]? = some j)
    (hth : ((AddSys.init aux db jobs).run grow schedule).threads[i]? = some th) : th.Agrees SameButAux j :=
  (run_good grow jobs _ schedule (init_good aux db jobs) i j th hj hth).agrees

/-- Traces without auxiliary values are unaffected under every schedule. -/
theorem C46_no_aux_unaffected (grow : Nat → Nat) (aux : U64) (db : Db) (jobs : List Job) (schedule : List Nat)
    (i : Nat) (j : Job) (s : IStream) (t t' : Trace) (hj : jobs[i]? = some j) (hs : j.source = some s)
    (hread : readTrace j.env j.maxPoints s = .ok t) (hno : ∀ p ∈ t.points, p.aux = [])
    (hth : ((AddSys.init aux db jobs).run grow schedule).threads[i]? = some (.returned (some t'))) : t' = t := by
  obtain ⟨s', t'', h1, h2, h3⟩ := C46_only_aux_values_mix grow aux db jobs schedule i j _ hj hth
  rw [hs] at h1
  cases h1
  rw [hread] at h2
  cases h2
  exact sameButAux_eq h3 hno

/-- A single thread gets exactly what is in its stream. -/
theorem C46_alone (grow : Nat → Nat) (aux : U64) (db : Db) (j : Job) (schedule : List Nat) (i : Nat) (th : Thread)
    (hth : ((AddSys.init aux db [j]).run grow schedule).threads[i]? = some th) : th.Agrees Eq j := by
  obtain ⟨th', h, he⟩ := run_exact grow j _ schedule (init_exact aux db j)
  rw [h] at hth
  cases i with
  | zero =>
    simp only [List.getElem?_cons_zero, Option.some.injEq] at hth
    subst hth
    exact he.agrees
  | succ n => simp at hth

/-- Two threads: the trace of the first receives the auxiliary value of the second. -/
theorem C46_values_mixed :
    ∃ schedule : List Nat,
      readTrace exEnv 0 (IStream.ofBytes (auxBytes 11)) = .ok (auxTrace 11) ∧
      readTrace exEnv 0 (IStream.ofBytes (auxBytes 22)) = .ok (auxTrace 22) ∧
      ((AddSys.init 0 Db.create [auxJob 11, auxJob 22]).run (fun n => n) schedule).db.traces =
        [auxTrace 22, auxTrace 22] :=
  ⟨mixingSchedule, by decide +kernel, by decide +kernel, by decide +kernel⟩

/-- A stream with one point: statement 9, nothing else. -/
def plainBytes : List U8 := leBytes 8 0 ++ leBytes 4 0 ++ [1] ++ leBytes 8 9 ++ [0]

/-- A stream without auxiliary values next to one with them. -/
example : readTrace exEnv 0 (IStream.ofBytes plainBytes) = .ok ⟨[], [], [⟨0, 9, [], [], []⟩]⟩ ∧
    ((AddSys.init 0 Db.create [⟨exEnv, some (IStream.ofBytes plainBytes), 0⟩, auxJob 22]).run (fun n => n)
      mixingSchedule).db.traces = [⟨[], [], [⟨0, 9, [], [], []⟩]⟩, auxTrace 22] := by
  refine ⟨by decide +kernel, by decide +kernel⟩

/-- In this schedule every call has returned, one of them with an error. -/
example : ((AddSys.init 0 (Db.create.addTrace (fun n => n) exTrace) [auxJob 11, failJob, auxJob 22]).run (fun n => n)
      ([0, 0, 2, 2, 2, 0, 2, 0, 1, 2, 2, 0, 2, 0, 0, 0, 0] ++ [0, 1, 2, 0, 1, 2, 0, 1, 2])).threads =
    [.returned (some (auxTrace 11)), .returned none, .returned (some (auxTrace 22))] := rfl

end TraceDB
