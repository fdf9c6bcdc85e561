import Verif.Proofs.HandshakeLive
/-
C68: collecting one trace per run through the handshake file.
-/
namespace TraceDB

/-- Runs one after the other, any schedule at all: no run uses a null pointer; every trace
collected is what one run wrote from its beginning on, one trace per run and in their order;
and it is all the run wrote, if the run came to its end. -/
theorem C68_one_trace_per_run (out : Nat → List U8) (es : List HsEvent) :
    (∀ p : Nat, (hsRun false out .init es).progs[p]? ≠ some .crashed) ∧
    ∃ os : List (Nat × Nat), (hsRun false out .init es).db = os.map (fun o => outputOf out o.1 o.2) ∧
      os.Pairwise (fun a b => a.1 < b.1) ∧
      ∀ o ∈ os, (hsRun false out .init es).progs[o.1]? = some .ended → outputOf out o.1 o.2 = wholeOutput out o.1 := by
  obtain ⟨os, w, h⟩ := HsInv.run out es
  refine ⟨fun p hp => h.prog p _ hp, os, h.db, h.inc, fun o ho he => ?_⟩
  rcases h.own o ho with ⟨_, h1⟩ | h1 | h1 | ⟨i, h1, _⟩
  · exact outputOf_whole h1
  all_goals
    rw [he] at h1
    cases h1

/-- Runs one after the other, the collector not giving up: no run writes to a place where
nobody reads, and of each run that came to its end the whole trace is there, or will be at
the next step of the collector. -/
theorem C68_complete (out : Nat → List U8) (es : List HsEvent) (hes : HsEvent.giveUp ∉ es) (p : Nat) :
    (hsRun false out .init es).progs[p]? ≠ some .lost ∧
    ((hsRun false out .init es).progs[p]? = some .ended →
      wholeOutput out p ∈ (hsRun false out .init es).db ∨
      (hsRun false out .init es).colStep.db = (hsRun false out .init es).db ++ [wholeOutput out p]) := by
  obtain ⟨os, w, h⟩ := HsInv.run out es
  have hd := hsRun_notDone (parallel := false) (out := out) es hes (s := .init) (by simp [HsState.init])
  refine ⟨fun hp => hd (h.prog p _ hp), fun hp => ?_⟩
  rcases h.all hd p hp with ⟨k, hk⟩ | hw
  · left
    rw [h.db, List.mem_map]
    refine ⟨_, hk, ?_⟩
    rcases h.own _ hk with ⟨_, h1⟩ | h1 | h1 | ⟨i, h1, _⟩
    · exact outputOf_whole h1
    all_goals
      simp only [hp] at h1
      cases h1
  · right
    obtain ⟨hc, ⟨k, h2⟩, _⟩ := h.owner p hw
    rcases h2 with ⟨_, h3⟩ | ⟨h3, ⟨_, h4⟩ | h4⟩
    · rw [hp] at h3; cases h3
    · simp [HsState.colStep, hc, h3, HsState.finish, outputOf_whole h4]
    · rw [hp] at h4; cases h4

/-- If also nobody is killed and no trace is cut, the database has exactly the whole traces of the
first runs. -/
theorem C68_exact (out : Nat → List U8) (es : List HsEvent) (hes : ∀ e ∈ es, e.smooth = true) :
    (hsRun false out .init es).db = (List.range (hsRun false out .init es).db.length).map (wholeOutput out) := by
  obtain ⟨os, w, h⟩ := Calm.run out es hes
  exact h.exact

/-- No deadlock: whatever has happened in such a schedule, a run that has not seen the end of
an empty file can be brought to its end by steps of it and of the collector alone, and then its
trace and those of all runs before it are there. -/
theorem C68_can_end (out : Nat → List U8) (es : List HsEvent) (hes : ∀ e ∈ es, e.smooth = true) (p : Nat) (pc : HsPc)
    (hp : (hsRun false out .init es).progs[p]? = some pc) (hs : pc.stopped = false) (hf : ∀ f, pc ≠ .fgets f true) :
    ∃ es', (∀ e ∈ es', e = .col ∨ e = .prog p) ∧ (hsRun false out .init (es ++ es')).progs[p]? = some .ended ∧
      (hsRun false out .init (es ++ es')).db = (List.range (p + 1)).map (wholeOutput out) := by
  obtain ⟨os, w, h⟩ := Calm.run out es hes
  obtain ⟨es', h1, h2, h3⟩ := h.canEnd hp hs hf
  refine ⟨es', h1, by rw [hsRun_append]; exact h3, ?_⟩
  have hsm : ∀ e ∈ es', e.smooth = true := fun e he => by
    rcases h1 e he with rfl | rfl <;> rfl
  obtain ⟨os', w', h'⟩ := Calm.steps es' hsm h
  rw [hsRun_append]
  have hlen : (hsRun false out (hsRun false out .init es) es').db.length = os'.length := by rw [h'.inv.db]; simp
  have hw : w' = none := h'.inv.nobody (by rw [h2]; simp)
  have hmem : p ∈ os'.map (·.1) := by
    rcases h'.inv.all h'.notDone p h3 with ⟨k, hk⟩ | hw'
    · exact List.mem_map.mpr ⟨_, hk, rfl⟩
    · rw [hw] at hw'; cases hw'
  -- no run was started after `p`
  have hprogs : (hsRun false out (hsRun false out .init es) es').progs.length = (hsRun false out .init es).progs.length :=
    hsRun_length es' h1
  have hlast := h.inv.seq p pc hp hs
  rw [h'.exact, hlen]
  congr 2
  rw [h'.owned, List.mem_range] at hmem
  have hle : os'.length ≤ (hsRun false out (hsRun false out .init es) es').progs.length := by
    by_cases h0 : os'.length = 0
    · omega
    · have : os'.length - 1 ∈ os'.map (·.1) := by rw [h'.owned, List.mem_range]; omega
      obtain ⟨o, ho, e⟩ := List.mem_map.mp this
      have := h'.inv.owned_lt ho
      omega
  omega

/-- A run that saw the end of the empty file (between its creation and the writing of the name)
waits forever, and as long as it waits nothing is collected. -/
theorem C68_stuck (out : Nat → List U8) (es : List HsEvent) (p f : Nat)
    (hp : (hsRun false out .init es).progs[p]? = some (.fgets f true)) (es' : List HsEvent) (hes' : HsEvent.kill p ∉ es') :
    (hsRun false out .init (es ++ es')).progs[p]? = some (.fgets f true) ∧
    (hsRun false out .init (es ++ es')).db = (hsRun false out .init es).db := by
  obtain ⟨os, w, h⟩ := HsInv.run out es
  rw [hsRun_append]
  exact ⟨hsRun_stuck es' hes' hp, h.stuck_db es' hes' hp⟩

/-- A run can come there without anyone giving up or being killed. -/
theorem C68_stuck_reachable (out : Nat → List U8) :
    ∃ es : List HsEvent, (∀ e ∈ es, e.smooth = true) ∧ (hsRun false out .init es).progs[0]? = some (.fgets 0 true) :=
  ⟨[.col, .col, .start, .prog 0, .prog 0, .prog 0], by decide, rfl⟩

/-- The schedule in which run 0 is killed after it has taken the name of the pipe. -/
def hsTaken : List HsEvent :=
  [.col, .col, .col, .start, .prog 0, .prog 0, .prog 0, .prog 0, .kill 0, .col]

/-- If a run ends after removing the handshake file and before opening the pipe, the collector
waits for a trace nobody will write, and no trace of any further run is collected. -/
theorem C68_taken (out : Nat → List U8) (es : List HsEvent) : (hsRun false out .init (hsTaken ++ es)).db = [] := by
  have h : hsRun false out .init hsTaken = ⟨none, [some 0], .read, [.killed], [.fresh], []⟩ := by
    simp [hsTaken, hsRun, hsStep, HsState.init, HsState.colStep, HsState.progStep, HsState.kill, HsState.setPc, HsState.cur,
      HsPc.stopped]
  rw [hsRun_append, h]
  refine Robbed.run es ⟨.inl rfl, rfl, ⟨_, rfl, rfl⟩, ?_⟩
  intro pc hpc
  rw [List.mem_singleton] at hpc
  subst hpc
  exact .inl rfl

/-- Two runs with two bytes each. -/
def hsOut : Nat → List U8
  | 0 => [10, 20]
  | _ => [30, 40]

/-- The schedule in which two runs write in turns. -/
def hsMixed : List HsEvent :=
  [.col, .col, .col, .start, .start, .prog 0, .prog 1, .prog 0, .prog 1, .prog 0, .prog 1, .prog 0, .prog 1, .col,
   .prog 0, .prog 1, .prog 0, .prog 1, .prog 0, .prog 1, .prog 0, .prog 1, .col]

/-- With runs at the same time, a trace may be a mixture of two. -/
theorem C68_parallel_mixed : (∀ e ∈ hsMixed, e.smooth = true) ∧
    (hsRun true hsOut .init hsMixed).db = [[(0, 10), (1, 30), (0, 20), (1, 40)]] := by
  decide +kernel

/-- With runs at the same time, a run may use a null pointer. -/
theorem C68_parallel_crash (out : Nat → List U8) : ∃ es : List HsEvent, (∀ e ∈ es, e.smooth = true) ∧
    (hsRun true out .init es).progs[1]? = some .crashed :=
  ⟨[.col, .col, .col, .start, .start, .prog 0, .prog 1, .prog 0, .prog 0, .prog 0, .prog 1], by decide, by
    simp [hsRun, hsStep, HsState.init, HsState.colStep, HsState.progStep, HsState.setPc, HsState.cur]⟩

/-- The schedule in which run 1 removes the file meant for the next run. -/
def hsRobbed : List HsEvent :=
  [.col, .col, .col, .start, .start, .prog 0, .prog 1, .prog 0, .prog 1, .prog 0, .prog 1, .prog 0, .col, .prog 0, .prog 0,
   .col, .col, .col, .col, .prog 1, .col]

/-- With runs at the same time, a run may remove the handshake file that was meant for the
next; then no trace is collected any more, however many runs there are and whatever they do. -/
theorem C68_parallel_robbed (es : List HsEvent) :
    (∀ e ∈ hsRobbed, e.smooth = true) ∧ (hsRun true (fun _ => []) .init (hsRobbed ++ es)).db = [[]] := by
  refine ⟨by decide, ?_⟩
  have h : hsRun true (fun _ => []) .init hsRobbed =
      ⟨none, [some 0, some 1], .read, [.ended, .openPipe 0], [⟨[], 0, true, false⟩, .fresh], [[]]⟩ := by
    decide +kernel
  rw [hsRun_append, h]
  refine Robbed.run es ⟨.inl rfl, rfl, ⟨_, rfl, rfl⟩, ?_⟩
  intro pc hpc
  rw [List.mem_cons, List.mem_singleton] at hpc
  rcases hpc with rfl | rfl
  · exact .inl rfl
  · exact .inr (.inr ⟨0, rfl, _, rfl, rfl⟩)

/-! Examples -/

/-- Two runs, one after the other, each with its trace. -/
def hsTwo : List HsEvent :=
  [.start, .col, .col, .col, .prog 0, .prog 0, .prog 0, .prog 0, .col, .prog 0, .prog 0, .prog 0, .prog 0, .col,
   .start, .prog 1, .col, .col, .prog 1, .prog 1, .col, .prog 1, .prog 1, .col, .prog 1, .prog 1, .prog 1, .prog 1]

/-- The hypotheses of `C68_complete` and `C68_exact`: the first trace is there, the second will
be at the next step. -/
example : HsEvent.giveUp ∉ hsTwo ∧ (∀ e ∈ hsTwo, e.smooth = true) ∧
    (hsRun false hsOut .init hsTwo).progs = [.ended, .ended] ∧
    (hsRun false hsOut .init hsTwo).db = [[(0, 10), (0, 20)]] ∧
    (hsRun false hsOut .init (hsTwo ++ [.col])).db = [[(0, 10), (0, 20)], [(1, 30), (1, 40)]] := by
  decide +kernel

/-- The hypotheses of `C68_can_end`: the second run waits for the file. -/
example : (∀ e ∈ hsTwo.take 15, e.smooth = true) ∧
    (hsRun false hsOut .init (hsTwo.take 15)).progs[1]? = some .look ∧ HsPc.look.stopped = false := by
  decide +kernel

/-- `C68_one_trace_per_run` with a trace that is cut: the collector has enough after one byte,
and the run is ended by its next write. -/
example : (hsRun false hsOut .init (hsTwo.take 11 ++ [.enough, .prog 0])).db = [[(0, 10)]] ∧
    (hsRun false hsOut .init (hsTwo.take 11 ++ [.enough, .prog 0])).progs = [.broken] := by
  decide +kernel

/-- The hypotheses of `C68_stuck`. -/
example : (hsRun false hsOut .init [.col, .col, .start, .prog 0, .prog 0, .prog 0]).progs[0]? = some (.fgets 0 true) ∧
    HsEvent.kill 0 ∉ [HsEvent.col, .col, .start, .prog 0, .giveUp] := by
  decide +kernel

end TraceDB
