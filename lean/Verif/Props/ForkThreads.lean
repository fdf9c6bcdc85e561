import Verif.Proofs.ForkThreads
import Verif.Props.Fork
/-
Property C91: the trace of a program with threads that forks.
-/
namespace TraceDB

/-- What a program is given to: its points, the calls that record them, and the steps of its
main thread. -/
structure FtProgram (cf : CFloat) (mem : CMem) (names : List Name) (types : List TypeDesc) (size : Nat)
    (p0 : RecPoint) (prog : List (FtItem RecPoint)) (acts : List FtAct) : Prop where
  header : HeaderOk names types
  namesLt : names.length < 2 ^ 32
  typed0 : ∀ x ∈ p0.items, x.Typed names types cf
  typed : FkEach (fun p => ∀ x ∈ p.items, x.Typed names types cf) (ftAsFork prog)
  reserved0 : ∀ r ∈ recSizes p0.items, r.address ≠ u64Max
  reserved : FkEach (fun p => ∀ r ∈ recSizes p.items, r.address ≠ u64Max) (ftAsFork prog)
  calls : ∃ c0 calls, p0.CalledAs cf mem c0 ∧ FtRel (RecPoint.CalledAs cf mem) prog calls ∧ FkSmall cf mem size (ftAsFork calls) ∧
    ftProgram cf mem names types (.point c0 :: calls) = .ok acts

theorem FtRel.asFork {α β : Type} {R : α → β → Prop} {l : List (FtItem α)} {m : List (FtItem β)} (h : FtRel R l m) :
    FkRel R (ftAsFork l) (ftAsFork m) := by
  induction h with
  | nil => simp only [ftAsFork]; exact .nil
  | point h _ ih => simp only [ftAsFork, FtItem.asFork]; exact .point h ih
  | fork _ _ ih1 ih2 => simp only [ftAsFork, FtItem.asFork]; exact .fork ih1 ih2
  | spawn _ _ ih1 ih2 => simp only [ftAsFork, FtItem.asFork]; exact .fork ih1 ih2

/-- The start of such a program. -/
theorem FtProgram.start {cf : CFloat} {mem : CMem} {names : List Name} {types : List TypeDesc} {size : Nat} {p0 : RecPoint}
    {prog : List (FtItem RecPoint)} {acts : List FtAct} (h : FtProgram cf mem names types size p0 prog acts) :
    ∃ rest, FtDoes (fun p => encodePoint types p.entries) size prog rest ∧
      FtFirst (encodeHeader names types ++ encodePoint types p0.entries) (FtState.start acts) rest := by
  obtain ⟨c0, calls, h0, hr, hsmall, ha⟩ := h.calls
  rw [ftProgram, writeTraceHeader_ok h.header h.namesLt, Res.ok_bind] at ha
  simp only [ftItems, FtItem.acts] at ha
  obtain ⟨x, hx, ha⟩ := Res.bind_eq_ok.mp ha
  cases ha
  obtain ⟨y, hy, hx⟩ := Res.bind_eq_ok.mp hx
  obtain ⟨z, hz, hx⟩ := Res.bind_eq_ok.mp hx
  cases hx
  obtain ⟨puts, rfl, hp⟩ := ftCalls_point (ft_plain h0) hy (point_bytes h0 h.typed0)
  refine ⟨z, ftItems_does hr h.typed (hsmall.encoded hr.asFork h.typed) (.inr rfl) hz, ⟨[], false, _, _, .before [encodeHeader names types] puts, ?_, ?_⟩⟩
  · simp [FtState.start]
  · simp [FtState.start, hp]

theorem ft_read (env : Env) (io : Bool) {cf : CFloat} {mem : CMem} {names : List Name} {types : List TypeDesc} {size : Nat} {p0 : RecPoint}
    {prog : List (FtItem RecPoint)} {acts : List FtAct} (h : FtProgram cf mem names types size p0 prog acts)
    (hal : ∀ n, env.canAlloc n = true) {don : List RecPoint} (hs : FkSoFar (ftAsFork prog) don) :
    readTrace env 0 (gs io (encodeHeader names types ++ encodePoint types p0.entries ++ don.flatMap fun p => encodePoint types p.entries)) =
      .ok ⟨names, types, recPoints 0 [] (p0 :: don)⟩ := by
  have := readTrace_recorded (env := env) (io := io) (cf := cf) (ps := p0 :: don) h.header hal (by
    intro p hp
    rcases List.mem_cons.mp hp with rfl | hp
    · exact h.typed0
    · exact hs.each h.typed p hp) (reservedOk_of_unused (by
    intro r hr
    obtain ⟨p, hp, hr'⟩ := List.mem_flatMap.mp hr
    rcases List.mem_cons.mp hp with rfl | hp
    · exact h.reserved0 r hr'
    · exact hs.each h.reserved p hp r hr'))
  rw [encodePoints_flatMap, List.flatMap_cons, ← List.append_assoc] at this
  exact this

theorem FtProgram.one {cf : CFloat} {mem : CMem} {names : List Name} {types : List TypeDesc} {size : Nat} {p0 : RecPoint}
    {prog : List (FtItem RecPoint)} {acts : List FtAct} (h : FtProgram cf mem names types size p0 prog acts) {c0 : U64 × List RtCall}
    (h0 : p0.CalledAs cf mem c0) :
    rtRun cf mem names types [c0] = .ok (encodeHeader names types ++ encodePoint types p0.entries) := by
  rw [rtRun, writeTraceHeader_ok h.header h.namesLt, Res.ok_bind]
  simp only [List.flatMap_cons, List.flatMap_nil, List.append_nil]
  rw [point_bytes h0 h.typed0]
  rfl

/-- **C91**.  A program records a point before it forks or creates threads, and no later point
is larger than the buffer of the stream.  As long as no thread forks or ends its process while
another thread of the process is recording a point, then, however threads and processes are
scheduled and whichever processes are killed, nothing is undefined, and at every moment the
file holds either a part of the header and the first point, or the header, the first point and
complete points that the threads of the processes have recorded, each thread in its own order;
in the latter case reading the file gives just these points. -/
theorem C91_forked (env : Env) (io : Bool) (cf : CFloat) (mem : CMem) (names : List Name) (types : List TypeDesc) (size : Nat)
    (p0 : RecPoint) (prog : List (FtItem RecPoint)) (acts : List FtAct) (hprog : FtProgram cf mem names types size p0 prog acts)
    (hal : ∀ n, env.canAlloc n = true) (events : List FtEvent) (hsafe : FtSafe size (FtState.start acts) events) :
    ∃ s, (FtState.start acts).run size events = .ok s ∧
      ((∃ c0 bs, p0.CalledAs cf mem c0 ∧ rtRun cf mem names types [c0] = .ok bs ∧ s.out <+: bs) ∨
        ∃ l, FkSoFar (ftAsFork prog) l ∧ readTrace env 0 (gs io s.out) = .ok ⟨names, types, recPoints 0 [] (p0 :: l)⟩) := by
  obtain ⟨rest, hd, hf⟩ := hprog.start
  obtain ⟨c0, _, h0, _⟩ := hprog.calls
  obtain ⟨s, hs, hc⟩ := ft_run hd False events (fun _ _ _ h => h) hf (ft_fine hsafe (fun h => h.elim) (fun _ _ _ h => h))
  refine ⟨s, hs, ?_⟩
  rcases hc with (h | ⟨_, h⟩) | ⟨don, progs, h⟩
  · exact .inl ⟨c0, _, h0, hprog.one h0, h.prefix⟩
  · exact .inl ⟨c0, _, h0, hprog.one h0, h.out⟩
  · have hso : FkSoFar (ftAsFork prog) don := by
      simpa using h.soFar [] (FtMix.none progs fun q _ => FtMix.none q fun _ _ => .stop _)
    refine .inr ⟨don, hso, ?_⟩
    rw [h.out]
    exact ft_read env io hprog hal hso

/-- **C91, end.**  If moreover nobody was killed, no process was ended before its threads had
ended, and everything has ended, reading the file gives the first point and then every point
of every thread of every process once, each thread in its own order. -/
theorem C91_all_recorded (env : Env) (io : Bool) (cf : CFloat) (mem : CMem) (names : List Name) (types : List TypeDesc) (size : Nat)
    (p0 : RecPoint) (prog : List (FtItem RecPoint)) (acts : List FtAct) (hprog : FtProgram cf mem names types size p0 prog acts)
    (hal : ∀ n, env.canAlloc n = true) (events : List FtEvent) (hsafe : FtSafe size (FtState.start acts) events)
    (hjoin : FtJoined size (FtState.start acts) events) (hk : ∀ e ∈ events, ¬ e.IsKill) (s : FtState)
    (hs : (FtState.start acts).run size events = .ok s) (hend : s.Ended) :
    ∃ l, FkAll (ftAsFork prog) l ∧ readTrace env 0 (gs io s.out) = .ok ⟨names, types, recPoints 0 [] (p0 :: l)⟩ := by
  obtain ⟨rest, hd, hf⟩ := hprog.start
  have hk' : ∀ e ∈ events, e.IsKill → ¬ True := fun e he h => absurd h (hk e he)
  obtain ⟨s2, hs2, hc⟩ := ft_run hd True events hk' hf (ft_fine hsafe (fun _ => hjoin) hk')
  rw [hs] at hs2
  cases hs2
  rcases hc with (h | ⟨h, _⟩) | ⟨don, progs, h⟩
  · obtain ⟨buf, locked, more, t, hh, hp, _⟩ := h.split
    have := hend _ (by rw [hp]; exact List.mem_singleton.mpr rfl) t (List.mem_singleton.mpr rfl)
    subst this
    generalize ht : ([] : List FtAct) = t at hh
    cases hh with
    | locked puts => cases puts <;> simp at ht
    | before puts => cases puts <;> simp at ht
  · exact absurd trivial h
  · have hnil : ∀ items ∈ progs, ∀ q ∈ items, q = [] := by
      intro items hi q hq
      obtain ⟨i, hi⟩ := List.mem_iff_getElem?.mp hi
      have hlt' : i < s.procs.length := by rw [h.procs.length]; exact (List.getElem?_eq_some_iff.mp hi).1
      obtain ⟨items', hi', hok⟩ := h.procs.fkGet (List.getElem?_eq_getElem hlt')
      rw [hi] at hi'
      cases hi'
      obtain ⟨k, hk⟩ := List.mem_iff_getElem?.mp hq
      have hlt : k < s.procs[i].threads.length := by rw [hok.len]; exact (List.getElem?_eq_some_iff.mp hk).1
      obtain ⟨q', hq', hthr⟩ := hok.thr k _ (List.getElem?_eq_getElem hlt)
      rw [hk] at hq'
      cases hq'
      rw [hend _ (List.getElem_mem hlt') _ (List.getElem_mem hlt)] at hthr
      generalize (s.procs[i]).bufOf k = b at hthr
      generalize ht : ([] : List FtAct) = t at hthr
      cases hthr with
      | out hdo => cases hdo <;> first | rfl | simp at ht
      | @inside _ _ _ puts => cases puts <;> simp at ht
      | done => simp at ht
    have hall : FkAll (ftAsFork prog) don := by
      have := h.all trivial [] (FtMix.none progs fun items hi => FtMix.none items fun q hq => by
        rw [hnil items hi q hq]; simp only [ftAsFork]; exact .nil)
      simpa using this
    refine ⟨don, hall, ?_⟩
    rw [h.out]
    exact ft_read env io hprog hal hall.soFar

/-- **C91, no deadlock.**  As long as the conditions of `C91_forked` were respected, everything
can still end, respecting them, and without anybody being killed. -/
theorem C91_can_end (cf : CFloat) (mem : CMem) (names : List Name) (types : List TypeDesc) (size : Nat)
    (p0 : RecPoint) (prog : List (FtItem RecPoint)) (acts : List FtAct) (hprog : FtProgram cf mem names types size p0 prog acts)
    (events : List FtEvent) (hsafe : FtSafe size (FtState.start acts) events) :
    ∃ more s, (∀ e ∈ more, ¬ e.IsKill) ∧ FtSafe size (FtState.start acts) (events ++ more) ∧
      (FtState.start acts).run size (events ++ more) = .ok s ∧ s.Ended := by
  obtain ⟨rest, hd, hf⟩ := hprog.start
  have hfine := ft_fine (exact := False) hsafe (fun h => h.elim) (fun _ _ _ h => h)
  obtain ⟨s, hs, hc⟩ := ft_run hd False events (fun _ _ _ h => h) hf hfine
  have hgood : FtGood (fun p : RecPoint => encodePoint types p.entries) size
      (encodeHeader names types ++ encodePoint types p0.entries) prog rest s := by
    rcases hc with (h | ⟨_, h⟩) | h
    · exact .inl h
    · exact .inr (.inl h)
    · exact .inr (.inr h)
  obtain ⟨more, s', h1, h2, h3, h4⟩ := ft_can_end hd hgood
  exact ⟨more, s', h1, (hfine.append hs h2).safe, ftRun_append hs h3, h4⟩

/-- **C91, the mutex.**  Even if threads fork while others record points, no thread ever
unlocks the mutex without owning it: every schedule is defined. -/
theorem C91_never_undefined (cf : CFloat) (mem : CMem) (names : List Name) (types : List TypeDesc) (size : Nat)
    (prog : List (FtItem RecPoint)) (calls : List (FtItem (U64 × List RtCall))) (acts : List FtAct)
    (hr : FtRel (RecPoint.CalledAs cf mem) prog calls) (ha : ftProgram cf mem names types calls = .ok acts) (events : List FtEvent) :
    ∃ s, (FtState.start acts).run size events = .ok s := by
  rw [ftProgram] at ha
  obtain ⟨hdr, _, ha⟩ := Res.bind_eq_ok.mp ha
  obtain ⟨body, hb, ha⟩ := Res.bind_eq_ok.mp ha
  cases ha
  have hwf : FtWf false body := ftItems_wf calls (hr.each fun a b hab => ft_plain hab) (.exit _) hb
  have hok : FtOk (FtState.start (.put hdr :: body)) := by
    intro p hp
    rw [List.mem_singleton.mp hp]
    refine ⟨by simp, ?_⟩
    intro k t hk
    cases k with
    | zero =>
      simp only [List.getElem?_cons_zero, Option.some.injEq] at hk
      subst hk
      exact .put hwf
    | succ k => simp at hk
  obtain ⟨s, hs, _⟩ := hok.run size events
  exact ⟨s, hs⟩

/-- **C91, forking while a point is recorded.**  If thread `j` of a process forks while another
one, `k`, owns the mutex, and the child wants to record a point first, the child waits for
ever: whatever happens later, it has not gone on by a single step, unless it was killed. -/
theorem C91_child_waits (cf : CFloat) (mem : CMem) (size : Nat) (s s' s'' : FtState) (i j k : Nat) (p : FtProc)
    (id : U64) (cs : List RtCall) (items : List (FtItem (U64 × List RtCall))) (c r : List FtAct) (events : List FtEvent)
    (hc : ftItems cf mem [.exit] (.point (id, cs) :: items) = .ok c) (hp : s.procs[i]? = some p) (hb : p.buf.length ≤ size)
    (hj : p.threads[j]? = some (.fork c :: r)) (ho : p.owner = some k)
    (h1 : s.step size (.run i j) = .ok s') (h2 : s'.run size events = .ok s'') :
    ∃ q, s''.procs[s.procs.length]? = some q ∧ (q = .gone ∨ (q.owner = some k ∧ q.threads[j]? = some c)) := by
  obtain ⟨c', rfl⟩ : ∃ c', c = .lock :: c' := by
    simp only [ftItems, FtItem.acts] at hc
    obtain ⟨x, hx, hc⟩ := Res.bind_eq_ok.mp hc
    obtain ⟨y, _, hc⟩ := Res.bind_eq_ok.mp hc
    cases hc
    simp only [pointCalls, ftCalls] at hx
    obtain ⟨b, _, hx⟩ := Res.bind_eq_ok.mp hx
    obtain ⟨d, _, hx⟩ := Res.bind_eq_ok.mp hx
    cases hx
    exact ⟨_, rfl⟩
  have hlt : j < p.threads.length := (List.getElem?_eq_some_iff.mp hj).1
  simp only [FtState.step, hp, if_pos hb, hj] at h1
  cases h1
  have hst : FtStuck s.procs.length j k c' ⟨s.out, s.procs.set i ⟨p.buf, p.owner, p.threads.set j r⟩ ++
      [⟨p.buf, p.owner, (List.replicate p.threads.length []).set j (.lock :: c')⟩]⟩ := by
    refine ⟨⟨p.buf, p.owner, (List.replicate p.threads.length []).set j (.lock :: c')⟩, ?_, .inr ⟨ho, List.getElem?_set_self (by simpa using hlt), ?_⟩⟩
    · simp only
      rw [List.getElem?_append_right (by simp)]
      simp
    · intro m hm t ht
      simp only [ne_eq, Ne.symm hm, not_false_eq_true, List.getElem?_set_ne, List.getElem?_replicate] at ht
      split at ht
      · cases ht; rfl
      · simp at ht
  obtain ⟨q, hq, hc⟩ := hst.run size events h2
  refine ⟨q, hq, ?_⟩
  rcases hc with h | ⟨h3, h4, _⟩
  · exact .inl h
  · exact .inr ⟨h3, h4⟩

/-! Examples -/

/-- Whether the conditions hold for a run: nobody forks or ends a process within a point of
another thread (unless `fork` allows this), nobody ends a process before its threads. -/
def ftCheck (size : Nat) (fork : Bool) (s : FtState) : List FtEvent → Bool
  | [] => true
  | e :: es =>
    (match e with
      | .run i j =>
        match s.procs[i]? with
        | none => true
        | some p =>
          match p.threads[j]? with
          | some (.fork _ :: _) => fork || p.owner.isNone
          | some (.exit :: _) => (fork || p.owner.isNone) && (p.threads.eraseIdx j).all List.isEmpty
          | _ => true
      | _ => true) &&
    (match s.step size e with
      | .ok s' => ftCheck size fork s' es
      | _ => true)

theorem ftCheck_safe {size : Nat} : ∀ {events : List FtEvent} {s : FtState}, ftCheck size false s events = true → FtSafe size s events := by
  intro events
  induction events with
  | nil => intro s _ a i j b s' p act r he; simp at he
  | cons e es ih =>
    intro s h a i j b s' p act r he hrun hp ht hl
    unfold ftCheck at h
    rw [Bool.and_eq_true] at h
    cases a with
    | nil =>
      cases he
      cases hrun
      have h1 := h.1
      simp only [hp, ht] at h1
      cases act with
      | fork c => simpa using h1
      | exit => simp only [Bool.false_or, Bool.and_eq_true, Option.isNone_iff_eq_none] at h1; exact h1.1
      | _ => exact hl.elim
    | cons x a =>
      simp only [List.cons_append, List.cons.injEq] at he
      obtain ⟨rfl, he⟩ := he
      rw [FtState.run] at hrun
      obtain ⟨s1, h1, hrun⟩ := Res.bind_eq_ok.mp hrun
      have h2 := h.2
      rw [h1] at h2
      exact ih h2 a i j b s' p act r he hrun hp ht hl

theorem ftCheck_joined {size : Nat} {fork : Bool} : ∀ {events : List FtEvent} {s : FtState}, ftCheck size fork s events = true →
    FtJoined size s events := by
  intro events
  induction events with
  | nil => intro s _ a i j b s' p r he; simp at he
  | cons e es ih =>
    intro s h a i j b s' p r he hrun hp ht
    unfold ftCheck at h
    rw [Bool.and_eq_true] at h
    cases a with
    | nil =>
      cases he
      cases hrun
      have h1 := h.1
      simp only [hp, ht, Bool.and_eq_true, List.all_eq_true] at h1
      intro k t hk hkt
      have := h1.2 t (List.mem_eraseIdx_iff_getElem?.mpr ⟨k, hk, hkt⟩)
      simpa using this
    | cons x a =>
      simp only [List.cons_append, List.cons.injEq] at he
      obtain ⟨rfl, he⟩ := he
      rw [FtState.run] at hrun
      obtain ⟨s1, h1, hrun⟩ := Res.bind_eq_ok.mp hrun
      have h2 := h.2
      rw [h1] at h2
      exact ih h2 a i j b s' p r he hrun hp ht

/-- `n` steps of thread `j` of process `i`. -/
def ftRuns (i j n : Nat) : List FtEvent := List.replicate n (.run i j)

theorem ftRuns_kill {i j n : Nat} : ∀ e ∈ ftRuns i j n, ¬ e.IsKill := by
  intro e he
  rw [ftRuns] at he
  rw [(List.mem_replicate.mp he).2]
  exact id

def FtState.endedB (s : FtState) : Bool := s.procs.all fun p => p.threads.all List.isEmpty

theorem FtState.ended_of {s : FtState} (h : s.endedB = true) : s.Ended := by
  intro p hp t ht
  have := List.all_eq_true.mp (List.all_eq_true.mp h p hp) t ht
  simpa using this

/-- The state at the end of a run. -/
def ftFinal (size : Nat) (acts : List FtAct) (events : List FtEvent) : FtState :=
  match (FtState.start acts).run size events with
  | .ok s => s
  | _ => ⟨[], []⟩

def ftSteps (items : List (FtItem (U64 × List RtCall))) : List FtAct :=
  match ftProgram exFloat exMem exNames rtTypes items with
  | .ok a => a
  | _ => []

theorem ftFinal_run {size : Nat} {acts : List FtAct} {events : List FtEvent} (h : ((FtState.start acts).run size events).isOk = true) :
    (FtState.start acts).run size events = .ok (ftFinal size acts events) := by
  unfold ftFinal
  cases hr : (FtState.start acts).run size events <;> simp [hr, Res.isOk] at h ⊢

/-- A program that records a point, creates a thread that records another one, and forks a
child that records a third one. -/
def ftProg : List (FtItem RecPoint) := [.spawn [.point rtPoint1], .fork [.point fkPoint]]
def ftProgCalls : List (FtItem (U64 × List RtCall)) := [.spawn [.point rtCalls1], .fork [.point fkCall]]

/-- The hypotheses of the theorems hold for it, with buffers of 4096 bytes. -/
theorem ftProg_ok : FtProgram exFloat exMem exNames rtTypes 4096 rtPoint2 ftProg (ftSteps (.point rtCalls2 :: ftProgCalls)) where
  header := ⟨by decide, by decide, by decide, by decide⟩
  namesLt := by decide
  typed0 := rtPoints_typed rtPoint2 (by decide)
  typed := by
    refine .fork (.point ?_ .nil) (.fork (.point ?_ .nil) .nil)
    · exact rtPoints_typed rtPoint1 (by decide)
    · simp [fkPoint, RecItem.Typed, VarRec.Typed, CValue.InRange, CValue.FloatOk, CValue.format, CValue.size, exNames, rtTypes, exTypes]
  reserved0 := by decide +kernel
  reserved := .fork (.point (by decide +kernel) .nil) (.fork (.point (by decide +kernel) .nil) .nil)
  calls := by
    refine ⟨rtCalls2, ftProgCalls, ?_, .spawn (.point ?_ .nil) (.fork (.point fkCall_ok .nil) .nil),
      .fork (.point ?_ .nil) (.fork (.point ?_ .nil) .nil), rfl⟩
    · cases rtCalls_ok with | cons _ h => cases h with | cons h _ => exact h
    · cases rtCalls_ok with | cons h _ => exact h
    · intro b hb
      have : rtBytes exFloat exMem (pointCalls rtCalls1.1 rtCalls1.2) = .ok (encodePoint rtTypes rtPoint1.entries) :=
        point_bytes (by cases rtCalls_ok with | cons h _ => exact h) (rtPoints_typed rtPoint1 (by decide))
      rw [this] at hb
      cases hb
      decide +kernel
    · intro b hb
      cases hb
      decide +kernel

/-- A run of it: the parent forks after its thread has recorded the point. -/
def ftGoodRun : List FtEvent := ftRuns 0 0 54 ++ ftRuns 0 1 70 ++ ftRuns 0 0 1 ++ ftRuns 1 0 20 ++ ftRuns 0 0 1 ++ ftRuns 1 0 40

/-- The conditions hold, everything ends, and the three points are read. -/
example : FtSafe 4096 (FtState.start (ftSteps (.point rtCalls2 :: ftProgCalls))) ftGoodRun ∧
    FtJoined 4096 (FtState.start (ftSteps (.point rtCalls2 :: ftProgCalls))) ftGoodRun ∧
    (ftFinal 4096 (ftSteps (.point rtCalls2 :: ftProgCalls)) ftGoodRun).Ended ∧
    fkStatements (readTrace exEnv 0 (gs false (ftFinal 4096 (ftSteps (.point rtCalls2 :: ftProgCalls)) ftGoodRun).out)) = [8, 7, 9] :=
  ⟨ftCheck_safe (by decide +kernel), ftCheck_joined (fork := false) (by decide +kernel), FtState.ended_of (by decide +kernel), by decide +kernel⟩

set_option maxRecDepth 20000 in
/-- The child of `C91_child_waits`: the thread owns the mutex when the parent forks. -/
example : ∃ p c r, (ftFinal 4096 (ftSteps (.point rtCalls2 :: ftProgCalls)) (ftRuns 0 0 54 ++ ftRuns 0 1 10)).procs[0]? = some p ∧
    p.threads[0]? = some (.fork c :: r) ∧ p.owner = some 1 ∧ ftItems exFloat exMem [.exit] [.point fkCall] = .ok c :=
  ⟨_, _, _, rfl, rfl, rfl, rfl⟩

/-- **C91, forking while a point is recorded.**  The condition on forks is needed even if the
child records nothing.  Here a thread has put nine bytes of its point when the main thread
forks; the child ends at once, and writes its copy of these bytes.  Everything ends normally,
no process before its threads, and the trace cannot be read. -/
theorem C91_fork_inside : ∃ events s, (FtState.start (ftSteps [.point rtCalls2, .spawn [.point rtCalls1], .fork []])).run 4096 events = .ok s ∧
    (∀ e ∈ events, ¬ e.IsKill) ∧ FtJoined 4096 (FtState.start (ftSteps [.point rtCalls2, .spawn [.point rtCalls1], .fork []])) events ∧
    s.Ended ∧ (readTrace exEnv 0 (gs false s.out)).isThrow = true := by
  refine ⟨ftRuns 0 0 54 ++ ftRuns 0 1 9 ++ ftRuns 0 0 1 ++ ftRuns 1 0 1 ++ ftRuns 0 1 90 ++ ftRuns 0 0 1,
    ftFinal 4096 (ftSteps [.point rtCalls2, .spawn [.point rtCalls1], .fork []])
      (ftRuns 0 0 54 ++ ftRuns 0 1 9 ++ ftRuns 0 0 1 ++ ftRuns 1 0 1 ++ ftRuns 0 1 90 ++ ftRuns 0 0 1), ftFinal_run (by decide +kernel), ?_,
    ftCheck_joined (fork := true) (by decide +kernel), FtState.ended_of (by decide +kernel), by decide +kernel⟩
  simp only [List.mem_append]
  rintro e (((((h | h) | h) | h) | h) | h) <;> exact ftRuns_kill e h

/-- **C91, ending while a point is recorded.**  The condition on the end of processes is needed
too: when the main thread returns from `main`, nine bytes of the point of a thread are written.
The trace could be read up to there, but a child records a point afterwards. -/
theorem C91_exit_inside : ∃ events s, (FtState.start (ftSteps [.point rtCalls2, .fork [.point fkCall], .spawn [.point rtCalls1]])).run 4096 events = .ok s ∧
    (∀ e ∈ events, ¬ e.IsKill) ∧ s.Ended ∧ (readTrace exEnv 0 (gs false s.out)).isThrow = true := by
  refine ⟨ftRuns 0 0 55 ++ ftRuns 0 1 9 ++ ftRuns 0 0 1 ++ ftRuns 1 0 90,
    ftFinal 4096 (ftSteps [.point rtCalls2, .fork [.point fkCall], .spawn [.point rtCalls1]])
      (ftRuns 0 0 55 ++ ftRuns 0 1 9 ++ ftRuns 0 0 1 ++ ftRuns 1 0 90), ftFinal_run (by decide +kernel), ?_, FtState.ended_of (by decide +kernel), by decide +kernel⟩
  simp only [List.mem_append]
  rintro e (((h | h) | h) | h) <;> exact ftRuns_kill e h

end TraceDB
