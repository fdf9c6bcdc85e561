import Verif.Proofs.Signals
import Verif.Proofs.ThreadCrash
/-
Property C88: signals in an instrumented program.
-/
namespace TraceDB

/-- A program with signals: the points its threads and handlers record (`threads`, `events`), the
runtime calls they make, and their steps. -/
structure SgProgram (cf : CFloat) (mem : CMem) (names : List Name) (types : List TypeDesc)
    (threads : List (List RecPoint)) (acts : List (List RtAct))
    (events : List (SgEvent (List RecPoint))) (steps : List (SgEvent (List RtAct))) : Prop where
  called : ∃ calls, AllRel (AllRel (RecPoint.CalledAs cf mem)) threads calls ∧ Steps cf mem calls acts
  handlers : ∃ calls, AllRel (SgEvent.Rel (AllRel (RecPoint.CalledAs cf mem))) events calls ∧
    AllRel (SgEvent.Rel fun l a => rtActs cf mem (l.flatMap fun p => pointCalls p.1 p.2) = .ok a) calls steps
  typed : ∀ l ∈ threads, ∀ p ∈ l, ∀ x ∈ p.items, x.Typed names types cf
  typed' : ∀ e ∈ events, ∀ p ∈ e.code, ∀ x ∈ p.items, x.Typed names types cf
  range : ∀ e ∈ events, e.InRange threads.length

theorem SgProgram.acts_eq {cf : CFloat} {mem : CMem} {names : List Name} {types : List TypeDesc}
    {threads : List (List RecPoint)} {acts : List (List RtAct)} {events : List (SgEvent (List RecPoint))}
    {steps : List (SgEvent (List RtAct))} (h : SgProgram cf mem names types threads acts events steps) :
    acts = threads.map (fun l => actsAll (l.map fun p => encodePoint types p.entries)) ∧
    steps = events.map (SgEvent.map fun l => actsAll (l.map fun p => encodePoint types p.entries)) := by
  constructor
  · obtain ⟨calls, h1, h2⟩ := h.called
    rw [Steps.eq (writes_of_called h1 h.typed) h2, List.map_map]
    rfl
  · have hc : ∀ (l : List RecPoint) (c : List (U64 × List RtCall)) (a : List RtAct), AllRel (RecPoint.CalledAs cf mem) l c →
        rtActs cf mem (c.flatMap fun p => pointCalls p.1 p.2) = .ok a → (∀ p ∈ l, ∀ x ∈ p.items, x.Typed names types cf) →
        a = actsAll (l.map fun p => encodePoint types p.entries) := by
      intro l c a hl ha ht
      have := Steps.eq (writes_of_called (threads := [l]) (calls := [c]) (names := names) (types := types) (.cons hl .nil)
        (fun l' hl' => by cases List.mem_singleton.mp hl'; exact ht)) (acts := [a]) (.cons ha .nil)
      simpa using this
    obtain ⟨calls, h1, h2⟩ := h.handlers
    have ht := h.typed'
    clear h
    induction h1 generalizing steps with
    | nil => cases h2; rfl
    | cons hr _ ih =>
      cases h2 with
      | cons ha h2 =>
        rw [List.map_cons, ← ih h2 fun e he => ht e (List.mem_cons_of_mem _ he)]
        have hte := ht _ List.mem_cons_self
        cases hr with
        | run i => cases ha; rfl
        | signal i hr => cases ha with | signal _ ha => rw [SgEvent.map, ← hc _ _ _ hr ha hte]
        | jump i hr => cases ha with | jump _ ha => rw [SgEvent.map, ← hc _ _ _ hr ha hte]

/-- The points that were recorded or are still to be recorded are points of the program. -/
theorem SgReach.mem {α : Type} {threads : List (List α)} {es : List (SgEvent (List α))} {order : List (Nat × α)}
    {rem : List (List α)} (h : SgReach threads es order rem) {P : α → Prop} (hP : ∀ l ∈ threads, ∀ p ∈ l, P p)
    (hQ : ∀ e ∈ es, ∀ p ∈ e.code, P p) : (∀ x ∈ order, P x.2) ∧ ∀ l ∈ rem, ∀ p ∈ l, P p := by
  induction h with
  | start => exact ⟨by simp, hP⟩
  | @point es order rem i p l _ hi ih =>
    obtain ⟨h1, h2⟩ := ih hQ
    have hm := List.mem_of_getElem? hi
    refine ⟨?_, ?_⟩
    · intro x hx
      rcases List.mem_append.mp hx with hx | hx
      · exact h1 x hx
      · cases List.mem_singleton.mp hx; exact h2 _ hm p (by simp)
    · intro m hm' q hq
      rcases List.mem_or_eq_of_mem_set hm' with hm' | rfl
      · exact h2 m hm' q hq
      · exact h2 _ hm q (by simp [hq])
  | @signal es order rem i g l _ hi ih =>
    obtain ⟨h1, h2⟩ := ih fun e he => hQ e (List.mem_append_left _ he)
    refine ⟨h1, ?_⟩
    intro m hm' q hq
    rcases List.mem_or_eq_of_mem_set hm' with hm' | rfl
    · exact h2 m hm' q hq
    · rcases List.mem_append.mp hq with hq | hq
      · exact hQ (.signal i g) (by simp) q hq
      · exact h2 _ (List.mem_of_getElem? hi) q hq
  | @jump es order rem i g _ ih =>
    obtain ⟨h1, h2⟩ := ih fun e he => hQ e (List.mem_append_left _ he)
    refine ⟨h1, ?_⟩
    intro m hm' q hq
    rcases List.mem_or_eq_of_mem_set hm' with hm' | rfl
    · exact h2 m hm' q hq
    · exact hQ (.jump i m) (by simp) q hq

/-- **C88**.  Threads are interrupted by signals whose handlers record points, return or leave by
`longjmp`, and are interrupted themselves, but none of them within a point.  Then at every moment
the file holds the header, complete points and at most a part of one more point.  The complete
points are those that the threads record if each handler records its points where its thread was
interrupted; the part is one of the next point of its thread. -/
theorem C88_between_points (cf : CFloat) (mem : CMem) (names : List Name) (types : List TypeDesc) (header : List U8)
    (threads : List (List RecPoint)) (acts : List (List RtAct)) (events : List (SgEvent (List RecPoint)))
    (steps : List (SgEvent (List RtAct))) (hp : SgProgram cf mem names types threads acts events steps)
    (hsafe : SgSafe (RtState.init header acts) steps) :
    ∃ s order rem unfinished, (RtState.init header acts).sgRun steps = .ok s ∧
      SgReach threads (events.filter SgEvent.isSignal) order rem ∧
      s.out = header ++ (encodePoints types (order.map fun x => x.2.entries) ++ unfinished) ∧
      (unfinished = [] ∨ ∃ (i : Nat) (p : RecPoint) (l : List RecPoint), rem[i]? = some (p :: l) ∧
        unfinished <+: encodePoint types p.entries) := by
  obtain ⟨rfl, rfl⟩ := hp.acts_eq
  obtain ⟨s, order, rem, cur, h1, h2, h3, _⟩ := sgInv_run (enc := fun p : RecPoint => encodePoint types p.entries) events
    .start (sgInv_init header threads) hp.range hsafe
  refine ⟨s, order, rem, cur.written, h1, by simpa using h2, ?_, ?_⟩
  · rw [h3.out]
    simp only [encodePoints, List.flatMap, List.map_map]
    rfl
  · cases hcur : cur with
    | none => exact .inl rfl
    | some x =>
      obtain ⟨i, w, u⟩ := x
      have hlt : i < rem.length := h3.curLt _ hcur
      obtain ⟨a, ha, ht⟩ := h3.thr i rem[i] (List.getElem?_eq_getElem hlt)
      rw [hcur] at ht
      simp only [SgCur.at, if_true] at ht
      have hi := List.getElem?_eq_getElem hlt
      generalize rem[i] = l at ht hi
      cases ht with
      | busy r he => exact .inr ⟨i, _, r, hi, ⟨u, he.symm⟩⟩

/-- **C88, end.**  If all threads have ended, the trace is read as exactly these points. -/
theorem C88_read_back (env : Env) (io : Bool) (cf : CFloat) (mem : CMem) (names : List Name) (types : List TypeDesc)
    (header : List U8) (hdr : HeaderOk names types) (hn : names.length < 2 ^ 32)
    (hheader : writeTraceHeader names types = .ok header) (hal : ∀ n, env.canAlloc n = true)
    (threads : List (List RecPoint)) (acts : List (List RtAct)) (events : List (SgEvent (List RecPoint)))
    (steps : List (SgEvent (List RtAct))) (hp : SgProgram cf mem names types threads acts events steps)
    (hres : ∀ l ∈ threads, ∀ p ∈ l, ∀ r ∈ recSizes p.items, r.address ≠ u64Max)
    (hres' : ∀ e ∈ events, ∀ p ∈ e.code, ∀ r ∈ recSizes p.items, r.address ≠ u64Max)
    (hsafe : SgSafe (RtState.init header acts) steps) (s : RtState)
    (hrun : (RtState.init header acts).sgRun steps = .ok s) (hend : s.Ended) :
    ∃ order rem, SgReach threads (events.filter SgEvent.isSignal) order rem ∧ (∀ l ∈ rem, l = []) ∧
      readTrace env 0 (gs io s.out) = .ok ⟨names, types, recPoints 0 [] (order.map (·.2))⟩ := by
  rw [writeTraceHeader_ok hdr hn] at hheader
  cases hheader
  have htyped := hp.typed
  have htyped' := hp.typed'
  obtain ⟨rfl, rfl⟩ := hp.acts_eq
  obtain ⟨s', order, rem, cur, h1, h2, h3, _⟩ := sgInv_run (enc := fun p : RecPoint => encodePoint types p.entries) events
    .start (sgInv_init _ threads) hp.range hsafe
  rw [hrun] at h1
  cases h1
  obtain ⟨h4, rfl⟩ := SgReach.nil_of_ended h3 hend
  simp only [List.nil_append] at h2
  refine ⟨order, rem, h2, h4, ?_⟩
  have hout : s.out = encodeHeader names types ++ encodePoints types ((order.map (·.2)).map RecPoint.entries) := by
    rw [h3.out]
    simp only [List.map_map, encodePoints, List.flatMap, SgCur.written, List.append_nil]
    rfl
  rw [hout]
  refine readTrace_recorded (cf := cf) hdr hal ?_ ?_
  · intro p hp'
    obtain ⟨x, hx, rfl⟩ := List.mem_map.mp hp'
    exact (h2.mem (P := fun p => ∀ x ∈ p.items, x.Typed names types cf) htyped
      (fun e he => htyped' e ((List.mem_filter.mp he).1))).1 x hx
  · apply reservedOk_of_unused
    intro r hr
    obtain ⟨p, hp', hr⟩ := List.mem_flatMap.mp hr
    obtain ⟨x, hx, rfl⟩ := List.mem_map.mp hp'
    exact (h2.mem (P := fun p => ∀ r ∈ recSizes p.items, r.address ≠ u64Max) hres
      (fun e he => hres' e ((List.mem_filter.mp he).1))).1 x hx r hr

/-- **C88, no deadlock.**  And all threads can still end. -/
theorem C88_can_end (cf : CFloat) (mem : CMem) (names : List Name) (types : List TypeDesc) (header : List U8)
    (threads : List (List RecPoint)) (acts : List (List RtAct)) (events : List (SgEvent (List RecPoint)))
    (steps : List (SgEvent (List RtAct))) (hp : SgProgram cf mem names types threads acts events steps)
    (hsafe : SgSafe (RtState.init header acts) steps) :
    ∃ (more : List Nat) (s : RtState), (RtState.init header acts).sgRun (steps ++ more.map .run) = .ok s ∧ s.Ended := by
  obtain ⟨rfl, rfl⟩ := hp.acts_eq
  obtain ⟨s, order, rem, cur, h1, h2, h3, _⟩ := sgInv_run (enc := fun p : RecPoint => encodePoint types p.entries) events
    .start (sgInv_init header threads) hp.range hsafe
  obtain ⟨more, s', h4, h5⟩ := sgInv_finish _ h2 h3 (Nat.le_refl _)
  refine ⟨more, s', ?_, h5⟩
  rw [sgRun_append, h1]
  exact h4

/-- **C88, deadlock.**  As soon as a thread is hit within a point, nothing is written any more,
whatever happens: the file keeps the points recorded before and a part of the point that was
interrupted.  The thread that was hit and all others that have not ended never end, unless a
handler leaves by `longjmp`. -/
theorem C88_within_a_point (cf : CFloat) (mem : CMem) (names : List Name) (types : List TypeDesc) (header : List U8)
    (threads : List (List RecPoint)) (acts : List (List RtAct)) (events : List (SgEvent (List RecPoint)))
    (steps : List (SgEvent (List RtAct))) (hp : SgProgram cf mem names types threads acts events steps)
    (n : Nat) (hsafe : SgSafe (RtState.init header acts) (steps.take n)) (s : RtState)
    (hs : (RtState.init header acts).sgRun (steps.take n) = .ok s) (e : SgEvent (List RecPoint)) (he : events[n]? = some e)
    (i : Nat) (hi : e.Hits i) (ho : s.owner = some i) :
    ∃ s', (RtState.init header acts).sgRun steps = .ok s' ∧ s'.out = s.out ∧ s'.owner = some i ∧
      ((∀ j l, SgEvent.jump j l ∉ events.drop n) → ∀ j, (j = i ∨ ∃ a, s.threads[j]? = some a ∧ a ≠ []) →
        ∃ a, s'.threads[j]? = some a ∧ a ≠ []) := by
  have hrange := hp.range
  obtain ⟨rfl, rfl⟩ := hp.acts_eq
  rw [← List.map_take] at hsafe hs
  obtain ⟨s1, order, rem, cur, h1, h2, h3, _⟩ := sgInv_run (enc := fun p : RecPoint => encodePoint types p.entries) (events.take n)
    .start (sgInv_init header threads) (fun x hx => hrange x (List.mem_of_mem_take hx)) hsafe
  rw [hs] at h1
  cases h1
  obtain ⟨s1, h4, h5, ⟨h6, hown⟩, h7, h8⟩ := sgStuck_of_hit h3 e i hi ho
  obtain ⟨s2, h9, h10, h11, h12⟩ := sgStuck_run (enc := fun p : RecPoint => encodePoint types p.entries) (events.drop (n + 1)) h5
  obtain ⟨hlt, rfl⟩ := List.getElem?_eq_some_iff.mp he
  have hsplit : events = events.take n ++ events[n] :: events.drop (n + 1) := by
    rw [← List.drop_eq_getElem_cons, List.take_append_drop]
  refine ⟨s2, ?_, by rw [h10, h6], by rw [h11, hown, ho], ?_⟩
  · conv => lhs; rw [hsplit]
    rw [List.map_append, sgRun_append, hs, Res.ok_bind, List.map_cons]
    simp only [RtState.sgRun]
    rw [h4]
    exact h9
  · intro hj
    have hd : events.drop n = events[n] :: events.drop (n + 1) := List.drop_eq_getElem_cons hlt
    rw [hd] at hj
    have hsig : ∃ g, events[n] = .signal i g := by
      cases hx : events[n] with
      | run j => rw [hx] at hi; exact absurd hi id
      | signal j g => rw [hx] at hi; exact ⟨g, by rw [hi.1]⟩
      | jump j g => exact absurd (hx ▸ List.mem_cons_self) (hj j g)
    intro j hjj
    have : ∃ a, s1.threads[j]? = some a ∧ a ≠ [] := by
      by_cases hji : j = i
      · subst hji; exact h7 hsig
      · rcases hjj with h | ⟨a, ha, hne⟩
        · exact absurd h hji
        · exact ⟨a, by rw [h8 j hji, ha], hne⟩
    obtain ⟨a, ha, hne⟩ := this
    exact h12 (fun j l hx => hj j l (List.mem_cons_of_mem _ hx)) j a ha hne

/-! Examples -/

/-- Two threads; after `n` steps a handler records point 9 in the first one; then the threads
go on as `more` says. -/
def sgEvents (n : Nat) (more : List Nat) : List (SgEvent (List RecPoint)) :=
  (rtSchedule.take n).map .run ++ .signal 0 [⟨9, []⟩] :: more.map .run
def sgCalls (n : Nat) (more : List Nat) : List (SgEvent (List (U64 × List RtCall))) :=
  (rtSchedule.take n).map .run ++ .signal 0 [(9, [])] :: more.map .run
/-- The steps of the handler. -/
def sgHandler : List RtAct :=
  match rtActs exFloat exMem (pointCalls 9 []) with
  | .ok a => a
  | _ => []
def sgSteps (n : Nat) (more : List Nat) : List (SgEvent (List RtAct)) :=
  (rtSchedule.take n).map .run ++ .signal 0 sgHandler :: more.map .run

theorem sgRel_runs {α β : Type} (R : α → β → Prop) (l : List Nat) {es : List (SgEvent α)} {fs : List (SgEvent β)}
    (h : AllRel (SgEvent.Rel R) es fs) :
    AllRel (SgEvent.Rel R) (l.map .run ++ es) (l.map .run ++ fs) := by
  induction l with
  | nil => exact h
  | cons i l ih => exact .cons (.run i) ih

theorem sgRel_runs' {α β : Type} (R : α → β → Prop) (l : List Nat) :
    AllRel (SgEvent.Rel R) (l.map .run) (l.map .run) := by
  have := sgRel_runs R l .nil
  rwa [List.append_nil, List.append_nil] at this

theorem sgProgram_ex (n : Nat) (more : List Nat) :
    SgProgram exFloat exMem exNames rtTypes rtThreadPoints rtThreadActs (sgEvents n more) (sgSteps n more) where
  called := ⟨rtThreads, rtThreadCalls_ok, rtThreads_steps⟩
  handlers :=
    ⟨sgCalls n more, sgRel_runs _ _ (.cons (.signal 0 (.cons ⟨rfl, .nil⟩ .nil)) (sgRel_runs' _ _)),
      sgRel_runs _ _ (.cons (.signal 0 (by decide +kernel)) (sgRel_runs' _ _))⟩
  typed := rtThreads_typed
  typed' := by
    intro e he p hp x hx
    simp only [sgEvents, List.mem_append, List.mem_cons, List.mem_map] at he
    rcases he with ⟨i, _, rfl⟩ | rfl | ⟨i, _, rfl⟩
    · simp [SgEvent.code] at hp
    · simp only [SgEvent.code, List.mem_singleton] at hp
      subst hp
      simp at hx
    · simp [SgEvent.code] at hp
  range := by
    intro e he
    simp only [sgEvents, List.mem_append, List.mem_cons, List.mem_map] at he
    rcases he with ⟨i, _, rfl⟩ | rfl | ⟨i, _, rfl⟩
    · trivial
    · show 0 < rtThreadPoints.length
      decide
    · trivial

/-- Threads that only run are safe. -/
theorem sgSafe_runs (s : RtState) (l : List Nat) : SgSafe s (l.map .run) := by
  intro a e b s' i he _ hh
  have : e ∈ l.map SgEvent.run := by rw [he]; simp
  obtain ⟨j, _, rfl⟩ := List.mem_map.mp this
  exact absurd hh id

/-- One signal is safe if its thread does not hold the mutex then. -/
theorem sgSafe_one (s : RtState) (l more : List Nat) (i : Nat) (h : List RtAct)
    (ho : ∀ s', s.sgRun (l.map .run) = .ok s' → s'.owner ≠ some i) :
    SgSafe s (l.map .run ++ .signal i h :: more.map .run) := by
  intro a e b s' j he hrun hh
  rcases List.append_eq_append_iff.mp he with ⟨c, rfl, hc⟩ | ⟨c, hl, hc⟩
  · cases c with
    | nil =>
      simp only [List.nil_append, List.cons.injEq] at hc
      obtain ⟨rfl, _⟩ := hc
      obtain ⟨rfl, _⟩ := hh
      rw [List.append_nil] at hrun
      exact ho s' hrun
    | cons x c =>
      simp only [List.cons_append, List.cons.injEq] at hc
      have : e ∈ more.map (SgEvent.run (α := List RtAct)) := by rw [hc.2]; simp
      obtain ⟨k, _, rfl⟩ := List.mem_map.mp this
      exact absurd hh id
  · cases c with
    | nil =>
      simp only [List.nil_append, List.cons.injEq] at hc
      obtain ⟨rfl, _⟩ := hc
      obtain ⟨rfl, _⟩ := hh
      rw [List.append_nil] at hl
      rw [← hl] at hrun
      exact ho s' hrun
    | cons x c =>
      simp only [List.cons_append, List.cons.injEq] at hc
      have : e ∈ l.map (SgEvent.run (α := List RtAct)) := by rw [hl, hc.1]; simp
      obtain ⟨k, _, rfl⟩ := List.mem_map.mp this
      exact absurd hh id

/-- Who holds the mutex after `n` steps. -/
def sgOwner (n : Nat) : Res (Option Nat) := do
  let s ← (RtState.init (encodeHeader exNames rtTypes) rtThreadActs).sgRun ((rtSchedule.take n).map .run)
  return s.owner

theorem sgOwner_eq {n : Nat} {o : Option Nat} (h : sgOwner n = .ok o) {s : RtState}
    (hs : (RtState.init (encodeHeader exNames rtTypes) rtThreadActs).sgRun ((rtSchedule.take n).map .run) = .ok s) : s.owner = o := by
  rw [sgOwner, hs] at h
  exact Res.ok.inj h

example : SgSafe (RtState.init (encodeHeader exNames rtTypes) rtThreadActs) (sgSteps 10 rtSchedule) := by
  refine sgSafe_one _ _ _ _ _ fun s' hs => ?_
  rw [sgOwner_eq (o := some 1) (by decide +kernel) hs]
  decide

/-- What is read if the signal comes after `n` steps, and what the threads have still to do. -/
def sgRead (n : Nat) : Res (List Nat × Trace) := do
  let header ← writeTraceHeader exNames rtTypes
  let s ← (RtState.init header rtThreadActs).sgRun (sgSteps n rtSchedule)
  let t ← readTrace exEnv 0 (gs false s.out)
  return (s.threads.map List.length, t)

/-- The signal comes while the thread waits for the mutex: all is recorded. -/
example : sgRead 10 = .ok ([0, 0], ⟨exNames, rtTypes, recPoints 0 [] [rtPoint2, ⟨9, []⟩, ⟨9, []⟩, rtPoint1]⟩) := by
  decide +kernel

/-- **C88, a deadlock.**  Two threads, one signal that comes within a point of the first one: however
the threads go on, the first one never ends, and nothing is written any more. -/
theorem C88_hangs : ∃ n s, (RtState.init (encodeHeader exNames rtTypes) rtThreadActs).sgRun ((rtSchedule.take n).map .run) = .ok s ∧
    ∀ more, ∃ s', (RtState.init (encodeHeader exNames rtTypes) rtThreadActs).sgRun (sgSteps n more) = .ok s' ∧
      s'.out = s.out ∧ ¬ s'.Ended := by
  have howner : sgOwner 180 = .ok (some 0) := by decide +kernel
  have hl : (rtSchedule.take 180).length = 180 := by decide +kernel
  obtain ⟨s, hs, _⟩ := Res.bind_eq_ok.mp (show _ = Res.ok _ from howner)
  refine ⟨180, s, hs, fun more => ?_⟩
  have ht : (sgSteps 180 more).take 180 = (rtSchedule.take 180).map .run := by
    rw [sgSteps, List.take_left' (by rw [List.length_map, hl])]
  have he : (sgEvents 180 more)[180]? = some (.signal 0 [⟨9, []⟩]) := by
    rw [sgEvents, List.getElem?_append_right (by rw [List.length_map, hl]; exact Nat.le_refl _), List.length_map, hl]
    rfl
  have hd : (sgEvents 180 more).drop 180 = .signal 0 [⟨9, []⟩] :: more.map .run := by
    rw [sgEvents, List.drop_left' (by rw [List.length_map, hl])]
  obtain ⟨s', h1, h2, _, h3⟩ := C88_within_a_point exFloat exMem exNames rtTypes _ _ _ _ _ (sgProgram_ex 180 more) 180
    (by rw [ht]; exact sgSafe_runs _ _) s (by rw [ht]; exact hs) _ he 0 ⟨rfl, by simp⟩ (sgOwner_eq howner hs)
  refine ⟨s', h1, h2, fun hend => ?_⟩
  obtain ⟨a, ha, hne⟩ := h3 (by rw [hd]; simp) 0 (.inl rfl)
  exact hne (hend a (List.mem_of_getElem? ha))

end TraceDB
