import Verif.Proofs.Fork
import Verif.Props.Runtime
/-
Property C85: the trace of a program that forks.
-/
namespace TraceDB

theorem FkSoFar.each {α : Type} {P : α → Prop} {items : List (FkItem α)} {l : List α} (h : FkSoFar items l)
    (hP : FkEach P items) : ∀ a ∈ l, P a := by
  have key : ∀ {l m n : List α}, Merged l m n → (∀ a ∈ l, P a) → (∀ a ∈ m, P a) → ∀ a ∈ n, P a := by
    intro l m n h
    induction h with
    | nil => intro _ _ a ha; simp at ha
    | left _ ih =>
      intro h1 h2 a ha
      rcases List.mem_cons.mp ha with rfl | ha
      · exact h1 _ (by simp)
      · exact ih (fun a h => h1 a (by simp [h])) h2 a ha
    | right _ ih =>
      intro h1 h2 a ha
      rcases List.mem_cons.mp ha with rfl | ha
      · exact h2 _ (by simp)
      · exact ih h1 (fun a h => h2 a (by simp [h])) a ha
  induction h with
  | stop => intro a ha; simp at ha
  | point _ ih =>
    intro a ha
    cases hP with
    | point h1 h2 =>
      rcases List.mem_cons.mp ha with rfl | ha
      · exact h1
      · exact ih h2 a ha
  | fork _ _ hm ih1 ih2 =>
    cases hP with
    | fork h1 h2 => exact key hm (ih1 h2) (ih2 h1)

theorem FkAll.soFar {α : Type} {items : List (FkItem α)} {l : List α} (h : FkAll items l) : FkSoFar items l := by
  induction h with
  | nil => exact .stop _
  | point _ ih => exact .point ih
  | fork _ _ hm ih1 ih2 => exact .fork ih1 ih2 hm

/-- No point of a program is larger than the buffer of its stream. -/
def FkSmall (cf : CFloat) (mem : CMem) (size : Nat) (calls : List (FkItem (U64 × List RtCall))) : Prop :=
  FkEach (fun c => ∀ b, rtBytes cf mem (pointCalls c.1 c.2) = .ok b → b.length ≤ size) calls

theorem FkSmall.encoded {cf : CFloat} {mem : CMem} {size : Nat} {names : List Name} {types : List TypeDesc}
    {prog : List (FkItem RecPoint)} {calls : List (FkItem (U64 × List RtCall))} (h : FkRel (RecPoint.CalledAs cf mem) prog calls)
    (ht : FkEach (fun p => ∀ x ∈ p.items, x.Typed names types cf) prog) (hs : FkSmall cf mem size calls) :
    FkEach (fun p => (encodePoint types p.entries).length ≤ size) prog := by
  unfold FkSmall at hs
  induction h with
  | nil => exact .nil
  | point hr _ ih =>
    cases ht with
    | point h1 h2 => cases hs with | point h3 h4 => exact .point (h3 _ (point_bytes hr h1)) (ih h2 h4)
  | fork _ _ ih1 ih2 =>
    cases ht with
    | fork h1 h2 => cases hs with | fork h3 h4 => exact .fork (ih1 h1 h3) (ih2 h2 h4)

/-- The start of every program that records a point before it forks. -/
theorem fk_start {cf : CFloat} {mem : CMem} {names : List Name} {types : List TypeDesc} {p0 : RecPoint}
    {prog : List (FkItem RecPoint)} {c0 : U64 × List RtCall} {calls : List (FkItem (U64 × List RtCall))} {acts : List FkAct}
    (hdr : HeaderOk names types) (hn : names.length < 2 ^ 32) (h0 : p0.CalledAs cf mem c0)
    (ht0 : ∀ x ∈ p0.items, x.Typed names types cf) (hr : FkRel (RecPoint.CalledAs cf mem) prog calls)
    (ht : FkEach (fun p => ∀ x ∈ p.items, x.Typed names types cf) prog)
    (ha : fkProgram cf mem names types (.point c0 :: calls) = .ok acts) :
    ∃ rest, FkDoes (fun p => encodePoint types p.entries) prog rest ∧
      FkFirst (encodeHeader names types ++ encodePoint types p0.entries) (FkState.start acts) rest := by
  rw [fkProgram, writeTraceHeader_ok hdr hn, Res.ok_bind] at ha
  simp only [fkItems, FkItem.acts] at ha
  obtain ⟨x, hx, ha⟩ := Res.bind_eq_ok.mp ha
  cases ha
  obtain ⟨y, hy, hx⟩ := Res.bind_eq_ok.mp hx
  obtain ⟨z, hz, hx⟩ := Res.bind_eq_ok.mp hx
  cases hx
  obtain ⟨puts, rfl, hp⟩ := fkCalls_point (fk_not_end h0) hy (point_bytes h0 ht0)
  refine ⟨z, fkItems_does hr ht hz, ⟨[], encodeHeader names types :: puts, ?_, ?_⟩⟩
  · simp [FkState.start]
  · simp [FkState.start, hp]

theorem encodePoints_flatMap (types : List TypeDesc) (l : List RecPoint) :
    encodePoints types (l.map RecPoint.entries) = l.flatMap fun p => encodePoint types p.entries := by
  induction l with
  | nil => rfl
  | cons p l ih => rw [List.flatMap_cons, ← ih]; simp [encodePoints]

/-- **C85**.  A program records a point before it forks for the first time, and no later
point is larger than the buffer of the stream.  However its processes are scheduled and
whichever of them are killed, at every moment the file holds either a part of the header
and the first point, or the header, the first point and complete points that the
processes have recorded, each process in its own order; in the latter case reading the
file gives just these points. -/
theorem C85_forked (env : Env) (io : Bool) (cf : CFloat) (mem : CMem) (names : List Name) (types : List TypeDesc)
    (p0 : RecPoint) (prog : List (FkItem RecPoint)) (c0 : U64 × List RtCall) (calls : List (FkItem (U64 × List RtCall)))
    (acts : List FkAct) (size : Nat) (hdr : HeaderOk names types) (hn : names.length < 2 ^ 32)
    (h0 : p0.CalledAs cf mem c0) (hr : FkRel (RecPoint.CalledAs cf mem) prog calls)
    (ht0 : ∀ x ∈ p0.items, x.Typed names types cf) (ht : FkEach (fun p => ∀ x ∈ p.items, x.Typed names types cf) prog)
    (hres0 : ∀ r ∈ recSizes p0.items, r.address ≠ u64Max)
    (hres : FkEach (fun p => ∀ r ∈ recSizes p.items, r.address ≠ u64Max) prog)
    (hsmall : FkSmall cf mem size calls) (hal : ∀ n, env.canAlloc n = true)
    (ha : fkProgram cf mem names types (.point c0 :: calls) = .ok acts) (events : List FkEvent) :
    (∃ bs, rtRun cf mem names types [c0] = .ok bs ∧ ((FkState.start acts).run size events).out <+: bs) ∨
    ∃ l, FkSoFar prog l ∧
      readTrace env 0 (gs io ((FkState.start acts).run size events).out) = .ok ⟨names, types, recPoints 0 [] (p0 :: l)⟩ := by
  obtain ⟨rest, hd, hf⟩ := fk_start hdr hn h0 ht0 hr ht ha
  have hone : rtRun cf mem names types [c0] = .ok (encodeHeader names types ++ encodePoint types p0.entries) := by
    rw [rtRun, writeTraceHeader_ok hdr hn, Res.ok_bind]
    simp only [List.flatMap_cons, List.flatMap_nil, List.append_nil]
    rw [point_bytes h0 ht0]
    rfl
  rcases fk_run hd (hsmall.encoded hr ht) False events (fun _ _ _ h => h) hf with (h | ⟨_, h⟩) | ⟨don, progs, h⟩
  · exact .inl ⟨_, hone, h.prefix⟩
  · exact .inl ⟨_, hone, h.out⟩
  · right
    have hs : FkSoFar prog don := by simpa using h.soFar [] (FkRest.soFar_nil progs)
    refine ⟨don, hs, ?_⟩
    have := readTrace_recorded (env := env) (io := io) (cf := cf) (ps := p0 :: don) hdr hal (by
      intro p hp
      rcases List.mem_cons.mp hp with rfl | hp
      · exact ht0
      · exact hs.each ht p hp) (reservedOk_of_unused (by
      intro r hr
      obtain ⟨p, hp, hr'⟩ := List.mem_flatMap.mp hr
      rcases List.mem_cons.mp hp with rfl | hp
      · exact hres0 r hr'
      · exact hs.each hres p hp r hr'))
    rw [encodePoints_flatMap, List.flatMap_cons, ← List.append_assoc, ← h.out] at this
    exact this

/-- **C85, end.**  If nobody was killed and all processes have ended, reading the file
gives the first point and then every point of every process once, each process in its own
order. -/
theorem C85_all_recorded (env : Env) (io : Bool) (cf : CFloat) (mem : CMem) (names : List Name) (types : List TypeDesc)
    (p0 : RecPoint) (prog : List (FkItem RecPoint)) (c0 : U64 × List RtCall) (calls : List (FkItem (U64 × List RtCall)))
    (acts : List FkAct) (size : Nat) (hdr : HeaderOk names types) (hn : names.length < 2 ^ 32)
    (h0 : p0.CalledAs cf mem c0) (hr : FkRel (RecPoint.CalledAs cf mem) prog calls)
    (ht0 : ∀ x ∈ p0.items, x.Typed names types cf) (ht : FkEach (fun p => ∀ x ∈ p.items, x.Typed names types cf) prog)
    (hres0 : ∀ r ∈ recSizes p0.items, r.address ≠ u64Max)
    (hres : FkEach (fun p => ∀ r ∈ recSizes p.items, r.address ≠ u64Max) prog)
    (hsmall : FkSmall cf mem size calls) (hal : ∀ n, env.canAlloc n = true)
    (ha : fkProgram cf mem names types (.point c0 :: calls) = .ok acts) (events : List FkEvent)
    (hk : ∀ e ∈ events, ¬ e.IsKill) (hend : ((FkState.start acts).run size events).Ended) :
    ∃ l, FkAll prog l ∧
      readTrace env 0 (gs io ((FkState.start acts).run size events).out) = .ok ⟨names, types, recPoints 0 [] (p0 :: l)⟩ := by
  obtain ⟨rest, hd, hf⟩ := fk_start hdr hn h0 ht0 hr ht ha
  rcases fk_run hd (hsmall.encoded hr ht) True events (fun e he h => absurd h (hk e he)) hf with (h | ⟨h, _⟩) | ⟨don, progs, h⟩
  · obtain ⟨buf, puts, hp, _⟩ := h.split
    have := hend _ (by rw [hp]; exact List.mem_singleton.mpr rfl)
    cases puts <;> simp at this
  · exact absurd trivial h
  · have hnil : ∀ q ∈ progs, q = [] := by
      intro q hq
      obtain ⟨i, hi⟩ := List.mem_iff_getElem?.mp hq
      obtain ⟨hlt, rfl⟩ := List.getElem?_eq_some_iff.mp hi
      have hlt' : i < ((FkState.start acts).run size events).procs.length := by rw [h.procs.length]; exact hlt
      obtain ⟨q, hq, hok⟩ := h.procs.fkGet (List.getElem?_eq_getElem hlt')
      rw [hi] at hq
      cases hq
      have := hend _ (List.getElem_mem hlt')
      rcases hok.norm with ⟨_, h2⟩ | ⟨_, h2⟩ | ⟨_, _, _, _, h1, _⟩ | ⟨_, _, _, puts, _, h1, _⟩
      · exact h2
      · exact h2
      · rw [h1] at this; simp at this
      · rw [h1] at this; cases puts <;> simp at this
    have hs : FkAll prog don := by simpa using h.all trivial [] (FkRest.all_nil progs hnil)
    refine ⟨don, hs, ?_⟩
    have := readTrace_recorded (env := env) (io := io) (cf := cf) (ps := p0 :: don) hdr hal (by
      intro p hp
      rcases List.mem_cons.mp hp with rfl | hp
      · exact ht0
      · exact hs.soFar.each ht p hp) (reservedOk_of_unused (by
      intro r hr
      obtain ⟨p, hp, hr'⟩ := List.mem_flatMap.mp hr
      rcases List.mem_cons.mp hp with rfl | hp
      · exact hres0 r hr'
      · exact hs.soFar.each hres p hp r hr'))
    rw [encodePoints_flatMap, List.flatMap_cons, ← List.append_assoc, ← h.out] at this
    exact this

/-- **C85, no deadlock.**  In every state all processes can still end, without anybody
being killed. -/
theorem C85_can_end (size : Nat) (s : FkState) :
    ∃ events, (∀ e ∈ events, ¬ e.IsKill) ∧ (s.run size events).Ended := by
  exact fk_can_end size s

/-! Examples -/

/-- A third point: a pointer into the buffer of the first. -/
def fkPoint : RecPoint := ⟨9, [.vars [⟨2, 1, .pointer 0x1005⟩]]⟩
def fkCall : U64 × List RtCall := (9, [.variables 1 [.gp 2, .gp 1, .gp 8, .gp 3, .gp 0x1005]])

theorem fkCall_ok : fkPoint.CalledAs exFloat exMem fkCall := by
  have c : ∀ (w : U64) (v : U32), w.setWidth 32 = v → (Slot.gp w).Carries32 v := fun _ _ h => Slot.carries h
  refine ⟨rfl, .cons ⟨_, _, rfl, rfl, ?_⟩ .nil⟩
  refine .cons (l := [_, _, _, _, _]) ⟨_, _, _, _, _, rfl, c _ _ ?_, c _ _ ?_, c _ _ ?_, c _ _ ?_, rfl⟩ .nil
  all_goals decide

/-- A program that records a point, forks a child that records another one (with a
buffer) and records a third one itself. -/
def fkProg : List (FkItem RecPoint) := [.fork [.point rtPoint1], .point fkPoint]
def fkProgCalls : List (FkItem (U64 × List RtCall)) := [.fork [.point rtCalls1], .point fkCall]
def fkActs : List FkAct := match fkProgram exFloat exMem exNames rtTypes (.point rtCalls2 :: fkProgCalls) with
  | .ok a => a
  | _ => []

/-- A schedule: `n` steps of process `i`. -/
def fkRuns (i n : Nat) : List FkEvent := List.replicate n (.run i)

/-- The hypotheses of the theorems hold for it, with buffers of 4096 bytes. -/
example : rtPoint2.CalledAs exFloat exMem rtCalls2 ∧ FkRel (RecPoint.CalledAs exFloat exMem) fkProg fkProgCalls ∧
    FkEach (fun p => ∀ x ∈ p.items, x.Typed exNames rtTypes exFloat) fkProg ∧
    FkEach (fun p => ∀ r ∈ recSizes p.items, r.address ≠ u64Max) fkProg ∧
    FkSmall exFloat exMem 4096 fkProgCalls ∧
    fkProgram exFloat exMem exNames rtTypes (.point rtCalls2 :: fkProgCalls) = .ok fkActs := by
  refine ⟨?_, .fork (.point ?_ .nil) (.point fkCall_ok .nil), .fork (.point ?_ .nil) (.point ?_ .nil),
    .fork (.point (by decide +kernel) .nil) (.point (by decide +kernel) .nil),
    .fork (.point ?_ .nil) (.point ?_ .nil), rfl⟩
  · cases rtCalls_ok with | cons _ h => cases h with | cons h _ => exact h
  · cases rtCalls_ok with | cons h _ => exact h
  · exact rtPoints_typed rtPoint1 (by decide)
  · simp [fkPoint, RecItem.Typed, VarRec.Typed, CValue.InRange, CValue.FloatOk, CValue.format, CValue.size, exNames, rtTypes, exTypes]
  · intro b hb
    have : rtBytes exFloat exMem (pointCalls rtCalls1.1 rtCalls1.2) = .ok (encodePoint rtTypes rtPoint1.entries) :=
      point_bytes (by cases rtCalls_ok with | cons h _ => exact h) (rtPoints_typed rtPoint1 (by decide))
    rw [this] at hb
    cases hb
    decide +kernel
  · intro b hb
    cases hb
    decide +kernel

/-- A schedule: `n` steps of process `i` whose buffer is written whenever it is overfull. -/
def fkBusy (i n : Nat) : List FkEvent := (List.replicate n [.spill i 1000, .run i]).flatten

/-- Everything ended normally. -/
def FkClean (size : Nat) (acts : List FkAct) (events : List FkEvent) : Prop :=
  (∀ e ∈ events, ¬ e.IsKill) ∧ ((FkState.start acts).run size events).Ended

instance (e : FkEvent) : Decidable e.IsKill :=
  match e with
  | .kill _ => isTrue trivial
  | .run _ => isFalse id
  | .spill _ _ => isFalse id

/-- A program that forks before its first point. -/
def fkEarly : List FkAct := match fkProgram exFloat exMem exNames rtTypes [.fork [.point rtCalls1], .point rtCalls2] with
  | .ok a => a
  | _ => []

/-- All processes have nothing left to do. -/
def FkState.endedB (s : FkState) : Bool := s.procs.all fun p => p.todo.isEmpty

theorem FkState.ended_of {s : FkState} (h : s.endedB = true) : s.Ended := by
  intro p hp
  have := List.all_eq_true.mp h p hp
  simpa using this

/-- **C85, forking early.**  The condition on the first fork is needed: the header is not
flushed, so a program that forks before its first point writes it twice.  Everything ends
normally, and the trace cannot be read: not even the points before the second header. -/
theorem C85_fork_first :
    fkProgram exFloat exMem exNames rtTypes [.fork [.point rtCalls1], .point rtCalls2] = .ok fkEarly ∧
    ∃ events, FkClean 4096 fkEarly events ∧
      (readTrace exEnv 0 (gs false ((FkState.start fkEarly).run 4096 events).out)).isThrow = true := by
  refine ⟨rfl, fkRuns 0 8 ++ fkRuns 1 8, ⟨by decide +kernel, FkState.ended_of (by decide +kernel)⟩, by decide +kernel⟩

/-- The statements of the points that were read. -/
def fkStatements (r : Res Trace) : List U64 :=
  match r with
  | .ok t => t.points.map (·.statement)
  | _ => []

/-- **C85, large points.**  The condition on the size of the points is needed: a point that
is larger than the buffer is written in pieces, and points of other processes get between
them.  Here the statements 7, 8 and 9 are recorded, and a point with the statement 0 is
read. -/
theorem C85_large_points :
    ∃ events, FkClean 8 fkActs events ∧
      fkStatements (readTrace exEnv 0 (gs false ((FkState.start fkActs).run 8 events).out)) = [8, 9, 0] := by
  refine ⟨fkBusy 0 7 ++ fkBusy 1 2 ++ fkBusy 0 30 ++ fkBusy 1 30, ⟨by decide +kernel, FkState.ended_of (by decide +kernel)⟩,
    by decide +kernel⟩

/-- The buffer sizes that were read for the variables of the points of a statement. -/
def fkSizes (id : U64) (r : Res Trace) : List (U64 × Bool) :=
  match r with
  | .ok t => (t.points.filter (·.statement = id)).flatMap fun p => p.vars.map fun v => (v.bufferSize, v.hasBufferSize)
  | _ => []

/-- **C85, sizes.**  Buffers are looked up by address, whichever process has recorded
them.  Whether the pointer of the parent points into a buffer depends on whether the
child, in its own memory, has recorded one before. -/
theorem C85_sizes_mix :
    ∃ events events', FkClean 4096 fkActs events ∧ FkClean 4096 fkActs events' ∧
      fkSizes 9 (readTrace exEnv 0 (gs false ((FkState.start fkActs).run 4096 events).out)) = [(0, false)] ∧
      fkSizes 9 (readTrace exEnv 0 (gs false ((FkState.start fkActs).run 4096 events').out)) = [(11, true)] := by
  refine ⟨fkRuns 0 30 ++ fkRuns 1 30, fkRuns 0 7 ++ fkRuns 1 30 ++ fkRuns 0 30,
    ⟨by decide +kernel, FkState.ended_of (by decide +kernel)⟩, ⟨by decide +kernel, FkState.ended_of (by decide +kernel)⟩,
    by decide +kernel, by decide +kernel⟩

end TraceDB
