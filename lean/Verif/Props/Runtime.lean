import Verif.Proofs.RuntimeThreads
import Verif.Props.Reader
/-
Properties C02 and C47: what an instrumented program records.
-/
namespace TraceDB

/-! ### C02 -/

/-- **C02**.  A program with the name and type tables `names` and `types` records
the points `ps`: `calls` are the runtime calls it makes, with the arguments laid
out as C passes them to variadic functions.  If every variable has a value of its
declared type, the runtime writes a stream without undefined behaviour, and
reading that stream returns the tables and exactly the recorded points: the same
statement ids, the same buffers and the same variables in the same order, with the
values that `recPoints` computes from the C values. -/
theorem C02_recorded_is_read (env : Env) (io : Bool) (cf : CFloat) (mem : CMem) (names : List Name)
    (types : List TypeDesc) (ps : List RecPoint) (calls : List (U64 × List RtCall))
    (hdr : HeaderOk names types) (hn : names.length < 2 ^ 32)
    (hcalls : AllRel (RecPoint.CalledAs cf mem) ps calls)
    (htyped : ∀ p ∈ ps, ∀ x ∈ p.items, x.Typed names types cf)
    (hres : ReservedOk (ps.flatMap fun p => recSizes p.items))
    (hal : ∀ n, env.canAlloc n = true) :
    ∃ bs, rtRun cf mem names types calls = .ok bs ∧
      readTrace env 0 (gs io bs) = .ok ⟨names, types, recPoints 0 [] ps⟩ := by
  refine ⟨encodeHeader names types ++ encodePoints types (ps.map RecPoint.entries), ?_, ?_⟩
  · rw [rtRun, writeTraceHeader_ok hdr hn, Res.ok_bind, points_bytes hcalls htyped]; rfl
  · exact readTrace_recorded hdr hal htyped hres

/-- **C02, values.**  The word that stands for an integer is that integer. -/
theorem C02_values_exact (k : IntSize) :
    (∀ v : Int, (CValue.signed k v).InRange → (CValue.signed k v).word.toInt = v) ∧
    (∀ v : Nat, (CValue.unsigned k v).InRange → (CValue.unsigned k v).word.toNat = v) := by
  constructor
  · intro v ⟨h1, h2⟩
    have h3 : (2 : Int) ^ (8 * k.bytes - 1) ≤ 2 ^ 63 := by cases k <;> decide
    show (BitVec.ofInt 64 v).toInt = v
    rw [BitVec.toInt_ofInt]
    apply Int.bmod_eq_of_le <;> omega
  · intro v h
    have h3 : (2 : Nat) ^ (8 * k.bytes) ≤ 2 ^ 64 := by cases k <;> decide
    show (BitVec.ofNat 64 v).toNat = v
    have h : v < 2 ^ (8 * k.bytes) := h
    rw [BitVec.toNat_ofNat]
    exact Nat.mod_eq_of_lt (by omega)

/-- Conversions for the examples: a `double` keeps a `float` in its low half. -/
def exFloat : CFloat := ⟨fun b => b.setWidth 64, fun b => b.setWidth 32⟩
/-- Memory with the characters "hi" at 0x2000. -/
def exMem : CMem := fun a n => if a = 0x2000 ∧ n = 2 then some [104, 105] else none
/-- The tables of `exNames`/`exTypes` with a `char` and a `float` type added. -/
def rtTypes : List TypeDesc := exTypes ++ [⟨0, .signed, 1⟩, ⟨0, .float, 4⟩]
/-- A point with `x = -2`, a buffer and a pointer into it, and the `char` -1. -/
def rtPoint1 : RecPoint :=
  ⟨7, [.buffer ⟨0x1000, 16⟩,
       .vars [⟨1, 0, .signed .four (-2)⟩, ⟨2, 1, .pointer 0x1005⟩, ⟨1, 4, .signed .one (-1)⟩]]⟩
/-- A point with a `float`, the unsigned 65535 and the string "hi". -/
def rtPoint2 : RecPoint :=
  ⟨8, [.vars [⟨1, 5, .float 0x3f800000⟩, ⟨1, 3, .unsigned .two 65535⟩], .blobs [⟨1, 2, [104, 105]⟩]]⟩
def rtPoints : List RecPoint := [rtPoint1, rtPoint2]
/-- The calls that record them; the upper halves of some slots hold garbage. -/
def rtCalls1 : U64 × List RtCall :=
  (7, [.bufferSize 0x1000 16,
       .variables 3 [.gp 1, .gp 0xdeadbeef00000000, .gp 4, .gp 1, .gp 0xdeadbeeffffffffe,
                     .gp 2, .gp 1, .gp 8, .gp 3, .gp 0x1005,
                     .gp 1, .gp 4, .gp 1, .gp 1, .gp 0xffffffff]])
def rtCalls2 : U64 × List RtCall :=
  (8, [.variables 2 [.gp 1, .gp 5, .gp 4, .gp 2, .fp 0x3f800000,
                     .gp 1, .gp 3, .gp 2, .gp 0, .gp 65535],
       .blobs 1 [.gp 1, .gp 2, .gp 2, .gp 0x2000]])
def rtCalls : List (U64 × List RtCall) := [rtCalls1, rtCalls2]

theorem Slot.carries {w : U64} {v : U32} (h : w.setWidth 32 = v) : (Slot.gp w).Carries32 v := ⟨w, rfl, h⟩

theorem rtCalls_ok : AllRel (RecPoint.CalledAs exFloat exMem) rtPoints rtCalls := by
  have c : ∀ (w : U64) (v : U32), w.setWidth 32 = v → (Slot.gp w).Carries32 v := fun _ _ h => Slot.carries h
  refine .cons ⟨rfl, .cons rfl (.cons ⟨_, _, rfl, rfl, ?_⟩ .nil)⟩
    (.cons ⟨rfl, .cons ⟨_, _, rfl, rfl, ?_⟩ (.cons ⟨_, _, rfl, rfl, ?_⟩ .nil)⟩ .nil)
  · refine .cons (l := [_, _, _, _, _]) ⟨_, _, _, _, _, rfl, c _ _ ?_, c _ _ ?_, c _ _ ?_, c _ _ ?_, c _ _ ?_⟩
      (.cons (l := [_, _, _, _, _]) ⟨_, _, _, _, _, rfl, c _ _ ?_, c _ _ ?_, c _ _ ?_, c _ _ ?_, rfl⟩
      (.cons (l := [_, _, _, _, _]) ⟨_, _, _, _, _, rfl, c _ _ ?_, c _ _ ?_, c _ _ ?_, c _ _ ?_, c _ _ ?_⟩ .nil))
    all_goals decide
  · refine .cons (l := [_, _, _, _, _]) ⟨_, _, _, _, _, rfl, c _ _ ?_, c _ _ ?_, c _ _ ?_, c _ _ ?_, rfl⟩
      (.cons (l := [_, _, _, _, _]) ⟨_, _, _, _, _, rfl, c _ _ ?_, c _ _ ?_, c _ _ ?_, c _ _ ?_, c _ _ ?_⟩ .nil)
    all_goals decide
  · refine .cons (l := [_, _, _, _]) ⟨_, _, _, _, rfl, c _ _ ?_, c _ _ ?_, c _ _ ?_, rfl⟩ .nil
    all_goals decide

theorem rtPoints_typed : ∀ p ∈ rtPoints, ∀ x ∈ p.items, x.Typed exNames rtTypes exFloat := by
  simp [rtPoints, rtPoint1, rtPoint2, RecItem.Typed, VarRec.Typed, BlobRec.Typed, CValue.InRange, CValue.FloatOk, CValue.format,
    CValue.size, IntSize.bytes, exNames, rtTypes, exTypes, exFloat]

/-- The hypotheses of `C02_recorded_is_read` hold for this run. -/
example : HeaderOk exNames rtTypes ∧ AllRel (RecPoint.CalledAs exFloat exMem) rtPoints rtCalls ∧
    (∀ p ∈ rtPoints, ∀ x ∈ p.items, x.Typed exNames rtTypes exFloat) ∧
    ReservedOk (rtPoints.flatMap fun p => recSizes p.items) :=
  ⟨by decide +kernel, rtCalls_ok, rtPoints_typed, reservedOk_of_unused (by decide +kernel)⟩

/-- What the reader returns for it. -/
example : recPoints 0 [] rtPoints =
    [⟨0, 7, [⟨0x1000, 16⟩],
      [⟨.word (-2), 1, 0, .signed, 4, 0, false⟩, ⟨.word 0x1005, 2, 1, .pointer, 8, 11, true⟩,
       ⟨.word (-1), 1, 4, .signed, 1, 0, false⟩], []⟩,
     ⟨1, 8, [], [⟨.word 0x3f800000, 1, 5, .float, 4, 0, false⟩, ⟨.word 65535, 1, 3, .unsigned, 2, 0, false⟩,
       ⟨.blob [104, 105], 1, 2, .blob, 2, 0, false⟩], []⟩] := by decide +kernel

/-- **C02, the conditions are needed.**  A variable whose declared size has no case
in the runtime is recorded without value, and the reader reports an error for the
stream. -/
theorem C02_sizes_matter :
    ∃ bs, rtRun exFloat exMem [[105]] [⟨0, .unsigned, 3⟩]
        [(7, [.variables 1 [.gp 0, .gp 0, .gp 3, .gp 0, .gp 5]])] = .ok bs ∧
      (readTrace exEnv 0 (gs false bs)).isThrow = true := by
  refine ⟨_, rfl, ?_⟩
  decide +kernel

/-! ### C47 -/

theorem Steps.eq {cf : CFloat} {mem : CMem} {threads : List (List (U64 × List RtCall))}
    {bytes : List (List (List U8))} {acts : List (List RtAct)} (hw : Writes cf mem threads bytes)
    (hs : Steps cf mem threads acts) : acts = bytes.map actsAll := by
  refine ((AllRel.trans_right hw hs).mono (S := fun b a => a = actsAll b) ?_).eq_map
  rintro b _ a ⟨l, _, h1, h2⟩
  rw [thread_acts h1] at h2
  exact (Res.ok.inj h2).symm

/-- **C47**.  Several threads record points concurrently.  Whatever the schedule,
at every moment the file holds the header, then complete points, then at most a
part of one further point.  The complete points of a thread are its first ones in
program order, and the unfinished point is the next one of its thread. -/
theorem C47_points_do_not_mix (cf : CFloat) (mem : CMem) (header : List U8)
    (threads : List (List (U64 × List RtCall))) (bytes : List (List (List U8))) (acts : List (List RtAct))
    (hw : Writes cf mem threads bytes) (hs : Steps cf mem threads acts) (sched : List Nat) :
    ∃ s, (RtState.init header acts).run sched = .ok s ∧
      ∃ (order : List (Nat × List U8)) (unfinished : List U8),
        s.out = header ++ ((order.map (·.2)).flatten ++ unfinished) ∧
        (∀ x ∈ order, x.1 < bytes.length) ∧
        (∀ (i : Nat) (l : List (List U8)), bytes[i]? = some l → threadPart i order <+: l) ∧
        (unfinished = [] ∨ ∃ (i : Nat) (l : List (List U8)) (b : List U8), bytes[i]? = some l ∧
          unfinished <+: b ∧ threadPart i order ++ [b] <+: l) := by
  rw [Steps.eq hw hs]
  obtain ⟨s, order, cur, h1, h2⟩ := inv_run sched (inv_init header bytes)
  refine ⟨s, h1, order, cur.written, h2.out, h2.orderLt, ?_, ?_⟩
  · intro i l hl
    obtain ⟨rest, hq, _⟩ := h2.part i l hl
    exact ⟨_, hq.symm⟩
  · cases cur with
    | none => exact .inl rfl
    | some x =>
      obtain ⟨j, w, u⟩ := x
      have hj : j < bytes.length := h2.curLt _ rfl
      obtain ⟨rest, hq, _⟩ := h2.part j bytes[j] (List.getElem?_eq_getElem hj)
      refine .inr ⟨j, bytes[j], w ++ u, List.getElem?_eq_getElem hj, List.prefix_append _ _, rest, ?_⟩
      simp only [Cur.points, if_true] at hq
      simp only [List.append_assoc]
      exact hq.symm

/-- **C47, end.**  When all threads have ended, the file holds every recorded point
exactly once, complete, in an order that agrees with the program order of every
thread. -/
theorem C47_all_recorded (cf : CFloat) (mem : CMem) (header : List U8)
    (threads : List (List (U64 × List RtCall))) (bytes : List (List (List U8))) (acts : List (List RtAct))
    (hw : Writes cf mem threads bytes) (hs : Steps cf mem threads acts) (sched : List Nat) (s : RtState)
    (hrun : (RtState.init header acts).run sched = .ok s) (hend : s.Ended) :
    ∃ order, Interleaves order bytes ∧ s.out = header ++ (order.map (·.2)).flatten := by
  rw [Steps.eq hw hs] at hrun
  obtain ⟨s', order, cur, h1, h2⟩ := inv_run sched (inv_init header bytes)
  rw [hrun] at h1
  cases h1
  obtain ⟨rfl, h3⟩ := inv_ended h2 hend
  exact ⟨order, h3, by rw [h2.out]; simp [Cur.written]⟩

/-- **C47, no deadlock.**  From every state that a program can reach, all threads
can still end. -/
theorem C47_no_deadlock (cf : CFloat) (mem : CMem) (header : List U8)
    (threads : List (List (U64 × List RtCall))) (bytes : List (List (List U8))) (acts : List (List RtAct))
    (hw : Writes cf mem threads bytes) (hs : Steps cf mem threads acts) (sched : List Nat) :
    ∃ more s, (RtState.init header acts).run (sched ++ more) = .ok s ∧ s.Ended := by
  rw [Steps.eq hw hs]
  obtain ⟨s, order, cur, h1, h2⟩ := inv_run sched (inv_init header bytes)
  obtain ⟨more, s', h3, h4⟩ := inv_finish _ h2 (Nat.le_refl _)
  refine ⟨more, s', ?_, h4⟩
  have : ∀ (a b : List Nat) (x y : RtState), x.run a = .ok y → x.run (a ++ b) = y.run b := by
    intro a
    induction a with
    | nil => intro b x y h; cases h; rfl
    | cons i a ih =>
      intro b x y h
      simp only [RtState.run, List.cons_append] at h ⊢
      obtain ⟨z, hz, h⟩ := Res.bind_eq_ok.mp h
      rw [hz, Res.ok_bind]
      exact ih b z y h
  rw [this _ _ _ _ h1, h3]

/-- **C47, reading back.**  The stream of a multi-threaded program that has ended
is read as an interleaving of the points that its threads recorded: every point of
every thread occurs once, unchanged, in program order. -/
theorem C47_read_back (env : Env) (io : Bool) (cf : CFloat) (mem : CMem) (names : List Name)
    (types : List TypeDesc) (threads : List (List RecPoint)) (calls : List (List (U64 × List RtCall)))
    (acts : List (List RtAct)) (hdr : HeaderOk names types) (hn : names.length < 2 ^ 32)
    (hcalls : AllRel (AllRel (RecPoint.CalledAs cf mem)) threads calls) (hs : Steps cf mem calls acts)
    (htyped : ∀ l ∈ threads, ∀ p ∈ l, ∀ x ∈ p.items, x.Typed names types cf)
    (hres : ∀ l ∈ threads, ∀ p ∈ l, ∀ r ∈ recSizes p.items, r.address ≠ u64Max)
    (hal : ∀ n, env.canAlloc n = true) (sched : List Nat) (header : List U8)
    (hheader : writeTraceHeader names types = .ok header) (s : RtState)
    (hrun : (RtState.init header acts).run sched = .ok s) (hend : s.Ended) :
    ∃ order, Interleaves order threads ∧
      readTrace env 0 (gs io s.out) = .ok ⟨names, types, recPoints 0 [] (order.map (·.2))⟩ := by
  rw [writeTraceHeader_ok hdr hn] at hheader
  cases hheader
  have hitem : ∀ (x : RecItem) (c : RtCall), x.CalledAs cf mem c → c.IsItem := by
    intro x c h
    cases x with
    | buffer r => cases h; trivial
    | vars l => obtain ⟨n, a, rfl, _⟩ := h; trivial
    | blobs l => obtain ⟨n, a, rfl, _⟩ := h; trivial
  have hitems : ∀ (l : List RecItem) (cs : List RtCall), AllRel (RecItem.CalledAs cf mem) l cs →
      ∀ c ∈ cs, c.IsItem := by
    intro l cs h
    induction h with
    | nil => simp
    | cons hx _ ih =>
      intro c hc
      rcases List.mem_cons.mp hc with rfl | hc
      · exact hitem _ _ hx
      · exact ih c hc
  have hw : Writes cf mem calls (threads.map (List.map fun p => encodePoint types p.entries)) := by
    unfold Writes
    refine AllRel.map_right ((hcalls.mono (S := fun x y => AllRel _ y (x.map fun p => encodePoint types p.entries)) ?_).flip)
    intro l hl cs h
    refine AllRel.map_right ((h.mono (S := fun x y => (∀ c ∈ y.2, RtCall.IsItem c) ∧
      rtBytes cf mem (pointCalls y.1 y.2) = .ok (encodePoint types x.entries)) ?_).flip)
    intro p hp c hc
    exact ⟨hitems _ _ hc.2, point_bytes hc (htyped l hl p hp)⟩
  obtain ⟨order, h1, h2⟩ := C47_all_recorded cf mem _ _ _ _ hw hs sched s hrun hend
  obtain ⟨order', rfl, h4⟩ := interleaves_lift _ h1
  refine ⟨order', h4, ?_⟩
  have hmem : ∀ p ∈ order'.map (·.2), ∃ l ∈ threads, p ∈ l := by
    intro p hp
    obtain ⟨x, hx, rfl⟩ := List.mem_map.mp hp
    have hlt := h4.1 x hx
    have := h4.2 x.1 threads[x.1] (List.getElem?_eq_getElem hlt)
    refine ⟨threads[x.1], List.getElem_mem hlt, ?_⟩
    rw [← this]
    unfold threadPart
    exact List.mem_map.mpr ⟨x, List.mem_filter.mpr ⟨hx, by simp⟩, rfl⟩
  have hout : s.out = encodeHeader names types ++ encodePoints types ((order'.map (·.2)).map RecPoint.entries) := by
    rw [h2]
    simp only [List.map_map, encodePoints, List.flatMap]
    rfl
  rw [hout]
  refine readTrace_recorded (cf := cf) hdr hal ?_ ?_
  · intro p hp x hx
    obtain ⟨l, hl, hpl⟩ := hmem p hp
    exact htyped l hl p hpl x hx
  · apply reservedOk_of_unused
    intro r hr
    obtain ⟨p, hp, hr⟩ := List.mem_flatMap.mp hr
    obtain ⟨l, hl, hpl⟩ := hmem p hp
    exact hres l hl p hpl r hr

/-- Two threads, each recording one of the points above and the second one also a
point without variables. -/
def rtThreads : List (List (U64 × List RtCall)) := [[rtCalls1], [rtCalls2, (9, [])]]
/-- What they record. -/
def rtThreadPoints : List (List RecPoint) := [[rtPoint1], [rtPoint2, ⟨9, []⟩]]
/-- Their steps. -/
def rtThreadActs : List (List RtAct) :=
  rtThreads.map fun l => match rtActs exFloat exMem (l.flatMap fun p => pointCalls p.1 p.2) with
    | .ok a => a
    | _ => []
/-- The second thread takes the mutex first, then the threads take turns. -/
def rtSchedule : List Nat := 1 :: (List.range 400).map (· % 2)

theorem rtThreadCalls_ok : AllRel (AllRel (RecPoint.CalledAs exFloat exMem)) rtThreadPoints rtThreads := by
  cases rtCalls_ok with
  | cons h1 h =>
    cases h with
    | cons h2 _ => exact .cons (.cons h1 .nil) (.cons (.cons h2 (.cons ⟨rfl, .nil⟩ .nil)) .nil)

theorem rtThreads_steps : Steps exFloat exMem rtThreads rtThreadActs := by
  refine .cons ?_ (.cons ?_ .nil) <;> decide +kernel

theorem rtThreads_typed : ∀ l ∈ rtThreadPoints, ∀ p ∈ l, ∀ x ∈ p.items, x.Typed exNames rtTypes exFloat := by
  intro l hl p hp x hx
  simp only [rtThreadPoints, List.mem_cons, List.not_mem_nil, or_false] at hl
  rcases hl with rfl | rfl
  · simp only [List.mem_cons, List.not_mem_nil, or_false] at hp
    subst hp
    exact rtPoints_typed _ (by simp [rtPoints]) x hx
  · simp only [List.mem_cons, List.not_mem_nil, or_false] at hp
    rcases hp with rfl | rfl
    · exact rtPoints_typed _ (by simp [rtPoints]) x hx
    · simp at hx

/-- The hypotheses of `C47_read_back` hold for this program, and all threads end
under the schedule. -/
example : (do
      let header ← writeTraceHeader exNames rtTypes
      let s ← (RtState.init header rtThreadActs).run rtSchedule
      let t ← readTrace exEnv 0 (gs false s.out)
      return (s.threads, t)) =
    .ok ([[], []], ⟨exNames, rtTypes, recPoints 0 [] [rtPoint2, rtPoint1, ⟨9, []⟩]⟩) := by decide +kernel
example : ∀ l ∈ rtThreadPoints, ∀ p ∈ l, ∀ r ∈ recSizes p.items, r.address ≠ u64Max := by decide +kernel
/-- The bytes of a point. -/
def exPointBytes (p : U64 × List RtCall) : List U8 :=
  match rtBytes exFloat exMem (pointCalls p.1 p.2) with
  | .ok b => b
  | _ => []
example : Writes exFloat exMem rtThreads (rtThreads.map (List.map exPointBytes)) := by
  refine .cons (.cons ⟨?_, ?_⟩ .nil) (.cons (.cons ⟨?_, ?_⟩ (.cons ⟨?_, ?_⟩ .nil)) .nil)
  case refine_2 => decide +kernel
  case refine_4 => decide +kernel
  case refine_6 => decide +kernel
  all_goals simp [rtCalls1, rtCalls2, RtCall.IsItem]

end TraceDB
