import Verif.Proofs.WriteFail
import Verif.Props.Fork
import Verif.Props.Crash
/-
Property C86: traces of programs that could not write all of them.
-/
namespace TraceDB

/-- What a program does that records points and does not fork. -/
def fwProgram (cf : CFloat) (mem : CMem) (names : List Name) (types : List TypeDesc) (calls : List (U64 × List RtCall)) :
    Res (List FkAct) := fkProgram cf mem names types (calls.map .point)

theorem fw_acts {cf : CFloat} {mem : CMem} {names : List Name} {types : List TypeDesc} {ps : List RecPoint}
    {calls : List (U64 × List RtCall)} {acts : List FkAct} (hdr : HeaderOk names types) (hn : names.length < 2 ^ 32)
    (hr : AllRel (RecPoint.CalledAs cf mem) ps calls) (ht : ∀ p ∈ ps, ∀ x ∈ p.items, x.Typed names types cf)
    (ha : fwProgram cf mem names types calls = .ok acts) :
    ∃ body, acts = .put (encodeHeader names types) :: body ∧ FkDoes (fun p => encodePoint types p.entries) (ps.map .point) body := by
  rw [fwProgram, fkProgram, writeTraceHeader_ok hdr hn, Res.ok_bind] at ha
  obtain ⟨x, hx, ha⟩ := Res.bind_eq_ok.mp ha
  cases ha
  exact ⟨x, rfl, fkItems_does (FkRel.of_allRel hr) (FkEach.of_mem ht) hx⟩

/-- **C86**.  If writing fails at some time and nothing can be written from then on (the
disk is full, the reader of the pipe is gone), the file holds a first part of what the
program would have written.  If that contains the header and can be read, the result are
the first points that the program recorded, all that are in the file completely. -/
theorem C86_fails_for_ever (env : Env) (io : Bool) (cf : CFloat) (mem : CMem) (names : List Name) (types : List TypeDesc)
    (ps : List RecPoint) (calls : List (U64 × List RtCall)) (acts : List FkAct) (size : Nat) (hdr : HeaderOk names types)
    (hn : names.length < 2 ^ 32) (hr : AllRel (RecPoint.CalledAs cf mem) ps calls)
    (ht : ∀ p ∈ ps, ∀ x ∈ p.items, x.Typed names types cf) (ha : fwProgram cf mem names types calls = .ok acts)
    (events : List FwEvent) (hf : FailsForEver size (FwState.start acts) events) :
    (∃ bs, rtRun cf mem names types calls = .ok bs ∧ ((FwState.start acts).run size events).out <+: bs) ∧
    ∀ header t, rtRun cf mem names types [] = .ok header → header <+: ((FwState.start acts).run size events).out →
      readTrace env 0 (gs io ((FwState.start acts).run size events).out) = .ok t →
      ∃ k, k ≤ ps.length ∧ t = ⟨names, types, recPoints 0 [] (ps.take k)⟩ ∧
        ∀ j bs, j ≤ ps.length → rtRun cf mem names types (calls.take j) = .ok bs →
          (bs <+: ((FwState.start acts).run size events).out ↔ j ≤ k) := by
  obtain ⟨body, rfl, hd⟩ := fw_acts hdr hn hr ht ha
  have hall : ∀ j, rtRun cf mem names types (calls.take j) =
      .ok (encodeHeader names types ++ encodePoints types ((ps.take j).map RecPoint.entries)) := by
    intro j
    have hr' : AllRel (RecPoint.CalledAs cf mem) (ps.take j) (calls.take j) := by
      clear ht ha hf hd
      induction hr generalizing j with
      | nil => simp only [List.take_nil]; exact .nil
      | cons h _ ih =>
        cases j with
        | zero => exact .nil
        | succ j => exact .cons h (ih j)
    rw [rtRun, writeTraceHeader_ok hdr hn, Res.ok_bind, points_bytes hr' fun p hp => ht p (List.mem_of_mem_take hp)]
    rfl
  have hfull : rtRun cf mem names types calls = .ok (encodeHeader names types ++ encodePoints types (ps.map RecPoint.entries)) := by
    have := hall (max ps.length calls.length)
    rwa [List.take_of_length_le (Nat.le_max_right _ _), List.take_of_length_le (Nat.le_max_left _ _)] at this
  have hpre : ((FwState.start (.put (encodeHeader names types) :: body)).run size events).out <+:
      encodeHeader names types ++ encodePoints types (ps.map RecPoint.entries) := by
    refine fw_for_ever ?_ hf
    simp only [FwState.start, fwPuts, List.nil_append]
    rw [hd.puts, encodePoints_flatMap]
    exact List.prefix_refl _
  refine ⟨⟨_, hfull, hpre⟩, ?_⟩
  intro header t hh hhp hread
  have h0 := hall 0
  simp only [List.take_zero, List.map_nil, encodePoints, List.flatMap_nil, List.append_nil] at h0
  rw [h0] at hh
  cases hh
  obtain ⟨T, hT⟩ := hhp
  obtain ⟨rest, hrest⟩ := hpre
  rw [← hT] at hread hrest ⊢
  rw [List.append_assoc, List.append_cancel_left_eq] at hrest
  have hwf : ∀ q ∈ ps.map RecPoint.entries, ∀ e ∈ q, e.WF names types := by
    intro q hq e he
    obtain ⟨p, hp, rfl⟩ := List.mem_map.mp hq
    rcases List.mem_cons.mp he with rfl | he
    · trivial
    · obtain ⟨x, hx, he⟩ := List.mem_flatMap.mp he
      exact recorded_wf (ht p hp x hx) e he
  have hstmt : ∀ q ∈ ps.map RecPoint.entries, (entryStmt q).isSome = true := by
    intro q hq
    obtain ⟨y, hy, rfl⟩ := List.mem_map.mp hq
    rfl
  obtain ⟨k, hk, rfl, h1, h2⟩ := C03_cut_trace_yields_complete_points env io names types (ps.map RecPoint.entries) T rest hdr hwf
    hstmt hrest t hread
  rw [List.length_map] at hk h2
  refine ⟨k, hk, ?_, ?_⟩
  · rw [← List.map_take, pointsOf_recorded (cf := cf) (names := names) 0 (ps.take k) 0 [] fun p hp => ht p (List.mem_of_mem_take hp)]
  · intro j bs hj hbs
    rw [hall j] at hbs
    cases hbs
    rw [List.prefix_append_right_inj, List.map_take]
    have mono : ∀ {a b : Nat}, a ≤ b → encodePoints types ((ps.map RecPoint.entries).take a) <+:
        encodePoints types ((ps.map RecPoint.entries).take b) := by
      intro a b hab
      have : (ps.map RecPoint.entries).take a = ((ps.map RecPoint.entries).take b).take a := by
        rw [List.take_take, Nat.min_eq_left hab]
      rw [this]
      generalize (ps.map RecPoint.entries).take b = l
      refine ⟨encodePoints types (l.drop a), ?_⟩
      rw [← encodePoints_append, List.take_append_drop]
    constructor
    · intro h
      by_cases hjk : j ≤ k
      · exact hjk
      · exact absurd ((mono (by omega)).trans h) (h2 (by omega))
    · intro h
      exact (mono h).trans h1

/-- **C86, for a time.**  If the header and the first point have been written, the other
points fit into the buffer, and writing fails now and then in such a way that nothing of
the buffer is written and all of it is dropped, reading the file gives the first point and
some of the others, in their order: points get lost as a whole. -/
theorem C86_points_lost (env : Env) (io : Bool) (cf : CFloat) (mem : CMem) (names : List Name) (types : List TypeDesc)
    (p0 : RecPoint) (ps : List RecPoint) (c0 : U64 × List RtCall) (calls : List (U64 × List RtCall)) (acts : List FkAct)
    (size : Nat) (hdr : HeaderOk names types) (hn : names.length < 2 ^ 32)
    (hr : AllRel (RecPoint.CalledAs cf mem) (p0 :: ps) (c0 :: calls))
    (ht : ∀ p ∈ p0 :: ps, ∀ x ∈ p.items, x.Typed names types cf)
    (hres : ∀ p ∈ p0 :: ps, ∀ r ∈ recSizes p.items, r.address ≠ u64Max)
    (hsmall : ∀ c ∈ calls, ∀ b, rtBytes cf mem (pointCalls c.1 c.2) = .ok b → b.length ≤ size)
    (hal : ∀ n, env.canAlloc n = true) (ha : fwProgram cf mem names types (c0 :: calls) = .ok acts) (a b : List FwEvent)
    (hfail : ∀ e ∈ a, ¬ e.IsFail) (hlost : ∀ e ∈ b, e.AllOrNothing size)
    (bs : List U8) (hbs : rtRun cf mem names types [c0] = .ok bs) (hfirst : bs <+: ((FwState.start acts).run size a).out) :
    ∃ l, l.Sublist ps ∧
      readTrace env 0 (gs io ((FwState.start acts).run size (a ++ b)).out) = .ok ⟨names, types, recPoints 0 [] (p0 :: l)⟩ := by
  obtain ⟨body, rfl, hd⟩ := fw_acts hdr hn hr ht ha
  cases hr with
  | cons h0 hr =>
    have hone : rtRun cf mem names types [c0] = .ok (encodeHeader names types ++ encodePoint types p0.entries) := by
      rw [rtRun, writeTraceHeader_ok hdr hn, Res.ok_bind]
      simp only [List.flatMap_cons, List.flatMap_nil, List.append_nil]
      rw [point_bytes h0 (ht p0 (by simp))]
      rfl
    rw [hone] at hbs
    cases hbs
    have hsz : ∀ p ∈ ps, (encodePoint types p.entries).length ≤ size := by
      have ht' : ∀ p ∈ ps, ∀ x ∈ p.items, x.Typed names types cf := fun p hp => ht p (by simp [hp])
      clear hd ha hfirst hres ht
      induction hr with
      | nil => intro p hp; simp at hp
      | cons h _ ih =>
        intro p hp
        rcases List.mem_cons.mp hp with rfl | hp
        · exact hsmall _ (by simp) _ (point_bytes h (ht' _ (by simp)))
        · exact ih (fun c hc => hsmall c (by simp [hc])) (fun p hp => ht' p (by simp [hp])) p hp
    cases hd with
    | @point _ _ puts acts hp hd =>
      obtain ⟨don, hsub, hout⟩ := fw_run (s := FwState.start (.put (encodeHeader names types) :: (puts.map .put ++ .flush :: acts)))
        (T := encodeHeader names types ++ encodePoint types p0.entries) hd hsz a b hfail hlost
        ⟨encodeHeader names types :: puts, by simp [FwState.start], by simp [FwState.start, hp]⟩ hfirst (by
          simp [FwState.start, encodePoint])
      refine ⟨don, hsub, ?_⟩
      have hmem : ∀ p ∈ p0 :: don, p ∈ p0 :: ps := by
        intro p hp
        rcases List.mem_cons.mp hp with rfl | hp
        · simp
        · exact List.mem_cons_of_mem _ (hsub.subset hp)
      have := readTrace_recorded (env := env) (io := io) (cf := cf) (ps := p0 :: don) hdr hal
        (fun p hp => ht p (hmem p hp)) (reservedOk_of_unused (by
          intro r hr
          obtain ⟨p, hp, hr'⟩ := List.mem_flatMap.mp hr
          exact hres p (hmem p hp) r hr'))
      rw [encodePoints_flatMap, List.flatMap_cons, ← List.append_assoc, ← hout] at this
      exact this

/-! Examples -/

/-- A program that records a point, a buffer, the same buffer with a smaller size, and a pointer. -/
def fwPoints : List RecPoint := [rtPoint2, ⟨7, [.buffer ⟨0x1000, 16⟩]⟩, ⟨7, [.buffer ⟨0x1000, 4⟩]⟩, fkPoint]
def fwCalls : List (U64 × List RtCall) := [rtCalls2, (7, [.bufferSize 0x1000 16]), (7, [.bufferSize 0x1000 4]), fkCall]
def fwActs : List FkAct := match fwProgram exFloat exMem exNames rtTypes fwCalls with
  | .ok a => a
  | _ => []
/-- The first point is recorded. -/
def fwFirst : List FwEvent := List.replicate 6 .run
/-- What it writes. -/
def fwFirstBytes : List U8 := match rtRun exFloat exMem exNames rtTypes [rtCalls2] with
  | .ok a => a
  | _ => []

theorem fwCalls_ok : AllRel (RecPoint.CalledAs exFloat exMem) fwPoints fwCalls := by
  refine .cons ?_ (.cons ⟨rfl, .cons rfl .nil⟩ (.cons ⟨rfl, .cons rfl .nil⟩ (.cons fkCall_ok .nil)))
  cases rtCalls_ok with | cons _ h => cases h with | cons h _ => exact h

theorem fwPoints_typed : ∀ p ∈ fwPoints, ∀ x ∈ p.items, x.Typed exNames rtTypes exFloat := by
  simp [fwPoints, rtPoint2, fkPoint, RecItem.Typed, VarRec.Typed, BlobRec.Typed, CValue.InRange, CValue.FloatOk, CValue.format,
    CValue.size, IntSize.bytes, exNames, rtTypes, exTypes, exFloat]

/-- The hypotheses of `C86_points_lost` hold for it: the third point gets lost. -/
example : AllRel (RecPoint.CalledAs exFloat exMem) fwPoints fwCalls ∧
    (∀ p ∈ fwPoints, ∀ x ∈ p.items, x.Typed exNames rtTypes exFloat) ∧
    (∀ p ∈ fwPoints, ∀ r ∈ recSizes p.items, r.address ≠ u64Max) ∧
    (∀ c ∈ fwCalls.tail, (rtBytes exFloat exMem (pointCalls c.1 c.2)).isOk = true) ∧
    fwProgram exFloat exMem exNames rtTypes fwCalls = .ok fwActs ∧
    rtRun exFloat exMem exNames rtTypes [rtCalls2] = .ok fwFirstBytes ∧
    fwFirstBytes <+: ((FwState.start fwActs).run 4096 fwFirst).out := by
  refine ⟨fwCalls_ok, fwPoints_typed, by decide +kernel, by decide +kernel, rfl, rfl, ?_⟩
  decide +kernel

/-- A run in which the disk is full after 12 bytes of the second point. -/
def fwFull : List FwEvent := fwFirst ++ [.run, .run, .run, .fail 12 4096, .run, .run, .run, .fail 0 4096]

/-- The hypotheses of `C86_fails_for_ever` hold for it. -/
example : FailsForEver 4096 (FwState.start fwActs) fwFull ∧
    ((FwState.start fwActs).run 4096 fwFull).out =
      fwFirstBytes ++ [1, 7, 0, 0, 0, 0, 0, 0, 0, 3, 0, 16] := by
  have key : ∀ i, 9 ≤ i → i ≤ 14 → ((FwState.start fwActs).run 4096 (fwFull.take i)).out =
      if i = 9 then fwFirstBytes else fwFirstBytes ++ [1, 7, 0, 0, 0, 0, 0, 0, 0, 3, 0, 16] := by
    intro i h1 h2
    have : i = 9 ∨ i = 10 ∨ i = 11 ∨ i = 12 ∨ i = 13 ∨ i = 14 := by omega
    rcases this with rfl | rfl | rfl | rfl | rfl | rfl <;> decide +kernel
  have hlen : fwFull.length = 14 := rfl
  refine ⟨?_, ?_⟩
  · intro a e b hab he
    have ha : a ++ [e] = fwFull.take (a.length + 1) := by
      rw [hab, List.take_append, List.take_of_length_le (by omega)]
      simp
    have h14 : a.length + 1 ≤ 14 := by
      have := congrArg List.length hab
      rw [hlen] at this
      simp only [List.length_append, List.length_cons] at this
      omega
    have h10 : 10 ≤ a.length + 1 := by
      apply Classical.byContradiction
      intro hlt
      have hi : fwFull[a.length]? = some e := by
        rw [hab]
        simp
      have : ∀ j : Nat, j < 9 → fwFull[j]? = some .run := by
        intro j hj
        have : j = 0 ∨ j = 1 ∨ j = 2 ∨ j = 3 ∨ j = 4 ∨ j = 5 ∨ j = 6 ∨ j = 7 ∨ j = 8 := by omega
        rcases this with rfl | rfl | rfl | rfl | rfl | rfl | rfl | rfl | rfl <;> rfl
      rw [this _ (by omega)] at hi
      cases hi
      exact he
    rw [ha, key _ (by omega) h14, if_neg (by omega)]
    have := key 14 (by omega) (by omega)
    rwa [List.take_of_length_le (by rw [hlen]; omega)] at this
  · have := key 14 (by omega) (by omega)
    rwa [List.take_of_length_le (by rw [hlen]; omega)] at this

/-- **C86, the header.**  The first point is needed: if the first write fails, the header is
lost and the trace cannot be read although the rest is written. -/
theorem C86_header_lost :
    (readTrace exEnv 0 (gs false ((FwState.start fwActs).run 4096
      (List.replicate 5 .run ++ .fail 0 4096 :: List.replicate 20 .run)).out)).isThrow = true := by
  decide +kernel

/-- The buffers that were read. -/
def fwBuffers (r : Res Trace) : List BufferSize :=
  match r with
  | .ok t => t.points.flatMap (·.sizes)
  | _ => []

/-- **C86, torn points.**  That failing writes write nothing is needed: if a write fails
after a part of a point and later ones succeed, points and buffers are read that nobody
recorded.  The statements 8, 7, 7 and 9 and buffers at 0x1000 are recorded; read are points
with the statement 0 and a buffer at 0x7011000. -/
theorem C86_torn :
    fkStatements (readTrace exEnv 0 (gs false ((FwState.start fwActs).run 4096
      (fwFirst ++ [.run, .run, .run, .fail 12 4096] ++ List.replicate 20 .run)).out)) = [8, 7, 0, 0, 0, 9] ∧
    fwBuffers (readTrace exEnv 0 (gs false ((FwState.start fwActs).run 4096
      (fwFirst ++ [.run, .run, .run, .fail 12 4096] ++ List.replicate 20 .run)).out)) = [⟨0x7011000, 0x100003000000⟩] := by
  constructor <;> decide +kernel

/-- **C86, sizes.**  Lost points can make the sizes of buffers wrong: the pointer is said to
have 11 bytes after it, although the buffer at 0x1000 has only 4 bytes and does not contain
it; with all points it has no buffer. -/
theorem C86_stale_sizes :
    fkSizes 9 (readTrace exEnv 0 (gs false ((FwState.start fwActs).run 4096 (fwFirst ++ List.replicate 20 .run)).out)) =
      [(0, false)] ∧
    fkSizes 9 (readTrace exEnv 0 (gs false ((FwState.start fwActs).run 4096
      (fwFirst ++ List.replicate 4 .run ++ List.replicate 3 .run ++ .fail 0 4096 :: List.replicate 20 .run)).out)) = [(11, true)] := by
  constructor <;> decide +kernel

end TraceDB
