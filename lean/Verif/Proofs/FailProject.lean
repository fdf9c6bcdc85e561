import Verif.Spec.FailProject
import Verif.Proofs.SignalProject
import Verif.Proofs.RunQuery
import Verif.Props.WriteFail
/-
Programs that cannot write all of their trace, from projects to queries.
-/
namespace TraceDB

theorem AllRel.sublistRight {R : α → β → Prop} {l : List α} {m : List β} (h : AllRel R l m) :
    ∀ {m' : List β}, m'.Sublist m → ∃ l', l'.Sublist l ∧ AllRel R l' m' := by
  induction h with
  | nil => intro m' hs; cases hs; exact ⟨[], .slnil, .nil⟩
  | cons h _ ih =>
    intro m' hs
    cases hs with
    | cons _ hs =>
      obtain ⟨l', h1, h2⟩ := ih hs
      exact ⟨l', h1.cons _, h2⟩
    | cons_cons _ hs =>
      obtain ⟨l', h1, h2⟩ := ih hs
      exact ⟨_ :: l', h1.cons_cons _, .cons h h2⟩

theorem limited_sublist {α : Type} (k : U64) (l : List α) : (limited k l).Sublist l := by
  unfold limited
  split
  · exact List.Sublist.refl _
  · exact List.take_sublist _ _

theorem AllRel.limited {R : α → β → Prop} {l : List α} {m : List β} (h : AllRel R l m) (k : U64) :
    AllRel R (limited k l) (limited k m) := by
  unfold TraceDB.limited
  split
  · exact h
  · exact h.take _

/-- Nothing is in the buffer of a process that has ended. -/
theorem fw_step_ended {size : Nat} {s : FwState} {T : List U8} (h : s.out ++ s.buf ++ fwPuts s.todo = T)
    (hb : s.todo = [] → s.buf = []) (hx : s.todo = [] ∨ .exit ∈ s.todo) (e : FwEvent) (he : ¬ e.IsFail ∧ ¬ e.IsKill) :
    ((s.step size e).out ++ (s.step size e).buf ++ fwPuts (s.step size e).todo = T) ∧
      ((s.step size e).todo = [] → (s.step size e).buf = []) ∧ ((s.step size e).todo = [] ∨ .exit ∈ (s.step size e).todo) := by
  obtain ⟨out, buf, todo⟩ := s
  cases e with
  | run =>
    simp only [FwState.step]
    split
    · cases todo with
      | nil => exact ⟨h, hb, hx⟩
      | cons a r =>
        simp only [List.mem_cons, reduceCtorEq, false_or] at hx
        cases a with
        | put bs =>
          simp only [reduceCtorEq, false_or] at hx
          refine ⟨by simpa [fwPuts] using h, ?_, .inr hx⟩
          rintro rfl
          simp at hx
        | flush =>
          simp only [reduceCtorEq, false_or] at hx
          exact ⟨by simpa [fwPuts] using h, fun _ => rfl, .inr hx⟩
        | exit => exact ⟨by simpa [fwPuts] using h, fun _ => rfl, .inl rfl⟩
        | fork c => exact ⟨h, hb, by simpa using hx⟩
    · exact ⟨h, hb, hx⟩
  | spill k =>
    simp only [FwState.step]
    split
    · exact ⟨h, hb, hx⟩
    · refine ⟨?_, ?_, hx⟩
      · simp only [List.append_assoc] at h ⊢
        rw [← List.append_assoc (buf.take k), List.take_append_drop]
        exact h
      · intro ht
        have := hb ht
        simp only at this
        subst this
        simp
  | fail k l => exact absurd trivial he.1
  | kill => exact absurd trivial he.2

theorem fw_run_ended {size : Nat} {T : List U8} (events : List FwEvent) (he : ∀ e ∈ events, ¬ e.IsFail ∧ ¬ e.IsKill) :
    ∀ {s : FwState}, s.out ++ s.buf ++ fwPuts s.todo = T → (s.todo = [] → s.buf = []) → (s.todo = [] ∨ .exit ∈ s.todo) →
      (s.run size events).todo = [] → (s.run size events).out = T := by
  induction events with
  | nil =>
    intro s h hb _ ht
    change s.todo = [] at ht
    show s.out = T
    rw [hb ht, ht] at h
    simpa [fwPuts] using h
  | cons e events ih =>
    intro s h hb hx
    obtain ⟨h1, h2, h3⟩ := fw_step_ended (size := size) h hb hx e (he e (by simp))
    exact ih (fun e h => he e (by simp [h])) h1 h2 h3

theorem FkDoes.exits {α : Type} {enc : α → List U8} {ps : List α} {acts : List FkAct}
    (h : FkDoes enc (ps.map .point) acts) : .exit ∈ acts := by
  induction ps generalizing acts with
  | nil => cases h; simp
  | cons p ps ih =>
    cases h with
    | point _ h2 => exact List.mem_append_right _ (List.mem_cons_of_mem _ (ih h2))

/-- What a program does that records points, when it is known what they are. -/
structure FailProgram (cf : CFloat) (mem : CMem) (size : Nat) (names : List Name) (types : List TypeDesc) (p0 : RecPoint)
    (ps : List RecPoint) (c0 : U64 × List RtCall) (calls : List (U64 × List RtCall)) (acts : List FkAct) : Prop where
  hdr : HeaderOk names types
  few : names.length < 2 ^ 32
  sane : ∀ ty ∈ types, ty.Sane
  called : AllRel (RecPoint.CalledAs cf mem) (p0 :: ps) (c0 :: calls)
  typed : ∀ p ∈ p0 :: ps, ∀ x ∈ p.items, x.Typed names types cf
  sizes : ∀ p ∈ p0 :: ps, ∀ r ∈ recSizes p.items, r.address ≠ u64Max
  small : ∀ c ∈ calls, ∀ b, rtBytes cf mem (pointCalls c.1 c.2) = .ok b → b.length ≤ size
  does : fwProgram cf mem names types (c0 :: calls) = .ok acts

theorem FailProgram.whole {cf : CFloat} {mem : CMem} {size : Nat} {names : List Name} {types : List TypeDesc} {p0 : RecPoint}
    {ps : List RecPoint} {c0 : U64 × List RtCall} {calls : List (U64 × List RtCall)} {acts : List FkAct}
    (h : FailProgram cf mem size names types p0 ps c0 calls acts) (events : List FwEvent)
    (hw : FwWhole events ((FwState.start acts).run size events)) :
    ((FwState.start acts).run size events).out = encodeHeader names types ++ encodePoints types ((p0 :: ps).map RecPoint.entries) := by
  obtain ⟨body, rfl, hd⟩ := fw_acts h.hdr h.few h.called h.typed h.does
  refine fw_run_ended events hw.1 ?_ (by simp [FwState.start]) (.inr (List.mem_cons_of_mem _ hd.exits)) hw.2
  simp only [FwState.start, fwPuts, List.nil_append]
  rw [hd.puts, encodePoints_flatMap]

theorem FailProgram.prefix {cf : CFloat} {mem : CMem} {size : Nat} {names : List Name} {types : List TypeDesc} {p0 : RecPoint}
    {ps : List RecPoint} {c0 : U64 × List RtCall} {calls : List (U64 × List RtCall)} {acts : List FkAct}
    (h : FailProgram cf mem size names types p0 ps c0 calls acts) (events : List FwEvent)
    (hf : FailsForEver size (FwState.start acts) events) :
    ((FwState.start acts).run size events).out <+: encodeHeader names types ++ encodePoints types ((p0 :: ps).map RecPoint.entries) := by
  obtain ⟨body, rfl, hd⟩ := fw_acts h.hdr h.few h.called h.typed h.does
  refine fw_for_ever ?_ hf
  simp only [FwState.start, fwPuts, List.nil_append]
  rw [hd.puts, encodePoints_flatMap]
  exact List.prefix_refl _

/-- The points of the run of a program with one thread, and what a trace of them shows. -/
theorem failed_known (env : Env) (cf : CFloat) (mem : CMem) (size : Nat) (r : FailRun) (c0 : U64 × List RtCall) (acts : List FkAct)
    (hb : r.inOne.Built) (hd : r.Does cf mem size c0 acts) (hal : ∀ n, env.canAlloc n = true) :
    ∃ p0 ps calls, FailProgram cf mem size r.header.names (r.header.types.map TypeRow.desc) p0 ps c0 calls acts ∧
      AllRel (r.inOne.Records cf mem) (r.first :: r.rest) (p0 :: ps) ∧
      ∀ vs rs, AllRel (r.inOne.Records cf mem) vs rs → (∀ v ∈ vs, v ∈ r.first :: r.rest) →
        ∃ ps types, AllRel (ProjVisit.Shown (instrumentationFiles r.evolve)) vs ps ∧
          KnownTrace ⟨r.header.names, r.header.types.map TypeRow.desc, recPoints 0 [] rs⟩ types ps ∧
          ∀ n, r.header.HasType n → n ∈ types := by
  obtain ⟨hfit, calls, hc0, hruns, hbuf, hacts⟩ := hd
  have hr : AllRel (ProjVisit.RunsAs cf mem (r.project.plain ++ r.project.mains)) (r.first :: r.rest) (c0 :: calls) := .cons hc0 hruns
  obtain ⟨hdr, hn, hsane, hrec, hknown⟩ := visited_known env cf mem r.inOne _ hb rfl hfit (by
    intro v hv
    obtain ⟨c, _, hc⟩ := hr.mem_left v hv
    exact ⟨c, hc⟩) hal
  obtain ⟨rs, hr1, hr2⟩ := hr.mid fun v hv c hc => hrec v hv c hc
  cases hr1 with
  | @cons _ p0 _ ps h0 hr1 =>
    have hall : ∀ p ∈ p0 :: ps, (∀ x ∈ p.items, x.Typed r.header.names (r.header.types.map TypeRow.desc) cf) ∧ recSizes p.items = [] := by
      intro p hp
      obtain ⟨_, _, h⟩ := (AllRel.cons h0 hr1).mem_right p hp
      obtain ⟨_, _, _, h2⟩ := h
      exact h2
    refine ⟨p0, ps, calls, ⟨hdr, hn, hsane, hr2.imp fun p c ⟨_, h1, _⟩ => h1, fun p hp => (hall p hp).1, ?_, hbuf, hacts⟩,
      .cons h0 hr1, hknown⟩
    intro p hp
    rw [(hall p hp).2]
    simp

end TraceDB
