import Verif.Proofs.FailProject
import Verif.Props.SignalProject
/-
C115: programs that cannot write all of their trace, from projects to queries.
-/
namespace TraceDB

/-- Queries about a trace of some of the statements passed. -/
theorem fail_answers (fs : FloatSys) (env : Env) (pick : U32 → Nat → Nat) (abi : Abi) (alloc : AllocEnv) (cf : CFloat)
    (mem : CMem) (r : FailRun) (hal : ∀ n, env.canAlloc n = true)
    (hsizes : 0 < abi.sizePoint ∧ abi.sizePoint ≤ abi.sizeVar) (hmem : ∀ n, alloc.canAlloc n = true)
    (q : FQuery) (f : Form) (sf : List Form) (hf : SexpPredicate q.varNames q.predicate f)
    (hsf : AllRel (SexpPredicate q.varNames) q.softs sf) (filter : Option (LPoint → Bool))
    (hfilter : q.filter = filter.map fun g p => some (g p)) (hvl : q.varNames.length = q.varTypes.length)
    (hne : q.varTypes ≠ []) (hsmall : q.varTypes.length < 2 ^ 32) (hts : ∀ ts ∈ q.varTypes, ts.length < 2 ^ 32)
    (hknown : ∀ ts ∈ q.varTypes, ∀ n ∈ ts, r.header.HasType n) (hfile : ∀ i, q.file = some i → i < 2 ^ 23)
    (hpick : ∀ n, 0 < n → pick q.seed n < n) (n : Nat) (hn : n < 2 ^ 32)
    (hq : ∀ v ∈ r.first :: r.rest, ∀ l, v.Shown (instrumentationFiles r.evolve) l → l.Answerable q.varTypes n)
    (hroom : (r.first :: r.rest).length * n * abi.sizeVar < 2 ^ (8 * abi.ptr.1)) (m : FMem)
    (hknows : ∀ vs rs, AllRel (r.inOne.Records cf mem) vs rs → (∀ v ∈ vs, v ∈ r.first :: r.rest) →
        ∃ ps types, AllRel (ProjVisit.Shown (instrumentationFiles r.evolve)) vs ps ∧
          KnownTrace ⟨r.header.names, r.header.types.map TypeRow.desc, recPoints 0 [] rs⟩ types ps ∧
          ∀ n, r.header.HasType n → n ∈ types)
    {vs : List ProjVisit} {rs : List RecPoint} (hsub : vs.Sublist (r.first :: r.rest)) (hvs : AllRel (r.inOne.Records cf mem) vs rs)
    {s : IStream} (hread : readTrace env r.limit s =
      .ok ⟨r.header.names, r.header.types.map TypeRow.desc, recPoints 0 [] (limited r.limit rs)⟩) :
    ∃ t ps chosen rs c m' a p b,
      readTrace env r.limit s = .ok t ∧ lispGetTrace t none = .ok ps ∧
      AllRel (ProjVisit.Shown (instrumentationFiles r.evolve)) (limited r.limit vs) ps ∧
      LooksAt q.seed (ofFile q.file ps) chosen ∧
      lispQueryM ⟨env, pick, plainEval fs, abi, alloc⟩ t q [] () m = (.ok (rs, c, ()), m') ∧
      AnswersAll (BestAnswers fs chosen q.varTypes filter f sf) filter rs ∧
      m.Adds m' a p b ∧ Released a p ∧ ∀ x ∈ b, x.live = false := by
  have hl := (limited_sublist r.limit vs).trans hsub
  obtain ⟨ps, types, k1, k2, k3⟩ := hknows _ _ (hvs.limited r.limit) fun v hv => hl.subset hv
  obtain ⟨chosen, ans, c, m', a, p, b, q1, q2, q3, q4, q5, q6⟩ := known_query fs env pick abi alloc k2 hal hsizes hmem hf hsf
    hfilter hvl hne hsmall hts (fun ts hts n hn => k3 n (hknown ts hts n hn)) hfile hpick hn (by
      intro l hl'
      obtain ⟨v, hv, hs⟩ := k1.mem_right l hl'
      exact hq v (hl.subset hv) l hs) (by
      intro l hl'
      obtain ⟨v, _, _, _, _, _, _, _, ha, _⟩ := k1.mem_right l hl'
      exact ha) (N := (r.first :: r.rest).length) (by
      rw [← k1.length]
      exact hl.length_le) hroom m
  exact ⟨_, ps, chosen, ans, c, m', a, p, b, hread, k2.get none, k1, q1, q2, q3, q4, q5, q6⟩

/-- **C115, for a time.**  A program built from an instrumented project has written the header and the
point of the first statement it passed.  From then on writing fails now and then, such that nothing of the
buffer is written and all of it is dropped, and it may be killed.  Whenever the file is read, the trace
shows the first statement and some of the later ones in their order (up to the limit), with the values
their variables had; queries answer about them and free their memory.  If no write failed, nobody killed
the program and it has ended, all statements are shown. -/
theorem C115_for_a_time (fs : FloatSys) (env : Env) (pick : U32 → Nat → Nat) (abi : Abi) (alloc : AllocEnv) (io : Bool) (cf : CFloat)
    (mem : CMem) (size : Nat) (r : FailRun) (c0 : U64 × List RtCall) (acts : List FkAct) (hb : r.inOne.Built)
    (hd : r.Does cf mem size c0 acts) (hal : ∀ n, env.canAlloc n = true) (before after : List FwEvent) (hbefore : ∀ e ∈ before, ¬ e.IsFail)
    (hafter : ∀ e ∈ after, e.AllOrNothing size)
    (bs : List U8) (hbs : rtRun cf mem r.header.names (r.header.types.map TypeRow.desc) [c0] = .ok bs)
    (hfirst : bs <+: ((FwState.start acts).run size before).out)
    (hsizes : 0 < abi.sizePoint ∧ abi.sizePoint ≤ abi.sizeVar) (hmem : ∀ n, alloc.canAlloc n = true)
    (q : FQuery) (f : Form) (sf : List Form) (hf : SexpPredicate q.varNames q.predicate f)
    (hsf : AllRel (SexpPredicate q.varNames) q.softs sf) (filter : Option (LPoint → Bool))
    (hfilter : q.filter = filter.map fun g p => some (g p)) (hvl : q.varNames.length = q.varTypes.length)
    (hne : q.varTypes ≠ []) (hsmall : q.varTypes.length < 2 ^ 32) (hts : ∀ ts ∈ q.varTypes, ts.length < 2 ^ 32)
    (hknown : ∀ ts ∈ q.varTypes, ∀ n ∈ ts, r.header.HasType n) (hfile : ∀ i, q.file = some i → i < 2 ^ 23)
    (hpick : ∀ n, 0 < n → pick q.seed n < n) (n : Nat) (hn : n < 2 ^ 32)
    (hq : ∀ v ∈ r.first :: r.rest, ∀ l, v.Shown (instrumentationFiles r.evolve) l → l.Answerable q.varTypes n)
    (hroom : (r.first :: r.rest).length * n * abi.sizeVar < 2 ^ (8 * abi.ptr.1)) (m : FMem) :
    ∃ later t ps chosen rs c m' a p b,
      later.Sublist r.rest ∧ (FwWhole (before ++ after) ((FwState.start acts).run size (before ++ after)) → later = r.rest) ∧
      readTrace env r.limit ⟨((FwState.start acts).run size (before ++ after)).out, io, .good⟩ = .ok t ∧
      lispGetTrace t none = .ok ps ∧
      AllRel (ProjVisit.Shown (instrumentationFiles r.evolve)) (limited r.limit (r.first :: later)) ps ∧
      LooksAt q.seed (ofFile q.file ps) chosen ∧
      lispQueryM ⟨env, pick, plainEval fs, abi, alloc⟩ t q [] () m = (.ok (rs, c, ()), m') ∧
      AnswersAll (BestAnswers fs chosen q.varTypes filter f sf) filter rs ∧
      m.Adds m' a p b ∧ Released a p ∧ ∀ x ∈ b, x.live = false := by
  obtain ⟨p0, ps, calls, hprog, hrel, hknows⟩ := failed_known env cf mem size r c0 acts hb hd hal
  have answer := fun (later : List ProjVisit) (rs : List RecPoint) (hsub : later.Sublist r.rest)
      (hrs : AllRel (r.inOne.Records cf mem) (r.first :: later) (p0 :: rs)) =>
    fail_answers fs env pick abi alloc cf mem r hal hsizes hmem q f sf hf hsf filter hfilter hvl hne hsmall hts
      hknown hfile hpick n hn hq hroom m hknows (vs := r.first :: later) (rs := p0 :: rs)
      (s := ⟨((FwState.start acts).run size (before ++ after)).out, io, .good⟩) (hsub.cons_cons _) hrs
  by_cases hw : FwWhole (before ++ after) ((FwState.start acts).run size (before ++ after))
  · have hread : readTrace env 0 (gs io ((FwState.start acts).run size (before ++ after)).out) =
        .ok ⟨r.header.names, r.header.types.map TypeRow.desc, recPoints 0 [] (p0 :: ps)⟩ := by
      rw [hprog.whole _ hw]
      exact readTrace_recorded (env := env) (io := io) (cf := cf) (ps := p0 :: ps) hprog.hdr hal hprog.typed (reservedOk_of_unused (by
          intro r hr
          obtain ⟨p, hp, hr'⟩ := List.mem_flatMap.mp hr
          exact hprog.sizes p hp r hr'))
    obtain ⟨t, ps, chosen, rs, c, m', a, p, b, e⟩ := answer r.rest ps (List.Sublist.refl _) hrel (read_limited hread r.limit)
    exact ⟨r.rest, t, ps, chosen, rs, c, m', a, p, b, List.Sublist.refl _, fun _ => rfl, e⟩
  · obtain ⟨l, hl, hread⟩ := C86_points_lost env io cf mem _ _ p0 ps c0 calls acts size hprog.hdr hprog.few hprog.called hprog.typed
      hprog.sizes hprog.small hal hprog.does before after hbefore hafter bs hbs hfirst
    cases hrel with
    | cons h0 hrel =>
      obtain ⟨later, g1, g2⟩ := hrel.sublistRight hl
      obtain ⟨t, ps, chosen, rs, c, m', a, p, b, e⟩ := answer later l g1 (.cons h0 g2) (read_limited hread r.limit)
      exact ⟨later, t, ps, chosen, rs, c, m', a, p, b, g1, fun h => absurd h hw, e⟩

/-- **C115, for ever.**  If nothing can be written any more after the first failure (the disk is full, the
reader of a pipe is gone), and the header is in the file, then reading it fails as for any file that ends
early, or gives a trace that shows the first of the statements passed (up to the limit), with the values
their variables had; queries answer about them and free their memory.  If no write failed, nobody killed the
program and it has ended, the file can be read and shows all statements. -/
theorem C115_for_ever (fs : FloatSys) (env : Env) (pick : U32 → Nat → Nat) (abi : Abi) (alloc : AllocEnv) (io : Bool) (cf : CFloat)
    (mem : CMem) (size : Nat) (r : FailRun) (c0 : U64 × List RtCall) (acts : List FkAct) (hb : r.inOne.Built)
    (hd : r.Does cf mem size c0 acts) (hal : ∀ n, env.canAlloc n = true) (henv : env.junk.isSome = true) (events : List FwEvent)
    (hever : FailsForEver size (FwState.start acts) events) (header : List U8)
    (hheader : writeTraceHeader r.header.names (r.header.types.map TypeRow.desc) = .ok header)
    (hthere : header <+: ((FwState.start acts).run size events).out)
    (hsizes : 0 < abi.sizePoint ∧ abi.sizePoint ≤ abi.sizeVar) (hmem : ∀ n, alloc.canAlloc n = true)
    (q : FQuery) (f : Form) (sf : List Form) (hf : SexpPredicate q.varNames q.predicate f)
    (hsf : AllRel (SexpPredicate q.varNames) q.softs sf) (filter : Option (LPoint → Bool))
    (hfilter : q.filter = filter.map fun g p => some (g p)) (hvl : q.varNames.length = q.varTypes.length)
    (hne : q.varTypes ≠ []) (hsmall : q.varTypes.length < 2 ^ 32) (hts : ∀ ts ∈ q.varTypes, ts.length < 2 ^ 32)
    (hknown : ∀ ts ∈ q.varTypes, ∀ n ∈ ts, r.header.HasType n) (hfile : ∀ i, q.file = some i → i < 2 ^ 23)
    (hpick : ∀ n, 0 < n → pick q.seed n < n) (n : Nat) (hn : n < 2 ^ 32)
    (hq : ∀ v ∈ r.first :: r.rest, ∀ l, v.Shown (instrumentationFiles r.evolve) l → l.Answerable q.varTypes n)
    (hroom : (r.first :: r.rest).length * n * abi.sizeVar < 2 ^ (8 * abi.ptr.1)) (m : FMem) :
    (readTrace env r.limit ⟨((FwState.start acts).run size events).out, io, .good⟩ = .throw (endExn io) ∧
        ¬ FwWhole events ((FwState.start acts).run size events)) ∨
      ∃ shown t ps chosen rs c m' a p b,
        shown <+: r.first :: r.rest ∧
        (FwWhole events ((FwState.start acts).run size events) → shown = r.first :: r.rest) ∧
        readTrace env r.limit ⟨((FwState.start acts).run size events).out, io, .good⟩ = .ok t ∧ lispGetTrace t none = .ok ps ∧
        AllRel (ProjVisit.Shown (instrumentationFiles r.evolve)) (limited r.limit shown) ps ∧
        LooksAt q.seed (ofFile q.file ps) chosen ∧
        lispQueryM ⟨env, pick, plainEval fs, abi, alloc⟩ t q [] () m = (.ok (rs, c, ()), m') ∧
        AnswersAll (BestAnswers fs chosen q.varTypes filter f sf) filter rs ∧
        m.Adds m' a p b ∧ Released a p ∧ ∀ x ∈ b, x.live = false := by
  obtain ⟨p0, ps, calls, hprog, hrel, hknows⟩ := failed_known env cf mem size r c0 acts hb hd hal
  have hh : header = encodeHeader r.header.names (r.header.types.map TypeRow.desc) := by
    rw [writeTraceHeader_ok hprog.hdr hprog.few] at hheader
    cases hheader
    rfl
  obtain ⟨more, hmore⟩ := hprog.prefix events hever
  obtain ⟨T, hT⟩ := hthere
  obtain ⟨j, hj, hread⟩ := read_cut env io cf mem (rs := p0 :: ps) (T := T) (rest := more) hprog.hdr hprog.few hprog.called hprog.typed
    hprog.sane hprog.sizes henv hal hheader (by rw [hT, hmore, hh])
  have hfull : FwWhole events ((FwState.start acts).run size events) → more = [] := by
    intro hw
    rw [← hprog.whole _ hw] at hmore
    exact List.append_cancel_left (hmore.trans (List.append_nil _).symm)
  rw [hT] at hread
  rcases hread r.limit with ⟨hbad, hne'⟩ | hread
  · exact .inl ⟨hbad, fun h => hne' (hfull h)⟩
  · right
    obtain ⟨t, ps, chosen, rs, c, m', a, p, b, e⟩ := fail_answers fs env pick abi alloc cf mem r hal hsizes hmem q f sf hf hsf filter
      hfilter hvl hne hsmall hts hknown hfile hpick n hn hq hroom m hknows (List.take_sublist j _) (hrel.take j) hread
    refine ⟨_, t, ps, chosen, rs, c, m', a, p, b, List.take_prefix _ _, fun hw => List.take_of_length_le ?_, e⟩
    rw [hrel.length]
    exact hj (hfull hw)

/-! The project of C101: the program passes the statement of the second file, the one of the first, and the
first again. -/

def flRun (k : U64) : FailRun := ⟨[piMain, piX, piYs], [], piOuts, piHeaderY, tpY, [tpX, tpY], k⟩
def flActs : List FkAct :=
  match fwProgram exFloat exMem piHeaderY.names (piHeaderY.types.map TypeRow.desc) [piCallY', piCallX, piCallY'] with
  | .ok a => a
  | _ => []
/-- The header and the first point. -/
def flFirstBytes : List U8 :=
  match rtRun exFloat exMem piHeaderY.names (piHeaderY.types.map TypeRow.desc) [piCallY'] with
  | .ok a => a
  | _ => []

theorem fl_in (k : U64) : ∀ v ∈ (flRun k).first :: (flRun k).rest, v ∈ [tpY, tpX] := by
  intro v hv
  simp only [flRun, List.mem_cons, List.not_mem_nil, or_false] at hv ⊢
  rcases hv with rfl | rfl | rfl <;> simp

theorem fl_built (k : U64) : (flRun k).inOne.Built := by
  obtain ⟨h1, h2, h3, h4, _, _, h5, _⟩ := pi_case
  refine ⟨h1, show [piMain, piX, piYs].length ≤ 2 ^ 23 by decide, ⟨_, h3, h4⟩, h5, .inl ⟨2, _, rfl, rfl, ?_⟩, h2⟩
  intro l hl v hv
  rw [List.mem_singleton.mp hl] at hv
  have := fl_in k v hv
  simp only [List.mem_cons, List.not_mem_nil, or_false] at this
  rcases this with rfl | rfl <;> decide

theorem fl_does (k : U64) : (flRun k).Does exFloat exMem 4096 piCallY' flActs := by
  obtain ⟨_, _, _, _, h1, h2, _⟩ := pi_case
  refine ⟨fun v hv => h1 v (fl_in k v hv), [piCallX, piCallY'], ?_⟩
  cases h2 with
  | cons hy h2 =>
    cases h2 with
    | cons hx _ =>
      refine ⟨hy, .cons hx (.cons hy .nil), ?_, by rfl⟩
      intro c hc b hb
      have hc : c = piCallX ∨ c = piCallY' := by simpa using hc
      have h : ∀ c, c = piCallX ∨ c = piCallY' → (match rtBytes exFloat exMem (pointCalls c.1 c.2) with
          | .ok b => decide (b.length ≤ 4096)
          | _ => true) = true := by
        rintro c (rfl | rfl) <;> decide +kernel
      have h := h c hc
      rw [hb] at h
      exact of_decide_eq_true h

/-- The hypotheses of `C115_for_a_time` hold for it, with the query of C104. -/
example (k : U64) (seed : U32) (m : FMem) (after : List FwEvent) (hafter : ∀ e ∈ after, e.AllOrNothing 4096) :
    ∃ later t ps chosen rs c m' a p b,
      later.Sublist [tpX, tpY] ∧
      (FwWhole (List.replicate 5 .run ++ after) ((FwState.start flActs).run 4096 (List.replicate 5 .run ++ after)) →
        later = [tpX, tpY]) ∧
      readTrace exEnv k ⟨((FwState.start flActs).run 4096 (List.replicate 5 .run ++ after)).out, false, .good⟩ = .ok t ∧
      lispGetTrace t none = .ok ps ∧
      AllRel (ProjVisit.Shown (instrumentationFiles [piMain, piX, piYs])) (limited k (tpY :: later)) ps ∧
      LooksAt seed (ofFile (some 0) ps) chosen ∧
      lispQueryM ⟨exEnv, fun s n => s.toNat % n, plainEval exFloats, .lp64, xAlloc⟩ t (rqQuery seed) [] () m = (.ok (rs, c, ()), m') ∧
      AnswersAll (BestAnswers exFloats chosen pgTypes (some fun _ => true) .tt [pgForm, .tt, pgForm]) (some fun _ => true) rs ∧
      m.Adds m' a p b ∧ Released a p ∧ ∀ x ∈ b, x.live = false :=
  C115_for_a_time exFloats exEnv (fun s n => s.toNat % n) .lp64 xAlloc false exFloat exMem 4096 (flRun k) piCallY' flActs (fl_built k)
    (fl_does k) (fun _ => rfl) (List.replicate 5 .run) after (by simp [FwEvent.IsFail]) hafter flFirstBytes rfl (by decide +kernel)
    (by decide) (fun _ => rfl) (rqQuery seed) .tt [pgForm, .tt, pgForm] .nil
    (.cons rq_pred (.cons .nil (.cons rq_pred .nil))) (some fun _ => true) rfl rfl (show pgTypes ≠ [] by decide)
    (show pgTypes.length < 2 ^ 32 by decide) (by show ∀ ts ∈ pgTypes, _; decide) pi_case.2.2.2.2.2.2.2.2.1
    (by intro i h; cases h; decide) (fun n hn => Nat.mod_lt _ hn) 1 (by decide)
    (fun v hv => rq_shown 0 [tpY, tpX] (by simp [rdRun, tpThreads]) v (fl_in k v hv))
    (show 3 * 1 * Abi.lp64.sizeVar < 2 ^ (8 * Abi.lp64.ptr.1) by decide) m

/-- The hypotheses of `C115_for_ever` hold for it. -/
example (k : U64) (seed : U32) (m : FMem) (events : List FwEvent) (hever : FailsForEver 4096 (FwState.start flActs) events)
    (hthere : rdHeader <+: ((FwState.start flActs).run 4096 events).out) :
    (readTrace exEnv k ⟨((FwState.start flActs).run 4096 events).out, false, .good⟩ = .throw .eof ∧
        ¬ FwWhole events ((FwState.start flActs).run 4096 events)) ∨
      ∃ shown t ps chosen rs c m' a p b,
        shown <+: [tpY, tpX, tpY] ∧ (FwWhole events ((FwState.start flActs).run 4096 events) → shown = [tpY, tpX, tpY]) ∧
        readTrace exEnv k ⟨((FwState.start flActs).run 4096 events).out, false, .good⟩ = .ok t ∧ lispGetTrace t none = .ok ps ∧
        AllRel (ProjVisit.Shown (instrumentationFiles [piMain, piX, piYs])) (limited k shown) ps ∧
        LooksAt seed (ofFile (some 0) ps) chosen ∧
        lispQueryM ⟨exEnv, fun s n => s.toNat % n, plainEval exFloats, .lp64, xAlloc⟩ t (rqQuery seed) [] () m = (.ok (rs, c, ()), m') ∧
        AnswersAll (BestAnswers exFloats chosen pgTypes (some fun _ => true) .tt [pgForm, .tt, pgForm]) (some fun _ => true) rs ∧
        m.Adds m' a p b ∧ Released a p ∧ ∀ x ∈ b, x.live = false :=
  C115_for_ever exFloats exEnv (fun s n => s.toNat % n) .lp64 xAlloc false exFloat exMem 4096 (flRun k) piCallY' flActs (fl_built k)
    (fl_does k) (fun _ => rfl) rfl events hever rdHeader rd_run.1 hthere
    (by decide) (fun _ => rfl) (rqQuery seed) .tt [pgForm, .tt, pgForm] .nil
    (.cons rq_pred (.cons .nil (.cons rq_pred .nil))) (some fun _ => true) rfl rfl (show pgTypes ≠ [] by decide)
    (show pgTypes.length < 2 ^ 32 by decide) (by show ∀ ts ∈ pgTypes, _; decide) pi_case.2.2.2.2.2.2.2.2.1
    (by intro i h; cases h; decide) (fun n hn => Nat.mod_lt _ hn) 1 (by decide)
    (fun v hv => rq_shown 0 [tpY, tpX] (by simp [rdRun, tpThreads]) v (fl_in k v hv))
    (show 3 * 1 * Abi.lp64.sizeVar < 2 ^ (8 * Abi.lp64.ptr.1) by decide) m

/-- What the trace shows after some events. -/
def flShown (events : List FwEvent) (k : U64 := 0) : Res (List LPoint) :=
  readTrace exEnv k (gs false ((FwState.start flActs).run 4096 events).out) >>= fun t => lispGetTrace t none

/-- Everything is written and the process ends. -/
theorem fl_whole : FwWhole (List.replicate 14 .run) ((FwState.start flActs).run 4096 (List.replicate 14 .run)) := by
  refine ⟨fun e he => ?_, ?_⟩
  · rw [(List.mem_replicate.mp he).2]
    simp [FwEvent.IsFail, FwEvent.IsKill]
  · have : ((FwState.start flActs).run 4096 (List.replicate 14 .run)).todo.length = 0 := by decide +kernel
    exact List.eq_nil_of_length_eq_zero this

/-- All is written; the second point is lost, or the third; the process is killed; with a limit. -/
example : flShown (List.replicate 14 .run) = .ok [tpPointY, tpPointX, tpPointY] ∧
    flShown (List.replicate 8 .run ++ .fail 0 4096 :: List.replicate 5 .run) = .ok [tpPointY, tpPointY] ∧
    flShown (List.replicate 12 .run ++ .fail 0 4096 :: List.replicate 5 .run) = .ok [tpPointY, tpPointX] ∧
    flShown (List.replicate 8 .run ++ .kill :: List.replicate 5 .run) = .ok [tpPointY] ∧
    flShown (List.replicate 8 .run ++ .fail 0 4096 :: List.replicate 5 .run) 1 = .ok [tpPointY] := by decide +kernel

/-- The disk is full after 12 bytes of the second point, for ever. -/
theorem fl_full : FailsForEver 4096 (FwState.start flActs) (List.replicate 8 .run ++ [.fail 12 4096]) := by
  intro a e b hab he
  rcases List.eq_nil_or_concat b with rfl | ⟨b, x, rfl⟩
  · rw [hab]
  · exfalso
    rw [List.concat_eq_append, ← List.cons_append, ← List.append_assoc] at hab
    have hm : e ∈ List.replicate 8 FwEvent.run := by
      rw [(List.append_inj' hab rfl).1]
      simp
    rw [(List.mem_replicate.mp hm).2] at he
    exact he

/-- Then reading the file fails, unless a limit is given. -/
example : flShown (List.replicate 8 .run ++ [.fail 12 4096]) = .throw .eof ∧
    flShown (List.replicate 8 .run ++ [.fail 12 4096]) 1 = .ok [tpPointY] := by decide +kernel

/-- What is shown if all but the last byte of the second point is written. -/
def flTorn : LPoint := ⟨2, some 1, [⟨ascii "x", ascii "int", .int 5, none⟩, ⟨ascii "y", ascii "int", .int 5, none⟩], []⟩

/-- **C115, torn points.**  That a failing write writes nothing is needed: if it fails before the last byte of
a point, and later ones succeed, the trace can be read, and shows the next statement with the variables of
both: no statement the program passed is to be shown like that. -/
theorem C115_torn :
    flShown (List.replicate 8 .run ++ .fail 22 4096 :: List.replicate 5 .run) = .ok [tpPointY, flTorn] ∧
    ∀ v ∈ [tpY, tpX, tpY], ¬ v.Shown (instrumentationFiles [piMain, piX, piYs]) flTorn := by
  refine ⟨by decide +kernel, ?_⟩
  intro v hv hs
  have hv : v ∈ [tpY, tpX] := by
    simp only [List.mem_cons, List.not_mem_nil, or_false] at hv ⊢
    rcases hv with rfl | rfl | rfl <;> simp
  obtain ⟨y, hy, _⟩ := pi_shown v hv _ hs
  simp [flTorn] at hy

end TraceDB
