import Verif.Spec.AnyRuns
import Verif.Props.FailThreads
import Verif.Props.CollectRuns
/-
Lemmas for C118: what the files left by runs of every kind show.
-/
namespace TraceDB

/-- The file is refused, or gives a trace of statements passed. -/
def FileReadsAs (env : Env) (io : Bool) (p : ProjRun) (may : List ProjVisit → Prop) (whole : Prop) (bytes : List U8) : Prop :=
  (readTrace env p.limit ⟨bytes, io, .good⟩ = .throw (endExn io) ∧ ¬ whole) ∨
    ∃ t all ps types, readTrace env p.limit ⟨bytes, io, .good⟩ = .ok t ∧ may all ∧
      AllRel (ProjVisit.Shown (instrumentationFiles p.evolve)) (limited p.limit all) ps ∧ KnownTrace t types ps ∧
      (∀ n, p.header.HasType n → n ∈ types) ∧ ∀ v ∈ limited p.limit all, ∃ l ∈ p.threads, v ∈ l

theorem mem_limited {α : Type} {k : U64} {l : List α} {a : α} (h : a ∈ limited k l) : a ∈ l := (limited_sublist k l).subset h

/-- A trace of recorded points shows the statements passed. -/
theorem readsAs_points {env : Env} {io : Bool} {cf : CFloat} {mem : CMem} {p : ProjRun} {may : List ProjVisit → Prop} {whole : Prop}
    {bytes : List U8} {visits : List ProjVisit}
    (hknows : ∀ vs rs, AllRel (p.Records cf mem) vs rs → (∀ v ∈ vs, v ∈ visits) →
        ∃ ps types, AllRel (ProjVisit.Shown (instrumentationFiles p.evolve)) vs ps ∧
          KnownTrace ⟨p.header.names, p.header.types.map TypeRow.desc, recPoints 0 [] rs⟩ types ps ∧
          ∀ n, p.header.HasType n → n ∈ types)
    (hvisits : ∀ v ∈ visits, ∃ l ∈ p.threads, v ∈ l) {all : List ProjVisit} {rs : List RecPoint} (hmay : may all)
    (hrel : AllRel (p.Records cf mem) all rs) (hin : ∀ v ∈ all, v ∈ visits)
    (hread : readTrace env p.limit ⟨bytes, io, .good⟩ =
      .ok ⟨p.header.names, p.header.types.map TypeRow.desc, recPoints 0 [] (limited p.limit rs)⟩) :
    FileReadsAs env io p may whole bytes := by
  have hin' : ∀ v ∈ limited p.limit all, v ∈ visits := fun v hv => hin v (mem_limited hv)
  obtain ⟨ps, types, k1, k2, k3⟩ := hknows _ _ (hrel.limited p.limit) hin'
  exact .inr ⟨_, all, ps, types, hread, hmay, k1, k2, k3, fun v hv => hvisits v (hin' v hv)⟩

theorem threads_reads (env : Env) (io : Bool) (cf : CFloat) (mem : CMem) (r : ProjRun) (whole : Prop) (bytes : List U8)
    (hb : r.Built) (hl : r.Leaves cf mem whole bytes) (hal : ∀ n, env.canAlloc n = true) (henv : env.junk.isSome = true) :
    FileReadsAs env io r (FirstOfEach r.threads whole) whole bytes := by
  rcases run_known env io cf mem r whole bytes hb hl hal henv with bad | ⟨t, shown, ps, types, k1, ⟨order, rfl, p1, p2, p3⟩, k3, k4, k5, k6⟩
  · exact .inl bad
  · exact .inr ⟨t, order.map (·.2), ps, types, k1, ⟨order, rfl, p1, p2, p3⟩, k3, k4, k5, k6⟩

/-- The header of a program. -/
theorem built_sane (env : Env) (cf : CFloat) (mem : CMem) {r : ProjRun} (hb : r.Built) (hal : ∀ n, env.canAlloc n = true) :
    HeaderOk r.header.names (r.header.types.map TypeRow.desc) ∧ r.header.names.length < 2 ^ 32 ∧
      ∀ ty ∈ r.header.types.map TypeRow.desc, ty.Sane := by
  have hone : (⟨r.evolve, r.other, r.project, r.header, [[]], r.limit⟩ : ProjRun).Built := by
    obtain ⟨b1, b2, b3, b4, b5, b6⟩ := hb
    refine ⟨b1, b2, b3, b4, ?_, b6⟩
    rcases b5 with ⟨p, o, ho, hh, hv⟩ | hm
    · refine .inl ⟨p, o, ho, hh, ?_⟩
      intro l hl v hv'
      rw [List.mem_singleton.mp hl] at hv'
      cases hv'
    · exact .inr hm
  obtain ⟨h1, h2, h3, _⟩ := visited_known env cf mem _ [] hone rfl (by intro v hv; cases hv) (by intro v hv; cases hv) hal
  exact ⟨h1, h2, h3⟩

theorem forks_reads (env : Env) (io : Bool) (cf : CFloat) (mem : CMem) (r : ForkRun) (size : Nat) (acts : List FtAct)
    (events : List FtEvent) (s : FtState) (header : List U8)
    (hb : r.inOne.Built) (hd : r.Does cf mem size acts) (hsafe : FtSafe size (FtState.start acts) events)
    (hs : (FtState.start acts).run size events = .ok s)
    (hheader : writeTraceHeader r.header.names (r.header.types.map TypeRow.desc) = .ok header) (hthere : header <+: s.out)
    (hal : ∀ n, env.canAlloc n = true) (henv : env.junk.isSome = true) :
    FileReadsAs env io r.inOne
      (fun all => (all = [] ∧ ¬ ((∀ e ∈ events, ¬ e.IsKill) ∧ FtJoined size (FtState.start acts) events ∧ s.Ended)) ∨
        ∃ later, all = r.first :: later ∧ FkSoFar (ftAsFork r.prog) later ∧
          ((∀ e ∈ events, ¬ e.IsKill) ∧ FtJoined size (FtState.start acts) events ∧ s.Ended → FkAll (ftAsFork r.prog) later))
      ((∀ e ∈ events, ¬ e.IsKill) ∧ FtJoined size (FtState.start acts) events ∧ s.Ended) s.out := by
  obtain ⟨p0, prog, hprog, h0, hrel, hknows⟩ := forked_known env cf mem size r acts hb hd hal
  have hvisits : ∀ v ∈ r.first :: ftPoints r.prog, ∃ l ∈ r.inOne.threads, v ∈ l := fun v hv => ⟨_, List.mem_singleton_self _, hv⟩
  have hin : ∀ later, FkSoFar (ftAsFork r.prog) later → ∀ v ∈ r.first :: later, v ∈ r.first :: ftPoints r.prog := by
    intro later hso v hv
    rcases List.mem_cons.mp hv with rfl | hv
    · exact List.mem_cons_self
    · exact List.mem_cons_of_mem _ (hso.mem v hv)
  obtain ⟨s', hs', hc⟩ := C91_forked env io cf mem _ _ size p0 prog acts hprog hal events hsafe
  rw [hs] at hs'
  cases hs'
  by_cases hw : (∀ e ∈ events, ¬ e.IsKill) ∧ FtJoined size (FtState.start acts) events ∧ s.Ended
  · obtain ⟨l, hl, hread⟩ := C91_all_recorded env io cf mem _ _ size p0 prog acts hprog hal events hsafe hw.2.1 hw.1 s hs hw.2.2
    obtain ⟨later, g1, g2⟩ := hrel.asFork.all hl
    exact readsAs_points (p := r.inOne) hknows hvisits (.inr ⟨later, rfl, g1.soFar, fun _ => g1⟩) (.cons h0 g2) (hin later g1.soFar)
      (read_limited hread r.limit)
  · rcases hc with ⟨c, bs, hc, hbs, hpre⟩ | ⟨l, hl, hread⟩
    · obtain ⟨hdr, hn, hsane⟩ : HeaderOk r.header.names (r.header.types.map TypeRow.desc) ∧ r.header.names.length < 2 ^ 32 ∧
          ∀ ty ∈ r.header.types.map TypeRow.desc, ty.Sane := built_sane env cf mem hb hal
      obtain ⟨c0, k1, k2, k3, k4⟩ := id h0
      have hh : header = encodeHeader r.header.names (r.header.types.map TypeRow.desc) := by
        rw [writeTraceHeader_ok hdr hn] at hheader
        cases hheader
        rfl
      rw [hprog.one hc] at hbs
      cases hbs
      obtain ⟨more, hmore⟩ := hpre
      obtain ⟨T, hT⟩ := hthere
      obtain ⟨j, _, hread⟩ := read_cut env io cf mem (rs := [p0]) (calls := [c0]) (T := T) (rest := more) hdr hn (.cons k2 .nil)
        (by intro p hp; rw [List.mem_singleton.mp hp]; exact k3) hsane
        (by intro p hp; rw [List.mem_singleton.mp hp, k4]; simp) henv hal hheader (by
          rw [hT, hmore, hh]
          simp [encodePoints])
      rw [hT] at hread
      rcases hread r.limit with ⟨hbad, _⟩ | hread
      · exact .inl ⟨hbad, hw⟩
      · match j, hread with
        | 0, hread =>
          exact readsAs_points (p := r.inOne) hknows hvisits (all := []) (rs := []) (.inl ⟨rfl, hw⟩) .nil (by simp) hread
        | j + 1, hread =>
          rw [List.take_succ_cons, List.take_nil] at hread
          exact readsAs_points (p := r.inOne) hknows hvisits (all := [r.first]) (rs := [p0])
            (.inr ⟨[], rfl, .stop _, fun h => absurd h hw⟩) (.cons h0 .nil) (by simp) hread
    · obtain ⟨later, g1, g2⟩ := hrel.asFork.soFar hl
      exact readsAs_points (p := r.inOne) hknows hvisits (.inr ⟨later, rfl, g1, fun h => absurd h hw⟩) (.cons h0 g2) (hin later g1)
        (read_limited hread r.limit)

theorem signals_reads (env : Env) (io : Bool) (cf : CFloat) (mem : CMem)
    (r : SigRun) (acts : List (List RtAct)) (steps : List (SgEvent (List RtAct))) (header T : List U8) (s : RtState)
    (hb : r.inOne.Built) (hd : r.Does cf mem acts steps)
    (hheader : writeTraceHeader r.header.names (r.header.types.map TypeRow.desc) = .ok header)
    (hs : (RtState.init header acts).sgRun steps = .ok s) (hT : header ++ T <+: s.out)
    (hal : ∀ n, env.canAlloc n = true) (henv : env.junk.isSome = true) :
    FileReadsAs env io r.inOne
      (fun all => ∃ signals order left, all = order.map (·.2) ∧ signals <+: r.events.filter SgEvent.isSignal ∧
        SgReach r.threads signals order left ∧
        (SgSafe (RtState.init header acts) steps ∧ s.Ended ∧ header ++ T = s.out →
          signals = r.events.filter SgEvent.isSignal ∧ ∀ l ∈ left, l = []))
      (SgSafe (RtState.init header acts) steps ∧ s.Ended ∧ header ++ T = s.out) (header ++ T) := by
  obtain ⟨threads, events, hprog, ht, he, hdr, hnl, hsane, hknows⟩ := signalled_known env cf mem r acts steps hb hd hal
  obtain ⟨s', order, rem, rest, es, hrun, hes, hreach, hout, hall⟩ := sg_written (header := header) hprog
  rw [hs] at hrun
  cases hrun
  obtain ⟨more, hT⟩ := hT
  obtain ⟨sv, hsv, hsvr⟩ := (sgRel_signals he).prefixRight hes
  obtain ⟨ov, rv, g1, g2, g3⟩ := hreach.lift ht hsvr
  have hrs : ∀ p ∈ order.map (·.2), (∀ x ∈ p.items, x.Typed r.header.names (r.header.types.map TypeRow.desc) cf) ∧
      recSizes p.items = [] := by
    intro p hp
    obtain ⟨_, _, _, _, _, h⟩ := g2.mem_right p hp
    exact h
  obtain ⟨cs, _, hcs⟩ := AllRel.between (S := fun _ p c => RecPoint.CalledAs cf mem p c ∧
    (∀ x ∈ p.items, x.Typed r.header.names (r.header.types.map TypeRow.desc) cf) ∧ recSizes p.items = []) g2
  obtain ⟨j, hj, hread⟩ := read_cut env io cf mem (rs := order.map (·.2)) (T := T) (rest := more ++ rest) hdr hnl
    (hcs.imp fun p c ⟨_, h⟩ => h.1) (fun p hp => (hrs p hp).1) hsane (fun p hp r hr => by rw [(hrs p hp).2] at hr; simp at hr)
    henv hal hheader (by rw [← List.append_assoc, hT, hout, List.map_map]; rfl)
  have hfull : SgSafe (RtState.init header acts) steps ∧ s.Ended ∧ header ++ T = s.out →
      more ++ rest = [] ∧ es = events.filter SgEvent.isSignal ∧ ∀ l ∈ rem, l = [] := by
    rintro ⟨h1, h2, h3⟩
    obtain ⟨k1, k2, k3⟩ := hall h1 h2
    rw [h3] at hT
    exact ⟨by rw [k2, List.append_nil]; exact List.append_cancel_left (hT.trans (List.append_nil _).symm), k1, k3⟩
  rcases hread r.limit with ⟨hbad, hne'⟩ | hread
  · exact .inl ⟨hbad, fun h => hne' (hfull h).1⟩
  · obtain ⟨signals, left, hsig, hre, hend⟩ : ∃ signals left, signals <+: r.events.filter SgEvent.isSignal ∧
        SgReach r.threads signals (ov.take j) left ∧
        (SgSafe (RtState.init header acts) steps ∧ s.Ended ∧ header ++ T = s.out →
          signals = r.events.filter SgEvent.isSignal ∧ ∀ l ∈ left, l = []) := by
      by_cases hw : SgSafe (RtState.init header acts) steps ∧ s.Ended ∧ header ++ T = s.out
      · obtain ⟨k1, k2, k3⟩ := hfull hw
        have hlen : ov.length ≤ j := by
          have h1 := hj k1
          have h2 := g2.length
          rw [List.length_map] at h1 h2
          rw [List.length_map] at h2
          omega
        refine ⟨sv, rv, hsv, by rw [List.take_of_length_le hlen]; exact g1, fun _ => ⟨?_, ?_⟩⟩
        · refine hsv.eq_of_length ?_
          rw [hsvr.length, k2, ← (sgRel_signals he).length]
        · intro l hl
          obtain ⟨x, hx, hlx⟩ := g3.mem_left l hl
          rw [k3 x hx] at hlx
          cases hlx
          rfl
      · obtain ⟨signals, left, k1, k2⟩ := g1.take j
        exact ⟨signals, left, k1.trans hsv, k2, fun h => absurd h hw⟩
    have hin : ∀ v ∈ (ov.take j).map (·.2), v ∈ r.visits := by
      have h1 : ∀ x ∈ ov.take j, x.2 ∈ r.visits := (hre.mem (P := (· ∈ r.visits))
        (fun l hl v hv => List.mem_append_left _ (List.mem_flatten.mpr ⟨l, hl, hv⟩))
        fun e he v hv => List.mem_append_right _ (List.mem_flatMap.mpr
          ⟨e, (List.mem_filter.mp (hsig.subset he)).1, hv⟩)).1
      intro v hv
      obtain ⟨x, hx, rfl⟩ := List.mem_map.mp hv
      exact h1 x hx
    exact readsAs_points (p := r.inOne) hknows (fun v hv => ⟨_, List.mem_singleton_self _, hv⟩)
      ⟨signals, ov.take j, left, rfl, hsig, hre, hend⟩ (by rw [List.map_take]; exact g2.take j) hin hread

theorem full_reads (env : Env) (io : Bool) (cf : CFloat) (mem : CMem)
    (r : FailRun) (size : Nat) (c0 : U64 × List RtCall) (acts : List FkAct) (events : List FwEvent) (header : List U8)
    (hb : r.inOne.Built) (hd : r.Does cf mem size c0 acts) (hever : FailsForEver size (FwState.start acts) events)
    (hheader : writeTraceHeader r.header.names (r.header.types.map TypeRow.desc) = .ok header)
    (hthere : header <+: ((FwState.start acts).run size events).out)
    (hal : ∀ n, env.canAlloc n = true) (henv : env.junk.isSome = true) :
    FileReadsAs env io r.inOne
      (fun all => all <+: r.first :: r.rest ∧ (FwWhole events ((FwState.start acts).run size events) → all = r.first :: r.rest))
      (FwWhole events ((FwState.start acts).run size events)) ((FwState.start acts).run size events).out := by
  obtain ⟨p0, ps, calls, hprog, hrel, hknows⟩ := failed_known env cf mem size r c0 acts hb hd hal
  have hh : header = encodeHeader r.header.names (r.header.types.map TypeRow.desc) := by
    rw [writeTraceHeader_ok hprog.hdr hprog.few] at hheader
    cases hheader
    rfl
  obtain ⟨more, hmore⟩ := hprog.prefix events hever
  obtain ⟨T, hT⟩ := hthere
  obtain ⟨j, hj, hread⟩ := read_cut env io cf mem (rs := p0 :: ps) (T := T) (rest := more) hprog.hdr hprog.few hprog.called hprog.typed
    hprog.sane hprog.sizes henv hal hheader (by rw [hT, hmore, hh])
  have hfull : FwWhole events ((FwState.start acts).run size events) → more = [] := by
    intro hw
    rw [← hprog.whole _ hw] at hmore
    exact List.append_cancel_left (hmore.trans (List.append_nil _).symm)
  rw [hT] at hread
  rcases hread r.limit with ⟨hbad, hne'⟩ | hread
  · exact .inl ⟨hbad, fun h => hne' (hfull h)⟩
  · refine readsAs_points (p := r.inOne) hknows (fun v hv => ⟨_, List.mem_singleton_self _, hv⟩)
      (all := (r.first :: r.rest).take j) ⟨List.take_prefix _ _, fun hw => List.take_of_length_le ?_⟩ (hrel.take j)
      (fun v hv => List.mem_of_mem_take hv) hread
    rw [hrel.length]
    exact hj (hfull hw)

theorem gaps_reads (env : Env) (io : Bool) (cf : CFloat) (mem : CMem)
    (r : FailRun) (size : Nat) (c0 : U64 × List RtCall) (acts : List FkAct) (before after : List FwEvent) (bs : List U8)
    (hb : r.inOne.Built) (hd : r.Does cf mem size c0 acts) (hbefore : ∀ e ∈ before, ¬ e.IsFail)
    (hafter : ∀ e ∈ after, e.AllOrNothing size)
    (hbs : rtRun cf mem r.header.names (r.header.types.map TypeRow.desc) [c0] = .ok bs)
    (hfirst : bs <+: ((FwState.start acts).run size before).out)
    (hal : ∀ n, env.canAlloc n = true) :
    FileReadsAs env io r.inOne
      (fun all => ∃ later, all = r.first :: later ∧ later.Sublist r.rest ∧
        (FwWhole (before ++ after) ((FwState.start acts).run size (before ++ after)) → later = r.rest))
      (FwWhole (before ++ after) ((FwState.start acts).run size (before ++ after)))
      ((FwState.start acts).run size (before ++ after)).out := by
  obtain ⟨p0, ps, calls, hprog, hrel, hknows⟩ := failed_known env cf mem size r c0 acts hb hd hal
  have hvisits : ∀ v ∈ r.first :: r.rest, ∃ l ∈ r.inOne.threads, v ∈ l := fun v hv => ⟨_, List.mem_singleton_self _, hv⟩
  by_cases hw : FwWhole (before ++ after) ((FwState.start acts).run size (before ++ after))
  · have hread : readTrace env 0 (gs io ((FwState.start acts).run size (before ++ after)).out) =
        .ok ⟨r.header.names, r.header.types.map TypeRow.desc, recPoints 0 [] (p0 :: ps)⟩ := by
      rw [hprog.whole _ hw]
      exact readTrace_recorded (env := env) (io := io) (cf := cf) (ps := p0 :: ps) hprog.hdr hal hprog.typed (reservedOk_of_unused (by
          intro r hr
          obtain ⟨p, hp, hr'⟩ := List.mem_flatMap.mp hr
          exact hprog.sizes p hp r hr'))
    exact readsAs_points (p := r.inOne) hknows hvisits ⟨r.rest, rfl, List.Sublist.refl _, fun _ => rfl⟩ hrel (fun v hv => hv)
      (read_limited hread r.limit)
  · obtain ⟨l, hl, hread⟩ := C86_points_lost env io cf mem _ _ p0 ps c0 calls acts size hprog.hdr hprog.few hprog.called hprog.typed
      hprog.sizes hprog.small hal hprog.does before after hbefore hafter bs hbs hfirst
    cases hrel with
    | cons h0 hrel =>
      obtain ⟨later, g1, g2⟩ := hrel.sublistRight hl
      exact readsAs_points (p := r.inOne) hknows hvisits ⟨later, rfl, g1, fun h => absurd h hw⟩ (.cons h0 g2)
        (fun v hv => (g1.cons_cons r.first).subset hv) (read_limited hread r.limit)

/-- Points of threads in some order. -/
theorem fmReads_points {env : Env} {io : Bool} {cf : CFloat} {mem : CMem} {r : ProjRun} {may : List ProjVisit → Prop} {whole : Prop}
    {bytes : List U8}
    (hknows : ∀ vs rs, AllRel (r.Records cf mem) vs rs → (∀ v ∈ vs, v ∈ r.threads.flatten) →
        ∃ ps types, AllRel (ProjVisit.Shown (instrumentationFiles r.evolve)) vs ps ∧
          KnownTrace ⟨r.header.names, r.header.types.map TypeRow.desc, recPoints 0 [] rs⟩ types ps ∧
          ∀ n, r.header.HasType n → n ∈ types)
    {thr : List (List FmPoint)} (hthr : r.threads = thr.map (List.map (·.1)))
    (hok : ∀ l ∈ thr, ∀ x ∈ l, x.Ok cf mem r) {order : List (Nat × FmPoint)} (hlt : ∀ x ∈ order, x.1 < thr.length)
    (hsub : ∀ (i : Nat) (l : List FmPoint), thr[i]? = some l → (threadPart i order).Sublist l)
    (hmay : may ((fmVisits order).map (·.2)))
    (hread : readTrace env r.limit ⟨bytes, io, .good⟩ =
      .ok ⟨r.header.names, r.header.types.map TypeRow.desc, recPoints 0 [] (limited r.limit (order.map (·.2.2.1)))⟩) :
    FileReadsAs env io r may whole bytes := by
  obtain ⟨h1, h2, h3⟩ := fm_order hthr hok hlt hsub
  have hsnd : (fmVisits order).map (·.2) = order.map (·.2.1) := by
    rw [fmVisits, List.map_map]
    rfl
  rw [hsnd] at hmay
  refine readsAs_points hknows (fun v hv => ?_) hmay h3 (fun v hv => ?_) hread
  · obtain ⟨l, hl, hv⟩ := List.mem_flatten.mp hv
    exact ⟨l, hl, hv⟩
  · obtain ⟨x, hx, rfl⟩ := List.mem_map.mp hv
    exact (h1 x hx).2

theorem fullThreads_reads (env : Env) (io : Bool) (cf : CFloat) (mem : CMem)
    (r : ProjRun) (size : Nat) (calls : List (List (U64 × List RtCall))) (acts : List (List FtAct)) (header : List U8)
    (events : List FmEvent) (s : FmState) (hb : r.Built) (hd : r.DoesThreads cf mem calls acts)
    (hheader : writeTraceHeader r.header.names (r.header.types.map TypeRow.desc) = .ok header)
    (hever : FmFailsForEver size (FmState.start header acts) events)
    (hs : (FmState.start header acts).run size events = .ok s) (hthere : header <+: s.out)
    (hal : ∀ n, env.canAlloc n = true) (henv : env.junk.isSome = true) :
    FileReadsAs env io r (FirstOfEach r.threads (FmWhole events s)) (FmWhole events s) s.out := by
  obtain ⟨thr, hthr, hcalls, hok, hdoes, hdr, hfew, hsane, hknows⟩ := failThreads_known env cf mem r calls acts hb hd hal
  obtain ⟨s', hrun, order, rest, h1, h2, h3, h4⟩ := fm_for_ever hdoes header size events hever
  rw [hs] at hrun
  cases hrun
  have hsub : ∀ (i : Nat) (l : List FmPoint), thr[i]? = some l → (threadPart i order).Sublist l := fun i l hl => (h2 i l hl).sublist
  obtain ⟨g1, _, _⟩ := fm_order hthr hok h1 hsub
  obtain ⟨j, hj, hread⟩ := fm_read env io (fun x hx => (g1 x hx).1) hdr hfew hsane henv hal hheader hthere h3
  rcases hread with ⟨hbad, hrest⟩ | hread
  · exact .inl ⟨hbad, fun hw => hrest (h4 hw).1⟩
  · have htake : ∀ (i : Nat), threadPart i (order.take j) <+: threadPart i order := fun i => threadPart_of_take i j order
    have hlt : ∀ x ∈ order.take j, x.1 < thr.length := fun x hx => h1 x (List.mem_of_mem_take hx)
    refine fmReads_points hknows hthr hok (order := order.take j) hlt
      (fun i l hl => (htake i).sublist.trans (hsub i l hl)) ⟨fmVisits (order.take j), rfl, fmVisits_lt hthr hlt, ?_, ?_⟩ hread
    · intro i l hl
      obtain ⟨l', hl', rfl⟩ := fmVisits_get hthr hl
      rw [fmVisits_part]
      exact ((htake i).trans (h2 i l' hl')).map _
    · intro hw
      obtain ⟨hr, hi⟩ := h4 hw
      rw [List.take_of_length_le (hj hr)]
      exact fmVisits_interleaves hthr hi

theorem gapsThreads_reads (env : Env) (io : Bool) (cf : CFloat) (mem : CMem)
    (r : ProjRun) (size : Nat) (calls : List (List (U64 × List RtCall))) (acts : List (List FtAct)) (header : List U8)
    (before after : List FmEvent) (s1 s : FmState) (hb : r.Built) (hd : r.DoesThreads cf mem calls acts)
    (hheader : writeTraceHeader r.header.names (r.header.types.map TypeRow.desc) = .ok header)
    (hfit : PointsFit cf mem size calls) (hbefore : ∀ e ∈ before, ¬ e.IsFail) (hafter : ∀ e ∈ after, e.AllOrNothing size)
    (hs1 : (FmState.start header acts).run size before = .ok s1) (hidle : s1.owner = none) (hon : s1.ended = false)
    (hthere : header <+: s1.out) (hs : (FmState.start header acts).run size (before ++ after) = .ok s)
    (hal : ∀ n, env.canAlloc n = true) (henv : env.junk.isSome = true) :
    FileReadsAs env io r (SomeOfEach r.threads (FmWhole (before ++ after) s)) (FmWhole (before ++ after) s) s.out := by
  obtain ⟨thr, hthr, hcalls, hok, hdoes, hdr, hfew, hsane, hknows⟩ := failThreads_known env cf mem r calls acts hb hd hal
  obtain ⟨s', hrun, first, later, torn, T, rest, h1, h2, h3, h4, h5, h6, h7, h8⟩ := fm_for_a_time hdoes header size (by
    intro l hl x hx
    have := hfit _ (by rw [hcalls]; exact List.mem_map.mpr ⟨l, hl, rfl⟩) _ (List.mem_map.mpr ⟨x, hx, rfl⟩)
    exact this _ (point_bytes (hok l hl x hx).2.1 (hok l hl x hx).2.2.1)) before after hbefore hafter s1 hs1 hidle hon hthere
  rw [hs] at hrun
  cases hrun
  have happend : ∀ (i : Nat) (a b : List (Nat × FmPoint)), threadPart i (a ++ b) = threadPart i a ++ threadPart i b := by
    intro i a b
    simp [threadPart]
  have hsub : ∀ o, o <+: torn → ∀ (i : Nat) (l : List FmPoint), thr[i]? = some l → (threadPart i (first ++ (later ++ o))).Sublist l := by
    intro o ho i l hl
    obtain ⟨more, rfl, hm⟩ := h3 i l hl
    rw [happend]
    refine (List.Sublist.refl _).append (List.Sublist.trans ?_ hm)
    exact ((((List.Sublist.refl later).append ho.sublist).filter _).map _)
  have hlt : ∀ o, o <+: torn → ∀ x ∈ first ++ (later ++ o), x.1 < thr.length := by
    intro o ho x hx
    apply h2
    rw [List.append_assoc]
    exact (((List.Sublist.refl first).append ((List.Sublist.refl later).append ho.sublist)).subset hx)
  obtain ⟨g1, _, _⟩ := fm_order hthr hok (hlt torn List.prefix_rfl) (hsub torn List.prefix_rfl)
  have hread := fm_read_torn env io (order := first ++ later) (torn := torn) (T := T) (rest := rest) (by
    rw [List.append_assoc]
    exact fun x hx => (g1 x hx).1) hdr hfew hsane henv hal hheader h5
  rw [← h4] at hread
  rcases hread with ⟨hbad, hrest, hlim⟩ | ⟨o, ho, _, hread⟩
  · refine .inl ⟨hbad, fun hw => ?_⟩
    obtain ⟨rfl, _⟩ := h8 hw
    exact hrest (List.append_eq_nil_iff.mp h5).2
  · rw [List.append_assoc] at hread
    refine fmReads_points hknows hthr hok (order := first ++ (later ++ o)) (hlt o ho) (hsub o ho)
      ⟨fmVisits (first ++ (later ++ o)), rfl, fmVisits_lt hthr (hlt o ho), ?_, ?_⟩ hread
    · intro i l hl
      obtain ⟨l', hl', rfl⟩ := fmVisits_get hthr hl
      rw [fmVisits_part]
      exact (hsub o ho i l' hl').map _
    · intro hw
      obtain ⟨hr, hi⟩ := h8 hw
      subst hr
      have : o = [] := List.prefix_nil.mp ho
      subst this
      rw [List.append_nil]
      exact fmVisits_interleaves hthr hi

/-- Files left by runs of every kind are refused, or give traces of statements passed. -/
theorem left_reads (env : Env) (io : Bool) {cf : CFloat} {mem : CMem} {p : ProjRun} {may : List ProjVisit → Prop} {whole : Prop}
    {bytes : List U8} (h : LeftBy cf mem p may whole bytes) (hal : ∀ n, env.canAlloc n = true) (henv : env.junk.isSome = true) :
    FileReadsAs env io p may whole bytes := by
  cases h with
  | threads _ _ _ hb hl => exact threads_reads env io cf mem _ _ _ hb hl hal henv
  | forks r size acts events s header hb hd hsafe hs hheader hthere =>
    exact forks_reads env io cf mem r size acts events s header hb hd hsafe hs hheader hthere hal henv
  | signals r acts steps header T s hb hd hheader hs hT =>
    exact signals_reads env io cf mem r acts steps header T s hb hd hheader hs hT hal henv
  | full r size c0 acts events header hb hd hever hheader hthere =>
    exact full_reads env io cf mem r size c0 acts events header hb hd hever hheader hthere hal henv
  | gaps r size c0 acts before after bs hb hd hbefore hafter hbs hfirst =>
    exact gaps_reads env io cf mem r size c0 acts before after bs hb hd hbefore hafter hbs hfirst hal
  | fullThreads _ size calls acts header events s hb hd hheader hever hs hthere =>
    exact fullThreads_reads env io cf mem p size calls acts header events s hb hd hheader hever hs hthere hal henv
  | gapsThreads _ size calls acts header before after s1 s hb hd hheader hfit hbefore hafter hs1 hidle hon hthere hs =>
    exact gapsThreads_reads env io cf mem p size calls acts header before after s1 s hb hd hheader hfit hbefore hafter hs1 hidle
      hon hthere hs hal henv

section
variable {env : Env} {cf : CFloat} {mem : CMem} {runOf : Nat × Nat → ProjRun} {may : Nat × Nat → List ProjVisit → Prop}
  {whole : Nat × Nat → Prop} {file : Nat × Nat → IStream} {w : CfWorld (Nat × Trace)}

theorem ReadsAnyRuns.numbers (hw : ReadsAnyRuns env cf mem runOf may whole file w) (k : Nat) :
    (provided (w.attempts k)).map (·.1) = List.range (provided (w.attempts k)).length := by
  apply List.ext_getElem?
  intro j
  rw [List.getElem?_map]
  cases h : (provided (w.attempts k))[j]? with
  | none =>
    have := List.getElem?_eq_none_iff.mp h
    simp [this]
  | some x =>
    have hj := (List.getElem?_eq_some_iff.mp h).1
    rw [Option.map_some, (hw.added k j x.1 x.2 (provided_get h)).1, List.getElem?_range hj]

theorem ReadsAnyRuns.entry (hw : ReadsAnyRuns env cf mem runOf may whole file w) {n : Nat} {e : Nat × Nat × Trace}
    (h : e ∈ providedBy (gives false w) n) :
    readTrace env (runOf (e.1, e.2.1)).limit (file (e.1, e.2.1)) = .ok e.2.2 ∧
      ∃ io bytes, file (e.1, e.2.1) = ⟨bytes, io, .good⟩ ∧
        LeftBy cf mem (runOf (e.1, e.2.1)) (may (e.1, e.2.1)) (whole (e.1, e.2.1)) bytes := by
  obtain ⟨k, _, he⟩ := List.mem_flatMap.mp h
  obtain ⟨x, hx, rfl⟩ := List.mem_map.mp he
  simp only [gives, Bool.false_eq_true, if_false] at hx
  obtain ⟨j, hj⟩ := List.mem_iff_getElem?.mp hx
  have h1 := provided_get hj
  obtain ⟨h2, h3⟩ := hw.added k j x.1 x.2 h1
  simp only
  rw [h2]
  exact ⟨h3, hw.runs k j _ h1 (by simp) (by simp)⟩

theorem ReadsAnyRuns.ordered (hw : ReadsAnyRuns env cf mem runOf may whole file w) (n : Nat) :
    (providedBy (gives false w) n).Pairwise fun a b => AttemptBefore (a.1, a.2.1) (b.1, b.2.1) := by
  unfold providedBy
  rw [List.pairwise_flatMap]
  constructor
  · intro k _
    simp only [tagged, gives, Bool.false_eq_true, if_false]
    rw [List.pairwise_map]
    have h := List.pairwise_lt_range (n := (provided (w.attempts k)).length)
    rw [← hw.numbers k, List.pairwise_map] at h
    exact h.imp fun hab => .inr ⟨rfl, hab⟩
  · refine List.pairwise_lt_range.imp fun {a b} hab => ?_
    intro x hx y hy
    obtain ⟨_, _, rfl⟩ := List.mem_map.mp hx
    obtain ⟨_, _, rfl⟩ := List.mem_map.mp hy
    exact .inl hab

/-- All attempts of a test case whose runs are whole add traces. -/
theorem ReadsAnyRuns.all_added (hw : ReadsAnyRuns env cf mem runOf may whole file w) (hal : ∀ n, env.canAlloc n = true)
    (henv : env.junk.isSome = true) {k : Nat} (hruns : ∀ a ∈ w.attempts k, a ≠ .noHandshake ∧ a ≠ .failed)
    (hc : ∀ j, j < (w.attempts k).length → whole (k, j)) : ∀ a ∈ w.attempts k, ∃ t, a = .added t := by
  intro a ha
  obtain ⟨j, hj⟩ := List.mem_iff_getElem?.mp ha
  obtain ⟨h1, h2⟩ := hruns a ha
  cases a with
  | added t => exact ⟨t, rfl⟩
  | noHandshake => exact absurd rfl h1
  | failed => exact absurd rfl h2
  | refused =>
    obtain ⟨io, bytes, e, hl⟩ := hw.runs k j _ hj h1 h2
    rcases left_reads env io hl hal henv with ⟨_, hbad⟩ | ⟨t, _, _, _, ht, _⟩
    · exact absurd (hc j (List.getElem?_eq_some_iff.mp hj).1) hbad
    · exact absurd (by rw [e]; exact ht) (hw.refused k j t hj)

end

end TraceDB
