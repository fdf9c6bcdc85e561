import Verif.Proofs.ParallelInstrument
import Verif.Props.ThreadCrash
/-
Helper lemmas for C101: the threads of an instrumented project.
-/
namespace TraceDB

theorem formatAndSize_sane {t : CType} {ps : Bool} {f : TypeFormat} {z n : Nat} (h : formatAndSize t ps = some (f, z)) :
    (TypeRow.desc ⟨n, f, z⟩).Sane := by
  unfold formatAndSize at h
  have hs : ∀ x z, signedNames.lookup x = some z → z = 1 ∨ z = 2 ∨ z = 4 ∨ z = 8 := by
    intro x z h
    have : ∀ p ∈ signedNames, p.2 = 1 ∨ p.2 = 2 ∨ p.2 = 4 ∨ p.2 = 8 := by decide +kernel
    exact this (x, z) (mem_of_lookup h)
  have hu : ∀ x z, unsignedNames.lookup x = some z → z ≤ 8 := by
    intro x z h
    have : ∀ p ∈ unsignedNames, p.2 ≤ 8 := by decide +kernel
    exact this (x, z) (mem_of_lookup h)
  split at h
  · cases h; trivial
  split at h
  · cases h; exact (by decide : (8 : Nat) ≤ 8)
  split at h
  · rename_i z' hz
    cases h
    rcases hs _ _ hz with rfl | rfl | rfl | rfl <;> simp [TypeDesc.Sane, TypeRow.desc]
  split at h
  · rename_i z' hz
    cases h
    have := hu _ _ hz
    simp only [TypeDesc.Sane, TypeRow.desc, BitVec.toNat_ofNat]
    omega
  split at h
  · cases h; simp [TypeDesc.Sane, TypeRow.desc]
  split at h
  · cases h; simp [TypeDesc.Sane, TypeRow.desc]
  · cases h

theorem emitted_sane {te : TableTests} (law : te.Lawful) {rs : List TabReq} (hok : ∀ r ∈ rs, r.Ok) :
    ∀ ty ∈ ((Tables.empty.requests te rs).2.emitTypes te).map TypeRow.desc, ty.Sane := by
  obtain ⟨hinv, _⟩ := Tables.requests_spec law rs Tables.empty (Tables.inv_empty te)
  have hrows := Tables.rows_first law rs [] Tables.empty (Tables.inv_empty te) (by simp) (by simp [Tables.empty])
  intro ty hty
  obtain ⟨r, hr, rfl⟩ := List.mem_map.mp hty
  rw [Tables.emitTypes_eq law hinv] at hr
  obtain ⟨e, he, rfl⟩ := List.mem_map.mp hr
  obtain ⟨pre, post, hsplit, _, _⟩ := hrows e he
  rw [List.nil_append] at hsplit
  obtain ⟨v, ps, _, _, hf⟩ := hok (.type e.1 e.2.format e.2.size) (by rw [hsplit]; simp)
  exact formatAndSize_sane hf

/-- What was recorded at each visit. -/
theorem recorded_each (cf : CFloat) (mem : CMem) {files : List ProjFile} {outs : List ProjOut} {k : Nat} {h : ProjHeader}
    {rs : List TabReq} (told : ProjTold files outs k h rs) (hok : ∀ f ∈ files, f.Ok) (hlen : files.length ≤ 2 ^ 23)
    (hsmall : h.Small) (v : ProjVisit) (c : U64 × List RtCall) (hruns : v.RunsAs cf mem outs c) (hk : v.file < k)
    (hfit : v.Fits cf files) :
    ∃ r : RecPoint, r.CalledAs cf mem c ∧ (∀ x ∈ r.items, x.Typed h.names (h.types.map TypeRow.desc) cf) ∧
      recSizes r.items = [] := by
  obtain ⟨sites, gens, visits', hgen, hsites, hruns', hfit', _⟩ :=
    told_flat cf mem told hok hlen [v] [c] (.cons hruns .nil) (by simpa using hk) (by simpa using hfit)
  obtain ⟨tok, _, rfl, _, _⟩ := told
  obtain ⟨hn, _, hr⟩ := hsmall
  obtain ⟨recs, r1, r2, r3, _⟩ := visits_recorded (emittedFor TableTests.equalp_lawful (fun _ _ h => h) tok) hn hr hsites hgen
    hruns' hfit'
  cases r1 with
  | cons h1 h2 => exact ⟨_, h1, r2 _ (by simp), r3 _ (by simp)⟩

theorem header_ok {files : List ProjFile} {outs : List ProjOut} {k : Nat} {h : ProjHeader} {rs : List TabReq}
    (told : ProjTold files outs k h rs) (hsmall : h.Small) : HeaderOk h.names (h.types.map TypeRow.desc) := by
  obtain ⟨tok, _, rfl, _, _⟩ := told
  obtain ⟨hn, hch, hr⟩ := hsmall
  have he := emittedFor TableTests.equalp_lawful (fun _ _ h => h) tok
  refine ⟨he.nulFree, hch, by rw [List.length_map]; exact hr, fun t ht => ?_⟩
  obtain ⟨r, hr, rfl⟩ := List.mem_map.mp ht
  exact he.formats r hr

/-- Pairs with something for each of them. -/
theorem AllRel.triples {α β γ : Type} {R : α → β → Prop} {P : α → β → γ → Prop} {l : List α} {m : List β}
    (h : AllRel R l m) (hp : ∀ a ∈ l, ∀ b, R a b → ∃ c, P a b c) :
    ∃ ts : List (α × β × γ), l = ts.map (·.1) ∧ m = ts.map (·.2.1) ∧ ∀ t ∈ ts, R t.1 t.2.1 ∧ P t.1 t.2.1 t.2.2 := by
  induction h with
  | nil => exact ⟨[], rfl, rfl, by simp⟩
  | @cons a b _ _ hab _ ih =>
    obtain ⟨ts, rfl, rfl, h3⟩ := ih fun x hx => hp x (List.mem_cons_of_mem _ hx)
    obtain ⟨c, hc⟩ := hp a (by simp) b hab
    refine ⟨(a, b, c) :: ts, rfl, rfl, fun t ht => ?_⟩
    rcases List.mem_cons.mp ht with rfl | ht
    · exact ⟨hab, hc⟩
    · exact h3 t ht

theorem AllRel.triplesEach {α β γ : Type} {R : α → β → Prop} {P : α → β → γ → Prop} {l : List (List α)} {m : List (List β)}
    (h : AllRel (AllRel R) l m) (hp : ∀ x ∈ l, ∀ a ∈ x, ∀ b, R a b → ∃ c, P a b c) :
    ∃ ts : List (List (α × β × γ)), l = ts.map (List.map (·.1)) ∧ m = ts.map (List.map (·.2.1)) ∧
      ∀ x ∈ ts, ∀ t ∈ x, R t.1 t.2.1 ∧ P t.1 t.2.1 t.2.2 := by
  induction h with
  | nil => exact ⟨[], rfl, rfl, by simp⟩
  | @cons a b _ _ hab _ ih =>
    obtain ⟨ts, rfl, rfl, h3⟩ := ih fun x hx => hp x (List.mem_cons_of_mem _ hx)
    obtain ⟨t, rfl, rfl, ht⟩ := hab.triples (hp a (by simp))
    refine ⟨t :: ts, rfl, rfl, fun x hx => ?_⟩
    rcases List.mem_cons.mp hx with rfl | hx
    · exact ht
    · exact h3 x hx

theorem AllRel.of_map {α β γ : Type} {R : β → γ → Prop} {f : α → β} {g : α → γ} : ∀ {l : List α}, (∀ x ∈ l, R (f x) (g x)) →
    AllRel R (l.map f) (l.map g)
  | [], _ => .nil
  | x :: _, h => .cons (h x (by simp)) (AllRel.of_map fun y hy => h y (List.mem_cons_of_mem _ hy))

theorem RtState.run_length : ∀ (sched : List Nat) (s s' : RtState), s.run sched = .ok s' → s'.threads.length = s.threads.length
  | [], s, s', h => by cases h; rfl
  | i :: sched, s, s', h => by
    rw [RtState.run] at h
    obtain ⟨z, hz, h⟩ := Res.bind_eq_ok.mp h
    rw [RtState.run_length sched z s' h]
    unfold RtState.step at hz
    split at hz
    · split at hz <;> cases hz <;> simp
    · cases hz; simp
    · split at hz
      · cases hz; simp
      · cases hz
    · cases hz; rfl

/-- Interleavings that run through first parts of lists. -/
theorem order_lift_prefix {α β : Type} (f : α → β) {order : List (Nat × β)} {threads : List (List α)}
    (h1 : ∀ x ∈ order, x.1 < threads.length)
    (h : ∀ (i : Nat) (l : List α), threads[i]? = some l → threadPart i order <+: l.map f) :
    ∃ order' : List (Nat × α), order = order'.map (fun x => (x.1, f x.2)) ∧
      ∀ (i : Nat) (l : List α), threads[i]? = some l → threadPart i order' <+: l := by
  obtain ⟨o, e, h2⟩ := order_lift f order (fun i => (threads[i]?.getD []).take (threadPart i order).length) (by
    intro i
    cases hi : threads[i]? with
    | some l =>
      have := h i l hi
      rw [Option.getD_some, List.map_take]
      exact (List.prefix_iff_eq_take.mp this)
    | none =>
      have : threadPart i order = [] := by
        unfold threadPart
        rw [List.map_eq_nil_iff, List.filter_eq_nil_iff]
        intro x hx hxi
        have := h1 x hx
        rw [beq_iff_eq] at hxi
        rw [hxi] at this
        rw [List.getElem?_eq_none_iff] at hi
        omega
      simp [this])
  refine ⟨o, e, fun i l hl => ?_⟩
  rw [h2, hl]
  exact List.take_prefix _ _

theorem threadPart_map {α β : Type} (f : α → β) (i : Nat) (order : List (Nat × α)) :
    threadPart i (order.map fun x => (x.1, f x.2)) = (threadPart i order).map f := by
  unfold threadPart
  rw [List.filter_map, List.map_map, List.map_map]
  rfl

/-- The trace of the threads of a program built from the first `k` files. -/
theorem told_threads (env : Env) (io : Bool) (cf : CFloat) (mem : CMem)
    {files : List ProjFile} {outs : List ProjOut} {k : Nat} {h : ProjHeader} {reqs : List TabReq}
    (told : ProjTold files outs k h reqs) (hok : ∀ f ∈ files, f.Ok) (hlen : files.length ≤ 2 ^ 23) (hsmall : h.Small)
    (threads : List (List ProjVisit)) (calls : List (List (U64 × List RtCall)))
    (hruns : AllRel (AllRel (ProjVisit.RunsAs cf mem outs)) threads calls)
    (hk : ∀ l ∈ threads, ∀ v ∈ l, v.file < k) (hfit : ∀ l ∈ threads, ∀ v ∈ l, v.Fits cf files)
    (henv : env.junk.isSome = true) (hal : ∀ n, env.canAlloc n = true)
    (acts : List (List RtAct)) (hs : Steps cf mem calls acts) (sched : List Nat) (header : List U8)
    (hheader : writeTraceHeader h.names (h.types.map TypeRow.desc) = .ok header) (s : RtState)
    (hrun : (RtState.init header acts).run sched = .ok s) (T : List U8) (hcut : header ++ T <+: s.out) :
    ∃ order : List (Nat × ProjVisit), (∀ x ∈ order, x.1 < threads.length) ∧
      (∀ (i : Nat) (l : List ProjVisit), threads[i]? = some l → threadPart i order <+: l) ∧
      (header ++ T = s.out → ∀ (i : Nat) (l : List ProjVisit), threads[i]? = some l → s.threads[i]? = some [] →
        threadPart i order = l) ∧
      ∀ k : U64, readTrace env k (gs io (header ++ T)) = .throw (endExn io) ∧ ¬ (s.Ended ∧ header ++ T = s.out) ∧
          (k ≠ 0 → order.length < k.toNat) ∨
        ∃ cs bs t, AllRel (ProjVisit.RunsAs cf mem outs) (limited k (order.map (·.2))) cs ∧
          rtRun cf mem h.names (h.types.map TypeRow.desc) cs = .ok bs ∧ readTrace env 0 (gs io bs) = .ok t ∧
          readTrace env k (gs io (header ++ T)) = .ok t := by
  have hdr := header_ok told hsmall
  have hn := hsmall.names
  obtain ⟨ts, rfl, rfl, hts⟩ := hruns.triplesEach (P := fun _ c (r : RecPoint) => r.CalledAs cf mem c ∧
      (∀ x ∈ r.items, x.Typed h.names (h.types.map TypeRow.desc) cf) ∧ recSizes r.items = [])
    fun l hl v hv c hc => recorded_each cf mem told hok hlen hsmall v c hc (hk l hl v hv) (hfit l hl v hv)
  have hsane : ∀ ty ∈ h.types.map TypeRow.desc, ty.Sane := by
    rw [told.header]
    exact emitted_sane TableTests.equalp_lawful told.ok
  have hcalls : AllRel (AllRel (RecPoint.CalledAs cf mem)) (ts.map (List.map (·.2.2))) (ts.map (List.map (·.2.1))) :=
    AllRel.of_map fun l hl => AllRel.of_map fun t ht => (hts l hl t ht).2.1
  have hmem : ∀ l ∈ ts.map (List.map (·.2.2)), ∀ r ∈ l, ∃ x ∈ ts, ∃ t ∈ x, r = t.2.2 := by
    intro l hl r hr
    obtain ⟨x, hx, rfl⟩ := List.mem_map.mp hl
    obtain ⟨t, ht, rfl⟩ := List.mem_map.mp hr
    exact ⟨x, hx, t, ht, rfl⟩
  obtain ⟨order, o1, o2, o5, o4⟩ := C79_limit env io cf mem h.names (h.types.map TypeRow.desc)
    (ts.map (List.map (·.2.2))) (ts.map (List.map (·.2.1))) acts hdr hn hcalls hs (by
      intro l hl r hr
      obtain ⟨x, hx, t, ht, rfl⟩ := hmem l hl r hr
      exact (hts x hx t ht).2.2.1) hsane (by
      intro l hl r hr
      obtain ⟨x, hx, t, ht, rfl⟩ := hmem l hl r hr
      rw [(hts x hx t ht).2.2.2]
      simp) henv hal sched header hheader s hrun T hcut
  rw [List.length_map] at o1
  obtain ⟨o, rfl, p1⟩ := order_lift_prefix (·.2.2) (threads := ts) o1 (by
    intro i l hl
    exact o2 i _ (by rw [List.getElem?_map, hl]; rfl))
  have q1 : ∀ x ∈ o, x.1 < ts.length := fun x hx => o1 _ (List.mem_map_of_mem hx)
  have hot : ∀ x ∈ o, ∃ l ∈ ts, x.2 ∈ l := by
    intro x hx
    have hl := List.getElem?_eq_getElem (q1 x hx)
    refine ⟨_, List.getElem_mem (q1 x hx), (p1 x.1 _ hl).subset ?_⟩
    unfold threadPart
    exact List.mem_map.mpr ⟨x, List.mem_filter.mpr ⟨hx, by simp⟩, rfl⟩
  have hot' : ∀ x ∈ o, ProjVisit.RunsAs cf mem outs x.2.1 x.2.2.1 ∧ x.2.2.2.CalledAs cf mem x.2.2.1 ∧
      (∀ y ∈ x.2.2.2.items, y.Typed h.names (h.types.map TypeRow.desc) cf) ∧ recSizes x.2.2.2.items = [] := by
    intro x hx
    obtain ⟨l, hl, hx⟩ := hot x hx
    exact hts l hl _ hx
  have hfull : header ++ T = s.out → ∀ (i : Nat) (l : List (ProjVisit × (U64 × List RtCall) × RecPoint)), ts[i]? = some l →
      s.threads[i]? = some [] → threadPart i o = l := by
    intro hT i l hl he
    have := o5 hT i _ (by rw [List.getElem?_map, hl]; rfl) he
    rw [threadPart_map (f := fun x : ProjVisit × (U64 × List RtCall) × RecPoint => x.2.2)] at this
    have hp := p1 i l hl
    refine hp.eq_of_length ?_
    have := congrArg List.length this
    simpa using this
  refine ⟨o.map fun x => (x.1, x.2.1), ?_, ?_, ?_, ?_⟩
  · intro x hx
    obtain ⟨y, hy, rfl⟩ := List.mem_map.mp hx
    rw [List.length_map]
    exact q1 y hy
  · intro i l hl
    rw [List.getElem?_map, Option.map_eq_some_iff] at hl
    obtain ⟨l, hl, rfl⟩ := hl
    rw [threadPart_map (f := fun x : ProjVisit × (U64 × List RtCall) × RecPoint => x.1)]
    exact (p1 i l hl).map _
  · intro hT i l hl he
    rw [List.getElem?_map, Option.map_eq_some_iff] at hl
    obtain ⟨l, hl, rfl⟩ := hl
    rw [threadPart_map (f := fun x : ProjVisit × (U64 × List RtCall) × RecPoint => x.1), hfull hT i l hl he]
  · have good : ∀ k : U64, readTrace env k (gs io (header ++ T)) = .ok ⟨h.names, h.types.map TypeRow.desc,
          recPoints 0 [] (limited k ((o.map fun x => (x.1, x.2.2.2)).map (·.2)))⟩ →
        ∃ cs bs t, AllRel (ProjVisit.RunsAs cf mem outs) (limited k ((o.map fun x => (x.1, x.2.1)).map (·.2))) cs ∧
          rtRun cf mem h.names (h.types.map TypeRow.desc) cs = .ok bs ∧ readTrace env 0 (gs io bs) = .ok t ∧
          readTrace env k (gs io (header ++ T)) = .ok t := by
      intro k hread
      have hin : ∀ x ∈ limited k o, x ∈ o := by
        intro x hx
        unfold limited at hx
        split at hx
        · exact hx
        · exact List.mem_of_mem_take hx
      have hlim : ∀ {α : Type} (f : Nat × ProjVisit × (U64 × List RtCall) × RecPoint → α),
          limited k (o.map f) = (limited k o).map f := by
        intro α f
        unfold limited
        split
        · rfl
        · rw [List.map_take]
      obtain ⟨bs, b1, b2⟩ := C02_recorded_is_read env io cf mem h.names (h.types.map TypeRow.desc)
        ((limited k o).map fun x => x.2.2.2)
        ((limited k o).map fun x => x.2.2.1) hdr hn (AllRel.of_map fun x hx => (hot' x (hin x hx)).2.1) (by
          intro p hp
          obtain ⟨x, hx, rfl⟩ := List.mem_map.mp hp
          exact (hot' x (hin x hx)).2.2.1) (by
          have : (((limited k o).map fun x => x.2.2.2).flatMap fun p => recSizes p.items) = [] := by
            rw [List.flatMap_eq_nil_iff]
            intro p hp
            obtain ⟨x, hx, rfl⟩ := List.mem_map.mp hp
            exact (hot' x (hin x hx)).2.2.2
          rw [this]
          exact reservedOk_of_unused (by simp)) hal
      refine ⟨(limited k o).map fun x => x.2.2.1, bs, _, ?_, b1, b2, ?_⟩
      · rw [List.map_map, hlim]
        exact AllRel.of_map fun x hx => (hot' x (hin x hx)).1
      · rw [hread, List.map_map, hlim]
        rfl
    intro k
    rcases o4 with o4 | ⟨⟨i, l, p, hl, hpre⟩, o4⟩
    · exact .inr (good k (o4 k))
    · have o4 := o4 k
      split at o4
      · exact .inr (good k o4)
      · rename_i hk
        refine .inl ⟨o4, fun ⟨hend, hT⟩ => ?_, fun h0 => ?_⟩
        · have hlen' := RtState.run_length _ _ _ hrun
          have hal' : acts.length = ts.length := by
            have := hs.length
            simpa using this.symm
          have hi : i < s.threads.length := by
            have := (List.getElem?_eq_some_iff.mp hl).1
            rw [hlen']
            simpa [RtState.init, hal'] using this
          have he : s.threads[i]? = some [] := by
            rw [List.getElem?_eq_getElem hi, hend _ (List.getElem_mem hi)]
          rw [o5 hT i l hl he] at hpre
          have := hpre.length_le
          simp only [List.length_append, List.length_singleton] at this
          omega
        · rw [List.length_map] at hk ⊢
          exact Nat.lt_of_not_le fun h => hk ⟨h0, h⟩

end TraceDB
