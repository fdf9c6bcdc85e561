import Verif.Proofs.Handshake
/-
Helper lemmas: schedules in which nobody gives up or is killed.
-/
namespace TraceDB

theorem hsRun_append (parallel : Bool) (out : Nat → List U8) (s : HsState) (es fs : List HsEvent) :
    hsRun parallel out s (es ++ fs) = hsRun parallel out (hsRun parallel out s es) fs := by
  simp [hsRun, List.foldl_append]

theorem progStep_col (s : HsState) (p : Nat) (o : List U8) : (s.progStep p o).col = s.col := by
  unfold HsState.progStep
  repeat' split
  all_goals rfl

theorem kill_col (s : HsState) (p : Nat) : (s.kill p).col = s.col := by
  unfold HsState.kill
  repeat' split
  all_goals rfl

/-- Only giving up ends the collection. -/
theorem hsStep_notDone {parallel : Bool} {out : Nat → List U8} {s : HsState} {e : HsEvent} (h : s.col ≠ .done) (he : e ≠ .giveUp) :
    (hsStep parallel out s e).col ≠ .done := by
  cases e with
  | col =>
    simp only [hsStep, HsState.colStep]
    cases hc : s.col <;> simp only <;> repeat' split
    all_goals simp_all [HsState.finish]
  | enough =>
    simp only [hsStep, HsState.enough]
    repeat' split
    all_goals simp_all [HsState.finish]
  | giveUp => exact absurd rfl he
  | start =>
    simp only [hsStep]
    split <;> exact h
  | prog p => simpa [hsStep, progStep_col] using h
  | kill p => simpa [hsStep, kill_col] using h

theorem hsRun_notDone {parallel : Bool} {out : Nat → List U8} (es : List HsEvent) (he : HsEvent.giveUp ∉ es) :
    ∀ {s : HsState}, s.col ≠ .done → (hsRun parallel out s es).col ≠ .done := by
  induction es with
  | nil => intro s h; exact h
  | cons e es ih =>
    intro s h
    exact ih (fun h' => he (List.mem_cons_of_mem _ h')) (hsStep_notDone h (fun h' => he (h' ▸ List.mem_cons_self)))

/-- The collector's steps with the runs whose traces are new. -/
theorem HsInv.colStep' {out : Nat → List U8} {s : HsState} {os : List (Nat × Nat)} {w : Option Nat} (h : HsInv out s os w) :
    ∃ os' w', HsInv out s.colStep os' w' ∧
      ∀ o ∈ os', o ∈ os ∨ s.progs[o.1]? = some .ended ∨ s.progs[o.1]? = some .killed := by
  by_cases hc : s.col = .read
  · simp only [HsState.colStep, hc]
    cases w with
    | none =>
      have := h.noOwner rfl hc
      simp only [this, HsPipe.fresh]
      exact ⟨os, none, by simpa using h, fun _ ho => .inl ho⟩
    | some p =>
      split
      · rename_i q hq
        split
        · rename_i hw
          simp only [Bool.and_eq_true, beq_iff_eq] at hw
          obtain ⟨k, h'⟩ := h.finish q hq
          refine ⟨_, _, h', ?_⟩
          intro o ho
          rw [List.mem_append, List.mem_singleton] at ho
          rcases ho with ho | rfl
          · exact .inl ho
          · right
            obtain ⟨_, ⟨k', h2⟩, _⟩ := h.owner p rfl
            rcases h2 with ⟨h3, _⟩ | ⟨_, ⟨h3, _⟩ | h3⟩
            · rw [hq] at h3
              rw [Option.some.inj h3] at hw
              simp at hw
            · exact .inl h3
            · exact .inr h3
        · exact ⟨_, _, h, fun _ ho => .inl ho⟩
      · exact ⟨_, _, h, fun _ ho => .inl ho⟩
  · have hw := h.nobody hc
    subst hw
    refine ⟨os, none, ?_, fun _ ho => .inl ho⟩
    cases hc' : s.col with
    | idle => exact h.colStep_idle hc'
    | make => exact h.colStep_make hc'
    | write f => exact h.colStep_write f hc'
    | wait => exact h.colStep_wait hc'
    | read => exact absurd hc' hc
    | done => simpa [HsState.colStep, hc'] using h

/-- What more is known if nobody gives up or is killed. -/
structure Calm (out : Nat → List U8) (s : HsState) (os : List (Nat × Nat)) (w : Option Nat) : Prop where
  inv : HsInv out s os w
  notDone : s.col ≠ .done
  progs : ∀ (p : Nat) (pc : HsPc), s.progs[p]? = some pc → pc.stopped = true → pc = .ended
  owners : ∀ o ∈ os, s.progs[o.1]? = some .ended
  taken : (s.col = .wait ∧ s.path = none) ∨ (s.col = .read ∧ w = none) → ∃ p : Nat, s.progs[p]? = some (.openPipe s.cur)

theorem colStep_progs (s : HsState) : s.colStep.progs = s.progs := by
  unfold HsState.colStep
  repeat' split
  all_goals rfl

theorem Calm.init (out : Nat → List U8) : Calm out .init [] none where
  inv := .init out
  notDone := by simp [HsState.init]
  progs := by simp [HsState.init]
  owners := by simp
  taken := by simp [HsState.init]

theorem Calm.col {out : Nat → List U8} {s : HsState} {os : List (Nat × Nat)} {w : Option Nat} (h : Calm out s os w) :
    ∃ os' w', Calm out s.colStep os' w' := by
  obtain ⟨os', w', h1, h2⟩ := h.inv.colStep'
  refine ⟨os', w', h1, hsStep_notDone (parallel := false) (out := out) (e := .col) h.notDone (by simp), ?_, ?_, ?_⟩
  · intro p pc hp hs
    rw [colStep_progs] at hp
    exact h.progs p pc hp hs
  · intro o ho
    rw [colStep_progs]
    rcases h2 o ho with h3 | h3 | h3
    · exact h.owners o h3
    · exact h3
    · have := h.progs _ _ h3 rfl
      cases this
  · intro ht
    have hcol := h.inv.col
    cases hc : s.col with
    | idle => simp [HsState.colStep, hc] at ht
    | make =>
      simp only [HsState.colStep, hc] at ht
      simp only [ColOk, hc] at hcol
      simp [hcol.1] at ht
    | write f =>
      simp only [ColOk, hc] at hcol
      simp [HsState.colStep, hc, hcol.1] at ht
    | wait =>
      cases hpath : s.path with
      | some f =>
        simp [HsState.colStep, hc, hpath] at ht
      | none =>
        obtain ⟨p, hp⟩ := h.taken (.inl ⟨hc, hpath⟩)
        refine ⟨p, ?_⟩
        rw [colStep_progs, hp]
        simp [HsState.colStep, hc, hpath, HsState.cur]
    | read =>
      have same : s.colStep = s ∨ s.colStep.col = .idle := by
        simp only [HsState.colStep, hc]
        repeat' split
        all_goals simp [HsState.finish]
      rcases same with e | e
      · rw [e] at h1 ht ⊢
        have : w = none := by
          cases w with
          | none => rfl
          | some p =>
            exfalso
            rcases ht with ⟨h3, _⟩ | ⟨_, rfl⟩
            · rw [hc] at h3; cases h3
            · obtain ⟨_, ⟨k, h4⟩, _⟩ := h.inv.owner p rfl
              have h5 := h1.noOwner rfl hc
              rw [h5] at h4
              simp [HsPipe.fresh] at h4
        exact h.taken (.inr ⟨hc, this⟩)
      · simp [e] at ht
    | done => exact absurd hc h.notDone

theorem progs_set_other {s : HsState} {p p' : Nat} {pc : HsPc} (h : p' ≠ p) : (s.progs.set p pc)[p']? = s.progs[p']? :=
  List.getElem?_set_ne (fun e => h e.symm)

/-- A run moves, not having stopped before. -/
theorem Calm.moved {out : Nat → List U8} {s s' : HsState} {os : List (Nat × Nat)} {w w' : Option Nat} (h : Calm out s os w)
    (hi : HsInv out s' os w') (hcol : s'.col = s.col) {p : Nat} {pc pc' : HsPc} (hp : s.progs[p]? = some pc)
    (hns : pc.stopped = false) (hprogs : s'.progs = s.progs.set p pc') (hst : pc'.stopped = true → pc' = .ended)
    (ht : (s'.col = .wait ∧ s'.path = none) ∨ (s'.col = .read ∧ w' = none) → ∃ p : Nat, s'.progs[p]? = some (.openPipe s'.cur)) :
    Calm out s' os w' := by
  have hlt := (List.getElem?_eq_some_iff.mp hp).1
  refine ⟨hi, by rw [hcol]; exact h.notDone, ?_, ?_, ht⟩
  · intro p' pc'' hpc hs
    rw [hprogs] at hpc
    by_cases he : p' = p
    · subst he
      rw [List.getElem?_set_self hlt] at hpc
      cases hpc
      exact hst hs
    · rw [progs_set_other he] at hpc
      exact h.progs p' pc'' hpc hs
  · intro o ho
    have := h.owners o ho
    rw [hprogs]
    by_cases he : o.1 = p
    · rw [he, hp] at this
      cases this
      simp [HsPc.stopped] at hns
    · rw [progs_set_other he]
      exact this

/-- A run moves from where it does not keep the collector waiting. -/
theorem Calm.movedTaken {out : Nat → List U8} {s : HsState} {os : List (Nat × Nat)} {w : Option Nat} (h : Calm out s os w)
    {p : Nat} {pc : HsPc} (hp : s.progs[p]? = some pc) (hns : pc.stopped = false) (hno : ∀ i, pc ≠ .openPipe i)
    (ht : (s.col = .wait ∧ s.path = none) ∨ (s.col = .read ∧ w = none)) : False := by
  obtain ⟨p', hp'⟩ := h.taken ht
  have h1 := h.inv.seq p' _ hp' rfl
  have h2 := h.inv.seq p _ hp hns
  have e : p' = p := by omega
  subst e
  rw [hp] at hp'
  exact hno _ (Option.some.inj hp')

/-- What is known about the run that writes. -/
theorem Calm.writing {out : Nat → List U8} {s : HsState} {os : List (Nat × Nat)} {w : Option Nat} (h : Calm out s os w)
    {p i k : Nat} (hp : s.progs[p]? = some (.writing i k)) :
    s.col = .read ∧ i = s.cur ∧ s.pipes[s.cur]? = some ⟨outputOf out p k, 1, true, true⟩ := by
  rcases h.inv.prog p _ hp with h1 | ⟨_, h1 | h1⟩
  · exact h1
  · exact absurd h1 h.notDone
  · have := h.owners _ h1
    simp [hp] at this

theorem Calm.prog {out : Nat → List U8} {s : HsState} {os : List (Nat × Nat)} {w : Option Nat} (h : Calm out s os w)
    (p : Nat) : ∃ w', Calm out (s.progStep p (out p)) os w' := by
  have keep : ∃ w', Calm out s os w' := ⟨w, h⟩
  have hi := h.inv
  have hcol := hi.col
  unfold HsState.progStep
  split
  · rename_i hp
    split
    · rename_i hs
      exact ⟨w, h.moved (hi.movedEarly hp rfl rfl rfl rfl rfl (colOk_setPc hcol) hs (by simp)) rfl hp rfl rfl
        (by simp [HsPc.stopped]) (fun ht => (h.movedTaken hp rfl (by simp) ht).elim)⟩
    · exact keep
  · rename_i hp
    have hprog := hi.prog p _ hp
    split
    · rename_i f hf
      exact ⟨w, h.moved (hi.movedEarly hp rfl rfl rfl rfl rfl (colOk_setPc hcol) hf (by simp)) rfl hp rfl rfl
        (by simp [HsPc.stopped]) (fun ht => (h.movedTaken hp rfl (by simp) ht).elim)⟩
    · rename_i hf
      simp [ProgOk, hf] at hprog
  · rename_i f hp
    obtain ⟨w', hi'⟩ := hi.progStep p
    simp only [HsState.progStep, hp] at hi'
    split
    · rename_i i hf
      simp only [hf] at hi'
      refine ⟨w', h.moved hi' rfl hp rfl rfl (by simp [HsPc.stopped]) (fun ht => ?_)⟩
      have hpath : s.path = some f := hi.prog p _ hp
      rcases ht with ⟨_, h2⟩ | ⟨h2, _⟩
      · exact absurd (hpath.symm.trans h2) (by simp)
      · have h2' : s.col = .read := h2
        simp [ColOk, h2', hpath] at hcol
    · rename_i hf
      have hpath : s.path = some f := hi.prog p _ hp
      refine ⟨w, h.moved (hi.movedEarly hp rfl rfl rfl rfl rfl (colOk_setPc hcol) hpath (by simp)) rfl hp rfl rfl
        (by simp [HsPc.stopped]) (fun ht => (h.movedTaken hp rfl (by simp) ht).elim)⟩
  · rename_i i hp
    obtain ⟨w', hi'⟩ := hi.progStep p
    simp only [HsState.progStep, hp] at hi'
    refine ⟨w', h.moved hi' rfl hp rfl rfl (by simp [HsPc.stopped]) (fun _ => ⟨p, ?_⟩)⟩
    have hprog := hi.prog p _ hp
    obtain ⟨h1, h2, h3⟩ := hprog
    rcases h3 with h3 | ⟨_, rfl⟩
    · exact absurd h3 h.notDone
    · have hlt := (List.getElem?_eq_some_iff.mp hp).1
      simp [HsState.setPc, HsState.cur, hlt]
  · rename_i i hp
    have hprog := hi.prog p _ hp
    obtain ⟨h1, h2, h3⟩ := hprog
    have h3' := h3.resolve_left h.notDone
    obtain ⟨h4, rfl, h5⟩ := h3'
    split
    · rename_i q hq
      rw [h5] at hq
      cases hq
      split
      · rename_i ht
        simp [HsPipe.fresh] at ht
      · split
        · rename_i hr
          simp only [Bool.and_eq_true, decide_eq_true_eq, beq_iff_eq] at hr
          refine ⟨some p, h.moved (hi.opened hp hr.1 h5) rfl hp rfl rfl (by simp [HsPc.stopped]) (fun ht => ?_)⟩
          rcases ht with ⟨h6, _⟩ | ⟨_, h6⟩
          · have h6' : s.col = .wait := h6
            rw [hr.1] at h6'
            cases h6'
          · cases h6
        · exact keep
    · exact keep
  · rename_i i k hp
    obtain ⟨hr, rfl, hq⟩ := h.writing hp
    obtain ⟨w', hi'⟩ := hi.progStep p
    simp only [HsState.progStep, hp, hq] at hi'
    simp only [hq]
    split
    · rename_i hx
      simp only [hx] at hi'
      refine ⟨w', h.moved hi' rfl hp rfl rfl (by simp) (fun ht => ?_)⟩
      exfalso
      rcases ht with ⟨h6, _⟩ | ⟨_, h6⟩
      · have h6' : s.col = .wait := h6
        rw [hr] at h6'
        cases h6'
      · have := hi'.noOwner h6 hr
        simp [HsState.closePipe, HsState.setPc, HsState.cur, HsPipe.fresh, List.getElem?_modify] at this
        simp [HsState.cur] at hq
        simp [hq] at this
    · rename_i x hx
      simp only [hx, if_true] at hi' ⊢
      refine ⟨w', h.moved hi' rfl hp rfl rfl (by simp [HsPc.stopped]) (fun ht => ?_)⟩
      exfalso
      have hlt := (List.getElem?_eq_some_iff.mp hq).1
      rcases ht with ⟨h6, _⟩ | ⟨_, h6⟩
      · have h6' : s.col = .wait := h6
        rw [hr] at h6'
        cases h6'
      · have := hi'.noOwner h6 hr
        simp only [HsState.cur] at hlt
        simp [HsState.setPc, HsState.cur, HsPipe.fresh, hlt] at this
  · exact keep

theorem Calm.start {out : Nat → List U8} {s : HsState} {os : List (Nat × Nat)} {w : Option Nat} (h : Calm out s os w)
    (hall : s.progs.all HsPc.stopped = true) : Calm out { s with progs := s.progs ++ [.look] } os w := by
  have at' : ∀ {p : Nat} {pc : HsPc}, s.progs[p]? = some pc → (s.progs ++ [HsPc.look])[p]? = some pc := by
    intro p pc hp
    rw [List.getElem?_append_left (List.getElem?_eq_some_iff.mp hp).1]
    exact hp
  refine ⟨h.inv.start hall, h.notDone, ?_, fun o ho => at' (h.owners o ho), fun ht => ?_⟩
  · intro p pc hp hs
    by_cases hlt : p < s.progs.length
    · have hp' : (s.progs ++ [HsPc.look])[p]? = some pc := hp
      rw [List.getElem?_append_left hlt] at hp'
      exact h.progs p pc hp' hs
    · have hp' : (s.progs ++ [HsPc.look])[p]? = some pc := hp
      rw [List.getElem?_append_right (by omega)] at hp'
      have := List.mem_of_getElem? hp'
      simp only [List.mem_singleton] at this
      subst this
      simp [HsPc.stopped] at hs
  · obtain ⟨p, hp⟩ := h.taken ht
    exact ⟨p, at' hp⟩

theorem Calm.step {out : Nat → List U8} {s : HsState} {os : List (Nat × Nat)} {w : Option Nat} (h : Calm out s os w)
    {e : HsEvent} (he : e.smooth = true) : ∃ os' w', Calm out (hsStep false out s e) os' w' := by
  cases e with
  | col => exact h.col
  | enough => simp [HsEvent.smooth] at he
  | giveUp => simp [HsEvent.smooth] at he
  | start =>
    simp only [hsStep, Bool.false_or]
    split
    · rename_i ha
      exact ⟨_, _, h.start ha⟩
    · exact ⟨_, _, h⟩
  | prog p =>
    obtain ⟨w', h'⟩ := h.prog p
    exact ⟨_, _, h'⟩
  | kill p => simp [HsEvent.smooth] at he

theorem Calm.steps {out : Nat → List U8} (es : List HsEvent) (hes : ∀ e ∈ es, e.smooth = true) :
    ∀ {s : HsState} {os : List (Nat × Nat)} {w : Option Nat}, Calm out s os w → ∃ os' w', Calm out (hsRun false out s es) os' w' := by
  induction es with
  | nil => intro s os w h; exact ⟨_, _, h⟩
  | cons e es ih =>
    intro s os w h
    obtain ⟨os', w', h'⟩ := h.step (hes e List.mem_cons_self)
    exact ih (fun e he => hes e (List.mem_cons_of_mem _ he)) h'

theorem Calm.run (out : Nat → List U8) (es : List HsEvent) (hes : ∀ e ∈ es, e.smooth = true) :
    ∃ os w, Calm out (hsRun false out .init es) os w := Calm.steps es hes (.init out)

/-- Increasing numbers without gaps. -/
theorem range_of_increasing_reverse (l : List Nat) (hi : l.reverse.Pairwise (· < ·))
    (hd : ∀ a ∈ l.reverse, ∀ b, b < a → b ∈ l.reverse) : l.reverse = List.range l.length := by
  induction l with
  | nil => rfl
  | cons a l ih =>
    rw [List.reverse_cons] at hi hd ⊢
    rw [List.pairwise_append] at hi
    obtain ⟨h1, _, h2⟩ := hi
    have ih' := ih h1 (by
      intro x hx b hb
      have := hd x (List.mem_append_left _ hx) b hb
      rw [List.mem_append, List.mem_singleton] at this
      rcases this with h | h
      · exact h
      · have := h2 x hx a (by simp)
        omega)
    have ha : a = l.length := by
      rcases Nat.lt_trichotomy a l.length with h | h | h
      · have : a ∈ l.reverse := by rw [ih']; exact List.mem_range.mpr h
        have := h2 a this a (by simp)
        omega
      · exact h
      · have := hd a (by simp) l.length h
        rw [List.mem_append, List.mem_singleton] at this
        rcases this with h' | h'
        · rw [ih'] at h'
          simp at h'
        · omega
    rw [List.length_cons, List.range_succ, ih', ha]

theorem range_of_increasing (l : List Nat) (hi : l.Pairwise (· < ·)) (hd : ∀ a ∈ l, ∀ b, b < a → b ∈ l) :
    l = List.range l.length := by
  have := range_of_increasing_reverse l.reverse (by rwa [List.reverse_reverse]) (by rwa [List.reverse_reverse])
  rwa [List.reverse_reverse, List.length_reverse] at this

/-- The runs whose traces were collected, without gaps. -/
theorem Calm.owned {out : Nat → List U8} {s : HsState} {os : List (Nat × Nat)} {w : Option Nat} (h : Calm out s os w) :
    os.map (·.1) = List.range os.length := by
  have := range_of_increasing (os.map (·.1)) (by
    rw [List.pairwise_map]
    exact h.inv.inc) (by
    intro a ha b hb
    rw [List.mem_map] at ha
    obtain ⟨o, ho, rfl⟩ := ha
    have hlt := h.inv.owned_lt ho
    have hb' : b < s.progs.length := by omega
    obtain ⟨pc, hpc⟩ : ∃ pc, s.progs[b]? = some pc := ⟨_, List.getElem?_eq_getElem hb'⟩
    have hst : pc.stopped = true := by
      cases hs : pc.stopped with
      | true => rfl
      | false =>
        have := h.inv.seq b pc hpc hs
        omega
    have := h.progs b pc hpc hst
    subst this
    rcases h.inv.all h.notDone b hpc with ⟨k, hk⟩ | hw
    · exact List.mem_map.mpr ⟨_, hk, rfl⟩
    · have := (h.inv.owner b hw).2.2 o ho
      omega)
  simpa using this

theorem Calm.exact {out : Nat → List U8} {s : HsState} {os : List (Nat × Nat)} {w : Option Nat} (h : Calm out s os w) :
    s.db = (List.range s.db.length).map (wholeOutput out) := by
  have hlen : s.db.length = os.length := by rw [h.inv.db]; simp
  have hw : s.db = (os.map (·.1)).map (wholeOutput out) := by
    rw [h.inv.db, List.map_map]
    apply List.map_congr_left
    intro o ho
    rcases h.inv.own o ho with ⟨_, h1⟩ | h1 | h1 | ⟨i, h1, _⟩
    · exact outputOf_whole h1
    all_goals
      rw [h.owners o ho] at h1
      cases h1
  rw [hlen, ← h.owned]
  exact hw

end TraceDB
