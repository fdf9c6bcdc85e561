import Verif.Proofs.HandshakeSmooth
/-
Helper lemmas: a run can always be brought to its end.
-/
namespace TraceDB

/-- The collector and run `p` alone can bring the run to its end and its trace into the database. -/
def CanEnd (out : Nat → List U8) (s : HsState) (p : Nat) : Prop :=
  ∃ es : List HsEvent, (∀ e ∈ es, e = .col ∨ e = .prog p) ∧ (hsRun false out s es).col = .idle ∧
    (hsRun false out s es).progs[p]? = some .ended

theorem CanEnd.col {out : Nat → List U8} {s : HsState} {p : Nat} (h : CanEnd out s.colStep p) : CanEnd out s p := by
  obtain ⟨es, h1, h2, h3⟩ := h
  exact ⟨.col :: es, by simpa using h1, h2, h3⟩

theorem CanEnd.prog {out : Nat → List U8} {s : HsState} {p : Nat} (h : CanEnd out (s.progStep p (out p)) p) : CanEnd out s p := by
  obtain ⟨es, h1, h2, h3⟩ := h
  exact ⟨.prog p :: es, by simpa using h1, h2, h3⟩

section
variable {out : Nat → List U8} {s : HsState} {os : List (Nat × Nat)} {w : Option Nat} {p : Nat}

theorem setPc_self {pc pc' : HsPc} (hp : s.progs[p]? = some pc) : (s.setPc p pc').progs[p]? = some pc' := by
  have hlt := (List.getElem?_eq_some_iff.mp hp).1
  simp [HsState.setPc, hlt]

/-- Reading ends when all who write have closed. -/
theorem colStep_read_idle {d : List (Nat × U8)} (hc : s.col = .read) (hq : s.pipes[s.cur]? = some ⟨d, 0, true, true⟩) :
    s.colStep.col = .idle := by
  simp [HsState.colStep, hc, hq, HsState.finish]

theorem canEnd_writing (n : Nat) : ∀ {s : HsState} {os : List (Nat × Nat)} {w : Option Nat} {i k : Nat}, Calm out s os w →
    s.progs[p]? = some (.writing i k) → (out p).length - k = n → CanEnd out s p := by
  induction n with
  | zero =>
    intro s os w i k h hp hn
    obtain ⟨hc, rfl, hq⟩ := h.writing hp
    have hx : (out p)[k]? = none := by simp; omega
    refine CanEnd.prog (CanEnd.col ?_)
    refine ⟨[], by simp, ?_, ?_⟩
    · apply colStep_read_idle (d := outputOf out p k)
      · rw [progStep_col]; exact hc
      · simp only [HsState.progStep, hp, hq, hx]
        have hcur : ((s.setPc p .ended).closePipe s.cur).cur = s.cur := by
          simp [HsState.setPc, HsState.closePipe, HsState.cur]
        rw [hcur]
        simp [HsState.setPc, HsState.closePipe, hq]
    · show (HsState.colStep _).progs[p]? = _
      rw [colStep_progs]
      simp only [HsState.progStep, hp, hq, hx]
      exact setPc_self hp
  | succ n ih =>
    intro s os w i k h hp hn
    obtain ⟨hc, rfl, hq⟩ := h.writing hp
    obtain ⟨w', h'⟩ := h.prog p
    have hk : k < (out p).length := by omega
    have hx : (out p)[k]? = some (out p)[k] := List.getElem?_eq_getElem hk
    refine CanEnd.prog (ih h' (i := s.cur) (k := k + 1) ?_ (by omega))
    simp only [HsState.progStep, hp, hq, hx, if_true]
    exact setPc_self hp

theorem canEnd_openPipe_read {i : Nat} (h : Calm out s os w) (hp : s.progs[p]? = some (.openPipe i)) (hc : s.col = .read) :
    CanEnd out s p := by
  have hprog := h.inv.prog p _ hp
  obtain ⟨h1, h2, h3⟩ := hprog
  obtain ⟨_, rfl, h5⟩ := h3.resolve_left h.notDone
  obtain ⟨w', h'⟩ := h.prog p
  refine CanEnd.prog (canEnd_writing _ h' (i := s.cur) (k := 0) ?_ rfl)
  simp only [HsState.progStep, hp, h5, hc, HsPipe.fresh, Bool.not_true, Bool.false_eq_true, if_false, decide_true,
    beq_self_eq_true, Bool.and_self, if_true]
  exact setPc_self hp

theorem canEnd_openPipe {i : Nat} (h : Calm out s os w) (hp : s.progs[p]? = some (.openPipe i)) : CanEnd out s p := by
  have hprog := h.inv.prog p _ hp
  obtain ⟨h1, h2, h3⟩ := hprog
  obtain ⟨h4, rfl, h5⟩ := h3.resolve_left h.notDone
  rcases h4 with h4 | h4
  · obtain ⟨os', w', h'⟩ := h.col
    refine CanEnd.col (canEnd_openPipe_read h' (i := s.cur) ?_ ?_)
    · rw [colStep_progs]; exact hp
    · simp [HsState.colStep, h4, h1]
  · exact canEnd_openPipe_read h hp h4

theorem canEnd_remove {i : Nat} (h : Calm out s os w) (hp : s.progs[p]? = some (.remove i)) : CanEnd out s p := by
  obtain ⟨w', h'⟩ := h.prog p
  refine CanEnd.prog (canEnd_openPipe h' (i := i) ?_)
  simp only [HsState.progStep, hp]
  exact setPc_self hp

theorem canEnd_fgets_wait {f : Nat} (h : Calm out s os w) (hp : s.progs[p]? = some (.fgets f false)) (hc : s.col = .wait) :
    CanEnd out s p := by
  have hpath : s.path = some f := h.inv.prog p _ hp
  have hcol := h.inv.col
  simp only [ColOk, hc, hpath] at hcol
  obtain ⟨g, h1, h2⟩ := hcol.2.resolve_left (by simp)
  cases h1
  obtain ⟨w', h'⟩ := h.prog p
  refine CanEnd.prog (canEnd_remove h' (i := s.cur) ?_)
  simp only [HsState.progStep, hp, h2]
  exact setPc_self hp

theorem canEnd_fgets {f : Nat} (h : Calm out s os w) (hp : s.progs[p]? = some (.fgets f false)) : CanEnd out s p := by
  have hpath : s.path = some f := h.inv.prog p _ hp
  have hcol := h.inv.col
  cases hc : s.col <;> simp only [ColOk, hc, hpath] at hcol
  · simp at hcol
  · simp at hcol
  · rename_i g
    obtain ⟨os', w', h'⟩ := h.col
    refine CanEnd.col (canEnd_fgets_wait h' (f := f) ?_ ?_)
    · rw [colStep_progs]; exact hp
    · simp [HsState.colStep, hc]
  · exact canEnd_fgets_wait h hp hc
  · simp at hcol
  · exact absurd hc h.notDone

theorem canEnd_opens (h : Calm out s os w) (hp : s.progs[p]? = some .opens) : CanEnd out s p := by
  have hpath : s.path.isSome = true := h.inv.prog p _ hp
  obtain ⟨f, hf⟩ := Option.isSome_iff_exists.mp hpath
  obtain ⟨w', h'⟩ := h.prog p
  refine CanEnd.prog (canEnd_fgets h' (f := f) ?_)
  simp only [HsState.progStep, hp, hf]
  exact setPc_self hp

theorem canEnd_look_some (h : Calm out s os w) (hp : s.progs[p]? = some .look) (hs : s.path.isSome = true) : CanEnd out s p := by
  obtain ⟨w', h'⟩ := h.prog p
  refine CanEnd.prog (canEnd_opens h' ?_)
  simp only [HsState.progStep, hp, hs, if_true]
  exact setPc_self hp

theorem canEnd_look_make (h : Calm out s os w) (hp : s.progs[p]? = some .look) (hc : s.col = .make) : CanEnd out s p := by
  have hcol := h.inv.col
  simp only [ColOk, hc] at hcol
  obtain ⟨os', w', h'⟩ := h.col
  refine CanEnd.col (canEnd_look_some h' ?_ ?_)
  · rw [colStep_progs]; exact hp
  · simp [HsState.colStep, hc, hcol.1]

theorem canEnd_look_idle (h : Calm out s os w) (hp : s.progs[p]? = some .look) (hc : s.col = .idle) : CanEnd out s p := by
  obtain ⟨os', w', h'⟩ := h.col
  refine CanEnd.col (canEnd_look_make h' ?_ ?_)
  · rw [colStep_progs]; exact hp
  · simp [HsState.colStep, hc]

theorem canEnd_look (h : Calm out s os w) (hp : s.progs[p]? = some .look) : CanEnd out s p := by
  have hcol := h.inv.col
  cases hc : s.col <;> simp only [ColOk, hc] at hcol
  · exact canEnd_look_idle h hp hc
  · exact canEnd_look_make h hp hc
  · exact canEnd_look_some h hp (by simp [hcol.1])
  · rcases hcol.2 with h1 | ⟨f, h1, _⟩
    · exact (h.movedTaken hp rfl (by simp) (.inl ⟨hc, h1⟩)).elim
    · exact canEnd_look_some h hp (by simp [h1])
  · cases w with
    | none => exact (h.movedTaken hp rfl (by simp) (.inr ⟨hc, rfl⟩)).elim
    | some p' =>
      obtain ⟨os', w', h'⟩ := h.col
      refine CanEnd.col (canEnd_look_idle h' ?_ ?_)
      · rw [colStep_progs]; exact hp
      · obtain ⟨_, ⟨k, h2⟩, _⟩ := h.inv.owner p' rfl
        rcases h2 with ⟨_, h3⟩ | ⟨h3, _⟩
        · have h4 := h.inv.seq p' _ h3 rfl
          have h5 := h.inv.seq p _ hp rfl
          have e : p' = p := by omega
          subst e
          simp [hp] at h3
        · exact colStep_read_idle hc h3
  · exact absurd hc h.notDone

end

/-- From everywhere but after the end of an empty file. -/
theorem Calm.canEnd {out : Nat → List U8} {s : HsState} {os : List (Nat × Nat)} {w : Option Nat} {p : Nat} {pc : HsPc}
    (h : Calm out s os w) (hp : s.progs[p]? = some pc) (hs : pc.stopped = false) (hf : ∀ f, pc ≠ .fgets f true) : CanEnd out s p := by
  cases pc with
  | look => exact canEnd_look h hp
  | opens => exact canEnd_opens h hp
  | fgets f e =>
    cases e with
    | false => exact canEnd_fgets h hp
    | true => exact absurd rfl (hf f)
  | remove i => exact canEnd_remove h hp
  | openPipe i => exact canEnd_openPipe h hp
  | writing i k => exact canEnd_writing _ h hp rfl
  | _ => simp [HsPc.stopped] at hs

/-- A run that saw the end of the empty file stays there. -/
theorem hsStep_stuck {parallel : Bool} {out : Nat → List U8} {s : HsState} {p f : Nat} {e : HsEvent}
    (hp : s.progs[p]? = some (.fgets f true)) (he : e ≠ .kill p) : (hsStep parallel out s e).progs[p]? = some (.fgets f true) := by
  have hlt := (List.getElem?_eq_some_iff.mp hp).1
  cases e with
  | col => rw [hsStep, colStep_progs]; exact hp
  | enough =>
    simp only [hsStep, HsState.enough]
    repeat' split
    all_goals exact hp
  | giveUp => exact hp
  | start =>
    simp only [hsStep]
    split
    · show (s.progs ++ [HsPc.look])[p]? = _
      rw [List.getElem?_append_left hlt]
      exact hp
    · exact hp
  | prog q =>
    simp only [hsStep]
    by_cases hq : q = p
    · subst hq
      simp only [HsState.progStep, hp]
    · unfold HsState.progStep
      repeat' split
      all_goals first
        | exact hp
        | (show (s.progs.set q _)[p]? = _
           rw [List.getElem?_set_ne hq]
           exact hp)
  | kill q =>
    have hq : q ≠ p := fun e => he (e ▸ rfl)
    simp only [hsStep, HsState.kill]
    repeat' split
    all_goals first
      | exact hp
      | (show (s.progs.set q _)[p]? = _
         rw [List.getElem?_set_ne hq]
         exact hp)

theorem hsRun_stuck {parallel : Bool} {out : Nat → List U8} {p f : Nat} (es : List HsEvent) (hes : HsEvent.kill p ∉ es) :
    ∀ {s : HsState}, s.progs[p]? = some (.fgets f true) → (hsRun parallel out s es).progs[p]? = some (.fgets f true) := by
  induction es with
  | nil => intro s h; exact h
  | cons e es ih =>
    intro s h
    exact ih (fun h' => hes (List.mem_cons_of_mem _ h')) (hsStep_stuck h (fun h' => hes (h' ▸ List.mem_cons_self)))

/-- Only the end of a trace changes the database. -/
theorem hsStep_db {parallel : Bool} {out : Nat → List U8} {s : HsState} (e : HsEvent) (hc : s.col ≠ .read) :
    (hsStep parallel out s e).db = s.db := by
  cases e with
  | col =>
    simp only [hsStep, HsState.colStep]
    repeat' split
    all_goals first
      | rfl
      | exact absurd (by assumption) hc
  | enough =>
    simp only [hsStep, HsState.enough]
    repeat' split
    all_goals first
      | rfl
      | exact absurd (by assumption) hc
  | giveUp => rfl
  | start =>
    simp only [hsStep]
    split <;> rfl
  | prog q =>
    simp only [hsStep, HsState.progStep]
    repeat' split
    all_goals rfl
  | kill q =>
    simp only [hsStep, HsState.kill]
    repeat' split
    all_goals rfl

/-- While a run is stuck, nothing is collected. -/
theorem HsInv.stuck_db {out : Nat → List U8} {p f : Nat} (es : List HsEvent) (hes : HsEvent.kill p ∉ es) :
    ∀ {s : HsState} {os : List (Nat × Nat)} {w : Option Nat}, HsInv out s os w → s.progs[p]? = some (.fgets f true) →
      (hsRun false out s es).db = s.db := by
  induction es with
  | nil => intro s os w _ _; rfl
  | cons e es ih =>
    intro s os w h hp
    obtain ⟨os', w', h'⟩ := h.step e
    have := ih (fun h' => hes (List.mem_cons_of_mem _ h')) h' (hsStep_stuck hp (fun h' => hes (h' ▸ List.mem_cons_self)))
    refine Eq.trans this (hsStep_db e ?_)
    intro hc
    have hpath : s.path = some f := h.prog p _ hp
    have hcol := h.col
    simp [ColOk, hc, hpath] at hcol

/-- The collector waits at a pipe whose name nobody knows any more. -/
structure Robbed (s : HsState) : Prop where
  col : s.col = .read ∨ s.col = .done
  path : s.path = none
  cur : ∃ q : HsPipe, s.pipes[s.cur]? = some q ∧ q.opened = false
  progs : ∀ pc ∈ s.progs, pc.stopped = true ∨ pc = .look ∨
    ∃ i, pc = .openPipe i ∧ ∃ q : HsPipe, s.pipes[i]? = some q ∧ q.there = false

theorem Robbed.setPc {s : HsState} (h : Robbed s) (p : Nat) {pc : HsPc} (hpc : pc.stopped = true) : Robbed (s.setPc p pc) :=
  ⟨h.col, h.path, h.cur, fun pc' h' => by
    rcases List.mem_or_eq_of_mem_set h' with h'' | rfl
    · exact h.progs pc' h''
    · exact .inl hpc⟩

theorem Robbed.step {parallel : Bool} {out : Nat → List U8} {s : HsState} (h : Robbed s) (e : HsEvent) :
    Robbed (hsStep parallel out s e) ∧ (hsStep parallel out s e).db = s.db := by
  obtain ⟨q1, hq1, ht1⟩ := h.cur
  cases e with
  | col =>
    rcases h.col with hc | hc
    · simp only [hsStep, HsState.colStep, hc, hq1, ht1]
      exact ⟨h, rfl⟩
    · simp only [hsStep, HsState.colStep, hc]
      exact ⟨h, trivial⟩
  | enough =>
    rcases h.col with hc | hc
    · simp only [hsStep, HsState.enough, hc, hq1, ht1]
      exact ⟨h, rfl⟩
    · simp only [hsStep, HsState.enough, hc]
      exact ⟨h, trivial⟩
  | giveUp =>
    have hcur : s.giveUp.cur = s.cur := by simp [HsState.giveUp, HsState.dropPipe, HsState.cur]
    refine ⟨⟨.inr rfl, h.path, ⟨{ q1 with there := false }, ?_, ht1⟩, ?_⟩, rfl⟩
    · simp only [hsStep, hcur]
      simp [HsState.giveUp, HsState.dropPipe, hq1]
    · intro pc hpc
      rcases h.progs pc hpc with h1 | h1 | ⟨i, h1, q, h2, h3⟩
      · exact .inl h1
      · exact .inr (.inl h1)
      · refine .inr (.inr ⟨i, h1, ?_⟩)
        simp only [hsStep, HsState.giveUp, HsState.dropPipe, List.getElem?_modify, h2]
        by_cases he : s.cur = i <;> simp [he, h3]
  | start =>
    simp only [hsStep]
    split
    · refine ⟨⟨h.col, h.path, h.cur, ?_⟩, rfl⟩
      intro pc hpc
      simp only [List.mem_append, List.mem_singleton] at hpc
      rcases hpc with h1 | rfl
      · exact h.progs pc h1
      · simp
    · exact ⟨h, rfl⟩
  | prog p =>
    simp only [hsStep]
    cases hp : s.progs[p]? with
    | none => simp only [HsState.progStep, hp]; exact ⟨h, trivial⟩
    | some pc =>
      rcases h.progs pc (List.mem_of_getElem? hp) with hs | rfl | ⟨i, rfl, q, hq, ht⟩
      · cases pc <;> simp [HsPc.stopped] at hs <;> simp only [HsState.progStep, hp] <;> exact ⟨h, trivial⟩
      · simp only [HsState.progStep, hp, h.path]; exact ⟨h, rfl⟩
      · simp only [HsState.progStep, hp, hq, ht]
        exact ⟨h.setPc p rfl, rfl⟩
  | kill p =>
    simp only [hsStep]
    cases hp : s.progs[p]? with
    | none => simp only [HsState.kill, hp]; exact ⟨h, trivial⟩
    | some pc =>
      rcases h.progs pc (List.mem_of_getElem? hp) with hs | rfl | ⟨i, rfl, q, hq, ht⟩
      · cases pc <;> simp [HsPc.stopped] at hs <;> simp only [HsState.kill, hp, HsPc.stopped] <;> exact ⟨h, rfl⟩
      · simp only [HsState.kill, hp, HsPc.stopped]
        exact ⟨h.setPc p rfl, rfl⟩
      · simp only [HsState.kill, hp, HsPc.stopped]
        exact ⟨h.setPc p rfl, rfl⟩

theorem Robbed.run {parallel : Bool} {out : Nat → List U8} (es : List HsEvent) : ∀ {s : HsState}, Robbed s →
    (hsRun parallel out s es).db = s.db := by
  induction es with
  | nil => intro s _; rfl
  | cons e es ih =>
    intro s h
    obtain ⟨h1, h2⟩ := h.step (parallel := parallel) (out := out) e
    exact Eq.trans (ih h1) h2

theorem progStep_length (s : HsState) (p : Nat) (o : List U8) : (s.progStep p o).progs.length = s.progs.length := by
  unfold HsState.progStep
  repeat' split
  all_goals first
    | rfl
    | simp [HsState.setPc, HsState.closePipe]

/-- The collector and one run start no others. -/
theorem hsRun_length {out : Nat → List U8} {p : Nat} (es : List HsEvent) (hes : ∀ e ∈ es, e = .col ∨ e = .prog p) :
    ∀ {s : HsState}, (hsRun false out s es).progs.length = s.progs.length := by
  induction es with
  | nil => intro s; rfl
  | cons e es ih =>
    intro s
    refine Eq.trans (ih (fun e he => hes e (List.mem_cons_of_mem _ he))) ?_
    rcases hes e List.mem_cons_self with rfl | rfl
    · rw [hsStep, colStep_progs]
    · exact progStep_length s p (out p)

end TraceDB
