import Verif.Spec.Handshake
/-
Helper lemmas: invariant of the handshake, for runs one after the other.
-/
namespace TraceDB

/-- What is known about the collector and the file. -/
def ColOk (s : HsState) : Prop :=
  match s.col with
  | .idle => s.path = none ∧ ∀ (i : Nat) (q : HsPipe), s.pipes[i]? = some q → q.there = false
  | .make => s.path = none ∧ s.pipes[s.cur]? = some .fresh
  | .write f => s.path = some f ∧ s.files[f]? = some none ∧ s.pipes[s.cur]? = some .fresh
  | .wait => s.pipes[s.cur]? = some .fresh ∧ (s.path = none ∨ ∃ f, s.path = some f ∧ s.files[f]? = some (some s.cur))
  | .read => s.path = none ∧ ∃ q : HsPipe, s.pipes[s.cur]? = some q ∧ q.there = true
  | .done => (∀ (i : Nat) (q : HsPipe), s.pipes[i]? = some q → q.there = false) ∧
      ∀ (f i : Nat), s.path = some f → s.files[f]? = some (some i) → i < s.pipes.length

/-- What is known about a run. -/
def ProgOk (out : Nat → List U8) (s : HsState) (os : List (Nat × Nat)) (p : Nat) : HsPc → Prop
  | .opens => s.path.isSome = true
  | .fgets f _ => s.path = some f
  | .remove i => s.path.isSome = true ∧ i < s.pipes.length ∧ (s.col = .done ∨ (s.col = .wait ∧ i = s.cur))
  | .openPipe i => s.path = none ∧ i < s.pipes.length ∧
      (s.col = .done ∨ ((s.col = .wait ∨ s.col = .read) ∧ i = s.cur ∧ s.pipes[s.cur]? = some .fresh))
  | .writing i k => (s.col = .read ∧ i = s.cur ∧ s.pipes[s.cur]? = some ⟨outputOf out p k, 1, true, true⟩) ∨
      ((∃ q : HsPipe, s.pipes[i]? = some q ∧ q.there = false) ∧ (s.col = .done ∨ (p, k) ∈ os))
  | .lost => s.col = .done
  | .crashed => False
  | _ => True

/-- What a run whose trace was collected has come to. -/
def OwnerOk (out : Nat → List U8) (s : HsState) (o : Nat × Nat) : Prop :=
  (s.progs[o.1]? = some .ended ∧ (out o.1).length ≤ o.2) ∨ s.progs[o.1]? = some .killed ∨
    s.progs[o.1]? = some .broken ∨
    ∃ i, s.progs[o.1]? = some (.writing i o.2) ∧ ∃ q : HsPipe, s.pipes[i]? = some q ∧ q.there = false

/-- Run `p` has the pipe that is being read. -/
def Reading (out : Nat → List U8) (s : HsState) (p : Nat) : Prop :=
  ∃ k, (s.pipes[s.cur]? = some ⟨outputOf out p k, 1, true, true⟩ ∧ s.progs[p]? = some (.writing s.cur k)) ∨
    (s.pipes[s.cur]? = some ⟨outputOf out p k, 0, true, true⟩ ∧
      ((s.progs[p]? = some .ended ∧ (out p).length ≤ k) ∨ s.progs[p]? = some .killed))

/-- `os` are the runs whose traces were collected with the numbers of bytes, `w` the one whose
trace is being read. -/
structure HsInv (out : Nat → List U8) (s : HsState) (os : List (Nat × Nat)) (w : Option Nat) : Prop where
  db : s.db = os.map fun o => outputOf out o.1 o.2
  inc : os.Pairwise fun a b => a.1 < b.1
  own : ∀ o ∈ os, OwnerOk out s o
  seq : ∀ (p : Nat) (pc : HsPc), s.progs[p]? = some pc → pc.stopped = false → p + 1 = s.progs.length
  old : ∀ (i : Nat) (q : HsPipe), i + 1 < s.pipes.length → s.pipes[i]? = some q → q.there = false
  col : ColOk s
  prog : ∀ (p : Nat) (pc : HsPc), s.progs[p]? = some pc → ProgOk out s os p pc
  owner : ∀ p : Nat, w = some p → s.col = .read ∧ Reading out s p ∧ ∀ o ∈ os, o.1 < p
  noOwner : w = none → s.col = .read → s.pipes[s.cur]? = some .fresh
  all : s.col ≠ .done → ∀ p : Nat, s.progs[p]? = some .ended → (∃ k, (p, k) ∈ os) ∨ w = some p

theorem HsInv.init (out : Nat → List U8) : HsInv out .init [] none where
  db := rfl
  inc := List.Pairwise.nil
  own := by simp
  seq := by simp [HsState.init]
  old := by simp [HsState.init]
  col := by simp [ColOk, HsState.init]
  prog := by simp [HsState.init]
  owner := by simp
  noOwner := by simp [HsState.init]
  all := by simp [HsState.init]

theorem outputOf_whole {out : Nat → List U8} {p k : Nat} (h : (out p).length ≤ k) : outputOf out p k = wholeOutput out p := by
  rw [outputOf, wholeOutput, List.take_of_length_le h]

/-- If nobody's trace is being read. -/
theorem HsInv.nobody {out : Nat → List U8} {s : HsState} {os : List (Nat × Nat)} {w : Option Nat} (h : HsInv out s os w)
    (hc : s.col ≠ .read) : w = none := by
  cases w with
  | none => rfl
  | some p => exact absurd (h.owner p rfl).1 hc

/-! The collector -/

theorem HsInv.colStep_idle {out : Nat → List U8} {s : HsState} {os : List (Nat × Nat)} (h : HsInv out s os none)
    (hc : s.col = .idle) : HsInv out s.colStep os none := by
  have hcol := h.col
  simp only [ColOk, hc] at hcol
  obtain ⟨hp, hg⟩ := hcol
  simp only [HsState.colStep, hc]
  have gone : ∀ (i : Nat) (q : HsPipe), s.pipes[i]? = some q → (s.pipes ++ [HsPipe.fresh])[i]? = some q := by
    intro i q hq
    rw [List.getElem?_append_left (List.getElem?_eq_some_iff.mp hq).1]
    exact hq
  refine ⟨h.db, h.inc, ?_, h.seq, ?_, ?_, ?_, by simp, by simp, ?_⟩
  · intro o ho
    rcases h.own o ho with h1 | h1 | h1 | ⟨i, h1, q, h2, h3⟩
    · exact .inl h1
    · exact .inr (.inl h1)
    · exact .inr (.inr (.inl h1))
    · exact .inr (.inr (.inr ⟨i, h1, q, gone i q h2, h3⟩))
  · intro i q hi hq
    simp only [List.length_append, List.length_singleton] at hi
    simp only at hq
    rw [List.getElem?_append_left (by omega)] at hq
    exact hg i q hq
  · simp [ColOk, hp, HsState.cur]
  · intro p pc hpc
    have := h.prog p pc hpc
    cases pc <;> simp_all [ProgOk]
    obtain ⟨q, hq⟩ := this.1
    exact ⟨q, gone _ q hq.1, hq.2⟩
  · intro _ p hpc
    exact h.all (by simp [hc]) p hpc

theorem HsInv.colStep_make {out : Nat → List U8} {s : HsState} {os : List (Nat × Nat)} (h : HsInv out s os none)
    (hc : s.col = .make) : HsInv out s.colStep os none := by
  have hcol := h.col
  simp only [ColOk, hc] at hcol
  obtain ⟨hp, hg⟩ := hcol
  simp only [HsState.colStep, hc, hp]
  refine ⟨h.db, h.inc, h.own, h.seq, h.old, ?_, ?_, by simp, by simp, ?_⟩
  · simpa [ColOk, HsState.cur] using hg
  · intro p pc hpc
    have := h.prog p pc hpc
    cases pc <;> simp_all [ProgOk]
  · intro _ p hpc
    exact h.all (by simp [hc]) p hpc

theorem HsInv.colStep_write {out : Nat → List U8} {s : HsState} {os : List (Nat × Nat)} (h : HsInv out s os none) (f : Nat)
    (hc : s.col = .write f) : HsInv out s.colStep os none := by
  have hcol := h.col
  simp only [ColOk, hc] at hcol
  obtain ⟨hp, hf, hg⟩ := hcol
  simp only [HsState.colStep, hc]
  refine ⟨h.db, h.inc, h.own, h.seq, h.old, ?_, ?_, by simp, by simp, ?_⟩
  · have := (List.getElem?_eq_some_iff.mp hf).1
    simp only [ColOk]
    refine ⟨hg, .inr ⟨f, hp, ?_⟩⟩
    simp [HsState.cur, this]
  · intro p pc hpc
    have := h.prog p pc hpc
    cases pc <;> simp_all [ProgOk]
  · intro _ p hpc
    exact h.all (by simp [hc]) p hpc

theorem HsInv.colStep_wait {out : Nat → List U8} {s : HsState} {os : List (Nat × Nat)} (h : HsInv out s os none)
    (hc : s.col = .wait) : HsInv out s.colStep os none := by
  have hcol := h.col
  simp only [ColOk, hc] at hcol
  obtain ⟨hg, hp⟩ := hcol
  simp only [HsState.colStep, hc]
  split
  · exact h
  · rename_i hpath
    refine ⟨h.db, h.inc, h.own, h.seq, h.old, ?_, ?_, by simp, fun _ _ => hg, ?_⟩
    · simp only [ColOk]
      exact ⟨hpath, _, hg, rfl⟩
    · intro p pc hpc
      have := h.prog p pc hpc
      cases pc with
      | openPipe i =>
        simp only [ProgOk, hc] at this
        have h2 := this.2.2.resolve_left (by simp)
        exact ⟨hpath, this.2.1, .inr ⟨.inr rfl, h2.2.1, h2.2.2⟩⟩
      | writing i k =>
        simp only [ProgOk, hc] at this
        have h2 := this.resolve_left (by simp)
        exact .inr ⟨h2.1, .inr (h2.2.resolve_left (by simp))⟩
      | _ => simp_all [ProgOk]
    · intro _ p hpc
      exact h.all (by simp [hc]) p hpc

/-- The pipes after removing the one in use. -/
theorem dropPipe_gone {s : HsState} (hold : ∀ (i : Nat) (q : HsPipe), i + 1 < s.pipes.length → s.pipes[i]? = some q → q.there = false)
    (i : Nat) (q : HsPipe) (hq : s.dropPipe.pipes[i]? = some q) : q.there = false := by
  simp only [HsState.dropPipe, List.getElem?_modify] at hq
  by_cases hi : s.cur = i
  · cases hs : s.pipes[i]? <;> simp [hi, hs] at hq
    subst hq; rfl
  · have hq' : s.pipes[i]? = some q := by simpa [hi] using hq
    have := (List.getElem?_eq_some_iff.mp hq').1
    refine hold i q ?_ hq'
    simp only [HsState.cur] at hi
    omega

theorem dropPipe_at {s : HsState} {i : Nat} {q : HsPipe} (hq : s.pipes[i]? = some q) :
    ∃ q' : HsPipe, s.dropPipe.pipes[i]? = some q' := by
  simp only [HsState.dropPipe, List.getElem?_modify, hq]
  exact ⟨_, rfl⟩

/-- The pipe is removed, and its contents are a new trace. -/
theorem HsInv.finish {out : Nat → List U8} {s : HsState} {os : List (Nat × Nat)} {p : Nat} (h : HsInv out s os (some p))
    (q : HsPipe) (hq : s.pipes[s.cur]? = some q) :
    ∃ k, HsInv out (s.finish q) (os ++ [(p, k)]) none := by
  obtain ⟨hc, ⟨k, hr⟩, hlt⟩ := h.owner p rfl
  have ho : q.opened = true := by
    rcases hr with hr | hr
    · rw [hq] at hr; rw [Option.some.inj hr.1]
    · rw [hq] at hr; rw [Option.some.inj hr.1]
  have hcol := h.col
  simp only [ColOk, hc] at hcol
  have hdata : q.data = outputOf out p k := by
    rcases hr with hr | hr
    · rw [hq] at hr; rw [Option.some.inj hr.1]
    · rw [hq] at hr; rw [Option.some.inj hr.1]
  have gone : ∀ (i : Nat) (q' : HsPipe), (s.finish q).pipes[i]? = some q' → q'.there = false :=
    dropPipe_gone h.old
  have is : ∀ {i : Nat} {q : HsPipe}, s.pipes[i]? = some q → ∃ q' : HsPipe, s.dropPipe.pipes[i]? = some q' ∧ q'.there = false := by
    intro i q hq
    obtain ⟨q', h'⟩ := dropPipe_at hq
    exact ⟨q', h', dropPipe_gone h.old i q' h'⟩
  refine ⟨k, ?_, ?_, ?_, h.seq, ?_, ?_, ?_, by simp, by simp [HsState.finish], ?_⟩
  · simp [HsState.finish, h.db, hdata]
  · rw [List.pairwise_append]
    exact ⟨h.inc, List.pairwise_singleton _ _, fun a ha b hb => by
      rw [List.mem_singleton] at hb; subst hb; exact hlt a ha⟩
  · intro o hmem
    rw [List.mem_append, List.mem_singleton] at hmem
    rcases hmem with hmem | rfl
    · rcases h.own o hmem with h1 | h1 | h1 | ⟨i, h1, q', h2, h3⟩
      · exact .inl h1
      · exact .inr (.inl h1)
      · exact .inr (.inr (.inl h1))
      · exact .inr (.inr (.inr ⟨i, h1, is h2⟩))
    · rcases hr with ⟨h1, h2⟩ | ⟨h1, h2 | h2⟩
      · exact .inr (.inr (.inr ⟨_, h2, is h1⟩))
      · exact .inl h2
      · exact .inr (.inl h2)
  · intro i q' _ hq'
    exact gone i q' hq'
  · show ColOk (s.finish q)
    simp only [ColOk, HsState.finish]
    exact ⟨hcol.1, gone⟩
  · intro p' pc hpc
    have := h.prog p' pc hpc
    cases pc with
    | writing i j =>
      right
      simp only [ProgOk] at this
      rcases this with ⟨_, rfl, h2⟩ | ⟨⟨q', h2, _⟩, h3⟩
      · refine ⟨is h2, .inr ?_⟩
        have hpp : p' = p := by
          have e := h.seq p' _ hpc rfl
          rcases hr with ⟨_, h4⟩ | ⟨h4, _⟩
          · have := h.seq p _ h4 rfl
            omega
          · rw [h2] at h4
            simp at h4
        subst hpp
        rcases hr with ⟨_, h4⟩ | ⟨h4, _⟩
        · rw [show s.progs[p']? = some (.writing s.cur j) from hpc] at h4
          simp only [Option.some.injEq, HsPc.writing.injEq, true_and] at h4
          subst h4
          simp
        · rw [h2] at h4
          simp at h4
      · refine ⟨is h2, ?_⟩
        rcases h3 with h3 | h3
        · rw [hc] at h3; cases h3
        · exact .inr (List.mem_append_left _ h3)
    | openPipe i =>
      exfalso
      simp only [ProgOk, hc] at this
      rcases this.2.2 with h1 | ⟨_, rfl, h1⟩
      · cases h1
      · rw [hq] at h1
        rw [Option.some.inj h1] at ho
        simp [HsPipe.fresh] at ho
    | _ => simp_all [ProgOk]
  · intro _ p' hpc
    have hpc' : s.progs[p']? = some .ended := hpc
    left
    rcases h.all (by simp [hc]) p' hpc' with ⟨k', h1⟩ | h1
    · exact ⟨k', List.mem_append_left _ h1⟩
    · cases h1
      exact ⟨k, by simp⟩

/-- The pipe is removed, and what was read of it is of no use. -/
theorem HsInv.giveUp {out : Nat → List U8} {s : HsState} {os : List (Nat × Nat)} {w : Option Nat} (h : HsInv out s os w) :
    HsInv out s.giveUp os none := by
  have gone : ∀ (i : Nat) (q' : HsPipe), s.giveUp.pipes[i]? = some q' → q'.there = false :=
    dropPipe_gone h.old
  have is : ∀ {i : Nat} {q : HsPipe}, s.pipes[i]? = some q → ∃ q' : HsPipe, s.dropPipe.pipes[i]? = some q' ∧ q'.there = false := by
    intro i q hq
    obtain ⟨q', h'⟩ := dropPipe_at hq
    exact ⟨q', h', dropPipe_gone h.old i q' h'⟩
  have len : s.giveUp.pipes.length = s.pipes.length := by simp [HsState.giveUp, HsState.dropPipe]
  refine ⟨h.db, h.inc, ?_, h.seq, ?_, ?_, ?_, by simp, by simp [HsState.giveUp], by simp [HsState.giveUp]⟩
  · intro o hmem
    rcases h.own o hmem with h1 | h1 | h1 | ⟨i, h1, q', h2, h3⟩
    · exact .inl h1
    · exact .inr (.inl h1)
    · exact .inr (.inr (.inl h1))
    · exact .inr (.inr (.inr ⟨i, h1, is h2⟩))
  · intro i q' _ hq'
    exact gone i q' hq'
  · show ColOk s.giveUp
    have : s.giveUp.col = .done := rfl
    simp only [ColOk, this]
    refine ⟨gone, fun f i hf hi => ?_⟩
    rw [len]
    have hf' : s.path = some f := hf
    have hi' : s.files[f]? = some (some i) := hi
    have hcol := h.col
    cases hc : s.col <;> simp only [ColOk, hc] at hcol
    · simp [hcol.1] at hf'
    · simp [hcol.1] at hf'
    · rw [hcol.1] at hf'
      cases hf'
      rw [hcol.2.1] at hi'
      simp at hi'
    · rcases hcol.2 with h1 | ⟨g, h1, h2⟩
      · simp [h1] at hf'
      · rw [h1] at hf'
        cases hf'
        rw [h2] at hi'
        cases hi'
        exact (List.getElem?_eq_some_iff.mp hcol.1).1
    · simp [hcol.1] at hf'
    · exact hcol.2 f i hf' hi'
  · intro p pc hpc
    have := h.prog p pc hpc
    have hd : s.giveUp.col = .done := rfl
    cases pc with
    | writing i j =>
      right
      simp only [ProgOk] at this
      rcases this with ⟨_, rfl, h2⟩ | ⟨⟨q', h2, _⟩, h3⟩
      · exact ⟨is h2, .inl hd⟩
      · exact ⟨is h2, .inl hd⟩
    | openPipe i => exact ⟨this.1, by rw [len]; exact this.2.1, .inl hd⟩
    | remove i => exact ⟨this.1, by rw [len]; exact this.2.1, .inl hd⟩
    | lost => exact hd
    | _ => exact this

theorem HsInv.colStep {out : Nat → List U8} {s : HsState} {os : List (Nat × Nat)} {w : Option Nat} (h : HsInv out s os w) :
    ∃ os' w', HsInv out s.colStep os' w' := by
  by_cases hc : s.col = .read
  · simp only [HsState.colStep, hc]
    cases w with
    | none =>
      have := h.noOwner rfl hc
      simp only [this, HsPipe.fresh]
      exact ⟨os, none, by simpa using h⟩
    | some p =>
      split
      · rename_i q hq
        split
        · obtain ⟨k, h'⟩ := h.finish q hq
          exact ⟨_, _, h'⟩
        · exact ⟨_, _, h⟩
      · exact ⟨_, _, h⟩
  · have hw := h.nobody hc
    subst hw
    refine ⟨os, none, ?_⟩
    cases hc' : s.col with
    | idle => exact h.colStep_idle hc'
    | make => exact h.colStep_make hc'
    | write f => exact h.colStep_write f hc'
    | wait => exact h.colStep_wait hc'
    | read => exact absurd hc' hc
    | done => simpa [HsState.colStep, hc'] using h

theorem HsInv.enough {out : Nat → List U8} {s : HsState} {os : List (Nat × Nat)} {w : Option Nat} (h : HsInv out s os w) :
    ∃ os' w', HsInv out s.enough os' w' := by
  simp only [HsState.enough]
  split
  · rename_i q hc hq
    split
    · rename_i ho
      cases w with
      | none =>
        have := h.noOwner rfl hc
        rw [hq] at this
        rw [Option.some.inj this] at ho
        simp [HsPipe.fresh] at ho
      | some p =>
        obtain ⟨k, h'⟩ := h.finish q hq
        exact ⟨_, _, h'⟩
    · exact ⟨_, _, h⟩
  · exact ⟨_, _, h⟩

theorem HsInv.start {out : Nat → List U8} {s : HsState} {os : List (Nat × Nat)} {w : Option Nat} (h : HsInv out s os w)
    (hall : s.progs.all HsPc.stopped = true) : HsInv out { s with progs := s.progs ++ [.look] } os w := by
  have at' : ∀ {p : Nat} {pc : HsPc}, s.progs[p]? = some pc → (s.progs ++ [HsPc.look])[p]? = some pc := by
    intro p pc hp
    rw [List.getElem?_append_left (List.getElem?_eq_some_iff.mp hp).1]
    exact hp
  have rev : ∀ {p : Nat} {pc : HsPc}, (s.progs ++ [HsPc.look])[p]? = some pc →
      s.progs[p]? = some pc ∨ (pc = .look ∧ p = s.progs.length) := by
    intro p pc hp
    by_cases hlt : p < s.progs.length
    · rw [List.getElem?_append_left hlt] at hp
      exact .inl hp
    · rw [List.getElem?_append_right (by omega)] at hp
      have := (List.getElem?_eq_some_iff.mp hp).1
      simp only [List.length_singleton] at this
      have e : p - s.progs.length = 0 := by omega
      rw [e] at hp
      simp only [List.getElem?_cons_zero, Option.some.injEq] at hp
      exact .inr ⟨hp.symm, by omega⟩
  refine ⟨h.db, h.inc, ?_, ?_, h.old, h.col, ?_, ?_, h.noOwner, ?_⟩
  · intro o ho
    rcases h.own o ho with ⟨h1, h2⟩ | h1 | h1 | ⟨i, h1, h2⟩
    · exact .inl ⟨at' h1, h2⟩
    · exact .inr (.inl (at' h1))
    · exact .inr (.inr (.inl (at' h1)))
    · exact .inr (.inr (.inr ⟨i, at' h1, h2⟩))
  · intro p pc hpc hs
    rcases rev hpc with h1 | ⟨_, rfl⟩
    · have := List.all_eq_true.mp hall pc (List.mem_of_getElem? h1)
      rw [hs] at this
      cases this
    · simp
  · intro p pc hpc
    rcases rev hpc with h1 | ⟨rfl, _⟩
    · have := h.prog p pc h1
      cases pc <;> exact this
    · trivial
  · intro p hp
    obtain ⟨h1, ⟨k, h2⟩, h3⟩ := h.owner p hp
    refine ⟨h1, ⟨k, ?_⟩, h3⟩
    rcases h2 with ⟨h4, h5⟩ | ⟨h4, ⟨h5, h6⟩ | h5⟩
    · exact .inl ⟨h4, at' h5⟩
    · exact .inr ⟨h4, .inl ⟨at' h5, h6⟩⟩
    · exact .inr ⟨h4, .inr (at' h5)⟩
  · intro hd p hpc
    rcases rev hpc with h1 | ⟨h1, _⟩
    · exact h.all hd p h1
    · cases h1

/-! The runs -/

/-- One run moves. -/
theorem HsInv.moved {out : Nat → List U8} {s s' : HsState} {os : List (Nat × Nat)} {w w' : Option Nat} (h : HsInv out s os w)
    {p : Nat} {pc pc' : HsPc} (hp : s.progs[p]? = some pc) (hns : pc.stopped = false)
    (hdb : s'.db = s.db) (hcol : s'.col = s.col) (hprogs : s'.progs = s.progs.set p pc')
    (hthere : ∀ (i : Nat) (q : HsPipe), s.pipes[i]? = some q → q.there = false →
      ∃ q' : HsPipe, s'.pipes[i]? = some q' ∧ q'.there = false)
    (hold : ∀ (i : Nat) (q : HsPipe), i + 1 < s'.pipes.length → s'.pipes[i]? = some q → q.there = false)
    (hcolok : ColOk s') (hprog : ProgOk out s' os p pc')
    (hown : ∀ k, (p, k) ∈ os → OwnerOk out s' (p, k))
    (howner : ∀ p' : Nat, w' = some p' → s'.col = .read ∧ Reading out s' p' ∧ ∀ o ∈ os, o.1 < p')
    (hno : w' = none → s'.col = .read → s'.pipes[s'.cur]? = some .fresh)
    (hw : s.col ≠ .done → ∀ p' : Nat, w = some p' → p' ≠ p → w' = some p')
    (hend : s.col ≠ .done → pc' = .ended → (∃ k, (p, k) ∈ os) ∨ w' = some p) : HsInv out s' os w' := by
  have hlt := (List.getElem?_eq_some_iff.mp hp).1
  have hlast := h.seq p pc hp hns
  have other : ∀ {p' : Nat}, p' ≠ p → s'.progs[p']? = s.progs[p']? := by
    intro p' hne
    rw [hprogs, List.getElem?_set_ne (fun e => hne e.symm)]
  have self : s'.progs[p]? = some pc' := by
    rw [hprogs, List.getElem?_set_self hlt]
  refine ⟨hdb ▸ h.db, h.inc, ?_, ?_, hold, hcolok, ?_, howner, hno, ?_⟩
  · intro o ho
    by_cases he : o.1 = p
    · obtain ⟨a, b⟩ := o
      simp only at he
      subst he
      exact hown b ho
    · simp only [OwnerOk, other he]
      rcases h.own o ho with h1 | h1 | h1 | ⟨i, h1, q, h2, h3⟩
      · exact .inl h1
      · exact .inr (.inl h1)
      · exact .inr (.inr (.inl h1))
      · exact .inr (.inr (.inr ⟨i, h1, hthere i q h2 h3⟩))
  · intro p' pc'' hpc hs
    have len : s'.progs.length = s.progs.length := by rw [hprogs]; simp
    rw [len]
    by_cases he : p' = p
    · subst he; exact hlast
    · rw [other he] at hpc
      exact h.seq p' pc'' hpc hs
  · intro p' pc'' hpc
    by_cases he : p' = p
    · subst he
      rw [self] at hpc
      cases hpc
      exact hprog
    · rw [other he] at hpc
      have h1 := h.prog p' pc'' hpc
      have h2 : pc''.stopped = true := by
        cases hs : pc''.stopped with
        | true => rfl
        | false =>
          have := h.seq p' pc'' hpc hs
          omega
      cases pc'' <;> simp [HsPc.stopped] at h2
      · trivial
      · trivial
      · trivial
      · exact hcol.trans h1
      · exact h1
  · intro hd p' hpc
    rw [hcol] at hd
    by_cases he : p' = p
    · subst he
      rw [self] at hpc
      exact hend hd (Option.some.inj hpc)
    · rw [other he] at hpc
      rcases h.all hd p' hpc with h1 | h1
      · exact .inl h1
      · exact .inr (hw hd p' h1 he)

/-- Before it writes, no trace of a run is there. -/
def HsPc.early : HsPc → Bool
  | .look | .opens | .fgets _ _ | .remove _ | .openPipe _ => true
  | _ => false

theorem HsInv.early_notOwner {out : Nat → List U8} {s : HsState} {os : List (Nat × Nat)} {w : Option Nat} (h : HsInv out s os w)
    {p : Nat} {pc : HsPc} (hp : s.progs[p]? = some pc) (he : pc.early = true) : (∀ k, (p, k) ∉ os) ∧ w ≠ some p := by
  constructor
  · intro k hk
    rcases h.own _ hk with ⟨h1, _⟩ | h1 | h1 | ⟨i, h1, _⟩ <;>
    · simp only [hp] at h1
      cases h1
      simp [HsPc.early] at he
  · intro hw
    obtain ⟨_, ⟨k, h2⟩, _⟩ := h.owner p hw
    rcases h2 with ⟨_, h1⟩ | ⟨_, ⟨h1, _⟩ | h1⟩ <;>
    · simp only [hp] at h1
      cases h1
      simp [HsPc.early] at he

/-- A run moves that has not begun to write, and does not begin to. -/
theorem HsInv.movedEarly {out : Nat → List U8} {s s' : HsState} {os : List (Nat × Nat)} {w : Option Nat} (h : HsInv out s os w)
    {p : Nat} {pc pc' : HsPc} (hp : s.progs[p]? = some pc) (he : pc.early = true)
    (hdb : s'.db = s.db) (hcol : s'.col = s.col) (hprogs : s'.progs = s.progs.set p pc') (hpipes : s'.pipes = s.pipes)
    (hcolok : ColOk s') (hprog : ProgOk out s' os p pc') (hend : pc' ≠ .ended) : HsInv out s' os w := by
  obtain ⟨n1, n2⟩ := h.early_notOwner hp he
  have hns : pc.stopped = false := by cases pc <;> simp_all [HsPc.early, HsPc.stopped]
  have hcur : s'.cur = s.cur := by simp [HsState.cur, hpipes]
  refine h.moved hp hns hdb hcol hprogs ?_ ?_ hcolok hprog ?_ ?_ ?_ ?_ ?_
  · intro i q hq ht
    rw [hpipes]
    exact ⟨q, hq, ht⟩
  · rw [hpipes]; exact h.old
  · intro k hk
    exact absurd hk (n1 k)
  · intro p' hw
    have hne : p' ≠ p := fun e => n2 (e ▸ hw)
    obtain ⟨h1, ⟨k, h2⟩, h3⟩ := h.owner p' hw
    refine ⟨hcol.trans h1, ⟨k, ?_⟩, h3⟩
    have other : s'.progs[p']? = s.progs[p']? := by
      rw [hprogs, List.getElem?_set_ne (fun e => hne e.symm)]
    rw [hpipes, hcur, other]
    exact h2
  · intro hw hc
    rw [hpipes, hcur]
    exact h.noOwner hw (hcol ▸ hc)
  · intro _ p' hw _
    exact hw
  · intro _ e
    exact absurd e hend

/-- Setting a run elsewhere does not touch the collector. -/
theorem colOk_setPc {s : HsState} {p : Nat} {pc : HsPc} (h : ColOk s) : ColOk (s.setPc p pc) := by
  unfold ColOk at h ⊢
  have hc : (s.setPc p pc).col = s.col := rfl
  rw [hc]
  cases h' : s.col <;> simp only [h'] at h ⊢ <;> exact h

/-- A run closes the pipe. -/
theorem HsInv.closed {out : Nat → List U8} {s : HsState} {os : List (Nat × Nat)} {w : Option Nat} (h : HsInv out s os w)
    {p i k : Nat} (hp : s.progs[p]? = some (.writing i k)) (pc' : HsPc)
    (hk : (pc' = .ended ∧ (out p).length ≤ k) ∨ pc' = .killed ∨
      (pc' = .broken ∧ ∃ q : HsPipe, s.pipes[i]? = some q ∧ q.there = false)) :
    HsInv out ((s.setPc p pc').closePipe i) os w := by
  have hlt := (List.getElem?_eq_some_iff.mp hp).1
  have hlast := h.seq p _ hp rfl
  have hprog := h.prog p _ hp
  have self : ((s.setPc p pc').closePipe i).progs[p]? = some pc' := by
    simp [HsState.setPc, HsState.closePipe, hlt]
  have hcur : ((s.setPc p pc').closePipe i).cur = s.cur := by
    simp [HsState.setPc, HsState.closePipe, HsState.cur]
  have pipeAt : ∀ j : Nat, ((s.setPc p pc').closePipe i).pipes[j]? =
      (if i = j then (fun q : HsPipe => { q with writers := q.writers - 1 }) else id) <$> s.pipes[j]? := by
    intro j
    simp only [HsState.setPc, HsState.closePipe, List.getElem?_modify]
    by_cases hij : i = j <;> simp [hij]
  have colok : ColOk ((s.setPc p pc').closePipe i) := by
    have hcol := h.col
    have hc : ((s.setPc p pc').closePipe i).col = s.col := rfl
    have hpa : ((s.setPc p pc').closePipe i).path = s.path := rfl
    have hfi : ((s.setPc p pc').closePipe i).files = s.files := rfl
    have frs : s.pipes[s.cur]? = some .fresh → ((s.setPc p pc').closePipe i).pipes[s.cur]? = some .fresh := by
      intro h'
      rw [pipeAt, h']
      by_cases hij : i = s.cur <;> simp [hij, HsPipe.fresh]
    have gone : (∀ (i : Nat) (q : HsPipe), s.pipes[i]? = some q → q.there = false) →
        ∀ (j : Nat) (q : HsPipe), ((s.setPc p pc').closePipe i).pipes[j]? = some q → q.there = false := by
      intro h' j q hq
      rw [pipeAt] at hq
      cases hs : s.pipes[j]? with
      | none => simp [hs] at hq
      | some q0 =>
        have := h' j q0 hs
        by_cases hij : i = j <;> simp [hs, hij] at hq <;> subst hq <;> exact this
    cases h' : s.col <;> simp only [ColOk, h', hc, hpa, hfi, hcur] at hcol ⊢
    · exact ⟨hcol.1, gone hcol.2⟩
    · exact ⟨hcol.1, frs hcol.2⟩
    · exact ⟨hcol.1, hcol.2.1, frs hcol.2.2⟩
    · exact ⟨frs hcol.1, hcol.2⟩
    · obtain ⟨h1, q, h2, h3⟩ := hcol
      refine ⟨h1, ?_⟩
      rw [pipeAt, h2]
      by_cases hij : i = s.cur <;> simp [hij, h3]
    · refine ⟨gone hcol.1, ?_⟩
      have : ((s.setPc p pc').closePipe i).pipes.length = s.pipes.length := by
        simp [HsState.setPc, HsState.closePipe]
      rw [this]
      exact hcol.2
  have stop : ProgOk out ((s.setPc p pc').closePipe i) os p pc' := by
    rcases hk with ⟨rfl, _⟩ | rfl | ⟨rfl, _⟩ <;> trivial
  have there : ∀ (j : Nat) (q : HsPipe), s.pipes[j]? = some q → q.there = false →
      ∃ q' : HsPipe, ((s.setPc p pc').closePipe i).pipes[j]? = some q' ∧ q'.there = false := by
    intro j q hq ht
    rw [pipeAt, hq]
    by_cases hij : i = j <;> simp [hij, ht]
  refine h.moved hp rfl rfl rfl rfl there ?_ colok stop ?_ ?_ ?_ ?_ ?_
  · intro j q hj hq
    have : ((s.setPc p pc').closePipe i).pipes.length = s.pipes.length := by
      simp [HsState.setPc, HsState.closePipe]
    rw [this] at hj
    rw [pipeAt] at hq
    cases hs : s.pipes[j]? with
    | none => simp [hs] at hq
    | some q0 =>
      have := h.old j q0 hj hs
      by_cases hij : i = j <;> simp [hs, hij] at hq <;> subst hq <;> exact this
  · intro k' hk'
    have e : k' = k := by
      rcases h.own _ hk' with ⟨h1, _⟩ | h1 | h1 | ⟨j, h1, _⟩
      · simp [hp] at h1
      · simp [hp] at h1
      · simp [hp] at h1
      · simp only [hp, Option.some.injEq, HsPc.writing.injEq] at h1
        exact h1.2.symm
    subst e
    rcases hk with ⟨rfl, h1⟩ | rfl | ⟨rfl, _⟩
    · exact .inl ⟨self, h1⟩
    · exact .inr (.inl self)
    · exact .inr (.inr (.inl self))
  · intro p' hw
    obtain ⟨h1, ⟨k', h2⟩, h3⟩ := h.owner p' hw
    refine ⟨h1, ?_, h3⟩
    by_cases he : p' = p
    · subst he
      rcases h2 with ⟨h4, h5⟩ | ⟨h4, ⟨h5, _⟩ | h5⟩
      · rw [hp] at h5
        simp only [Option.some.injEq, HsPc.writing.injEq] at h5
        obtain ⟨rfl, rfl⟩ := h5
        refine ⟨k, .inr ⟨?_, ?_⟩⟩
        · rw [hcur, pipeAt, h4]
          simp
        · rw [self]
          rcases hk with ⟨rfl, h6⟩ | rfl | ⟨rfl, q, h6, h7⟩
          · exact .inl ⟨rfl, h6⟩
          · exact .inr rfl
          · rw [h4] at h6
            rw [← Option.some.inj h6] at h7
            simp at h7
      · simp [hp] at h5
      · simp [hp] at h5
    · -- somebody else's trace is being read: this pipe is another one
      have other : ((s.setPc p pc').closePipe i).progs[p']? = s.progs[p']? := by
        simp [HsState.setPc, HsState.closePipe, List.getElem?_set_ne (fun e => he e.symm)]
      have hi : i ≠ s.cur := by
        intro hi
        rcases hprog with ⟨_, _, h4⟩ | ⟨⟨q, h4, h5⟩, _⟩
        · rcases h2 with ⟨_, h5⟩ | ⟨h6, _⟩
          · have := h.seq p' _ h5 rfl
            omega
          · rw [h4] at h6
            simp at h6
        · rw [hi] at h4
          rcases h2 with ⟨h6, _⟩ | ⟨h6, _⟩ <;>
          · rw [h6] at h4
            rw [← Option.some.inj h4] at h5
            simp at h5
      refine ⟨k', ?_⟩
      rw [hcur, pipeAt, other]
      simpa [hi] using h2
  · intro hw hc
    have := h.noOwner hw hc
    rw [hcur, pipeAt, this]
    by_cases hij : i = s.cur <;> simp [hij, HsPipe.fresh]
  · intro _ p' hw _
    exact hw
  · intro hd _
    rcases hprog with ⟨h1, rfl, h4⟩ | ⟨_, h4⟩
    · right
      cases w with
      | none =>
        have := h.noOwner rfl h1
        rw [this] at h4
        simp [HsPipe.fresh] at h4
      | some p' =>
        obtain ⟨_, ⟨k', h2⟩, _⟩ := h.owner p' rfl
        rcases h2 with ⟨_, h5⟩ | ⟨h5, _⟩
        · have := h.seq p' _ h5 rfl
          congr 1
          omega
        · rw [h4] at h5
          simp at h5
    · rcases h4 with h4 | h4
      · exact absurd h4 hd
      · exact .inl ⟨k, h4⟩

/-- Runs whose traces were collected were started. -/
theorem HsInv.owned_lt {out : Nat → List U8} {s : HsState} {os : List (Nat × Nat)} {w : Option Nat} (h : HsInv out s os w)
    {o : Nat × Nat} (ho : o ∈ os) : o.1 < s.progs.length := by
  rcases h.own o ho with ⟨h1, _⟩ | h1 | h1 | ⟨i, h1, _⟩ <;> exact (List.getElem?_eq_some_iff.mp h1).1

/-- A run opens the pipe. -/
theorem HsInv.opened {out : Nat → List U8} {s : HsState} {os : List (Nat × Nat)} {w : Option Nat} (h : HsInv out s os w)
    {p : Nat} (hp : s.progs[p]? = some (.openPipe s.cur)) (hc : s.col = .read) {q : HsPipe} (hq : s.pipes[s.cur]? = some q) :
    HsInv out { s.setPc p (.writing s.cur 0) with
      pipes := s.pipes.set s.cur { q with writers := q.writers + 1, opened := true } } os (some p) := by
  have hprog := h.prog p _ hp
  simp only [ProgOk, hc] at hprog
  obtain ⟨hpath, hlt, hprog⟩ := hprog
  obtain ⟨-, -, hf⟩ := hprog.resolve_left (by simp)
  rw [hf] at hq
  cases hq
  obtain ⟨n1, n2⟩ := h.early_notOwner hp rfl
  have hplt := (List.getElem?_eq_some_iff.mp hp).1
  have hlast := h.seq p _ hp rfl
  have hpipe : (s.pipes.set s.cur { HsPipe.fresh with writers := HsPipe.fresh.writers + 1, opened := true })[s.cur]? =
      some ⟨outputOf out p 0, 1, true, true⟩ := by
    simp [hlt, HsPipe.fresh, outputOf]
  have hcur : ({ s.setPc p (.writing s.cur 0) with
      pipes := s.pipes.set s.cur { HsPipe.fresh with writers := HsPipe.fresh.writers + 1, opened := true } } : HsState).cur = s.cur := by
    simp [HsState.cur]
  refine h.moved hp rfl rfl rfl rfl ?_ ?_ ?_ ?_ ?_ ?_ ?_ ?_ ?_
  · intro i q hq ht
    have hne : s.cur ≠ i := by
      intro e
      rw [← e, hf] at hq
      rw [← Option.some.inj hq] at ht
      simp [HsPipe.fresh] at ht
    exact ⟨q, by simpa [List.getElem?_set_ne hne] using hq, ht⟩
  · intro i q hi hq
    simp only [List.length_set] at hi
    have hne : s.cur ≠ i := by
      simp only [HsState.cur]
      omega
    simp only [List.getElem?_set_ne hne] at hq
    exact h.old i q hi hq
  · simp only [ColOk, HsState.setPc, hc]
    refine ⟨hpath, ⟨outputOf out p 0, 1, true, true⟩, ?_, rfl⟩
    simp only [HsState.cur, List.length_set]
    exact hpipe
  · left
    exact ⟨hc, hcur.symm, by rw [hcur]; exact hpipe⟩
  · intro k hk
    exact absurd hk (n1 k)
  · intro p' hp'
    cases hp'
    refine ⟨hc, ⟨0, .inl ⟨by rw [hcur]; exact hpipe, ?_⟩⟩, ?_⟩
    · rw [hcur]
      simp [HsState.setPc, hplt]
    · intro o ho
      have h1 := h.owned_lt ho
      have h2 : o.1 ≠ p := fun e => n1 o.2 (e ▸ ho)
      omega
  · simp
  · intro _ p' hw _
    obtain ⟨_, ⟨k, h2⟩, _⟩ := h.owner p' hw
    rw [hf] at h2
    simp [HsPipe.fresh] at h2
  · intro _ e
    cases e

/-- A run writes a byte. -/
theorem HsInv.wrote {out : Nat → List U8} {s : HsState} {os : List (Nat × Nat)} {w : Option Nat} (h : HsInv out s os w)
    {p i k : Nat} (hp : s.progs[p]? = some (.writing i k)) {q : HsPipe} (hq : s.pipes[i]? = some q) (ht : q.there = true)
    {x : U8} (hx : (out p)[k]? = some x) :
    HsInv out { s.setPc p (.writing i (k + 1)) with pipes := s.pipes.set i { q with data := q.data ++ [(p, x)] } } os w := by
  have hprog := h.prog p _ hp
  have hprog' : s.col = .read ∧ i = s.cur ∧ s.pipes[s.cur]? = some ⟨outputOf out p k, 1, true, true⟩ := by
    rcases hprog with h1 | ⟨⟨q', h1, h2⟩, _⟩
    · exact h1
    · rw [hq] at h1
      rw [← Option.some.inj h1, ht] at h2
      cases h2
  obtain ⟨hc, rfl, hf⟩ := hprog'
  rw [hf] at hq
  cases hq
  have hplt := (List.getElem?_eq_some_iff.mp hp).1
  have hlt := (List.getElem?_eq_some_iff.mp hf).1
  have hlast := h.seq p _ hp rfl
  have hw : w = some p := by
    cases w with
    | none =>
      have := h.noOwner rfl hc
      rw [this] at hf
      simp [HsPipe.fresh] at hf
    | some p' =>
      obtain ⟨_, ⟨k', h2⟩, _⟩ := h.owner p' rfl
      rcases h2 with ⟨_, h5⟩ | ⟨h5, _⟩
      · have := h.seq p' _ h5 rfl
        congr 1
        omega
      · rw [hf] at h5
        simp at h5
  subst hw
  obtain ⟨-, -, hbefore⟩ := h.owner p rfl
  have hout : outputOf out p k ++ [(p, x)] = outputOf out p (k + 1) := by
    simp only [outputOf]
    rw [List.take_add_one, hx]
    simp
  have hpipe : (s.pipes.set s.cur ({ data := outputOf out p k ++ [(p, x)], writers := 1, opened := true, there := true } : HsPipe))[s.cur]? =
      some ⟨outputOf out p (k + 1), 1, true, true⟩ := by
    simp [hlt, hout]
  have hcur : ({ s.setPc p (.writing s.cur (k + 1)) with
      pipes := s.pipes.set s.cur ({ data := outputOf out p k ++ [(p, x)], writers := 1, opened := true, there := true } : HsPipe) } : HsState).cur = s.cur := by
    simp [HsState.cur]
  have hcol := h.col
  simp only [ColOk, hc] at hcol
  refine h.moved hp rfl rfl rfl rfl ?_ ?_ ?_ ?_ ?_ ?_ ?_ ?_ ?_
  · intro i q hq ht
    have hne : s.cur ≠ i := by
      intro e
      rw [← e, hf] at hq
      rw [← Option.some.inj hq] at ht
      simp at ht
    exact ⟨q, by simpa [List.getElem?_set_ne hne] using hq, ht⟩
  · intro i q hi hq
    simp only [List.length_set] at hi
    have hne : s.cur ≠ i := by
      simp only [HsState.cur]
      omega
    simp only [List.getElem?_set_ne hne] at hq
    exact h.old i q hi hq
  · simp only [ColOk, HsState.setPc, hc]
    refine ⟨hcol.1, ⟨outputOf out p (k + 1), 1, true, true⟩, ?_, rfl⟩
    simp only [HsState.cur, List.length_set]
    exact hpipe
  · left
    exact ⟨hc, hcur.symm, by rw [hcur]; exact hpipe⟩
  · intro k hk
    have := hbefore _ hk
    simp at this
  · intro p' hp'
    cases hp'
    refine ⟨hc, ⟨k + 1, .inl ⟨by rw [hcur]; exact hpipe, ?_⟩⟩, hbefore⟩
    rw [hcur]
    simp [HsState.setPc, hplt]
  · simp
  · intro _ p' hw _
    exact hw
  · intro _ e
    cases e

theorem HsInv.progStep {out : Nat → List U8} {s : HsState} {os : List (Nat × Nat)} {w : Option Nat} (h : HsInv out s os w)
    (p : Nat) : ∃ w', HsInv out (s.progStep p (out p)) os w' := by
  have keep : ∃ w', HsInv out s os w' := ⟨w, h⟩
  unfold HsState.progStep
  split
  · rename_i hp
    split
    · rename_i hs
      exact ⟨w, h.movedEarly hp rfl rfl rfl rfl rfl (colOk_setPc h.col) hs (by simp)⟩
    · exact keep
  · rename_i hp
    have hprog := h.prog p _ hp
    split
    · rename_i f hf
      exact ⟨w, h.movedEarly hp rfl rfl rfl rfl rfl (colOk_setPc h.col) hf (by simp)⟩
    · rename_i hf
      simp [ProgOk, hf] at hprog
  · rename_i f hp
    have hprog := h.prog p _ hp
    simp only [ProgOk] at hprog
    split
    · rename_i i hi
      refine ⟨w, h.movedEarly hp rfl rfl rfl rfl rfl (colOk_setPc h.col) ?_ (by simp)⟩
      have hcol := h.col
      refine ⟨by simp [HsState.setPc, hprog], ?_⟩
      show i < s.pipes.length ∧ (s.col = .done ∨ (s.col = .wait ∧ i = s.cur))
      cases hc : s.col <;> simp only [ColOk, hc] at hcol
      · simp [hprog] at hcol
      · simp [hprog] at hcol
      · rw [hprog] at hcol
        have e := Option.some.inj hcol.1
        rw [← e, hi] at hcol
        simp at hcol
      · rcases hcol.2 with h1 | ⟨g, h1, h2⟩
        · simp [hprog] at h1
        · rw [hprog] at h1
          cases h1
          rw [hi] at h2
          have e : i = s.cur := by simpa using h2
          subst e
          exact ⟨(List.getElem?_eq_some_iff.mp hcol.1).1, .inr ⟨rfl, rfl⟩⟩
      · simp [hprog] at hcol
      · exact ⟨hcol.2 f i hprog hi, .inl rfl⟩
    · exact ⟨w, h.movedEarly hp rfl rfl rfl rfl rfl (colOk_setPc h.col) hprog (by simp)⟩
  · rename_i i hp
    have hprog := h.prog p _ hp
    obtain ⟨h1, h2, h3⟩ := hprog
    have hcol := h.col
    refine ⟨w, h.movedEarly hp rfl rfl rfl rfl rfl ?_ ?_ (by simp)⟩
    · rcases h3 with h3 | ⟨h3, _⟩
      · simp only [ColOk, h3] at hcol
        simp only [ColOk, HsState.setPc, h3]
        exact ⟨hcol.1, by simp⟩
      · simp only [ColOk, h3] at hcol
        simp only [ColOk, HsState.setPc, h3]
        exact ⟨hcol.1, .inl trivial⟩
    · refine ⟨rfl, h2, ?_⟩
      rcases h3 with h3 | ⟨h3, h4⟩
      · exact .inl h3
      · right
        simp only [ColOk, h3] at hcol
        exact ⟨.inl h3, h4, hcol.1⟩
  · rename_i i hp
    have hprog := h.prog p _ hp
    obtain ⟨h1, h2, h3⟩ := hprog
    split
    · rename_i q hq
      split
      · rename_i ht
        refine ⟨w, h.movedEarly hp rfl rfl rfl rfl rfl (colOk_setPc h.col) ?_ (by simp)⟩
        rcases h3 with h3 | ⟨_, rfl, h4⟩
        · exact h3
        · rw [hq] at h4
          rw [Option.some.inj h4] at ht
          simp [HsPipe.fresh] at ht
      · split
        · rename_i hr
          simp only [Bool.and_eq_true, decide_eq_true_eq, beq_iff_eq] at hr
          obtain ⟨hc, rfl⟩ := hr
          exact ⟨some p, h.opened hp hc hq⟩
        · exact keep
    · exact keep
  · rename_i i k hp
    split
    · rename_i q hq
      split
      · rename_i hx
        refine ⟨w, h.closed hp .ended (.inl ⟨rfl, ?_⟩)⟩
        simpa using hx
      · rename_i x hx
        split
        · rename_i ht
          exact ⟨w, h.wrote hp hq ht hx⟩
        · rename_i ht
          exact ⟨w, h.closed hp .broken (.inr (.inr ⟨rfl, q, hq, by simpa using ht⟩))⟩
    · exact keep
  · exact keep

theorem HsInv.kill {out : Nat → List U8} {s : HsState} {os : List (Nat × Nat)} {w : Option Nat} (h : HsInv out s os w)
    (p : Nat) : HsInv out (s.kill p) os w := by
  unfold HsState.kill
  split
  · rename_i i k hp
    exact h.closed hp .killed (.inr (.inl rfl))
  · rename_i pc hnw hp
    split
    · exact h
    · rename_i hs
      have he : pc.early = true := by
        cases pc <;> simp_all [HsPc.early, HsPc.stopped]
      exact h.movedEarly hp he rfl rfl rfl rfl (colOk_setPc h.col) trivial (by simp)
  · exact h

/-- Every event, for runs one after the other. -/
theorem HsInv.step {out : Nat → List U8} {s : HsState} {os : List (Nat × Nat)} {w : Option Nat} (h : HsInv out s os w)
    (e : HsEvent) : ∃ os' w', HsInv out (hsStep false out s e) os' w' := by
  cases e with
  | col => exact h.colStep
  | enough => exact h.enough
  | giveUp => exact ⟨_, _, h.giveUp⟩
  | start =>
    simp only [hsStep, Bool.false_or]
    split
    · rename_i ha
      exact ⟨_, _, h.start ha⟩
    · exact ⟨_, _, h⟩
  | prog p =>
    obtain ⟨w', h'⟩ := h.progStep p
    exact ⟨_, _, h'⟩
  | kill p => exact ⟨_, _, h.kill p⟩

theorem HsInv.steps {out : Nat → List U8} (es : List HsEvent) : ∀ {s : HsState} {os : List (Nat × Nat)} {w : Option Nat},
    HsInv out s os w → ∃ os' w', HsInv out (hsRun false out s es) os' w' := by
  induction es with
  | nil => intro s os w h; exact ⟨_, _, h⟩
  | cons e es ih =>
    intro s os w h
    obtain ⟨os', w', h'⟩ := h.step e
    exact ih h'

theorem HsInv.run (out : Nat → List U8) (es : List HsEvent) : ∃ os w, HsInv out (hsRun false out .init es) os w :=
  HsInv.steps es (.init out)

end TraceDB
