import Verif.Spec.WriteFail
import Verif.Proofs.Fork
/-
When writing fails.
-/
namespace TraceDB

/-- Everything that actions put. -/
def fwPuts : List FkAct → List U8
  | [] => []
  | .put bs :: r => bs ++ fwPuts r
  | .exit :: _ => []
  | _ :: r => fwPuts r

theorem FwState.run_append (size : Nat) (s : FwState) (a b : List FwEvent) :
    s.run size (a ++ b) = (s.run size a).run size b := by
  simp [FwState.run]

/-- Without failures: nothing is lost, except by being killed. -/
theorem fw_step_whole {size : Nat} {s : FwState} {T : List U8} (h : s.out ++ s.buf ++ fwPuts s.todo <+: T) (e : FwEvent)
    (he : ¬ e.IsFail) : (s.step size e).out ++ (s.step size e).buf ++ fwPuts (s.step size e).todo <+: T := by
  obtain ⟨out, buf, todo⟩ := s
  cases e with
  | run =>
    simp only [FwState.step]
    split
    · cases todo with
      | nil => exact h
      | cons a r =>
        cases a with
        | put bs => simpa [fwPuts] using h
        | flush => simpa [fwPuts] using h
        | exit => simpa [fwPuts] using h
        | fork c => exact h
    · exact h
  | spill k =>
    simp only [FwState.step]
    split
    · exact h
    · simp only [List.append_assoc] at h ⊢
      rw [← List.append_assoc (buf.take k), List.take_append_drop]
      exact h
  | fail k l => exact absurd trivial he
  | kill =>
    simp only [FwState.step, fwPuts, List.append_nil] at h ⊢
    simp only [List.append_assoc] at h
    exact (List.prefix_append _ _).trans h

theorem fw_run_whole {size : Nat} {T : List U8} (events : List FwEvent) (he : ∀ e ∈ events, ¬ e.IsFail) :
    ∀ {s : FwState}, s.out ++ s.buf ++ fwPuts s.todo <+: T →
      (s.run size events).out ++ (s.run size events).buf ++ fwPuts (s.run size events).todo <+: T := by
  induction events with
  | nil => intro s h; exact h
  | cons e events ih =>
    intro s h
    exact ih (fun e h => he e (by simp [h])) (fw_step_whole h e (he e (by simp)))

theorem fw_fail_prefix {size : Nat} {s : FwState} {T : List U8} (h : s.out ++ s.buf ++ fwPuts s.todo <+: T) (k l : Nat) :
    (s.step size (.fail k l)).out <+: T := by
  obtain ⟨out, buf, todo⟩ := s
  have h1 : out ++ buf.take k <+: T := by
    refine List.IsPrefix.trans ⟨buf.drop k ++ fwPuts todo, ?_⟩ h
    simp only [List.append_assoc]
    rw [← List.append_assoc (buf.take k), List.take_append_drop]
  have h0 : out <+: T := List.IsPrefix.trans ⟨buf.take k, rfl⟩ h1
  simp only [FwState.step]
  split
  · cases todo with
    | nil => exact h0
    | cons a r =>
      cases a with
      | put bs => exact h0
      | flush => exact h1
      | exit => exact h1
      | fork c => exact h0
  · exact h1

/-- The first failure of a run. -/
theorem fw_first_fail (events : List FwEvent) :
    (∀ e ∈ events, ¬ e.IsFail) ∨ ∃ a e b, events = a ++ e :: b ∧ (∀ x ∈ a, ¬ x.IsFail) ∧ e.IsFail := by
  induction events with
  | nil => exact .inl (by simp)
  | cons e events ih =>
    by_cases he : e.IsFail
    · exact .inr ⟨[], e, events, rfl, by simp, he⟩
    · rcases ih with h | ⟨a, x, b, rfl, h1, h2⟩
      · exact .inl fun x hx => by
          rcases List.mem_cons.mp hx with rfl | hx
          · exact he
          · exact h x hx
      · exact .inr ⟨e :: a, x, b, rfl, fun x hx => by
          rcases List.mem_cons.mp hx with rfl | hx
          · exact he
          · exact h1 x hx, h2⟩

theorem fw_for_ever {size : Nat} {s : FwState} {T : List U8} (h : s.out ++ s.buf ++ fwPuts s.todo <+: T)
    {events : List FwEvent} (hf : FailsForEver size s events) : (s.run size events).out <+: T := by
  rcases fw_first_fail events with he | ⟨a, e, b, rfl, h1, h2⟩
  · have := fw_run_whole events he h (size := size)
    simp only [List.append_assoc] at this
    exact (List.prefix_append _ _).trans this
  · rw [hf a e b rfl h2, FwState.run_append]
    have := fw_run_whole a h1 h (size := size)
    cases e with
    | fail k l => exact fw_fail_prefix this k l
    | run => exact absurd h2 id
    | spill k => exact absurd h2 id
    | kill => exact absurd h2 id

theorem fwPuts_puts (puts : List (List U8)) (acts : List FkAct) :
    fwPuts (puts.map .put ++ acts) = puts.flatten ++ fwPuts acts := by
  induction puts with
  | nil => rfl
  | cons b puts ih => simp [fwPuts, ih]

theorem FkDoes.puts {α : Type} {enc : α → List U8} {ps : List α} {acts : List FkAct}
    (h : FkDoes enc (ps.map .point) acts) : fwPuts acts = ps.flatMap enc := by
  induction ps generalizing acts with
  | nil => cases h; rfl
  | cons p ps ih =>
    cases h with
    | point h1 h2 =>
      rw [fwPuts_puts, h1, List.flatMap_cons, ← ih h2]
      rfl

theorem FkEach.of_mem {α : Type} {P : α → Prop} {ps : List α} (h : ∀ p ∈ ps, P p) : FkEach P (ps.map .point) := by
  induction ps with
  | nil => exact .nil
  | cons p ps ih => exact .point (h p (by simp)) (ih fun p hp => h p (by simp [hp]))

theorem FkRel.of_allRel {α β : Type} {R : α → β → Prop} {ps : List α} {cs : List β} (h : AllRel R ps cs) :
    FkRel R (ps.map .point) (cs.map .point) := by
  induction h with
  | nil => exact .nil
  | cons h _ ih => exact .point h ih

/-! Lost points -/

/-- The file consists of complete points, some may be missing; the process may be inside of a point. -/
inductive FwOk {α : Type} (enc : α → List U8) (size : Nat) (all : List α) (H : List U8) : FwState → Prop
  | ended {don : List α} : don.Sublist all → FwOk enc size all H ⟨H ++ don.flatMap enc, [], []⟩
  | idle {don rest : List α} {acts : List FkAct} : (don ++ rest).Sublist all → FkDoes enc (rest.map .point) acts → (∀ p ∈ rest, (enc p).length ≤ size) →
      FwOk enc size all H ⟨H ++ don.flatMap enc, [], acts⟩
  | inside {don : List α} {p : α} {rest : List α} {buf : List U8} {puts : List (List U8)} {acts : List FkAct} :
      (don ++ p :: rest).Sublist all → buf ++ puts.flatten = enc p → (∀ q ∈ p :: rest, (enc q).length ≤ size) →
      FkDoes enc (rest.map .point) acts → FwOk enc size all H ⟨H ++ don.flatMap enc, buf, puts.map .put ++ .flush :: acts⟩
  | before {rest : List α} {puts : List (List U8)} {acts : List FkAct} :
      rest.Sublist all → puts.flatten = [] → (∀ q ∈ rest, (enc q).length ≤ size) →
      FkDoes enc (rest.map .point) acts → FwOk enc size all H ⟨H, [], puts.map .put ++ .flush :: acts⟩

theorem FwOk.norm {α : Type} {enc : α → List U8} {size : Nat} {all : List α} {H : List U8} {s : FwState}
    (h : FwOk enc size all H s) :
    (∃ don : List α, s.out = H ++ don.flatMap enc ∧ s.buf.length ≤ size ∧
      ((don.Sublist all ∧ s.buf = [] ∧ (s.todo = [] ∨ s.todo = [.exit])) ∨
       ∃ (p : α) (rest : List α) (puts : List (List U8)) (acts : List FkAct), (don ++ p :: rest).Sublist all ∧
        s.buf ++ puts.flatten = enc p ∧ (∀ q ∈ p :: rest, (enc q).length ≤ size) ∧ FkDoes enc (rest.map .point) acts ∧
        s.todo = puts.map .put ++ .flush :: acts)) ∨
    ∃ (rest : List α) (puts : List (List U8)) (acts : List FkAct), rest.Sublist all ∧ puts.flatten = [] ∧
      (∀ q ∈ rest, (enc q).length ≤ size) ∧ FkDoes enc (rest.map .point) acts ∧
      s = ⟨H, [], puts.map .put ++ .flush :: acts⟩ := by
  have hlen : ∀ {buf : List U8} {puts : List (List U8)} {p : α}, buf ++ puts.flatten = enc p → (enc p).length ≤ size →
      buf.length ≤ size := by
    intro buf puts p h1 h2
    rw [← h1, List.length_append] at h2
    omega
  cases h with
  | ended h => exact .inl ⟨_, rfl, by simp, .inl ⟨h, rfl, .inl rfl⟩⟩
  | @idle don rest acts h1 h2 h3 =>
    refine .inl ⟨_, rfl, by simp, ?_⟩
    cases rest with
    | nil =>
      cases h2
      exact .inl ⟨by simpa using h1, rfl, .inr rfl⟩
    | cons p rest =>
      cases h2 with
      | point h4 h5 => exact .inr ⟨p, rest, _, _, h1, by simpa using h4, h3, h5, rfl⟩
  | inside h1 h2 h3 h4 => exact .inl ⟨_, rfl, hlen h2 (h3 _ (by simp)), .inr ⟨_, _, _, _, h1, h2, h3, h4, rfl⟩⟩
  | before h1 h2 h3 h4 => exact .inr ⟨_, _, _, h1, h2, h3, h4, rfl⟩

theorem FwOk.step {α : Type} {enc : α → List U8} {size : Nat} {all : List α} {H : List U8} {s : FwState}
    (h : FwOk enc size all H s) (e : FwEvent) (he : e.AllOrNothing size) : FwOk enc size all H (s.step size e) := by
  have hkill : ∀ don : List α, don.Sublist all → FwOk enc size all H ⟨H ++ don.flatMap enc, [], []⟩ := fun _ => .ended
  rcases h.norm with ⟨don, h1, h2, h3⟩ | ⟨rest, puts, acts, h1, h2, h3, h4, rfl⟩
  rotate_left
  · have hidle : FwOk enc size all H ⟨H, [], acts⟩ := by
      have := FwOk.idle (enc := enc) (size := size) (all := all) (H := H) (don := []) (rest := rest) (acts := acts) (by simpa using h1) h4 h3
      simpa using this
    have hput : ∀ b puts', puts = b :: puts' → FwOk enc size all H ⟨H, [] ++ b, puts'.map .put ++ .flush :: acts⟩ := by
      rintro b puts' rfl
      simp only [List.flatten_cons, List.append_eq_nil_iff] at h2
      rw [h2.1]
      exact .before h1 h2.2 h3 h4
    cases e with
    | run =>
      simp only [FwState.step, List.length_nil, Nat.zero_le, if_true]
      cases puts with
      | nil => simpa using hidle
      | cons b puts => exact hput b puts rfl
    | spill k => simpa [FwState.step] using h
    | fail k l =>
      simp only [FwState.step, List.length_nil, Nat.zero_le, if_true]
      cases puts with
      | nil => simpa using hidle
      | cons b puts => exact h
    | kill => simpa [FwState.step] using hkill [] (by simp)
  have hsub : don.Sublist all := by
    rcases h3 with ⟨h, _⟩ | ⟨p, rest, _, _, h, _⟩
    · exact h
    · exact (List.sublist_append_left _ _).trans h
  obtain ⟨out, buf, todo⟩ := s
  simp only at h1 h2 h3
  subst h1
  cases e with
  | run =>
    simp only [FwState.step]
    rw [if_pos h2]
    rcases h3 with ⟨_, rfl, rfl | rfl⟩ | ⟨p, rest, puts, acts, h4, h5, h6, h7, rfl⟩
    · exact h
    · simp only [List.append_nil]; exact .ended hsub
    · cases puts with
      | nil =>
        simp only [List.flatten_nil, List.append_nil] at h5
        simp only [List.map_nil, List.nil_append]
        have := FwOk.idle (enc := enc) (size := size) (all := all) (H := H) (don := don ++ [p]) (rest := rest) (acts := acts)
          (by simpa using h4) h7 (fun q hq => h6 q (by simp [hq]))
        rw [h5]
        simpa using this
      | cons b puts =>
        simp only [List.map_cons, List.cons_append]
        exact .inside h4 (by rw [← h5]; simp) h6 h7
  | spill k =>
    simp only [FwState.step]
    rw [if_pos h2]
    exact h
  | fail k l =>
    obtain ⟨rfl, hl⟩ := he
    simp only [FwState.step]
    rw [if_pos h2]
    have hd : buf.drop (0 + l) = [] := List.drop_eq_nil_of_le (by omega)
    rcases h3 with ⟨_, rfl, rfl | rfl⟩ | ⟨p, rest, puts, acts, h4, h5, h6, h7, rfl⟩
    · exact h
    · simp only [List.take_nil, List.append_nil]; exact .ended hsub
    · cases puts with
      | nil =>
        simp only [List.map_nil, List.nil_append, List.take_zero, List.append_nil, hd]
        refine .idle (rest := rest) (List.Sublist.trans ?_ h4) h7 (fun q hq => h6 q (by simp [hq]))
        exact List.Sublist.append (List.Sublist.refl _) (List.sublist_cons_self _ _)
      | cons b puts => exact h
  | kill => exact .ended hsub

theorem FwOk.run {α : Type} {enc : α → List U8} {size : Nat} {all : List α} {H : List U8} (events : List FwEvent)
    (he : ∀ e ∈ events, e.AllOrNothing size) : ∀ {s : FwState}, FwOk enc size all H s → FwOk enc size all H (s.run size events) := by
  induction events with
  | nil => intro s h; exact h
  | cons e events ih =>
    intro s h
    exact ih (fun e h => he e (by simp [h])) (h.step e (he e (by simp)))

/-! Before the first point is written -/

/-- Parts of the header and of the first point. -/
structure FwFirst (T : List U8) (s : FwState) (acts : List FkAct) : Prop where
  split : ∃ puts : List (List U8), s.todo = puts.map .put ++ .flush :: acts ∧ s.out ++ s.buf ++ puts.flatten = T

theorem FwFirst.step {T : List U8} {s : FwState} {acts : List FkAct} (h : FwFirst T s acts) (size : Nat) (e : FwEvent)
    (he : ¬ e.IsFail) : FwFirst T (s.step size e) acts ∨ s.step size e = ⟨T, [], acts⟩ ∨
      ((s.step size e).out = s.out ∧ (s.step size e).buf = [] ∧ (s.step size e).todo = []) := by
  obtain ⟨out, buf, todo⟩ := s
  obtain ⟨puts, hp, ho⟩ := h.split
  simp only at hp ho
  subst hp
  cases e with
  | run =>
    simp only [FwState.step]
    split
    · cases puts with
      | nil =>
        refine .inr (.inl ?_)
        simp only [List.flatten_nil, List.append_nil] at ho
        simp only [List.map_nil, List.nil_append, ho]
      | cons b puts =>
        refine .inl ⟨puts, rfl, ?_⟩
        rw [← ho]
        simp
    · exact .inl h
  | spill k =>
    simp only [FwState.step]
    split
    · exact .inl h
    · refine .inl ⟨puts, rfl, ?_⟩
      rw [← ho]
      simp only [List.append_assoc]
      rw [← List.append_assoc (buf.take k), List.take_append_drop]
  | fail k l => exact absurd trivial he
  | kill => exact .inr (.inr ⟨rfl, rfl, rfl⟩)

theorem FwFirst.length {T : List U8} {s : FwState} {acts : List FkAct} (h : FwFirst T s acts) : s.out.length ≤ T.length := by
  obtain ⟨puts, _, ho⟩ := h.split
  rw [← ho]
  simp only [List.length_append]
  omega

theorem fw_dead (size : Nat) (events : List FwEvent) : ∀ {s : FwState}, s.buf = [] → s.todo = [] →
    (s.run size events).out = s.out := by
  induction events with
  | nil => intro s _ _; rfl
  | cons e events ih =>
    intro s h1 h2
    have : s.step size e = s := by
      obtain ⟨out, buf, todo⟩ := s
      simp only at h1 h2
      subst h1 h2
      cases e <;> simp [FwState.step]
    show ((s.step size e).run size events).out = _
    rw [this]
    exact ih h1 h2

theorem fw_run {α : Type} {enc : α → List U8} {size : Nat} {T : List U8} {ps : List α} {acts : List FkAct}
    (hd : FkDoes enc (ps.map .point) acts) (hs : ∀ p ∈ ps, (enc p).length ≤ size) (a b : List FwEvent) (ha : ∀ e ∈ a, ¬ e.IsFail)
    (hb : ∀ e ∈ b, e.AllOrNothing size) : ∀ {s : FwState}, FwFirst T s acts → T <+: (s.run size a).out → T ≠ s.out →
      ∃ don : List α, don.Sublist ps ∧ (s.run size (a ++ b)).out = T ++ don.flatMap enc := by
  have finish : ∀ {a : List FwEvent} {s : FwState}, (∀ e ∈ a, ¬ e.IsFail) → FwOk enc size ps T s →
      ∃ don : List α, don.Sublist ps ∧ (s.run size (a ++ b)).out = T ++ don.flatMap enc := by
    intro a s ha hok
    have hok' := hok.run (a ++ b) (by
      intro x hx
      rcases List.mem_append.mp hx with hx | hx
      · have := ha x hx
        cases x with
        | fail k l => exact absurd trivial this
        | run => trivial
        | spill k => trivial
        | kill => trivial
      · exact hb x hx)
    rcases hok'.norm with ⟨don, h1, _, h3⟩ | ⟨rest, puts, acts, h1, h2, h3, h4, h5⟩
    · refine ⟨don, ?_, h1⟩
      rcases h3 with ⟨h, _⟩ | ⟨p, rest, _, _, h, _⟩
      · exact h
      · exact (List.sublist_append_left _ _).trans h
    · exact ⟨[], by simp, by rw [h5]; simp⟩
  induction a with
  | nil =>
    intro s h hT hne
    exfalso
    have h1 := hT.length_le
    have h2 := h.length
    exact hne (hT.eq_of_length (Nat.le_antisymm h1 h2))
  | cons e a ih =>
    intro s h hT hne
    rcases h.step size e (ha e (by simp)) with h' | h' | ⟨h1, h2, h3⟩
    · by_cases hT' : T = (s.step size e).out
      · -- everything is written, only the flush of an empty buffer is left
        obtain ⟨puts, hp, ho⟩ := h'.split
        have hbuf : (s.step size e).buf = [] ∧ puts.flatten = [] := by
          have := congrArg List.length ho
          rw [← hT'] at this
          simp only [List.length_append] at this
          exact ⟨List.eq_nil_of_length_eq_zero (by omega), List.eq_nil_of_length_eq_zero (by omega)⟩
        refine finish (a := a) (s := s.step size e) (fun e h => ha e (by simp [h])) ?_
        have : s.step size e = ⟨T, [], puts.map .put ++ .flush :: acts⟩ := by
          rw [hT', ← hbuf.1, ← hp]
        rw [this]
        exact .before (List.Sublist.refl _) hbuf.2 hs hd
      · exact ih (fun e h => ha e (by simp [h])) h' hT hT'
    · have hok : FwOk enc size ps T (s.step size e) := by
        rw [h']
        have := FwOk.idle (enc := enc) (size := size) (all := ps) (H := T) (don := []) (rest := ps) (acts := acts) (by simp) hd hs
        simpa using this
      exact finish (a := a) (s := s.step size e) (fun e h => ha e (by simp [h])) hok
    · exfalso
      have h4 : (s.run size (e :: a)).out = s.out := by
        show ((s.step size e).run size a).out = _
        rw [fw_dead size a h2 h3, h1]
      rw [h4] at hT
      exact hne (hT.eq_of_length (Nat.le_antisymm hT.length_le h.length))

end TraceDB
