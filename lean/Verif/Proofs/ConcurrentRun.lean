import Verif.Proofs.Concurrent
/-
Invariants of threads that add traces.
-/
namespace TraceDB

theorem set_lookup {α : Type} {l : List α} {i : Nat} {x : α} (h : l[i]? = some x) (y : α) (k : Nat) :
    (l.set i y)[k]? = if i = k then some y else l[k]? := by
  rw [List.getElem?_set]
  by_cases e : i = k
  · subst e
    simp [(List.getElem?_eq_some_iff.mp h).1]
  · simp [e]

theorem filterMap_congr' {α β : Type} {f g : α → Option β} {l : List α} (h : ∀ a ∈ l, f a = g a) :
    l.filterMap f = l.filterMap g := by
  induction l with
  | nil => rfl
  | cons a l ih =>
    rw [List.filterMap_cons, List.filterMap_cons, h a (by simp), ih fun b hb => h b (by simp [hb])]

/-! Each thread's own work -/

/-- Invariant of one thread. -/
def Thread.Good (R : Trace → Trace → Prop) (j : Job) : Thread → Prop
  | .reading p => ∃ s, j.source = some s ∧ Proc.Refines R p (readTrace j.env j.maxPoints s)
  | .locking t => ∃ s t', j.source = some s ∧ readTrace j.env j.maxPoints s = .ok t' ∧ R t t'
  | .pushing t => ∃ s t', j.source = some s ∧ readTrace j.env j.maxPoints s = .ok t' ∧ R t t'
  | .writing t _ => ∃ s t', j.source = some s ∧ readTrace j.env j.maxPoints s = .ok t' ∧ R t t'
  | .unlocking t => ∃ s t', j.source = some s ∧ readTrace j.env j.maxPoints s = .ok t' ∧ R t t'
  | th => th.Agrees R j

theorem Thread.Good.agrees {R : Trace → Trace → Prop} {j : Job} {th : Thread} (h : th.Good R j) : th.Agrees R j := by
  cases th <;> first | trivial | exact h

/-- All threads are good. -/
def AddSys.Good (jobs : List Job) (st : AddSys) : Prop :=
  ∀ (i : Nat) (j : Job) (th : Thread), jobs[i]? = some j → st.threads[i]? = some th → th.Good SameButAux j

theorem init_good (aux : U64) (db : Db) (jobs : List Job) : (AddSys.init aux db jobs).Good jobs := by
  intro i j th hj hth
  simp only [AddSys.init, List.getElem?_map, hj, Option.map_some, Option.some.injEq] at hth
  subst hth
  unfold Job.start
  cases hs : j.source with
  | none => exact Or.inl hs
  | some s => exact ⟨s, hs, readTraceP_refines j.env j.maxPoints s⟩

theorem step_good (grow : Nat → Nat) (jobs : List Job) (st : AddSys) (i : Nat) (h : st.Good jobs) :
    (st.step grow i).Good jobs := by
  have key : ∀ (th th' : Thread), st.threads[i]? = some th →
      (∀ j, th.Good SameButAux j → th'.Good SameButAux j) →
      ∀ (k : Nat) (j : Job) (x : Thread), jobs[k]? = some j → (st.threads.set i th')[k]? = some x →
        x.Good SameButAux j := by
    intro th th' hth himp k j x hj hx
    rw [set_lookup hth] at hx
    by_cases e : i = k
    · subst e
      simp only [if_true, Option.some.injEq] at hx
      subst hx
      exact himp j (h i j th hj hth)
    · simp only [e, if_false] at hx
      exact h k j x hj hx
  unfold AddSys.step
  split
  · exact h
  · rename_i hth
    exact key _ _ hth fun j hg => by
      obtain ⟨s, hs, hr⟩ := hg
      exact ⟨s, hs, fun r hr' => hr r (.store hr')⟩
  · rename_i hth
    exact key _ _ hth fun j hg => by
      obtain ⟨s, hs, hr⟩ := hg
      exact ⟨s, hs, fun r hr' => hr r (.load hr')⟩
  · rename_i t hth
    exact key _ _ hth fun j hg => by
      obtain ⟨s, hs, hr⟩ := hg
      have := hr _ .done
      cases ht : readTrace j.env j.maxPoints s <;> rw [ht] at this <;> simp only [Res.Rel] at this
      exact ⟨s, _, hs, ht, this⟩
  · rename_i e hth
    exact key _ _ hth fun j hg => by
      obtain ⟨s, hs, hr⟩ := hg
      have := hr _ .done
      cases ht : readTrace j.env j.maxPoints s <;> rw [ht] at this <;> simp only [Res.Rel] at this
      exact Or.inr ⟨s, _, hs, ht⟩
  · rename_i r hno1 hno2 hth
    exact key _ _ hth fun j hg => by
      obtain ⟨s, hs, hr⟩ := hg
      have := hr _ .done
      refine ⟨s, hs, ?_⟩
      cases r with
      | ok t => exact absurd rfl (hno1 t)
      | throw e => exact absurd rfl (hno2 e)
      | abort =>
        left
        cases ht : readTrace j.env j.maxPoints s <;> rw [ht] at this <;> simp only [Res.Rel] at this <;> rfl
      | ub k =>
        right; right
        cases ht : readTrace j.env j.maxPoints s <;> rw [ht] at this <;> simp only [Res.Rel] at this
        exact ⟨_, rfl⟩
      | hang =>
        right; left
        cases ht : readTrace j.env j.maxPoints s <;> rw [ht] at this <;> simp only [Res.Rel] at this <;> rfl
  · rename_i t hth
    split
    · exact key _ _ hth fun j hg => hg
    · exact h
  · rename_i t hth
    exact key _ _ hth fun j hg => hg
  · rename_i t sn hth
    exact key _ _ hth fun j hg => hg
  · rename_i t hth
    exact key _ _ hth fun j hg => hg
  · exact h
  · exact h

theorem run_good (grow : Nat → Nat) (jobs : List Job) (st : AddSys) (schedule : List Nat) (h : st.Good jobs) :
    (st.run grow schedule).Good jobs := by
  unfold AddSys.run
  induction schedule generalizing st with
  | nil => exact h
  | cons i is ih => exact ih _ (step_good grow jobs st i h)

/-! The database -/

/-- The thread holds the mutex. -/
def Thread.holds : Thread → Bool
  | .pushing _ => true
  | .writing _ _ => true
  | .unlocking _ => true
  | _ => false

/-- What thread `i` has stored. -/
def AddSys.storedAt (st : AddSys) (i : Nat) : Option Trace := (st.threads[i]?).bind Thread.stored

/-- Invariant of the mutex and the database. -/
structure AddSys.Ok (db0 : Db) (st : AddSys) : Prop where
  holder : ∀ (i : Nat) (th : Thread), st.threads[i]? = some th → th.holds = true → st.lock = some i
  held : ∀ i, st.lock = some i → ∃ th : Thread, st.threads[i]? = some th ∧ th.holds = true
  snapshot : ∀ (i : Nat) (t : Trace) (sn : Db), st.threads[i]? = some (.writing t sn) → sn = st.db
  order : ∃ order : List Nat, order.Nodup ∧ (∀ i, i ∈ order ↔ (st.storedAt i).isSome) ∧
    st.db.traces = db0.traces ++ order.filterMap st.storedAt

theorem init_ok (aux : U64) (db : Db) (jobs : List Job) : (AddSys.init aux db jobs).Ok db := by
  have hst : ∀ (i : Nat) (th : Thread), (AddSys.init aux db jobs).threads[i]? = some th →
      th.holds = false ∧ th.stored = none ∧ ∀ t sn, th ≠ .writing t sn := by
    intro i th hth
    simp only [AddSys.init, List.getElem?_map, Option.map_eq_some_iff] at hth
    obtain ⟨j, _, rfl⟩ := hth
    unfold Job.start
    cases j.source <;> exact ⟨rfl, rfl, fun _ _ => by simp⟩
  refine ⟨fun i th hth hh => ?_, fun i h => by simp [AddSys.init] at h, fun i t sn hth => ?_,
    [], List.nodup_nil, fun i => ?_, by simp [AddSys.init]⟩
  · rw [(hst i th hth).1] at hh; simp at hh
  · exact absurd rfl ((hst i _ hth).2.2 t sn)
  · unfold AddSys.storedAt
    cases hth : (AddSys.init aux db jobs).threads[i]? with
    | none => simp
    | some th => simp [(hst i th hth).2.1]

/-- A step of a thread that neither holds nor takes the mutex and stores nothing. -/
theorem ok_local {db0 : Db} {st : AddSys} {i : Nat} {th th' : Thread} (aux : U64) (h : st.Ok db0)
    (hth : st.threads[i]? = some th) (h1 : th.holds = false) (h2 : th'.holds = false)
    (h3 : th'.stored = th.stored) :
    AddSys.Ok db0 { st with aux := aux, threads := st.threads.set i th' } := by
  have hst : ∀ k, AddSys.storedAt { st with aux := aux, threads := st.threads.set i th' } k = st.storedAt k := by
    intro k
    unfold AddSys.storedAt
    simp only [set_lookup hth]
    by_cases e : i = k
    · subst e; simp [hth, h3]
    · simp [e]
  refine ⟨fun k x hx hh => ?_, fun k hk => ?_, fun k t sn hx => ?_, ?_⟩
  · simp only [set_lookup hth] at hx
    by_cases e : i = k
    · simp only [e, if_true, Option.some.injEq] at hx
      subst hx
      rw [h2] at hh; simp at hh
    · simp only [e, if_false] at hx
      exact h.holder k x hx hh
  · obtain ⟨x, hx, hh⟩ := h.held k hk
    refine ⟨x, ?_, hh⟩
    simp only [set_lookup hth]
    by_cases e : i = k
    · subst e
      rw [hth] at hx
      cases hx
      rw [h1] at hh; simp at hh
    · simp [e, hx]
  · simp only [set_lookup hth] at hx
    by_cases e : i = k
    · simp only [e, if_true, Option.some.injEq] at hx
      subst hx
      simp [Thread.holds] at h2
    · simp only [e, if_false] at hx
      exact h.snapshot k t sn hx
  · obtain ⟨order, hn, hm, ht⟩ := h.order
    refine ⟨order, hn, fun k => by rw [hst k]; exact hm k, ?_⟩
    rw [show AddSys.storedAt { st with aux := aux, threads := st.threads.set i th' } = st.storedAt from funext hst]
    exact ht

theorem step_ok (grow : Nat → Nat) (db0 : Db) (st : AddSys) (i : Nat) (h : st.Ok db0) : (st.step grow i).Ok db0 := by
  unfold AddSys.step
  split
  · exact h
  · rename_i hth
    exact ok_local _ h hth rfl rfl rfl
  · rename_i hth
    exact ok_local st.aux h hth rfl rfl rfl
  · rename_i hth
    exact ok_local st.aux h hth rfl rfl rfl
  · rename_i hth
    exact ok_local st.aux h hth rfl rfl rfl
  · rename_i hth
    exact ok_local st.aux h hth rfl rfl rfl
  · rename_i t hth
    split
    · -- the mutex is taken
      rename_i hfree
      have hno : ∀ (k : Nat) (x : Thread), st.threads[k]? = some x → x.holds = false := by
        intro k x hx
        cases hh : x.holds with
        | false => rfl
        | true => rw [h.holder k x hx hh] at hfree; simp at hfree
      have hst : ∀ k, AddSys.storedAt { st with lock := some i, threads := st.threads.set i (.pushing t) } k =
          st.storedAt k := by
        intro k
        unfold AddSys.storedAt
        simp only [set_lookup hth]
        by_cases e : i = k
        · subst e; simp [hth, Thread.stored]
        · simp [e]
      refine ⟨fun k x hx hh => ?_, fun k hk => ?_, fun k t' sn hx => ?_, ?_⟩
      · simp only [set_lookup hth] at hx
        by_cases e : i = k
        · rw [e]
        · simp only [e, if_false] at hx
          rw [hno k x hx] at hh; simp at hh
      · simp only [Option.some.injEq] at hk
        subst hk
        exact ⟨.pushing t, by simp [set_lookup hth], rfl⟩
      · simp only [set_lookup hth] at hx
        by_cases e : i = k
        · simp [e] at hx
        · simp only [e, if_false] at hx
          exact h.snapshot k t' sn hx
      · obtain ⟨order, hn, hm, ht⟩ := h.order
        refine ⟨order, hn, fun k => by rw [hst k]; exact hm k, ?_⟩
        rw [show AddSys.storedAt { st with lock := some i, threads := st.threads.set i (.pushing t) } = st.storedAt
          from funext hst]
        exact ht
    · exact h
  · rename_i t hth
    have hst : ∀ k, AddSys.storedAt { st with threads := st.threads.set i (.writing t st.db) } k = st.storedAt k := by
      intro k
      unfold AddSys.storedAt
      simp only [set_lookup hth]
      by_cases e : i = k
      · subst e; simp [hth, Thread.stored]
      · simp [e]
    refine ⟨fun k x hx hh => ?_, fun k hk => ?_, fun k t' sn hx => ?_, ?_⟩
    · simp only [set_lookup hth] at hx
      by_cases e : i = k
      · subst e; exact h.holder i _ hth rfl
      · simp only [e, if_false] at hx
        exact h.holder k x hx hh
    · obtain ⟨x, hx, hh⟩ := h.held k hk
      by_cases e : i = k
      · subst e; exact ⟨.writing t st.db, by simp [set_lookup hth], rfl⟩
      · exact ⟨x, by simp [set_lookup hth, e, hx], hh⟩
    · simp only [set_lookup hth] at hx
      by_cases e : i = k
      · simp only [e, if_true, Option.some.injEq, Thread.writing.injEq] at hx
        exact hx.2.symm
      · simp only [e, if_false] at hx
        exact h.snapshot k t' sn hx
    · obtain ⟨order, hn, hm, ht⟩ := h.order
      refine ⟨order, hn, fun k => by rw [hst k]; exact hm k, ?_⟩
      rw [show AddSys.storedAt { st with threads := st.threads.set i (.writing t st.db) } = st.storedAt
        from funext hst]
      exact ht
  · -- the vector is written back
    rename_i t sn hth
    have hsn : sn = st.db := h.snapshot i t sn hth
    subst hsn
    have hlock : st.lock = some i := h.holder i _ hth rfl
    have hst : ∀ k, AddSys.storedAt { st with db := st.db.addTrace grow t, threads := st.threads.set i (.unlocking t) } k =
        if i = k then some t else st.storedAt k := by
      intro k
      unfold AddSys.storedAt
      simp only [set_lookup hth]
      by_cases e : i = k
      · subst e; simp [Thread.stored]
      · simp [e]
    refine ⟨fun k x hx hh => ?_, fun k hk => ?_, fun k t' sn hx => ?_, ?_⟩
    · simp only [set_lookup hth] at hx
      by_cases e : i = k
      · subst e; exact hlock
      · simp only [e, if_false] at hx
        exact h.holder k x hx hh
    · obtain ⟨x, hx, hh⟩ := h.held k hk
      by_cases e : i = k
      · subst e; exact ⟨.unlocking t, by simp [set_lookup hth], rfl⟩
      · exact ⟨x, by simp [set_lookup hth, e, hx], hh⟩
    · simp only [set_lookup hth] at hx
      by_cases e : i = k
      · simp [e] at hx
      · simp only [e, if_false] at hx
        have := h.holder k _ hx rfl
        rw [hlock] at this
        exact absurd (Option.some.inj this) e
    · obtain ⟨order, hn, hm, ht⟩ := h.order
      have hi : i ∉ order := by
        intro hi
        have := (hm i).1 hi
        simp [AddSys.storedAt, hth, Thread.stored] at this
      refine ⟨order ++ [i], ?_, fun k => ?_, ?_⟩
      · rw [List.nodup_append]
        refine ⟨hn, by simp, fun a ha b hb hab => ?_⟩
        simp only [List.mem_singleton] at hb
        subst hab; subst hb
        exact hi ha
      · rw [hst k, List.mem_append, hm k, List.mem_singleton]
        by_cases e : i = k
        · simp [e]
        · have e' : k ≠ i := fun e' => e e'.symm
          simp [e, e']
      · simp only [addTrace_traces, ht]
        rw [List.filterMap_append, List.append_assoc]
        congr 1
        congr 1
        · apply filterMap_congr'
          intro k hk
          have : i ≠ k := fun e => hi (e ▸ hk)
          rw [hst k, if_neg this]
        · simp [hst i]
  · -- the mutex is released
    rename_i t hth
    have hlock : st.lock = some i := h.holder i _ hth rfl
    have hst : ∀ k, AddSys.storedAt { st with lock := none, threads := st.threads.set i (.returned (some t)) } k =
        st.storedAt k := by
      intro k
      unfold AddSys.storedAt
      simp only [set_lookup hth]
      by_cases e : i = k
      · subst e; simp [hth, Thread.stored]
      · simp [e]
    refine ⟨fun k x hx hh => ?_, fun k hk => by simp at hk, fun k t' sn hx => ?_, ?_⟩
    · simp only [set_lookup hth] at hx
      by_cases e : i = k
      · simp only [e, if_true, Option.some.injEq] at hx
        subst hx
        simp [Thread.holds] at hh
      · simp only [e, if_false] at hx
        have := h.holder k x hx hh
        rw [hlock] at this
        exact absurd (Option.some.inj this) e
    · simp only [set_lookup hth] at hx
      by_cases e : i = k
      · simp [e] at hx
      · simp only [e, if_false] at hx
        exact h.snapshot k t' sn hx
    · obtain ⟨order, hn, hm, ht⟩ := h.order
      refine ⟨order, hn, fun k => by rw [hst k]; exact hm k, ?_⟩
      rw [show AddSys.storedAt { st with lock := none, threads := st.threads.set i (.returned (some t)) } = st.storedAt
        from funext hst]
      exact ht
  · exact h
  · exact h

theorem run_ok (grow : Nat → Nat) (db0 : Db) (st : AddSys) (schedule : List Nat) (h : st.Ok db0) :
    (st.run grow schedule).Ok db0 := by
  unfold AddSys.run
  induction schedule generalizing st with
  | nil => exact h
  | cons i is ih => exact ih _ (step_ok grow db0 st i h)

theorem run_length (grow : Nat → Nat) (st : AddSys) (schedule : List Nat) :
    (st.run grow schedule).threads.length = st.threads.length := by
  unfold AddSys.run
  induction schedule generalizing st with
  | nil => rfl
  | cons i is ih =>
    rw [List.foldl_cons, ih]
    unfold AddSys.step
    split <;> try simp
    split <;> simp

/-! Every thread can end -/

theorem run_append (grow : Nat → Nat) (st : AddSys) (a b : List Nat) :
    st.run grow (a ++ b) = (st.run grow a).run grow b := by
  unfold AddSys.run
  exact List.foldl_append

/-- Thread `i` has ended, the mutex is free, and the other threads are where they
were. -/
def FinishedFrom (st st' : AddSys) (i : Nat) : Prop :=
  (∃ th : Thread, st'.threads[i]? = some th ∧ th.Ended) ∧ st'.lock = none ∧
    ∀ k, k ≠ i → st'.threads[k]? = st.threads[k]?

theorem finish_next (grow : Nat → Nat) {st : AddSys} {i : Nat} {th' : Thread} {st1 : AddSys} {x : Thread}
    (h0 : st.threads[i]? = some x) (h1 : st.step grow i = st1) (h2 : st1.threads = st.threads.set i th')
    (h3 : ∃ sched, FinishedFrom st1 (st1.run grow sched) i) : ∃ sched, FinishedFrom st (st.run grow sched) i := by
  obtain ⟨sched, he, hl, ho⟩ := h3
  refine ⟨i :: sched, ?_, ?_, fun k hk => ?_⟩
  · show ∃ th, ((st.step grow i).run grow sched).threads[i]? = some th ∧ _
    rw [h1]; exact he
  · show ((st.step grow i).run grow sched).lock = none
    rw [h1]; exact hl
  · show ((st.step grow i).run grow sched).threads[k]? = _
    rw [h1, ho k hk, h2, set_lookup h0, if_neg (fun e => hk e.symm)]

theorem finish_unlocking (grow : Nat → Nat) (st : AddSys) (i : Nat) (t : Trace)
    (h : st.threads[i]? = some (.unlocking t)) : ∃ sched, FinishedFrom st (st.run grow sched) i := by
  refine finish_next grow h (th' := .returned (some t))
    (st1 := { st with lock := none, threads := st.threads.set i (.returned (some t)) }) (by unfold AddSys.step; rw [h]) rfl
    ⟨[], ?_, rfl, fun _ _ => rfl⟩
  exact ⟨.returned (some t), by simp [AddSys.run, set_lookup h], trivial⟩

theorem finish_writing (grow : Nat → Nat) (st : AddSys) (i : Nat) (t : Trace) (sn : Db)
    (h : st.threads[i]? = some (.writing t sn)) : ∃ sched, FinishedFrom st (st.run grow sched) i := by
  refine finish_next grow h (th' := .unlocking t)
    (st1 := { st with db := sn.addTrace grow t, threads := st.threads.set i (.unlocking t) }) (by unfold AddSys.step; rw [h]) rfl
    (finish_unlocking grow _ i t ?_)
  simp [set_lookup h]

theorem finish_pushing (grow : Nat → Nat) (st : AddSys) (i : Nat) (t : Trace)
    (h : st.threads[i]? = some (.pushing t)) : ∃ sched, FinishedFrom st (st.run grow sched) i := by
  refine finish_next grow h (th' := .writing t st.db)
    (st1 := { st with threads := st.threads.set i (.writing t st.db) }) (by unfold AddSys.step; rw [h]) rfl
    (finish_writing grow _ i t st.db ?_)
  simp [set_lookup h]

theorem finish_locking (grow : Nat → Nat) (st : AddSys) (i : Nat) (t : Trace)
    (h : st.threads[i]? = some (.locking t)) (hl : st.lock = none) :
    ∃ sched, FinishedFrom st (st.run grow sched) i := by
  refine finish_next grow h (th' := .pushing t)
    (st1 := { st with lock := some i, threads := st.threads.set i (.pushing t) })
    (by unfold AddSys.step; rw [h]; simp [hl]) rfl (finish_pushing grow _ i t ?_)
  simp [set_lookup h]

theorem finish_reading (grow : Nat → Nat) (p : Proc Trace) (st : AddSys) (i : Nat)
    (h : st.threads[i]? = some (.reading p)) (hl : st.lock = none) :
    ∃ sched, FinishedFrom st (st.run grow sched) i := by
  induction p generalizing st with
  | done r =>
    have crash : ∀ th' : Thread, th'.Ended → st.step grow i = { st with threads := st.threads.set i th' } →
        ∃ sched, FinishedFrom st (st.run grow sched) i := by
      intro th' he e
      refine finish_next grow h (th' := th') e rfl ⟨[], ?_, hl, fun _ _ => rfl⟩
      exact ⟨th', by simp [AddSys.run, set_lookup h], he⟩
    cases r with
    | ok t =>
      refine finish_next grow h (th' := .locking t)
        (st1 := { st with threads := st.threads.set i (.locking t) }) (by unfold AddSys.step; rw [h]) rfl
        (finish_locking grow _ i t ?_ hl)
      simp [set_lookup h]
    | throw e => exact crash (.returned none) trivial (by unfold AddSys.step; rw [h])
    | abort => exact crash .crashed trivial (by unfold AddSys.step; rw [h])
    | ub k => exact crash .crashed trivial (by unfold AddSys.step; rw [h])
    | hang => exact crash .crashed trivial (by unfold AddSys.step; rw [h])
  | store got k ih =>
    refine finish_next grow h (th' := .reading k)
      (st1 := { st with aux := storeBytes st.aux got, threads := st.threads.set i (.reading k) }) (by unfold AddSys.step; rw [h]) rfl (ih _ ?_ hl)
    simp [set_lookup h]
  | load k ih =>
    refine finish_next grow h (th' := .reading (k st.aux))
      (st1 := { st with threads := st.threads.set i (.reading (k st.aux)) }) (by unfold AddSys.step; rw [h]) rfl (ih st.aux _ ?_ hl)
    simp [set_lookup h]

/-- A thread that exists can end when nobody else holds the mutex. -/
theorem finish_thread (grow : Nat → Nat) (db0 : Db) (st : AddSys) (hok : st.Ok db0) (i : Nat)
    (hi : i < st.threads.length) (hl : st.lock = none ∨ st.lock = some i) :
    ∃ sched, FinishedFrom st (st.run grow sched) i := by
  obtain ⟨th, h⟩ : ∃ th, st.threads[i]? = some th := ⟨_, List.getElem?_eq_getElem hi⟩
  have hfree : th.holds = false → st.lock = none := by
    intro hh
    rcases hl with hl | hl
    · exact hl
    · obtain ⟨x, hx, hh'⟩ := hok.held i hl
      rw [h] at hx
      cases hx
      rw [hh] at hh'; simp at hh'
  cases th with
  | reading p => exact finish_reading grow p st i h (hfree rfl)
  | locking t => exact finish_locking grow st i t h (hfree rfl)
  | pushing t => exact finish_pushing grow st i t h
  | writing t sn => exact finish_writing grow st i t sn h
  | unlocking t => exact finish_unlocking grow st i t h
  | returned r => exact ⟨[], ⟨_, h, trivial⟩, hfree rfl, fun _ _ => rfl⟩
  | crashed => exact ⟨[], ⟨_, h, trivial⟩, hfree rfl, fun _ _ => rfl⟩

/-- All threads can end. -/
theorem finish_all (grow : Nat → Nat) (db0 : Db) (st : AddSys) (hok : st.Ok db0) :
    ∃ sched, ∀ (i : Nat) (th : Thread), (st.run grow sched).threads[i]? = some th → th.Ended := by
  -- the holder of the mutex first
  have h1 : ∃ sched, (st.run grow sched).lock = none := by
    cases hl : st.lock with
    | none => exact ⟨[], hl⟩
    | some i =>
      obtain ⟨th, hth, _⟩ := hok.held i hl
      obtain ⟨sched, _, h, _⟩ := finish_thread grow db0 st hok i (List.getElem?_eq_some_iff.mp hth).1 (Or.inr hl)
      exact ⟨sched, h⟩
  obtain ⟨s1, hl1⟩ := h1
  -- then one after the other
  have h2 : ∀ n, n ≤ st.threads.length → ∃ sched, (st.run grow sched).lock = none ∧
      ∀ (i : Nat) (th : Thread), i < n → (st.run grow sched).threads[i]? = some th → th.Ended := by
    intro n
    induction n with
    | zero => exact fun _ => ⟨s1, hl1, fun i th hi => absurd hi (by omega)⟩
    | succ n ih =>
      intro hn
      obtain ⟨s, hl, he⟩ := ih (by omega)
      have hok' := run_ok grow db0 st s hok
      obtain ⟨s', ⟨th, hth, hend⟩, hl', ho⟩ := finish_thread grow db0 (st.run grow s) hok' n
        (by rw [run_length]; omega) (Or.inl hl)
      refine ⟨s ++ s', by rw [run_append]; exact hl', fun i x hi hx => ?_⟩
      rw [run_append] at hx
      by_cases e : i = n
      · subst e
        rw [hth] at hx
        cases hx
        exact hend
      · rw [ho i e] at hx
        exact he i x (by omega) hx
  obtain ⟨sched, _, he⟩ := h2 st.threads.length (Nat.le_refl _)
  refine ⟨sched, fun i th hth => he i th ?_ hth⟩
  have := (List.getElem?_eq_some_iff.mp hth).1
  rw [run_length] at this
  exact this

/-! One thread alone -/

/-- Invariant of the only thread. -/
def Thread.Exact (aux : U64) (j : Job) : Thread → Prop
  | .reading p => ∃ s, j.source = some s ∧ (p.alone aux).1 = readTrace j.env j.maxPoints s
  | .locking t => ∃ s t', j.source = some s ∧ readTrace j.env j.maxPoints s = .ok t' ∧ t = t'
  | .pushing t => ∃ s t', j.source = some s ∧ readTrace j.env j.maxPoints s = .ok t' ∧ t = t'
  | .writing t _ => ∃ s t', j.source = some s ∧ readTrace j.env j.maxPoints s = .ok t' ∧ t = t'
  | .unlocking t => ∃ s t', j.source = some s ∧ readTrace j.env j.maxPoints s = .ok t' ∧ t = t'
  | th => th.Agrees Eq j

theorem Thread.Exact.agrees {aux : U64} {j : Job} {th : Thread} (h : th.Exact aux j) : th.Agrees Eq j := by
  cases th <;> first | trivial | exact h

/-- The only thread is exact. -/
def AddSys.Exact (j : Job) (st : AddSys) : Prop := ∃ th, st.threads = [th] ∧ th.Exact st.aux j

theorem step_exact (grow : Nat → Nat) (j : Job) (st : AddSys) (i : Nat) (h : st.Exact j) :
    (st.step grow i).Exact j := by
  obtain ⟨th, hth, hex⟩ := h
  cases i with
  | succ n =>
    unfold AddSys.step
    rw [hth]
    exact ⟨th, hth, hex⟩
  | zero =>
    unfold AddSys.step
    rw [hth]
    cases th with
    | reading p =>
      obtain ⟨s, hs, he⟩ := hex
      cases p with
      | done r =>
        simp only [Proc.alone] at he
        cases r with
        | ok t => exact ⟨_, rfl, s, t, hs, he.symm, rfl⟩
        | throw e => exact ⟨_, rfl, Or.inr ⟨s, e, hs, he.symm⟩⟩
        | abort => exact ⟨_, rfl, s, hs, Or.inl he.symm⟩
        | ub k => exact ⟨_, rfl, s, hs, Or.inr (Or.inr ⟨k, he.symm⟩)⟩
        | hang => exact ⟨_, rfl, s, hs, Or.inr (Or.inl he.symm)⟩
      | store got k => exact ⟨_, rfl, s, hs, he⟩
      | load k => exact ⟨_, rfl, s, hs, he⟩
    | locking t =>
      simp only [List.getElem?_cons_zero]
      split
      · exact ⟨_, rfl, hex⟩
      · exact ⟨_, hth, hex⟩
    | pushing t => exact ⟨_, rfl, hex⟩
    | writing t sn => exact ⟨_, rfl, hex⟩
    | unlocking t => exact ⟨_, rfl, hex⟩
    | returned r => exact ⟨_, hth, hex⟩
    | crashed => exact ⟨_, hth, hex⟩

theorem run_exact (grow : Nat → Nat) (j : Job) (st : AddSys) (schedule : List Nat) (h : st.Exact j) :
    (st.run grow schedule).Exact j := by
  unfold AddSys.run
  induction schedule generalizing st with
  | nil => exact h
  | cons i is ih => exact ih _ (step_exact grow j st i h)

theorem init_exact (aux : U64) (db : Db) (j : Job) : (AddSys.init aux db [j]).Exact j := by
  refine ⟨j.start, rfl, ?_⟩
  unfold Job.start
  cases hs : j.source with
  | none => exact Or.inl hs
  | some s => exact ⟨s, hs, readTraceP_alone j.env j.maxPoints s aux⟩

/-! Statements for the properties -/

theorem AddSys.Ok.stored {db0 : Db} {st : AddSys} (h : st.Ok db0) :
    ∃ stored : List (Nat × Trace), (stored.map Prod.fst).Nodup ∧
      (∀ i t, (i, t) ∈ stored ↔ ∃ th, st.threads[i]? = some th ∧ th.stored = some t) ∧
      st.db.traces = db0.traces ++ stored.map Prod.snd := by
  obtain ⟨order, hn, hm, ht⟩ := h.order
  have hfst : ∀ l : List Nat, (∀ i ∈ l, (st.storedAt i).isSome) →
      (l.filterMap fun i => (st.storedAt i).map (i, ·)).map Prod.fst = l := by
    intro l hl
    induction l with
    | nil => rfl
    | cons i l ih =>
      obtain ⟨t, ht⟩ := Option.isSome_iff_exists.mp (hl i (by simp))
      simp [List.filterMap_cons, ht, ih fun k hk => hl k (by simp [hk])]
  have hsnd : ∀ l : List Nat,
      (l.filterMap fun i => (st.storedAt i).map (i, ·)).map Prod.snd = l.filterMap st.storedAt := by
    intro l
    induction l with
    | nil => rfl
    | cons i l ih => cases hs : st.storedAt i <;> simp [List.filterMap_cons, hs, ih]
  refine ⟨order.filterMap fun i => (st.storedAt i).map (i, ·), ?_, fun i t => ?_, ?_⟩
  · rw [hfst order fun i hi => (hm i).1 hi]; exact hn
  · have hat : (∃ th, st.threads[i]? = some th ∧ th.stored = some t) ↔ st.storedAt i = some t := by
      unfold AddSys.storedAt
      cases st.threads[i]? <;> simp
    rw [hat, List.mem_filterMap]
    constructor
    · rintro ⟨k, _, hk⟩
      simp only [Option.map_eq_some_iff, Prod.mk.injEq] at hk
      obtain ⟨t', h1, rfl, rfl⟩ := hk
      exact h1
    · intro hs
      exact ⟨i, (hm i).2 (by rw [hs]; rfl), by simp [hs]⟩
  · rw [hsnd]; exact ht

theorem sameButAux_eq {t t' : Trace} (h : SameButAux t t') (hno : ∀ p ∈ t'.points, p.aux = []) : t = t' := by
  obtain ⟨n, ty, ps⟩ := t
  obtain ⟨n', ty', ps'⟩ := t'
  obtain ⟨h1, h2, h3⟩ := h
  simp only at h1 h2 h3 hno
  subst h1; subst h2
  congr 1
  induction ps generalizing ps' with
  | nil => cases ps' <;> simp_all
  | cons p ps ih =>
    cases ps' with
    | nil => simp at h3
    | cons p' ps' =>
      simp only [List.map_cons, List.cons.injEq] at h3
      have hp' := hno p' (by simp)
      rw [ih ps' (fun q hq => hno q (by simp [hq])) h3.2]
      congr 1
      obtain ⟨c, s, z, v, a⟩ := p
      obtain ⟨c', s', z', v', a'⟩ := p'
      simp only [Point.forgetAux, Point.mk.injEq] at h3 hp'
      obtain ⟨⟨e1, e2, e3, e4, e5⟩, _⟩ := h3
      subst e1; subst e2; subst e3; subst e4; subst hp'
      cases a with
      | nil => rfl
      | cons _ _ => simp at e5

end TraceDB
