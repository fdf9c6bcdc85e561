import Verif.Spec.DataRace
import Verif.Proofs.ConcurrentQueryApart
/-
Threads that use maps: a race can be reached exactly if two threads that run alone use the
same map and one changes it.
-/
namespace TraceDB

@[simp] theorem RProc.pure_eq {α : Type} (a : α) : (pure a : RProc α) = .done (.ok a) := rfl
@[simp] theorem RProc.ok_bind {α β : Type} (a : α) (f : α → RProc β) : (RProc.done (.ok a) >>= f) = f a := rfl
@[simp] theorem RProc.act_bind {α β : Type} (m : MapRef) (w : QShared → Bool) (c : QShared → QShared)
    (n : QShared → RProc α) (f : α → RProc β) :
    (RProc.act m w c n >>= f) = .act m w c fun s => n s >>= f := rfl

/-- The map has the same contents in both states. -/
def MapRef.Same : MapRef → QShared → QShared → Prop
  | .points i, s, s' => s.points i = s'.points i
  | .answers, s, s' => s.answers = s'.answers

theorem MapRef.Same.refl (m : MapRef) (s : QShared) : m.Same s s := by cases m <;> rfl
theorem MapRef.Same.symm {m : MapRef} {s t : QShared} (h : m.Same s t) : m.Same t s := by
  cases m <;> exact Eq.symm h
theorem MapRef.Same.trans {m : MapRef} {s t u : QShared} (h : m.Same s t) (h' : m.Same t u) : m.Same s u := by
  cases m <;> exact Eq.trans h h'

/-- Every step uses only the map it says, and changes it only if it says so. -/
def RProc.Honest {α : Type} : RProc α → Prop
  | .done _ => True
  | .act m w c n =>
    (∀ s s', m.Same s s' → w s = w s' ∧ m.Same (c s) (c s') ∧ n s = n s') ∧
    (∀ s m', m' ≠ m → m'.Same (c s) s) ∧ (∀ s, w s = false → c s = s) ∧ ∀ s, (n s).Honest

theorem RProc.Honest.bind {α β : Type} {p : RProc α} {f : α → RProc β} (h : p.Honest) (hf : ∀ a, (f a).Honest) :
    (p >>= f).Honest := by
  induction p with
  | done r => cases r <;> first | exact hf _ | trivial
  | act m w c n ih =>
    refine ⟨fun s s' e => ?_, h.2.1, h.2.2.1, fun s => ih s (h.2.2.2 s)⟩
    have := h.1 s s' e
    exact ⟨this.1, this.2.1, by show (n s).bind f = (n s').bind f; rw [this.2.2]⟩

/-- The maps a thread uses when it runs alone, and whether it changes them. -/
def RProc.trail {α : Type} : RProc α → QShared → List (MapRef × Bool)
  | .done _, _ => []
  | .act m w c n, s => (m, w s) :: (n s).trail (c s)

/-- `n` steps of a thread alone. -/
def RProc.after {α : Type} : Nat → RProc α → QShared → RProc α × QShared
  | 0, p, s => (p, s)
  | _ + 1, .done r, s => (.done r, s)
  | k + 1, .act _ _ c n, s => (n s).after k (c s)

theorem RProc.after_succ {α : Type} (n : Nat) (p : RProc α) (s : QShared) :
    p.after (n + 1) s = match (p.after n s).1 with
      | .done r => (.done r, (p.after n s).2)
      | .act _ _ c k => (k (p.after n s).2, c (p.after n s).2) := by
  induction n generalizing p s with
  | zero => cases p <;> rfl
  | succ n ih =>
    cases p with
    | done r => rfl
    | act m w c k => exact ih (k s) (c s)

theorem RProc.trail_after {α : Type} (n : Nat) (p : RProc α) (s : QShared) :
    (p.after n s).1.trail (p.after n s).2 = (p.trail s).drop n := by
  induction n generalizing p s with
  | zero => rfl
  | succ n ih =>
    cases p with
    | done r => rfl
    | act m w c k => exact ih (k s) (c s)

theorem RProc.Honest.after {α : Type} {p : RProc α} (h : p.Honest) (n : Nat) (s : QShared) : (p.after n s).1.Honest := by
  induction n generalizing p s with
  | zero => exact h
  | succ n ih =>
    cases p with
    | done r => trivial
    | act m w c k => exact ih (h.2.2.2 s) (c s)

/-- A map that a thread does not change. -/
theorem RProc.Honest.frame {α : Type} {p : RProc α} (h : p.Honest) (n : Nat) (s : QShared) (m : MapRef)
    (hm : (m, true) ∉ (p.trail s).take n) : m.Same (p.after n s).2 s := by
  induction n generalizing p s with
  | zero => exact .refl ..
  | succ n ih =>
    cases p with
    | done r => exact .refl ..
    | act m' w c k =>
      simp only [RProc.trail, List.take_succ_cons, List.mem_cons, not_or, Prod.mk.injEq, not_and, Bool.not_eq_true] at hm
      refine (ih (h.2.2.2 s) (c s) hm.2).trans ?_
      by_cases e : m = m'
      · rw [h.2.2.1 s (by cases hw : w s; rfl; exact absurd hw.symm (hm.1 e))]
        exact .refl ..
      · exact h.2.1 s m e

/-- A thread does the same in states that agree on the maps it uses. -/
theorem RProc.Honest.follow {α : Type} {p : RProc α} (h : p.Honest) (n : Nat) (s s' : QShared) (A : MapRef → Prop)
    (huse : ∀ x ∈ p.trail s, A x.1) (hag : ∀ m, A m → m.Same s s') :
    (p.after n s).1 = (p.after n s').1 ∧ ∀ m, A m → m.Same (p.after n s).2 (p.after n s').2 := by
  induction n generalizing p s s' with
  | zero => exact ⟨rfl, hag⟩
  | succ n ih =>
    cases p with
    | done r => exact ⟨rfl, hag⟩
    | act m w c k =>
      have hm : A m := huse _ List.mem_cons_self
      have h1 := h.1 s s' (hag m hm)
      have := ih (h.2.2.2 s) (c s) (c s') (fun x hx => huse x (List.mem_cons_of_mem _ hx)) (fun m' hm' => by
        by_cases e : m' = m
        · subst e; exact h1.2.1
        · exact ((h.2.1 s m' e).trans (hag m' hm')).trans (h.2.1 s' m' e).symm)
      simp only [RProc.after]
      rw [← h1.2.2]
      exact this

theorem RProc.of_trail {α : Type} {p : RProc α} {s : QShared} {m : MapRef} {b : Bool} {T : List (MapRef × Bool)}
    (h : p.trail s = (m, b) :: T) : ∃ w c k, p = .act m w c k ∧ w s = b := by
  cases p with
  | done r => simp [RProc.trail] at h
  | act m' w c k =>
    simp only [RProc.trail, List.cons.injEq, Prod.mk.injEq] at h
    exact ⟨w, c, k, by rw [h.1.1], h.1.2⟩

/-- The first element with a property. -/
theorem exists_first {α : Type} (P : α → Prop) {l : List α} {x : α} (hx : x ∈ l) (hp : P x) :
    ∃ l1 y l2, l = l1 ++ y :: l2 ∧ P y ∧ ∀ z ∈ l1, ¬ P z := by
  induction l with
  | nil => simp at hx
  | cons a l ih =>
    by_cases ha : P a
    · exact ⟨[], a, l, rfl, ha, by simp⟩
    · have : x ∈ l := by
        rcases List.mem_cons.mp hx with rfl | h
        · exact absurd hp ha
        · exact h
      obtain ⟨l1, y, l2, h1, h2, h3⟩ := ih this
      refine ⟨a :: l1, y, l2, by rw [h1]; rfl, h2, ?_⟩
      intro z hz
      rcases List.mem_cons.mp hz with rfl | h
      · exact ha
      · exact h3 z h

theorem rrun_append (st : RSys) (a b : List Nat) : st.run (a ++ b) = (st.run a).run b := by
  unfold RSys.run; rw [List.foldl_append]

theorem rrun_replicate (st : RSys) (i n : Nat) (p : RProc (List Point)) (hp : st.threads[i]? = some p) :
    st.run (List.replicate n i) =
      { shared := (p.after n st.shared).2, threads := st.threads.set i (p.after n st.shared).1 } := by
  induction n generalizing st p with
  | zero =>
    simp only [RProc.after, List.replicate_zero, RSys.run, List.foldl_nil]
    have : st.threads.set i p = st.threads := by
      obtain ⟨h, rfl⟩ := List.getElem?_eq_some_iff.mp hp
      exact List.set_getElem_self h
    rw [this]
  | succ n ih =>
    rw [List.replicate_succ]
    show (st.step i).run (List.replicate n i) = _
    cases p with
    | done r =>
      have : st.step i = st := by simp [RSys.step, hp]
      rw [this, ih st _ hp]
      cases n <;> rfl
    | act m w c k =>
      have hst : st.step i = { shared := c st.shared, threads := st.threads.set i (k st.shared) } := by
        simp [RSys.step, hp]
      rw [hst, ih _ (k st.shared)]
      · simp [RProc.after]
      · show (st.threads.set i (k st.shared))[i]? = _
        rw [set_lookup hp]; simp

/-- Two threads that run alone use the same map and one of them changes it. -/
def RSys.Clash (st : RSys) : Prop :=
  ∃ (i k : Nat) (p q : RProc (List Point)) (m : MapRef) (w : Bool), i ≠ k ∧ st.threads[i]? = some p ∧
    st.threads[k]? = some q ∧ (m, true) ∈ p.trail st.shared ∧ (m, w) ∈ q.trail st.shared

theorem race_of_clash (st : RSys) (hh : ∀ (i : Nat) p, st.threads[i]? = some p → p.Honest) (h : st.Clash) :
    ∃ schedule, (st.run schedule).Race := by
  obtain ⟨i, k, p, q, m, w, hne, hi, hk, hp, hq⟩ := h
  -- the first change of `p` to a map that `q` uses
  obtain ⟨T1, ⟨m1, b1⟩, T2, hT, ⟨hb1, w1, hm1⟩, hfirst⟩ :=
    exists_first (fun x : MapRef × Bool => x.2 = true ∧ ∃ w, (x.1, w) ∈ q.trail st.shared) hp ⟨rfl, w, hq⟩
  simp only at hb1 hm1
  subst hb1
  -- the first use of that map by `q`
  obtain ⟨U1, ⟨m2, b2⟩, U2, hU, he, hfirst2⟩ :=
    exists_first (fun x : MapRef × Bool => x.1 = m1) hm1 rfl
  simp only at he
  subst he
  refine ⟨List.replicate T1.length i ++ List.replicate U1.length k, ?_⟩
  rw [rrun_append, rrun_replicate st i _ p hi]
  have hk' : (st.threads.set i (p.after T1.length st.shared).1)[k]? = some q := by
    rw [set_lookup hi, if_neg hne]; exact hk
  rw [rrun_replicate _ k _ q hk']
  simp only
  have hph := hh i p hi
  have hqh := hh k q hk
  -- the states before and after the steps of `p` agree on what `q` uses
  have hag : ∀ m, (∃ w, (m, w) ∈ q.trail st.shared) → m.Same st.shared (p.after T1.length st.shared).2 := by
    rintro m' ⟨w', hm'⟩
    refine (hph.frame _ _ _ ?_).symm
    rw [hT, List.take_left]
    intro hin
    exact hfirst _ hin ⟨rfl, w', hm'⟩
  have hfollow := hqh.follow U1.length st.shared (p.after T1.length st.shared).2
    (fun m => ∃ w, (m, w) ∈ q.trail st.shared) (fun x hx => ⟨x.2, hx⟩) hag
  -- what `q` is about to do
  have hq1 := RProc.trail_after U1.length q st.shared
  rw [hU, List.drop_left] at hq1
  obtain ⟨wq, cq, kq, hqeq, hwq⟩ := RProc.of_trail hq1
  rw [hfollow.1] at hqeq
  -- what `p` is about to do
  have hp1 := RProc.trail_after T1.length p st.shared
  rw [hT, List.drop_left] at hp1
  obtain ⟨wp, cp, kp, hpeq, hwp⟩ := RProc.of_trail hp1
  -- `q` has not touched the map in question
  have hsame : m2.Same (q.after U1.length (p.after T1.length st.shared).2).2 (p.after T1.length st.shared).2 := by
    have h1 : m2.Same (q.after U1.length st.shared).2 st.shared := by
      refine hqh.frame _ _ _ ?_
      rw [hU, List.take_left]
      intro hin
      exact hfirst2 _ hin rfl
    exact ((hfollow.2 m2 ⟨w1, hm1⟩).symm.trans h1).trans (hag m2 ⟨w1, hm1⟩)
  have hact := (hph.after T1.length st.shared)
  rw [hpeq] at hact
  have hwp' := (hact.1 _ _ hsame).1
  rw [hwp] at hwp'
  have hlook : (st.threads.set i (p.after T1.length st.shared).1)[i]? = some (p.after T1.length st.shared).1 := by
    rw [set_lookup hi, if_pos rfl]
  refine ⟨i, k, m2, wq (q.after U1.length (p.after T1.length st.shared).2).2, hne, ?_, ?_⟩
  · unfold RSys.about
    simp only
    rw [set_lookup hk', if_neg (Ne.symm hne), hlook, hpeq]
    simp only [hwp']
  · unfold RSys.about
    simp only
    rw [set_lookup hk', if_pos rfl, hqeq]

/-- Without such threads every thread does what it does alone. -/
theorem no_race (st : RSys) (hh : ∀ (i : Nat) p, st.threads[i]? = some p → p.Honest) (h : ¬ st.Clash)
    (schedule : List Nat) :
    (∃ count : Nat → Nat, ∀ (i : Nat) p, st.threads[i]? = some p →
      (st.run schedule).threads[i]? = some (p.after (count i) st.shared).1 ∧
      ∀ x ∈ p.trail st.shared, x.1.Same (st.run schedule).shared (p.after (count i) st.shared).2) ∧
    (∀ i : Nat, st.threads[i]? = none → (st.run schedule).threads[i]? = none) := by
  generalize hn : schedule.length = n
  induction n generalizing schedule with
  | zero =>
    obtain rfl := List.length_eq_zero_iff.mp hn
    exact ⟨⟨fun _ => 0, fun i p hi => ⟨hi, fun _ _ => .refl ..⟩⟩, fun i hi => hi⟩
  | succ n ih =>
    obtain ⟨init, j, rfl⟩ : ∃ init j, schedule = init ++ [j] := by
      cases hs : schedule.reverse with
      | nil => simp at hs; subst hs; simp at hn
      | cons j r =>
        refine ⟨r.reverse, j, ?_⟩
        have := congrArg List.reverse hs
        simpa using this
    obtain ⟨⟨count, hc⟩, hnone⟩ := ih init (by simpa using hn)
    rw [rrun_append]
    generalize hst : st.run init = st1 at hc hnone
    show (∃ count : Nat → Nat, ∀ (i : Nat) p, st.threads[i]? = some p →
      (st1.step j).threads[i]? = some (p.after (count i) st.shared).1 ∧
      ∀ x ∈ p.trail st.shared, x.1.Same (st1.step j).shared (p.after (count i) st.shared).2) ∧
      (∀ i : Nat, st.threads[i]? = none → (st1.step j).threads[i]? = none)
    cases hj : st.threads[j]? with
    | none =>
      have : st1.step j = st1 := by simp [RSys.step, hnone j hj]
      rw [this]
      exact ⟨⟨count, hc⟩, hnone⟩
    | some p =>
      obtain ⟨h1, h2⟩ := hc j p hj
      cases hp : (p.after (count j) st.shared).1 with
      | done r =>
        have : st1.step j = st1 := by simp [RSys.step, h1, hp]
        rw [this]
        exact ⟨⟨count, hc⟩, hnone⟩
      | act m w c k =>
        have hstep : st1.step j = { shared := c st1.shared, threads := st1.threads.set j (k st1.shared) } := by
          simp [RSys.step, h1, hp]
        have htr := RProc.trail_after (count j) p st.shared
        rw [hp] at htr
        simp only [RProc.trail] at htr
        have hmem : (m, w (p.after (count j) st.shared).2) ∈ p.trail st.shared :=
          List.mem_of_mem_drop (by rw [← htr]; exact List.mem_cons_self)
        have hsame := h2 _ hmem
        simp only at hsame
        have hhon := (hh j p hj).after (count j) st.shared
        rw [hp] at hhon
        have ha := hhon.1 _ _ hsame
        have hnext := RProc.after_succ (count j) p st.shared
        rw [hp] at hnext
        simp only at hnext
        rw [hstep]
        refine ⟨⟨fun i => if i = j then count j + 1 else count i, fun i q hi => ?_⟩, ?_⟩
        · by_cases e : i = j
          · subst e
            rw [hj] at hi
            cases hi
            simp only [if_true, hnext]
            refine ⟨?_, fun x hx => ?_⟩
            · show (st1.threads.set i (k st1.shared))[i]? = _
              rw [set_lookup h1, if_pos rfl, ha.2.2]
            · by_cases em : x.1 = m
              · rw [em]; exact ha.2.1
              · exact ((hhon.2.1 _ _ em).trans (h2 x hx)).trans (hhon.2.1 _ _ em).symm
          · simp only [e, if_false]
            obtain ⟨g1, g2⟩ := hc i q hi
            refine ⟨?_, fun x hx => ?_⟩
            · show (st1.threads.set j (k st1.shared))[i]? = _
              rw [set_lookup h1, if_neg (Ne.symm e)]
              exact g1
            · refine MapRef.Same.trans ?_ (g2 x hx)
              cases hw : w st1.shared with
              | false => rw [hhon.2.2.1 _ hw]; exact .refl ..
              | true =>
                have em : x.1 ≠ m := by
                  intro em
                  refine h ⟨j, i, p, q, m, x.2, Ne.symm e, hj, hi, ?_, ?_⟩
                  · rw [← ha.1, hw] at hmem
                    exact hmem
                  · rw [← em]
                    exact hx
                exact hhon.2.1 _ _ em
        · intro i hi
          have e : i ≠ j := by rintro rfl; rw [hj] at hi; cases hi
          show (st1.threads.set j (k st1.shared))[i]? = _
          rw [set_lookup h1, if_neg (Ne.symm e)]
          exact hnone i hi

theorem no_race_without_clash (st : RSys) (hh : ∀ (i : Nat) p, st.threads[i]? = some p → p.Honest) (h : ¬ st.Clash)
    (schedule : List Nat) : ¬ (st.run schedule).Race := by
  rintro ⟨i, k, m, w, hne, hi, hk⟩
  obtain ⟨⟨count, hc⟩, hnone⟩ := no_race st hh h schedule
  have key : ∀ i m w, (st.run schedule).about i = some (m, w) →
      ∃ p, st.threads[i]? = some p ∧ (m, w) ∈ p.trail st.shared := by
    intro i m w hi
    cases hp : st.threads[i]? with
    | none =>
      have := hnone i hp
      simp [RSys.about, this] at hi
    | some p =>
      obtain ⟨h1, h2⟩ := hc i p hp
      refine ⟨p, rfl, ?_⟩
      unfold RSys.about at hi
      rw [h1] at hi
      split at hi
      · rename_i m' w' c k' he
        simp only [Option.some.injEq, Prod.mk.injEq] at hi he
        have htr := RProc.trail_after (count i) p st.shared
        rw [he] at htr
        simp only [RProc.trail] at htr
        have hmem : (m', w' (p.after (count i) st.shared).2) ∈ p.trail st.shared :=
          List.mem_of_mem_drop (by rw [← htr]; exact List.mem_cons_self)
        have hhon := (hh i p hp).after (count i) st.shared
        rw [he] at hhon
        have := (hhon.1 _ _ (h2 _ hmem)).1
        rw [← this, hi.2, hi.1] at hmem
        exact hmem
      · cases hi
  obtain ⟨p, hp, h1⟩ := key i m true hi
  obtain ⟨q, hq, h2⟩ := key k m w hk
  exact h ⟨i, k, p, q, m, w, hne, hp, hq, h1, h2⟩

end TraceDB
