import Verif.Proofs.VectorRace
/-
C74: readers while traces are being added.
-/
namespace TraceDB

/-- C74 (room): as long as the additions find room in the block, every schedule gives every
reader what it should get: a number between the old one and the new one, or the element with
its index (the assertion fails only for an index that was not there at the start), and every
reader finishes with so many steps of its own. -/
theorem C74_room {α : Type} (grow : Nat → Nat) (m : VMem α) (l adds : List α) (c : Nat) (h : m.Holds l c)
    (hc : (l ++ adds).length ≤ c) (readers : List VReader) (schedule : List Nat) (i : Nat) (rd : VReader)
    (hrd : readers[i]? = some rd) :
    (∀ r, ((VSys.init grow m adds readers).run schedule).outcome i = some r → rd.good l.length (l ++ adds) r) ∧
    (rd.steps ≤ schedule.count (i + 1) →
      ∃ r, ((VSys.init grow m adds readers).run schedule).outcome i = some r) := by
  constructor
  · intro r hr
    obtain ⟨s, _, _, hall⟩ := vgood_run grow (l ++ adds) l.length c m.start.block hc readers schedule
      (VSys.init grow m adds readers) (by simp [VSys.init]) (vgood_init grow m l adds c h readers)
    obtain ⟨p, hp, hsafe⟩ := hall i rd hrd
    simp only [VSys.outcome, hp] at hr
    cases p with
    | done r' => cases hr; exact hsafe
    | act ch nx => simp at hr
  · intro hle
    refine vwithin_run i schedule _ rd.proc (by simp [VSys.init, hrd]) ?_
    have hw := vreader_within (α := α) rd
    obtain ⟨d, hd⟩ := Nat.exists_eq_add_of_le hle
    rw [hd]
    clear hd
    induction d with
    | zero => exact hw
    | succ d ih => exact VWithin.succ _ _ ih

/-- C74 (alone): with nobody looking, additions put the elements at the end of the list,
whether there is room or not. -/
theorem C74_alone {α : Type} (grow : Nat → Nat) (hgrow : ∀ n, n < grow n) (m : VMem α) (l adds : List α) (c : Nat)
    (h : m.Holds l c) (readers : List VReader) :
    ∃ k c', let st := (VSys.init grow m adds readers).run (List.replicate k 0)
      st.writer = .done (.ok ()) ∧ st.mem.Holds (l ++ adds) c' ∧ st.readers = readers.map (·.proc) := by
  obtain ⟨m', c', ⟨k, hk⟩, hh⟩ := pushAllP_goes grow hgrow adds m l c h
  refine ⟨k, c', ?_⟩
  simp only [VSys.init, hk]
  exact ⟨trivial, hh, trivial⟩

/-- C74 (powers of two): with the growth of libstdc++, a database filled from empty is full
(so that what follows applies to the next addition) exactly when the number of its traces is a
power of two. -/
theorem C74_powers_of_two {α : Type} (a : α) (adds : List α) (readers : List VReader) :
    ∃ k c, let st := (VSys.init (fun n => max 1 (2 * n)) VMem.empty (a :: adds) readers).run (List.replicate k 0)
      st.writer = .done (.ok ()) ∧ st.mem.Holds (a :: adds) c ∧
      (c = (a :: adds).length ↔ ∃ j, (a :: adds).length = 2 ^ j) := by
  obtain ⟨m1, c1, hg1, h1, hc1⟩ := pushP_goes (fun n => max 1 (2 * n)) a
    (pushAllP (fun n => max 1 (2 * n)) adds) VMem.empty [] 0
    ⟨rfl, rfl, rfl, Nat.le_refl _, Nat.zero_lt_one, [], rfl, rfl, fun i h => absurd h (Nat.not_lt_zero i)⟩
    (fun n => by omega)
  have hc1' : c1 = 2 ^ 0 := by simpa using hc1
  rw [hc1'] at h1
  obtain ⟨m2, j, hg2, h2, hj⟩ := pushAllP_doubling adds m1 _ 0 h1 (by simp) (by simp)
  obtain ⟨k, hk⟩ := hg1.trans hg2
  refine ⟨k, 2 ^ j, ?_⟩
  simp only [VSys.init, pushAllP, hk]
  refine ⟨trivial, h2, fun e => ⟨j, e.symm⟩, ?_⟩
  rintro ⟨i, hi⟩
  have hroom := h2.room
  have hlen : ([] ++ [a] ++ adds).length = (a :: adds).length := by simp
  rw [hlen, hi] at hj hroom
  rw [hi]
  have h3 : i ≤ j := (Nat.pow_le_pow_iff_right (a := 2) (by omega)).mp hroom
  have h4 : j < i + 1 := by
    refine (Nat.pow_lt_pow_iff_right (a := 2) (by omega)).mp ?_
    rw [Nat.pow_succ]; omega
  have : j = i := by omega
  rw [this]

/-- C74 (dangling): one addition to a full vector suffices to take the trace away from any
thread that looks at any trace. -/
theorem C74_dangling {α : Type} (grow : Nat → Nat) (hgrow : ∀ n, n < grow n) (m : VMem α) (l : List α) (a : α)
    (adds : List α) (h : m.Holds l l.length) (readers : List VReader) (i idx k : Nat)
    (hrd : readers[i]? = some (.use idx k)) (hidx : idx < l.length) :
    ∃ schedule, ((VSys.init grow m (a :: adds) readers).run schedule).outcome i = some (.ub .dangling) := by
  have hr : (readers.map (VReader.proc (α := α)))[i]? = some (useP idx k) := by simp [hrd, VReader.proc]
  obtain ⟨rs', hrun, hrs'⟩ := use_reference m l _ h (pushAllP grow (a :: adds)) _ i idx k hr hidx
  obtain ⟨m', t, ⟨n, hn⟩, hfree, _⟩ := pushP_full grow a (pushAllP grow adds) m l h (hgrow _)
  refine ⟨[i + 1, i + 1, i + 1] ++ (List.replicate n 0 ++ [i + 1]), ?_⟩
  simp only [VSys.init]
  rw [vrun_append, hrun, vrun_append, pushAllP, hn]
  exact lookP_freed _ _ _ i _ k hrs' hfree

/-- C74 (number): and to make the number of traces the difference of pointers that have nothing
to do with each other. -/
theorem C74_number {α : Type} (grow : Nat → Nat) (hgrow : ∀ n, n < grow n) (m : VMem α) (l : List α) (a : α)
    (adds : List α) (h : m.Holds l l.length) (readers : List VReader) (i : Nat)
    (hrd : readers[i]? = some .count) :
    ∃ schedule, ((VSys.init grow m (a :: adds) readers).run schedule).outcome i = some (.ub .misuse) := by
  have hr : (readers.map (VReader.proc (α := α)))[i]? = some countP := by simp [hrd, VReader.proc]
  have hi : i < (readers.map (VReader.proc (α := α))).length := (List.getElem?_eq_some_iff.mp hr).1
  obtain ⟨m', t, hg, _, _⟩ := pushP_full grow a (pushAllP grow adds) m l h (hgrow _)
  obtain ⟨n, hn⟩ := hg.trans (tailP_goes _ _ _ _ _)
  refine ⟨[i + 1] ++ (List.replicate n 0 ++ [i + 1]), ?_⟩
  simp only [VSys.init]
  rw [vrun_append, reader_act _ _ _ i _ _ hr, vrun_append, id_eq, pushAllP, hn,
    reader_act _ _ _ i _ _ (List.getElem?_set_self hi)]
  have hb : m.finish.block ≠ m.next := by
    have := h.known
    rw [h.finish]
    exact Nat.ne_of_lt this
  simp only [hb, if_false, VSys.outcome, List.set_set]
  rw [List.getElem?_set_self hi]

/-! ### Examples -/

/-- A vector of three in a block of four. -/
def exVec : VMem Nat :=
  ⟨fun b => if b = 5 then some [some 10, some 11, some 12, none] else none, 6, ⟨5, 0⟩, ⟨5, 3⟩, ⟨5, 4⟩⟩

theorem exVec_holds : exVec.Holds [10, 11, 12] 4 :=
  ⟨rfl, rfl, rfl, by decide, by decide, [some 10, some 11, some 12, none], rfl, rfl, by decide⟩

/-- A full one. -/
def exFull : VMem Nat :=
  ⟨fun b => if b = 5 then some [some 10, some 11] else none, 6, ⟨5, 0⟩, ⟨5, 2⟩, ⟨5, 2⟩⟩

theorem exFull_holds : exFull.Holds [10, 11] 2 :=
  ⟨rfl, rfl, rfl, by decide, by decide, [some 10, some 11], rfl, rfl, by decide⟩

/-- The hypotheses of `C74_room`, and an interleaving: the number is read between the
construction and the move of the end, the new element is seen by one who asks later. -/
example : exVec.Holds [10, 11, 12] 4 ∧ ([10, 11, 12] ++ [13]).length ≤ 4 ∧
    let st := (VSys.init (· * 2) exVec [13] [.count, .use 3 0]).run [0, 1, 0, 2, 0, 1, 2]
    st.outcome 0 = some (.ok (.number 3)) ∧ st.outcome 1 = some .abort := by
  exact ⟨exVec_holds, by decide, by decide +kernel, by decide +kernel⟩

example : ((VSys.init (· * 2) exVec [13] [.count, .use 3 0]).run [0, 1, 0, 0, 2, 1, 2, 2, 2]).outcome 1
    = some (.ok (.elem 13)) := by decide +kernel

/-- The hypotheses of `C74_dangling` and `C74_number`, and the schedules. -/
example : exFull.Holds [10, 11] [10, 11].length ∧ (∀ n, n < n * 2 + 1) ∧
    ((VSys.init (· * 2 + 1) exFull [12] [.use 0 0]).run ([1, 1, 1] ++ List.replicate 8 0 ++ [1])).outcome 0
      = some (.ub .dangling) ∧
    ((VSys.init (· * 2 + 1) exFull [12] [.count]).run ([1] ++ List.replicate 9 0 ++ [1])).outcome 0
      = some (.ub .misuse) := by
  exact ⟨exFull_holds, fun n => by omega, by decide +kernel, by decide +kernel⟩

/-- `C74_alone` from the empty database: three additions, three blocks. -/
example : (VMem.empty (α := Nat)).Holds [] 0 ∧
    let st := (VSys.init (fun n => max 1 (n * 2)) (VMem.empty (α := Nat)) [7, 8, 9] []).run (List.replicate 40 0)
    st.mem.start = ⟨3, 0⟩ ∧ st.mem.finish = ⟨3, 3⟩ ∧ st.mem.cap = ⟨3, 4⟩ ∧
    st.mem.block 3 = some [some 7, some 8, some 9, none] ∧ st.mem.block 2 = none := by
  refine ⟨⟨rfl, rfl, rfl, by decide, by decide, [], rfl, rfl, by decide⟩, ?_⟩
  decide +kernel

end TraceDB
