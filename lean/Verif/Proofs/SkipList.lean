import Verif.Model.MemoryMap
/-
Invariant of the skip list and the effect of its operations.
-/
namespace TraceDB
namespace MemMap

/-! ### Views of the heap -/

/-- key, value and array length of a live node -/
def shape (m : MemMap) (p : Ptr) : Option (U64 × U64 × Nat) :=
  (m.heap p).map fun n => (n.key, n.value, n.next.length)

/-- `p->next[i]` when that is defined -/
def nx (m : MemMap) (p : Ptr) (i : Nat) : Option Ptr :=
  (m.heap p).bind fun n => n.next[i]?

def keyOf (m : MemMap) (p : Ptr) : U64 := ((m.shape p).map (·.1)).getD 0
def valOf (m : MemMap) (p : Ptr) : U64 := ((m.shape p).map (·.2.1)).getD 0
/-- highest level of a node -/
def lvl (m : MemMap) (p : Ptr) : Nat := ((m.shape p).map (·.2.2 - 1)).getD 0

theorem nextAt_eq_ok {m : MemMap} {p i q : Nat} : m.nextAt p i = .ok q ↔ m.nx p i = some q := by
  unfold nextAt nx deref
  cases h : m.heap p with
  | none => simp
  | some n =>
    simp
    cases h2 : n.next[i]? <;> simp

theorem deref_of_shape {m : MemMap} {p : Ptr} {s : U64 × U64 × Nat} (h : m.shape p = some s) :
    ∃ n, m.deref p = .ok n ∧ n.key = m.keyOf p ∧ n.value = m.valOf p ∧
      n.next.length = s.2.2 ∧ m.heap p = some n := by
  unfold shape at h
  cases hn : m.heap p with
  | none => simp [hn] at h
  | some n =>
    simp [hn] at h
    subst h
    exact ⟨n, by simp [deref, hn], by simp [keyOf, shape, hn], by simp [valOf, shape, hn], rfl, rfl⟩

theorem setNext_spec {m : MemMap} {p i q : Nat} {s : U64 × U64 × Nat}
    (h : m.shape p = some s) (hi : i < s.2.2) :
    ∃ m', m.setNext p i q = .ok m' ∧ m'.height = m.height ∧ m'.fresh = m.fresh ∧
      (∀ r, m'.shape r = m.shape r) ∧
      (∀ r j, m'.nx r j = if r = p ∧ j = i then some q else m.nx r j) := by
  obtain ⟨n, hd, _, _, hl, hh⟩ := deref_of_shape h
  refine ⟨m.setCell p (some { n with next := n.next.set i q }), ?_, rfl, rfl, ?_, ?_⟩
  · simp [setNext, hd, hl, hi]
  · intro r
    by_cases hr : r = p
    · subst hr; simp [shape, setCell, hh]
    · simp [shape, setCell, hr]
  · intro r j
    by_cases hr : r = p
    · subst hr
      by_cases hj : j = i
      · subst hj
        simp [nx, setCell, hl, hi]
      · simp [nx, setCell, hj, hh, List.getElem?_set, Ne.symm hj]
    · simp [nx, setCell, hr]

/-! ### Chains -/

/-- following `next[i]` from `p` visits `l` and then the head -/
def Linked (m : MemMap) (i : Nat) : Ptr → List Ptr → Prop
  | p, [] => m.nx p i = some 0
  | p, q :: l => m.nx p i = some q ∧ Linked m i q l

theorem Linked.congr {m m' : MemMap} {i : Nat} : ∀ {l : List Ptr} {p : Ptr},
    (∀ q ∈ p :: l, m'.nx q i = m.nx q i) → Linked m i p l → Linked m' i p l
  | [], p, h, hl => by
    simp only [Linked] at *
    rw [h p (by simp)]; exact hl
  | q :: l, p, h, hl => by
    simp only [Linked] at *
    refine ⟨by rw [h p (by simp)]; exact hl.1, Linked.congr (fun r hr => h r ?_) hl.2⟩
    simp at hr ⊢; right; exact hr

theorem Linked.suffix {m : MemMap} {i : Nat} : ∀ {A : List Ptr} {p q : Ptr} {B : List Ptr},
    Linked m i p (A ++ q :: B) → Linked m i q B
  | [], _, _, _, h => h.2
  | _ :: A, _, _, _, h => Linked.suffix (A := A) h.2

theorem getLastD_cons' (a : Ptr) (l : List Ptr) (p : Ptr) :
    (a :: l).getLastD p = l.getLastD a := by
  cases l <;> rfl

theorem Linked.next_last {m : MemMap} {i : Nat} : ∀ {A : List Ptr} {p : Ptr} {B : List Ptr},
    Linked m i p (A ++ B) → m.nx (A.getLastD p) i = some (B.headD 0)
  | [], p, B, h => by
    cases B with
    | nil => exact h
    | cons b B => exact h.1
  | a :: A, p, B, h => by
    rw [getLastD_cons']
    exact Linked.next_last h.2

theorem getLastD_mem_cons : ∀ (l : List Ptr) (p : Ptr), l.getLastD p ∈ p :: l
  | [], p => by simp
  | a :: l, p => by
    rw [getLastD_cons']
    have := getLastD_mem_cons l a
    simp at this ⊢
    right; exact this

/-- Inserting `new` after the last node of `A`. -/
theorem Linked.insert {m m' : MemMap} {i : Nat} {new : Ptr} {B : List Ptr} :
    ∀ {A : List Ptr} {p : Ptr}, Linked m i p (A ++ B) → (p :: (A ++ B)).Nodup →
      new ∉ p :: (A ++ B) →
      (∀ q, m'.nx q i = if q = A.getLastD p then some new
                        else if q = new then m.nx (A.getLastD p) i else m.nx q i) →
      Linked m' i p (A ++ new :: B)
  | [], p, h, hnd, hnew, hm => by
    simp only [List.nil_append] at *
    have hp : new ≠ p := by intro e; apply hnew; simp [e]
    refine ⟨by rw [hm]; simp, ?_⟩
    cases B with
    | nil =>
      simp only [Linked] at *
      rw [hm]; simp [hp, h]
    | cons b B =>
      simp only [Linked] at *
      refine ⟨by rw [hm]; simp [hp, h.1], ?_⟩
      refine Linked.congr ?_ h.2
      intro q hq
      rw [hm]
      have h1 : q ≠ p := by
        intro e; subst e; simp at hnd hq
        rcases hq with hq | hq
        · exact hnd.1.1 hq
        · exact hnd.1.2 hq
      have h2 : q ≠ new := by
        intro e; subst e; apply hnew; simp at hq ⊢; right; exact hq
      simp [h1, h2]
  | a :: A, p, h, hnd, hnew, hm => by
    simp only [List.cons_append, Linked] at *
    have hlast : A.getLastD a ∈ a :: A := getLastD_mem_cons A a
    have hp : p ≠ (a :: A).getLastD p := by
      rw [getLastD_cons']
      intro e
      have : p ∈ a :: A := e ▸ hlast
      simp at this hnd
      rcases this with h | h
      · exact hnd.1.1 h
      · exact hnd.1.2.1 h
    have hpn : p ≠ new := by intro e; apply hnew; simp [e]
    refine ⟨by rw [hm]; simp only [hp, hpn, if_false]; exact h.1, ?_⟩
    refine Linked.insert (A := A) h.2 hnd.of_cons (fun hh => hnew (List.mem_cons_of_mem _ hh)) ?_
    intro q
    rw [hm, getLastD_cons']

/-- Unlinking `c`, which follows the last node of `A`. -/
theorem Linked.unlink {m m' : MemMap} {i : Nat} {c : Ptr} {B : List Ptr} :
    ∀ {A : List Ptr} {p : Ptr}, Linked m i p (A ++ c :: B) → (p :: (A ++ c :: B)).Nodup →
      (∀ q, m'.nx q i = if q = A.getLastD p then m.nx c i else m.nx q i) →
      Linked m' i p (A ++ B)
  | [], p, h, hnd, hm => by
    simp only [List.nil_append, Linked] at *
    cases B with
    | nil =>
      simp only [Linked] at *
      rw [hm]; simp [h.2]
    | cons b B =>
      simp only [Linked] at *
      refine ⟨by rw [hm]; simp [h.2.1], Linked.congr ?_ h.2.2⟩
      intro q hq
      rw [hm]
      have h1 : q ≠ p := by
        intro e; subst e; simp at hnd hq
        rcases hq with hq | hq
        · exact hnd.1.2.1 hq
        · exact hnd.1.2.2 hq
      simp [h1]
  | a :: A, p, h, hnd, hm => by
    simp only [List.cons_append, Linked] at *
    have hlast : A.getLastD a ∈ a :: A := getLastD_mem_cons A a
    have hp : p ≠ (a :: A).getLastD p := by
      rw [getLastD_cons']
      intro e
      have : p ∈ a :: A := e ▸ hlast
      simp at this hnd
      rcases this with h | h
      · exact hnd.1.1 h
      · exact hnd.1.2.1 h
    refine ⟨by rw [hm]; simp only [hp, if_false]; exact h.1, ?_⟩
    refine Linked.unlink (A := A) h.2 hnd.of_cons ?_
    intro q
    rw [hm, getLastD_cons']

/-! ### Walking -/

theorem walk_ok {m : MemMap} {cont : U64 → Bool} {i : Nat} {B : List Ptr}
    (hhead : (m.shape 0).isSome ∧ cont (m.keyOf 0) = false)
    (hB : ∀ q ∈ B, (m.shape q).isSome ∧ cont (m.keyOf q) = false) :
    ∀ (A : List Ptr) (p : Ptr) (fuel : Nat), Linked m i p (A ++ B) →
      (∀ q ∈ A, (m.shape q).isSome ∧ cont (m.keyOf q) = true) → A.length < fuel →
      m.walk cont i fuel p = .ok (A.getLastD p)
  | [], p, fuel, hl, _, hf => by
    obtain ⟨fuel, rfl⟩ : ∃ f, fuel = f + 1 := ⟨fuel - 1, by simp at hf; omega⟩
    have h1 := Linked.next_last (A := []) hl
    simp only [List.getLastD_nil] at h1
    have h2 : (m.shape (B.headD 0)).isSome ∧ cont (m.keyOf (B.headD 0)) = false := by
      cases B with
      | nil => simpa using hhead
      | cons b B => simpa using hB b (by simp)
    obtain ⟨s, hs⟩ := Option.isSome_iff_exists.mp h2.1
    obtain ⟨n, hd, hk, _⟩ := deref_of_shape hs
    simp only [walk, nextAt_eq_ok.mpr h1, Res.ok_bind, hd, hk, h2.2]
    rfl
  | a :: A, p, fuel, hl, hA, hf => by
    obtain ⟨fuel, rfl⟩ : ∃ f, fuel = f + 1 := ⟨fuel - 1, by simp at hf; omega⟩
    have h1 : m.nx p i = some a := hl.1
    have h2 := hA a (by simp)
    obtain ⟨s, hs⟩ := Option.isSome_iff_exists.mp h2.1
    obtain ⟨n, hd, hk, _⟩ := deref_of_shape hs
    have ih := walk_ok hhead hB A a fuel hl.2 (fun q hq => hA q (by simp [hq])) (by simp at hf; omega)
    rw [getLastD_cons']
    simp [walk, nextAt_eq_ok.mpr h1, hd, hk, h2.2, ih]

/-- last node of `A` that has level `i`, or the head -/
def lastAt (m : MemMap) (A : List Ptr) (i : Nat) : Ptr :=
  (A.filter fun p => decide (i ≤ m.lvl p)).getLastD 0

/-- One level of descent. -/
theorem walk_level {m : MemMap} {cont : U64 → Bool} {i : Nat} {A B : List Ptr} {fuel : Nat}
    (hhead : (m.shape 0).isSome ∧ cont (m.keyOf 0) = false)
    (hB : ∀ q ∈ B, (m.shape q).isSome ∧ cont (m.keyOf q) = false)
    (hA : ∀ q ∈ A, (m.shape q).isSome ∧ cont (m.keyOf q) = true)
    (hl : Linked m i 0 ((A ++ B).filter fun p => decide (i ≤ m.lvl p)))
    (hf : A.length < fuel) :
    m.walk cont i fuel (m.lastAt A (i + 1)) = .ok (m.lastAt A i) := by
  rw [List.filter_append] at hl
  have hB' : ∀ q ∈ B.filter (fun p => decide (i ≤ m.lvl p)),
      (m.shape q).isSome ∧ cont (m.keyOf q) = false := fun q hq => hB q ((List.mem_filter.mp hq).1)
  have hA' : ∀ q ∈ A.filter (fun p => decide (i ≤ m.lvl p)),
      (m.shape q).isSome ∧ cont (m.keyOf q) = true := fun q hq => hA q ((List.mem_filter.mp hq).1)
  have hlen : (A.filter (fun p => decide (i ≤ m.lvl p))).length ≤ A.length := List.length_filter_le _ _
  unfold lastAt
  by_cases he : A.filter (fun p => decide (i + 1 ≤ m.lvl p)) = []
  · rw [he]
    exact walk_ok hhead hB' _ _ _ hl hA' (by omega)
  · have hmem : (A.filter (fun p => decide (i + 1 ≤ m.lvl p))).getLastD 0 ∈
        A.filter (fun p => decide (i + 1 ≤ m.lvl p)) := by
      rw [List.getLastD_eq_getLast?, List.getLast?_eq_some_getLast he]
      exact List.getLast_mem he
    generalize (A.filter (fun p => decide (i + 1 ≤ m.lvl p))).getLastD 0 = c at *
    have hc : c ∈ A.filter (fun p => decide (i ≤ m.lvl p)) := by
      simp only [List.mem_filter, decide_eq_true_eq] at hmem ⊢
      exact ⟨hmem.1, by omega⟩
    obtain ⟨X, Y, hXY⟩ := List.append_of_mem hc
    rw [hXY] at hl hA' hlen ⊢
    have hl' : Linked m i c (Y ++ B.filter fun p => decide (i ≤ m.lvl p)) := by
      apply Linked.suffix (A := X) (p := 0)
      simpa using hl
    have := walk_ok hhead hB' Y c fuel hl' (fun q hq => hA' q (by simp [hq]))
      (by simp at hlen; omega)
    rw [this]
    congr 1
    simp [List.getLastD_eq_getLast?, List.getLast?_append, List.getLast?_cons]

/-- The whole descent. -/
theorem descend_ok {m : MemMap} {cont : U64 → Bool} {A B : List Ptr}
    (hhead : (m.shape 0).isSome ∧ cont (m.keyOf 0) = false)
    (hB : ∀ q ∈ B, (m.shape q).isSome ∧ cont (m.keyOf q) = false)
    (hA : ∀ q ∈ A, (m.shape q).isSome ∧ cont (m.keyOf q) = true)
    (hf : A.length < m.walkFuel) :
    ∀ (i : Nat) (upd : List Ptr),
      (∀ j, 1 ≤ j → j ≤ i → Linked m j 0 ((A ++ B).filter fun p => decide (j ≤ m.lvl p))) →
      m.descend cont i (m.lastAt A (i + 1)) upd =
        .ok (m.lastAt A 1, (List.range' 1 i).map (m.lastAt A) ++ upd)
  | 0, upd, _ => by simp [descend]
  | i + 1, upd, hl => by
    have h1 := walk_level hhead hB hA (hl (i + 1) (by omega) (by omega)) hf
    have ih := descend_ok hhead hB hA hf i (m.lastAt A (i + 1) :: upd)
      (fun j h1 h2 => hl j h1 (by omega))
    simp only [descend, h1, Res.ok_bind, ih]
    congr 2
    rw [List.range'_1_concat]
    simp [Nat.add_comm]

end MemMap
end TraceDB
