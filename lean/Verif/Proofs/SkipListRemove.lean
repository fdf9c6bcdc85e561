import Verif.Proofs.SkipListOps
/-
Removal, value update and destruction of the skip list.
-/
namespace TraceDB
namespace MemMap

theorem filter_lvl_cons_gt {m : MemMap} {A B : List Ptr} {c j : Nat} (h : m.lvl c < j) :
    (A ++ c :: B).filter (fun p => decide (j ≤ m.lvl p)) =
      (A ++ B).filter (fun p => decide (j ≤ m.lvl p)) := by
  have : ¬ j ≤ m.lvl c := by omega
  simp [this]

theorem lastAt_shape {m : MemMap} {A : List Ptr} {i : Nat}
    (hhead : ∃ v, m.shape 0 = some (u64Max, v, skipListMaxHeight + 1))
    (hA : ∀ p ∈ A, ∃ k v l, m.shape p = some (k, v, l) ∧ 2 ≤ l) (hi : i ≤ skipListMaxHeight) :
    ∃ s, m.shape (m.lastAt A i) = some s ∧ i < s.2.2 := by
  obtain ⟨vh, hvh⟩ := hhead
  by_cases hz : m.lastAt A i = 0
  · rw [hz]; exact ⟨_, hvh, by simp; omega⟩
  · have hm : m.lastAt A i ∈ 0 :: A := lastAt_mem
    simp [hz] at hm
    obtain ⟨k, v, l, hsq, hl⟩ := hA _ hm
    have := lastAt_lvl hz
    rw [lvl_of_shape hsq] at this
    exact ⟨_, hsq, by simp; omega⟩

theorem unlink_spec {m0 : MemMap} {A B : List Ptr} {c : Nat}
    (hhead : ∃ v, m0.shape 0 = some (u64Max, v, skipListMaxHeight + 1))
    (hnodes : ∀ p ∈ A ++ c :: B, ∃ k v l, m0.shape p = some (k, v, l) ∧ 2 ≤ l)
    (hnd : (0 :: (A ++ c :: B)).Nodup)
    (hlink : ∀ j, 1 ≤ j → j ≤ skipListMaxHeight →
      Linked m0 j 0 ((A ++ c :: B).filter fun p => decide (j ≤ m0.lvl p))) :
    ∀ (n i : Nat) (m : MemMap), 1 ≤ i → i + n ≤ skipListMaxHeight + 1 →
      m0.lvl c < i + n → m.height = m0.height → m.fresh = m0.fresh →
      (∀ r, m.shape r = m0.shape r) →
      (∀ r j, i ≤ j → m.nx r j = m0.nx r j) →
      (∀ j, 1 ≤ j → j < i →
        Linked m j 0 ((A ++ B).filter fun p => decide (j ≤ m0.lvl p))) →
      ∃ m', MemMap.unlink c ((List.range' i n).map (m0.lastAt A)) i m = .ok m' ∧
        m'.height = m0.height ∧ m'.fresh = m0.fresh ∧ (∀ r, m'.shape r = m0.shape r) ∧
        (∀ j, 1 ≤ j → j ≤ skipListMaxHeight →
          Linked m' j 0 ((A ++ B).filter fun p => decide (j ≤ m0.lvl p)))
  | 0, i, m, hi, hin, hlc, hh, hf, hs, hnx, hdone => by
    refine ⟨m, by simp [MemMap.unlink], hh, hf, hs, ?_⟩
    intro j h1 h2
    by_cases hj : j < i
    · exact hdone j h1 hj
    · rw [← filter_lvl_cons_gt (c := c) (show m0.lvl c < j by omega)]
      exact Linked.congr (fun q _ => hnx q j (by omega)) (hlink j h1 h2)
  | n + 1, i, m, hi, hin, hlc, hh, hf, hs, hnx, hdone => by
    obtain ⟨s, hss, hsl⟩ := lastAt_shape (A := A) (i := i) hhead (fun p hp => hnodes p (by simp [hp])) (by omega)
    have hch : Linked m i 0 ((A ++ c :: B).filter fun p => decide (i ≤ m0.lvl p)) :=
      Linked.congr (fun q _ => hnx q i (by omega)) (hlink i hi (by omega))
    rw [List.filter_append] at hch
    have hcur : m.nx (m0.lastAt A i) i = _ := hch.next_last
    by_cases hle : i ≤ m0.lvl c
    · have hcc : (c :: B).filter (fun p => decide (i ≤ m0.lvl p)) =
          c :: B.filter (fun p => decide (i ≤ m0.lvl p)) := by simp [hle]
      rw [hcc] at hcur hch
      simp only [List.headD_cons] at hcur
      have hc2 : m.nx c i = some ((B.filter fun p => decide (i ≤ m0.lvl p)).headD 0) := by
        have := Linked.suffix hch
        exact Linked.next_last (A := []) this
      obtain ⟨m1, h1, h1h, h1f, h1s, h1n⟩ := setNext_spec (m := m)
        (q := (B.filter fun p => decide (i ≤ m0.lvl p)).headD 0) (by rw [hs]; exact hss) hsl
      obtain ⟨m', hm', r1, r2, r3, r4⟩ := unlink_spec hhead hnodes hnd hlink n (i + 1) m1 (by omega) (by omega)
        (by omega) (by rw [h1h, hh]) (by rw [h1f, hf]) (fun r => by rw [h1s, hs])
        (by
          intro r j hj
          rw [h1n]
          have : j ≠ i := by omega
          simp [this]
          exact hnx r j (by omega))
        (by
          intro j hj1 hj2
          by_cases hj : j = i
          · subst hj
            rw [List.filter_append]
            have hsub : List.Sublist (0 :: (A.filter (fun p => decide (j ≤ m0.lvl p)) ++
                c :: B.filter (fun p => decide (j ≤ m0.lvl p)))) (0 :: (A ++ c :: B)) := by
              apply List.Sublist.cons_cons
              exact List.filter_sublist.append (List.Sublist.cons_cons _ List.filter_sublist)
            refine Linked.unlink hch (hsub.nodup hnd) ?_
            intro q
            have hla : (A.filter fun p => decide (j ≤ m0.lvl p)).getLastD 0 = m0.lastAt A j := rfl
            rw [h1n, hla, hc2]
            by_cases hq : q = m0.lastAt A j
            · simp [hq]
            · simp [hq]
          · refine Linked.congr ?_ (hdone j hj1 (by omega))
            intro q _
            rw [h1n]
            simp [hj])
      refine ⟨m', ?_, r1, r2, r3, r4⟩
      rw [List.range'_succ, List.map_cons]
      simp only [MemMap.unlink, nextAt_eq_ok.mpr hcur, Res.ok_bind, ne_eq, not_true_eq_false, if_false,
        nextAt_eq_ok.mpr hc2, h1, hm']
    · have hcc : (c :: B).filter (fun p => decide (i ≤ m0.lvl p)) =
          B.filter (fun p => decide (i ≤ m0.lvl p)) := by simp [hle]
      rw [hcc] at hcur
      have hne : (B.filter (fun p => decide (i ≤ m0.lvl p))).headD 0 ≠ c := by
        have hc0 : 0 ≠ c := by
          intro e
          rw [List.nodup_cons] at hnd
          apply hnd.1; simp [e]
        have hcB : c ∉ B := by
          rw [List.nodup_cons, List.nodup_append, List.nodup_cons] at hnd
          exact hnd.2.2.1.1
        cases hB : B.filter (fun p => decide (i ≤ m0.lvl p)) with
        | nil => simpa using hc0
        | cons b l =>
          have : b ∈ B.filter (fun p => decide (i ≤ m0.lvl p)) := by rw [hB]; simp
          simp only [List.headD_cons]
          intro e
          exact hcB (e ▸ (List.mem_filter.mp this).1)
      refine ⟨m, ?_, hh, hf, hs, ?_⟩
      · rw [List.range'_succ, List.map_cons]
        simp only [MemMap.unlink, nextAt_eq_ok.mpr hcur, Res.ok_bind, ne_eq, hne, not_false_eq_true,
          if_true, Res.pure_eq]
      · intro j h1 h2
        by_cases hj : j < i
        · exact hdone j h1 hj
        · rw [← filter_lvl_cons_gt (c := c) (show m0.lvl c < j by omega)]
          exact Linked.congr (fun q _ => hnx q j (by omega)) (hlink j h1 h2)

theorem lowerHeight_spec {m : MemMap} {base : List Ptr}
    (hz : 0 ∉ base)
    (hlink : ∀ j, 1 ≤ j → j ≤ skipListMaxHeight →
      Linked m j 0 (base.filter fun p => decide (j ≤ m.lvl p))) :
    ∀ h, 1 ≤ h → h ≤ skipListMaxHeight → (∀ p ∈ base, m.lvl p ≤ h) →
      ∃ h', m.lowerHeight h = .ok h' ∧ 1 ≤ h' ∧ h' ≤ h ∧ (∀ p ∈ base, m.lvl p ≤ h')
  | 0, h1, _, _ => by omega
  | h + 1, h1, h2, hl => by
    by_cases hh : h + 1 > 1
    · have hn := Linked.next_last (A := []) (hlink (h + 1) (by omega) h2)
      simp only [List.getLastD_nil] at hn
      by_cases he : (base.filter fun p => decide (h + 1 ≤ m.lvl p)).headD 0 = 0
      · obtain ⟨h', r1, r2, r3, r4⟩ := lowerHeight_spec hz hlink h (by omega) (by omega) (by
          intro p hp
          have h3 := hl p hp
          have hnil : base.filter (fun p => decide (h + 1 ≤ m.lvl p)) = [] := by
            cases hB : base.filter (fun p => decide (h + 1 ≤ m.lvl p)) with
            | nil => rfl
            | cons b l =>
              rw [hB] at he
              simp only [List.headD_cons] at he
              have : b ∈ base.filter (fun p => decide (h + 1 ≤ m.lvl p)) := by rw [hB]; simp
              exact absurd ((List.mem_filter.mp this).1) (by rw [he]; exact hz)
          have := (List.filter_eq_nil_iff.mp hnil) p hp
          simp at this
          omega)
        refine ⟨h', ?_, r2, by omega, r4⟩
        simp only [lowerHeight, hh, if_true, nextAt_eq_ok.mpr hn, Res.ok_bind, he, r1]
      · refine ⟨h + 1, ?_, by omega, by omega, hl⟩
        simp only [lowerHeight, hh, if_true, nextAt_eq_ok.mpr hn, Res.ok_bind, he, if_false, Res.pure_eq]
    · exact ⟨h + 1, by simp only [lowerHeight, hh, if_false], by omega, by omega, hl⟩

/-- Splitting at a key for `skipListRemove`/`skipListUpdate`. -/
theorem Inv.split_lt {m : MemMap} {base : List Ptr} (h : Inv m base) (key : U64) :
    ∃ A B, base = A ++ B ∧ (∀ p ∈ A, m.keyOf p < key) ∧ (∀ p ∈ B, ¬ m.keyOf p < key) := by
  have hmax : (decide (u64Max < key)) = false := by simpa using not_u64Max_lt key
  obtain ⟨A, B, hb, hA, hB⟩ := split_sorted (m := m) (cont := fun k => decide (k < key)) hmax
    (by intro k k' h1 h2; simp only [decide_eq_true_eq, BitVec.lt_def] at *; omega)
    base h.sorted
  exact ⟨A, B, hb, by simpa using hA, by simpa using hB⟩

theorem Inv.descend_lt {m : MemMap} {base : List Ptr} (h : Inv m base) {key : U64}
    {A B : List Ptr} (hb : base = A ++ B)
    (hA : ∀ p ∈ A, m.keyOf p < key) (hB : ∀ p ∈ B, ¬ m.keyOf p < key) :
    m.descend (fun k => decide (k < key)) m.height 0 [] =
      .ok (A.getLastD 0, (List.range' 1 m.height).map (m.lastAt A)) :=
  h.descend (cont := fun k => decide (k < key)) (by simpa using not_u64Max_lt key) hb
    (by simpa using hA) (by simpa using hB)

/-- all nodes have level 1 -/
theorem Inv.linked_one {m : MemMap} {base : List Ptr} (h : Inv m base) : Linked m 1 0 base := by
  have := h.linked 1 (by omega) (by simp [skipListMaxHeight])
  rwa [List.filter_eq_self.mpr] at this
  intro p hp
  simpa using (h.lvl_bounds hp).1

/-- `remove` of a key that is present. -/
theorem Inv.remove_present {m : MemMap} {A B : List Ptr} {c : Nat} (h : Inv m (A ++ c :: B))
    {key : U64} (hA : ∀ p ∈ A, m.keyOf p < key) (hB : ∀ p ∈ c :: B, ¬ m.keyOf p < key)
    (hc : m.keyOf c = key) :
    ∃ m', m.remove key = .ok m' ∧ Inv m' (A ++ B) ∧ m'.fresh = m.fresh ∧
      (∀ p ∈ A ++ B, m'.shape p = m.shape p) := by
  have hd := h.descend_lt rfl hA hB
  have hnext : m.nextAt (A.getLastD 0) 1 = .ok c := nextAt_eq_ok.mpr h.linked_one.next_last
  have hcmem : c ∈ A ++ c :: B := by simp
  obtain ⟨kc, vc, lc, hsc, hlc1, hlc2⟩ := h.nodes c hcmem
  obtain ⟨nc, hdc, hkc, _, _, _⟩ := deref_of_shape hsc
  have hnd : (0 :: (A ++ c :: B)).Nodup := by
    rw [List.nodup_cons]; exact ⟨h.zero, h.nodup⟩
  have hcne : ∀ p ∈ A ++ B, p ≠ c := by
    have := h.nodup
    rw [List.nodup_append, List.nodup_cons] at this
    intro p hp e
    subst e
    simp at hp
    rcases hp with hp | hp
    · exact this.2.2 p hp p (by simp) rfl
    · exact this.2.1.1 hp
  have hc0 : c ≠ 0 := fun e => h.zero (e ▸ hcmem)
  have hlvlc := h.lvl_bounds hcmem
  have hhh := h.hh2
  obtain ⟨m1, hm1, r1, r2, r3, r4⟩ := unlink_spec (m0 := m) h.head
    (fun p hp => by obtain ⟨k, v, l, a, b, _⟩ := h.nodes p hp; exact ⟨k, v, l, a, b⟩)
    hnd h.linked m.height 1 m (by omega) (by omega) (by omega) rfl rfl (fun _ => rfl)
    (fun _ _ _ => rfl) (fun j h1 h2 => by omega)
  have hl1 := lvl_congr r3
  -- freeing the node
  have hheap1 : ∃ n, m1.heap c = some n := by
    have : (m1.shape c).isSome := by rw [r3, hsc]; rfl
    unfold shape at this
    cases hx : m1.heap c with
    | none => simp [hx] at this
    | some n => exact ⟨n, rfl⟩
  obtain ⟨n1, hn1⟩ := hheap1
  have hfree : m1.free c = .ok (m1.setCell c none) := by simp [MemMap.free, hc0, hn1]
  let m2 := m1.setCell c none
  have hm2s : ∀ p, p ≠ c → m2.shape p = m.shape p := by
    intro p hp
    rw [← r3]
    simp [m2, shape, setCell, hp]
  have hm2n : ∀ p j, p ≠ c → m2.nx p j = m1.nx p j := by
    intro p j hp
    simp [m2, nx, setCell, hp]
  have hm2l : ∀ p, p ≠ c → m2.lvl p = m.lvl p := fun p hp => by simp [lvl, hm2s p hp]
  have hm2k : ∀ p, p ≠ c → m2.keyOf p = m.keyOf p := fun p hp => by simp [keyOf, hm2s p hp]
  have hlink2 : ∀ j, 1 ≤ j → j ≤ skipListMaxHeight →
      Linked m2 j 0 ((A ++ B).filter fun p => decide (j ≤ m2.lvl p)) := by
    intro j h1 h2
    have hfil : (A ++ B).filter (fun p => decide (j ≤ m2.lvl p)) =
        (A ++ B).filter (fun p => decide (j ≤ m.lvl p)) := by
      apply List.filter_congr
      intro p hp
      rw [hm2l p (hcne p hp)]
    rw [hfil]
    refine Linked.congr ?_ (r4 j h1 h2)
    intro q hq
    apply hm2n
    simp only [List.mem_cons, List.mem_filter] at hq
    rcases hq with rfl | hq
    · exact Ne.symm hc0
    · exact hcne q hq.1
  have hzAB : 0 ∉ A ++ B := fun hh => h.zero (by simp at hh ⊢; rcases hh with hh | hh; exact Or.inl hh; exact Or.inr (Or.inr hh))
  have hsubmem : ∀ p ∈ A ++ B, p ∈ A ++ c :: B := by
    intro p hp; simp at hp ⊢; rcases hp with hp | hp; exact Or.inl hp; exact Or.inr (Or.inr hp)
  have hm2h : m2.height = m.height := r1
  obtain ⟨h', l1, l2, l3, l4⟩ := lowerHeight_spec (m := m2) hzAB hlink2 m.height h.hh1 h.hh2 (by
    intro p hp
    rw [hm2l p (hcne p hp)]
    exact (h.lvl_bounds (hsubmem p hp)).2)
  refine ⟨{ m2 with height := h' }, ?_, ?_, r2, fun p hp => hm2s p (hcne p hp)⟩
  · have : m1.setCell c none = m2 := rfl
    simp only [MemMap.remove, hd, Res.ok_bind, hnext, hdc, hkc, hc, if_true, hm1, hfree, this, hm2h, l1,
      Res.pure_eq]
  · have hshape : ∀ p, ({ m2 with height := h' } : MemMap).shape p = m2.shape p := fun _ => rfl
    constructor
    · exact l2
    · show h' ≤ _; omega
    · obtain ⟨v, hv⟩ := h.head
      exact ⟨v, by rw [hshape, hm2s 0 (Ne.symm hc0), hv]⟩
    · intro p hp
      obtain ⟨k, v, l, hs, h1, h2⟩ := h.nodes p (hsubmem p hp)
      have hs2 := hm2s p (hcne p hp)
      rw [hs] at hs2
      refine ⟨k, v, l, hs2, h1, ?_⟩
      have := l4 p hp
      rw [lvl_of_shape hs2] at this
      show l ≤ h' + 1
      omega
    · exact hzAB
    · intro p hp
      rw [hshape] at hp
      by_cases e : p = c
      · subst e
        simp [m2, shape, setCell] at hp
      · rw [hm2s p e] at hp
        rcases h.owned p hp with h1 | h1
        · left; exact h1
        · right; simp [e] at h1 ⊢; exact h1
    · intro p hp
      show p < m1.fresh
      rw [r2]; exact h.fresh p (hsubmem p hp)
    · show _ < m1.fresh
      rw [r2]
      have := h.len
      simp at this ⊢; omega
    · have := h.nodup
      exact List.Sublist.nodup (List.Sublist.append (List.Sublist.refl A) (List.sublist_cons_self c B)) this
    · have hso := h.sorted
      have : (A ++ B).Pairwise fun p q => KeyLt (m.keyOf p) (m.keyOf q) :=
        List.Pairwise.sublist (List.Sublist.append (List.Sublist.refl A) (List.sublist_cons_self c B)) hso
      refine List.Pairwise.imp_of_mem ?_ this
      intro a b ha hb hab
      show KeyLt (m2.keyOf a) (m2.keyOf b)
      rw [hm2k a (hcne a ha), hm2k b (hcne b hb)]; exact hab
    · intro j h1 h2
      exact Linked.congr (m := m2) (fun _ _ => rfl) (hlink2 j h1 h2)

/-- `remove` of an absent key other than the sentinel does nothing. -/
theorem Inv.remove_absent {m : MemMap} {base : List Ptr} (h : Inv m base)
    {key : U64} (hk : key ≠ u64Max) (hno : ∀ p ∈ base, m.keyOf p ≠ key) :
    m.remove key = .ok m := by
  obtain ⟨A, B, hb, hA, hB⟩ := h.split_lt key
  have hd := h.descend_lt hb hA hB
  have hl := h.linked_one
  rw [hb] at hl
  have hnext := nextAt_eq_ok.mpr hl.next_last
  have hsome : ∃ n, m.deref (B.headD 0) = .ok n ∧ n.key ≠ key := by
    cases hB' : B with
    | nil =>
      obtain ⟨s, hs⟩ := Option.isSome_iff_exists.mp h.shape_zero
      obtain ⟨n, h1, h2, _⟩ := deref_of_shape hs
      refine ⟨n, h1, ?_⟩
      rw [h2, h.keyOf_zero]; exact Ne.symm hk
    | cons b B' =>
      have hbm : b ∈ base := by simp [hb, hB']
      obtain ⟨s, hs⟩ := Option.isSome_iff_exists.mp (h.isSome hbm)
      obtain ⟨n, h1, h2, _⟩ := deref_of_shape hs
      refine ⟨n, h1, ?_⟩
      rw [h2]; exact hno b hbm
  obtain ⟨n, hn1, hn2⟩ := hsome
  simp only [MemMap.remove, hd, Res.ok_bind, hnext, hn1, hn2, if_false, Res.pure_eq]

/-- Removing the sentinel key when no node carries it deletes `m_head`. -/
theorem Inv.remove_head_ub {m : MemMap} {base : List Ptr} (h : Inv m base)
    (hno : ∀ p ∈ base, m.keyOf p ≠ u64Max) :
    m.remove u64Max = .ub .badFree := by
  have hA : ∀ p ∈ base, m.keyOf p < u64Max := by
    intro p hp
    have := lt_u64Max_of_ne (hno p hp)
    rw [BitVec.lt_def]; omega
  have hd := h.descend_lt (A := base) (B := []) (by simp) hA (by simp)
  have hl : Linked m 1 0 (base ++ []) := by simpa using h.linked_one
  have hnext := nextAt_eq_ok.mpr hl.next_last
  simp only [List.headD_nil] at hnext
  obtain ⟨s, hs⟩ := Option.isSome_iff_exists.mp h.shape_zero
  obtain ⟨n, h1, h2, _⟩ := deref_of_shape hs
  -- the unlinking loop is defined
  have hun : ∀ (k i : Nat) (m' : MemMap), 1 ≤ i → i + k ≤ skipListMaxHeight + 1 →
      (∀ r, m'.shape r = m.shape r) →
      ∃ m'', MemMap.unlink 0 ((List.range' i k).map (m.lastAt base)) i m' = .ok m'' := by
    intro k
    induction k with
    | zero => intro i m' _ _ _; exact ⟨m', by simp [MemMap.unlink]⟩
    | succ k ih =>
      intro i m' hi hik hsh
      obtain ⟨s, hss, hsl⟩ := lastAt_shape (A := base) (i := i) h.head
        (fun p hp => by obtain ⟨k, v, l, a, b, _⟩ := h.nodes p hp; exact ⟨k, v, l, a, b⟩) (by omega)
      have hdef : ∀ (p : Nat) (s : U64 × U64 × Nat), m.shape p = some s → i < s.2.2 →
          ∃ q, m'.nextAt p i = .ok q := by
        intro p s hp hlt
        rw [← hsh] at hp
        obtain ⟨n, _, _, _, hlen, hheap⟩ := deref_of_shape hp
        refine ⟨n.next[i]'(by omega), ?_⟩
        rw [nextAt_eq_ok]
        simp [nx, hheap]
      obtain ⟨q, hq⟩ := hdef _ _ hss hsl
      obtain ⟨vh, hvh⟩ := h.head
      obtain ⟨q0, hq0⟩ := hdef 0 _ hvh (by simp; omega)
      rw [List.range'_succ, List.map_cons]
      by_cases he : q = 0
      · obtain ⟨m1, hm1, _, _, hs1, _⟩ := setNext_spec (m := m') (q := q0) (by rw [hsh]; exact hss) hsl
        obtain ⟨m'', hm''⟩ := ih (i + 1) m1 (by omega) (by omega) (fun r => by rw [hs1, hsh])
        refine ⟨m'', ?_⟩
        subst he
        simp only [MemMap.unlink, hq, Res.ok_bind, ne_eq, not_true_eq_false, if_false, hq0, hm1, hm'']
      · exact ⟨m', by simp only [MemMap.unlink, hq, Res.ok_bind, ne_eq, he, not_false_eq_true, if_true, Res.pure_eq]⟩
  have hhh := h.hh2
  obtain ⟨m'', hm''⟩ := hun m.height 1 m (by omega) (by omega) (fun _ => rfl)
  have hfree : m''.free 0 = .ub .badFree := by simp [MemMap.free]
  simp only [MemMap.remove, hd, Res.ok_bind, hnext, h1, h2, h.keyOf_zero, if_true, hm'', hfree, Res.ub_bind]

/-- Overwriting the value of a node. -/
theorem Inv.setValue {m : MemMap} {base : List Ptr} (h : Inv m base) {p : Nat} {n : SNode}
    (hp : p ∈ base) (hn : m.heap p = some n) (v : U64) :
    Inv (m.setCell p (some { n with value := v })) base ∧
    (∀ q, (m.setCell p (some { n with value := v })).keyOf q = m.keyOf q) ∧
    (∀ q, (m.setCell p (some { n with value := v })).valOf q = if q = p then v else m.valOf q) := by
  have hp0 : p ≠ 0 := fun e => h.zero (e ▸ hp)
  let m' := m.setCell p (some { n with value := v })
  have hs : ∀ q, q ≠ p → m'.shape q = m.shape q := by
    intro q hq; simp [m', shape, setCell, hq]
  have hsp : m'.shape p = some (n.key, v, n.next.length) := by simp [m', shape, setCell]
  have hsp0 : m.shape p = some (n.key, n.value, n.next.length) := by simp [shape, hn]
  have hnx : ∀ q j, m'.nx q j = m.nx q j := by
    intro q j
    by_cases e : q = p
    · subst e; simp [m', nx, setCell, hn]
    · simp [m', nx, setCell, e]
  have hk : ∀ q, m'.keyOf q = m.keyOf q := by
    intro q
    by_cases e : q = p
    · subst e; simp [keyOf, hsp, hsp0]
    · simp [keyOf, hs q e]
  have hl : ∀ q, m'.lvl q = m.lvl q := by
    intro q
    by_cases e : q = p
    · subst e; simp [lvl, hsp, hsp0]
    · simp [lvl, hs q e]
  refine ⟨?_, hk, ?_⟩
  · constructor
    · exact h.hh1
    · exact h.hh2
    · obtain ⟨v', hv⟩ := h.head
      exact ⟨v', by show m'.shape 0 = _; rw [hs 0 (Ne.symm hp0), hv]⟩
    · intro q hq
      obtain ⟨k, v', l, hsq, h1, h2⟩ := h.nodes q hq
      by_cases e : q = p
      · subst e
        rw [hsp0] at hsq
        cases hsq
        exact ⟨_, _, _, hsp, h1, h2⟩
      · exact ⟨k, v', l, by show m'.shape q = _; rw [hs q e, hsq], h1, h2⟩
    · exact h.zero
    · intro q hq
      by_cases e : q = p
      · right; exact e ▸ hp
      · have hq' : (m'.shape q).isSome = true := hq
        rw [hs q e] at hq'
        exact h.owned q hq'
    · exact h.fresh
    · exact h.len
    · exact h.nodup
    · refine List.Pairwise.imp ?_ h.sorted
      intro a b hab
      show KeyLt (m'.keyOf a) (m'.keyOf b)
      rw [hk, hk]; exact hab
    · intro j h1 h2
      have hfil : base.filter (fun p => decide (j ≤ m'.lvl p)) =
          base.filter (fun p => decide (j ≤ m.lvl p)) := by
        apply List.filter_congr
        intro p _
        rw [hl]
      show Linked m' j 0 (base.filter (fun p => decide (j ≤ m'.lvl p)))
      rw [hfil]
      exact Linked.congr (fun q _ => hnx q j) (h.linked j h1 h2)
  · intro q
    show m'.valOf q = _
    by_cases e : q = p
    · subst e; simp [valOf, hsp]
    · simp [valOf, hs q e, e]

/-- The empty map. -/
theorem Inv.construct : Inv construct [] := by
  constructor
  · simp [MemMap.construct]
  · simp [MemMap.construct, skipListMaxHeight]
  · exact ⟨0, by simp [MemMap.construct, shape]⟩
  · simp
  · simp
  · intro p hp
    left
    by_cases e : p = 0
    · exact e
    · simp [MemMap.construct, shape, e] at hp
  · simp
  · simp [MemMap.construct]
  · simp
  · simp
  · intro i h1 h2
    have h3 : i < skipListMaxHeight + 1 := by omega
    simp [Linked, MemMap.construct, nx, List.getElem?_replicate, h3]

/-- The destructor frees every node and nothing else. -/
theorem destructLoop_spec : ∀ (l : List Ptr) (p : Nat) (m : MemMap) (fuel : Nat),
    p = l.headD 0 → (0 :: l).Nodup → (∀ q ∈ l, (m.shape q).isSome) →
    (∀ q l', l = q :: l' → Linked m 1 q l') → l.length < fuel →
    ∃ m', destructLoop fuel p m = .ok m' ∧ ∀ q, m'.heap q = if q ∈ l then none else m.heap q
  | [], p, m, fuel, hp, _, _, _, hf => by
    obtain ⟨fuel, rfl⟩ : ∃ f, fuel = f + 1 := ⟨fuel - 1, by simp at hf; omega⟩
    refine ⟨m, ?_, by simp⟩
    simp at hp
    simp [destructLoop, hp]
  | c :: l, p, m, fuel, hp, hnd, hs, hl, hf => by
    obtain ⟨fuel, rfl⟩ : ∃ f, fuel = f + 1 := ⟨fuel - 1, by simp at hf; omega⟩
    simp only [List.headD_cons] at hp
    subst hp
    have hp0 : p ≠ 0 := by
      intro e; simp [e] at hnd
    have hnext := nextAt_eq_ok.mpr (Linked.next_last (A := []) (hl p l rfl))
    simp only [List.getLastD_nil] at hnext
    have hheap : ∃ n, m.heap p = some n := by
      have := hs p (by simp)
      unfold shape at this
      cases hx : m.heap p with
      | none => simp [hx] at this
      | some n => exact ⟨n, rfl⟩
    obtain ⟨n, hn⟩ := hheap
    have hfree : m.free p = .ok (m.setCell p none) := by simp [MemMap.free, hp0, hn]
    have hpl : p ∉ l := by simp at hnd; exact hnd.2.1
    obtain ⟨m', hm', hh⟩ := destructLoop_spec l (l.headD 0) (m.setCell p none) fuel rfl
      (by simp at hnd ⊢; exact ⟨hnd.1.2, hnd.2.2⟩)
      (by
        intro q hq
        have hq' := hs q (by simp [hq])
        have : q ≠ p := fun e => hpl (e ▸ hq)
        simpa [shape, setCell, this] using hq')
      (by
        intro q l' he
        have := hl p l rfl
        rw [he] at this
        refine Linked.congr ?_ this.2
        intro r hr
        have : r ≠ p := fun e => hpl (by rw [he]; exact e ▸ hr)
        simp [nx, setCell, this])
      (by simp at hf; omega)
    refine ⟨m', ?_, ?_⟩
    · simp only [destructLoop, hp0, if_false, hnext, hfree, Res.ok_bind, hm']
    · intro q
      rw [hh q]
      by_cases e : q = p
      · simp [e, setCell]
      · simp [e, setCell]

theorem Inv.destruct {m : MemMap} {base : List Ptr} (h : Inv m base) :
    ∃ m', m.destruct = .ok m' ∧ ∀ p, p ≠ 0 → m'.heap p = none := by
  have hl := h.linked_one
  have hnext := nextAt_eq_ok.mpr (Linked.next_last (A := []) hl)
  simp only [List.getLastD_nil] at hnext
  obtain ⟨m', hm', hh⟩ := destructLoop_spec base (base.headD 0) m m.walkFuel rfl
    (by rw [List.nodup_cons]; exact ⟨h.zero, h.nodup⟩) (fun q hq => h.isSome hq)
    (by
      intro q l' he
      rw [he] at hl
      exact hl.2)
    (by have := h.len; unfold walkFuel; omega)
  refine ⟨m', by simp only [MemMap.destruct, hnext, Res.ok_bind, hm'], ?_⟩
  intro p hp
  rw [hh]
  split
  · rfl
  · rename_i hnot
    cases hx : m.heap p with
    | none => rfl
    | some n =>
      have : (m.shape p).isSome := by simp [shape, hx]
      rcases h.owned p this with h1 | h1
      · exact absurd h1 hp
      · exact absurd h1 hnot

end MemMap
end TraceDB
