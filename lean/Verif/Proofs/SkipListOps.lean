import Verif.Proofs.SkipList
/-
The skip list invariant is kept by find, insertion, removal and destruction.
-/
namespace TraceDB
namespace MemMap

theorem u64Max_toNat : u64Max.toNat = 2 ^ 64 - 1 := by decide

theorem le_u64Max (k : U64) : k.toNat ≤ u64Max.toNat := by
  have := k.isLt
  rw [u64Max_toNat]; omega

theorem not_u64Max_lt (k : U64) : ¬ (u64Max < k) := by
  have := le_u64Max k
  rw [BitVec.lt_def]; omega

theorem lt_u64Max_of_ne {k : U64} (h : k ≠ u64Max) : k.toNat < u64Max.toNat := by
  have h1 := le_u64Max k
  have h2 : k.toNat ≠ u64Max.toNat := fun e => h (BitVec.eq_of_toNat_eq e)
  omega

/-- strict key order, except that several nodes with key 2^64-1 may exist -/
def KeyLt (k k' : U64) : Prop := k < k' ∨ (k = u64Max ∧ k' = u64Max)

structure Inv (m : MemMap) (base : List Ptr) : Prop where
  hh1 : 1 ≤ m.height
  hh2 : m.height ≤ skipListMaxHeight
  head : ∃ v, m.shape 0 = some (u64Max, v, skipListMaxHeight + 1)
  nodes : ∀ p ∈ base, ∃ k v l, m.shape p = some (k, v, l) ∧ 2 ≤ l ∧ l ≤ m.height + 1
  zero : 0 ∉ base
  owned : ∀ p, (m.shape p).isSome → p = 0 ∨ p ∈ base
  fresh : ∀ p ∈ base, p < m.fresh
  len : base.length < m.fresh
  nodup : base.Nodup
  sorted : base.Pairwise fun p q => KeyLt (m.keyOf p) (m.keyOf q)
  linked : ∀ i, 1 ≤ i → i ≤ skipListMaxHeight →
    Linked m i 0 (base.filter fun p => decide (i ≤ m.lvl p))

theorem lvl_of_shape {m : MemMap} {p : Ptr} {k v : U64} {l : Nat} (h : m.shape p = some (k, v, l)) :
    m.lvl p = l - 1 := by simp [lvl, h]

theorem keyOf_of_shape {m : MemMap} {p : Ptr} {k v : U64} {l : Nat} (h : m.shape p = some (k, v, l)) :
    m.keyOf p = k := by simp [keyOf, h]

theorem valOf_of_shape {m : MemMap} {p : Ptr} {k v : U64} {l : Nat} (h : m.shape p = some (k, v, l)) :
    m.valOf p = v := by simp [valOf, h]

theorem Inv.lvl_bounds {m : MemMap} {base : List Ptr} (h : Inv m base) {p : Ptr} (hp : p ∈ base) :
    1 ≤ m.lvl p ∧ m.lvl p ≤ m.height := by
  obtain ⟨k, v, l, hs, h1, h2⟩ := h.nodes p hp
  rw [lvl_of_shape hs]; omega

theorem Inv.isSome {m : MemMap} {base : List Ptr} (h : Inv m base) {p : Ptr} (hp : p ∈ base) :
    (m.shape p).isSome := by
  obtain ⟨k, v, l, hs, _⟩ := h.nodes p hp
  simp [hs]

theorem Inv.keyOf_zero {m : MemMap} {base : List Ptr} (h : Inv m base) : m.keyOf 0 = u64Max := by
  obtain ⟨v, hv⟩ := h.head
  exact keyOf_of_shape hv

theorem Inv.shape_zero {m : MemMap} {base : List Ptr} (h : Inv m base) : (m.shape 0).isSome := by
  obtain ⟨v, hv⟩ := h.head
  simp [hv]

/-- A list of nodes sorted by key splits at any downward closed key set. -/
theorem split_sorted {m : MemMap} {cont : U64 → Bool} (hmax : cont u64Max = false)
    (hanti : ∀ k k', k < k' → cont k' = true → cont k = true) :
    ∀ base : List Ptr, base.Pairwise (fun p q => KeyLt (m.keyOf p) (m.keyOf q)) →
      ∃ A B, base = A ++ B ∧ (∀ p ∈ A, cont (m.keyOf p) = true) ∧
        (∀ p ∈ B, cont (m.keyOf p) = false)
  | [], _ => ⟨[], [], rfl, by simp, by simp⟩
  | p :: base, h => by
    rw [List.pairwise_cons] at h
    obtain ⟨A, B, he, hA, hB⟩ := split_sorted hmax hanti base h.2
    by_cases hc : cont (m.keyOf p) = true
    · refine ⟨p :: A, B, by simp [he], ?_, hB⟩
      intro q hq
      simp at hq
      rcases hq with rfl | hq
      · exact hc
      · exact hA q hq
    · refine ⟨[], p :: base, rfl, by simp, ?_⟩
      intro q hq
      simp only [List.mem_cons] at hq
      rcases hq with rfl | hq
      · simpa using hc
      · have := h.1 q hq
        rcases this with h1 | ⟨_, h2⟩
        · by_cases hq' : cont (m.keyOf q) = true
          · exact absurd (hanti _ _ h1 hq') hc
          · simpa using hq'
        · rw [h2]; exact hmax

theorem lastAt_one {m : MemMap} {A : List Ptr} (h : ∀ p ∈ A, 1 ≤ m.lvl p) :
    m.lastAt A 1 = A.getLastD 0 := by
  unfold lastAt
  rw [List.filter_eq_self.mpr]
  intro p hp
  simpa using h p hp

theorem lastAt_above {m : MemMap} {A : List Ptr} {i : Nat} (h : ∀ p ∈ A, m.lvl p < i) :
    m.lastAt A i = 0 := by
  unfold lastAt
  have : A.filter (fun p => decide (i ≤ m.lvl p)) = [] := by
    rw [List.filter_eq_nil_iff]
    intro p hp
    have := h p hp
    simp; omega
  rw [this]; rfl

/-- Descent from the head under the invariant. -/
theorem Inv.descend {m : MemMap} {base : List Ptr} (h : Inv m base) {cont : U64 → Bool}
    (hmax : cont u64Max = false) {A B : List Ptr} (hb : base = A ++ B)
    (hA : ∀ p ∈ A, cont (m.keyOf p) = true) (hB : ∀ p ∈ B, cont (m.keyOf p) = false) :
    m.descend cont m.height 0 [] =
      .ok (A.getLastD 0, (List.range' 1 m.height).map (m.lastAt A)) := by
  have hA' : ∀ q ∈ A, (m.shape q).isSome ∧ cont (m.keyOf q) = true :=
    fun q hq => ⟨h.isSome (by simp [hb, hq]), hA q hq⟩
  have hB' : ∀ q ∈ B, (m.shape q).isSome ∧ cont (m.keyOf q) = false :=
    fun q hq => ⟨h.isSome (by simp [hb, hq]), hB q hq⟩
  have hlen := h.len
  have := descend_ok (m := m) (cont := cont) (A := A) (B := B)
    ⟨h.shape_zero, by rw [h.keyOf_zero]; exact hmax⟩ hB' hA'
    (by unfold walkFuel; rw [hb] at hlen; simp at hlen; omega) m.height []
    (fun j h1 h2 => by rw [← hb]; exact h.linked j h1 (Nat.le_trans h2 h.hh2))
  rw [lastAt_above (fun p hp => by
    have := (h.lvl_bounds (p := p) (by simp [hb, hp])).2; omega)] at this
  rw [this, lastAt_one (fun p hp => (h.lvl_bounds (by simp [hb, hp])).1)]
  simp

theorem getLastD_zero_getLast? {A : List Ptr} (h : 0 ∉ A) :
    (if A.getLastD 0 = 0 then none else some (A.getLastD 0)) = A.getLast? := by
  rw [List.getLastD_eq_getLast?]
  cases hl : A.getLast? with
  | none => simp
  | some p =>
    have : p ∈ A := List.mem_of_getLast? hl
    have : p ≠ 0 := fun e => h (e ▸ this)
    simp [this]

theorem Inv.find {m : MemMap} {base : List Ptr} (h : Inv m base) {key : U64} (hk : key ≠ u64Max) :
    ∃ A B, base = A ++ B ∧ (∀ p ∈ A, m.keyOf p ≤ key) ∧ (∀ p ∈ B, key < m.keyOf p) ∧
      m.find key = .ok A.getLast? := by
  have hmax : (decide (u64Max ≤ key)) = false := by
    simp only [decide_eq_false_iff_not, BitVec.le_def]
    have := lt_u64Max_of_ne hk
    omega
  obtain ⟨A, B, hb, hA, hB⟩ := split_sorted (m := m) (cont := fun k => decide (k ≤ key)) hmax
    (by intro k k' h1 h2; simp only [decide_eq_true_eq, BitVec.le_def, BitVec.lt_def] at *; omega)
    base h.sorted
  refine ⟨A, B, hb, by simpa using hA, ?_, ?_⟩
  · intro p hp
    have := hB p hp
    simp only [decide_eq_false_iff_not, BitVec.le_def, BitVec.lt_def] at *
    omega
  · have hd := h.descend (cont := fun k => decide (k ≤ key)) hmax hb hA hB
    simp only [MemMap.find, hk, if_false, hd, Res.ok_bind]
    have h0 : 0 ∉ A := fun hh => h.zero (by simp [hb, hh])
    rw [← getLastD_zero_getLast? h0]
    split <;> rfl

/-- `find` of the sentinel key. -/
theorem find_max (m : MemMap) : m.find u64Max = .ok none := by simp [MemMap.find]

/-! ### Insertion -/

theorem lvl_congr {m m' : MemMap} (h : ∀ r, m'.shape r = m.shape r) : m'.lvl = m.lvl := by
  funext p; simp [lvl, h]
theorem keyOf_congr {m m' : MemMap} (h : ∀ r, m'.shape r = m.shape r) : m'.keyOf = m.keyOf := by
  funext p; simp [keyOf, h]
theorem lastAt_congr {m m' : MemMap} (h : ∀ r, m'.shape r = m.shape r) : m'.lastAt = m.lastAt := by
  funext A i; simp [lastAt, lvl_congr h]

theorem lastAt_mem {m : MemMap} {A : List Ptr} {i : Nat} : m.lastAt A i ∈ 0 :: A := by
  have := getLastD_mem_cons (A.filter fun p => decide (i ≤ m.lvl p)) 0
  unfold lastAt
  simp at this ⊢
  rcases this with h | h
  · left; exact h
  · right; exact h.1

theorem lastAt_lvl {m : MemMap} {A : List Ptr} {i : Nat} (h : m.lastAt A i ≠ 0) :
    i ≤ m.lvl (m.lastAt A i) := by
  have := getLastD_mem_cons (A.filter fun p => decide (i ≤ m.lvl p)) 0
  change m.lastAt A i ∈ _ at this
  simp [h] at this
  exact this.2

/-- `insertLevels` splices `new` into the chains of all its levels. -/
theorem insertLevels_spec {m0 : MemMap} {key : U64} {new level : Nat} {A B : List Ptr}
    (hhead : ∃ v, m0.shape 0 = some (u64Max, v, skipListMaxHeight + 1))
    (hnodes : ∀ p ∈ A ++ B, ∃ k v l, m0.shape p = some (k, v, l) ∧ 2 ≤ l)
    (hnew : ∃ v, m0.shape new = some (key, v, level + 1))
    (hfresh : new ∉ 0 :: (A ++ B)) (hnd : (0 :: (A ++ B)).Nodup)
    (hA : ∀ p ∈ A, m0.keyOf p < key) (hB : ∀ p ∈ B, ¬ m0.keyOf p < key)
    (hlink : ∀ j, 1 ≤ j → j ≤ skipListMaxHeight →
      Linked m0 j 0 ((A ++ B).filter fun p => decide (j ≤ m0.lvl p)))
    (hfuel : A.length < m0.walkFuel) :
    ∀ (i : Nat) (m : MemMap), i ≤ skipListMaxHeight → m.height = m0.height → m.fresh = m0.fresh →
      (∀ r, m.shape r = m0.shape r) →
      (∀ r j, j ≤ i → m.nx r j = m0.nx r j) →
      (∀ j, i < j → j ≤ skipListMaxHeight →
        Linked m j 0 ((A ++ new :: B).filter fun p => decide (j ≤ m0.lvl p))) →
      ∃ m', insertLevels key new level i m (m0.lastAt A (i + 1)) = .ok m' ∧
        m'.height = m0.height ∧ m'.fresh = m0.fresh ∧ (∀ r, m'.shape r = m0.shape r) ∧
        (∀ j, 1 ≤ j → j ≤ skipListMaxHeight →
          Linked m' j 0 ((A ++ new :: B).filter fun p => decide (j ≤ m0.lvl p)))
  | 0, m, _, hh, hf, hs, _, hdone =>
    ⟨m, by simp [insertLevels], hh, hf, hs, fun j h1 h2 => hdone j (by omega) h2⟩
  | i + 1, m, hi, hh, hf, hs, hnx, hdone => by
    have hlvl := lvl_congr hs
    have hkey := keyOf_congr hs
    have hlast := lastAt_congr hs
    obtain ⟨vh, hvh⟩ := hhead
    obtain ⟨vn, hvn⟩ := hnew
    -- the chain at this level is still the old one
    have hch : Linked m (i + 1) 0 ((A ++ B).filter fun p => decide (i + 1 ≤ m.lvl p)) := by
      rw [hlvl]
      exact Linked.congr (fun q _ => hnx q (i + 1) (by omega)) (hlink (i + 1) (by omega) hi)
    have hw : m.walk (fun k => decide (k < key)) (i + 1) m.walkFuel (m0.lastAt A (i + 1 + 1))
        = .ok (m0.lastAt A (i + 1)) := by
      rw [← hlast]
      apply walk_level (B := B) _ _ _ hch
      · unfold walkFuel at hfuel ⊢; rw [hf]; exact hfuel
      · refine ⟨by rw [hs, hvh]; rfl, ?_⟩
        rw [hkey, keyOf_of_shape hvh]
        simpa using not_u64Max_lt key
      · intro q hq
        obtain ⟨k, v, l, hsq, _⟩ := hnodes q (by simp [hq])
        refine ⟨by rw [hs, hsq]; rfl, ?_⟩
        rw [hkey]; simpa using hB q hq
      · intro q hq
        obtain ⟨k, v, l, hsq, _⟩ := hnodes q (by simp [hq])
        refine ⟨by rw [hs, hsq]; rfl, ?_⟩
        rw [hkey]; simpa using hA q hq
    by_cases hle : i + 1 ≤ level
    · -- splice here
      have hlvlnew : m0.lvl new = level := by rw [lvl_of_shape hvn]; omega
      rw [hlvl, List.filter_append] at hch
      have hcur : m.nx (m0.lastAt A (i + 1)) (i + 1) =
          some ((B.filter fun p => decide (i + 1 ≤ m0.lvl p)).headD 0) := hch.next_last
      -- first write
      obtain ⟨m1, h1, h1h, h1f, h1s, h1n⟩ := setNext_spec (m := m) (p := new) (i := i + 1)
        (q := (B.filter fun p => decide (i + 1 ≤ m0.lvl p)).headD 0)
        (s := (key, vn, level + 1)) (by rw [hs, hvn]) (by simp; omega)
      -- the node we link from has this level
      have hcurshape : ∃ s, m1.shape (m0.lastAt A (i + 1)) = some s ∧ i + 1 < s.2.2 := by
        rw [h1s, hs]
        by_cases hz : m0.lastAt A (i + 1) = 0
        · rw [hz]; exact ⟨_, hvh, by simp; omega⟩
        · have hm : m0.lastAt A (i + 1) ∈ 0 :: A := lastAt_mem
          simp [hz] at hm
          obtain ⟨k, v, l, hsq, hl⟩ := hnodes _ (List.mem_append_left B hm)
          have := lastAt_lvl hz
          rw [lvl_of_shape hsq] at this
          exact ⟨_, hsq, by simp; omega⟩
      obtain ⟨s, hss, hsl⟩ := hcurshape
      obtain ⟨m2, h2, h2h, h2f, h2s, h2n⟩ := setNext_spec (q := new) hss hsl
      have hne : m0.lastAt A (i + 1) ≠ new := by
        intro e
        apply hfresh
        rw [← e]
        have hm : m0.lastAt A (i + 1) ∈ 0 :: A := lastAt_mem
        simp at hm ⊢
        rcases hm with hm | hm
        · left; exact hm
        · right; left; exact hm
      have hs2 : ∀ r, m2.shape r = m0.shape r := fun r => by rw [h2s, h1s, hs]
      obtain ⟨m', hm', r1, r2, r3, r4⟩ := insertLevels_spec ⟨vh, hvh⟩ hnodes ⟨vn, hvn⟩ hfresh hnd hA hB hlink
        hfuel i m2 (by omega) (by rw [h2h, h1h, hh]) (by rw [h2f, h1f, hf]) hs2
        (by
          intro r j hj
          rw [h2n, h1n]
          have h3 : j ≠ i + 1 := by omega
          simp [h3]
          exact hnx r j (by omega))
        (by
          intro j hj1 hj2
          by_cases hj : j = i + 1
          · subst hj
            rw [List.filter_append, List.filter_cons]
            simp only [hlvlnew, hle, decide_true, if_true]
            have hsub : List.Sublist (0 :: (A.filter (fun p => decide (i + 1 ≤ m0.lvl p)) ++
                B.filter (fun p => decide (i + 1 ≤ m0.lvl p)))) (0 :: (A ++ B)) := by
              apply List.Sublist.cons_cons
              exact List.filter_sublist.append List.filter_sublist
            refine Linked.insert hch (hsub.nodup hnd) (fun hh => hfresh (hsub.subset hh)) ?_
            intro q
            have hla : (A.filter fun p => decide (i + 1 ≤ m0.lvl p)).getLastD 0 = m0.lastAt A (i + 1) := rfl
            rw [h2n, h1n, hla, hcur]
            by_cases hq : q = m0.lastAt A (i + 1)
            · simp [hq]
            · simp [hq]
          · refine Linked.congr ?_ (hdone j (by omega) hj2)
            intro q _
            rw [h2n, h1n]
            simp [hj])
      refine ⟨m', ?_, r1, r2, r3, r4⟩
      simp only [insertLevels, hw, Res.ok_bind, hle, if_true, nextAt_eq_ok.mpr hcur, h1, h2, hm']
    · have hlvlnew : m0.lvl new = level := by rw [lvl_of_shape hvn]; omega
      obtain ⟨m', hm', r1, r2, r3, r4⟩ := insertLevels_spec ⟨vh, hvh⟩ hnodes ⟨vn, hvn⟩ hfresh hnd hA hB hlink
        hfuel i m (by omega) hh hf hs (fun r j hj => hnx r j (by omega))
        (by
          intro j hj1 hj2
          by_cases hj : j = i + 1
          · subst hj
            rw [List.filter_append, List.filter_cons]
            simp only [hlvlnew, hle, decide_false]
            rw [hlvl, List.filter_append] at hch
            simpa using hch
          · exact hdone j (by omega) hj2)
      refine ⟨m', ?_, r1, r2, r3, r4⟩
      simp only [insertLevels, hw, Res.ok_bind, hle, if_false, hm']

theorem Inv.insertNew {m : MemMap} {A B : List Ptr} (h : Inv m (A ++ B)) {key value : U64} {rnd : Nat}
    (hr1 : 1 ≤ rnd) (hr2 : rnd ≤ skipListMaxHeight)
    (hA : ∀ p ∈ A, m.keyOf p < key)
    (hB : ∀ p ∈ B, KeyLt key (m.keyOf p)) :
    ∃ m', m.insertNew key value rnd = .ok m' ∧ Inv m' (A ++ m.fresh :: B) ∧
      m'.keyOf m.fresh = key ∧ m'.valOf m.fresh = value ∧
      (∀ p, p ≠ m.fresh → m'.shape p = m.shape p) := by
  -- the heap with the new, still unlinked node
  obtain ⟨height, hheq⟩ : ∃ x, x = if rnd > m.height then m.height + 1 else m.height := ⟨_, rfl⟩
  obtain ⟨level, hleq⟩ : ∃ x, x = if rnd > m.height then m.height + 1 else rnd := ⟨_, rfl⟩
  have hlevel : 1 ≤ level ∧ level ≤ height ∧ m.height ≤ height ∧ height ≤ skipListMaxHeight := by
    have := h.hh1
    have := h.hh2
    rw [hheq, hleq]
    split <;> omega
  have hunf : m.insertNew key value rnd = insertLevels key m.fresh level height
    (({ m with height := height, fresh := m.fresh + 1 } : MemMap).setCell m.fresh
    (some ⟨key, value, List.replicate (level + 1) 0⟩)) 0 := by
    rw [hheq, hleq]; rfl
  rw [hunf]
  clear hunf hheq hleq
  obtain ⟨m0, hm0⟩ : ∃ x, x = ({ m with height := height, fresh := m.fresh + 1 } : MemMap).setCell m.fresh
    (some ⟨key, value, List.replicate (level + 1) 0⟩) := ⟨_, rfl⟩
  rw [← hm0]
  have hm0h : m0.height = height := by rw [hm0]; rfl
  have hm0f : m0.fresh = m.fresh + 1 := by rw [hm0]; rfl
  have hf0 : m.fresh ≠ 0 := by have := h.len; omega
  have hfb : m.fresh ∉ A ++ B := fun hh => by have := h.fresh _ hh; omega
  have hs0 : ∀ p, p ≠ m.fresh → m0.shape p = m.shape p := by
    intro p hp
    simp [hm0, shape, setCell, hp]
  have hn0 : ∀ p j, p ≠ m.fresh → m0.nx p j = m.nx p j := by
    intro p j hp
    simp [hm0, nx, setCell, hp]
  have hsn : m0.shape m.fresh = some (key, value, level + 1) := by
    simp [hm0, shape, setCell]
  have hk0 : ∀ p, p ≠ m.fresh → m0.keyOf p = m.keyOf p := fun p hp => by simp [keyOf, hs0 p hp]
  have hl0 : ∀ p, p ≠ m.fresh → m0.lvl p = m.lvl p := fun p hp => by simp [lvl, hs0 p hp]
  have hneA : ∀ p ∈ A ++ B, p ≠ m.fresh := fun p hp e => hfb (e ▸ hp)
  have hnd : (0 :: (A ++ B)).Nodup := by
    rw [List.nodup_cons]; exact ⟨h.zero, h.nodup⟩
  have hlink0 : ∀ j, 1 ≤ j → j ≤ skipListMaxHeight →
      Linked m0 j 0 ((A ++ B).filter fun p => decide (j ≤ m0.lvl p)) := by
    intro j h1 h2
    have hfil : (A ++ B).filter (fun p => decide (j ≤ m0.lvl p)) =
        (A ++ B).filter (fun p => decide (j ≤ m.lvl p)) := by
      apply List.filter_congr
      intro p hp
      rw [hl0 p (hneA p hp)]
    rw [hfil]
    refine Linked.congr ?_ (h.linked j h1 h2)
    intro q hq
    apply hn0
    simp only [List.mem_cons, List.mem_filter] at hq
    rcases hq with rfl | hq
    · exact Ne.symm hf0
    · exact hneA q hq.1
  have hlen := h.len
  obtain ⟨m', hm', r1, r2, r3, r4⟩ := insertLevels_spec (m0 := m0) (key := key) (new := m.fresh)
    (level := level) (A := A) (B := B)
    (by obtain ⟨v, hv⟩ := h.head; exact ⟨v, by rw [hs0 0 (Ne.symm hf0), hv]⟩)
    (by
      intro p hp
      obtain ⟨k, v, l, hs, h1, _⟩ := h.nodes p hp
      exact ⟨k, v, l, by rw [hs0 p (hneA p hp), hs], h1⟩)
    ⟨value, hsn⟩ (by simp only [List.mem_cons, not_or]; exact ⟨hf0, hfb⟩) hnd
    (by intro p hp; rw [hk0 p (hneA p (by simp [hp]))]; exact hA p hp)
    (by
      intro p hp
      rw [hk0 p (hneA p (by simp [hp]))]
      rcases hB p hp with h1 | ⟨h1, h2⟩
      · simp only [BitVec.lt_def] at *; omega
      · rw [h1, h2]; simp [BitVec.lt_def])
    hlink0
    (by unfold walkFuel; rw [hm0f]; simp at hlen; omega)
    height m0 hlevel.2.2.2 rfl rfl (fun _ => rfl) (fun _ _ _ => rfl)
    (by
      intro j hj1 hj2
      have hfil : (A ++ m.fresh :: B).filter (fun p => decide (j ≤ m0.lvl p)) = [] := by
        rw [List.filter_eq_nil_iff]
        intro p hp
        have : m0.lvl p ≤ height := by
          by_cases e : p = m.fresh
          · rw [e, lvl_of_shape hsn]; omega
          · rw [hl0 p e]
            have hp' : p ∈ A ++ B := by simp [e] at hp ⊢; exact hp
            have := (h.lvl_bounds hp').2; omega
        simp; omega
      have hfil2 : (A ++ B).filter (fun p => decide (j ≤ m0.lvl p)) = [] := by
        rw [List.filter_eq_nil_iff]
        intro p hp
        have : m0.lvl p ≤ height := by
          rw [hl0 p (hneA p hp)]
          have := (h.lvl_bounds hp).2; omega
        simp; omega
      have := hlink0 j (by omega) hj2
      rw [hfil2] at this
      rw [hfil]; exact this)
  have hst : m0.lastAt A (height + 1) = 0 := by
    apply lastAt_above
    intro p hp
    have hp' : p ∈ A ++ B := by simp [hp]
    rw [hl0 p (hneA p hp')]
    have := (h.lvl_bounds hp').2; omega
  rw [hst] at hm'
  have hk' := keyOf_congr r3
  have hl' := lvl_congr r3
  refine ⟨m', ?_, ?_, ?_, ?_, ?_⟩
  · exact hm'
  · constructor
    · rw [r1, hm0h]; omega
    · rw [r1, hm0h]; exact hlevel.2.2.2
    · obtain ⟨v, hv⟩ := h.head
      exact ⟨v, by rw [r3, hs0 0 (Ne.symm hf0), hv]⟩
    · intro p hp
      rw [r1, hm0h]
      by_cases e : p = m.fresh
      · subst e
        exact ⟨key, value, level + 1, by rw [r3, hsn], by omega, by omega⟩
      · have hp' : p ∈ A ++ B := by simp [e] at hp ⊢; exact hp
        obtain ⟨k, v, l, hs, h1, h2⟩ := h.nodes p hp'
        exact ⟨k, v, l, by rw [r3, hs0 p e, hs], h1, by omega⟩
    · intro hh
      apply h.zero
      simp [Ne.symm hf0] at hh ⊢
      exact hh
    · intro p hp
      rw [r3] at hp
      by_cases e : p = m.fresh
      · right; simp [e]
      · rw [hs0 p e] at hp
        rcases h.owned p hp with h1 | h1
        · left; exact h1
        · right; simp at h1 ⊢; rcases h1 with h1 | h1
          · left; exact h1
          · right; right; exact h1
    · intro p hp
      rw [r2, hm0f]
      by_cases e : p = m.fresh
      · omega
      · have hp' : p ∈ A ++ B := by simp [e] at hp ⊢; exact hp
        have := h.fresh p hp'; omega
    · rw [r2, hm0f]
      simp at hlen ⊢; omega
    · have hn := h.nodup
      simp only [List.nodup_append, List.nodup_cons, List.mem_append, not_or] at hn hfb ⊢
      refine ⟨hn.1, ⟨hfb.2, hn.2.1⟩, ?_⟩
      intro a ha b hb
      simp only [List.mem_cons] at hb
      rcases hb with rfl | hb
      · exact fun e => hfb.1 (e ▸ ha)
      · exact hn.2.2 a ha b hb
    · have hso := h.sorted
      rw [hk']
      have hkn : m0.keyOf m.fresh = key := keyOf_of_shape hsn
      have hkA : ∀ p ∈ A, m0.keyOf p = m.keyOf p := fun p hp => hk0 p (hneA p (by simp [hp]))
      have hkB : ∀ p ∈ B, m0.keyOf p = m.keyOf p := fun p hp => hk0 p (hneA p (by simp [hp]))
      rw [List.pairwise_append] at hso ⊢
      refine ⟨?_, ?_, ?_⟩
      · refine List.Pairwise.imp_of_mem ?_ hso.1
        intro a b ha hb hab
        rw [hkA a ha, hkA b hb]; exact hab
      · rw [List.pairwise_cons]
        refine ⟨?_, ?_⟩
        · intro b hb
          rw [hkn, hkB b hb]; exact hB b hb
        · refine List.Pairwise.imp_of_mem ?_ hso.2.1
          intro a b ha hb hab
          rw [hkB a ha, hkB b hb]; exact hab
      · intro a ha b hb
        rw [hkA a ha]
        simp only [List.mem_cons] at hb
        rcases hb with rfl | hb
        · rw [hkn]; left; exact hA a ha
        · rw [hkB b hb]; exact hso.2.2 a ha b hb
    · intro j h1 h2
      rw [hl']; exact r4 j h1 h2
  · rw [hk']; exact keyOf_of_shape hsn
  · have : m'.valOf m.fresh = m0.valOf m.fresh := by simp [valOf, r3]
    rw [this]; exact valOf_of_shape hsn
  · intro p hp
    rw [r3, hs0 p hp]

end MemMap
end TraceDB
