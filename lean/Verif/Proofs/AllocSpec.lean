import Verif.Spec.Alloc
import Verif.Proofs.SkipListRemove
/-
The skip list represents the allocation history.
-/
namespace TraceDB

theorem liveSize_nil (b : U64) : liveSize [] b = none := rfl

theorem liveSize_snoc (H : List BufferSize) (r : BufferSize) (b : U64) :
    liveSize (H ++ [r]) b =
      if r.address = b then (if r.size = 0 then none else some r.size) else liveSize H b := by
  unfold liveSize
  by_cases h : r.address = b
  · simp [h]
  · simp [List.find?_cons, h]

theorem liveSize_mem {H : List BufferSize} {b s : U64} (h : liveSize H b = some s) :
    ∃ r ∈ H, r.address = b := by
  unfold liveSize at h
  split at h
  · rename_i r hr
    have h1 := List.mem_of_find?_eq_some hr
    have h2 := List.find?_some hr
    exact ⟨r, by simpa using h1, by simpa using h2⟩
  · simp at h

theorem liveSize_ne_zero {H : List BufferSize} {b s : U64} (h : liveSize H b = some s) : s ≠ 0 := by
  unfold liveSize at h
  split at h
  · split at h
    · simp at h
    · simp at h; rename_i hne; rw [← h]; exact hne
  · simp at h

/-! ### `nearest` computes `IsNearest` -/

theorem nearest_foldl {H : List BufferSize} {a : U64} :
    ∀ (L : List BufferSize) (best : Option (U64 × U64)),
      (∀ x ∈ best, liveSize H x.1 = some x.2 ∧ x.1 ≠ u64Max ∧ x.1 ≤ a) →
      let res := L.foldl (fun best r =>
        match liveSize H r.address with
        | some s =>
          if r.address ≠ u64Max ∧ r.address ≤ a ∧ (∀ x ∈ best, x.1 ≤ r.address) then
            some (r.address, s)
          else best
        | none => best) best
      (∀ x ∈ res, liveSize H x.1 = some x.2 ∧ x.1 ≠ u64Max ∧ x.1 ≤ a) ∧
      (∀ x ∈ best, ∃ y ∈ res, x.1 ≤ y.1) ∧
      (∀ r ∈ L, ∀ s, liveSize H r.address = some s → r.address ≠ u64Max → r.address ≤ a →
        ∃ y ∈ res, r.address ≤ y.1)
  | [], best, hb => by
    refine ⟨hb, fun x hx => ⟨x, hx, BitVec.le_refl _⟩, by simp⟩
  | r :: L, best, hb => by
    simp only [List.foldl_cons]
    cases hl : liveSize H r.address with
    | none =>
      obtain ⟨h1, h2, h3⟩ := nearest_foldl L best hb
      refine ⟨h1, h2, ?_⟩
      intro r' hr' s hs hne hle
      simp only [List.mem_cons] at hr'
      rcases hr' with rfl | hr'
      · rw [hl] at hs; simp at hs
      · exact h3 r' hr' s hs hne hle
    | some s0 =>
      simp only
      by_cases hc : r.address ≠ u64Max ∧ r.address ≤ a ∧ (∀ x ∈ best, x.1 ≤ r.address)
      · rw [if_pos hc]
        obtain ⟨h1, h2, h3⟩ := nearest_foldl (H := H) (a := a) L (some (r.address, s0)) (by
          intro x hx
          simp at hx
          subst hx
          exact ⟨hl, hc.1, hc.2.1⟩)
        refine ⟨h1, ?_, ?_⟩
        · intro x hx
          obtain ⟨y, hy, hle⟩ := h2 (r.address, s0) (by simp)
          exact ⟨y, hy, BitVec.le_trans (hc.2.2 x hx) hle⟩
        · intro r' hr' s hs hne hle
          simp only [List.mem_cons] at hr'
          rcases hr' with rfl | hr'
          · exact h2 (r'.address, s0) (by simp)
          · exact h3 r' hr' s hs hne hle
      · rw [if_neg hc]
        obtain ⟨h1, h2, h3⟩ := nearest_foldl L best hb
        refine ⟨h1, h2, ?_⟩
        intro r' hr' s hs hne hle
        simp only [List.mem_cons] at hr'
        rcases hr' with rfl | hr'
        · have : ∃ x ∈ best, ¬ x.1 ≤ r'.address := by
            apply Classical.byContradiction
            intro hno
            apply hc
            refine ⟨hne, hle, ?_⟩
            intro x hx
            apply Classical.byContradiction
            intro h
            exact hno ⟨x, hx, h⟩
          obtain ⟨x, hx, hnot⟩ := this
          obtain ⟨y, hy, hle2⟩ := h2 x hx
          refine ⟨y, hy, ?_⟩
          simp only [BitVec.le_def] at *
          omega
        · exact h3 r' hr' s hs hne hle

theorem nearest_eq_some {H : List BufferSize} {a b s : U64} :
    nearest H a = some (b, s) ↔ IsNearest H a b s := by
  obtain ⟨h1, _, h3⟩ := nearest_foldl (H := H) (a := a) H none (by simp)
  change (∀ x ∈ nearest H a, _) at h1
  change (∀ r ∈ H, ∀ s, _ → _ → _ → ∃ y ∈ nearest H a, _) at h3
  constructor
  · intro h
    rw [h] at h1 h3
    obtain ⟨g1, g2, g3⟩ := h1 (b, s) (by simp)
    refine ⟨g1, g2, g3, ?_⟩
    intro b' s' hl hne hle
    obtain ⟨r, hr, rfl⟩ := liveSize_mem hl
    obtain ⟨y, hy, hle'⟩ := h3 r hr s' hl hne hle
    simp at hy
    subst hy
    exact hle'
  · intro h
    obtain ⟨r, hr, hrb⟩ := liveSize_mem h.live
    subst hrb
    obtain ⟨y, hy, hle⟩ := h3 r hr s h.live h.usable h.le
    obtain ⟨g1, g2, g3⟩ := h1 y hy
    have := h.greatest y.1 y.2 g1 g2 g3
    have heq : y.1 = r.address := BitVec.le_antisymm this hle
    rw [heq, h.live] at g1
    have : y = (r.address, s) := by
      cases y; simp at *; exact ⟨heq, g1.symm⟩
    rw [← this]; exact hy

theorem nearest_eq_none {H : List BufferSize} {a : U64} :
    nearest H a = none ↔ ∀ b s, liveSize H b = some s → b ≠ u64Max → ¬ b ≤ a := by
  obtain ⟨h1, _, h3⟩ := nearest_foldl (H := H) (a := a) H none (by simp)
  change (∀ x ∈ nearest H a, _) at h1
  change (∀ r ∈ H, ∀ s, _ → _ → _ → ∃ y ∈ nearest H a, _) at h3
  constructor
  · intro h b s hl hne hle
    obtain ⟨r, hr, rfl⟩ := liveSize_mem hl
    obtain ⟨y, hy, _⟩ := h3 r hr s hl hne hle
    rw [h] at hy; simp at hy
  · intro h
    cases hn : nearest H a with
    | none => rfl
    | some x =>
      obtain ⟨g1, g2, g3⟩ := h1 x (by rw [hn]; simp)
      exact absurd g3 (h _ _ g1 g2)

theorem IsNearest.unique {H : List BufferSize} {a b s b' s' : U64}
    (h : IsNearest H a b s) (h' : IsNearest H a b' s') : b = b' ∧ s = s' := by
  have h1 := nearest_eq_some.mpr h
  have h2 := nearest_eq_some.mpr h'
  rw [h1] at h2
  simpa using h2

theorem lookupSize_spec (H : List BufferSize) (a : U64) : LookupSpec H a (lookupSize H a) := by
  unfold LookupSpec lookupSize
  by_cases ha : a = u64Max
  · right; simp [ha]
  · simp only [ha, if_false]
    cases hn : nearest H a with
    | none =>
      right
      refine ⟨?_, rfl⟩
      intro b s _ h
      rw [nearest_eq_some.mpr h] at hn
      simp at hn
    | some x =>
      obtain ⟨b, s⟩ := x
      have h := nearest_eq_some.mp hn
      by_cases hle : a ≤ b + s
      · left; exact ⟨b, s, ha, h, hle, by simp [hle]⟩
      · right
        refine ⟨?_, by simp [hle]⟩
        intro b' s' _ h'
        obtain ⟨rfl, rfl⟩ := h.unique h'
        simp only [BitVec.le_def, BitVec.lt_def] at *; omega

theorem LookupSpec.unique {H : List BufferSize} {a r : U64} (h : LookupSpec H a r) :
    r = lookupSize H a := by
  have h0 := lookupSize_spec H a
  rcases h with ⟨b, s, h1, h2, h3, h4⟩ | ⟨h1, h2⟩ <;>
  rcases h0 with ⟨b', s', g1, g2, g3, g4⟩ | ⟨g1, g2⟩
  · obtain ⟨rfl, rfl⟩ := h2.unique g2
    rw [h4, g4]
  · have := g1 b s h1 h2
    simp only [BitVec.le_def, BitVec.lt_def] at *; omega
  · have := h1 b' s' g1 g2
    simp only [BitVec.le_def, BitVec.lt_def] at *; omega
  · rw [h2, g2]

/-! ### Representation -/

namespace MemMap

theorem randomLevelLoop_bounds (coin : Nat → Bool) : ∀ fuel level, 1 ≤ level →
    level ≤ skipListMaxHeight →
    1 ≤ randomLevelLoop coin fuel level ∧ randomLevelLoop coin fuel level ≤ skipListMaxHeight
  | 0, level, h1, h2 => ⟨h1, h2⟩
  | fuel + 1, level, h1, h2 => by
    unfold randomLevelLoop
    split
    · rename_i h
      simp at h
      exact randomLevelLoop_bounds coin fuel (level + 1) (by omega) (by omega)
    · exact ⟨h1, h2⟩

theorem randomLevel_bounds (coin : Nat → Bool) :
    1 ≤ randomLevel coin ∧ randomLevel coin ≤ skipListMaxHeight :=
  randomLevelLoop_bounds coin _ 1 (by omega) (by simp [skipListMaxHeight])

/-- number of unmatched allocations at the reserved address -/
def reservedCount (H : List BufferSize) : Nat :=
  H.countP (·.allocsReserved) - H.countP (·.freesReserved)

/-- The map `m` represents the history `H`. -/
structure Rep (H : List BufferSize) (m : MemMap) (base : List Ptr) : Prop where
  inv : Inv m base
  live : ∀ b s, b ≠ u64Max → ((∃ p ∈ base, m.keyOf p = b ∧ m.valOf p = s) ↔ liveSize H b = some s)
  reserved : base.countP (fun p => m.keyOf p == u64Max) = reservedCount H
  ok : ReservedOk H

theorem ReservedOk.snoc {H : List BufferSize} {r : BufferSize} (h : ReservedOk H)
    (h2 : (H ++ [r]).countP (·.freesReserved) ≤ (H ++ [r]).countP (·.allocsReserved)) :
    ReservedOk (H ++ [r]) := by
  intro P hP
  rw [List.prefix_concat_iff] at hP
  rcases hP with rfl | hP
  · exact h2
  · exact h P hP

/-- keys other than the reserved one are unique -/
theorem Inv.key_inj {m : MemMap} {base : List Ptr} (h : Inv m base) {p q : Nat}
    (hp : p ∈ base) (hq : q ∈ base) (hk : m.keyOf p = m.keyOf q) (hne : m.keyOf p ≠ u64Max) : p = q := by
  apply Classical.byContradiction
  intro hpq
  have hs := h.sorted
  obtain ⟨X, Y, rfl⟩ := List.append_of_mem hp
  simp only [List.mem_append, List.mem_cons] at hq
  rw [List.pairwise_append, List.pairwise_cons] at hs
  have key : KeyLt (m.keyOf p) (m.keyOf q) ∨ KeyLt (m.keyOf q) (m.keyOf p) := by
    rcases hq with hq | hq | hq
    · right; exact hs.2.2 q hq p (by simp)
    · exact absurd hq.symm hpq
    · left; exact hs.2.1.1 q hq
  rw [hk] at key hne
  rcases key with (h1 | h1) | (h1 | h1)
  · simp [BitVec.lt_def] at h1
  · exact hne h1.1
  · simp [BitVec.lt_def] at h1
  · exact hne h1.1

theorem Rep.construct : Rep [] MemMap.construct [] where
  inv := Inv.construct
  live := by simp [liveSize_nil]
  reserved := by simp [reservedCount]
  ok := by intro P hP; simp at hP; subst hP; simp

theorem keyOf_congr_at {m m' : MemMap} {p : Nat} (h : m'.shape p = m.shape p) :
    m'.keyOf p = m.keyOf p ∧ m'.valOf p = m.valOf p := by
  simp [keyOf, valOf, h]

theorem mem_of_getLast?_append {X Y : List Nat} {p q : Nat}
    (h : (X ++ q :: Y).getLast? = some p) (hqp : q ≠ p) : p ∈ Y := by
  cases Y with
  | nil => simp at h; exact absurd h hqp
  | cons y Y =>
    have h1 : (X ++ q :: y :: Y).getLast? = (y :: Y).getLast? := by
      rw [List.getLast?_append, List.getLast?_cons_cons, List.getLast?_cons]; rfl
    rw [h1] at h
    exact List.mem_of_getLast? h

/-- One update. -/
theorem Rep.step {H : List BufferSize} {m : MemMap} {base : List Ptr} (h : Rep H m base)
    (coin : Nat → Nat → Bool) (r : BufferSize) :
    (¬ (r.freesReserved ∧ reservedCount H = 0) →
      ∃ m' base', updateMemoryMap coin m r = .ok m' ∧ Rep (H ++ [r]) m' base') ∧
    (r.freesReserved ∧ reservedCount H = 0 → updateMemoryMap coin m r = .ub .badFree) := by
  have hinv := h.inv
  have hok := h.ok H (List.prefix_refl H)
  by_cases hz : r.size = 0
  · -- removal
    by_cases hmax : r.address = u64Max
    · have hfr : r.freesReserved = true := by simp [BufferSize.freesReserved, hz, hmax]
      have har : r.allocsReserved = false := by simp [BufferSize.allocsReserved, hz]
      constructor
      · intro hno
        have hcnt : 0 < reservedCount H := by
          rcases Nat.eq_zero_or_pos (reservedCount H) with h0 | h0
          · exact absurd ⟨hfr, h0⟩ hno
          · exact h0
        obtain ⟨A, B, hb, hA, hB⟩ := hinv.split_lt u64Max
        have hkB : ∀ p ∈ B, m.keyOf p = u64Max := by
          intro p hp
          have := hB p hp
          apply Classical.byContradiction
          intro hne
          have := lt_u64Max_of_ne hne
          simp only [BitVec.lt_def] at *; omega
        have hkA : ∀ p ∈ A, m.keyOf p ≠ u64Max := by
          intro p hp e
          have := hA p hp
          rw [e] at this; simp [BitVec.lt_def] at this
        have hcA : A.countP (fun p => m.keyOf p == u64Max) = 0 := by
          rw [List.countP_eq_zero]; intro p hp; simpa using hkA p hp
        cases B with
        | nil =>
          have h1 := h.reserved
          rw [hb] at h1
          simp [hcA] at h1
          omega
        | cons c B =>
          subst hb
          obtain ⟨m', hm', hinv', hf', hs'⟩ := hinv.remove_present hA hB (hkB c (by simp))
          refine ⟨m', A ++ B, by simp [updateMemoryMap, hz, hmax, hm'], hinv', ?_, ?_, ?_⟩
          · intro b s hbm
            rw [liveSize_snoc]
            have hne : r.address ≠ b := by rw [hmax]; exact Ne.symm hbm
            simp only [hne, if_false]
            rw [← h.live b s hbm]
            constructor
            · rintro ⟨p, hp, h1, h2⟩
              have hk := keyOf_congr_at (hs' p hp)
              refine ⟨p, ?_, by rw [← hk.1]; exact h1, by rw [← hk.2]; exact h2⟩
              simp at hp ⊢
              rcases hp with hp | hp
              · exact Or.inl hp
              · exact Or.inr (Or.inr hp)
            · rintro ⟨p, hp, h1, h2⟩
              have hpc : p ≠ c := by
                intro e; subst e
                rw [hkB p (by simp)] at h1
                exact hbm h1.symm
              have hp' : p ∈ A ++ B := by simp [hpc] at hp ⊢; exact hp
              have hk := keyOf_congr_at (hs' p hp')
              exact ⟨p, hp', by rw [hk.1]; exact h1, by rw [hk.2]; exact h2⟩
          · have h1 := h.reserved
            have e1 : (A ++ B).countP (fun p => m'.keyOf p == u64Max) =
                (A ++ B).countP (fun p => m.keyOf p == u64Max) := by
              apply List.countP_congr
              intro p hp
              rw [(keyOf_congr_at (hs' p hp)).1]
            rw [e1]
            rw [List.countP_append, List.countP_cons] at h1
            simp only [hkB c (by simp), beq_self_eq_true, if_true] at h1
            rw [List.countP_append]
            have : reservedCount (H ++ [r]) = reservedCount H - 1 := by
              simp [reservedCount, List.countP_append, List.countP_cons, hfr, har]
              omega
            omega
          · apply ReservedOk.snoc h.ok
            simp [List.countP_append, List.countP_cons, hfr, har]
            simp only [reservedCount] at hcnt
            omega
      · intro ⟨_, h0⟩
        have hno : ∀ p ∈ base, m.keyOf p ≠ u64Max := by
          have h1 := h.reserved
          rw [h0, List.countP_eq_zero] at h1
          intro p hp
          simpa using h1 p hp
        simp [updateMemoryMap, hz, hmax, hinv.remove_head_ub hno]
    · have hfr : r.freesReserved = false := by simp [BufferSize.freesReserved, hmax]
      have har : r.allocsReserved = false := by simp [BufferSize.allocsReserved, hz]
      have hres : reservedCount (H ++ [r]) = reservedCount H := by
        simp [reservedCount, List.countP_append, hfr, har]
      have hok' : ReservedOk (H ++ [r]) := by
        apply ReservedOk.snoc h.ok
        simp [List.countP_append, hfr, har]
        exact hok
      refine ⟨fun _ => ?_, fun hh => by rw [hfr] at hh; exact absurd hh.1 (by simp)⟩
      by_cases hex : ∃ c ∈ base, m.keyOf c = r.address
      · obtain ⟨c, hc, hkc⟩ := hex
        obtain ⟨A, B, hb, hA, hB⟩ := hinv.split_lt r.address
        have hcB : c ∈ B := by
          rw [hb] at hc
          simp at hc
          rcases hc with hc | hc
          · have := hA c hc
            rw [hkc] at this; simp [BitVec.lt_def] at this
          · exact hc
        cases B with
        | nil => simp at hcB
        | cons c' B =>
          -- the first node not below the key carries it
          have hk' : m.keyOf c' = r.address := by
            simp only [List.mem_cons] at hcB
            rcases hcB with rfl | hcB
            · exact hkc
            · have hs := hinv.sorted
              rw [hb, List.pairwise_append, List.pairwise_cons] at hs
              have h1 := hs.2.1.1 c hcB
              rw [hkc] at h1
              have h2 := hB c' (by simp)
              rcases h1 with h1 | h1
              · exact absurd h1 h2
              · exact absurd h1.2 hmax
          subst hb
          obtain ⟨m', hm', hinv', hf', hs'⟩ := hinv.remove_present hA hB hk'
          refine ⟨m', A ++ B, by simp [updateMemoryMap, hz, hm'], hinv', ?_, ?_, hok'⟩
          · intro b s hbm
            rw [liveSize_snoc]
            by_cases hbb : r.address = b
            · simp only [hbb, hz, if_true]
              constructor
              · rintro ⟨p, hp, h1, h2⟩
                have hk := keyOf_congr_at (hs' p hp)
                have hpb : p ∈ A ++ c' :: B := by
                  simp at hp ⊢
                  rcases hp with hp | hp
                  · exact Or.inl hp
                  · exact Or.inr (Or.inr hp)
                have : p = c' := hinv.key_inj hpb (by simp) (by rw [← hk.1, h1, hk', hbb])
                  (by rw [← hk.1, h1]; exact hbm)
                subst this
                have hnd := hinv.nodup
                rw [List.nodup_append, List.nodup_cons] at hnd
                simp at hp
                rcases hp with hp | hp
                · exact absurd rfl (hnd.2.2 p hp p (by simp))
                · exact absurd hp hnd.2.1.1
              · intro hh; simp at hh
            · simp only [hbb, if_false]
              rw [← h.live b s hbm]
              constructor
              · rintro ⟨p, hp, h1, h2⟩
                have hk := keyOf_congr_at (hs' p hp)
                refine ⟨p, ?_, by rw [← hk.1]; exact h1, by rw [← hk.2]; exact h2⟩
                simp at hp ⊢
                rcases hp with hp | hp
                · exact Or.inl hp
                · exact Or.inr (Or.inr hp)
              · rintro ⟨p, hp, h1, h2⟩
                have hpc : p ≠ c' := by
                  intro e; subst e
                  rw [hk'] at h1
                  exact hbb h1
                have hp' : p ∈ A ++ B := by simp [hpc] at hp ⊢; exact hp
                have hk := keyOf_congr_at (hs' p hp')
                exact ⟨p, hp', by rw [hk.1]; exact h1, by rw [hk.2]; exact h2⟩
          · have h1 := h.reserved
            have e1 : (A ++ B).countP (fun p => m'.keyOf p == u64Max) =
                (A ++ B).countP (fun p => m.keyOf p == u64Max) := by
              apply List.countP_congr
              intro p hp
              rw [(keyOf_congr_at (hs' p hp)).1]
            rw [e1, hres, ← h1, List.countP_append, List.countP_append, List.countP_cons]
            have : (m.keyOf c' == u64Max) = false := by rw [hk']; simpa using hmax
            simp [this]
      · have hno : ∀ p ∈ base, m.keyOf p ≠ r.address := fun p hp e => hex ⟨p, hp, e⟩
        refine ⟨m, base, by simp [updateMemoryMap, hz, hinv.remove_absent hmax hno], hinv, ?_, ?_, hok'⟩
        · intro b s hbm
          rw [liveSize_snoc]
          by_cases hbb : r.address = b
          · simp only [hbb, hz, if_true]
            constructor
            · rintro ⟨p, hp, h1, _⟩
              exact absurd (h1.trans hbb.symm) (hno p hp)
            · intro hh; simp at hh
          · simp only [hbb, if_false]
            exact h.live b s hbm
        · rw [hres]; exact h.reserved
  · -- allocation
    have hz' : ¬ r.size = 0#64 := hz
    have hfr : r.freesReserved = false := by simp [BufferSize.freesReserved, hz']
    refine ⟨fun _ => ?_, fun hh => by rw [hfr] at hh; exact absurd hh.1 (by simp)⟩
    have hlev := randomLevel_bounds (coin m.fresh)
    -- the two cases creating a node
    have hins : ∀ A B, base = A ++ B → (∀ p ∈ A, m.keyOf p < r.address) →
        (∀ p ∈ B, KeyLt r.address (m.keyOf p)) →
        ∃ m' base', m.insertNew r.address r.size (randomLevel (coin m.fresh)) = .ok m' ∧
          Rep (H ++ [r]) m' base' := by
      intro A B hb hA hB
      subst hb
      obtain ⟨m', hm', hinv', hk', hv', hs'⟩ := hinv.insertNew (value := r.size) hlev.1 hlev.2 hA hB
      have hnf : ∀ p ∈ A ++ B, p ≠ m.fresh := fun p hp => Nat.ne_of_lt (hinv.fresh p hp)
      refine ⟨m', A ++ m.fresh :: B, hm', hinv', ?_, ?_, ?_⟩
      · intro b s hbm
        rw [liveSize_snoc]
        by_cases hbb : r.address = b
        · simp only [hbb, hz, if_true, if_false]
          constructor
          · rintro ⟨p, hp, h1, h2⟩
            have : p = m.fresh := hinv'.key_inj hp (by simp) (by rw [h1, hk', hbb]) (by rw [h1]; exact hbm)
            rw [this, hv'] at h2
            simp [h2]
          · intro hh
            simp at hh
            exact ⟨m.fresh, by simp, by rw [hk', hbb], by rw [hv', hh]⟩
        · simp only [hbb, if_false]
          rw [← h.live b s hbm]
          constructor
          · rintro ⟨p, hp, h1, h2⟩
            have hpc : p ≠ m.fresh := by
              intro e; rw [e, hk'] at h1; exact hbb h1
            have hk := keyOf_congr_at (hs' p hpc)
            have hp' : p ∈ A ++ B := by simp [hpc] at hp ⊢; exact hp
            exact ⟨p, hp', by rw [← hk.1]; exact h1, by rw [← hk.2]; exact h2⟩
          · rintro ⟨p, hp, h1, h2⟩
            have hk := keyOf_congr_at (hs' p (hnf p hp))
            refine ⟨p, ?_, by rw [hk.1]; exact h1, by rw [hk.2]; exact h2⟩
            simp at hp ⊢
            rcases hp with hp | hp
            · exact Or.inl hp
            · exact Or.inr (Or.inr hp)
      · have h1 := h.reserved
        have eA : A.countP (fun p => m'.keyOf p == u64Max) = A.countP (fun p => m.keyOf p == u64Max) := by
          apply List.countP_congr
          intro p hp
          rw [(keyOf_congr_at (hs' p (hnf p (by simp [hp])))).1]
        have eB : B.countP (fun p => m'.keyOf p == u64Max) = B.countP (fun p => m.keyOf p == u64Max) := by
          apply List.countP_congr
          intro p hp
          rw [(keyOf_congr_at (hs' p (hnf p (by simp [hp])))).1]
        rw [List.countP_append] at h1
        rw [List.countP_append, List.countP_cons, eA, eB, hk']
        simp only [reservedCount, List.countP_append, List.countP_cons, List.countP_nil, hfr] at *
        by_cases hmax : r.address = u64Max
        · have har : r.allocsReserved = true := by simp [BufferSize.allocsReserved, hz', hmax]
          simp [har, hmax]; omega
        · have har : r.allocsReserved = false := by simp [BufferSize.allocsReserved, hmax]
          simp [har, hmax]; omega
      · apply ReservedOk.snoc h.ok
        simp only [List.countP_append, List.countP_cons, List.countP_nil, hfr]
        simp; omega
    by_cases hmax : r.address = u64Max
    · obtain ⟨A, B, hb, hA, hB⟩ := hinv.split_lt r.address
      obtain ⟨m', base', h1, h2⟩ := hins A B hb hA (by
        intro p hp
        right
        refine ⟨hmax, ?_⟩
        have := hB p hp
        rw [hmax] at this
        apply Classical.byContradiction
        intro hne
        have := lt_u64Max_of_ne hne
        simp only [BitVec.lt_def] at *; omega)
      refine ⟨m', base', ?_, h2⟩
      rw [hmax] at h1
      simp [updateMemoryMap, hz', update, hmax, find_max, h1]
    · obtain ⟨A, B, hb, hA, hB, hfind⟩ := hinv.find hmax
      cases hla : A.getLast? with
      | none =>
        have hA0 : A = [] := List.getLast?_eq_none_iff.mp hla
        subst hA0
        obtain ⟨m', base', h1, h2⟩ := hins [] B hb (by simp) (fun p hp => Or.inl (hB p hp))
        refine ⟨m', base', ?_, h2⟩
        simp [updateMemoryMap, hz', update, hfind, hla, h1]
      | some p =>
        have hpA : p ∈ A := List.mem_of_getLast? hla
        have hpb : p ∈ base := by simp [hb, hpA]
        obtain ⟨s, hs⟩ := Option.isSome_iff_exists.mp (hinv.isSome hpb)
        obtain ⟨n, hd, hkn, hvn, _, hheap⟩ := deref_of_shape hs
        by_cases hkp : m.keyOf p = r.address
        · obtain ⟨hinv', hk', hv'⟩ := hinv.setValue hpb hheap r.size
          refine ⟨_, base, by
            simp only [updateMemoryMap, hz, if_false, update, hfind, hla, Res.ok_bind, hd, hkn, hkp,
              if_true, Res.pure_eq], hinv', ?_, ?_, ?_⟩
          · intro b s' hbm
            rw [liveSize_snoc]
            by_cases hbb : r.address = b
            · simp only [hbb, hz, if_true, if_false]
              constructor
              · rintro ⟨q, hq, h1, h2⟩
                rw [hk'] at h1
                have : q = p := hinv.key_inj hq hpb (by rw [h1, hkp, hbb]) (by rw [h1]; exact hbm)
                rw [hv', this] at h2
                simp at h2
                simp [h2]
              · intro hh
                simp at hh
                exact ⟨p, hpb, by rw [hk', hkp, hbb], by rw [hv']; simp [hh]⟩
            · simp only [hbb, if_false]
              rw [← h.live b s' hbm]
              constructor
              · rintro ⟨q, hq, h1, h2⟩
                rw [hk'] at h1
                have hqp : q ≠ p := by intro e; rw [e, hkp] at h1; exact hbb h1
                rw [hv'] at h2
                simp [hqp] at h2
                exact ⟨q, hq, h1, h2⟩
              · rintro ⟨q, hq, h1, h2⟩
                have hqp : q ≠ p := by intro e; rw [e, hkp] at h1; exact hbb h1
                exact ⟨q, hq, by rw [hk']; exact h1, by rw [hv']; simp [hqp, h2]⟩
          · have e1 : base.countP (fun p_1 => (m.setCell p (some { n with value := r.size })).keyOf p_1 == u64Max) =
                base.countP (fun p => m.keyOf p == u64Max) := by
              apply List.countP_congr
              intro q _
              rw [hk']
            rw [e1, h.reserved]
            have har : r.allocsReserved = false := by simp [BufferSize.allocsReserved, hmax]
            simp [reservedCount, List.countP_append, hfr, har]
          · apply ReservedOk.snoc h.ok
            simp only [List.countP_append, List.countP_cons, List.countP_nil, hfr]
            simp; omega
        · -- all keys up to the last one are below the new key
          have hA' : ∀ q ∈ A, m.keyOf q < r.address := by
            intro q hq
            have hle := hA q hq
            by_cases he : m.keyOf q = r.address
            · exfalso
              -- q is not the last node, so the last one is above it
              have hqp : q ≠ p := fun e => hkp (e ▸ he)
              obtain ⟨X, Y, hXY⟩ := List.append_of_mem hq
              have hpY : p ∈ Y := mem_of_getLast?_append (hXY ▸ hla) hqp
              have hs := hinv.sorted
              rw [hb, hXY, List.pairwise_append, List.pairwise_append, List.pairwise_cons] at hs
              have h1 := hs.1.2.1.1 p hpY
              rw [he] at h1
              have h2 := hA p hpA
              rcases h1 with h1 | h1
              · simp only [BitVec.le_def, BitVec.lt_def] at *; omega
              · exact hmax h1.1
            · have : (m.keyOf q).toNat ≠ r.address.toNat := fun e => he (BitVec.eq_of_toNat_eq e)
              simp only [BitVec.le_def, BitVec.lt_def] at *; omega
          obtain ⟨m', base', h1, h2⟩ := hins A B hb hA' (fun q hq => Or.inl (hB q hq))
          refine ⟨m', base', ?_, h2⟩
          simp only [updateMemoryMap, hz, if_false, update, hfind, hla, Res.ok_bind, hd, hkn, hkp, h1]

/-- Lookups answer according to the history. -/
theorem Rep.find {H : List BufferSize} {m : MemMap} {base : List Ptr} (h : Rep H m base)
    {a : U64} (ha : a ≠ u64Max) :
    (m.find a = .ok none ∧ nearest H a = none) ∨
    (∃ p n, m.find a = .ok (some p) ∧ m.deref p = .ok n ∧ nearest H a = some (n.key, n.value)) := by
  obtain ⟨A, B, hb, hA, hB, hfind⟩ := h.inv.find ha
  cases hla : A.getLast? with
  | none =>
    left
    have hA0 : A = [] := List.getLast?_eq_none_iff.mp hla
    refine ⟨by rw [hfind, hla], ?_⟩
    rw [nearest_eq_none]
    intro b s hl hne hle
    obtain ⟨p, hp, h1, h2⟩ := (h.live b s hne).mpr hl
    rw [hb, hA0] at hp
    have := hB p (by simpa using hp)
    rw [h1] at this
    simp only [BitVec.le_def, BitVec.lt_def] at *; omega
  | some p =>
    right
    have hpA : p ∈ A := List.mem_of_getLast? hla
    have hpb : p ∈ base := by simp [hb, hpA]
    obtain ⟨s, hs⟩ := Option.isSome_iff_exists.mp (h.inv.isSome hpb)
    obtain ⟨n, hd, hkn, hvn, _, hheap⟩ := deref_of_shape hs
    refine ⟨p, n, by rw [hfind, hla], hd, ?_⟩
    rw [nearest_eq_some]
    have hle := hA p hpA
    have hne : m.keyOf p ≠ u64Max := by
      intro e
      rw [e] at hle
      have := lt_u64Max_of_ne ha
      simp only [BitVec.le_def] at *; omega
    refine ⟨?_, by rw [hkn]; exact hne, by rw [hkn]; exact hle, ?_⟩
    · rw [hkn, hvn]
      exact (h.live _ _ hne).mp ⟨p, hpb, rfl, rfl⟩
    · intro b' s' hl hne' hle'
      obtain ⟨q, hq, h1, h2⟩ := (h.live b' s' hne').mpr hl
      rw [hkn]
      have hqA : q ∈ A := by
        rw [hb] at hq
        simp at hq
        rcases hq with hq | hq
        · exact hq
        · have := hB q hq
          rw [h1] at this
          simp only [BitVec.le_def, BitVec.lt_def] at *; omega
      by_cases hqp : q = p
      · rw [← h1, hqp]; exact BitVec.le_refl _
      · obtain ⟨X, Y, hXY⟩ := List.append_of_mem hqA
        have hpY : p ∈ Y := mem_of_getLast?_append (hXY ▸ hla) hqp
        have hs := h.inv.sorted
        rw [hb, hXY, List.pairwise_append, List.pairwise_append, List.pairwise_cons] at hs
        have h3 := hs.1.2.1.1 p hpY
        rcases h3 with h3 | h3
        · rw [← h1]
          simp only [BitVec.le_def, BitVec.lt_def] at *; omega
        · exact absurd (h1.symm.trans h3.1) hne'

theorem Rep.computeBufferSize {H : List BufferSize} {m : MemMap} {base : List Ptr} (h : Rep H m base)
    (a : U64) : m.computeBufferSize a = .ok (lookupSize H a) := by
  by_cases ha : a = u64Max
  · simp [MemMap.computeBufferSize, ha, find_max, lookupSize]
  · rcases h.find ha with ⟨h1, h2⟩ | ⟨p, n, h1, h2, h3⟩
    · simp [MemMap.computeBufferSize, h1, lookupSize, h2, ha]
    · simp only [MemMap.computeBufferSize, h1, Res.ok_bind, h2, lookupSize, h3, ha, if_false]
      split <;> rfl

/-- Whole histories. -/
theorem Rep.run {coin : Nat → Nat → Bool} : ∀ (R H : List BufferSize) (m : MemMap) (base : List Ptr),
    Rep H m base →
    (ReservedOk (H ++ R) → ∃ m' base', run coin R m = .ok m' ∧ Rep (H ++ R) m' base') ∧
    (¬ ReservedOk (H ++ R) → run coin R m = .ub .badFree)
  | [], H, m, base, h => by
    simp only [List.append_nil, MemMap.run]
    exact ⟨fun _ => ⟨m, base, rfl, h⟩, fun hn => absurd h.ok hn⟩
  | r :: R, H, m, base, h => by
    have hstep := h.step coin r
    have hHr : H ++ r :: R = (H ++ [r]) ++ R := by simp
    by_cases hbad : r.freesReserved ∧ reservedCount H = 0
    · have hub := hstep.2 hbad
      have hnot : ¬ ReservedOk (H ++ r :: R) := by
        intro hk
        have h1 := hk (H ++ [r]) (by rw [hHr]; exact List.prefix_append _ _)
        have h2 := h.ok H (List.prefix_refl H)
        have har : r.allocsReserved = false := by
          have := hbad.1
          simp [BufferSize.freesReserved, BufferSize.allocsReserved] at *
          intro _; exact this.2
        simp only [List.countP_append, List.countP_cons, List.countP_nil, hbad.1, har] at h1
        have h3 := hbad.2
        simp only [reservedCount] at h3
        simp at h1
        omega
      refine ⟨fun hk => absurd hk hnot, fun _ => ?_⟩
      simp [MemMap.run, hub]
    · obtain ⟨m1, base1, h1, h2⟩ := hstep.1 hbad
      have ih := Rep.run (coin := coin) R (H ++ [r]) m1 base1 h2
      rw [hHr]
      simp only [MemMap.run, h1, Res.ok_bind]
      exact ih

end MemMap
end TraceDB
