import Verif.Proofs.AllocSpec
/-
Properties C15-C20: the memory map.

`MemMap.run coin H MemMap.construct` is the concrete skip list, at pointer
level, after the history `H` with tower heights drawn from `coin`.
-/
namespace TraceDB
open MemMap

/-- A history used in the examples: two buffers, one of them freed and
allocated again with another size, a stray pair of records at the reserved
address, and a buffer that is freed in the end. -/
def exampleHistory : List BufferSize :=
  [⟨0x1000, 16⟩, ⟨0x2000, 32⟩, ⟨u64Max, 5⟩, ⟨0x1000, 0⟩, ⟨u64Max, 0⟩, ⟨0x1000, 8⟩,
   ⟨0x3000, 64⟩, ⟨0x3000, 0⟩]

/-- Tower heights used in the examples: node `k` gets height `k mod 4 + 1`. -/
def exampleCoin : Nat → Nat → Bool := fun k j => decide (j < k % 4 + 1)

theorem reservedOk_iff_take {H : List BufferSize} :
    (∀ k, k ≤ H.length → (H.take k).countP (·.freesReserved) ≤ (H.take k).countP (·.allocsReserved)) ↔
      ReservedOk H := by
  constructor
  · intro h P hP
    have := h P.length hP.length_le
    rwa [← List.prefix_iff_eq_take.mp hP] at this
  · intro h k _
    exact h _ (List.take_prefix k H)

instance (H : List BufferSize) : Decidable (ReservedOk H) :=
  decidable_of_iff _ reservedOk_iff_take

theorem MemMap.rep_of_run {coin : Nat → Nat → Bool} {H : List BufferSize} (hok : ReservedOk H) :
    ∃ m base, MemMap.run coin H MemMap.construct = .ok m ∧ Rep H m base := by
  obtain ⟨m, base, h1, h2⟩ := (Rep.run (coin := coin) H [] _ _ Rep.construct).1 (by simpa using hok)
  exact ⟨m, base, h1, by simpa using h2⟩

theorem MemMap.ub_of_run {coin : Nat → Nat → Bool} {H : List BufferSize} (hno : ¬ ReservedOk H) :
    MemMap.run coin H MemMap.construct = .ub .badFree :=
  (Rep.run (coin := coin) H [] _ _ Rep.construct).2 (by simpa using hno)

theorem MemMap.rep_of_ok {coin : Nat → Nat → Bool} {H : List BufferSize} {m : MemMap}
    (h : MemMap.run coin H MemMap.construct = .ok m) : ReservedOk H ∧ ∃ base, Rep H m base := by
  by_cases hok : ReservedOk H
  · obtain ⟨m', base, h1, h2⟩ := rep_of_run (coin := coin) hok
    rw [h] at h1
    cases h1
    exact ⟨hok, base, h2⟩
  · rw [ub_of_run hok] at h; exact absurd h (by simp)

/-! ### C15 -/

/-- **C15**.  After every history that never over-frees the reserved address,
whatever the random tower heights, the skip list answers every lookup as the
plain specification demands: `LookupSpec` speaks about the history only. -/
theorem C15_lookup_refines_history (coin : Nat → Nat → Bool) (H : List BufferSize)
    (hok : ReservedOk H) (a : U64) :
    ∃ m r, MemMap.run coin H MemMap.construct = .ok m ∧
      m.computeBufferSize a = .ok r ∧ LookupSpec H a r := by
  obtain ⟨m, base, h1, h2⟩ := rep_of_run (coin := coin) hok
  exact ⟨m, _, h1, h2.computeBufferSize a, lookupSize_spec H a⟩

/-- **C15**, the node level: `skipListFind` returns the node of the greatest
live base not above the address, with its current size, and the null pointer
exactly when there is no such base. -/
theorem C15_find_is_nearest_lower (coin : Nat → Nat → Bool) (H : List BufferSize)
    (m : MemMap) (hm : MemMap.run coin H MemMap.construct = .ok m) (a : U64) (ha : a ≠ u64Max) :
    (m.find a = .ok none ∧ ∀ b s, ¬ IsNearest H a b s) ∨
    (∃ p n, m.find a = .ok (some p) ∧ m.heap p = some n ∧ IsNearest H a n.key n.value) := by
  obtain ⟨_, base, h⟩ := rep_of_ok hm
  rcases h.find ha with ⟨h1, h2⟩ | ⟨p, n, h1, h2, h3⟩
  · left
    refine ⟨h1, fun b s hn => ?_⟩
    rw [nearest_eq_some.mpr hn] at h2
    simp at h2
  · right
    refine ⟨p, n, h1, ?_, nearest_eq_some.mp h3⟩
    unfold deref at h2
    split at h2 <;> simp at h2
    subst h2; assumption

/-- The specification leaves no freedom: it determines the answer. -/
theorem C15_spec_functional (H : List BufferSize) (a r r' : U64)
    (h : LookupSpec H a r) (h' : LookupSpec H a r') : r = r' :=
  h.unique.trans h'.unique.symm

example : ReservedOk exampleHistory := by decide
example : (MemMap.run exampleCoin exampleHistory MemMap.construct >>= (·.computeBufferSize 0x1004)) = .ok 4 := by
  decide
example : (MemMap.run exampleCoin exampleHistory MemMap.construct >>= (·.computeBufferSize 0x1009)) = .ok u64Max := by
  decide
example : IsNearest exampleHistory 0x1fff 0x1000 8 := nearest_eq_some.mp (by decide)

/-! ### C16 -/

/-- **C16**.  Running a history through the memory map is undefined behaviour
exactly if at some moment the reserved address 2^64-1 has been freed more often
than allocated; otherwise it returns normally. -/
theorem C16_undefined_iff_overfreed (coin : Nat → Nat → Bool) (H : List BufferSize) :
    (MemMap.run coin H MemMap.construct = .ub .badFree ↔ ¬ ReservedOk H) ∧
    ((∃ m, MemMap.run coin H MemMap.construct = .ok m) ↔ ReservedOk H) := by
  by_cases hok : ReservedOk H
  · obtain ⟨m, base, h1, _⟩ := rep_of_run (coin := coin) hok
    simp [h1, hok]
  · simp [ub_of_run (coin := coin) hok, hok]

theorem liveSize_filter (H : List BufferSize) (p : U64 → Bool) {b : U64} (hb : p b = true) :
    liveSize (H.filter fun r => p r.address) b = liveSize H b := by
  unfold liveSize
  rw [← List.filter_reverse, List.find?_filter]
  congr 2
  funext r
  by_cases h : r.address = b
  · simp [h, hb]
  · simp [h]

theorem lookupSize_congr {H H' : List BufferSize} (a : U64)
    (h : ∀ b, b ≠ u64Max → liveSize H b = liveSize H' b) : lookupSize H a = lookupSize H' a := by
  have key : ∀ b s, IsNearest H a b s → IsNearest H' a b s := by
    intro b s hn
    exact ⟨by rw [← h b hn.usable]; exact hn.live, hn.usable, hn.le,
      fun b' s' hl hne hle => hn.greatest b' s' (by rw [h b' hne]; exact hl) hne hle⟩
  have key' : ∀ b s, IsNearest H' a b s → IsNearest H a b s := by
    intro b s hn
    exact ⟨by rw [h b hn.usable]; exact hn.live, hn.usable, hn.le,
      fun b' s' hl hne hle => hn.greatest b' s' (by rw [← h b' hne]; exact hl) hne hle⟩
  apply LookupSpec.unique
  have := lookupSize_spec H a
  rcases this with ⟨b, s, h1, h2, h3, h4⟩ | ⟨h1, h2⟩
  · exact Or.inl ⟨b, s, h1, key b s h2, h3, h4⟩
  · exact Or.inr ⟨fun b s hne hn => h1 b s hne (key' b s hn), h2⟩

/-- **C16**.  Records at the reserved address influence no lookup: deleting all
of them from the history changes no answer. -/
theorem C16_reserved_records_unobservable (coin coin' : Nat → Nat → Bool) (H : List BufferSize)
    (m : MemMap) (hm : MemMap.run coin H MemMap.construct = .ok m) :
    ∃ m', MemMap.run coin' (H.filter fun r => r.address != u64Max) MemMap.construct = .ok m' ∧
      ∀ a, m'.computeBufferSize a = m.computeBufferSize a := by
  obtain ⟨_, base, h⟩ := rep_of_ok hm
  have hok' : ReservedOk (H.filter fun r => r.address != u64Max) := by
    intro P hP
    have : P.countP (·.freesReserved) = 0 := by
      rw [List.countP_eq_zero]
      intro r hr
      have := (List.mem_filter.mp (hP.subset hr)).2
      simp [BufferSize.freesReserved] at this ⊢
      intro e; exact absurd e this
    omega
  obtain ⟨m', base', h1, h2⟩ := rep_of_run (coin := coin') hok'
  refine ⟨m', h1, fun a => ?_⟩
  rw [h2.computeBufferSize, h.computeBufferSize]
  congr 1
  apply lookupSize_congr
  intro b hb
  exact liveSize_filter H (fun a => a != u64Max) (by simpa using hb)

/-- A single free of the reserved address is enough. -/
example : MemMap.run exampleCoin [⟨0x1000, 16⟩, ⟨u64Max, 0⟩] MemMap.construct = .ub .badFree :=
  (C16_undefined_iff_overfreed _ _).1.mpr (by decide)
example : ∃ m, MemMap.run exampleCoin exampleHistory MemMap.construct = .ok m :=
  (C16_undefined_iff_overfreed _ _).2.mpr (by decide)

/-! ### C17 (the memory map part) -/

/-- **C17**.  Two runs over the same history with different random tower heights
end alike and answer every lookup alike. -/
theorem C17_levels_unobservable (coin coin' : Nat → Nat → Bool) (H : List BufferSize) (a : U64) :
    (MemMap.run coin H MemMap.construct >>= (·.computeBufferSize a)) =
    (MemMap.run coin' H MemMap.construct >>= (·.computeBufferSize a)) := by
  by_cases hok : ReservedOk H
  · obtain ⟨m, base, h1, h2⟩ := rep_of_run (coin := coin) hok
    obtain ⟨m', base', h1', h2'⟩ := rep_of_run (coin := coin') hok
    rw [h1, h1', Res.ok_bind, Res.ok_bind, h2.computeBufferSize, h2'.computeBufferSize]
  · rw [ub_of_run hok, ub_of_run hok]

/-- The structures themselves do differ. -/
example : (MemMap.run exampleCoin exampleHistory MemMap.construct >>= fun m => .ok m.height) ≠
    (MemMap.run (fun _ _ => false) exampleHistory MemMap.construct >>= fun m => .ok m.height) := by
  decide

/-! ### C18 -/

/-- **C18**.  A reported size never reaches past the allocation it comes from:
if a lookup at `a` reports `r` (other than "unknown"), a live allocation
`[b, b+s)` that does not wrap around starts at or below `a` and the reported
region ends exactly where the allocation ends.  No assumption on the history is
made beyond definedness: allocations may overlap or wrap. -/
theorem C18_size_within_allocation (coin : Nat → Nat → Bool) (H : List BufferSize) (m : MemMap)
    (hm : MemMap.run coin H MemMap.construct = .ok m) (a r : U64)
    (hr : m.computeBufferSize a = .ok r) (hknown : r ≠ u64Max) :
    ∃ b s, liveSize H b = some s ∧ b ≤ a ∧ b.toNat + s.toNat < 2 ^ 64 ∧
      a.toNat + r.toNat = b.toNat + s.toNat := by
  obtain ⟨_, base, h⟩ := rep_of_ok hm
  rw [h.computeBufferSize] at hr
  have hs := lookupSize_spec H a
  rw [Res.ok.inj hr] at hs
  rcases hs with ⟨b, s, h1, h2, h3, h4⟩ | ⟨h1, h2⟩
  · refine ⟨b, s, h2.live, h2.le, ?_⟩
    have hle := h2.le
    have hs0 := liveSize_ne_zero h2.live
    have hs0' : s.toNat ≠ 0 := fun e => hs0 (BitVec.eq_of_toNat_eq (by simpa using e))
    simp only [BitVec.le_def, BitVec.toNat_add] at h3 hle
    subst h4
    have ha := a.isLt
    have hb := b.isLt
    have hsl := s.isLt
    have hnw : b.toNat + s.toNat < 2 ^ 64 := by
      apply Classical.byContradiction
      intro hge
      have hlt : (b.toNat + s.toNat) % 2 ^ 64 = b.toNat + s.toNat - 2 ^ 64 := by
        rw [Nat.mod_eq_sub_mod (by omega), Nat.mod_eq_of_lt (by omega)]
      omega
    refine ⟨hnw, ?_⟩
    rw [Nat.mod_eq_of_lt hnw] at h3
    rw [BitVec.toNat_sub, BitVec.toNat_add, Nat.mod_eq_of_lt hnw]
    have : 2 ^ 64 - a.toNat + (b.toNat + s.toNat) = (b.toNat + s.toNat - a.toNat) + 2 ^ 64 := by omega
    rw [this, Nat.add_mod_right, Nat.mod_eq_of_lt (by omega)]
    omega
  · exact absurd h2 hknown

/-- The live allocations do not wrap around and do not overlap. -/
def WellFormedHistory (H : List BufferSize) : Prop :=
  (∀ b s, liveSize H b = some s → b.toNat + s.toNat < 2 ^ 64) ∧
  (∀ b s b' s', liveSize H b = some s → liveSize H b' = some s' → b ≠ b' →
    b.toNat + s.toNat ≤ b'.toNat ∨ b'.toNat + s'.toNat ≤ b.toNat)

/-- **C18**, completeness.  For well-formed live allocations every address
inside a live allocation is answered with the distance to its end. -/
theorem C18_inside_is_answered (coin : Nat → Nat → Bool) (H : List BufferSize) (m : MemMap)
    (hm : MemMap.run coin H MemMap.construct = .ok m) (hwf : WellFormedHistory H)
    (a b s : U64) (hl : liveSize H b = some s) (h1 : b.toNat ≤ a.toNat) (h2 : a.toNat < b.toNat + s.toNat) :
    m.computeBufferSize a = .ok (b + s - a) := by
  obtain ⟨_, base, h⟩ := rep_of_ok hm
  rw [h.computeBufferSize]
  congr 1
  symm
  apply LookupSpec.unique
  left
  have hnw := hwf.1 b s hl
  have hm1 : u64Max.toNat = 2 ^ 64 - 1 := by decide
  have hne : ∀ x : U64, x.toNat < 2 ^ 64 - 1 → x ≠ u64Max := by
    intro x hx e; rw [e, hm1] at hx; omega
  refine ⟨b, s, hne a (by omega), ⟨hl, hne b (by omega), by rw [BitVec.le_def]; exact h1, ?_⟩, ?_, rfl⟩
  · intro b' s' hl' hne' hle'
    by_cases hbb : b = b'
    · rw [hbb]; exact BitVec.le_refl _
    · have := hwf.2 b s b' s' hl hl' hbb
      rw [BitVec.le_def] at *
      omega
  · rw [BitVec.le_def, BitVec.toNat_add, Nat.mod_eq_of_lt hnw]
    omega

/-- **C18**, the other direction: an address that is neither inside a live
allocation nor one past the end of one is answered "unknown". -/
theorem C18_outside_is_unknown (coin : Nat → Nat → Bool) (H : List BufferSize) (m : MemMap)
    (hm : MemMap.run coin H MemMap.construct = .ok m) (a : U64)
    (hout : ∀ b s, liveSize H b = some s → ¬ (b.toNat ≤ a.toNat ∧ a.toNat ≤ b.toNat + s.toNat)) :
    m.computeBufferSize a = .ok u64Max := by
  obtain ⟨_, base, h⟩ := rep_of_ok hm
  have hc := h.computeBufferSize a
  by_cases hr : lookupSize H a = u64Max
  · rw [hc, hr]
  · obtain ⟨b, s, h1, h2, h3, h4⟩ := C18_size_within_allocation coin H m hm a _ hc hr
    exact absurd ⟨by rw [BitVec.le_def] at h2; exact h2, by omega⟩ (hout b s h1)

theorem liveSize_exampleHistory (b : U64) :
    liveSize exampleHistory b = if b = 0x1000 then some 8 else if b = 0x2000 then some 32 else none := by
  unfold liveSize exampleHistory
  simp only [List.reverse_cons, List.reverse_nil, List.nil_append, List.cons_append, List.find?_cons]
  by_cases h1 : b = 0x1000
  · subst h1; decide
  by_cases h2 : b = 0x2000
  · subst h2; decide
  by_cases h3 : b = 0x3000
  · subst h3; decide
  by_cases h4 : b = u64Max
  · subst h4; decide
  have e : ∀ x : U64, b ≠ x → (x == b) = false := fun x hx => by simpa using Ne.symm hx
  simp only [e _ h1, e _ h2, e _ h3, e _ h4, h1, h2, List.find?_nil, if_false]

example : WellFormedHistory exampleHistory := by
  constructor
  · intro b s h
    rw [liveSize_exampleHistory] at h
    split at h
    · cases h; subst_vars; decide
    · split at h
      · cases h; subst_vars; decide
      · cases h
  · intro b s b' s' h h' hne
    have key : ∀ b s, liveSize exampleHistory b = some s →
        (b = 0x1000 ∧ s = 8) ∨ (b = 0x2000 ∧ s = 32) := by
      intro b s h
      rw [liveSize_exampleHistory] at h
      split at h
      · cases h; exact Or.inl ⟨by assumption, rfl⟩
      · split at h
        · cases h; exact Or.inr ⟨by assumption, rfl⟩
        · cases h
    rcases key b s h with ⟨rfl, rfl⟩ | ⟨rfl, rfl⟩ <;> rcases key b' s' h' with ⟨rfl, rfl⟩ | ⟨rfl, rfl⟩
    · exact absurd rfl hne
    · decide
    · decide
    · exact absurd rfl hne

example : liveSize exampleHistory 0x2000 = some 32 ∧ (0x2010 : U64).toNat < (0x2000 : U64).toNat + 32 := by decide
example : (MemMap.run exampleCoin exampleHistory MemMap.construct >>= (·.computeBufferSize 0x2010)) = .ok 16 := by
  decide
/-- A wrapping allocation answers nothing. -/
example : (MemMap.run exampleCoin [⟨0xfffffffffffffff0, 0x20⟩] MemMap.construct >>=
    (·.computeBufferSize 0xfffffffffffffff8)) = .ok u64Max := by decide

/-! ### C19 -/

/-- **C19**.  After a free record for `b`, and as long as `b` is not mentioned
again, no lookup is answered from a node with base `b`. -/
theorem C19_freed_base_not_used (coin : Nat → Nat → Bool) (H R : List BufferSize) (b : U64)
    (hR : ∀ r ∈ R, r.address ≠ b) (m : MemMap)
    (hm : MemMap.run coin (H ++ ⟨b, 0⟩ :: R) MemMap.construct = .ok m) (a : U64) (p : Nat) (n : SNode)
    (hf : m.find a = .ok (some p)) (hn : m.heap p = some n) : n.key ≠ b := by
  by_cases ha : a = u64Max
  · rw [ha, find_max] at hf; simp at hf
  · rcases C15_find_is_nearest_lower coin _ m hm a ha with ⟨h1, _⟩ | ⟨p', n', h1, h2, h3⟩
    · rw [h1] at hf; simp at hf
    · rw [h1] at hf
      simp at hf
      subst hf
      rw [h2] at hn
      simp at hn
      subst hn
      intro e
      have hl := h3.live
      rw [e] at hl
      have : liveSize (H ++ ⟨b, 0⟩ :: R) b = none := by
        unfold liveSize
        have : (H ++ ⟨b, 0⟩ :: R).reverse.find? (fun r => r.address == b) = some ⟨b, 0⟩ := by
          rw [List.reverse_append, List.reverse_cons, List.append_assoc, List.find?_append]
          have : R.reverse.find? (fun r => r.address == b) = none := by
            rw [List.find?_eq_none]
            intro r hr
            simpa using hR r (by simpa using hr)
          rw [this]
          simp
        rw [this]
        simp
      rw [this] at hl
      simp at hl

/-- **C19**.  A later record for the same base replaces an earlier one: deleting
the earlier record from the history changes no answer. -/
theorem C19_later_record_replaces (coin coin' : Nat → Nat → Bool) (H R T : List BufferSize)
    (b s s' : U64) (hb : b ≠ u64Max) (m : MemMap)
    (hm : MemMap.run coin (H ++ ⟨b, s⟩ :: R ++ ⟨b, s'⟩ :: T) MemMap.construct = .ok m) :
    ∃ m', MemMap.run coin' (H ++ R ++ ⟨b, s'⟩ :: T) MemMap.construct = .ok m' ∧
      ∀ a, m'.computeBufferSize a = m.computeBufferSize a := by
  obtain ⟨hok, base, h⟩ := rep_of_ok hm
  have hok' : ReservedOk (H ++ R ++ ⟨b, s'⟩ :: T) := by
    rw [← reservedOk_iff_take]
    intro k _
    have hfr : BufferSize.freesReserved ⟨b, s⟩ = false := by simp [BufferSize.freesReserved, hb]
    have har : BufferSize.allocsReserved ⟨b, s⟩ = false := by simp [BufferSize.allocsReserved, hb]
    rw [List.append_assoc] at hok ⊢
    by_cases hk : k ≤ H.length
    · rw [List.take_append_of_le_length hk]
      exact hok _ ((List.take_prefix k H).trans (List.prefix_append _ _))
    · have hle := hok (H ++ ⟨b, s⟩ :: (R ++ ⟨b, s'⟩ :: T).take (k - H.length)) (by
        rw [List.prefix_append_right_inj, List.cons_append, List.cons_prefix_cons]
        exact ⟨rfl, List.take_prefix _ _⟩)
      rw [List.take_append, List.take_of_length_le (by omega)]
      simp only [List.countP_append, List.countP_cons, hfr, har] at hle ⊢
      simpa using hle
  obtain ⟨m', base', h1, h2⟩ := rep_of_run (coin := coin') hok'
  refine ⟨m', h1, fun a => ?_⟩
  rw [h2.computeBufferSize, h.computeBufferSize]
  congr 1
  apply lookupSize_congr
  intro c _
  unfold liveSize
  simp only [List.reverse_append, List.reverse_cons, List.append_assoc, List.find?_append]
  by_cases hc : b = c
  · simp [hc]
  · simp [hc]

/-- **C19**.  A record for one base leaves what is known about another live base
alone: the lookup at a live base is not changed by a record for another one. -/
theorem C19_other_bases_unaffected (coin : Nat → Nat → Bool) (H : List BufferSize) (r : BufferSize)
    (m m' : MemMap) (hm : MemMap.run coin H MemMap.construct = .ok m)
    (hm' : MemMap.run coin (H ++ [r]) MemMap.construct = .ok m')
    (b s : U64) (hl : liveSize H b = some s) (hne : r.address ≠ b) :
    m'.computeBufferSize b = m.computeBufferSize b := by
  obtain ⟨hok, base, h⟩ := rep_of_ok hm
  obtain ⟨hok', base', h'⟩ := rep_of_ok hm'
  rw [h.computeBufferSize, h'.computeBufferSize]
  congr 1
  by_cases hb : b = u64Max
  · simp [lookupSize, hb]
  · have h1 : IsNearest H b b s := ⟨hl, hb, BitVec.le_refl _, fun _ _ _ _ h => h⟩
    have h2 : IsNearest (H ++ [r]) b b s :=
      ⟨by rw [liveSize_snoc, if_neg hne]; exact hl, hb, BitVec.le_refl _, fun _ _ _ _ h => h⟩
    simp [lookupSize, hb, nearest_eq_some.mpr h1, nearest_eq_some.mpr h2]

/-- 0x3000 is freed by the last record of the example: lookups above it fall
back to 0x2000. -/
example : exampleHistory = exampleHistory.take 7 ++ ⟨0x3000, 0⟩ :: [] ∧
    nearest exampleHistory 0x3008 = some (0x2000, 32) := by decide
/-- 0x1000 is allocated with 16 bytes, freed, and allocated with 8 bytes. -/
example : ∃ H R T, exampleHistory = H ++ ⟨0x1000, 16⟩ :: R ++ ⟨0x1000, 8⟩ :: T ∧ R ≠ [] ∧ T ≠ [] :=
  ⟨[], [⟨0x2000, 32⟩, ⟨u64Max, 5⟩, ⟨0x1000, 0⟩, ⟨u64Max, 0⟩], [⟨0x3000, 64⟩, ⟨0x3000, 0⟩], by decide⟩
example : liveSize (exampleHistory.take 7) 0x2000 = some 32 ∧ (0x3000 : U64) ≠ 0x2000 := by decide

/-! ### C20 -/

/-- **C20**.  For every history that does not over-free the reserved address no
operation of the memory map touches a dead node, an entry outside a node's
array or runs forever: all updates and all lookups return, the height stays
within the limit, and destroying the map frees every node it owns, each once. -/
theorem C20_memory_safe (coin : Nat → Nat → Bool) (H : List BufferSize) (hok : ReservedOk H) :
    ∃ m, MemMap.run coin H MemMap.construct = .ok m ∧
      (∀ a, ∃ r, m.computeBufferSize a = .ok r) ∧
      1 ≤ m.height ∧ m.height ≤ skipListMaxHeight ∧
      ∃ m', m.destruct = .ok m' ∧ ∀ p, p ≠ 0 → m'.heap p = none := by
  obtain ⟨m, base, h1, h2⟩ := rep_of_run (coin := coin) hok
  exact ⟨m, h1, fun a => ⟨_, h2.computeBufferSize a⟩, h2.inv.hh1, h2.inv.hh2, h2.inv.destruct⟩

/-- Before destruction the example map does own nodes. -/
example : (MemMap.run exampleCoin exampleHistory MemMap.construct >>= fun m =>
    .ok ((List.range 8).filter fun p => (m.heap p).isSome)) = .ok [0, 2, 4] := by decide

end TraceDB
