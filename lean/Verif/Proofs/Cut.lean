import Verif.Proofs.Header
/-
Streams that end inside an entry.
-/
namespace TraceDB

variable {env : Env} {names : List Name} {types : List TypeDesc} {io : Bool}

theorem leNat_prefix_le (A B : List U8) : leNat A ≤ leNat (A ++ B) := by
  rw [leNat_append]; omega

/-- A machine on which uninitialised bytes have some value and allocations of
up to 4 GB succeed. -/
structure Env.Benign (env : Env) : Prop where
  junk : env.junk.isSome = true
  alloc : ∀ n, n < 2 ^ 32 → env.canAlloc n = true

/-- Splitting a cut sequence of bytes at a known position. -/
theorem cut_split {A B X Y : List U8} (h : A ++ B = X ++ Y) (hl : X.length ≤ A.length) :
    ∃ A', A = X ++ A' ∧ A' ++ B = Y := by
  rcases List.append_eq_append_iff.mp h with ⟨a, h1, h2⟩ | ⟨a, h1, h2⟩
  · have ha : a = [] := by
      have := congrArg List.length h1
      simp at this
      exact List.eq_nil_of_length_eq_zero (by omega)
    subst ha
    refine ⟨[], ?_, by simpa using h2⟩
    simpa using h1.symm
  · exact ⟨a, h1, h2.symm⟩

theorem readVarInfo_cut {H : List BufferSize} {n t : U32} {p L B : List U8}
    (he : (Entry.var n t p).WF names types)
    (h : L ++ B = leBytes 4 n.toNat ++ (leBytes 4 t.toNat ++
      match types[t.toNat]? with
      | some ty => encodePayload ty p
      | none => [])) (hB : B ≠ [])
    (hsane : ∀ ty ∈ types, ty.Sane) (henv : env.Benign) :
    (∃ v, readVarInfo MapImpl.history env names types H (gs io L) = .ok (v, ended io)) ∨
    readVarInfo MapImpl.history env names types H (gs io L) = .throw (endExn io) := by
  obtain ⟨hn, ty, hty, hp⟩ := he
  rw [hty] at h
  simp only at h
  have hBl : 0 < B.length := List.length_pos_iff.mpr hB
  unfold readVarInfo
  by_cases h4 : L.length < 4
  · right
    rw [readUInt_short h4]
    simp
  obtain ⟨L1, rfl, h1⟩ := cut_split h (by rw [leBytes_length]; omega)
  rw [readUInt_le (u32_lt n)]
  simp only [Res.ok_bind]
  by_cases h8 : L1.length < 4
  · -- the type index is cut
    right
    rw [readUInt_short h8]
    simp only [Res.ok_bind, leNat_overlay_zero]
    have hlt : leNat L1 < types.length := by
      have ht : t.toNat < types.length := by
        obtain ⟨hh, _⟩ := List.getElem?_eq_some_iff.mp hty
        exact hh
      have : ∃ C, L1 ++ C = leBytes 4 t.toNat := by
        have hpre : L1 <+: leBytes 4 t.toNat := by
          have e1 : L1 <+: leBytes 4 t.toNat ++ encodePayload ty p := ⟨B, h1⟩
          exact List.prefix_of_prefix_length_le e1 (List.prefix_append _ _) (by rw [leBytes_length]; omega)
        exact hpre
      obtain ⟨C, hC⟩ := this
      have h5 := leNat_prefix_le L1 C
      rw [hC, leNat_leBytes_of_lt (u32_lt t)] at h5
      omega
    rw [List.getElem?_eq_getElem hlt]
    simp only
    rw [if_neg (show ¬ n.toNat ≥ names.length by omega)]
    have hs := hsane types[leNat L1] (List.getElem_mem hlt)
    unfold TypeDesc.Sane at hs
    cases hf : (types[leNat L1]).format with
    | signed => simp only [hf] at hs ⊢; rw [if_pos hs]; simp
    | unsigned => simp
    | float => simp
    | pointer => simp
    | blob =>
      simp only
      split <;> simp
    | invalid => simp only [hf] at hs
  obtain ⟨L2, rfl, h2⟩ := cut_split h1 (by rw [leBytes_length]; omega)
  rw [readUInt_le (u32_lt t)]
  simp only [Res.ok_bind, hty]
  rw [if_neg (show ¬ n.toNat ≥ names.length by omega)]
  have hl2 : L2.length + B.length = (encodePayload ty p).length := by
    rw [← h2]; simp
  have hs := hsane ty (List.mem_of_getElem? hty)
  obtain ⟨f, hfj⟩ := Option.isSome_iff_exists.mp henv.junk
  have hword : ∀ m, m ≤ 8 → L2.length < m →
      readWord (gs io L2) m = .ok (BitVec.ofNat 64 (leNat L2), ended io) := by
    intro m hm hlt
    rcases readWord_tail (io := io) hlt with hh | ⟨hh, _⟩
    · exact hh
    · omega
  have hblob : ∀ (L : List U8) m, m < 2 ^ 32 → L.length < m → ∃ v, readBlob env (gs io L) m = .ok (v, ended io) := by
    intro L m hm hlt
    rcases readBlob_tail (env := env) (io := io) hlt with hh | ⟨hh, _⟩ | ⟨hh, _⟩
    · exact hh
    · rw [henv.alloc m hm] at hh; simp at hh
    · rw [hfj] at hh; simp at hh
  unfold PayloadOk at hp
  unfold TypeDesc.Sane at hs
  unfold encodePayload at hl2 h2
  cases hf : ty.format with
  | signed =>
    left
    simp only [hf] at hp hs hl2 ⊢
    simp only [reduceCtorEq, false_and, if_false] at hl2
    rw [if_pos hs]
    rcases readSigned_tail (env := env) (io := io) (n := ty.size.toNat) (L := L2) (by omega) with ⟨v, h⟩ | ⟨h1, h2⟩
    · rw [h]; exact ⟨_, rfl⟩
    · rw [hfj] at h1; simp at h1
  | unsigned =>
    left
    simp only [hf] at hp hs hl2 ⊢
    simp only [reduceCtorEq, false_and, if_false] at hl2
    rw [hword _ hs (by omega)]; exact ⟨_, rfl⟩
  | float =>
    left
    simp only [hf] at hp hs hl2 ⊢
    simp only [reduceCtorEq, false_and, if_false] at hl2
    rw [hword _ hs (by omega)]; exact ⟨_, rfl⟩
  | pointer =>
    left
    simp only [hf] at hp hs hl2 ⊢
    simp only [reduceCtorEq, false_and, if_false] at hl2
    rw [hword _ hs (by omega)]
    simp only [Res.ok_bind]
    split <;> exact ⟨_, rfl⟩
  | blob =>
    simp only [hf] at hp hs hl2 h2 ⊢
    by_cases hz : ty.size = 0
    · simp only [hz, and_self, if_true] at hp hl2 h2 ⊢
      by_cases h4 : L2.length < 4
      · right
        rw [readUInt_short h4]
        simp
      · left
        obtain ⟨L3, rfl, h3⟩ := cut_split h2 (by rw [leBytes_length]; omega)
        rw [readUInt_le (by omega)]
        simp only [Res.ok_bind]
        have : L3.length < p.length := by
          rw [← h3]; simp; omega
        obtain ⟨v, hv⟩ := hblob L3 p.length hp this
        rw [hv]; exact ⟨_, rfl⟩
    · simp only [hz, and_false, if_false] at hp hl2 h2 ⊢
      left
      obtain ⟨v, hv⟩ := hblob L2 ty.size.toNat ty.size.isLt (by omega)
      simp only [Res.pure_eq, Res.ok_bind, hv]; exact ⟨_, rfl⟩
  | invalid => simp only [hf] at hs

/-- The entry loop on a stream that ends inside an entry. -/
theorem readEntries_cut {fuel : Nat} {H : List BufferSize} {acc : PointAcc} {e : Entry} {A B : List U8}
    (he : e.WF names types) (h : e.encode types = A ++ B) (hA : A ≠ []) (hB : B ≠ [])
    (hsane : ∀ ty ∈ types, ty.Sane) (henv : env.Benign)
    (hres : ∀ r, e = .size r → r.address ≠ u64Max) :
    readEntries MapImpl.history env names types (fuel + 2) (gs io A) H acc = .throw (endExn io) := by
  cases A with
  | nil => exact absurd rfl hA
  | cons c A =>
  have hBl : 0 < B.length := List.length_pos_iff.mpr hB
  rw [readEntries]
  cases e with
  | stmt v =>
    simp only [Entry.encode, List.cons_append, List.cons.injEq] at h
    obtain ⟨rfl, h⟩ := h
    have hl := congrArg List.length h
    simp only [leBytes_length, List.length_append] at hl
    rw [readTag (c := 1) rfl]
    simp only [Res.ok_bind, gs_isGood, Bool.not_true, Bool.false_or, beq_iff_eq, Nat.succ_ne_zero, if_false]
    rw [binaryRead_short (by omega)]
    simp only [Res.ok_bind]
    exact readEntries_ended
  | aux v =>
    simp only [Entry.encode, List.cons_append, List.cons.injEq] at h
    obtain ⟨rfl, h⟩ := h
    have hl := congrArg List.length h
    simp only [leBytes_length, List.length_append] at hl
    rw [readTag (c := 4) rfl]
    simp only [Res.ok_bind, gs_isGood, Bool.not_true, Bool.false_or, beq_iff_eq, Nat.succ_ne_zero, if_false]
    rw [readUInt_short (by omega)]
    simp only [Res.ok_bind]
    exact readEntries_ended
  | size r =>
    simp only [Entry.encode, List.cons_append, List.cons.injEq] at h
    obtain ⟨rfl, h⟩ := h
    have hl := congrArg List.length h
    simp only [leBytes_length, List.length_append] at hl
    rw [readTag (c := 3) rfl]
    simp only [Res.ok_bind, gs_isGood, Bool.not_true, Bool.false_or, beq_iff_eq, Nat.succ_ne_zero, if_false]
    unfold readBufferSize
    by_cases h8 : A.length < 8
    · rw [readUInt_short h8]
      simp only [Res.ok_bind, readUInt_ended, Res.throw_bind]
    · obtain ⟨A', rfl, h'⟩ := cut_split h.symm (by rw [leBytes_length]; omega)
      rw [readUInt_le (u64_lt _)]
      simp only [Res.ok_bind]
      have hA' : A'.length < 8 := by
        simp only [List.length_append, leBytes_length] at hl; omega
      rw [readUInt_short hA']
      simp only [Res.ok_bind, Res.pure_eq, ofNat_toNat64]
      have hnf : ¬ (BufferSize.freesReserved ⟨r.address, BitVec.ofNat 64 (leNat (overlay (leBytes 8 0) A'))⟩ = true ∧
          MemMap.reservedCount H = 0) := by
        rintro ⟨hh, _⟩
        simp only [BufferSize.freesReserved, Bool.and_eq_true, decide_eq_true_eq, beq_iff_eq] at hh
        exact hres r rfl hh.1
      simp only [if_neg hnf, Res.ok_bind]
      exact readEntries_ended
  | var n t p =>
    simp only [Entry.encode, List.cons_append, List.cons.injEq] at h
    obtain ⟨rfl, h⟩ := h
    rw [readTag (c := 2) rfl]
    simp only [Res.ok_bind, gs_isGood, Bool.not_true, Bool.false_or, beq_iff_eq, Nat.succ_ne_zero, if_false]
    rcases readVarInfo_cut (io := io) (H := H) he h.symm hB hsane henv with ⟨v, hv⟩ | hv
    · rw [hv]
      simp only [Res.ok_bind]
      exact readEntries_ended
    · rw [hv]; rfl

end TraceDB
