import Verif.Proofs.ReaderEntries
/-
Sequences of entries, and what the entry loop does on bytes that do not start
with a complete entry.
-/
namespace TraceDB

variable {env : Env} {names : List Name} {types : List TypeDesc} {io : Bool}

/-! ### Sequences of entries -/

theorem entrySizes_cons (e : Entry) (es : List Entry) :
    entrySizes (e :: es) = (match e with | .size r => [r] | _ => []) ++ entrySizes es := by
  cases e <;> simp [entrySizes]

theorem stepHist_eq (H : List BufferSize) (e : Entry) (es : List Entry) :
    stepHist H e ++ entrySizes es = H ++ entrySizes (e :: es) := by
  cases e <;> simp [stepHist, entrySizes]

/-- The locals of `TracePoint::read` after some entries. -/
def accAfter (types : List TypeDesc) : List BufferSize → PointAcc → List Entry → PointAcc
  | _, acc, [] => acc
  | H, acc, e :: es => accAfter types (stepHist H e) (stepAcc types H acc e) es

theorem entryStmt_cons (e : Entry) (es : List Entry) :
    entryStmt (e :: es) = (entryStmt es).or (match e with | .stmt v => some v | _ => none) := by
  unfold entryStmt
  cases e with
  | stmt v =>
    simp only [List.filterMap_cons]
    rw [List.getLast?_cons]
    cases h : (es.filterMap fun | .stmt v => some v | _ => none).getLast? <;> simp
  | var n t p => simp [List.filterMap_cons]
  | size r => simp [List.filterMap_cons]
  | aux v => simp [List.filterMap_cons]

theorem accAfter_eq : ∀ (es : List Entry) (H : List BufferSize) (acc : PointAcc),
    accAfter types H acc es =
      ⟨(entryStmt es).or acc.statement, acc.sizes ++ entrySizes es,
        acc.vars ++ entryVars types H es, acc.aux ++ entryAux es⟩
  | [], H, acc => by simp [accAfter, entryStmt, entrySizes, entryAux, entryVars]
  | e :: es, H, acc => by
    rw [accAfter, accAfter_eq es, entryStmt_cons]
    cases e with
    | stmt v => simp [stepAcc, stepHist, entrySizes, entryAux, entryVars, Option.or_assoc]
    | var n t p =>
      simp only [stepAcc, stepHist, entrySizes, entryAux, entryVars, List.filterMap_cons]
      cases h : types[t.toNat]? <;> simp
    | size r => simp [stepAcc, stepHist, entrySizes, entryAux, entryVars]
    | aux v => simp [stepAcc, stepHist, entrySizes, entryAux, entryVars]

theorem accAfter_empty (es : List Entry) (H : List BufferSize) :
    accAfter types H .empty es =
      ⟨entryStmt es, entrySizes es, entryVars types H es, entryAux es⟩ := by
  rw [accAfter_eq]
  simp [PointAcc.empty]

theorem ReservedOk.prefix {H H' : List BufferSize} (h : ReservedOk H') (hp : H <+: H') : ReservedOk H :=
  fun P hP => h P (hP.trans hp)

theorem ReservedOk.not_overfree {H : List BufferSize} {r : BufferSize} (h : ReservedOk (H ++ [r])) :
    ¬ (r.freesReserved ∧ MemMap.reservedCount H = 0) := by
  rintro ⟨h1, h2⟩
  have h3 := h (H ++ [r]) (List.prefix_refl _)
  have har : r.allocsReserved = false := by
    simp [BufferSize.freesReserved, BufferSize.allocsReserved] at *
    intro _; exact h1.2
  simp only [List.countP_append, List.countP_cons, List.countP_nil, h1, har, MemMap.reservedCount] at h2 h3
  simp at h3
  omega

theorem ReservedOk.of_not_overfree {H : List BufferSize} {r : BufferSize} (hH : ReservedOk H)
    (h : ¬ (r.freesReserved ∧ MemMap.reservedCount H = 0)) : ReservedOk (H ++ [r]) := by
  apply MemMap.ReservedOk.snoc hH
  have h1 := hH H (List.prefix_refl _)
  simp only [List.countP_append, List.countP_cons, List.countP_nil]
  by_cases hr : r.freesReserved = true
  · have : MemMap.reservedCount H ≠ 0 := fun e => h ⟨hr, e⟩
    simp only [MemMap.reservedCount] at this
    simp [hr]; omega
  · simp [hr]; omega

theorem not_overfree_of_ok {H : List BufferSize} {e : Entry} {es : List Entry}
    (h : ReservedOk (H ++ entrySizes (e :: es))) : ¬ e.Overfree H := by
  cases e with
  | size r =>
    apply ReservedOk.not_overfree
    apply h.prefix
    rw [entrySizes_cons]
    simp
  | stmt v => simp [Entry.Overfree]
  | var n t p => simp [Entry.Overfree]
  | aux v => simp [Entry.Overfree]

/-- A sequence of well-formed entries. -/
theorem readEntries_entries : ∀ (es : List Entry) (fuel : Nat) (H : List BufferSize) (acc : PointAcc)
    (R : List U8), (∀ e ∈ es, e.WF names types) → (∀ e ∈ es, e.AllocOk env types) →
    ReservedOk (H ++ entrySizes es) →
    readEntries MapImpl.history env names types (es.length + fuel)
      (gs io (encodeEntries types es ++ R)) H acc =
    readEntries MapImpl.history env names types fuel (gs io R) (H ++ entrySizes es) (accAfter types H acc es)
  | [], fuel, H, acc, R, _, _, _ => by simp [encodeEntries, entrySizes, accAfter]
  | e :: es, fuel, H, acc, R, hwf, ha, hok => by
    have h1 : (e :: es).length + fuel = (es.length + fuel) + 1 := by simp; omega
    rw [h1]
    simp only [encodeEntries, List.flatMap_cons, List.append_assoc]
    rw [readEntries_entry (hwf e (by simp)) (ha e (by simp)) (not_overfree_of_ok hok)]
    have := readEntries_entries es fuel (stepHist H e) (stepAcc types H acc e) R
      (fun x hx => hwf x (by simp [hx])) (fun x hx => ha x (by simp [hx])) (by rw [stepHist_eq]; exact hok)
    simp only [encodeEntries] at this
    rw [this, stepHist_eq]
    rfl

/-- An entry whose blob cannot be allocated. -/
theorem readEntries_noalloc {fuel : Nat} {H : List BufferSize} {acc : PointAcc} {e : Entry} {R : List U8}
    (hwf : e.WF names types) (ha : ¬ e.AllocOk env types) :
    readEntries MapImpl.history env names types (fuel + 1) (gs io (e.encode types ++ R)) H acc =
    .ub .nullDeref := by
  rw [readEntries]
  cases e with
  | stmt v => exact absurd trivial ha
  | size v => exact absurd trivial ha
  | aux v => exact absurd trivial ha
  | var n t p =>
    obtain ⟨hn, ty, ht, hp⟩ := hwf
    have hb : ty.format = .blob ∧ 0 < p.length ∧ ¬ env.canAlloc p.length = true := by
      apply Classical.byContradiction
      intro hno
      apply ha
      intro ty' ht' hf hl
      rw [ht] at ht'
      cases ht'
      apply Classical.byContradiction
      intro hc
      exact hno ⟨hf, hl, hc⟩
    obtain ⟨hf, hl, hc⟩ := hb
    simp only [Entry.encode, List.cons_append]
    rw [readTag (c := 2) rfl]
    simp only [Res.ok_bind, gs_isGood, Bool.not_true, Bool.false_or, beq_iff_eq, Nat.succ_ne_zero, if_false]
    rw [ht]
    simp only [List.append_assoc]
    unfold readVarInfo
    simp only [readUInt_le (u32_lt n), readUInt_le (u32_lt t), Res.ok_bind, ht,
      if_neg (show ¬ n.toNat ≥ names.length by omega)]
    unfold PayloadOk at hp
    unfold encodePayload
    simp only [hf] at hp ⊢
    have hcc : p.length > 0 ∧ ¬ env.canAlloc p.length = true := ⟨hl, hc⟩
    by_cases hz : ty.size = 0
    · simp only [hz, if_true, and_self] at hp ⊢
      rw [List.append_assoc, readUInt_le (by simpa using hp)]
      simp only [Res.ok_bind, readBlob]
      rw [binaryRead_gs rfl]
      simp only [Res.ok_bind, if_pos hcc, Res.ub_bind]
    · simp only [hz, if_false, and_false] at hp ⊢
      simp only [Res.pure_eq, Res.ok_bind, readBlob]
      rw [← hp, binaryRead_gs rfl]
      simp only [Res.ok_bind, if_pos hcc, Res.ub_bind]

/-- A sequence of well-formed entries, whatever the environment: it is read, or
undefined behaviour is reached. -/
theorem readEntries_entries_any : ∀ (es : List Entry) (fuel : Nat) (H : List BufferSize) (acc : PointAcc)
    (R : List U8), (∀ e ∈ es, e.WF names types) → ReservedOk H →
    ((∀ e ∈ es, e.AllocOk env types) ∧ ReservedOk (H ++ entrySizes es)) ∨
    (∃ k, readEntries MapImpl.history env names types (es.length + fuel)
      (gs io (encodeEntries types es ++ R)) H acc = .ub k)
  | [], fuel, H, acc, R, _, hok => by left; simpa [entrySizes] using hok
  | e :: es, fuel, H, acc, R, hwf, hok => by
    have h1 : (e :: es).length + fuel = (es.length + fuel) + 1 := by simp; omega
    rw [h1]
    simp only [encodeEntries, List.flatMap_cons, List.append_assoc]
    by_cases ha : e.AllocOk env types
    · by_cases hof : e.Overfree H
      · right
        exact ⟨_, readEntries_overfree hof⟩
      · have hok' : ReservedOk (stepHist H e) := by
          cases e with
          | size r => exact ReservedOk.of_not_overfree hok hof
          | _ => exact hok
        rw [readEntries_entry (hwf e (by simp)) ha hof]
        rcases readEntries_entries_any es fuel (stepHist H e) (stepAcc types H acc e) R
          (fun x hx => hwf x (by simp [hx])) hok' with ⟨g1, g2⟩ | g
        · left
          refine ⟨?_, by rw [← stepHist_eq]; exact g2⟩
          intro x hx
          simp only [List.mem_cons] at hx
          rcases hx with rfl | hx
          · exact ha
          · exact g1 x hx
        · right; exact g
    · right
      exact ⟨_, readEntries_noalloc (hwf e (by simp)) ha⟩

/-! ### Bytes that do not start with a complete entry -/

/-- `left` starts neither with an end marker nor with a well-formed entry. -/
def Stuck (names : List Name) (types : List TypeDesc) (left : List U8) : Prop :=
  (∀ R, left ≠ 0 :: R) ∧ ∀ e R, Entry.WF names types e → left ≠ e.encode types ++ R

/-- The allocation record that the reader makes out of a record whose size field
is cut: the missing bytes count as 0. -/
def cutRecord : List U8 → List BufferSize
  | 3 :: L =>
    if 8 ≤ L.length ∧ L.length < 16 then
      [⟨BitVec.ofNat 64 (leNat (L.take 8)), BitVec.ofNat 64 (leNat (L.drop 8))⟩]
    else []
  | _ => []

/-- The bytes end inside the value of a signed or blob variable. -/
def CutValue (types : List TypeDesc) (left : List U8) : Prop :=
  ∃ n t v part ty m, left = 2 :: (leBytes 4 n ++ (leBytes 4 t ++ (v ++ part))) ∧ types[t]? = some ty ∧
    part.length < m ∧
    ((ty.format = .signed ∧ v = [] ∧ m = ty.size.toNat) ∨
     (ty.format = .blob ∧ ty.size = 0 ∧ v = leBytes 4 m ∧ m < 2 ^ 32) ∨
     (ty.format = .blob ∧ ty.size ≠ 0 ∧ v = [] ∧ m = ty.size.toNat))

/-- Why the reader reaches undefined behaviour on an incomplete entry. -/
inductive TailUB (env : Env) (types : List TypeDesc) (H : List BufferSize) (left : List U8) :
    UBKind → Prop
  | badFree (r : BufferSize) : r ∈ cutRecord left → r.freesReserved = true → MemMap.reservedCount H = 0 →
      TailUB env types H left .badFree
  | oobWrite (ty : TypeDesc) : ty ∈ types → ty.format ≠ .blob → 8 < ty.size.toNat →
      TailUB env types H left .oobWrite
  | nullDeref (n : Nat) : 0 < n → n < 2 ^ 32 → env.canAlloc n = false → TailUB env types H left .nullDeref
  | uninit : env.junk = none → CutValue types left → TailUB env types H left .uninit

/-- The reader fails with one of the two stream exceptions. -/
def FailsWith (io : Bool) {α : Type} (x : Res α) : Prop := x = .throw (endExn io) ∨ x = .throw .trace

theorem split4 {L : List U8} (h : 4 ≤ L.length) : ∃ n : U32, ∃ R, L = leBytes 4 n.toNat ++ R := by
  refine ⟨BitVec.ofNat 32 (leNat (L.take 4)), L.drop 4, ?_⟩
  have hl : (L.take 4).length = 4 := by simp [h]
  have : (BitVec.ofNat 32 (leNat (L.take 4))).toNat = leNat (L.take 4) := by
    rw [BitVec.toNat_ofNat, Nat.mod_eq_of_lt (leNat_four_lt hl)]
  have e : leBytes 4 (leNat (L.take 4)) = L.take 4 := by
    have := leBytes_leNat (L.take 4)
    rwa [hl] at this
  rw [this, e, List.take_append_drop]

theorem split8 {L : List U8} (h : 8 ≤ L.length) : ∃ n : U64, ∃ R, L = leBytes 8 n.toNat ++ R := by
  refine ⟨BitVec.ofNat 64 (leNat (L.take 8)), L.drop 8, ?_⟩
  have hl : (L.take 8).length = 8 := by simp [h]
  have : (BitVec.ofNat 64 (leNat (L.take 8))).toNat = leNat (L.take 8) := by
    rw [BitVec.toNat_ofNat, Nat.mod_eq_of_lt (leNat_eight_lt hl)]
  have e : leBytes 8 (leNat (L.take 8)) = L.take 8 := by
    have := leBytes_leNat (L.take 8)
    rwa [hl] at this
  rw [this, e, List.take_append_drop]

theorem readWord_tail {n : Nat} {L : List U8} (h : L.length < n) :
    (readWord (gs io L) n = .ok (BitVec.ofNat 64 (leNat L), ended io)) ∨
    (8 < n ∧ readWord (gs io L) n = .ub .oobWrite) := by
  simp only [readWord, binaryRead_short h, Res.ok_bind]
  by_cases h8 : L.length > 8
  · right; exact ⟨by omega, by rw [if_pos h8]⟩
  · left; rw [if_neg h8]; rfl

@[simp] theorem readWord_ended {n : Nat} : readWord (ended io) n = .throw (endExn io) := by
  simp [readWord]

@[simp] theorem readSigned_ended {n : Nat} : readSigned env (ended io) n = .throw (endExn io) := by
  simp [readSigned]

@[simp] theorem readBlob_ended {n : Nat} : readBlob env (ended io) n = .throw (endExn io) := by
  simp [readBlob]

theorem readSigned_tail {n : Nat} {L : List U8} (h : L.length < n) :
    (∃ v, readSigned env (gs io L) n = .ok (v, ended io)) ∨
    (env.junk = none ∧ readSigned env (gs io L) n = .ub .uninit) := by
  simp only [readSigned, binaryRead_short h, Res.ok_bind, Env.fillUninit,
    if_neg (show ¬ n ≤ L.length by omega)]
  cases hj : env.junk with
  | none => right; simp
  | some f => left; simp

theorem readBlob_tail {n : Nat} {L : List U8} (h : L.length < n) :
    (∃ v, readBlob env (gs io L) n = .ok (v, ended io)) ∨
    (env.canAlloc n = false ∧ readBlob env (gs io L) n = .ub .nullDeref) ∨
    (env.junk = none ∧ readBlob env (gs io L) n = .ub .uninit) := by
  simp only [readBlob, binaryRead_short h, Res.ok_bind, Env.fillUninit,
    if_neg (show ¬ n ≤ L.length by omega)]
  by_cases hc : n > 0 ∧ ¬ env.canAlloc n = true
  · right; left
    rw [if_pos hc]
    exact ⟨by simpa using hc.2, rfl⟩
  · rw [if_neg hc]
    cases hj : env.junk with
    | none => right; right; simp
    | some f => left; simp

/-- The variable reader on bytes that are no complete variable. -/
theorem readVarInfo_stuck {H : List BufferSize} {L : List U8}
    (hst : ∀ e R, Entry.WF names types e → 2 :: L ≠ e.encode types ++ R) :
    (∃ v, readVarInfo MapImpl.history env names types H (gs io L) = .ok (v, ended io)) ∨
    FailsWith io (readVarInfo MapImpl.history env names types H (gs io L)) ∨
    (∃ k, readVarInfo MapImpl.history env names types H (gs io L) = .ub k ∧
      TailUB env types H (2 :: L) k) := by
  unfold readVarInfo
  by_cases h4 : L.length < 4
  · right; left
    left
    rw [readUInt_short h4]
    simp
  obtain ⟨n, L1, rfl⟩ := split4 (L := L) (by omega)
  rw [readUInt_le (u32_lt n)]
  simp only [Res.ok_bind]
  by_cases h8 : L1.length < 4
  · -- the type index is cut
    rw [readUInt_short h8]
    simp only [Res.ok_bind]
    right; left
    cases ht : types[leNat (overlay (leBytes 4 0) L1)]? with
    | none => right; rfl
    | some ty =>
      simp only
      split
      · right; rfl
      · cases hf : ty.format with
        | signed =>
          simp only
          split
          · left; simp
          · right; rfl
        | unsigned => left; simp
        | float => left; simp
        | pointer => left; simp
        | blob =>
          left
          simp only
          split
          · simp
          · simp
        | invalid => right; rfl
  obtain ⟨t, L2, rfl⟩ := split4 (L := L1) (by omega)
  rw [readUInt_le (u32_lt t)]
  simp only [Res.ok_bind]
  cases ht : types[t.toNat]? with
  | none => right; left; right; rfl
  | some ty =>
    simp only
    split
    · right; left; right; rfl
    rename_i hnm
    have hnm : n.toNat < names.length := by omega
    have htm : ty ∈ types := List.mem_of_getElem? ht
    -- no admissible payload starts here
    have hno : ∀ p R, PayloadOk ty p → L2 ≠ encodePayload ty p ++ R := by
      intro p R hp he
      apply hst (.var n t p) R ⟨hnm, ty, ht, hp⟩
      simp only [Entry.encode, ht, List.cons_append, List.append_assoc, he]
    have hnumeric : ∀ m, ty.size.toNat = m → ty.format ≠ .blob →
        (∀ p : List U8, m ≤ 8 → p.length = m → PayloadOk ty p) →
        (readWord (gs io L2) m = .ok (BitVec.ofNat 64 (leNat L2), ended io)) ∨
        (readWord (gs io L2) m = .ub .oobWrite ∧ 8 < m) := by
      intro m hm hnb hok
      by_cases hlen : L2.length < m
      · rcases readWord_tail (io := io) hlen with h | ⟨h1, h2⟩
        · left; exact h
        · right; exact ⟨h2, h1⟩
      · by_cases h8 : m ≤ 8
        · exfalso
          apply hno (L2.take m) (L2.drop m) (hok _ h8 (by simp; omega))
          have : encodePayload ty (L2.take m) = L2.take m := by
            unfold encodePayload
            rw [if_neg (fun h => hnb h.1)]
          rw [this, List.take_append_drop]
        · right
          refine ⟨?_, by omega⟩
          have hd : L2 = L2.take m ++ L2.drop m := (List.take_append_drop m L2).symm
          rw [hd]
          have hl : (L2.take m).length = m := by simp; omega
          simp only [readWord, binaryRead_gs hl, Res.ok_bind]
          rw [if_pos (by omega)]
    cases hf : ty.format with
    | signed =>
      simp only
      split
      · rename_i hsz
        have hlen : L2.length < ty.size.toNat := by
          apply Classical.byContradiction
          intro hge
          apply hno (L2.take ty.size.toNat) (L2.drop ty.size.toNat)
          · unfold PayloadOk
            simp only [hf]
            exact ⟨hsz, by simp; omega⟩
          · have : encodePayload ty (L2.take ty.size.toNat) = L2.take ty.size.toNat := by
              unfold encodePayload
              rw [if_neg (by rw [hf]; simp)]
            rw [this, List.take_append_drop]
        rcases readSigned_tail (env := env) (io := io) hlen with ⟨v, h⟩ | ⟨h1, h2⟩
        · left
          rw [h]
          exact ⟨_, rfl⟩
        · right; right
          refine ⟨.uninit, by rw [h2]; rfl, .uninit h1 ?_⟩
          exact ⟨n.toNat, t.toNat, [], L2, ty, ty.size.toNat, by simp, ht, hlen, Or.inl ⟨hf, rfl, rfl⟩⟩
      · right; left; right; rfl
    | unsigned =>
      rcases hnumeric _ rfl (by rw [hf]; simp) (by
        intro p h1 h2; unfold PayloadOk; simp only [hf]; exact ⟨h1, h2⟩) with h | ⟨h, h8⟩
      · left; simp only [h]; exact ⟨_, rfl⟩
      · right; right
        exact ⟨_, by simp only [h]; rfl, .oobWrite ty htm (by rw [hf]; simp) h8⟩
    | float =>
      rcases hnumeric _ rfl (by rw [hf]; simp) (by
        intro p h1 h2; unfold PayloadOk; simp only [hf]; exact ⟨h1, h2⟩) with h | ⟨h, h8⟩
      · left; simp only [h]; exact ⟨_, rfl⟩
      · right; right
        exact ⟨_, by simp only [h]; rfl, .oobWrite ty htm (by rw [hf]; simp) h8⟩
    | pointer =>
      rcases hnumeric _ rfl (by rw [hf]; simp) (by
        intro p h1 h2; unfold PayloadOk; simp only [hf]; exact ⟨h1, h2⟩) with h | ⟨h, h8⟩
      · left
        simp only [h, Res.ok_bind]
        split
        · exact ⟨_, rfl⟩
        · exact ⟨_, rfl⟩
      · right; right
        exact ⟨_, by simp only [h]; rfl, .oobWrite ty htm (by rw [hf]; simp) h8⟩
    | blob =>
      simp only
      by_cases hz : ty.size = 0
      · rw [if_pos hz]
        by_cases h4' : L2.length < 4
        · right; left; left
          rw [readUInt_short h4']
          simp
        obtain ⟨m, L3, rfl⟩ := split4 (L := L2) (by omega)
        rw [readUInt_le (u32_lt m)]
        simp only [Res.ok_bind]
        have hlen : L3.length < m.toNat := by
          apply Classical.byContradiction
          intro hge
          have hl : (L3.take m.toNat).length = m.toNat := by simp; omega
          apply hno (L3.take m.toNat) (L3.drop m.toNat)
          · unfold PayloadOk
            simp only [hf, hz, if_true]
            rw [hl]; exact m.isLt
          · unfold encodePayload
            rw [if_pos ⟨hf, hz⟩, hl, List.append_assoc, List.take_append_drop]
        rcases readBlob_tail (env := env) (io := io) hlen with ⟨v, h⟩ | ⟨h1, h2⟩ | ⟨h1, h2⟩
        · left; rw [h]; exact ⟨_, rfl⟩
        · right; right
          exact ⟨_, by rw [h2]; rfl, .nullDeref m.toNat (by omega) m.isLt h1⟩
        · right; right
          refine ⟨_, by rw [h2]; rfl, .uninit h1 ?_⟩
          exact ⟨n.toNat, t.toNat, leBytes 4 m.toNat, L3, ty, m.toNat, rfl, ht, hlen,
            Or.inr (Or.inl ⟨hf, hz, rfl, m.isLt⟩)⟩
      · rw [if_neg hz]
        simp only [Res.pure_eq, Res.ok_bind]
        have hlen : L2.length < ty.size.toNat := by
          apply Classical.byContradiction
          intro hge
          have hl : (L2.take ty.size.toNat).length = ty.size.toNat := by simp; omega
          apply hno (L2.take ty.size.toNat) (L2.drop ty.size.toNat)
          · unfold PayloadOk
            simp only [hf, hz, if_false]
            exact hl
          · unfold encodePayload
            rw [if_neg (fun h => hz h.2), List.take_append_drop]
        rcases readBlob_tail (env := env) (io := io) hlen with ⟨v, h⟩ | ⟨h1, h2⟩ | ⟨h1, h2⟩
        · left; rw [h]; exact ⟨_, rfl⟩
        · right; right
          exact ⟨_, by rw [h2]; rfl, .nullDeref ty.size.toNat (by omega) ty.size.isLt h1⟩
        · right; right
          refine ⟨_, by rw [h2]; rfl, .uninit h1 ?_⟩
          exact ⟨n.toNat, t.toNat, [], L2, ty, ty.size.toNat, by simp, ht, hlen,
            Or.inr (Or.inr ⟨hf, hz, rfl, rfl⟩)⟩
    | invalid => right; left; right; rfl

/-- The entry loop on bytes that are no complete entry and not the end of the
stream: it fails, or reaches undefined behaviour for one of four reasons. -/
theorem readEntries_stuck {fuel : Nat} {H : List BufferSize} {acc : PointAcc} {left : List U8}
    (hst : Stuck names types left) (hne : left ≠ []) :
    FailsWith io (readEntries MapImpl.history env names types (fuel + 2) (gs io left) H acc) ∨
    (∃ k, readEntries MapImpl.history env names types (fuel + 2) (gs io left) H acc = .ub k ∧
      TailUB env types H left k) := by
  obtain ⟨h0, hst⟩ := hst
  cases left with
  | nil => exact absurd rfl hne
  | cons c L =>
    rw [readEntries, readTag (c := c.toNat) rfl]
    simp only [Res.ok_bind, gs_isGood, Bool.not_true, Bool.false_or, beq_iff_eq]
    have hc0 : c.toNat ≠ 0 := by
      intro e
      have : c = 0 := BitVec.eq_of_toNat_eq (by simpa using e)
      exact h0 L (by rw [this])
    rw [if_neg hc0]
    split
    · -- statement
      rename_i hc
      have hc : c = 1 := BitVec.eq_of_toNat_eq (by simpa using hc)
      subst hc
      have hlen : L.length < 8 := by
        apply Classical.byContradiction
        intro hge
        obtain ⟨v, R, rfl⟩ := split8 (L := L) (by omega)
        exact hst (.stmt v) R trivial rfl
      left; left
      rw [binaryRead_short hlen]
      simp only [Res.ok_bind, readEntries_ended]
    · -- variable
      rename_i hc
      have hc : c = 2 := BitVec.eq_of_toNat_eq (by simpa using hc)
      subst hc
      rcases readVarInfo_stuck (env := env) (io := io) (H := H) hst with ⟨v, h⟩ | h | ⟨k, h1, h2⟩
      · left; left
        rw [h]
        simp only [Res.ok_bind, readEntries_ended]
      · left
        rcases h with h | h
        · left; rw [h]; rfl
        · right; rw [h]; rfl
      · right
        exact ⟨k, by rw [h1]; rfl, h2⟩
    · -- buffer size
      rename_i hc
      have hc : c = 3 := BitVec.eq_of_toNat_eq (by simpa using hc)
      subst hc
      by_cases h8 : L.length < 8
      · left; left
        simp only [readBufferSize]
        rw [readUInt_short h8]
        simp
      obtain ⟨a, R, rfl⟩ := split8 (L := L) (by omega)
      have hlen : R.length < 8 := by
        apply Classical.byContradiction
        intro hge
        obtain ⟨v, R', rfl⟩ := split8 (L := R) (by omega)
        exact hst (.size ⟨a, v⟩) R' trivial (by simp [Entry.encode])
      simp only [readBufferSize, readUInt_le (u64_lt a), Res.ok_bind]
      rw [readUInt_short hlen, leNat_overlay_zero]
      simp only [Res.ok_bind, Res.pure_eq, ofNat_toNat64]
      by_cases hof : BufferSize.freesReserved ⟨a, BitVec.ofNat 64 (leNat R)⟩ ∧ MemMap.reservedCount H = 0
      · right
        refine ⟨.badFree, by rw [if_pos hof]; rfl, .badFree ⟨a, BitVec.ofNat 64 (leNat R)⟩ ?_ hof.1 hof.2⟩
        have hta : (leBytes 8 a.toNat ++ R).take 8 = leBytes 8 a.toNat := by
          rw [List.take_append_of_le_length (by simp), List.take_of_length_le (by simp)]
        have htd : (leBytes 8 a.toNat ++ R).drop 8 = R := by
          rw [List.drop_append_of_le_length (by simp), List.drop_of_length_le (by simp), List.nil_append]
        have hcond : 8 ≤ (leBytes 8 a.toNat ++ R).length ∧ (leBytes 8 a.toNat ++ R).length < 16 := by
          simp; omega
        have : cutRecord (3 :: (leBytes 8 a.toNat ++ R)) = [⟨a, BitVec.ofNat 64 (leNat R)⟩] := by
          show (if 8 ≤ (leBytes 8 a.toNat ++ R).length ∧ (leBytes 8 a.toNat ++ R).length < 16 then _ else _) = _
          rw [if_pos hcond, hta, htd, leNat_leBytes_of_lt (u64_lt a), ofNat_toNat64]
        rw [this]
        simp
      · left; left
        rw [if_neg hof]
        simp only [Res.ok_bind, readEntries_ended]
    · -- auxiliary value
      rename_i hc
      have hc : c = 4 := BitVec.eq_of_toNat_eq (by simpa using hc)
      subst hc
      have hlen : L.length < 8 := by
        apply Classical.byContradiction
        intro hge
        obtain ⟨v, R, rfl⟩ := split8 (L := L) (by omega)
        exact hst (.aux v) R trivial rfl
      left; left
      rw [readUInt_short hlen]
      simp only [Res.ok_bind, readEntries_ended]
    · left; right; rfl

end TraceDB
