import Verif.Model.Reader
import Verif.Spec.Format
import Verif.Proofs.Bytes
import Verif.Proofs.ReaderSim
/-
What the entry loop of the reader does on well-formed entries, on the end of the
stream and on everything else.  The memory map is the list of records.
-/
namespace TraceDB

/-- The blob of an entry can be allocated. -/
def Entry.AllocOk (env : Env) (types : List TypeDesc) : Entry → Prop
  | .var _ t p => ∀ ty, types[t.toNat]? = some ty → ty.format = .blob → 0 < p.length →
      env.canAlloc p.length = true
  | _ => True

/-- The entry would free the reserved address once too often. -/
def Entry.Overfree (H : List BufferSize) : Entry → Prop
  | .size r => r.freesReserved ∧ MemMap.reservedCount H = 0
  | _ => False

/-- Effect of an entry on the locals of `TracePoint::read`. -/
def stepAcc (types : List TypeDesc) (H : List BufferSize) (acc : PointAcc) : Entry → PointAcc
  | .stmt v => { acc with statement := some v }
  | .var n t p =>
    match types[t.toNat]? with
    | some ty => { acc with vars := acc.vars ++ [decodeVar ty H n t p] }
    | none => acc
  | .size r => { acc with sizes := acc.sizes ++ [r] }
  | .aux v => { acc with aux := acc.aux ++ [v] }

/-- Effect of an entry on the history. -/
def stepHist (H : List BufferSize) : Entry → List BufferSize
  | .size r => H ++ [r]
  | _ => H

theorem signExtend_eq {n : Nat} {p : List U8} (h : p.length = n) (hn : 0 < n) :
    (BitVec.ofNat (8 * n) (leNat p)).signExtend 64 = BitVec.ofInt 64 (signedOf p) := by
  subst h
  unfold BitVec.signExtend signedOf
  congr 1
  have hlt := leNat_lt p
  have hpow : (256 : Nat) ^ p.length = 2 ^ (8 * p.length) := by
    rw [show (256 : Nat) = 2 ^ 8 from rfl, ← Nat.pow_mul]
  rw [hpow] at hlt
  have hto : (BitVec.ofNat (8 * p.length) (leNat p)).toNat = leNat p := by
    rw [BitVec.toNat_ofNat, Nat.mod_eq_of_lt hlt]
  have h2 : 2 ^ (8 * p.length) = 2 * 2 ^ (8 * p.length - 1) := by
    rw [← Nat.pow_succ']
    congr 1
    omega
  rw [BitVec.toInt_eq_toNat_cond, hto]
  by_cases hc : leNat p < 2 ^ (8 * p.length - 1)
  · rw [if_pos (by omega), if_pos hc]
  · rw [if_neg (by omega), if_neg hc]
    simp

variable {env : Env} {names : List Name} {types : List TypeDesc} {io : Bool}

theorem readSigned_gs {n : Nat} {p R : List U8} (h : p.length = n) (hn : 0 < n) :
    readSigned env (gs io (p ++ R)) n = .ok (BitVec.ofInt 64 (signedOf p), gs io R) := by
  simp only [readSigned, binaryRead_gs h, Res.ok_bind, Env.fillUninit, h, Nat.le_refl, if_true,
    Res.pure_eq]
  rw [signExtend_eq h hn]

theorem readWord_gs {n : Nat} {p R : List U8} (h : p.length = n) (hn : n ≤ 8) :
    readWord (gs io (p ++ R)) n = .ok (BitVec.ofNat 64 (leNat p), gs io R) := by
  have : ¬ p.length > 8 := by omega
  simp only [readWord, binaryRead_gs h, Res.ok_bind, this, if_false, Res.pure_eq]

theorem readBlob_gs {n : Nat} {p R : List U8} (h : p.length = n)
    (ha : 0 < n → env.canAlloc n = true) :
    readBlob env (gs io (p ++ R)) n = .ok (p, gs io R) := by
  have : ¬ (n > 0 ∧ ¬ env.canAlloc n = true) := fun ⟨h1, h2⟩ => h2 (ha h1)
  simp only [readBlob, binaryRead_gs h, Res.ok_bind, Env.fillUninit, h, Nat.le_refl, if_true,
    Res.pure_eq, if_neg this]

/-- A well-formed variable entry is read as its meaning. -/
theorem readVarInfo_ok {H : List BufferSize} {n t : U32} {p R : List U8} {ty : TypeDesc}
    (hn : n.toNat < names.length) (ht : types[t.toNat]? = some ty) (hp : PayloadOk ty p)
    (ha : ty.format = .blob → 0 < p.length → env.canAlloc p.length = true) :
    readVarInfo MapImpl.history env names types H
      (gs io (leBytes 4 n.toNat ++ (leBytes 4 t.toNat ++ (encodePayload ty p ++ R)))) =
      .ok (decodeVar ty H n t p, gs io R) := by
  unfold readVarInfo
  simp only [readUInt_le (u32_lt n), readUInt_le (u32_lt t), Res.ok_bind, ht,
    if_neg (show ¬ n.toNat ≥ names.length by omega), ofNat_toNat32]
  unfold PayloadOk at hp
  unfold encodePayload decodeVar
  cases hf : ty.format with
  | signed =>
    simp only [hf] at hp ⊢
    simp only [reduceCtorEq, false_and, if_false]
    rw [if_pos hp.1, readSigned_gs hp.2 (by rcases hp.1 with h | h | h | h <;> rw [h] <;> decide)]
    simp only [Res.ok_bind, Res.pure_eq, hf]
  | unsigned =>
    simp only [hf] at hp ⊢
    simp only [reduceCtorEq, false_and, if_false]
    rw [readWord_gs hp.2 hp.1]
    simp only [Res.ok_bind, Res.pure_eq, hf]
  | float =>
    simp only [hf] at hp ⊢
    simp only [reduceCtorEq, false_and, if_false]
    rw [readWord_gs hp.2 hp.1]
    simp only [Res.ok_bind, Res.pure_eq, hf]
  | pointer =>
    simp only [hf] at hp ⊢
    simp only [reduceCtorEq, false_and, if_false]
    rw [readWord_gs hp.2 hp.1]
    simp only [Res.ok_bind, Res.pure_eq, hf, MapImpl.history]
    by_cases hb : lookupSize H (BitVec.ofNat 64 (leNat p)) = u64Max
    · simp [hb]
    · simp [hb]
  | blob =>
    simp only [hf] at hp ⊢
    by_cases hz : ty.size = 0
    · simp only [hz, if_true, and_self] at hp ⊢
      rw [List.append_assoc, readUInt_le (by simpa using hp)]
      simp only [Res.ok_bind]
      rw [readBlob_gs rfl (ha hf)]
      simp only [Res.ok_bind, Res.pure_eq, hf]
    · simp only [hz, if_false, and_false] at hp ⊢
      simp only [Res.pure_eq, Res.ok_bind]
      rw [← hp, readBlob_gs rfl (ha hf)]
      simp only [Res.ok_bind, Res.pure_eq, hf]
  | invalid =>
    simp only [hf] at hp

theorem readTag {c : Nat} {R : List U8} {b : U8} (h : b.toNat = c) :
    readUInt (gs io (b :: R)) 1 5 = .ok (c, gs io R) := by
  have := readUInt_gs (io := io) (n := 1) (old := 5) (b := [b]) (r := R) rfl
  simpa [leNat, h] using this

/-- One well-formed entry. -/
theorem readEntries_entry {fuel : Nat} {H : List BufferSize} {acc : PointAcc} {e : Entry} {R : List U8}
    (hwf : e.WF names types) (ha : e.AllocOk env types) (hof : ¬ e.Overfree H) :
    readEntries MapImpl.history env names types (fuel + 1) (gs io (e.encode types ++ R)) H acc =
    readEntries MapImpl.history env names types fuel (gs io R) (stepHist H e) (stepAcc types H acc e) := by
  rw [readEntries]
  cases e with
  | stmt v =>
    simp only [Entry.encode, List.cons_append]
    rw [readTag (c := 1) rfl]
    simp only [Res.ok_bind, gs_isGood, Bool.not_true, Bool.false_or, beq_iff_eq, Nat.succ_ne_zero, if_false]
    rw [binaryRead_gs (leBytes_length 8 _)]
    simp only [Res.ok_bind, leBytes_length, if_true, leNat_leBytes_of_lt (u64_lt v), ofNat_toNat64]
    rfl
  | var n t p =>
    obtain ⟨hn, ty, ht, hp⟩ := hwf
    simp only [Entry.encode, List.cons_append]
    rw [readTag (c := 2) rfl]
    simp only [Res.ok_bind, gs_isGood, Bool.not_true, Bool.false_or, beq_iff_eq, Nat.succ_ne_zero, if_false]
    rw [ht]
    simp only [List.append_assoc]
    rw [readVarInfo_ok hn ht hp (ha ty ht)]
    simp only [Res.ok_bind, stepAcc, ht, stepHist]
  | size r =>
    simp only [Entry.encode, List.cons_append]
    rw [readTag (c := 3) rfl]
    simp only [Res.ok_bind, gs_isGood, Bool.not_true, Bool.false_or, beq_iff_eq, Nat.succ_ne_zero, if_false]
    simp only [readBufferSize, List.append_assoc, readUInt_le (u64_lt _), Res.ok_bind, Res.pure_eq,
      ofNat_toNat64]
    simp only [Entry.Overfree] at hof
    simp only [MapImpl.history, if_neg hof, Res.ok_bind, stepAcc, stepHist]
  | aux v =>
    simp only [Entry.encode, List.cons_append]
    rw [readTag (c := 4) rfl]
    simp only [Res.ok_bind, gs_isGood, Bool.not_true, Bool.false_or, beq_iff_eq, Nat.succ_ne_zero, if_false]
    simp only [readUInt_le (u64_lt _), Res.ok_bind, ofNat_toNat64, stepAcc, stepHist]

/-- An entry that over-frees the reserved address. -/
theorem readEntries_overfree {fuel : Nat} {H : List BufferSize} {acc : PointAcc} {e : Entry} {R : List U8}
    (hof : e.Overfree H) :
    readEntries MapImpl.history env names types (fuel + 1) (gs io (e.encode types ++ R)) H acc =
    .ub .badFree := by
  rw [readEntries]
  cases e with
  | stmt v => exact absurd hof (by simp [Entry.Overfree])
  | var n t p => exact absurd hof (by simp [Entry.Overfree])
  | aux v => exact absurd hof (by simp [Entry.Overfree])
  | size r =>
    simp only [Entry.encode, List.cons_append]
    rw [readTag (c := 3) rfl]
    simp only [Res.ok_bind, gs_isGood, Bool.not_true, Bool.false_or, beq_iff_eq, Nat.succ_ne_zero, if_false]
    simp only [readBufferSize, List.append_assoc, readUInt_le (u64_lt _), Res.ok_bind, Res.pure_eq,
      ofNat_toNat64]
    simp only [Entry.Overfree] at hof
    simp only [MapImpl.history, if_pos hof, Res.ub_bind]

/-- The end marker. -/
theorem readEntries_fin {fuel : Nat} {H : List BufferSize} {acc : PointAcc} {R : List U8} :
    readEntries MapImpl.history env names types (fuel + 1) (gs io (0 :: R)) H acc = .ok (gs io R, H, acc) := by
  rw [readEntries, readTag (c := 0) rfl]
  simp

/-- The end of the stream. -/
theorem readEntries_end {fuel : Nat} {H : List BufferSize} {acc : PointAcc} :
    readEntries MapImpl.history env names types (fuel + 1) (gs io []) H acc = .ok (ended io, H, acc) := by
  rw [readEntries, readUInt_short (by simp)]
  simp

/-- On an ended stream the loop throws. -/
theorem readEntries_ended {fuel : Nat} {H : List BufferSize} {acc : PointAcc} :
    readEntries MapImpl.history env names types (fuel + 1) (ended io) H acc = .throw (endExn io) := by
  rw [readEntries, readUInt_ended]
  rfl

end TraceDB
