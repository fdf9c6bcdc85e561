import Verif.Model.Bytes
/-
Lemmas about little-endian bytes and short reads.
-/
namespace TraceDB

@[simp] theorem leBytes_length : ∀ n v, (leBytes n v).length = n
  | 0, _ => rfl
  | n + 1, v => by simp [leBytes, leBytes_length n]

theorem leNat_lt : ∀ bs : List U8, leNat bs < 256 ^ bs.length
  | [] => by simp [leNat]
  | b :: bs => by
    have := leNat_lt bs
    have hb := b.isLt
    simp only [leNat, List.length_cons, Nat.pow_succ]
    omega

theorem leNat_leBytes : ∀ n v, leNat (leBytes n v) = v % 256 ^ n
  | 0, v => by simp [leBytes, leNat, Nat.mod_one]
  | n + 1, v => by
    simp only [leBytes, leNat, leNat_leBytes n, BitVec.toNat_ofNat]
    have h : v % 256 ^ (n + 1) = v % 256 + 256 * (v / 256 % 256 ^ n) := by
      rw [Nat.pow_succ, Nat.mul_comm (256 ^ n), Nat.mod_mul]
    rw [h]

theorem leNat_leBytes_of_lt {n v : Nat} (h : v < 256 ^ n) : leNat (leBytes n v) = v := by
  rw [leNat_leBytes, Nat.mod_eq_of_lt h]

theorem leBytes_leNat : ∀ bs : List U8, leBytes bs.length (leNat bs) = bs
  | [] => rfl
  | b :: bs => by
    have hb := b.isLt
    simp only [List.length_cons, leBytes, leNat]
    have h1 : (b.toNat + 256 * leNat bs) / 256 = leNat bs := by omega
    rw [h1, leBytes_leNat bs]
    congr 1
    apply BitVec.eq_of_toNat_eq
    simp [BitVec.toNat_ofNat]
    omega

theorem leBytes_mod (n v : Nat) : leBytes n (v % 256 ^ n) = leBytes n v := by
  have h := leBytes_leNat (leBytes n v)
  rw [leBytes_length, leNat_leBytes] at h
  exact h

theorem leBytes_inj {n v w : Nat} (hv : v < 256 ^ n) (hw : w < 256 ^ n)
    (h : leBytes n v = leBytes n w) : v = w := by
  have := congrArg leNat h
  rwa [leNat_leBytes_of_lt hv, leNat_leBytes_of_lt hw] at this

theorem leNat_append : ∀ a b : List U8, leNat (a ++ b) = leNat a + 256 ^ a.length * leNat b
  | [], b => by simp [leNat]
  | x :: a, b => by
    simp only [List.cons_append, leNat, leNat_append a b, List.length_cons, Nat.pow_succ]
    rw [Nat.mul_add, ← Nat.mul_assoc, Nat.add_assoc]
    congr 3
    omega

theorem leNat_replicate_zero : ∀ n, leNat (List.replicate n (0 : U8)) = 0
  | 0 => rfl
  | n + 1 => by rw [List.replicate_succ, leNat, leNat_replicate_zero n]; rfl

theorem leBytes_zero : ∀ n, leBytes n 0 = List.replicate n 0
  | 0 => rfl
  | n + 1 => by simp [leBytes, leBytes_zero n, List.replicate_succ]

theorem overlay_full {old got : List U8} (h : old.length ≤ got.length) : overlay old got = got := by
  unfold overlay
  rw [List.drop_eq_nil_of_le h, List.append_nil]

theorem overlay_length {old got : List U8} (h : got.length ≤ old.length) :
    (overlay old got).length = old.length := by
  unfold overlay
  simp
  omega

/-- A good stream. -/
@[reducible] def gs (io : Bool) (bs : List U8) : IStream := ⟨bs, io, .good⟩

/-- The stream after a read past the end. -/
@[reducible] def ended (io : Bool) : IStream := ⟨[], io, if io then .bad else .eof⟩

/-- What a read on an ended stream throws. -/
def endExn (io : Bool) : Exn := if io then .trace else .eof

@[simp] theorem gs_isGood (io : Bool) (bs : List U8) : (gs io bs).isGood = true := rfl
@[simp] theorem ended_isGood (io : Bool) : (ended io).isGood = false := by cases io <;> rfl

theorem binaryRead_gs {io : Bool} {n : Nat} {b r : List U8} (h : b.length = n) :
    binaryRead (gs io (b ++ r)) n = .ok (b, gs io r) := by
  simp [binaryRead, IStream.read, ← h]

theorem binaryRead_short {io : Bool} {n : Nat} {b : List U8} (h : b.length < n) :
    binaryRead (gs io b) n = .ok (b, ended io) := by
  have : ¬ n ≤ b.length := by omega
  simp [binaryRead, IStream.read, this]

@[simp] theorem binaryRead_ended {io : Bool} {n : Nat} : binaryRead (ended io) n = .throw (endExn io) := by
  cases io <;> rfl

theorem readUInt_gs {io : Bool} {n old : Nat} {b r : List U8} (h : b.length = n) :
    readUInt (gs io (b ++ r)) n old = .ok (leNat b, gs io r) := by
  simp only [readUInt, binaryRead_gs h, Res.ok_bind, Res.pure_eq]
  rw [overlay_full (by simp [h])]

theorem readUInt_le {io : Bool} {n old v : Nat} {r : List U8} (h : v < 256 ^ n) :
    readUInt (gs io (leBytes n v ++ r)) n old = .ok (v, gs io r) := by
  rw [readUInt_gs (leBytes_length n v), leNat_leBytes_of_lt h]

theorem readUInt_short {io : Bool} {n old : Nat} {b : List U8} (h : b.length < n) :
    readUInt (gs io b) n old = .ok (leNat (overlay (leBytes n old) b), ended io) := by
  simp only [readUInt, binaryRead_short h, Res.ok_bind, Res.pure_eq]

@[simp] theorem readUInt_ended {io : Bool} {n old : Nat} :
    readUInt (ended io) n old = .throw (endExn io) := by
  simp [readUInt]

/-- a short read into a zeroed integer delivers the bytes that were there -/
theorem leNat_overlay_zero {n : Nat} {b : List U8} : leNat (overlay (leBytes n 0) b) = leNat b := by
  rw [leBytes_zero]
  unfold overlay
  rw [leNat_append, List.drop_replicate, leNat_replicate_zero]
  simp

theorem readUInt_cases {io : Bool} (n old : Nat) (bs : List U8) :
    (∃ b r, bs = b ++ r ∧ b.length = n ∧ readUInt (gs io bs) n old = .ok (leNat b, gs io r)) ∨
    (bs.length < n ∧ readUInt (gs io bs) n old = .ok (leNat (overlay (leBytes n old) bs), ended io)) := by
  by_cases h : n ≤ bs.length
  · left
    refine ⟨bs.take n, bs.drop n, (List.take_append_drop n bs).symm, by simp [h], ?_⟩
    conv => lhs; rw [← List.take_append_drop n bs]
    exact readUInt_gs (by simp [h])
  · right
    exact ⟨by omega, readUInt_short (by omega)⟩

theorem pow256_1 : 256 ^ 1 = 256 := rfl
theorem u32_lt (v : U32) : v.toNat < 256 ^ 4 := v.isLt
theorem u64_lt (v : U64) : v.toNat < 256 ^ 8 := v.isLt
theorem u8_lt (v : U8) : v.toNat < 256 ^ 1 := v.isLt

theorem ofNat_toNat32 (v : U32) : BitVec.ofNat 32 v.toNat = v := by simp
theorem ofNat_toNat64 (v : U64) : BitVec.ofNat 64 v.toNat = v := by simp

theorem leNat_four_lt {b : List U8} (h : b.length = 4) : leNat b < 2 ^ 32 := by
  have := leNat_lt b
  rw [h] at this
  exact this

theorem leNat_eight_lt {b : List U8} (h : b.length = 8) : leNat b < 2 ^ 64 := by
  have := leNat_lt b
  rw [h] at this
  exact this

end TraceDB
