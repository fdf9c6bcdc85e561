import Verif.Spec.Documented
import Verif.Proofs.Limit
/-
Reading what the manual describes: auxiliary lemmas.
-/
namespace TraceDB

variable {env : Env} {io : Bool}

/-- A string followed by anything is not itself moved by `k > 0` zeros, unless
it consists of zeros. -/
theorem shifted_zeros {k : Nat} (hk : 0 < k) {N X Y : List U8}
    (h : N ++ X = List.replicate k 0 ++ (N ++ Y)) : ∀ b ∈ N, b = 0 := by
  have key : ∀ (i : Nat) (b : U8), N[i]? = some b → b = 0 := by
    intro i
    induction i using Nat.strongRecOn with
    | ind i ih =>
      intro b hb
      have hi : i < N.length := (List.getElem?_eq_some_iff.mp hb).1
      have e := congrArg (fun L => L[i]?) h
      rw [List.getElem?_append_left hi, hb] at e
      by_cases hik : i < k
      · rw [List.getElem?_append_left (by simpa using hik), List.getElem?_replicate, if_pos hik] at e
        exact Option.some.inj e
      · rw [List.getElem?_append_right (by simpa using Nat.le_of_not_lt hik), List.length_replicate,
          List.getElem?_append_left (by omega)] at e
        exact ih (i - k) (by omega) b e.symm
  intro b hb
  obtain ⟨i, hi⟩ := List.getElem?_of_mem hb
  exact key i b hi

/-- A value with a non-zero byte and the end marker of its point make two bytes. -/
theorem two_bytes {value : List U8} (h : ∃ b ∈ value.take 2, b ≠ 0) :
    ∃ a b Y, value ++ [0] = a :: b :: Y := by
  match value, h with
  | [], ⟨_, h, _⟩ => simp at h
  | [a], _ => exact ⟨a, 0, [], rfl⟩
  | a :: b :: r, _ => exact ⟨a, b, r ++ [0], rfl⟩

/-- A small number in a wide field: the bytes of the narrow field and zeros. -/
theorem leBytes_widen : ∀ (n k v : Nat), v < 256 ^ n → leBytes (n + k) v = leBytes n v ++ List.replicate k 0
  | 0, k, v, h => by
    have : v = 0 := by simpa using h
    rw [this, Nat.zero_add, leBytes_zero]; rfl
  | n + 1, k, v, h => by
    have h' : v / 256 < 256 ^ n := by
      rw [Nat.pow_succ] at h
      exact Nat.div_lt_of_lt_mul (by rw [Nat.mul_comm]; exact h)
    rw [show n + 1 + k = (n + k) + 1 from by omega, leBytes, leBytes, leBytes_widen n k _ h']
    rfl

/-- What is known when a trace is accepted: the file starts with its names. -/
theorem readTrace_ok_names {maxPoints : U64} {bs : List U8} {t : Trace}
    (h : readTrace env maxPoints (gs io bs) = .ok t) :
    ∃ R s, charCount t.names < 2 ^ 63 ∧ (∀ n ∈ t.names, (0 : U8) ∉ n) ∧
      bs = leBytes 8 (charCount t.names) ++ (flatNames t.names ++ R) ∧
      readTypeTable env (gs io R) = .ok (t.types, s) := by
  rw [readTrace_eq_history, readTraceWith] at h
  obtain ⟨⟨names, s1⟩, h1, h⟩ := Res.bind_eq_ok.mp h
  obtain ⟨⟨types, s2⟩, h2, h⟩ := Res.bind_eq_ok.mp h
  obtain ⟨h3, h4, h5⟩ := bind_ok_trace h
  rcases readNameTable_cases (env := env) (io := io) bs with
    ⟨names', R, h6, h7, _, h8, h9⟩ | ⟨names', h9⟩ | ⟨e, h9⟩ | ⟨e, h9, _⟩
  · rw [h9] at h1
    cases h1
    exact ⟨R, s2, by rw [h4]; exact h7, by rw [h4]; exact h6, by rw [h4]; exact h8, by rw [h5]; exact h2⟩
  · rw [h9] at h1
    cases h1
    rw [readTypeTable_ended] at h2
    cases h2
  · rw [h9] at h1; cases h1
  · rw [h9] at h1; cases h1

/-- A type that was read: its bytes, the last ones of which may be missing when
they are zero. -/
theorem readType_padded {bs : List U8} {t : TypeDesc} {s : IStream} (h : readType (gs io bs) = .ok (t, s)) :
    (∃ R, bs = encodeType t ++ R ∧ s = gs io R) ∨
    (∃ pad, bs ++ List.replicate pad 0 = encodeType t ∧ s = ended io) := by
  unfold readType at h
  by_cases h1 : bs.length < 4
  · rw [readUInt_short h1] at h
    simp only [Res.ok_bind, readUInt_ended] at h
    cases h
  obtain ⟨n, R, rfl⟩ := split4 (L := bs) (by omega)
  rw [readUInt_le (u32_lt n)] at h
  simp only [Res.ok_bind] at h
  by_cases h2 : R.length < 4
  · rw [readUInt_short h2] at h
    simp only [Res.ok_bind, readUInt_ended] at h
    cases h
  obtain ⟨f, R, rfl⟩ := split4 (L := R) (by omega)
  rw [readUInt_le (u32_lt f)] at h
  simp only [Res.ok_bind] at h
  by_cases h3 : R.length < 4
  · right
    rw [readUInt_short h3] at h
    simp only [Res.ok_bind, leNat_overlay_zero] at h
    by_cases h5 : f.toNat ≥ 5
    · rw [if_pos h5] at h; cases h
    · rw [if_neg h5] at h
      cases h
      have hlt : leNat R < 256 ^ R.length := leNat_lt R
      have hlt' : leNat R < 2 ^ 32 :=
        Nat.lt_of_lt_of_le hlt (Nat.le_trans (Nat.pow_le_pow_right (by decide) (show R.length ≤ 4 by omega)) (by decide))
      refine ⟨4 - R.length, ?_, rfl⟩
      simp only [encodeType, code_ofCode (show f.toNat < 5 by omega), ofNat_toNat32, List.append_assoc]
      rw [BitVec.toNat_ofNat, Nat.mod_eq_of_lt hlt']
      have := leBytes_widen R.length (4 - R.length) (leNat R) hlt
      rw [show R.length + (4 - R.length) = 4 by omega, leBytes_leNat] at this
      rw [this]
  · left
    obtain ⟨z, R, rfl⟩ := split4 (L := R) (by omega)
    rw [readUInt_le (u32_lt z)] at h
    simp only [Res.ok_bind] at h
    by_cases h5 : f.toNat ≥ 5
    · rw [if_pos h5] at h; cases h
    · rw [if_neg h5] at h
      simp only [Res.pure_eq, ofNat_toNat32] at h
      cases h
      exact ⟨R, by simp only [encodeType, code_ofCode (show f.toNat < 5 by omega), List.append_assoc], rfl⟩

theorem readTypes_padded : ∀ (n : Nat) {bs : List U8} {types : List TypeDesc} {s : IStream},
    readTypes n (gs io bs) = .ok (types, s) →
    types.length = n ∧ ∃ pad R, bs ++ List.replicate pad 0 = types.flatMap encodeType ++ R
  | 0, bs, types, s, h => by
    cases h
    exact ⟨rfl, 0, bs, by simp⟩
  | n + 1, bs, types, s, h => by
    rw [readTypes] at h
    obtain ⟨⟨t, s1⟩, h1, h⟩ := Res.bind_eq_ok.mp h
    obtain ⟨⟨ts, s2⟩, h2, h⟩ := Res.bind_eq_ok.mp h
    cases h
    rcases readType_padded h1 with ⟨R, h3, h4⟩ | ⟨pad, h3, h4⟩
    · rw [h4] at h2
      obtain ⟨h5, pad, R', h6⟩ := readTypes_padded n h2
      refine ⟨by simp [h5], pad, R', ?_⟩
      rw [h3, List.append_assoc, h6]; simp
    · rw [h4] at h2
      cases n with
      | zero =>
        cases h2
        exact ⟨rfl, pad, [], by rw [h3]; simp⟩
      | succ n => rw [readTypes_ended] at h2; cases h2

theorem readTypeTable_padded {bs : List U8} {types : List TypeDesc} {s : IStream}
    (h : readTypeTable env (gs io bs) = .ok (types, s)) (h0 : types ≠ []) :
    types.length < 2 ^ 32 ∧
    ∃ pad R, bs ++ List.replicate pad 0 = leBytes 4 types.length ++ (types.flatMap encodeType ++ R) := by
  unfold readTypeTable at h
  by_cases h1 : bs.length < 4
  · rw [readUInt_short h1] at h
    simp only [Res.ok_bind] at h
    split at h
    · cases h
    · cases hn : leNat (overlay (leBytes 4 0) bs) with
      | zero => rw [hn] at h; cases h; exact absurd rfl h0
      | succ n => rw [hn, readTypes_ended] at h; cases h
  · obtain ⟨n, R, rfl⟩ := split4 (L := bs) (by omega)
    rw [readUInt_le (u32_lt n)] at h
    simp only [Res.ok_bind] at h
    split at h
    · cases h
    · obtain ⟨h5, pad, R', h6⟩ := readTypes_padded _ h
      refine ⟨by rw [h5]; exact n.isLt, pad, R', ?_⟩
      rw [h5, List.append_assoc, h6]

end TraceDB
