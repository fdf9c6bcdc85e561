import Verif.Proofs.ReaderAll
/-
Streams that end inside the header, and independence of the coin.
-/
namespace TraceDB

variable {env : Env} {io : Bool}

/-- A type whose last size bytes are missing. -/
def truncType (t : TypeDesc) (k : Nat) : TypeDesc :=
  { t with size := BitVec.ofNat 32 (t.size.toNat % 256 ^ k) }

theorem take_leBytes : ∀ (k n v : Nat), k ≤ n → (leBytes n v).take k = leBytes k v
  | 0, n, v, _ => by simp [leBytes]
  | k + 1, 0, v, h => by omega
  | k + 1, n + 1, v, h => by simp [leBytes, take_leBytes k n (v / 256) (by omega)]

theorem prefix_leBytes {A B : List U8} {n v : Nat} {Y : List U8} (h : A ++ B = leBytes n v ++ Y)
    (hl : A.length ≤ n) : A = leBytes A.length v := by
  have : A = (leBytes n v ++ Y).take A.length := by rw [← h]; simp
  rw [List.take_append_of_le_length (by rw [leBytes_length]; exact hl), take_leBytes _ _ _ hl] at this
  exact this

/-- One type cut at any position. -/
theorem readType_cut {t : TypeDesc} {A B : List U8} (hf : t.format ≠ .invalid)
    (h : encodeType t = A ++ B) (hB : B ≠ []) :
    (A.length < 8 ∧ readType (gs io A) = .throw (endExn io)) ∨
    (8 ≤ A.length ∧ readType (gs io A) = .ok (truncType t (A.length - 8), ended io)) := by
  have hBl : 0 < B.length := List.length_pos_iff.mpr hB
  have hc := code_lt hf
  unfold encodeType at h
  unfold readType
  by_cases h1 : A.length < 4
  · left
    refine ⟨by omega, ?_⟩
    rw [readUInt_short h1]
    simp
  · obtain ⟨A1, rfl, e1⟩ := cut_split h.symm (by rw [leBytes_length]; omega)
    simp only [List.length_append, leBytes_length] at h1 ⊢
    rw [readUInt_le (u32_lt _)]
    simp only [Res.ok_bind]
    by_cases h2 : A1.length < 4
    · left
      refine ⟨by omega, ?_⟩
      rw [readUInt_short h2]
      simp
    · obtain ⟨A2, rfl, e2⟩ := cut_split e1 (by rw [leBytes_length]; omega)
      right
      simp only [List.length_append, leBytes_length]
      refine ⟨by omega, ?_⟩
      rw [readUInt_le (by omega)]
      simp only [Res.ok_bind]
      have hl : A2.length < 4 := by
        have := congrArg List.length e2
        simp only [List.length_append, leBytes_length] at this
        omega
      rw [readUInt_short hl]
      simp only [Res.ok_bind, if_neg (show ¬ t.format.code ≥ 5 by omega), Res.pure_eq, ofNat_toNat32,
        ofCode_code, leNat_overlay_zero]
      have hA2 : A2 = leBytes A2.length t.size.toNat :=
        prefix_leBytes (Y := []) (by simpa using e2) (by omega)
      have : leNat A2 = t.size.toNat % 256 ^ A2.length := by
        rw [hA2, leNat_leBytes, leBytes_length]
      have h9 : 4 + (4 + A2.length) - 8 = A2.length := by omega
      rw [this, h9]
      rfl

theorem encodeType_length (t : TypeDesc) : (encodeType t).length = 12 := by
  simp [encodeType, leBytes_length]

/-- The type loop on a cut type table. -/
theorem readTypes_cut : ∀ (types : List TypeDesc) (A B : List U8), (∀ t ∈ types, t.format ≠ .invalid) →
    types.flatMap encodeType = A ++ B → B ≠ [] →
    (4 < B.length ∧ readTypes types.length (gs io A) = .throw (endExn io)) ∨
    (B.length ≤ 4 ∧ ∃ ts t, types = ts ++ [t] ∧
      readTypes types.length (gs io A) = .ok (ts ++ [truncType t (4 - B.length)], ended io))
  | [], A, B, _, h, hB => by
    have := List.append_eq_nil_iff.mp h.symm
    exact absurd this.2 hB
  | t :: ts, A, B, hf, h, hB => by
    have hBl : 0 < B.length := List.length_pos_iff.mpr hB
    simp only [List.flatMap_cons] at h
    have hlen := congrArg List.length h
    simp only [List.length_append, encodeType_length] at hlen
    rw [List.length_cons, readTypes]
    by_cases hl : A.length < 12
    · -- the cut is inside this type
      rcases List.append_eq_append_iff.mp h with ⟨a, h1, h2⟩ | ⟨a, h1, h2⟩
      · exfalso
        have := congrArg List.length h1
        simp only [List.length_append, encodeType_length] at this
        omega
      · have ha : a ≠ [] := by
          intro h0
          subst h0
          have := congrArg List.length h1
          simp only [List.length_append, encodeType_length, List.length_nil] at this
          omega
        have hal : A.length + a.length = 12 := by
          have := congrArg List.length h1
          simp only [List.length_append, encodeType_length] at this
          omega
        have hBa : B.length = a.length + (ts.flatMap encodeType).length := by
          rw [h2]; simp
        rcases readType_cut (io := io) (hf t (by simp)) h1 ha with ⟨h3, h4⟩ | ⟨h3, h4⟩
        · left
          rw [h4]
          exact ⟨by omega, rfl⟩
        · rw [h4]
          simp only [Res.ok_bind]
          cases ts with
          | nil =>
            right
            simp only [List.flatMap_nil, List.length_nil] at hBa
            refine ⟨by omega, [], t, rfl, ?_⟩
            have : A.length - 8 = 4 - B.length := by omega
            rw [this]
            rfl
          | cons t' ts' =>
            left
            simp only [List.flatMap_cons, List.length_append, encodeType_length] at hBa
            refine ⟨by omega, ?_⟩
            simp only [List.length_cons]
            rw [readTypes_ended]
            rfl
    · obtain ⟨A', rfl, h'⟩ := cut_split (X := encodeType t) (Y := ts.flatMap encodeType) h.symm
        (by rw [encodeType_length]; omega)
      rw [readType_ok (hf t (by simp))]
      simp only [Res.ok_bind]
      rcases readTypes_cut ts A' B (fun x hx => hf x (by simp [hx])) h'.symm hB with ⟨h1, h2⟩ | ⟨h1, us, u, h2, h3⟩
      · left
        exact ⟨h1, by rw [h2]; rfl⟩
      · right
        refine ⟨h1, t :: us, u, by rw [h2]; rfl, by rw [h3]; rfl⟩

/-- The type table cut at any position. -/
theorem readTypeTable_cut {types : List TypeDesc} {A B : List U8} (hf : ∀ t ∈ types, t.format ≠ .invalid)
    (hc : types.length < 2 ^ 32) (ha : ∀ n, 0 < n → n ≤ types.length → env.canAlloc (12 * n) = true)
    (h : leBytes 4 types.length ++ types.flatMap encodeType = A ++ B) (hB : B ≠ []) :
    (A.length < 4 ∧ types.length % 256 ^ A.length = 0 ∧ readTypeTable env (gs io A) = .ok ([], ended io)) ∨
    (4 ≤ A.length ∧ B.length ≤ 4 ∧ ∃ ts t, types = ts ++ [t] ∧
      readTypeTable env (gs io A) = .ok (ts ++ [truncType t (4 - B.length)], ended io)) ∨
    ((A.length < 4 → types.length % 256 ^ A.length ≠ 0) ∧ (4 ≤ A.length → 4 < B.length) ∧
      readTypeTable env (gs io A) = .throw (endExn io)) := by
  unfold readTypeTable
  by_cases h4 : A.length < 4
  · have hA : A = leBytes A.length types.length := prefix_leBytes h.symm (by omega)
    have hv : leNat A = types.length % 256 ^ A.length := by
      conv => lhs; rw [hA]
      rw [leNat_leBytes]
    rw [readUInt_short h4]
    simp only [Res.ok_bind, leNat_overlay_zero, hv]
    by_cases h0 : types.length % 256 ^ A.length = 0
    · left
      refine ⟨h4, h0, ?_⟩
      rw [h0]
      simp [readTypes]
    · right; right
      refine ⟨fun _ => h0, fun hh => by omega, ?_⟩
      obtain ⟨m, hm⟩ : ∃ m, types.length % 256 ^ A.length = m + 1 :=
        ⟨types.length % 256 ^ A.length - 1, by omega⟩
      have hle : m + 1 ≤ types.length := by rw [← hm]; exact Nat.mod_le _ _
      have : (decide (m + 1 > 0) && !env.canNew (12 * (m + 1))) = false := by
        have := ha (m + 1) (by omega) hle
        simp [Env.canNew, this]; omega
      rw [hm, this]
      simp only [Bool.false_eq_true, if_false]
      exact readTypes_ended m
  · obtain ⟨A', rfl, h'⟩ := cut_split h.symm (by rw [leBytes_length]; omega)
    rw [readUInt_le (by omega)]
    simp only [Res.ok_bind, List.length_append, leBytes_length]
    have : (decide (types.length > 0) && !env.canNew (12 * types.length)) = false := by
      by_cases h0 : 0 < types.length
      · have := ha types.length h0 (Nat.le_refl _)
        simp [Env.canNew, this]; omega
      · simp [h0]
    rw [this]
    simp only [Bool.false_eq_true, if_false]
    right
    rcases readTypes_cut (io := io) types A' B hf h'.symm hB with ⟨h1, h2⟩ | ⟨h1, ts, t, h2, h3⟩
    · right
      exact ⟨fun hh => by omega, fun _ => h1, h2⟩
    · left
      exact ⟨by omega, h1, ts, t, h2, h3⟩

/-! ### The coin is not used by the reader itself -/

theorem readBlob_coin (c : Nat → Nat → Bool) (s : IStream) (n : Nat) :
    readBlob { env with coin := c } s n = readBlob env s n := rfl

theorem readVarInfo_coin (c : Nat → Nat → Bool) (I : MapImpl) (names : List Name) (types : List TypeDesc)
    (m : I.M) (s : IStream) :
    readVarInfo I { env with coin := c } names types m s = readVarInfo I env names types m s := rfl

theorem readEntries_coin (c : Nat → Nat → Bool) (I : MapImpl) (names : List Name) (types : List TypeDesc) :
    ∀ (fuel : Nat) (s : IStream) (m : I.M) (acc : PointAcc),
    readEntries I { env with coin := c } names types fuel s m acc = readEntries I env names types fuel s m acc
  | 0, _, _, _ => rfl
  | fuel + 1, s, m, acc => by
    simp only [readEntries, readEntries_coin c I names types fuel, readVarInfo_coin]

theorem readPoints_coin (c : Nat → Nat → Bool) (I : MapImpl) (names : List Name) (types : List TypeDesc)
    (maxPoints : U64) : ∀ (fuel i : Nat) (s : IStream) (m : I.M) (acc : List Point),
    readPoints I { env with coin := c } names types maxPoints fuel i s m acc =
      readPoints I env names types maxPoints fuel i s m acc
  | 0, _, _, _, _ => rfl
  | fuel + 1, i, s, m, acc => by
    simp only [readPoints, readPoints_coin c I names types maxPoints fuel, readEntries_coin]
    rfl

theorem readTrace_coin (c : Nat → Nat → Bool) (maxPoints : U64) (s : IStream) :
    readTrace { env with coin := c } maxPoints s = readTrace env maxPoints s := by
  rw [readTrace_eq_history, readTrace_eq_history]
  unfold readTraceWith
  simp only [readPoints_coin]
  rfl

end TraceDB
