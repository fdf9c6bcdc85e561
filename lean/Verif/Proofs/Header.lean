import Verif.Proofs.Format
/-
Reading the header.
-/
namespace TraceDB

variable {env : Env} {io : Bool}

/-- The name table as bytes. -/
def flatNames (names : List Name) : List U8 := names.flatMap fun n => n ++ [0]

/-- Length of the name table. -/
def charCount (names : List Name) : Nat := (names.map fun n => n.length + 1).sum

/-- Bytes of a type. -/
def encodeType (t : TypeDesc) : List U8 :=
  leBytes 4 t.nameIndex.toNat ++ (leBytes 4 t.format.code ++ leBytes 4 t.size.toNat)

theorem encodeHeader_eq (names : List Name) (types : List TypeDesc) :
    encodeHeader names types = leBytes 8 (charCount names) ++ (flatNames names ++
      (leBytes 4 types.length ++ types.flatMap encodeType)) := rfl

theorem flatNames_length : ∀ names : List Name, (flatNames names).length = charCount names
  | [] => rfl
  | n :: ns => by
    have := flatNames_length ns
    simp only [flatNames, charCount, List.flatMap_cons, List.length_append, List.map_cons,
      List.sum_cons, List.length_cons, List.length_nil] at *
    omega

theorem charCount_pos {names : List Name} (h : names ≠ []) : 0 < charCount names := by
  cases names with
  | nil => exact absurd rfl h
  | cons n ns => simp only [charCount, List.map_cons, List.sum_cons]; omega

theorem length_le_charCount : ∀ names : List Name, names.length ≤ charCount names
  | [] => Nat.le_refl _
  | n :: ns => by
    have := length_le_charCount ns
    simp only [charCount, List.map_cons, List.sum_cons, List.length_cons] at *
    omega

theorem splitName_ok : ∀ {n : Name} {R : List U8}, (0 : U8) ∉ n → splitName (n ++ 0 :: R) = some (n, R)
  | [], R, _ => by simp [splitName]
  | b :: n, R, h => by
    simp only [List.mem_cons, not_or] at h
    rw [List.cons_append, splitName, if_neg (Ne.symm h.1), splitName_ok h.2]

theorem splitName_some : ∀ {bs : List U8} {n : Name} {R : List U8}, splitName bs = some (n, R) →
    bs = n ++ 0 :: R ∧ (0 : U8) ∉ n
  | [], n, R, h => by simp [splitName] at h
  | b :: bs, n, R, h => by
    rw [splitName] at h
    by_cases hb : b = 0
    · rw [if_pos hb] at h
      cases h
      exact ⟨by rw [hb]; rfl, by simp⟩
    · rw [if_neg hb] at h
      cases hs : splitName bs with
      | none => rw [hs] at h; simp at h
      | some q =>
        obtain ⟨m, S⟩ := q
        rw [hs] at h
        cases h
        obtain ⟨h1, h2⟩ := splitName_some hs
        exact ⟨by rw [h1]; rfl, by simp only [List.mem_cons, not_or]; exact ⟨Ne.symm hb, h2⟩⟩

theorem splitName_none : ∀ {bs : List U8}, splitName bs = none → (0 : U8) ∉ bs
  | [], _ => by simp
  | b :: bs, h => by
    rw [splitName] at h
    by_cases hb : b = 0
    · rw [if_pos hb] at h; simp at h
    · rw [if_neg hb] at h
      cases hs : splitName bs with
      | none => simp only [List.mem_cons, not_or]; exact ⟨Ne.symm hb, splitName_none hs⟩
      | some q => rw [hs] at h; simp at h

theorem flatNames_cons (n : Name) (ns : List Name) : flatNames (n :: ns) = n ++ 0 :: flatNames ns := by
  simp [flatNames]

theorem flatNames_eq_nil {ns : List Name} : flatNames ns = [] ↔ ns = [] := by
  cases ns with
  | nil => simp [flatNames]
  | cons n ns => simp [flatNames_cons]

theorem readNames_ok : ∀ (names : List Name) (fuel : Nat), names ≠ [] → (∀ n ∈ names, (0 : U8) ∉ n) →
    names.length ≤ fuel → readNames fuel (flatNames names) = .ok names
  | [], _, h, _, _ => absurd rfl h
  | n :: ns, 0, _, _, hf => by simp at hf
  | n :: ns, fuel + 1, _, hn, hf => by
    rw [flatNames_cons, readNames, splitName_ok (hn n (by simp))]
    by_cases hns : ns = []
    · subst hns; simp [flatNames]
    · simp only [flatNames_eq_nil, if_neg hns]
      rw [readNames_ok ns fuel hns (fun m hm => hn m (by simp [hm])) (by simpa using hf)]
      rfl

/-- What the name loop does on an arbitrary buffer. -/
theorem readNames_cases : ∀ (fuel : Nat) (buf : List U8), buf.length < fuel →
    (∃ names, names ≠ [] ∧ (∀ n ∈ names, (0 : U8) ∉ n) ∧ buf = flatNames names ∧
      readNames fuel buf = .ok names) ∨
    (readNames fuel buf = .ub .oobRead ∧ buf.getLast? ≠ some 0)
  | 0, buf, h => by simp at h
  | fuel + 1, buf, h => by
    rw [readNames]
    cases hs : splitName buf with
    | none =>
      right
      refine ⟨rfl, fun hl => splitName_none hs (List.mem_of_getLast? hl)⟩
    | some q =>
      obtain ⟨n, R⟩ := q
      obtain ⟨h1, h2⟩ := splitName_some hs
      by_cases hR : R = []
      · left
        refine ⟨[n], by simp, by simpa using h2, ?_, by simp [hR]⟩
        rw [h1, hR]; simp [flatNames]
      · have hl : R.length < fuel := by
          rw [h1] at h
          simp at h
          omega
        simp only [if_neg hR]
        rcases readNames_cases fuel R hl with ⟨ns, h3, h4, h5, h6⟩ | ⟨h3, h4⟩
        · left
          refine ⟨n :: ns, by simp, ?_, ?_, by rw [h6]; rfl⟩
          · intro m hm
            simp only [List.mem_cons] at hm
            rcases hm with rfl | hm
            · exact h2
            · exact h4 m hm
          · rw [h1, h5, flatNames_cons]
        · right
          refine ⟨by rw [h3]; rfl, ?_⟩
          rw [h1]
          cases R with
          | nil => exact absurd rfl hR
          | cons x R =>
            intro hh
            apply h4
            rw [← hh]
            simp [List.getLast?_append, List.getLast?_cons]

/-- The allocations the header needs succeed. -/
structure HeaderAlloc (env : Env) (names : List Name) (types : List TypeDesc) : Prop where
  names : 0 < charCount names → env.canAlloc (charCount names) = true
  types : 0 < types.length → env.canAlloc (12 * types.length) = true

theorem readNameTable_ok {names : List Name} {R : List U8} (hn : ∀ n ∈ names, (0 : U8) ∉ n)
    (hc : charCount names < 2 ^ 63) (ha : 0 < charCount names → env.canAlloc (charCount names) = true) :
    readNameTable env (gs io (leBytes 8 (charCount names) ++ (flatNames names ++ R))) =
      .ok (names, gs io R) := by
  unfold readNameTable
  rw [readUInt_le (by omega)]
  simp only [Res.ok_bind]
  by_cases h0 : names = []
  · subst h0
    simp [charCount, flatNames]
  · have hp := charCount_pos h0
    have hcn : env.canNew (charCount names) = true := by
      simp [Env.canNew, hc, ha hp]
    simp only [gt_iff_lt, hp, if_true, hcn, Bool.not_true, Bool.false_eq_true, if_false]
    rw [binaryRead_gs (flatNames_length names)]
    simp only [Res.ok_bind, Env.fillUninit, flatNames_length, Nat.le_refl, if_true]
    rw [readNames_ok names _ h0 hn (Nat.le_succ_of_le (length_le_charCount names))]
    rfl

theorem code_lt {f : TypeFormat} (h : f ≠ .invalid) : f.code < 5 := by
  cases f <;> simp [TypeFormat.code] at *

theorem ofCode_code (f : TypeFormat) : TypeFormat.ofCode f.code = f := by
  cases f <;> rfl

theorem code_ofCode {c : Nat} (h : c < 5) : (TypeFormat.ofCode c).code = c := by
  have : c = 0 ∨ c = 1 ∨ c = 2 ∨ c = 3 ∨ c = 4 := by omega
  rcases this with rfl | rfl | rfl | rfl | rfl <;> rfl

theorem ofCode_valid {c : Nat} (h : c < 5) : TypeFormat.ofCode c ≠ .invalid := by
  have : c = 0 ∨ c = 1 ∨ c = 2 ∨ c = 3 ∨ c = 4 := by omega
  rcases this with rfl | rfl | rfl | rfl | rfl <;> simp [TypeFormat.ofCode]

theorem readType_ok {t : TypeDesc} {R : List U8} (h : t.format ≠ .invalid) :
    readType (gs io (encodeType t ++ R)) = .ok (t, gs io R) := by
  unfold readType encodeType
  have hc := code_lt h
  simp only [List.append_assoc]
  rw [readUInt_le (u32_lt _)]
  simp only [Res.ok_bind]
  rw [readUInt_le (by omega)]
  simp only [Res.ok_bind]
  rw [readUInt_le (u32_lt _)]
  simp only [Res.ok_bind, if_neg (show ¬ t.format.code ≥ 5 by omega), Res.pure_eq, ofNat_toNat32,
    ofCode_code]

theorem readTypes_ok : ∀ (types : List TypeDesc) (R : List U8), (∀ t ∈ types, t.format ≠ .invalid) →
    readTypes types.length (gs io (types.flatMap encodeType ++ R)) = .ok (types, gs io R)
  | [], R, _ => rfl
  | t :: ts, R, h => by
    simp only [List.length_cons, List.flatMap_cons, List.append_assoc]
    rw [readTypes, readType_ok (h t (by simp))]
    simp only [Res.ok_bind]
    rw [readTypes_ok ts R (fun x hx => h x (by simp [hx]))]
    rfl

theorem readTypeTable_ok {types : List TypeDesc} {R : List U8} (hf : ∀ t ∈ types, t.format ≠ .invalid)
    (hc : types.length < 2 ^ 32)
    (ha : 0 < types.length → env.canAlloc (12 * types.length) = true) :
    readTypeTable env (gs io (leBytes 4 types.length ++ (types.flatMap encodeType ++ R))) =
      .ok (types, gs io R) := by
  unfold readTypeTable
  rw [readUInt_le (by omega)]
  simp only [Res.ok_bind]
  have : (decide (types.length > 0) && !env.canNew (12 * types.length)) = false := by
    by_cases h0 : 0 < types.length
    · simp [Env.canNew, ha h0]; omega
    · simp [h0]
  simp only [this, Bool.false_eq_true, if_false]
  exact readTypes_ok types R hf

/-- The header part of `Trace::read`. -/
def readHeader (env : Env) (s : IStream) : Res (List Name × List TypeDesc × IStream) := do
  let (names, s) ← readNameTable env s
  let (types, s) ← readTypeTable env s
  pure (names, types, s)

theorem readTraceWith_eq (I : MapImpl) (env : Env) (maxPoints : U64) (s : IStream) :
    readTraceWith I env maxPoints s =
      (readHeader env s >>= fun q =>
        readPoints I env q.1 q.2.1 maxPoints (q.2.2.rest.length + 3) 0 q.2.2 I.empty [] >>= fun ps =>
          pure ⟨q.1, q.2.1, ps⟩) := by
  unfold readTraceWith readHeader
  cases readNameTable env s with
  | ok a =>
    simp only [Res.ok_bind]
    cases readTypeTable env a.2 <;> rfl
  | _ => rfl

theorem readHeader_ok {names : List Name} {types : List TypeDesc} {R : List U8}
    (h : HeaderOk names types) (ha : HeaderAlloc env names types) :
    readHeader env (gs io (encodeHeader names types ++ R)) = .ok (names, types, gs io R) := by
  unfold readHeader
  rw [encodeHeader_eq]
  simp only [List.append_assoc]
  rw [readNameTable_ok h.nulFree h.chars ha.names]
  simp only [Res.ok_bind]
  rw [readTypeTable_ok h.formats h.count ha.types]
  rfl

/-- The name table of a stream is complete and ends in NUL. -/
def NameTableOk (bs : List U8) : Prop :=
  8 ≤ bs.length → leNat (bs.take 8) = 0 ∨
    (8 + leNat (bs.take 8) ≤ bs.length ∧
      ((bs.drop 8).take (leNat (bs.take 8))).getLast? = some 0)

@[simp] theorem readType_ended : readType (ended io) = .throw (endExn io) := by
  simp [readType]

theorem readTypes_ended : ∀ n, readTypes (n + 1) (ended io) = .throw (endExn io)
  | n => by rw [readTypes, readType_ended]; rfl

@[simp] theorem readTypeTable_ended : readTypeTable env (ended io) = .throw (endExn io) := by
  simp [readTypeTable]

/-- What reading the name table does. -/
theorem readNameTable_cases (bs : List U8) :
    (∃ names R, (∀ n ∈ names, (0 : U8) ∉ n) ∧ charCount names < 2 ^ 63 ∧
      (0 < charCount names → env.canAlloc (charCount names) = true) ∧
      bs = leBytes 8 (charCount names) ++ (flatNames names ++ R) ∧
      readNameTable env (gs io bs) = .ok (names, gs io R)) ∨
    (∃ names, readNameTable env (gs io bs) = .ok (names, ended io)) ∨
    (∃ e, readNameTable env (gs io bs) = .throw e) ∨
    (∃ k, readNameTable env (gs io bs) = .ub k ∧ ¬ NameTableOk bs) := by
  by_cases h8 : bs.length < 8
  · -- the length field is cut
    unfold readNameTable
    rw [readUInt_short h8]
    simp only [Res.ok_bind, leNat_overlay_zero]
    by_cases h0 : leNat bs > 0
    · right; right; left
      simp only [h0, if_true]
      split
      · exact ⟨_, rfl⟩
      · rw [binaryRead_ended]; exact ⟨_, rfl⟩
    · right; left
      simp only [h0, if_false]
      exact ⟨[], rfl⟩
  · have hl : (bs.take 8).length = 8 := by simp; omega
    have hbs : bs = leBytes 8 (leNat (bs.take 8)) ++ bs.drop 8 := by
      have e := leBytes_leNat (bs.take 8)
      rw [hl] at e
      rw [e, List.take_append_drop]
    obtain ⟨n, hn⟩ : ∃ n, n = leNat (bs.take 8) := ⟨_, rfl⟩
    obtain ⟨rest, hrest⟩ : ∃ r, r = bs.drop 8 := ⟨_, rfl⟩
    have hn64 : n < 256 ^ 8 := by rw [hn]; have := leNat_lt (bs.take 8); rwa [hl] at this
    have hbl : bs.length = 8 + rest.length := by rw [hrest]; simp; omega
    rw [← hn, ← hrest] at hbs
    unfold readNameTable
    rw [hbs, readUInt_le hn64]
    simp only [Res.ok_bind]
    by_cases h0 : n > 0
    · simp only [h0, if_true]
      by_cases hc : env.canNew n = true
      · simp only [hc, Bool.not_true, Bool.false_eq_true, if_false]
        by_cases hlen : n ≤ rest.length
        · -- complete name table
          have hrs : rest = rest.take n ++ rest.drop n := (List.take_append_drop n rest).symm
          have hrl : (rest.take n).length = n := by simp [hlen]
          obtain ⟨buf, hbuf⟩ : ∃ b, b = rest.take n := ⟨_, rfl⟩
          rw [← hbuf] at hrs hrl
          have hbr : binaryRead (gs io rest) n = .ok (buf, gs io (rest.drop n)) := by
            conv => lhs; rw [hrs]
            exact binaryRead_gs hrl
          rw [hbr]
          simp only [Res.ok_bind, Env.fillUninit, hrl, Nat.le_refl, if_true]
          rcases readNames_cases (n + 1) buf (by omega) with ⟨names, h1, h2, h3, h4⟩ | ⟨h1, h2⟩
          · left
            have hcc : charCount names = n := by rw [← flatNames_length, ← h3, hrl]
            simp only [Env.canNew, Bool.and_eq_true, decide_eq_true_eq] at hc
            refine ⟨names, rest.drop n, h2, by omega, fun _ => by rw [hcc]; exact hc.2, ?_, ?_⟩
            · rw [hcc, ← h3, ← hrs]
            · rw [h4]; rfl
          · right; right; right
            refine ⟨.oobRead, by rw [h1]; rfl, ?_⟩
            intro hok
            rw [← hbs] at hok
            rcases hok (by omega) with h | ⟨_, h⟩
            · omega
            · apply h2; rw [← hn, ← hrest, ← hbuf] at h; exact h
        · have hlen' : rest.length < n := by omega
          rw [binaryRead_short hlen']
          simp only [Res.ok_bind, Env.fillUninit, if_neg hlen]
          have hnot : ¬ NameTableOk (leBytes 8 n ++ rest) := by
            intro hok
            rw [← hbs] at hok
            rcases hok (by omega) with h | ⟨h, _⟩ <;> omega
          cases hj : env.junk with
          | none =>
            right; right; right
            exact ⟨.uninit, rfl, hnot⟩
          | some f =>
            simp only [Res.ok_bind]
            obtain ⟨buf, hbuf⟩ : ∃ b, b = overlay ((List.range n).map f) rest := ⟨_, rfl⟩
            rw [← hbuf]
            rcases readNames_cases (buf.length + 1) buf (by omega) with ⟨names, h1, h2, h3, h4⟩ | ⟨h1, h2⟩
            · right; left
              rw [h4]; exact ⟨names, rfl⟩
            · right; right; right
              rw [h1]; exact ⟨.oobRead, rfl, hnot⟩
      · right; right; left
        simp only [hc, Bool.not_false, if_true]
        exact ⟨_, rfl⟩
    · left
      have hn0 : n = 0 := by omega
      subst hn0
      refine ⟨[], rest, by simp, by simp [charCount], by simp [charCount], by simp [charCount, flatNames], ?_⟩
      simp

/-- What reading one type does. -/
theorem readType_cases (bs : List U8) :
    (∃ t R, t.format ≠ .invalid ∧ bs = encodeType t ++ R ∧ readType (gs io bs) = .ok (t, gs io R)) ∨
    (∃ t, readType (gs io bs) = .ok (t, ended io)) ∨ (∃ e, readType (gs io bs) = .throw e) := by
  unfold readType
  by_cases h1 : bs.length < 4
  · right; right
    rw [readUInt_short h1]
    simp only [Res.ok_bind, readUInt_ended]
    exact ⟨_, rfl⟩
  obtain ⟨n, R, rfl⟩ := split4 (L := bs) (by omega)
  rw [readUInt_le (u32_lt n)]
  simp only [Res.ok_bind]
  by_cases h2 : R.length < 4
  · right; right
    rw [readUInt_short h2]
    simp only [Res.ok_bind, readUInt_ended]
    exact ⟨_, rfl⟩
  obtain ⟨f, R, rfl⟩ := split4 (L := R) (by omega)
  rw [readUInt_le (u32_lt f)]
  simp only [Res.ok_bind]
  by_cases h3 : R.length < 4
  · right
    rw [readUInt_short h3]
    simp only [Res.ok_bind]
    split
    · right; exact ⟨_, rfl⟩
    · left; exact ⟨_, rfl⟩
  obtain ⟨z, R, rfl⟩ := split4 (L := R) (by omega)
  rw [readUInt_le (u32_lt z)]
  simp only [Res.ok_bind]
  by_cases h5 : f.toNat ≥ 5
  · right; right
    rw [if_pos h5]; exact ⟨_, rfl⟩
  · left
    rw [if_neg h5]
    refine ⟨⟨n, TypeFormat.ofCode f.toNat, z⟩, R, ofCode_valid (by omega), ?_, ?_⟩
    · simp only [encodeType, code_ofCode (show f.toNat < 5 by omega), List.append_assoc]
    · simp only [Res.pure_eq, ofNat_toNat32]

theorem readTypes_cases : ∀ (n : Nat) (bs : List U8),
    (∃ types R, types.length = n ∧ (∀ t ∈ types, t.format ≠ .invalid) ∧
      bs = types.flatMap encodeType ++ R ∧ readTypes n (gs io bs) = .ok (types, gs io R)) ∨
    (∃ types, readTypes n (gs io bs) = .ok (types, ended io)) ∨ (∃ e, readTypes n (gs io bs) = .throw e)
  | 0, bs => by
    left; exact ⟨[], bs, rfl, by simp, rfl, rfl⟩
  | n + 1, bs => by
    rw [readTypes]
    rcases readType_cases (io := io) bs with ⟨t, R, h1, h2, h3⟩ | ⟨t, h⟩ | ⟨e, h⟩
    · rw [h3]
      simp only [Res.ok_bind]
      rcases readTypes_cases n R with ⟨ts, R', h4, h5, h6, h7⟩ | ⟨ts, h⟩ | ⟨e, h⟩
      · left
        refine ⟨t :: ts, R', by simp [h4], ?_, ?_, by rw [h7]; rfl⟩
        · intro x hx
          simp only [List.mem_cons] at hx
          rcases hx with rfl | hx
          · exact h1
          · exact h5 x hx
        · rw [h2, h6]; simp
      · right; left; rw [h]; exact ⟨_, rfl⟩
      · right; right; rw [h]; exact ⟨_, rfl⟩
    · rw [h]
      simp only [Res.ok_bind]
      cases n with
      | zero => right; left; exact ⟨[t], rfl⟩
      | succ n => right; right; rw [readTypes_ended]; exact ⟨_, rfl⟩
    · right; right; rw [h]; exact ⟨_, rfl⟩

theorem readTypeTable_cases (bs : List U8) :
    (∃ types R, types.length < 2 ^ 32 ∧ (∀ t ∈ types, t.format ≠ .invalid) ∧
      (0 < types.length → env.canAlloc (12 * types.length) = true) ∧
      bs = leBytes 4 types.length ++ (types.flatMap encodeType ++ R) ∧
      readTypeTable env (gs io bs) = .ok (types, gs io R)) ∨
    (∃ types, readTypeTable env (gs io bs) = .ok (types, ended io)) ∨
    (∃ e, readTypeTable env (gs io bs) = .throw e) := by
  unfold readTypeTable
  by_cases h1 : bs.length < 4
  · right
    rw [readUInt_short h1]
    simp only [Res.ok_bind]
    split
    · right; exact ⟨_, rfl⟩
    · cases leNat (overlay (leBytes 4 0) bs) with
      | zero => left; exact ⟨[], rfl⟩
      | succ n => right; rw [readTypes_ended]; exact ⟨_, rfl⟩
  · obtain ⟨n, R, rfl⟩ := split4 (L := bs) (by omega)
    rw [readUInt_le (u32_lt n)]
    simp only [Res.ok_bind]
    by_cases hc : (decide (n.toNat > 0) && !env.canNew (12 * n.toNat)) = true
    · right; right; rw [if_pos hc]; exact ⟨_, rfl⟩
    · rw [if_neg hc]
      rcases readTypes_cases (io := io) n.toNat R with ⟨types, R', h4, h5, h6, h7⟩ | h | h
      · left
        refine ⟨types, R', by rw [h4]; exact n.isLt, h5, ?_, by rw [h4, h6], h7⟩
        intro h0
        rw [h4] at h0 ⊢
        simp [h0, Env.canNew] at hc
        exact hc.2
      · right; left; exact h
      · right; right; exact h

/-- Every stream either starts with a header that the format can express, or
ends inside the header, or is rejected, or has a bad name table. -/
theorem readHeader_cases (env : Env) (io : Bool) (bs : List U8) :
    (∃ names types body, HeaderOk names types ∧ HeaderAlloc env names types ∧
      bs = encodeHeader names types ++ body ∧
      readHeader env (gs io bs) = .ok (names, types, gs io body)) ∨
    (∃ names types, readHeader env (gs io bs) = .ok (names, types, ended io)) ∨
    (∃ e, readHeader env (gs io bs) = .throw e) ∨
    (∃ k, readHeader env (gs io bs) = .ub k ∧ ¬ NameTableOk bs) := by
  unfold readHeader
  rcases readNameTable_cases (env := env) (io := io) bs with
    ⟨names, R, h1, h2, h3, h4, h5⟩ | ⟨names, h⟩ | ⟨e, h⟩ | ⟨k, h, h'⟩
  · rw [h5]
    simp only [Res.ok_bind]
    rcases readTypeTable_cases (env := env) (io := io) R with ⟨types, R', h6, h7, h8, h9, h10⟩ | ⟨types, h⟩ | ⟨e, h⟩
    · left
      refine ⟨names, types, R', ⟨h1, h2, h6, h7⟩, ⟨h3, h8⟩, ?_, by rw [h10]; rfl⟩
      rw [encodeHeader_eq, h4, h9]
      simp only [List.append_assoc]
    · right; left; rw [h]; exact ⟨_, _, rfl⟩
    · right; right; left; rw [h]; exact ⟨_, rfl⟩
  · right; right; left
    rw [h]
    simp only [Res.ok_bind, readTypeTable_ended]
    exact ⟨_, rfl⟩
  · right; right; left; rw [h]; exact ⟨_, rfl⟩
  · right; right; right; rw [h]; exact ⟨_, rfl, h'⟩

end TraceDB
