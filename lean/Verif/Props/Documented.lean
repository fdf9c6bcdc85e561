import Verif.Proofs.Documented
import Verif.Props.Crash
/-
Property C94: the format the manual describes is not the format that is read.
-/
namespace TraceDB

/-- Six empty names and "x": the reader takes the same count of 8 characters, but
finds them six bytes further on. -/
def exDocNames : List Name := [[], [], [], [], [], [], [120]]

/-- Files with the documented name dictionary are not read with their names:
whatever follows, whichever environment and limit, a file whose dictionary holds
some non-empty name is refused or yields other names. -/
theorem C94_names (env : Env) (io : Bool) (k : U64) (names : List Name) (rest : List U8)
    (hsmall : (names.map fun n => n.length + 1).sum < 2 ^ 16) (hnul : ∀ n ∈ names, (0 : U8) ∉ n)
    (hsome : ∃ n ∈ names, n ≠ []) (t : Trace)
    (h : readTrace env k (gs io (docNameTable names ++ rest)) = .ok t) : t.names ≠ names := by
  intro he
  obtain ⟨R, s, _, _, hb, _⟩ := readTrace_ok_names h
  rw [he] at hb
  have hd : docNameTable names = leBytes 2 (charCount names) ++ flatNames names := rfl
  rw [hd, leBytes_widen 2 6 (charCount names) hsmall, List.append_assoc, List.append_assoc] at hb
  have hz := shifted_zeros (by decide) (List.append_cancel_left hb)
  obtain ⟨n, hn, hne⟩ := hsome
  obtain ⟨b, m, rfl⟩ := List.exists_cons_of_ne_nil hne
  have : b = 0 := hz b (List.mem_flatMap.mpr ⟨_, hn, by simp⟩)
  exact hnul _ hn (by simp [this])

example : readTrace exEnv 0 (IStream.ofBytes (docNameTable exDocNames ++ (docTypeTable [] ++ [0, 0, 0, 0, 0, 0, 0, 0]))) =
    .ok ⟨[[120], [], [], [], [], [], []], [], []⟩ := by decide +kernel
example : (⟨[[120], [], [], [], [], [], []], [], []⟩ : Trace).names ≠ exDocNames :=
  C94_names exEnv false 0 exDocNames (docTypeTable [] ++ [0, 0, 0, 0, 0, 0, 0, 0]) (by decide) (by decide)
    ⟨[120], by decide, by decide⟩ _ (by decide +kernel)

/-- Small documented files are always refused: when the first name is not empty
the reader asks for at least 65536 characters. -/
theorem C94_small_files (env : Env) (io : Bool) (k : U64) (name : Name) (names : List Name) (rest : List U8)
    (hsmall : ((name :: names).map fun n => n.length + 1).sum < 2 ^ 16) (hnul : (0 : U8) ∉ name)
    (hne : name ≠ []) (hlen : (docNameTable (name :: names) ++ rest).length < 8 + 2 ^ 16) (t : Trace) :
    readTrace env k (gs io (docNameTable (name :: names) ++ rest)) ≠ .ok t := by
  intro h
  obtain ⟨R, s, hlt, _, hb, _⟩ := readTrace_ok_names h
  obtain ⟨b, m, rfl⟩ := List.exists_cons_of_ne_nil hne
  have hb0 : b ≠ 0 := fun e => hnul (by simp [e])
  have hd : docNameTable ((b :: m) :: names) =
      leBytes 2 (charCount ((b :: m) :: names)) ++ b :: (m ++ 0 :: flatNames names) := by
    simp [docNameTable, flatNames, charCount]
  have hlen' := congrArg List.length hb
  have hlt8 : charCount t.names < 256 ^ 8 := Nat.lt_trans hlt (by decide)
  have e := congrArg (fun L : List U8 => leNat (L.take 8)) hb
  have e2 : leNat ((leBytes 8 (charCount t.names) ++ (flatNames t.names ++ R)).take 8) = charCount t.names := by
    rw [List.take_left' (leBytes_length 8 _), leNat_leBytes_of_lt hlt8]
  have e3 : ∃ L, (docNameTable ((b :: m) :: names) ++ rest).take 8 =
      leBytes 2 (charCount ((b :: m) :: names)) ++ b :: L := by
    rw [hd]
    refine ⟨((m ++ 0 :: flatNames names) ++ rest).take 5, ?_⟩
    rw [List.append_assoc, List.take_append, leBytes_length, List.take_of_length_le (by simp)]
    simp
  obtain ⟨L, e3⟩ := e3
  simp only [e2, e3, leNat_append, leBytes_length, leNat] at e
  have : 1 ≤ b.toNat := by
    rcases Nat.eq_zero_or_pos b.toNat with h0 | h0
    · exact absurd (BitVec.eq_of_toNat_eq h0) hb0
    · exact h0
  rw [hlen'] at hlen
  simp only [List.length_append, leBytes_length, flatNames_length] at hlen
  omega

/-- The example run as the manual describes it. -/
example (t : Trace) : readTrace exEnv 0 (IStream.ofBytes (docNameTable exNames ++
    (docTypeTable exTypes ++ (docStatement 7 ++ [0])))) ≠ .ok t :=
  C94_small_files exEnv false 0 [105, 110, 116] [[120], [112]] _ (by decide) (by decide) (by decide)
    (by decide +kernel) t

/-- A file as the reader wants it up to its name dictionary, with the documented
type dictionary: refused or read with other types, as soon as some type is not
the all-zero one. -/
theorem C94_types (env : Env) (io : Bool) (k : U64) (names : List Name) (types : List TypeDesc)
    (rest : List U8) (hsmall : types.length < 2 ^ 16)
    (hsome : ∃ ty ∈ types, ty ≠ ⟨0, .unsigned, 0⟩) (hfmt : ∀ ty ∈ types, ty.format ≠ .invalid) (t : Trace)
    (h : readTrace env k (gs io (codeNameTable names ++ (docTypeTable types ++ rest))) = .ok t) :
    t.names = names → t.types ≠ types := by
  intro hn he
  obtain ⟨R, s, _, _, hb, ht⟩ := readTrace_ok_names h
  have hd : codeNameTable names = leBytes 8 (charCount names) ++ flatNames names := rfl
  rw [hn, hd, List.append_assoc] at hb
  have hb := (List.append_cancel_left (List.append_cancel_left hb)).symm
  rw [he] at ht
  have hne : types ≠ [] := by
    rintro rfl
    obtain ⟨_, h0, _⟩ := hsome
    cases h0
  obtain ⟨_, pad, R', hp⟩ := readTypeTable_padded ht hne
  have hd2 : docTypeTable types = leBytes 2 types.length ++ types.flatMap encodeType := rfl
  rw [hb, hd2, leBytes_widen 2 2 types.length hsmall] at hp
  simp only [List.append_assoc] at hp
  have hz := shifted_zeros (by decide) (List.append_cancel_left hp)
  obtain ⟨ty, hm, hty⟩ := hsome
  have hz' : ∀ b ∈ encodeType ty, b = 0 := fun b hb => hz b (List.mem_flatMap.mpr ⟨ty, hm, hb⟩)
  have zero : ∀ (n v : Nat), v < 256 ^ n → (∀ b ∈ leBytes n v, b = (0 : U8)) → v = 0 := by
    intro n v hv hall
    have : leBytes n v = List.replicate n 0 := List.eq_replicate_iff.mpr ⟨leBytes_length n v, hall⟩
    rw [← leNat_leBytes_of_lt hv, this, leNat_replicate_zero]
  simp only [encodeType, List.mem_append] at hz'
  have z1 := zero 4 _ ty.nameIndex.isLt (fun b hb => hz' b (Or.inl hb))
  have hf := hfmt ty hm
  have z2 := zero 4 ty.format.code (by have := code_lt hf; omega) (fun b hb => hz' b (Or.inr (Or.inl hb)))
  have z3 := zero 4 _ ty.size.isLt (fun b hb => hz' b (Or.inr (Or.inr hb)))
  apply hty
  cases ty with
  | mk n f z =>
    have e1 : n = 0 := BitVec.eq_of_toNat_eq z1
    have e3 : z = 0 := BitVec.eq_of_toNat_eq z3
    have e2 : f = .unsigned := by
      cases f <;> first | rfl | cases z2
    rw [e1, e2, e3]

example : readTrace exEnv 1 (IStream.ofBytes (codeNameTable exNames ++
      (docTypeTable [⟨0, .blob, 0⟩] ++ (docStatement 7 ++ [0])))) =
    .ok ⟨exNames, [⟨0x40000, .unsigned, 0x7010000⟩], [⟨0, 0, [], [], []⟩]⟩ := by decide +kernel
example : [⟨0x40000, .unsigned, 0x7010000⟩] ≠ [(⟨0, .blob, 0⟩ : TypeDesc)] :=
  C94_types exEnv false 1 exNames [⟨0, .blob, 0⟩] (docStatement 7 ++ [0]) (by decide)
    ⟨⟨0, .blob, 0⟩, by decide, by decide⟩ (by decide)
    ⟨exNames, [⟨0x40000, .unsigned, 0x7010000⟩], [⟨0, 0, [], [], []⟩]⟩ (by decide +kernel) rfl

/-- A last point consisting of a statement with the documented 32-bit id, in a
file otherwise as the reader wants it, makes the reader refuse the whole file. -/
theorem C94_statement (env : Env) (io : Bool) (names : List Name) (types : List TypeDesc)
    (ps : List (List Entry)) (id : U32) (hdr : HeaderOk names types)
    (hwf : ∀ p ∈ ps, ∀ e ∈ p, e.WF names types) (hstmt : ∀ p ∈ ps, (entryStmt p).isSome = true)
    (hsane : ∀ ty ∈ types, ty.Sane) (hres : ∀ p ∈ ps, ∀ r ∈ entrySizes p, r.address ≠ u64Max)
    (henv : env.junk.isSome = true) (halloc : ∀ n, env.canAlloc n = true) :
    readTrace env 0 (gs io (encodeHeader names types ++ (encodePoints types ps ++ (docStatement id ++ [0])))) =
      .throw (endExn io) := by
  have hid : (id.setWidth 64).toNat = id.toNat := by
    rw [BitVec.toNat_setWidth]; exact Nat.mod_eq_of_lt (Nat.lt_trans id.isLt (by decide))
  refine readTrace_cut_inside env io names types ps [] [] [] (.stmt (id.setWidth 64)) _ (docStatement id ++ [0])
    [0, 0, 0] hdr ?_ ?_ hsane ?_ henv halloc rfl ?_ (by simp) (by simp)
  · intro p hp
    rcases List.mem_append.mp hp with hp | hp
    · exact hwf p hp
    · simp only [List.mem_singleton] at hp; subst hp; simp [Entry.WF]
  · intro p hp
    rcases List.mem_append.mp hp with hp | hp
    · exact hstmt p hp
    · simp only [List.mem_singleton] at hp; subst hp; rfl
  · intro p hp
    rcases List.mem_append.mp hp with hp | hp
    · exact hres p hp
    · simp only [List.mem_singleton] at hp; subst hp; simp [entrySizes]
  · rw [Entry.encode, hid, leBytes_widen 4 4 id.toNat id.isLt]
    simp [docStatement]

example : readTrace exEnv 0 (IStream.ofBytes (encodeHeader exNames exTypes ++
      (encodePoints exTypes exPoints ++ (docStatement 7 ++ [0])))) = .throw .eof :=
  C94_statement exEnv false exNames exTypes exPoints 7 exHeaderOk exWF (by decide +kernel) exSane
    (by decide +kernel) rfl (fun _ => rfl)

/-- Documented statements in other places are read as other statements: the
auxiliary value that follows becomes part of the id and five more points. -/
theorem C94_statement_misread :
    readTrace exEnv 0 (IStream.ofBytes (encodeHeader exNames exTypes ++
      (docStatement 7 ++ (Entry.encode exTypes (.aux 5) ++ [0])))) =
    .ok ⟨exNames, exTypes, ⟨0, 0x50400000007, [], [], []⟩ ::
      [1, 2, 3, 4, 5].map fun i => ⟨i, 0, [], [], []⟩⟩ := by decide +kernel

/-- A value of variable size preceded by the documented 16-bit size, at the end
of the last point of a file otherwise as the reader wants it, makes the reader
refuse the whole file, unless the first two bytes of the value are zero. -/
theorem C94_blob (env : Env) (io : Bool) (names : List Name) (types : List TypeDesc)
    (ps : List (List Entry)) (es : List Entry) (n ty nameIndex : U32) (value : List U8)
    (hdr : HeaderOk names types)
    (hwf : ∀ p ∈ ps ++ [es], ∀ e ∈ p, e.WF names types)
    (hstmt : ∀ p ∈ ps ++ [es], (entryStmt p).isSome = true)
    (hsane : ∀ ty ∈ types, ty.Sane) (hres : ∀ p ∈ ps ++ [es], ∀ r ∈ entrySizes p, r.address ≠ u64Max)
    (henv : env.junk.isSome = true) (halloc : ∀ n, env.canAlloc n = true)
    (hn : n.toNat < names.length) (hty : types[ty.toNat]? = some ⟨nameIndex, .blob, 0⟩)
    (hlen : value.length < 2 ^ 16) (hval : ∃ b ∈ value.take 2, b ≠ 0) :
    readTrace env 0 (gs io (encodeHeader names types ++
      (encodePoints types ps ++ (encodeEntries types es ++ (docBlob n ty value ++ [0]))))) =
      .throw (endExn io) := by
  obtain ⟨a, b, Y, hY⟩ := two_bytes hval
  have hab : 1 ≤ leNat [a, b] := by
    rcases Nat.eq_zero_or_pos (leNat [a, b]) with h0 | h0
    · exfalso
      simp only [leNat] at h0
      have ha : a = 0 := BitVec.eq_of_toNat_eq (by show a.toNat = 0; omega)
      have hb : b = 0 := BitVec.eq_of_toNat_eq (by show b.toNat = 0; omega)
      obtain ⟨x, hx, hx0⟩ := hval
      have hx' : x ∈ (value ++ [0]).take 2 := by
        rw [List.take_append]; exact List.mem_append.mpr (Or.inl hx)
      rw [hY] at hx'
      simp [ha, hb] at hx'
      exact hx0 hx'
    · exact h0
  have hablt : leNat [a, b] < 256 ^ 2 := leNat_lt [a, b]
  have hYlen : Y.length + 2 = value.length + 1 := by
    have := congrArg List.length hY
    simp at this; omega
  obtain ⟨N, hN⟩ : ∃ N, N = value.length + 256 ^ 2 * leNat [a, b] := ⟨_, rfl⟩
  have hle : leBytes 4 N = leBytes 2 value.length ++ [a, b] := by
    have e := leBytes_leNat (leBytes 2 value.length ++ [a, b])
    rw [leNat_append, leNat_leBytes_of_lt hlen, leBytes_length, ← hN] at e
    simpa using e
  have hbig : Y.length < N := by rw [hN]; omega
  have hN32 : N < 2 ^ 32 := by rw [hN]; omega
  have hpl : (Y ++ List.replicate (N - Y.length) (0 : U8)).length = N := by simp; omega
  have hbytes : docBlob n ty value ++ [0] =
      2 :: (leBytes 4 n.toNat ++ (leBytes 4 ty.toNat ++ (leBytes 2 value.length ++ (value ++ [0])))) := by
    simp [docBlob]
  refine readTrace_cut_inside env io names types ps [] es []
    (.var n ty (Y ++ List.replicate (N - Y.length) 0)) _ (docBlob n ty value ++ [0])
    (List.replicate (N - Y.length) 0) hdr ?_ ?_ hsane ?_ henv halloc rfl ?_ (by simp) ?_
  · intro p hp
    rcases List.mem_append.mp hp with hp | hp
    · exact hwf p (List.mem_append.mpr (Or.inl hp))
    · simp only [List.mem_singleton] at hp
      subst hp
      intro e he
      rcases List.mem_append.mp he with he | he
      · exact hwf es (by simp) e he
      · simp only [List.mem_singleton] at he
        subst he
        refine ⟨hn, _, hty, ?_⟩
        simp only [PayloadOk, if_true, hpl]
        exact hN32
  · intro p hp
    rcases List.mem_append.mp hp with hp | hp
    · exact hstmt p (List.mem_append.mpr (Or.inl hp))
    · simp only [List.mem_singleton] at hp
      subst hp
      have := hstmt es (by simp)
      simpa [entryStmt] using this
  · intro p hp
    rcases List.mem_append.mp hp with hp | hp
    · exact hres p (List.mem_append.mpr (Or.inl hp))
    · simp only [List.mem_singleton] at hp
      subst hp
      have := hres es (by simp)
      simpa [entrySizes] using this
  · rw [hbytes, hY, Entry.encode, hty]
    simp only [encodePayload, and_self, if_true, hpl, hle]
    simp
  · intro h0
    have := congrArg List.length h0
    simp at this
    omega

/-- The point of the example with the value "hi". -/
example : readTrace exEnv 0 (IStream.ofBytes (encodeHeader exNames exTypes ++
      (encodePoints exTypes exPoints ++ (encodeEntries exTypes [.stmt 9] ++ (docBlob 1 2 [104, 105] ++ [0]))))) =
    .throw .eof :=
  C94_blob exEnv false exNames exTypes exPoints [.stmt 9] 1 2 0 [104, 105] exHeaderOk (by decide +kernel)
    (by decide +kernel) exSane (by decide +kernel) rfl (fun _ => rfl) (by decide) rfl (by decide)
    ⟨104, by decide, by decide⟩

end TraceDB
