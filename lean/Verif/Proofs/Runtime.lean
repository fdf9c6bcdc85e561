import Verif.Spec.Runtime
import Verif.Proofs.RoundTrip
/-
The bytes written by the instrumentation runtime are the encoding of entries.
-/
namespace TraceDB

variable {cf : CFloat} {mem : CMem} {names : List Name} {types : List TypeDesc}

/-! ### Arguments -/

theorem vaArg32_carries {s : Slot} {v : U32} {r : List Slot} (h : s.Carries32 v) :
    vaArg32 (s :: r) = .ok (v, r) := by
  obtain ⟨w, rfl, hw⟩ := h
  simp [vaArg32, hw]

theorem leBytes_low (n : Nat) {x y : Nat} (h : x % 256 ^ n = y % 256 ^ n) : leBytes n x = leBytes n y := by
  rw [← leBytes_mod n x, h, leBytes_mod]

theorem toNat_ofInt_mod (v : Int) (m n : Nat) (hn : n ≤ m) :
    (BitVec.ofInt m v).toNat % 2 ^ n = (BitVec.ofInt n v).toNat := by
  rw [BitVec.toNat_ofInt, BitVec.toNat_ofInt]
  have h1 : (0 : Int) < ((2 ^ m : Nat) : Int) := by exact_mod_cast Nat.two_pow_pos m
  have h2 : (0 : Int) < ((2 ^ n : Nat) : Int) := by exact_mod_cast Nat.two_pow_pos n
  have h3 : ((2 ^ n : Nat) : Int) ∣ ((2 ^ m : Nat) : Int) := by
    exact_mod_cast Nat.pow_dvd_pow 2 hn
  have h4 := Int.emod_nonneg v (Int.ne_of_gt h1)
  have h5 := Int.emod_nonneg v (Int.ne_of_gt h2)
  have h6 := Int.emod_emod_of_dvd v h3
  apply Int.ofNat.inj
  show (((v % ((2 ^ m : Nat) : Int)).toNat % 2 ^ n : Nat) : Int) = ((v % ((2 ^ n : Nat) : Int)).toNat : Int)
  rw [Int.natCast_emod, Int.toNat_of_nonneg h4, Int.toNat_of_nonneg h5, h6]

theorem leBytes_ofInt (v : Int) (n m : Nat) (hn : 8 * n ≤ m) (hm : m ≤ 64) :
    leBytes n (BitVec.ofInt m v).toNat = leBytes n (BitVec.ofInt 64 v).toNat := by
  apply leBytes_low
  rw [show 256 ^ n = 2 ^ (8 * n) by rw [Nat.pow_mul]]
  rw [toNat_ofInt_mod v m _ hn, toNat_ofInt_mod v 64 _ (by omega)]

theorem leBytes_ofNat (v : Nat) (n m : Nat) (hn : 8 * n ≤ m) :
    leBytes n (BitVec.ofNat m v).toNat = leBytes n v := by
  apply leBytes_low
  rw [show 256 ^ n = 2 ^ (8 * n) by rw [Nat.pow_mul], BitVec.toNat_ofNat]
  exact Nat.mod_mod_of_dvd _ (Nat.pow_dvd_pow 2 hn)

theorem leBytes_setWidth {w : Nat} (v : BitVec w) (n m : Nat) (hn : 8 * n ≤ m) :
    leBytes n (v.setWidth m).toNat = leBytes n v.toNat := by
  rw [BitVec.toNat_setWidth]
  apply leBytes_low
  rw [show 256 ^ n = 2 ^ (8 * n) by rw [Nat.pow_mul]]
  exact Nat.mod_mod_of_dvd _ (Nat.pow_dvd_pow 2 hn)

/-! ### Values -/

theorem writeVarValue_ok {c : CValue} {s : Slot} {r : List Slot} (hf : c.FloatOk cf) (hp : c.PassedAs cf s) :
    writeVarValue cf (BitVec.ofNat 32 c.size) (BitVec.ofNat 32 c.format.code) (s :: r) = .ok (c.payload, r) := by
  cases c with
  | signed k v =>
    cases k
    · have : vaArg32 (s :: r) = .ok (BitVec.ofInt 32 v, r) := vaArg32_carries hp
      simp only [writeVarValue, CValue.format, CValue.size, TypeFormat.code, IntSize.bytes, CValue.payload]
      simp only [this, Res.ok_bind, Res.pure_eq]
      show Res.ok (leBytes 1 _, r) = _
      rw [leBytes_setWidth _ 1 8 (by omega), leBytes_ofInt v 1 32 (by omega) (by omega)]
    · have : vaArg32 (s :: r) = .ok (BitVec.ofInt 32 v, r) := vaArg32_carries hp
      simp only [writeVarValue, CValue.format, CValue.size, TypeFormat.code, IntSize.bytes, CValue.payload]
      simp only [this, Res.ok_bind, Res.pure_eq]
      show Res.ok (leBytes 2 _, r) = _
      rw [leBytes_setWidth _ 2 16 (by omega), leBytes_ofInt v 2 32 (by omega) (by omega)]
    · have : vaArg32 (s :: r) = .ok (BitVec.ofInt 32 v, r) := vaArg32_carries hp
      simp only [writeVarValue, CValue.format, CValue.size, TypeFormat.code, IntSize.bytes, CValue.payload]
      simp only [this, Res.ok_bind, Res.pure_eq]
      show Res.ok (leBytes 4 _, r) = _
      rw [leBytes_ofInt v 4 32 (by omega) (by omega)]
    · have : s = .gp (BitVec.ofInt 64 v) := hp
      subst this
      simp [writeVarValue, CValue.format, CValue.size, TypeFormat.code, IntSize.bytes, CValue.payload, vaArg64]
  | unsigned k v =>
    cases k
    · have : vaArg32 (s :: r) = .ok (BitVec.ofNat 32 v, r) := vaArg32_carries hp
      simp only [writeVarValue, CValue.format, CValue.size, TypeFormat.code, IntSize.bytes, CValue.payload]
      simp only [this, Res.ok_bind, Res.pure_eq]
      show Res.ok (leBytes 1 _, r) = _
      rw [leBytes_setWidth _ 1 8 (by omega), leBytes_ofNat v 1 32 (by omega)]
    · have : vaArg32 (s :: r) = .ok (BitVec.ofNat 32 v, r) := vaArg32_carries hp
      simp only [writeVarValue, CValue.format, CValue.size, TypeFormat.code, IntSize.bytes, CValue.payload]
      simp only [this, Res.ok_bind, Res.pure_eq]
      show Res.ok (leBytes 2 _, r) = _
      rw [leBytes_setWidth _ 2 16 (by omega), leBytes_ofNat v 2 32 (by omega)]
    · have : vaArg32 (s :: r) = .ok (BitVec.ofNat 32 v, r) := vaArg32_carries hp
      simp only [writeVarValue, CValue.format, CValue.size, TypeFormat.code, IntSize.bytes, CValue.payload]
      simp only [this, Res.ok_bind, Res.pure_eq]
      show Res.ok (leBytes 4 _, r) = _
      rw [leBytes_ofNat v 4 32 (by omega)]
    · have : s = .gp (BitVec.ofNat 64 v) := hp
      subst this
      show Res.ok (leBytes 8 (BitVec.ofNat 64 v).toNat, r) = _
      rw [leBytes_ofNat v 8 64 (by omega)]
      rfl
  | float b =>
    have : s = .fp (cf.widen b) := hp
    subst this
    have : cf.narrow (cf.widen b) = b := hf
    simp [writeVarValue, CValue.format, CValue.size, TypeFormat.code, CValue.payload, vaArgDouble, this]
  | double b =>
    have : s = .fp b := hp
    subst this
    simp [writeVarValue, CValue.format, CValue.size, TypeFormat.code, CValue.payload, vaArgDouble]
  | pointer a =>
    have : s = .gp a := hp
    subst this
    simp [writeVarValue, CValue.format, CValue.size, TypeFormat.code, CValue.payload, vaArg64]

theorem ofNat32_size (c : CValue) : (BitVec.ofNat 32 c.size).toNat = c.size := by
  rcases c with ⟨k, _⟩ | ⟨k, _⟩ | _ | _ | _ <;> (try cases k) <;> rfl

theorem payload_length (c : CValue) : c.payload.length = c.size := by
  cases c <;> simp [CValue.payload, CValue.size]

/-- What the reader makes of the recorded bytes. -/
theorem decodeVar_payload {v : VarRec} {ty : TypeDesc} (H : List BufferSize) (hr : v.value.InRange)
    (hf : ty.format = v.value.format) (hs : ty.size.toNat = v.value.size) :
    decodeVar ty H v.name v.type v.value.payload = v.info H := by
  have hsz : ty.size = BitVec.ofNat 32 v.value.size := by
    apply BitVec.eq_of_toNat_eq; rw [ofNat32_size, hs]
  obtain ⟨n, t, c⟩ := v
  simp only at *
  unfold decodeVar VarRec.info
  rw [hf, hsz]
  cases c with
  | signed k v =>
    simp only [CValue.format, CValue.word, if_true, ne_eq, not_true, decide_false]
    have hk : 0 < k.bytes ∧ k.bytes ≤ 8 := by cases k <;> decide
    have h64 : (BitVec.ofInt 64 v).toInt = v := by
      have h1 : (2 : Int) ^ (8 * k.bytes - 1) ≤ 2 ^ 63 := by
        cases k <;> decide
      obtain ⟨ha, hb⟩ := hr
      rw [BitVec.toInt_ofInt]
      apply Int.bmod_eq_of_le <;> omega
    rw [show (CValue.signed k v).payload = leBytes k.bytes (BitVec.ofInt 64 v).toNat from rfl,
      signedOf_leBytes hk.1 hk.2 (by rw [h64]; exact hr.1) (by rw [h64]; exact hr.2)]
  | unsigned k v =>
    simp only [CValue.format, CValue.word, if_true, ne_eq, not_true, decide_false]
    rw [show (CValue.unsigned k v).payload = leBytes k.bytes v from rfl, leNat_leBytes_of_lt]
    rw [show 256 ^ k.bytes = 2 ^ (8 * k.bytes) by rw [Nat.pow_mul]]
    exact hr
  | float b =>
    simp only [CValue.format, CValue.word, if_true, ne_eq, not_true, decide_false]
    rw [show (CValue.float b).payload = leBytes 4 b.toNat from rfl, leNat_leBytes_of_lt (u32_lt b)]
    congr 2
    apply BitVec.eq_of_toNat_eq
    rw [BitVec.toNat_ofNat, BitVec.toNat_setWidth]
  | double b =>
    simp only [CValue.format, CValue.word, if_true, ne_eq, not_true, decide_false]
    rw [show (CValue.double b).payload = leBytes 8 b.toNat from rfl, leNat_leBytes_of_lt (u64_lt b)]
    congr 2
    simp
  | pointer a =>
    simp only [CValue.format, CValue.word]
    rw [show (CValue.pointer a).payload = leBytes 8 a.toNat from rfl, leNat_leBytes_of_lt (u64_lt a),
      ofNat_toNat64]
    split
    · rename_i h
      simp [h]
    · rename_i h
      simp [h]

/-! ### Calls -/

theorem writeVariables_ok {l : List VarRec} {args : List Slot} (h : ArgsAll (VarRec.Args cf) l args)
    (ht : ∀ v ∈ l, v.Typed names types ∧ v.value.FloatOk cf) :
    writeVariables cf l.length args = .ok (encodeEntries types (l.map VarRec.entry)) := by
  induction h with
  | nil => rfl
  | @cons x xs l1 l2 hx _ ih =>
    obtain ⟨a, b, c, d, e, rfl, ha, hb, hc, hd, he⟩ := hx
    obtain ⟨⟨_, _, ty, hty, hf, hs⟩, hfl⟩ := ht x (by simp)
    have ih := ih (fun v hv => ht v (by simp [hv]))
    have hnb : ¬ (ty.format = .blob ∧ ty.size = 0) := by
      rintro ⟨h1, _⟩
      rw [hf] at h1
      cases hv : x.value <;> rw [hv] at h1 <;> cases h1
    simp only [List.length_cons, List.cons_append, List.nil_append, writeVariables, vaArg32_carries ha,
      vaArg32_carries hb, vaArg32_carries hc, vaArg32_carries hd, writeVarValue_ok hfl he, ih,
      Res.ok_bind, Res.pure_eq, List.map_cons, encodeEntries, List.flatMap_cons, VarRec.entry, Entry.encode, hty,
      encodePayload, if_neg hnb, List.append_assoc]

theorem writeBlobs_ok {l : List BlobRec} {args : List Slot} (h : ArgsAll (BlobRec.Args mem) l args)
    (ht : ∀ v ∈ l, v.Typed names types) :
    writeBlobs mem l.length args = .ok (encodeEntries types (l.map BlobRec.entry)) := by
  induction h with
  | nil => rfl
  | @cons x xs l1 l2 hx _ ih =>
    obtain ⟨a, b, c, p, rfl, ha, hb, hc, hm⟩ := hx
    obtain ⟨_, hlen, ty, hty, hf, hs⟩ := ht x (by simp)
    have ih := ih (fun v hv => ht v (by simp [hv]))
    have hl : (BitVec.ofNat 32 x.bytes.length).toNat = x.bytes.length := by
      rw [BitVec.toNat_ofNat]; exact Nat.mod_eq_of_lt hlen
    simp only [List.length_cons, List.cons_append, List.nil_append, writeBlobs, vaArg32_carries ha,
      vaArg32_carries hb, vaArg32_carries hc, vaArg64, hl, hm, ih,
      Res.ok_bind, Res.pure_eq, List.map_cons, encodeEntries, List.flatMap_cons, BlobRec.entry, Entry.encode, hty,
      encodePayload, if_pos (And.intro hf hs), List.append_assoc]

theorem call_bytes {x : RecItem} {c : RtCall} (hc : x.CalledAs cf mem c) (ht : x.Typed names types cf) :
    c.bytes cf mem = .ok (encodeEntries types x.entries) := by
  cases x with
  | buffer r =>
    cases hc
    simp [RtCall.bytes, RecItem.entries, encodeEntries, Entry.encode]
  | vars l =>
    obtain ⟨n, args, rfl, hn, ha⟩ := hc
    simp only [RtCall.bytes, hn, if_pos ht.1, writeVariables_ok ha ht.2, RecItem.entries]
  | blobs l =>
    obtain ⟨n, args, rfl, hn, ha⟩ := hc
    simp only [RtCall.bytes, hn, if_pos ht.1, writeBlobs_ok ha ht.2, RecItem.entries]

theorem rtBytes_append (a b : List RtCall) :
    rtBytes cf mem (a ++ b) = (do let x ← rtBytes cf mem a; let y ← rtBytes cf mem b; return x ++ y) := by
  induction a with
  | nil =>
    simp only [List.nil_append, rtBytes, Res.ok_bind]
    cases rtBytes cf mem b <;> rfl
  | cons c a ih =>
    simp only [List.cons_append, rtBytes, ih]
    cases c.bytes cf mem <;> simp
    cases rtBytes cf mem a <;> simp
    cases rtBytes cf mem b <;> simp

theorem items_bytes {l : List RecItem} {cs : List RtCall} (h : AllRel (RecItem.CalledAs cf mem) l cs)
    (ht : ∀ x ∈ l, x.Typed names types cf) :
    rtBytes cf mem cs = .ok (encodeEntries types (l.flatMap RecItem.entries)) := by
  induction h with
  | nil => rfl
  | @cons x c xs cs hx _ ih =>
    simp only [rtBytes, call_bytes hx (ht x (by simp)), ih (fun y hy => ht y (by simp [hy])), Res.ok_bind,
      Res.pure_eq, List.flatMap_cons, encodeEntries, List.flatMap_append]

theorem point_bytes {p : RecPoint} {cs : U64 × List RtCall} (h : p.CalledAs cf mem cs)
    (ht : ∀ x ∈ p.items, x.Typed names types cf) :
    rtBytes cf mem (pointCalls cs.1 cs.2) = .ok (encodePoint types p.entries) := by
  obtain ⟨id, cs⟩ := cs
  obtain ⟨rfl, h⟩ := h
  simp only [pointCalls, rtBytes, rtBytes_append, items_bytes h ht, RtCall.bytes, Res.ok_bind, Res.pure_eq,
    RecPoint.entries, encodePoint, encodeEntries, List.flatMap_cons, Entry.encode, List.append_nil,
    List.append_assoc]

theorem points_bytes {ps : List RecPoint} {calls : List (U64 × List RtCall)}
    (h : AllRel (RecPoint.CalledAs cf mem) ps calls) (ht : ∀ p ∈ ps, ∀ x ∈ p.items, x.Typed names types cf) :
    rtBytes cf mem (calls.flatMap fun p => pointCalls p.1 p.2) = .ok (encodePoints types (ps.map RecPoint.entries)) := by
  induction h with
  | nil => rfl
  | @cons p c ps cs hp _ ih =>
    simp only [List.flatMap_cons, rtBytes_append, point_bytes hp (ht p (by simp)),
      ih (fun y hy => ht y (by simp [hy])), Res.ok_bind, Res.pure_eq, List.map_cons, encodePoints]

/-! ### Header -/

theorem cStr_of_nulFree {s : List U8} (h : (0 : U8) ∉ s) : cStr s = s := by
  unfold cStr
  induction s with
  | nil => rfl
  | cons b s ih =>
    simp only [List.mem_cons, not_or] at h
    rw [List.takeWhile_cons_of_pos (by simpa using fun hb => h.1 hb.symm), ih h.2]

theorem total_foldl (names : List Name) (acc : U64) (hb : acc.toNat + (names.map fun n => n.length + 1).sum < 2 ^ 64)
    (hn : ∀ n ∈ names, (0 : U8) ∉ n) :
    (names.foldl (fun n s => n + BitVec.ofNat 64 ((cStr s).length + 1)) acc).toNat =
      acc.toNat + (names.map fun n => n.length + 1).sum := by
  induction names generalizing acc with
  | nil => simp
  | cons s names ih =>
    simp only [List.map_cons, List.sum_cons] at hb
    rw [List.foldl_cons, cStr_of_nulFree (hn s (by simp))]
    have h1 : (acc + BitVec.ofNat 64 (s.length + 1)).toNat = acc.toNat + (s.length + 1) := by
      rw [BitVec.toNat_add, BitVec.toNat_ofNat]
      omega
    rw [ih _ (by rw [h1]; omega) (fun n h => hn n (by simp [h])), h1]
    simp only [List.map_cons, List.sum_cons]
    omega

theorem writeTraceHeader_ok (hdr : HeaderOk names types) (hn : names.length < 2 ^ 32) :
    writeTraceHeader names types = .ok (encodeHeader names types) := by
  have h1 : names.flatMap (fun s => cStr s ++ [0]) = names.flatMap (fun s => s ++ [0]) := by
    have : ∀ (l : List Name), (∀ n ∈ l, (0 : U8) ∉ n) → l.flatMap (fun s => cStr s ++ [0]) = l.flatMap (fun s => s ++ [0]) := by
      intro l
      induction l with
      | nil => intro _; rfl
      | cons s l ih =>
        intro h
        rw [List.flatMap_cons, List.flatMap_cons, cStr_of_nulFree (h s (by simp)), ih (fun n hn => h n (by simp [hn]))]
    exact this names hdr.nulFree
  have hc := hdr.chars
  have h2 := total_foldl names 0 (by simp; omega) hdr.nulFree
  simp only [writeTraceHeader, if_pos hn, encodeHeader, h1]
  rw [h2]
  simp

/-! ### Meaning -/

theorem recorded_wf {x : RecItem} (h : x.Typed names types cf) : ∀ e ∈ x.entries, e.WF names types := by
  intro e he
  cases x with
  | buffer r =>
    simp only [RecItem.entries, List.mem_singleton] at he
    subst he; trivial
  | vars l =>
    simp only [RecItem.entries, List.mem_map] at he
    obtain ⟨v, hv, rfl⟩ := he
    obtain ⟨⟨hn, _, ty, hty, hf, hs⟩, _⟩ := h.2 v hv
    refine ⟨hn, ty, hty, ?_⟩
    have hl := payload_length v.value
    rw [← hs] at hl
    unfold PayloadOk
    have hsz : ty.size = BitVec.ofNat 32 v.value.size := by
      apply BitVec.eq_of_toNat_eq; rw [ofNat32_size, hs]
    rw [hf]
    rcases hc : v.value with ⟨k, w⟩ | ⟨k, w⟩ | _ | _ | _ <;> rw [hc] at hl hsz
    · refine ⟨?_, hl⟩
      rw [hsz]
      cases k <;> simp [CValue.size, IntSize.bytes]
    · refine ⟨?_, hl⟩
      rw [hsz]
      cases k <;> simp [CValue.size, IntSize.bytes]
    all_goals exact ⟨by rw [hsz]; simp [CValue.size], hl⟩
  | blobs l =>
    simp only [RecItem.entries, List.mem_map] at he
    obtain ⟨v, hv, rfl⟩ := he
    obtain ⟨hn, hlen, ty, hty, hf, hs⟩ := h.2 v hv
    refine ⟨hn, ty, hty, ?_⟩
    unfold PayloadOk
    rw [hf]
    simp only [if_pos hs]
    exact hlen

theorem entrySizes_append (a b : List Entry) : entrySizes (a ++ b) = entrySizes a ++ entrySizes b := by
  simp [entrySizes]

theorem entrySizes_vars (l : List VarRec) : entrySizes (l.map VarRec.entry) = [] := by
  induction l with
  | nil => rfl
  | cons v l ih => simp [entrySizes, VarRec.entry]

theorem entrySizes_blobs (l : List BlobRec) : entrySizes (l.map BlobRec.entry) = [] := by
  induction l with
  | nil => rfl
  | cons v l ih => simp [entrySizes, BlobRec.entry]

theorem entrySizes_recorded (l : List RecItem) : entrySizes (l.flatMap RecItem.entries) = recSizes l := by
  induction l with
  | nil => rfl
  | cons x l ih =>
    rw [List.flatMap_cons, entrySizes_append, ih]
    cases x
    · simp [RecItem.entries, entrySizes, recSizes]
    · simp [RecItem.entries, entrySizes_vars, recSizes]
    · simp [RecItem.entries, entrySizes_blobs, recSizes]

theorem entrySizes_point (p : RecPoint) : entrySizes p.entries = recSizes p.items := by
  rw [← entrySizes_recorded]; rfl

theorem entryVars_vars (l : List VarRec) (H : List BufferSize) (es : List Entry)
    (ht : ∀ v ∈ l, v.Typed names types) :
    entryVars types H (l.map VarRec.entry ++ es) = l.map (VarRec.info H) ++ entryVars types H es := by
  induction l with
  | nil => rfl
  | cons v l ih =>
    obtain ⟨_, hr, ty, hty, hf, hs⟩ := ht v (by simp)
    simp only [List.map_cons, List.cons_append, VarRec.entry, entryVars, hty]
    rw [decodeVar_payload H hr hf hs]
    congr 1
    exact ih (fun w hw => ht w (by simp [hw]))

theorem entryVars_blobs (l : List BlobRec) (H : List BufferSize) (es : List Entry)
    (ht : ∀ v ∈ l, v.Typed names types) :
    entryVars types H (l.map BlobRec.entry ++ es) = l.map BlobRec.info ++ entryVars types H es := by
  induction l with
  | nil => rfl
  | cons v l ih =>
    obtain ⟨_, _, ty, hty, hf, hs⟩ := ht v (by simp)
    simp only [List.map_cons, List.cons_append, BlobRec.entry, entryVars, hty, decodeVar, hf]
    congr 1
    exact ih (fun w hw => ht w (by simp [hw]))

theorem entryVars_recorded (l : List RecItem) (H : List BufferSize) (ht : ∀ x ∈ l, x.Typed names types cf) :
    entryVars types H (l.flatMap RecItem.entries) = recVars H l := by
  induction l generalizing H with
  | nil => rfl
  | cons x l ih =>
    have ih := fun H => ih H (fun y hy => ht y (by simp [hy]))
    have hx := ht x (by simp)
    rw [List.flatMap_cons]
    cases x with
    | buffer r => simp only [RecItem.entries, List.cons_append, List.nil_append, entryVars, recVars, ih]
    | vars vs =>
      rw [RecItem.entries, entryVars_vars (names := names) _ _ _ (fun v hv => (hx.2 v hv).1), ih, recVars]
    | blobs vs => rw [RecItem.entries, entryVars_blobs (names := names) _ _ _ hx.2, ih, recVars]

theorem entryAux_recorded (l : List RecItem) : entryAux (l.flatMap RecItem.entries) = [] := by
  induction l with
  | nil => rfl
  | cons x l ih =>
    have : entryAux x.entries = [] := by
      cases x with
      | buffer r => rfl
      | vars vs => induction vs with
        | nil => rfl
        | cons v vs ih => simp [entryAux, VarRec.entry, RecItem.entries]
      | blobs vs => induction vs with
        | nil => rfl
        | cons v vs ih => simp [entryAux, BlobRec.entry, RecItem.entries]
    rw [List.flatMap_cons]
    unfold entryAux at this ih ⊢
    rw [List.filterMap_append, this, ih]; rfl

theorem entryStmt_point (p : RecPoint) : entryStmt p.entries = some p.statement := by
  have h : ∀ l : List RecItem, (l.flatMap RecItem.entries).filterMap
      (fun e => match e with | .stmt v => some v | _ => none) = ([] : List U64) := by
    intro l
    induction l with
    | nil => rfl
    | cons x l ih =>
      rw [List.flatMap_cons, List.filterMap_append, ih]
      cases x with
      | buffer r => rfl
      | vars vs => induction vs with
        | nil => rfl
        | cons v vs ih => simp [VarRec.entry, RecItem.entries]
      | blobs vs => induction vs with
        | nil => rfl
        | cons v vs ih => simp [BlobRec.entry, RecItem.entries]
  unfold entryStmt RecPoint.entries
  rw [List.filterMap_cons]
  exact congrArg (fun l => (p.statement :: l).getLast?) (h p.items)

theorem pointsOf_recorded (junk : U64) (ps : List RecPoint) (i : Nat) (H : List BufferSize)
    (ht : ∀ p ∈ ps, ∀ x ∈ p.items, x.Typed names types cf) :
    pointsOf types junk i H (ps.map RecPoint.entries) = recPoints i H ps := by
  induction ps generalizing i H with
  | nil => rfl
  | cons p ps ih =>
    rw [List.map_cons, pointsOf, recPoints, ih _ _ (fun q hq => ht q (by simp [hq])), entrySizes_point,
      entryStmt_point, pointOf, entrySizes_point]
    congr 1
    have h1 : entryVars types H p.entries = recVars H p.items := entryVars_recorded p.items H (ht p (by simp))
    have h2 : entryAux p.entries = [] := entryAux_recorded p.items
    rw [h1, h2]; rfl

/-- Reading a recorded run. -/
theorem readTrace_recorded {env : Env} {io : Bool} {ps : List RecPoint} (hdr : HeaderOk names types)
    (hal : ∀ n, env.canAlloc n = true) (ht : ∀ p ∈ ps, ∀ x ∈ p.items, x.Typed names types cf)
    (hres : ReservedOk (ps.flatMap fun p => recSizes p.items)) :
    readTrace env 0 (gs io (encodeHeader names types ++ encodePoints types (ps.map RecPoint.entries))) =
      .ok ⟨names, types, recPoints 0 [] ps⟩ := by
  have hwf : ∀ q ∈ ps.map RecPoint.entries, ∀ e ∈ q, e.WF names types := by
    intro q hq e he
    obtain ⟨p, hp, rfl⟩ := List.mem_map.mp hq
    rcases List.mem_cons.mp he with rfl | he
    · trivial
    · obtain ⟨x, hx, he⟩ := List.mem_flatMap.mp he
      exact recorded_wf (ht p hp x hx) e he
  have hd : Decomposed names types (encodePoints types (ps.map RecPoint.entries)) (ps.map RecPoint.entries) [] [] :=
    ⟨by simp [encodeEntries], hwf, by simp, stuck_nil⟩
  have hkept : kept 0 (ps.map RecPoint.entries) = ps.map RecPoint.entries := by simp [kept]
  have hall : ∀ q : List Entry, AllocsOk env types q := by
    intro q e _
    cases e <;> simp only [Entry.AllocOk]
    intros
    exact hal _
  have hflat : (ps.map RecPoint.entries).flatMap entrySizes = ps.flatMap fun p => recSizes p.items := by
    rw [List.flatMap_map]
    congr 1
    funext p
    exact entrySizes_point p
  have hfine : Fine env types [] (kept 0 (ps.map RecPoint.entries)) := by
    refine ⟨fun q _ => hall q, ?_, ?_⟩
    · rw [hkept, hflat]; exact hres
    · rw [hkept]
      intro q hq
      obtain ⟨p, hp, rfl⟩ := List.mem_map.mp hq
      left
      rw [entryStmt_point]; rfl
  have hb := readTrace_body (env := env) (io := io) (maxPoints := 0) hdr
    ⟨fun _ => hal _, fun _ => hal _⟩ hd rfl
  have h1 := ((hb.2 hfine).2 (by rintro ⟨h, _⟩; exact h rfl)).2 ⟨hall _, by
    rw [hflat]; simpa [entrySizes] using hres⟩
  rcases h1 with ⟨_, h1⟩ | ⟨h1, _⟩ | ⟨h1, _⟩
  · rw [h1, pointsOf_recorded _ _ _ _ ht]
  · exact absurd rfl h1
  · exact absurd rfl h1

end TraceDB
