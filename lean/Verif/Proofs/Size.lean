import Verif.Proofs.ReaderAll
import Verif.Proofs.HeaderCut
import Verif.Model.Writer
import Verif.Spec.Size
/-
Lemmas about the size of traces that are read.
-/
namespace TraceDB

variable {env : Env} {io : Bool} {names : List Name} {types : List TypeDesc}

/-! The header -/

theorem readType_needs {bs : List U8} {t : TypeDesc} {s : IStream} (h : readType (gs io bs) = .ok (t, s)) :
    8 ≤ bs.length := by
  unfold readType at h
  rcases readUInt_cases (io := io) 4 0 bs with ⟨b, r, rfl, hb, e⟩ | ⟨_, e⟩
  · rw [e] at h
    simp only [Res.ok_bind] at h
    rcases readUInt_cases (io := io) 4 5 r with ⟨b', r', rfl, hb', e'⟩ | ⟨_, e'⟩
    · simp only [List.length_append]; omega
    · rw [e'] at h
      simp [Res.ok_bind] at h
  · rw [e] at h
    simp [Res.ok_bind] at h

theorem readTypes_needs : ∀ (n : Nat) (bs : List U8) (ts : List TypeDesc) (s : IStream),
    readTypes n (gs io bs) = .ok (ts, s) → 12 * ts.length ≤ bs.length + 4
  | 0, bs, ts, s, h => by
    cases h
    simp
  | n + 1, bs, ts, s, h => by
    rw [readTypes] at h
    rcases readType_cases (io := io) bs with ⟨t, R, _, rfl, e⟩ | ⟨t, e⟩ | ⟨x, e⟩
    · rw [e] at h
      simp only [Res.ok_bind] at h
      obtain ⟨⟨ts', s'⟩, h1, h2⟩ := Res.bind_eq_ok.mp h
      cases h2
      have := readTypes_needs n R ts' s' h1
      simp only [List.length_cons, List.length_append, encodeType_length]
      omega
    · have h8 := readType_needs e
      rw [e] at h
      simp only [Res.ok_bind] at h
      cases n with
      | zero =>
        cases h
        simp
        omega
      | succ n => rw [readTypes_ended] at h; cases h
    · rw [e] at h; cases h

theorem readTypeTable_needs {bs : List U8} {ts : List TypeDesc} {s : IStream}
    (h : readTypeTable env (gs io bs) = .ok (ts, s)) : 12 * ts.length ≤ bs.length := by
  unfold readTypeTable at h
  rcases readUInt_cases (io := io) 4 0 bs with ⟨b, r, rfl, hb, e⟩ | ⟨_, e⟩
  · rw [e] at h
    simp only [Res.ok_bind] at h
    split at h
    · cases h
    · have := readTypes_needs _ _ _ _ h
      simp only [List.length_append]
      omega
  · rw [e] at h
    simp only [Res.ok_bind] at h
    split at h
    · cases h
    · generalize leNat (overlay (leBytes 4 0) bs) = n at h
      cases n with
      | zero => cases h; simp
      | succ n => rw [readTypes_ended] at h; cases h

theorem readHeader_needs {bs : List U8} {ns : List Name} {ts : List TypeDesc} {s : IStream}
    (h : readHeader env (gs io bs) = .ok (ns, ts, s)) : 8 + charCount ns + 12 * ts.length ≤ bs.length := by
  unfold readHeader at h
  rcases readNameTable_cases (env := env) (io := io) bs with ⟨names, R, _, _, _, rfl, e⟩ | ⟨names, e⟩ | ⟨x, e⟩ | ⟨k, e, _⟩
  · rw [e] at h
    simp only [Res.ok_bind] at h
    obtain ⟨⟨ts', s'⟩, h1, h2⟩ := Res.bind_eq_ok.mp h
    cases h2
    have := readTypeTable_needs h1
    simp only [List.length_append, leBytes_length, flatNames_length]
    omega
  · rw [e] at h
    simp [Res.ok_bind] at h
  · rw [e] at h; cases h
  · rw [e] at h; cases h

/-! The points -/

theorem encodePayload_length (ty : TypeDesc) (p : List U8) : p.length ≤ (encodePayload ty p).length := by
  unfold encodePayload
  split <;> simp

theorem decodeVar_size {ty : TypeDesc} {p : List U8} (h : PayloadOk ty p) (H : List BufferSize) (n t : U32) :
    (decodeVar ty H n t p).size.toNat ≤ p.length := by
  unfold PayloadOk at h
  unfold decodeVar
  cases hf : ty.format <;> rw [hf] at h <;> simp only at h ⊢
  · exact Nat.le_of_eq h.2.symm
  · exact Nat.le_of_eq h.2.symm
  · exact Nat.le_of_eq h.2.symm
  · split <;> exact Nat.le_of_eq h.2.symm
  · simp only [BitVec.toNat_ofNat]
    exact Nat.mod_le _ _

/-- What the entries of a point take in the file. -/
theorem entries_space : ∀ (es : List Entry) (H : List BufferSize), (∀ e ∈ es, e.WF names types) →
    17 * (entrySizes es).length + 9 * (entryAux es).length + ((entryVars types H es).map VarInfo.space).sum +
      (if (entryStmt es).isSome then 9 else 0) ≤ (encodeEntries types es).length
  | [], H, _ => by simp [entrySizes, entryAux, entryVars, entryStmt]
  | e :: es, H, h => by
    have ht := fun H => entries_space es H fun e he => h e (by simp [he])
    have he := h e (by simp)
    cases e with
    | stmt id =>
      have := ht H
      simp only [entrySizes, entryAux, entryVars, encodeEntries, List.filterMap_cons, List.flatMap_cons, List.length_append,
        Entry.encode, List.length_cons, leBytes_length] at this ⊢
      split <;> split at this <;> omega
    | aux v =>
      have := ht H
      rw [show entryStmt (.aux v :: es) = entryStmt es from rfl]
      simp only [entrySizes, entryAux, entryVars, encodeEntries, List.filterMap_cons, List.flatMap_cons, List.length_append,
        Entry.encode, List.length_cons, leBytes_length] at this ⊢
      omega
    | size r =>
      have := ht (H ++ [r])
      rw [show entryStmt (.size r :: es) = entryStmt es from rfl]
      simp only [entrySizes, entryAux, entryVars, encodeEntries, List.filterMap_cons, List.flatMap_cons, List.length_append,
        Entry.encode, List.length_cons, leBytes_length] at this ⊢
      omega
    | var n t p =>
      obtain ⟨_, ty, hty, hp⟩ := he
      have := ht H
      rw [show entryStmt (.var n t p :: es) = entryStmt es from rfl]
      have h1 := encodePayload_length ty p
      have h2 := decodeVar_size hp H n t
      simp only [entrySizes, entryAux, entryVars, encodeEntries, List.filterMap_cons, List.flatMap_cons, List.length_append,
        Entry.encode, List.length_cons, leBytes_length, hty, List.map_cons, List.sum_cons, VarInfo.space] at this ⊢
      omega

/-- What points take in the file. -/
theorem points_space (ns : U64) (extra : Nat) : ∀ (ps : List (List Entry)) (i : Nat) (H : List BufferSize),
    (∀ q ∈ ps, ∀ e ∈ q, e.WF names types) → (∀ q ∈ ps, extra = 0 ∨ (extra = 9 ∧ (entryStmt q).isSome = true)) →
    ((pointsOf types ns i H ps).map fun p => extra + p.space).sum ≤ (encodePoints types ps).length
  | [], _, _, _, _ => by simp [pointsOf]
  | q :: ps, i, H, h, hx => by
    have h1 := points_space ns extra ps (i + 1) (H ++ entrySizes q) (fun q hq => h q (by simp [hq]))
      fun q hq => hx q (by simp [hq])
    have h2 := entries_space q H (h q (by simp))
    have h3 := hx q (by simp)
    have h4 : extra ≤ if (entryStmt q).isSome then 9 else 0 := by
      rcases h3 with rfl | ⟨rfl, h3⟩
      · simp
      · simp [h3]
    simp only [pointsOf, pointOf, Point.space, encodePoints, List.flatMap_cons, List.map_cons, List.sum_cons, List.length_append,
      encodePoint, List.length_singleton] at h1 h2 ⊢
    omega

theorem encodePoints_kept (k : U64) (ps : List (List Entry)) :
    (encodePoints types (kept k ps)).length ≤ (encodePoints types ps).length := by
  unfold kept
  split
  · exact Nat.le_refl _
  · have : encodePoints types ps = encodePoints types (ps.take k.toNat) ++ encodePoints types (ps.drop k.toNat) := by
      unfold encodePoints
      rw [← List.flatMap_append, List.take_append_drop]
    rw [this, List.length_append]
    omega

theorem encodeHeader_length (names : List Name) (types : List TypeDesc) :
    (encodeHeader names types).length = 12 + charCount names + 12 * types.length := by
  rw [encodeHeader_eq]
  have : (types.flatMap encodeType).length = 12 * types.length := by
    induction types with
    | nil => rfl
    | cons t ts ih => simp only [List.flatMap_cons, List.length_append, encodeType_length, List.length_cons, ih]; omega
  simp only [List.length_append, leBytes_length, flatNames_length, this]
  omega

/-- Everything about the size of a trace that was read. -/
theorem read_space {k : U64} {bs : List U8} {t : Trace} (h : readTrace env k (gs io bs) = .ok t) (extra : Nat)
    (hx : extra = 0 ∨ (extra = 9 ∧ env.junk = none)) :
    8 + charCount t.names + 12 * t.types.length + (t.points.map fun p => extra + p.space).sum ≤ bs.length := by
  rcases readTrace_ok h with ⟨body, ps, p, left, _, _, rfl, hd, hf, hp, _⟩ | ⟨hp, hh⟩
  · have h1 := points_space (names := t.names) (types := t.types) (junkStmt env) extra (kept k ps) 0 []
      (fun q hq => hd.points q (kept_mem hq)) (by
        intro q hq
        rcases hx with hx | ⟨hx, hj⟩
        · exact .inl hx
        · refine .inr ⟨hx, ?_⟩
          rcases hf.stmts q hq with h | h
          · exact h
          · rw [hj] at h; cases h)
    have h2 := encodePoints_kept (types := t.types) k ps
    rw [hp, List.length_append, encodeHeader_length, hd.eq, List.length_append]
    omega
  · have := readHeader_needs hh
    rw [hp]
    simpa using this

/-! Writing -/

theorem writeVarInfo_length (v : VarInfo) (h : v.value.bytes.length ≤ v.size.toNat) :
    ([2] ++ writeVarInfo v).length ≤ 17 + v.size.toNat := by
  unfold writeVarInfo
  simp only [List.length_append, leBytes_length, List.length_singleton]
  split
  · repeat' split
    all_goals simp only [leBytes_length, List.length_nil]; omega
  · repeat' split
    all_goals simp only [leBytes_length, List.length_nil]; omega
  · repeat' split
    all_goals simp only [leBytes_length, List.length_nil]; omega
  · simp only [leBytes_length]; omega
  · simp only [leBytes_length, List.length_append]; omega
  · simp only [List.length_nil]; omega

end TraceDB
