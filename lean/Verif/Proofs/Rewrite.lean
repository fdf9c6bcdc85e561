import Verif.Props.Reader
import Verif.Proofs.RoundTrip
/-
Accepted traces with portable types are writable.
-/
namespace TraceDB

variable {names : List Name} {types : List TypeDesc}

theorem binaryRead_length {s s' : IStream} {n : Nat} {got : List U8} (h : binaryRead s n = .ok (got, s')) :
    got.length ≤ n := by
  unfold binaryRead at h
  cases hst : s.st <;> simp only [hst] at h
  · have h := congrArg Prod.fst (Res.ok.inj h)
    simp only at h
    rw [← h]
    unfold IStream.read
    split
    · simp; omega
    · simp only; omega
  · cases h
  · cases h

theorem decodeVar_fits {ty : TypeDesc} {H : List BufferSize} {n ti : U32} {payload : List U8}
    (hp : ty.Portable) (hok : PayloadOk ty payload) :
    (decodeVar ty H n ti payload).format = ty.format ∧ ValueFits ty (decodeVar ty H n ti payload) := by
  unfold TypeDesc.Portable at hp
  unfold PayloadOk at hok
  unfold ValueFits decodeVar
  cases hf : ty.format <;> simp only [hf] at hp hok ⊢
  · refine ⟨trivial, trivial, ?_⟩
    rw [pow_size, ← hok.2, BitVec.toNat_ofNat]
    exact Nat.lt_of_le_of_lt (Nat.mod_le _ _) (leNat_lt _)
  · refine ⟨trivial, trivial, ?_⟩
    have h0 : 0 < payload.length ∧ payload.length ≤ 8 := by
      rcases hp with h | h | h | h <;> rw [hok.2, h] <;> decide
    rw [toInt_ofInt_signedOf h0.1 h0.2, ← hok.2]
    exact signedOf_bounds h0.1
  · refine ⟨trivial, trivial, ?_⟩
    rw [pow_size, ← hok.2, BitVec.toNat_ofNat]
    exact Nat.lt_of_le_of_lt (Nat.mod_le _ _) (leNat_lt _)
  · split <;> simp
  · refine ⟨trivial, ?_⟩
    rw [if_pos hp] at hok
    rw [BitVec.toNat_ofNat, Nat.mod_eq_of_lt hok]

theorem entryVars_fits (hport : ∀ ty ∈ types, ty.Portable) {es : List Entry} {H : List BufferSize}
    (hwf : ∀ e ∈ es, e.WF names types) : ∀ v ∈ entryVars types H es, VarFits names types v := by
  intro v hv
  have hvalid := entryVars_valid es H hwf v hv
  obtain ⟨j, hj⟩ := List.mem_iff_getElem?.mp hv
  have hee := entryVars_entries es H hwf
  have hlt : j < (varEntries H es).length := by
    rw [← hee.1]; exact (List.getElem?_eq_some_iff.mp hj).1
  obtain ⟨_, ty, hty, hp, hdec⟩ := hee.2 j _ v (List.getElem?_eq_getElem hlt) hj
  refine ⟨hvalid.1, ty, ?_, ?_⟩
  · obtain ⟨ty', h1, h2, _⟩ := hvalid.2
    have : v.typeIndex = (varEntries H es)[j].2.2.1 := by
      rw [hdec]; unfold decodeVar
      cases ty.format <;> simp only
      split <;> simp
    rw [this]; exact hty
  · rw [hdec]
    exact decodeVar_fits (hport ty (List.mem_of_getElem? hty)) hp

theorem pointsOf_sizes (noStmt : U64) : ∀ (ps : List (List Entry)) (i : Nat) (H : List BufferSize),
    (pointsOf types noStmt i H ps).flatMap (·.sizes) = ps.flatMap entrySizes
  | [], _, _ => rfl
  | p :: ps, i, H => by
    simp only [pointsOf, List.flatMap_cons, pointsOf_sizes noStmt ps]; rfl

/-- The header of an accepted trace can be written. -/
theorem readHeader_headerOk {env : Env} {s s' : IStream} {names : List Name} {types : List TypeDesc}
    (h : readHeader env s = .ok (names, types, s')) : HeaderOk names types := by
  obtain ⟨⟨ns, s1⟩, h1, h⟩ := Res.bind_eq_ok.mp h
  obtain ⟨⟨ts, s2⟩, h2, h⟩ := Res.bind_eq_ok.mp h
  cases h
  have hn : (∀ n ∈ names, (0 : U8) ∉ n) ∧ charCount names < 2 ^ 63 := by
    unfold readNameTable at h1
    obtain ⟨⟨nc, s3⟩, h3, h1⟩ := Res.bind_eq_ok.mp h1
    simp only at h1
    split at h1
    · split at h1
      · cases h1
      · rename_i hcan
        obtain ⟨⟨got, s4⟩, h4, h1⟩ := Res.bind_eq_ok.mp h1
        obtain ⟨buf, h5, h1⟩ := Res.bind_eq_ok.mp h1
        obtain ⟨nms, h6, h1⟩ := Res.bind_eq_ok.mp h1
        cases h1
        have hnc : nc < 2 ^ 63 := by
          simp [Env.canNew] at hcan; exact hcan.1
        have hgot : got.length ≤ nc := binaryRead_length h4
        have hbuf : buf.length ≤ nc := by
          unfold Env.fillUninit at h5
          split at h5
          · cases h5; exact hgot
          · cases hj : env.junk with
            | none => rw [hj] at h5; cases h5
            | some f =>
              rw [hj] at h5
              cases h5
              rw [overlay_length (by simpa using hgot)]
              simp
        rcases readNames_cases (buf.length + 1) buf (Nat.lt_succ_self _) with ⟨ns', h7, h8, h9, h10⟩ | ⟨h7, _⟩
        · rw [h10] at h6
          cases h6
          refine ⟨h8, ?_⟩
          rw [← flatNames_length, ← h9]
          omega
        · rw [h7] at h6; cases h6
    · cases h1; exact ⟨by simp, by decide⟩
  have htypes : ∀ (n : Nat) (s : IStream) (ts : List TypeDesc) (s' : IStream),
      readTypes n s = .ok (ts, s') → ts.length = n ∧ ∀ t ∈ ts, t.format ≠ .invalid := by
    intro n
    induction n with
    | zero => intro s ts s' h; cases h; simp
    | succ n ih =>
      intro s ts s' h
      obtain ⟨⟨t, s1⟩, ht, h⟩ := Res.bind_eq_ok.mp h
      obtain ⟨⟨ts', s2⟩, hts, h⟩ := Res.bind_eq_ok.mp h
      cases h
      obtain ⟨h1, h2⟩ := ih _ _ _ hts
      refine ⟨by simp [h1], ?_⟩
      intro x hx
      simp only [List.mem_cons] at hx
      rcases hx with rfl | hx
      · unfold readType at ht
        obtain ⟨⟨a, sa⟩, _, ht⟩ := Res.bind_eq_ok.mp ht
        obtain ⟨⟨b, sb⟩, _, ht⟩ := Res.bind_eq_ok.mp ht
        obtain ⟨⟨c, sc⟩, _, ht⟩ := Res.bind_eq_ok.mp ht
        simp only at ht
        split at ht
        · cases ht
        · cases ht
          exact ofCode_valid (by omega)
      · exact h2 x hx
  have ht : types.length < 2 ^ 32 ∧ ∀ t ∈ types, t.format ≠ .invalid := by
    unfold readTypeTable at h2
    obtain ⟨⟨nt, s3⟩, h3, h2⟩ := Res.bind_eq_ok.mp h2
    simp only at h2
    split at h2
    · cases h2
    · obtain ⟨h4, h5⟩ := htypes _ _ _ _ h2
      refine ⟨?_, h5⟩
      rw [h4]
      unfold readUInt at h3
      obtain ⟨⟨got, s4⟩, h6, h3⟩ := Res.bind_eq_ok.mp h3
      cases h3
      have hgot : got.length ≤ 4 := binaryRead_length h6
      have := leNat_lt (overlay (leBytes 4 0) got)
      rw [overlay_length (by simpa using hgot), leBytes_length] at this
      exact this
  exact ⟨hn.1, hn.2, ht.1, ht.2⟩

/-- Accepted traces with portable types are writable. -/
theorem accepted_writable {env : Env} {maxPoints : U64} {s : IStream} {t : Trace}
    (h : readTrace env maxPoints s = .ok t) (hport : ∀ ty ∈ t.types, ty.Portable) : Writable t := by
  have hhdr : HeaderOk t.names t.types := by
    rw [readTrace_eq_history, readTraceWith_eq] at h
    obtain ⟨⟨ns, ts, s'⟩, h1, h2⟩ := Res.bind_eq_ok.mp h
    obtain ⟨_, _, h3⟩ := Res.bind_eq_ok.mp h2
    cases h3
    exact readHeader_headerOk h1
  by_cases hg : s.st = .good
  · rw [stream_eq hg] at h
    rcases readTrace_ok h with ⟨body, ps, p, left, h1, _, _, h4, h5, h6, _⟩ | ⟨h1, _⟩
    · refine ⟨hhdr, hport, ?_, ?_⟩
      · intro pt hpt v hv
        rw [h6] at hpt
        obtain ⟨j, hj⟩ := List.mem_iff_getElem?.mp hpt
        obtain ⟨es, hes, rfl⟩ := pointsOf_get _ _ _ _ _ _ hj
        exact entryVars_fits hport (fun e he => h4.points es (kept_mem (List.mem_of_getElem? hes)) e he) v hv
      · rw [h6, pointsOf_sizes]
        simpa using h5.reserved
    · refine ⟨hhdr, hport, by rw [h1]; simp, ?_⟩
      rw [h1]
      intro P hP
      simp at hP
      simp [hP]
  · obtain ⟨e, h'⟩ := readTrace_notgood (env := env) (maxPoints := maxPoints) hg
    rw [h'] at h; cases h

theorem write_rebuffer (H : List BufferSize) (v : VarInfo) : writeVarInfo (rebuffer H v) = writeVarInfo v := by
  unfold rebuffer
  split
  · split <;> rfl
  · rfl

theorem write_renormPoint (i : Nat) (H : List BufferSize) (p : Point) :
    writePoint (renormPoint i H p) = writePoint p := by
  unfold writePoint renormPoint
  simp only [List.flatMap_map, write_rebuffer]

theorem write_renormPoints : ∀ (ps : List Point) (i : Nat) (H : List BufferSize),
    (renormPoints i H ps).flatMap writePoint = ps.flatMap writePoint
  | [], _, _ => rfl
  | p :: ps, i, H => by
    rw [renormPoints, List.flatMap_cons, List.flatMap_cons, write_renormPoint, write_renormPoints ps]

theorem renormPoints_get : ∀ (ps : List Point) (i j : Nat) (H : List BufferSize),
    (renormPoints i H ps)[j]? =
      (ps[j]?).map (renormPoint (i + j) (H ++ recordsBefore ps j))
  | [], _, _, _ => by simp [renormPoints]
  | p :: ps, i, 0, H => by simp [renormPoints, recordsBefore]
  | p :: ps, i, j + 1, H => by
    simp only [renormPoints, List.getElem?_cons_succ]
    rw [renormPoints_get ps (i + 1) j]
    have h1 : i + 1 + j = i + (j + 1) := by omega
    have h2 : H ++ p.sizes ++ recordsBefore ps j = H ++ recordsBefore (p :: ps) (j + 1) := by
      simp [recordsBefore]
    rw [h1, h2]

theorem rebuffer_rebuffer (H H' : List BufferSize) (v : VarInfo) : rebuffer H (rebuffer H' v) = rebuffer H v := by
  obtain ⟨value, ni, ti, format, size, b, has⟩ := v
  unfold rebuffer
  cases format <;> cases value <;> simp only
  rename_i w
  by_cases h : lookupSize H' w = u64Max
  · rw [if_pos h]
  · rw [if_neg h]

theorem renorm_renorm : ∀ (ps : List Point) (i : Nat) (H : List BufferSize),
    renormPoints i H (renormPoints i H ps) = renormPoints i H ps
  | [], _, _ => rfl
  | p :: ps, i, H => by
    rw [renormPoints, renormPoints]
    have h1 : (renormPoint i H p).sizes = p.sizes := rfl
    rw [h1, renorm_renorm ps]
    congr 1
    unfold renormPoint
    simp only [List.map_map]
    congr 1
    apply List.map_congr_left
    intro v _
    exact rebuffer_rebuffer _ _ v

theorem rebuffer_decode {ty : TypeDesc} {H : List BufferSize} {n ti : U32} {payload : List U8} :
    rebuffer H (decodeVar ty H n ti payload) = decodeVar ty H n ti payload := by
  unfold rebuffer decodeVar
  cases hf : ty.format <;> simp only
  · by_cases h : lookupSize H (BitVec.ofNat 64 (leNat payload)) = u64Max
    · simp [h]
    · simp [h]

end TraceDB
