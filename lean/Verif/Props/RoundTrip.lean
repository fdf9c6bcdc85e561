import Verif.Proofs.Rewrite
/-
Properties C01 and C57: writing a trace with `operator<<` and reading it back.
-/
namespace TraceDB

/-! ### C01 -/

/-- **C01**.  Every representable trace is read back from the bytes the writer
produces for it, unchanged and completely. -/
theorem C01_write_read_round_trip (env : Env) (io : Bool) (t : Trace) (h : Representable t)
    (halloc : ∀ n, env.canAlloc n = true) :
    readTrace env 0 (IStream.ofBytes (writeTrace t) io) = .ok t := by
  have h1 := read_write (env := env) (io := io) h.toWritable halloc
  have h2 : renormPoints 0 [] t.points = t.points := by
    apply renormPoints_eq
    · intro j p hp; simpa using h.counters j p hp
    · intro j p hp v hv; simpa using h.buffers j p hp v hv
  rw [h2] at h1
  exact h1

/-- A variable fits, as a test. -/
theorem varFits_iff {names : List Name} {types : List TypeDesc} {v : VarInfo} :
    (v.nameIndex.toNat < names.length ∧
      (match types[v.typeIndex.toNat]? with | some ty => v.format = ty.format ∧ ValueFits ty v | none => False)) ↔
      VarFits names types v := by
  unfold VarFits
  cases h : types[v.typeIndex.toNat]? with
  | none => simp
  | some ty => simp

instance (names : List Name) (types : List TypeDesc) (v : VarInfo) : Decidable (VarFits names types v) := by
  haveI : Decidable (match types[v.typeIndex.toNat]? with
      | some ty => v.format = ty.format ∧ ValueFits ty v | none => False) := by
    split <;> infer_instance
  exact decidable_of_iff _ varFits_iff

/-- The example trace is representable. -/
theorem exRepresentable : Representable exTrace where
  header := exHeaderOk
  portable := by decide +kernel
  vars := by decide +kernel
  reserved := by decide +kernel
  counters := by
    intro i p h
    match i with
    | 0 => cases h; rfl
    | 1 => cases h; rfl
    | i + 2 => simp [exTrace] at h
  buffers := by
    have key : ∀ H v, (lookupSize H v.value.bits ≠ u64Max → v.hasBufferSize = true ∧
          v.bufferSize = lookupSize H v.value.bits) → (lookupSize H v.value.bits = u64Max →
            v.hasBufferSize = false ∧ v.bufferSize = 0) → v.format = .pointer →
        (∃ w, v.value = .word w) → BufferSizeFits H v := by
      rintro H v h1 h2 h3 ⟨w, h4⟩
      unfold BufferSizeFits
      rw [h3, h4]
      refine ⟨lookupSize H w, lookupSize_spec _ _, ?_⟩
      have hw : v.value.bits = w := by rw [h4]; rfl
      rw [hw] at h1 h2
      by_cases h : lookupSize H w = u64Max
      · simp [h, h2 h]
      · simp [h, h1 h]
    intro i p h
    match i with
    | 0 =>
      cases h
      intro v hv
      simp only [List.mem_cons, List.not_mem_nil, or_false] at hv
      rcases hv with rfl | rfl
      · exact ⟨rfl, rfl⟩
      · exact key _ _ (by decide +kernel) (by decide +kernel) rfl ⟨_, rfl⟩
    | 1 =>
      cases h
      intro v hv
      simp only [List.mem_cons, List.not_mem_nil, or_false] at hv
      rcases hv with rfl | rfl <;> exact ⟨rfl, rfl⟩
    | i + 2 => simp [exTrace] at h

example : readTrace exStrict 0 (IStream.ofBytes (writeTrace exTrace)) = .ok exTrace :=
  C01_write_read_round_trip exStrict false exTrace exRepresentable (fun _ => rfl)

/-- **C01, necessity.**  Traces that the reader accepts but the writer does not
reproduce: a blob of a type with fixed size, a 4-byte pointer, a 3-byte unsigned
number, and a name containing NUL (which cannot come from a trace file, but from
`add_trace_points`). -/
theorem C01_conditions_needed :
    (∃ bytes t, readTrace exEnv 0 (IStream.ofBytes bytes) = .ok t ∧ t.types = [⟨0, .blob, 2⟩] ∧
      ∀ t', readTrace exEnv 0 (IStream.ofBytes (writeTrace t)) ≠ .ok t') ∧
    (∃ bytes t, readTrace exEnv 0 (IStream.ofBytes bytes) = .ok t ∧ t.types = [⟨0, .pointer, 4⟩] ∧
      readTrace exEnv 0 (IStream.ofBytes (writeTrace t)) ≠ .ok t) ∧
    (∃ bytes t, readTrace exEnv 0 (IStream.ofBytes bytes) = .ok t ∧ t.types = [⟨0, .unsigned, 3⟩] ∧
      readTrace exEnv 0 (IStream.ofBytes (writeTrace t)) ≠ .ok t) ∧
    (∃ t : Trace, t.names = [[65, 0, 66]] ∧
      readTrace exEnv 0 (IStream.ofBytes (writeTrace t)) = .ok { t with names := [[65], [66]] }) := by
  refine ⟨⟨encodeHeader exNames [⟨0, .blob, 2⟩] ++ encodePoints [⟨0, .blob, 2⟩] [[.stmt 1, .var 0 0 [5, 6]]],
      ⟨exNames, [⟨0, .blob, 2⟩], [⟨0, 1, [], [⟨.blob [5, 6], 0, 0, .blob, 2, 0, false⟩], []⟩]⟩, ?_, rfl, ?_⟩,
    ⟨encodeHeader exNames [⟨0, .pointer, 4⟩] ++
        encodePoints [⟨0, .pointer, 4⟩] [[.stmt 1, .var 0 0 [5, 6, 7, 8]]],
      ⟨exNames, [⟨0, .pointer, 4⟩], [⟨0, 1, [], [⟨.word 0x08070605, 0, 0, .pointer, 4, 0, false⟩], []⟩]⟩, ?_, rfl, ?_⟩,
    ⟨encodeHeader exNames [⟨0, .unsigned, 3⟩] ++ encodePoints [⟨0, .unsigned, 3⟩] [[.stmt 1, .var 0 0 [5, 6, 7]]],
      ⟨exNames, [⟨0, .unsigned, 3⟩], [⟨0, 1, [], [⟨.word 0x070605, 0, 0, .unsigned, 3, 0, false⟩], []⟩]⟩, ?_, rfl, ?_⟩,
    ⟨⟨[[65, 0, 66]], [], []⟩, rfl, ?_⟩⟩
  · decide +kernel
  · have : readTrace exEnv 0 (IStream.ofBytes (writeTrace
        ⟨exNames, [⟨0, .blob, 2⟩], [⟨0, 1, [], [⟨.blob [5, 6], 0, 0, .blob, 2, 0, false⟩], []⟩]⟩)) =
        .throw .trace := by decide +kernel
    intro t' h
    rw [this] at h
    cases h
  · decide +kernel
  · decide +kernel
  · decide +kernel
  · decide +kernel
  · decide +kernel

/-! ### C57 -/

/-- Two variables agree in everything but the buffer size, and also in that
unless they are pointers. -/
def SameButBufferSize (v w : VarInfo) : Prop :=
  v.value = w.value ∧ v.nameIndex = w.nameIndex ∧ v.typeIndex = w.typeIndex ∧ v.format = w.format ∧
    v.size = w.size ∧ (v.format ≠ .pointer → w.hasBufferSize = false ∧ w.bufferSize = 0)

/-- **C57**.  Re-writing an accepted trace with portable types: the bytes written
are read back as a trace `t'` which is a fixed point (it is written as the same
bytes and read back unchanged).  `t'` has the names and types of `t` and the same
points up to the buffer sizes of pointers. -/
theorem C57_rewriting_is_stable (env : Env) (maxPoints : U64) (s : IStream) (t : Trace)
    (h : readTrace env maxPoints s = .ok t) (hport : ∀ ty ∈ t.types, ty.Portable)
    (halloc : ∀ n, env.canAlloc n = true) :
    ∃ t', readTrace env 0 (IStream.ofBytes (writeTrace t)) = .ok t' ∧
      writeTrace t' = writeTrace t ∧
      readTrace env 0 (IStream.ofBytes (writeTrace t')) = .ok t' ∧
      t'.names = t.names ∧ t'.types = t.types ∧ t'.points.length = t.points.length ∧
      ∀ (i : Nat) (p p' : Point), t.points[i]? = some p → t'.points[i]? = some p' →
        p'.counter = p.counter ∧ p'.statement = p.statement ∧ p'.sizes = p.sizes ∧ p'.aux = p.aux ∧
        p'.vars.length = p.vars.length ∧
        ∀ (j : Nat) (v v' : VarInfo), p.vars[j]? = some v → p'.vars[j]? = some v' →
          SameButBufferSize v v' ∧ BufferSizeFits (recordsBefore t.points i ++ p.sizes) v' := by
  have hw := accepted_writable h hport
  have hbytes : writeTrace ⟨t.names, t.types, renormPoints 0 [] t.points⟩ = writeTrace t := by
    unfold writeTrace
    simp only [write_renormPoints]
  have h1 := read_write (env := env) (io := false) hw halloc
  have hlen : (renormPoints 0 [] t.points).length = t.points.length := by
    have : ∀ (ps : List Point) (i : Nat) (H : List BufferSize), (renormPoints i H ps).length = ps.length := by
      intro ps
      induction ps with
      | nil => intros; rfl
      | cons p ps ih => intro i H; simp [renormPoints, ih]
    exact this _ _ _
  refine ⟨⟨t.names, t.types, renormPoints 0 [] t.points⟩, h1, hbytes, ?_, rfl, rfl, hlen, ?_⟩
  · rw [hbytes]; exact h1
  · intro i p p' hp hp'
    simp only [renormPoints_get, hp, Option.map_some, Option.some.injEq, Nat.zero_add, List.nil_append] at hp'
    subst hp'
    refine ⟨?_, rfl, rfl, rfl, by simp [renormPoint], ?_⟩
    · rw [C13_counters_consecutive env maxPoints s t h i p hp]; rfl
    · intro j v v' hv hv'
      simp only [renormPoint, List.getElem?_map, hv, Option.map_some, Option.some.injEq] at hv'
      subst hv'
      obtain ⟨value, ni, ti, format, size, b, has⟩ := v
      constructor
      · unfold SameButBufferSize rebuffer
        cases format <;> cases value <;> simp only <;> first | (simp; done) | (split <;> simp)
      · unfold BufferSizeFits rebuffer
        cases format <;> cases value <;> simp only <;> first | exact ⟨trivial, trivial⟩ | skip
        rename_i w
        by_cases hl : lookupSize (recordsBefore t.points i ++ p.sizes) w = u64Max
        · simp only [if_pos hl]
          exact ⟨_, lookupSize_spec _ _, by simp [hl], by simp [hl]⟩
        · simp only [if_neg hl]
          exact ⟨_, lookupSize_spec _ _, by simp [hl], by simp [hl]⟩

/-- **C01, exactly these.**  A trace with portable types survives writing and reading
if and only if it is representable: every other condition (of the header, of the
variables, of the allocation records, of the counters and of the buffer sizes) is
necessary. -/
theorem C01_exactly_representable (env : Env) (t : Trace) (hport : ∀ ty ∈ t.types, ty.Portable)
    (halloc : ∀ n, env.canAlloc n = true) :
    readTrace env 0 (IStream.ofBytes (writeTrace t)) = .ok t ↔ Representable t := by
  constructor
  · intro h
    have hw := accepted_writable h hport
    obtain ⟨t', h1, _, _, _, _, _, hp⟩ := C57_rewriting_is_stable env 0 _ t h hport halloc
    rw [h] at h1
    cases h1
    refine ⟨hw, fun i p e => C13_counters_consecutive env 0 _ t h i p e, fun i p e v hv => ?_⟩
    obtain ⟨j, hj⟩ := List.getElem?_of_mem hv
    exact ((hp i p p e e).2.2.2.2.2 j v v hj hj).2
  · intro hr
    exact C01_write_read_round_trip env false t hr halloc

-- a trace with portable types that is not representable: the counter of its point is not 0
example : readTrace exEnv 0 (IStream.ofBytes (writeTrace ⟨exNames, exTypes, [⟨7, 1, [], [], []⟩]⟩)) ≠
    .ok ⟨exNames, exTypes, [⟨7, 1, [], [], []⟩]⟩ := by
  intro h
  have := ((C01_exactly_representable exEnv _ (by decide +kernel) (fun _ => rfl)).1 h).counters 0 _ rfl
  exact absurd this (by decide)

/-- **C57, what can change.**  A variable whose entry is followed by no further
allocation record of the same point keeps its buffer size when the trace is
rewritten. -/
theorem C57_unchanged_variables (env : Env) (io : Bool) (names : List Name) (types : List TypeDesc)
    (body : List U8) (ps : List (List Entry)) (p : List Entry) (left : List U8) (t t' : Trace)
    (hdr : HeaderOk names types) (hd : Decomposed names types body ps p left)
    (h : readTrace env 0 (gs io (encodeHeader names types ++ body)) = .ok t)
    (hport : ∀ ty ∈ types, ty.Portable) (halloc : ∀ n, env.canAlloc n = true)
    (h' : readTrace env 0 (IStream.ofBytes (writeTrace t)) = .ok t')
    (i : Nat) (es : List Entry) (pt pt' : Point) (hes : ps[i]? = some es)
    (hpt : t.points[i]? = some pt) (hpt' : t'.points[i]? = some pt')
    (j : Nat) (n ti : U32) (payload : List U8)
    (hj : (varEntries ((ps.take i).flatMap entrySizes) es)[j]? =
      some ((ps.take i).flatMap entrySizes ++ entrySizes es, n, ti, payload)) :
    pt'.vars[j]? = pt.vars[j]? := by
  have hnl : ¬ Limited 0 ps := by rintro ⟨h1, _⟩; exact h1 rfl
  obtain ⟨_, _, ht, _⟩ := readTrace_ok_of hdr hd h
  rw [kept_of_not_limited hnl] at ht
  have hw : Writable t := accepted_writable h (by rw [ht]; exact hport)
  have h1 := read_write (env := env) (io := false) hw halloc
  have : t' = ⟨t.names, t.types, renormPoints 0 [] t.points⟩ := by
    have h2 : (Res.ok t' : Res Trace) = .ok ⟨t.names, t.types, renormPoints 0 [] t.points⟩ := h'.symm.trans h1
    exact Res.ok.inj h2
  subst this
  simp only [renormPoints_get, hpt, Option.map_some, Option.some.injEq, Nat.zero_add, List.nil_append] at hpt'
  subst hpt'
  rw [ht] at hpt
  obtain ⟨es', hes', rfl⟩ := pointsOf_get _ _ _ _ _ _ hpt
  rw [hes] at hes'
  cases hes'
  have hwf : ∀ e ∈ es, e.WF names types := hd.points es (List.mem_of_getElem? hes)
  have hee := entryVars_entries es ((ps.take i).flatMap entrySizes) hwf
  have hlt : j < (entryVars types ((ps.take i).flatMap entrySizes) es).length := by
    rw [hee.1]; exact (List.getElem?_eq_some_iff.mp hj).1
  obtain ⟨_, ty, hty, hp, hdec⟩ := hee.2 j _ _ hj (List.getElem?_eq_getElem hlt)
  have hrec : recordsBefore t.points i = (ps.take i).flatMap entrySizes := by
    rw [ht]
    simp only [recordsBefore]
    rw [← pointsOf_take, pointsOf_sizes]
  have hx : (entryVars types ((ps.take i).flatMap entrySizes) es)[j]? =
      some (decodeVar ty ((ps.take i).flatMap entrySizes ++ entrySizes es) n ti payload) := by
    rw [List.getElem?_eq_getElem hlt, hdec]
  simp only [renormPoint, pointOf, List.nil_append, List.getElem?_map, hx, Option.map_some, hrec]
  rw [rebuffer_decode]

/-- An accepted trace whose first rewriting changes a buffer size: the pointer is
recorded before the allocation. -/
example :
    let bytes := encodeHeader exNames exTypes ++
      encodePoints exTypes [[.stmt 1, .var 2 1 [5, 16, 0, 0, 0, 0, 0, 0], .size ⟨0x1000, 16⟩]]
    let t : Trace := ⟨exNames, exTypes, [⟨0, 1, [⟨0x1000, 16⟩], [⟨.word 0x1005, 2, 1, .pointer, 8, 0, false⟩], []⟩]⟩
    let t' : Trace := ⟨exNames, exTypes, [⟨0, 1, [⟨0x1000, 16⟩], [⟨.word 0x1005, 2, 1, .pointer, 8, 11, true⟩], []⟩]⟩
    readTrace exEnv 0 (IStream.ofBytes bytes) = .ok t ∧
    readTrace exEnv 0 (IStream.ofBytes (writeTrace t)) = .ok t' ∧
    writeTrace t' = writeTrace t ∧ ∀ ty ∈ exTypes, ty.Portable := by decide +kernel

end TraceDB
