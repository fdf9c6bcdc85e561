import Verif.Proofs.Cut
import Verif.Proofs.ReaderSim
/-
Reading a whole trace.
-/
namespace TraceDB

variable {env : Env} {names : List Name} {types : List TypeDesc} {io : Bool}

theorem readTrace_header {maxPoints : U64} {body : List U8} (h : HeaderOk names types)
    (ha : HeaderAlloc env names types) :
    readTrace env maxPoints (gs io (encodeHeader names types ++ body)) =
      (readPoints MapImpl.history env names types maxPoints (body.length + 3) 0 (gs io body) [] [] >>=
        fun ps => Res.ok ⟨names, types, ps⟩) := by
  rw [readTrace_eq_history, readTraceWith_eq, readHeader_ok h ha]
  rfl

/-- The header is rejected when it needs more memory than there is. -/
theorem readHeader_noalloc {R : List U8} (h : HeaderOk names types) (ha : ¬ HeaderAlloc env names types) :
    readHeader env (gs io (encodeHeader names types ++ R)) = .throw .alloc := by
  unfold readHeader
  rw [encodeHeader_eq]
  simp only [List.append_assoc]
  by_cases h1 : 0 < charCount names → env.canAlloc (charCount names) = true
  · rw [readNameTable_ok h.nulFree h.chars h1]
    simp only [Res.ok_bind]
    have h2 : ¬ (0 < types.length → env.canAlloc (12 * types.length) = true) := fun h2 => ha ⟨h1, h2⟩
    rw [Classical.not_imp] at h2
    unfold readTypeTable
    rw [readUInt_le (by have := h.count; omega)]
    simp only [Res.ok_bind]
    have h3 := h2.2
    rw [Bool.not_eq_true] at h3
    have : (decide (types.length > 0) && !env.canNew (12 * types.length)) = true := by
      simp [Env.canNew, h3, h2.1]
    rw [if_pos this]
    rfl
  · rw [Classical.not_imp] at h1
    unfold readNameTable
    rw [readUInt_le (by have := h.chars; unfold charCount; omega)]
    simp only [Res.ok_bind]
    have h3 := h1.2
    rw [Bool.not_eq_true] at h3
    rw [if_pos h1.1]
    have : (!env.canNew (charCount names)) = true := by
      simp [Env.canNew, h3]
    rw [if_pos this]
    rfl

theorem readTrace_noalloc {maxPoints : U64} {body : List U8} (h : HeaderOk names types)
    (ha : ¬ HeaderAlloc env names types) :
    readTrace env maxPoints (gs io (encodeHeader names types ++ body)) = .throw .alloc := by
  rw [readTrace_eq_history, readTraceWith_eq, readHeader_noalloc h ha]
  rfl

/-- `readPoints_body` for whole traces. -/
theorem readTrace_body {maxPoints : U64} {body left : List U8} {ps : List (List Entry)} {p : List Entry}
    (h : HeaderOk names types) (ha : HeaderAlloc env names types)
    (hd : Decomposed names types body ps p left) {r : Res Trace}
    (hr : r = readTrace env maxPoints (gs io (encodeHeader names types ++ body))) :
    (¬ Fine env types [] (kept maxPoints ps) → ∃ k, r = .ub k) ∧
    (Fine env types [] (kept maxPoints ps) →
      (Limited maxPoints ps → r = .ok ⟨names, types, pointsOf types (junkStmt env) 0 [] (kept maxPoints ps)⟩) ∧
      (¬ Limited maxPoints ps →
        (¬ (AllocsOk env types p ∧ ReservedOk (ps.flatMap entrySizes ++ entrySizes p)) → ∃ k, r = .ub k) ∧
        (AllocsOk env types p ∧ ReservedOk (ps.flatMap entrySizes ++ entrySizes p) →
          (left = [] ∧ r = .ok ⟨names, types, pointsOf types (junkStmt env) 0 [] ps⟩) ∨
          (left ≠ [] ∧ FailsWith io r) ∨
          (left ≠ [] ∧ ∃ k, r = .ub k ∧ TailUB env types (ps.flatMap entrySizes ++ entrySizes p) left k)))) := by
  rw [readTrace_header h ha] at hr
  have hb := readPoints_body (env := env) (io := io) (maxPoints := maxPoints) hd (Nat.le_refl _)
  simp only at hb
  subst hr
  refine ⟨fun hn => ?_, fun hf => ⟨fun hl => ?_, fun hl => ⟨fun ht => ?_, fun ht => ?_⟩⟩⟩
  · obtain ⟨k, hk⟩ := hb.1 hn
    rw [hk]; exact ⟨k, rfl⟩
  · rw [(hb.2 hf).1 hl]; rfl
  · obtain ⟨k, hk⟩ := ((hb.2 hf).2 hl).1 ht
    rw [hk]; exact ⟨k, rfl⟩
  · rcases ((hb.2 hf).2 hl).2 ht with ⟨h1, h2⟩ | ⟨h1, h2 | h2⟩ | ⟨h1, k, h2, h3⟩
    · left; exact ⟨h1, by rw [h2]; rfl⟩
    · right; left; exact ⟨h1, Or.inl (by rw [h2]; rfl)⟩
    · right; left; exact ⟨h1, Or.inr (by rw [h2]; rfl)⟩
    · right; right; exact ⟨h1, k, by rw [h2]; rfl, h3⟩

/-- What reading an arbitrary stream does, up to the body. -/
theorem readTrace_cases (env : Env) (maxPoints : U64) (io : Bool) (bs : List U8) :
    (∃ names types body, HeaderOk names types ∧ HeaderAlloc env names types ∧
      bs = encodeHeader names types ++ body) ∨
    (∃ names types, readHeader env (gs io bs) = .ok (names, types, ended io) ∧
      readTrace env maxPoints (gs io bs) = .ok ⟨names, types, []⟩) ∨
    (∃ e, readTrace env maxPoints (gs io bs) = .throw e) ∨
    (∃ k, readTrace env maxPoints (gs io bs) = .ub k ∧ ¬ NameTableOk bs) := by
  rw [readTrace_eq_history, readTraceWith_eq]
  rcases readHeader_cases env io bs with ⟨names, types, body, h1, h2, h3, _⟩ | ⟨names, types, h⟩ | ⟨e, h⟩ | ⟨k, h, h'⟩
  · left; exact ⟨names, types, body, h1, h2, h3⟩
  · right; left
    refine ⟨names, types, h, ?_⟩
    rw [h]
    simp only [Res.ok_bind]
    rw [show (ended io).rest.length + 3 = ((ended io).rest.length + 2) + 1 from rfl, readPoints_ended]
    rfl
  · right; right; left; rw [h]; exact ⟨e, rfl⟩
  · right; right; right; rw [h]; exact ⟨k, rfl, h'⟩

/-- A stream that is not good is rejected at once. -/
theorem readTrace_notgood {maxPoints : U64} {s : IStream} (h : s.st ≠ .good) :
    ∃ e, readTrace env maxPoints s = .throw e := by
  rw [readTrace_eq_history, readTraceWith_eq]
  unfold readHeader readNameTable readUInt binaryRead
  cases hs : s.st with
  | good => exact absurd hs h
  | eof => exact ⟨.eof, rfl⟩
  | bad => exact ⟨.trace, rfl⟩

theorem stream_eq {s : IStream} (h : s.st = .good) : s = gs s.ioError s.rest := by
  cases s; simp only at h; subst h; rfl

theorem kept_of_not_limited {maxPoints : U64} {ps : List (List Entry)} (hl : ¬ Limited maxPoints ps) :
    kept maxPoints ps = ps := by
  unfold kept
  split
  · rfl
  · rename_i h0
    apply List.take_of_length_le
    apply Classical.byContradiction
    intro hh
    exact hl ⟨h0, by omega⟩

/-- A successful read of a stream that starts with a header. -/
theorem readTrace_ok_of {maxPoints : U64} {body left : List U8} {ps : List (List Entry)} {p : List Entry}
    {t : Trace} (h1 : HeaderOk names types) (hd : Decomposed names types body ps p left)
    (h : readTrace env maxPoints (gs io (encodeHeader names types ++ body)) = .ok t) :
    HeaderAlloc env names types ∧ Fine env types [] (kept maxPoints ps) ∧
    t = ⟨names, types, pointsOf types (junkStmt env) 0 [] (kept maxPoints ps)⟩ ∧
    (¬ Limited maxPoints ps → left = [] ∧ AllocsOk env types p ∧
        ReservedOk (ps.flatMap entrySizes ++ entrySizes p)) := by
  by_cases h2 : ¬ HeaderAlloc env names types
  · rw [readTrace_noalloc h1 h2] at h; cases h
  replace h2 := Classical.not_not.mp h2
  have hb := readTrace_body (env := env) (io := io) (maxPoints := maxPoints) h1 h2 hd rfl
  by_cases hf : Fine env types [] (kept maxPoints ps)
  · by_cases hl : Limited maxPoints ps
    · rw [(hb.2 hf).1 hl] at h
      cases h
      exact ⟨h2, hf, rfl, fun hn => absurd hl hn⟩
    · have hk := kept_of_not_limited hl
      have hb2 := (hb.2 hf).2 hl
      by_cases ht : AllocsOk env types p ∧ ReservedOk (ps.flatMap entrySizes ++ entrySizes p)
      · rcases hb2.2 ht with ⟨h5, h6⟩ | ⟨_, h6 | h6⟩ | ⟨_, k, h6, _⟩
        · rw [h6] at h
          cases h
          exact ⟨h2, hf, by rw [hk], fun _ => ⟨h5, ht⟩⟩
        · rw [h6] at h; cases h
        · rw [h6] at h; cases h
        · rw [h6] at h; cases h
      · obtain ⟨k, hk⟩ := hb2.1 ht
        rw [hk] at h; cases h
  · obtain ⟨k, hk⟩ := hb.1 hf
    rw [hk] at h; cases h

/-- Everything about a successful read. -/
theorem readTrace_ok {maxPoints : U64} {bs : List U8} {t : Trace}
    (h : readTrace env maxPoints (gs io bs) = .ok t) :
    (∃ body ps p left, HeaderOk t.names t.types ∧ HeaderAlloc env t.names t.types ∧
      bs = encodeHeader t.names t.types ++ body ∧ Decomposed t.names t.types body ps p left ∧
      Fine env t.types [] (kept maxPoints ps) ∧
      t.points = pointsOf t.types (junkStmt env) 0 [] (kept maxPoints ps) ∧
      (¬ Limited maxPoints ps → left = [] ∧ AllocsOk env t.types p ∧
        ReservedOk (ps.flatMap entrySizes ++ entrySizes p))) ∨
    (t.points = [] ∧ readHeader env (gs io bs) = .ok (t.names, t.types, ended io)) := by
  rcases readTrace_cases env maxPoints io bs with ⟨names, types, body, h1, h2, h3⟩ | ⟨names, types, h', h''⟩ | ⟨e, h'⟩ | ⟨k, h', _⟩
  · left
    obtain ⟨ps, p, left, hd⟩ := exists_decomposition names types body
    subst h3
    obtain ⟨_, h5, h6, h7⟩ := readTrace_ok_of h1 hd h
    subst h6
    exact ⟨body, ps, p, left, h1, h2, rfl, hd, h5, rfl, h7⟩
  · right
    rw [h''] at h
    cases h
    exact ⟨rfl, h'⟩
  · rw [h'] at h; cases h
  · rw [h'] at h; cases h

/-! ### Facts about the recorded points -/

theorem pointsOf_length : ∀ (ps : List (List Entry)) (ns : U64) (i : Nat) (H : List BufferSize),
    (pointsOf types ns i H ps).length = ps.length
  | [], _, _, _ => rfl
  | p :: ps, ns, i, H => by simp [pointsOf, pointsOf_length ps]

theorem pointsOf_take : ∀ (ps : List (List Entry)) (ns : U64) (i k : Nat) (H : List BufferSize),
    pointsOf types ns i H (ps.take k) = (pointsOf types ns i H ps).take k
  | [], _, _, _, _ => by simp [pointsOf]
  | p :: ps, ns, i, 0, H => by simp [pointsOf]
  | p :: ps, ns, i, k + 1, H => by simp [pointsOf, pointsOf_take ps]

theorem pointsOf_stmt : ∀ (ps : List (List Entry)) (ns ns' : U64) (i : Nat) (H : List BufferSize),
    (∀ p ∈ ps, (entryStmt p).isSome = true) → pointsOf types ns i H ps = pointsOf types ns' i H ps
  | [], _, _, _, _, _ => rfl
  | p :: ps, ns, ns', i, H, h => by
    obtain ⟨v, hv⟩ := Option.isSome_iff_exists.mp (h p (by simp))
    simp only [pointsOf, hv, Option.getD_some]
    rw [pointsOf_stmt ps ns ns' (i + 1) _ (fun q hq => h q (by simp [hq]))]

theorem pointsOf_counter : ∀ (ps : List (List Entry)) (ns : U64) (i j : Nat) (H : List BufferSize) (pt : Point),
    (pointsOf types ns i H ps)[j]? = some pt → pt.counter = BitVec.ofNat 64 (i + j)
  | [], _, _, _, _, _, h => by simp [pointsOf] at h
  | p :: ps, ns, i, 0, H, pt, h => by
    simp [pointsOf] at h
    rw [← h]; rfl
  | p :: ps, ns, i, j + 1, H, pt, h => by
    simp only [pointsOf, List.getElem?_cons_succ] at h
    rw [pointsOf_counter ps ns (i + 1) j _ pt h]
    congr 1; omega

/-- The variables of recorded points are valid. -/
theorem entryVars_valid : ∀ (es : List Entry) (H : List BufferSize), (∀ e ∈ es, e.WF names types) →
    ∀ v ∈ entryVars types H es, v.nameIndex.toNat < names.length ∧
      ∃ ty, types[v.typeIndex.toNat]? = some ty ∧ v.format = ty.format ∧
        (v.size = ty.size ∨ (ty.format = .blob ∧ ty.size = 0))
  | [], H, _, v, hv => by simp [entryVars] at hv
  | .stmt x :: es, H, hwf, v, hv => by
    rw [entryVars] at hv
    exact entryVars_valid es H (fun e he => hwf e (by simp [he])) v hv
    all_goals simp
  | .aux x :: es, H, hwf, v, hv => by
    rw [entryVars] at hv
    exact entryVars_valid es H (fun e he => hwf e (by simp [he])) v hv
    all_goals simp
  | .size r :: es, H, hwf, v, hv => by
    rw [entryVars] at hv
    exact entryVars_valid es _ (fun e he => hwf e (by simp [he])) v hv
  | .var n t p :: es, H, hwf, v, hv => by
    obtain ⟨hn, ty, hty, hp⟩ := hwf (.var n t p) (by simp)
    rw [entryVars, hty] at hv
    simp only [List.mem_cons] at hv
    rcases hv with rfl | hv
    · unfold decodeVar
      unfold PayloadOk at hp
      cases hf : ty.format with
      | signed => exact ⟨hn, ty, hty, hf.symm ▸ rfl, Or.inl rfl⟩
      | unsigned => exact ⟨hn, ty, hty, hf.symm ▸ rfl, Or.inl rfl⟩
      | float => exact ⟨hn, ty, hty, hf.symm ▸ rfl, Or.inl rfl⟩
      | pointer =>
        simp only
        split <;> exact ⟨hn, ty, hty, hf.symm ▸ rfl, Or.inl rfl⟩
      | blob =>
        refine ⟨hn, ty, hty, hf.symm ▸ rfl, ?_⟩
        simp only [hf] at hp
        by_cases hz : ty.size = 0
        · right; exact ⟨hf, hz⟩
        · left
          rw [if_neg hz] at hp
          simp [hp]
      | invalid => simp only [hf] at hp
    · exact entryVars_valid es H (fun e he => hwf e (by simp [he])) v hv

theorem pointsOf_vars_valid : ∀ (ps : List (List Entry)) (ns : U64) (i : Nat) (H : List BufferSize),
    (∀ p ∈ ps, ∀ e ∈ p, e.WF names types) →
    ∀ pt ∈ pointsOf types ns i H ps, ∀ v ∈ pt.vars, v.nameIndex.toNat < names.length ∧
      ∃ ty, types[v.typeIndex.toNat]? = some ty ∧ v.format = ty.format ∧
        (v.size = ty.size ∨ (ty.format = .blob ∧ ty.size = 0))
  | [], _, _, _, _, pt, h => by simp [pointsOf] at h
  | p :: ps, ns, i, H, hwf, pt, h => by
    simp only [pointsOf, List.mem_cons] at h
    rcases h with rfl | h
    · exact entryVars_valid p H (hwf p (by simp))
    · exact pointsOf_vars_valid ps ns (i + 1) _ (fun q hq => hwf q (by simp [hq])) pt h

theorem pointsOf_get : ∀ (ps : List (List Entry)) (ns : U64) (i j : Nat) (H : List BufferSize) (pt : Point),
    (pointsOf types ns i H ps)[j]? = some pt → ∃ es, ps[j]? = some es ∧
      pt = pointOf types (i + j) (H ++ (ps.take j).flatMap entrySizes) ((entryStmt es).getD ns) es
  | [], _, _, _, _, _, h => by simp [pointsOf] at h
  | p :: ps, ns, i, 0, H, pt, h => by
    simp [pointsOf] at h
    exact ⟨p, by simp, by rw [← h]; simp⟩
  | p :: ps, ns, i, j + 1, H, pt, h => by
    simp only [pointsOf, List.getElem?_cons_succ] at h
    obtain ⟨es, h1, h2⟩ := pointsOf_get ps ns (i + 1) j _ pt h
    refine ⟨es, by simpa using h1, ?_⟩
    rw [h2]
    simp only [List.take_succ_cons, List.flatMap_cons, List.append_assoc]
    congr 1
    omega

/-- Variables correspond to variable entries. -/
theorem entryVars_entries : ∀ (es : List Entry) (H : List BufferSize), (∀ e ∈ es, e.WF names types) →
    (entryVars types H es).length = (varEntries H es).length ∧
    ∀ (j : Nat) (x : List BufferSize × U32 × U32 × List U8) (v : VarInfo), (varEntries H es)[j]? = some x →
      (entryVars types H es)[j]? = some v → (Entry.var x.2.1 x.2.2.1 x.2.2.2) ∈ es ∧
        ∃ ty, types[x.2.2.1.toNat]? = some ty ∧
          PayloadOk ty x.2.2.2 ∧ v = decodeVar ty x.1 x.2.1 x.2.2.1 x.2.2.2
  | [], H, _ => by simp [entryVars, varEntries]
  | .stmt x :: es, H, hwf => by
    have ih := entryVars_entries es H (fun e he => hwf e (by simp [he]))
    simp only [entryVars, varEntries]
    exact ⟨ih.1, fun j x v h1 h2 => ⟨List.mem_cons_of_mem _ (ih.2 j x v h1 h2).1, (ih.2 j x v h1 h2).2⟩⟩
  | .aux x :: es, H, hwf => by
    have ih := entryVars_entries es H (fun e he => hwf e (by simp [he]))
    simp only [entryVars, varEntries]
    exact ⟨ih.1, fun j x v h1 h2 => ⟨List.mem_cons_of_mem _ (ih.2 j x v h1 h2).1, (ih.2 j x v h1 h2).2⟩⟩
  | .size r :: es, H, hwf => by
    have ih := entryVars_entries es (H ++ [r]) (fun e he => hwf e (by simp [he]))
    simp only [entryVars, varEntries]
    exact ⟨ih.1, fun j x v h1 h2 => ⟨List.mem_cons_of_mem _ (ih.2 j x v h1 h2).1, (ih.2 j x v h1 h2).2⟩⟩
  | .var n t p :: es, H, hwf => by
    obtain ⟨hn, ty, hty, hp⟩ := hwf (.var n t p) (by simp)
    have ih := entryVars_entries es H (fun e he => hwf e (by simp [he]))
    simp only [entryVars, varEntries, hty, List.length_cons]
    refine ⟨by rw [ih.1], ?_⟩
    intro j x v h1 h2
    cases j with
    | zero =>
      simp only [List.getElem?_cons_zero, Option.some.injEq] at h1 h2
      subst h1; subst h2
      exact ⟨by simp, ty, hty, hp, rfl⟩
    | succ j =>
      simp only [List.getElem?_cons_succ] at h1 h2
      exact ⟨List.mem_cons_of_mem _ (ih.2 j x v h1 h2).1, (ih.2 j x v h1 h2).2⟩

theorem Fine.take {H : List BufferSize} {ps : List (List Entry)} (h : Fine env types H ps) (k : Nat) :
    Fine env types H (ps.take k) := by
  refine ⟨fun p hp => h.allocs p (List.mem_of_mem_take hp), ?_, fun p hp => h.stmts p (List.mem_of_mem_take hp)⟩
  apply h.reserved.prefix
  apply List.prefix_append_right_inj H |>.mpr
  refine ⟨(ps.drop k).flatMap entrySizes, ?_⟩
  rw [← List.flatMap_append, List.take_append_drop]

theorem kept_mem {maxPoints : U64} {ps : List (List Entry)} {p : List Entry} (h : p ∈ kept maxPoints ps) :
    p ∈ ps := by
  unfold kept at h
  split at h
  · exact h
  · exact List.mem_of_mem_take h

end TraceDB
