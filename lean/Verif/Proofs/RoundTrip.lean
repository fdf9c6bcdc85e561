import Verif.Proofs.ReaderAll
import Verif.Model.Writer
import Verif.Spec.Representable
/-
What the writer emits is a stream of the format, whose meaning is the trace.
-/
namespace TraceDB

variable {names : List Name} {types : List TypeDesc}

/-- Payload of a variable. -/
def payloadOf (v : VarInfo) : List U8 :=
  match v.value with
  | .word w => leBytes v.size.toNat w.toNat
  | .blob bs => bs

/-- The entry of a variable. -/
def entryOf (v : VarInfo) : Entry := .var v.nameIndex v.typeIndex (payloadOf v)

/-- The entries of a point in the order of the writer. -/
def entriesOf (p : Point) : List Entry :=
  .stmt p.statement :: (p.sizes.map .size ++ (p.vars.map entryOf ++ p.aux.map .aux))

/-- A variable with the buffer size recomputed. -/
def rebuffer (H : List BufferSize) (v : VarInfo) : VarInfo :=
  match v.format, v.value with
  | .pointer, .word w =>
    if lookupSize H w = u64Max then { v with bufferSize := 0, hasBufferSize := false }
    else { v with bufferSize := lookupSize H w, hasBufferSize := true }
  | _, _ => { v with bufferSize := 0, hasBufferSize := false }

/-- A point with number and buffer sizes recomputed. -/
def renormPoint (i : Nat) (H : List BufferSize) (p : Point) : Point :=
  ⟨BitVec.ofNat 64 i, p.statement, p.sizes, p.vars.map (rebuffer (H ++ p.sizes)), p.aux⟩

/-- Points with numbers and buffer sizes recomputed. -/
def renormPoints : Nat → List BufferSize → List Point → List Point
  | _, _, [] => []
  | i, H, p :: ps => renormPoint i H p :: renormPoints (i + 1) (H ++ p.sizes) ps

theorem flatMap_congr' {α β : Type} {f g : α → List β} : ∀ {l : List α}, (∀ a ∈ l, f a = g a) →
    l.flatMap f = l.flatMap g
  | [], _ => rfl
  | a :: l, h => by
    rw [List.flatMap_cons, List.flatMap_cons, h a (by simp), flatMap_congr' fun b hb => h b (by simp [hb])]

theorem filterMap_none' {α β : Type} : ∀ l : List α, l.filterMap (fun _ => (none : Option β)) = []
  | [] => rfl
  | a :: l => by rw [List.filterMap_cons, filterMap_none' l]

theorem pow_size {n : Nat} : (2 : Nat) ^ (8 * n) = 256 ^ n := by
  rw [show (256 : Nat) = 2 ^ 8 from rfl, ← Nat.pow_mul]

/-- the sign bit convention of the format -/
theorem signedOf_leBytes {n : Nat} {w : U64} (hn : 0 < n) (hn8 : n ≤ 8)
    (h1 : -(2 : Int) ^ (8 * n - 1) ≤ w.toInt) (h2 : w.toInt < 2 ^ (8 * n - 1)) :
    BitVec.ofInt 64 (signedOf (leBytes n w.toNat)) = w := by
  have hs : signedOf (leBytes n w.toNat) = w.toInt := by
    unfold signedOf
    rw [leNat_leBytes, leBytes_length, ← pow_size]
    have hp : (2 : Nat) ^ (8 * n) = 2 * 2 ^ (8 * n - 1) := by
      rw [← Nat.pow_succ']; congr 1; omega
    have hle : (2 : Nat) ^ (8 * n) ≤ 2 ^ 64 := Nat.pow_le_pow_right (by omega) (by omega)
    have e1 : ((2 : Int) ^ (8 * n - 1)) = ((2 ^ (8 * n - 1) : Nat) : Int) := by simp
    have e2 : ((2 : Int) ^ (8 * n)) = ((2 ^ (8 * n) : Nat) : Int) := by simp
    rw [e1] at h1 h2
    rw [e2]
    have hw := w.isLt
    have hdvd : (2 : Nat) ^ (8 * n) ∣ 2 ^ 64 := Nat.pow_dvd_pow 2 (by omega)
    rw [BitVec.toInt_eq_toNat_cond] at h1 h2 ⊢
    rw [hp] at hle hdvd ⊢
    clear e1 e2 hp
    generalize (2 : Nat) ^ (8 * n - 1) = M at *
    split at h1
    · rename_i hlt
      rw [if_pos hlt] at h2
      rw [if_pos hlt]
      have : w.toNat < M := by omega
      rw [Nat.mod_eq_of_lt (by omega), if_pos this]
    · rename_i hlt
      rw [if_neg hlt] at h2
      rw [if_neg hlt]
      obtain ⟨q, hq⟩ := hdvd
      have hge : 2 ^ 64 ≤ w.toNat + M := by omega
      -- w is in the top block
      have hmod : w.toNat % (2 * M) = w.toNat + 2 * M - 2 ^ 64 := by
        have : w.toNat = (w.toNat + 2 * M - 2 ^ 64) + 2 * M * (q - 1) := by
          have hq1 : 1 ≤ q := by
            rcases Nat.eq_zero_or_pos q with h0 | h0
            · rw [h0] at hq; omega
            · exact h0
          have : 2 * M * (q - 1) = 2 ^ 64 - 2 * M := by
            rw [Nat.mul_sub, ← hq]; omega
          omega
        rw [this, Nat.add_mul_mod_self_left, Nat.mod_eq_of_lt]
        · omega
        · omega
      rw [hmod, if_neg (by omega)]
      omega
  rw [hs, BitVec.ofInt_toInt]

theorem ofNat_leNat_leBytes {n : Nat} {w : U64} (h : w.toNat < 2 ^ (8 * n)) :
    BitVec.ofNat 64 (leNat (leBytes n w.toNat)) = w := by
  rw [pow_size] at h
  rw [leNat_leBytes_of_lt h]
  simp

theorem wf_entryOf {v : VarInfo} (hp : ∀ ty ∈ types, ty.Portable) (h : VarFits names types v) :
    (entryOf v).WF names types := by
  obtain ⟨hn, ty, hty, hf, hv⟩ := h
  refine ⟨hn, ty, hty, ?_⟩
  have hport := hp ty (List.mem_of_getElem? hty)
  unfold ValueFits at hv
  unfold TypeDesc.Portable at hport
  unfold PayloadOk payloadOf
  cases hform : ty.format <;> cases hval : v.value <;> simp only [hform, hval] at hv hport ⊢
  · rw [hv.1, leBytes_length]
    refine ⟨?_, rfl⟩
    rcases hport with h | h | h | h <;> rw [h] <;> decide
  · rw [hv.1, leBytes_length]; exact ⟨hport, rfl⟩
  · rw [hv.1, leBytes_length]
    refine ⟨?_, rfl⟩
    rcases hport with h | h <;> rw [h] <;> decide
  · rw [hv, leBytes_length]
    refine ⟨?_, rfl⟩
    rw [hport]; decide
  · rw [if_pos hport, ← hv]; exact v.size.isLt

theorem encode_entryOf {v : VarInfo} (hp : ∀ ty ∈ types, ty.Portable) (h : VarFits names types v) :
    (entryOf v).encode types = [2] ++ writeVarInfo v := by
  obtain ⟨hn, ty, hty, hf, hv⟩ := h
  have hport := hp ty (List.mem_of_getElem? hty)
  unfold ValueFits at hv
  unfold TypeDesc.Portable at hport
  simp only [entryOf, Entry.encode, hty, encodePayload, writeVarInfo, List.append_assoc, List.cons_append,
    List.nil_append]
  congr 3
  unfold payloadOf
  rw [hf]
  cases hform : ty.format <;> cases hval : v.value <;> simp only [hform, hval] at hv hport ⊢
  · rw [hv.1]
    rcases hport with h | h | h | h <;> rw [h] <;> simp [VarValue.bits]
  · rw [hv.1]
    rcases hport with h | h | h | h <;> rw [h] <;> simp [VarValue.bits]
  · rw [hv.1]
    rcases hport with h | h <;> rw [h] <;> simp [VarValue.bits]
  · rw [hv, hport]; simp [VarValue.bits]
  · rw [if_pos ⟨trivial, hport⟩, hv]; rfl

theorem decode_entryOf {v : VarInfo} {ty : TypeDesc} (hport : ty.Portable) (hf : v.format = ty.format)
    (hv : ValueFits ty v) (H : List BufferSize) :
    decodeVar ty H v.nameIndex v.typeIndex (payloadOf v) = rebuffer H v := by
  obtain ⟨value, ni, ti, format, size, b, has⟩ := v
  simp only at hf
  subst hf
  unfold ValueFits at hv
  unfold TypeDesc.Portable at hport
  unfold payloadOf decodeVar rebuffer
  cases hform : ty.format <;> cases value <;> simp only [hform] at hv hport ⊢
  · rw [hv.1, ofNat_leNat_leBytes hv.2]
  · obtain ⟨h1, h2, h3⟩ := hv
    rw [h1, signedOf_leBytes _ _ h2 h3]
    · rcases hport with h | h | h | h <;> rw [h] <;> decide
    · rcases hport with h | h | h | h <;> rw [h] <;> decide
  · rw [hv.1, ofNat_leNat_leBytes hv.2]
  · rename_i w
    rw [hv, ofNat_leNat_leBytes (by rw [hport]; exact w.isLt)]
  · rename_i bs
    rw [← hv]; simp

theorem entryVars_map_var (hp : ∀ ty ∈ types, ty.Portable) (H : List BufferSize) (aux : List U64) :
    ∀ vs : List VarInfo, (∀ v ∈ vs, VarFits names types v) →
      entryVars types H (vs.map entryOf ++ aux.map .aux) = vs.map (rebuffer H)
  | [], _ => by
    simp only [List.map_nil, List.nil_append]
    induction aux with
    | nil => rfl
    | cons a aux ih =>
      simp only [List.map_cons]
      rw [entryVars]
      · exact ih
      all_goals simp
  | v :: vs, h => by
    obtain ⟨_, ty, hty, hf, hv⟩ := h v (by simp)
    simp only [List.map_cons, List.cons_append, entryOf, entryVars, hty]
    rw [decode_entryOf (hp ty (List.mem_of_getElem? hty)) hf hv]
    congr 1
    exact entryVars_map_var hp H aux vs (fun x hx => h x (by simp [hx]))

theorem entryVars_map_size (tail : List Entry) : ∀ (sizes H : List BufferSize),
    entryVars types H (sizes.map .size ++ tail) = entryVars types (H ++ sizes) tail
  | [], H => by simp
  | r :: rs, H => by
    simp only [List.map_cons, List.cons_append, entryVars]
    rw [entryVars_map_size tail rs]
    simp

theorem entrySizes_entriesOf (p : Point) : entrySizes (entriesOf p) = p.sizes := by
  simp [entriesOf, entrySizes, List.filterMap_map, Function.comp_def, entryOf, filterMap_none']

theorem entryAux_entriesOf (p : Point) : entryAux (entriesOf p) = p.aux := by
  simp [entriesOf, entryAux, List.filterMap_map, Function.comp_def, entryOf, filterMap_none']

theorem entryStmt_entriesOf (p : Point) : entryStmt (entriesOf p) = some p.statement := by
  simp [entriesOf, entryStmt, List.filterMap_map, Function.comp_def, entryOf, filterMap_none']

theorem pointOf_entriesOf (hp : ∀ ty ∈ types, ty.Portable) {p : Point}
    (h : ∀ v ∈ p.vars, VarFits names types v) (i : Nat) (H : List BufferSize) (ns : U64) :
    pointOf types i H ((entryStmt (entriesOf p)).getD ns) (entriesOf p) = renormPoint i H p := by
  unfold pointOf renormPoint
  rw [entrySizes_entriesOf, entryAux_entriesOf, entryStmt_entriesOf]
  congr 1
  unfold entriesOf
  rw [entryVars, entryVars_map_size, entryVars_map_var hp _ _ _ h]
  all_goals simp

theorem pointsOf_entriesOf (hp : ∀ ty ∈ types, ty.Portable) : ∀ (ps : List Point),
    (∀ p ∈ ps, ∀ v ∈ p.vars, VarFits names types v) → ∀ (ns : U64) (i : Nat) (H : List BufferSize),
    pointsOf types ns i H (ps.map entriesOf) = renormPoints i H ps
  | [], _, _, _, _ => rfl
  | p :: ps, h, ns, i, H => by
    simp only [List.map_cons, pointsOf, renormPoints]
    rw [pointOf_entriesOf hp (h p (by simp)), entrySizes_entriesOf,
      pointsOf_entriesOf hp ps (fun q hq => h q (by simp [hq]))]

theorem encode_entriesOf (hp : ∀ ty ∈ types, ty.Portable) {p : Point}
    (h : ∀ v ∈ p.vars, VarFits names types v) :
    encodePoint types (entriesOf p) = writePoint p := by
  have h2 : (p.vars.map entryOf).flatMap (Entry.encode types) = p.vars.flatMap fun v => [2] ++ writeVarInfo v := by
    rw [List.flatMap_map]
    apply flatMap_congr'
    intro v hv
    exact encode_entryOf hp (h v hv)
  unfold encodePoint encodeEntries entriesOf writePoint
  rw [List.flatMap_cons, List.flatMap_append, List.flatMap_append, h2, List.flatMap_map, List.flatMap_map]
  simp [Entry.encode, writeBufferSize]

theorem writeTrace_eq {t : Trace} (h : Writable t) :
    writeTrace t = encodeHeader t.names t.types ++ encodePoints t.types (t.points.map entriesOf) := by
  have h2 : encodePoints t.types (t.points.map entriesOf) = t.points.flatMap writePoint := by
    unfold encodePoints
    rw [List.flatMap_map]
    apply flatMap_congr'
    intro p hp
    exact encode_entriesOf h.portable (h.vars p hp)
  rw [h2]
  unfold writeTrace encodeHeader
  simp only [List.append_assoc]
  congr 4
  all_goals (funext t; simp [writeType])

/-- Reading what was written recomputes point numbers and buffer sizes. -/
theorem read_write {env : Env} {io : Bool} {t : Trace} (h : Writable t) (halloc : ∀ n, env.canAlloc n = true) :
    readTrace env 0 (gs io (writeTrace t)) = .ok ⟨t.names, t.types, renormPoints 0 [] t.points⟩ := by
  rw [writeTrace_eq h]
  have hnl : ∀ qs : List (List Entry), ¬ Limited 0 qs := by
    rintro qs ⟨h1, _⟩; exact h1 rfl
  have hwf : ∀ q ∈ t.points.map entriesOf, ∀ e ∈ q, e.WF t.names t.types := by
    intro q hq e he
    obtain ⟨p, hp, rfl⟩ := List.mem_map.mp hq
    simp only [entriesOf, List.mem_cons, List.mem_append, List.mem_map] at he
    rcases he with rfl | ⟨r, _, rfl⟩ | ⟨v, hv, rfl⟩ | ⟨a, _, rfl⟩
    · trivial
    · trivial
    · exact wf_entryOf h.portable (h.vars p hp v hv)
    · trivial
  have hd : Decomposed t.names t.types (encodePoints t.types (t.points.map entriesOf))
      (t.points.map entriesOf) [] [] :=
    ⟨by simp [encodeEntries], hwf, by simp, stuck_nil⟩
  have hall : ∀ q : List Entry, AllocsOk env t.types q := by
    intro q e _
    cases e with
    | var n t x => exact fun _ _ _ _ => halloc _
    | _ => trivial
  have hsz : (t.points.map entriesOf).flatMap entrySizes = t.points.flatMap (·.sizes) := by
    rw [List.flatMap_map]
    apply flatMap_congr'
    intro p _
    exact entrySizes_entriesOf p
  have hfine : Fine env t.types [] (t.points.map entriesOf) := by
    refine ⟨fun q _ => hall q, ?_, ?_⟩
    · rw [hsz]; simpa using h.reserved
    · intro q hq
      obtain ⟨p, _, rfl⟩ := List.mem_map.mp hq
      left; rw [entryStmt_entriesOf]; rfl
  have hb := ((readTrace_body (env := env) (io := io) (maxPoints := 0) h.header
    ⟨fun _ => halloc _, fun _ => halloc _⟩ hd rfl).2
      (by rw [kept_of_not_limited (hnl _)]; exact hfine)).2 (hnl _)
  rcases hb.2 ⟨hall [], by rw [hsz]; simpa [entrySizes] using h.reserved⟩ with ⟨_, h6⟩ | ⟨h6, _⟩ | ⟨h6, _⟩
  · rw [h6, pointsOf_entriesOf h.portable _ h.vars]
  · exact absurd rfl h6
  · exact absurd rfl h6

theorem rebuffer_fits {H : List BufferSize} {v : VarInfo} (h : BufferSizeFits H v) : rebuffer H v = v := by
  unfold BufferSizeFits at h
  unfold rebuffer
  split at h
  · rename_i w hf hv
    obtain ⟨r, h1, h2, h3⟩ := h
    rw [hf, hv]
    simp only
    rw [← h1.unique]
    obtain ⟨value, ni, ti, format, size, b, has⟩ := v
    simp only at h2 h3 hf hv ⊢
    split
    · rename_i hr; rw [h2, h3]; simp [hr, hf, hv]
    · rename_i hr; rw [h2, h3]; simp [hr, hf, hv]
  · rename_i hno
    split
    · rename_i w hf hv; exact absurd hv (hno w hf)
    · obtain ⟨value, ni, ti, format, size, b, has⟩ := v
      simp only at h ⊢
      rw [h.1, h.2]

theorem renormPoints_eq : ∀ (ps : List Point) (i : Nat) (H : List BufferSize),
    (∀ (j : Nat) (p : Point), ps[j]? = some p → p.counter = BitVec.ofNat 64 (i + j)) →
    (∀ (j : Nat) (p : Point), ps[j]? = some p → ∀ v ∈ p.vars,
      BufferSizeFits (H ++ (recordsBefore ps j ++ p.sizes)) v) →
    renormPoints i H ps = ps
  | [], _, _, _, _ => rfl
  | p :: ps, i, H, hc, hb => by
    have h0 := hc 0 p rfl
    have hb0 := hb 0 p rfl
    simp only [recordsBefore, List.take_zero, List.flatMap_nil, List.nil_append] at hb0
    rw [renormPoints, renormPoints_eq ps (i + 1) (H ++ p.sizes)]
    · congr 1
      unfold renormPoint
      have : p.vars.map (rebuffer (H ++ p.sizes)) = p.vars := by
        conv => rhs; rw [← List.map_id p.vars]
        exact List.map_congr_left fun v hv => rebuffer_fits (hb0 v hv)
      rw [this]
      obtain ⟨c, s, sz, vs, a⟩ := p
      simp only at h0 ⊢
      rw [h0]; rfl
    · intro j q hq
      rw [hc (j + 1) q (by simpa using hq)]
      congr 1; omega
    · intro j q hq v hv
      have := hb (j + 1) q (by simpa using hq) v hv
      simpa [recordsBefore] using this

end TraceDB
