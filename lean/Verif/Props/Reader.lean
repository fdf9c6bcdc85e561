import Verif.Proofs.Limit
import Verif.Model.Api
import Verif.Props.MemoryMap
/-
Properties C03-C14 and C17 of the binary trace reader.

`readTrace env max s` is the stream constructor of `Trace`; `gs io bs` is a
freshly opened stream over the bytes `bs` which ends with an I/O error when `io`
is set.  Byte strings are described with the format specification of
`Verif.Spec.Format`.
-/
namespace TraceDB

/-! ### A recorded run used in the examples -/

/-- A machine where all allocations succeed and uninitialised memory is zero. -/
def exEnv : Env := ⟨fun _ => true, some fun _ => 0, exampleCoin⟩
/-- The same machine, but using uninitialised memory is undefined. -/
def exStrict : Env := ⟨fun _ => true, none, exampleCoin⟩
/-- A machine where blocks of 100 bytes or more cannot be allocated. -/
def exPoor : Env := ⟨fun n => n < 100, some fun _ => 0, exampleCoin⟩

/-- "int", "x", "p". -/
def exNames : List Name := [[105, 110, 116], [120], [112]]
/-- A 4-byte signed type, an 8-byte pointer type, a variable-sized blob type and
a 2-byte unsigned type. -/
def exTypes : List TypeDesc := [⟨0, .signed, 4⟩, ⟨0, .pointer, 8⟩, ⟨0, .blob, 0⟩, ⟨0, .unsigned, 2⟩]
/-- Two points: the first records `x = -2`, a 16-byte buffer at 0x1000 and a
pointer to its sixth byte; the second a blob, an unsigned value and an auxiliary
value. -/
def exPoints : List (List Entry) :=
  [[.stmt 7, .var 1 0 [254, 255, 255, 255], .size ⟨0x1000, 16⟩, .var 2 1 [5, 16, 0, 0, 0, 0, 0, 0]],
   [.stmt 8, .var 1 2 [104, 105], .var 1 3 [255, 255], .aux 42]]
/-- The stream of that run. -/
def exBytes : List U8 := encodeHeader exNames exTypes ++ encodePoints exTypes exPoints
/-- The trace of that run. -/
def exTrace : Trace :=
  ⟨exNames, exTypes,
   [⟨0, 7, [⟨0x1000, 16⟩],
      [⟨.word (-2), 1, 0, .signed, 4, 0, false⟩, ⟨.word 0x1005, 2, 1, .pointer, 8, 11, true⟩], []⟩,
    ⟨1, 8, [], [⟨.blob [104, 105], 1, 2, .blob, 2, 0, false⟩, ⟨.word 65535, 1, 3, .unsigned, 2, 0, false⟩], [42]⟩]⟩

instance (t : TypeDesc) (p : List U8) : Decidable (PayloadOk t p) := by
  unfold PayloadOk; split <;> infer_instance

theorem Entry.wf_var_iff {names : List Name} {types : List TypeDesc} {n t : U32} {p : List U8} :
    (n.toNat < names.length ∧ (match types[t.toNat]? with | some ty => PayloadOk ty p | none => False)) ↔
      (Entry.var n t p).WF names types := by
  unfold Entry.WF
  cases h : types[t.toNat]? with
  | none => simp [h]
  | some ty => simp [h]

instance (names : List Name) (types : List TypeDesc) (e : Entry) : Decidable (e.WF names types) := by
  cases e with
  | var n t p =>
    haveI : Decidable (match types[t.toNat]? with | some ty => PayloadOk ty p | none => False) := by
      split <;> infer_instance
    exact decidable_of_iff _ Entry.wf_var_iff
  | stmt _ => exact isTrue trivial
  | size _ => exact isTrue trivial
  | aux _ => exact isTrue trivial

theorem HeaderOk.iff {names : List Name} {types : List TypeDesc} :
    ((∀ n ∈ names, (0 : U8) ∉ n) ∧ charCount names < 2 ^ 63 ∧ types.length < 2 ^ 32 ∧
      ∀ t ∈ types, t.format ≠ .invalid) ↔ HeaderOk names types :=
  ⟨fun ⟨a, b, c, d⟩ => ⟨a, b, c, d⟩, fun ⟨a, b, c, d⟩ => ⟨a, b, c, d⟩⟩

instance (names : List Name) (types : List TypeDesc) : Decidable (HeaderOk names types) :=
  decidable_of_iff _ HeaderOk.iff

theorem exHeaderOk : HeaderOk exNames exTypes := by decide +kernel
theorem exWF : ∀ p ∈ exPoints, ∀ e ∈ p, e.WF exNames exTypes := by decide +kernel
theorem exSane : ∀ t ∈ exTypes, t.Sane := by decide +kernel
theorem exBenign : exEnv.Benign := ⟨rfl, fun _ _ => rfl⟩

/-- The example stream is read as the example trace. -/
example : readTrace exEnv 0 (IStream.ofBytes exBytes) = .ok exTrace := by decide +kernel

/-! ### C06 -/

/-- **C06**.  Reading any stream with any limit on any machine comes to an end:
the loops never run out of the rounds the model grants them. -/
theorem C06_reading_terminates (env : Env) (maxPoints : U64) (s : IStream) :
    readTrace env maxPoints s ≠ .hang := by
  by_cases hg : s.st = .good
  · rw [stream_eq hg]
    rcases readTrace_cases env maxPoints s.ioError s.rest with ⟨names, types, body, h1, h2, h3⟩ | ⟨_, _, _, h⟩ | ⟨_, h⟩ | ⟨_, h, _⟩
    · obtain ⟨ps, p, left, hd⟩ := exists_decomposition names types body
      rw [h3]
      have hb := readTrace_body (env := env) (io := s.ioError) (maxPoints := maxPoints) h1 h2 hd rfl
      by_cases hf : Fine env types [] (kept maxPoints ps)
      · by_cases hl : Limited maxPoints ps
        · rw [(hb.2 hf).1 hl]; simp
        · have hb2 := (hb.2 hf).2 hl
          by_cases ht : AllocsOk env types p ∧ ReservedOk (ps.flatMap entrySizes ++ entrySizes p)
          · rcases hb2.2 ht with ⟨_, h6⟩ | ⟨_, h6 | h6⟩ | ⟨_, k, h6, _⟩ <;> rw [h6] <;> simp
          · obtain ⟨k, hk⟩ := hb2.1 ht
            rw [hk]; simp
      · obtain ⟨k, hk⟩ := hb.1 hf
        rw [hk]; simp
    · rw [h]; simp
    · rw [h]; simp
    · rw [h]; simp
  · obtain ⟨e, h⟩ := readTrace_notgood (env := env) (maxPoints := maxPoints) hg
    rw [h]; simp

/-- Garbage is rejected, not looped on. -/
example : readTrace exEnv 0 (IStream.ofBytes [1, 0, 0, 0, 0, 0, 0, 0, 0, 1, 0, 0, 0, 255]) = .throw .eof := by
  decide +kernel

/-! ### C07 -/

/-- What a stream must satisfy to be read without undefined behaviour, apart
from the name table.  `ps` are the complete points of the stream, `p` the
complete entries of the unfinished point, `left` the bytes after them. -/
structure SafeBody (env : Env) (types : List TypeDesc) (ps : List (List Entry)) (p : List Entry)
    (left : List U8) : Prop where
  /-- numbers have at most 8 bytes -/
  sizes : ∀ ty ∈ types, ty.format ≠ .blob → ty.size.toNat ≤ 8
  /-- finished points carry a statement id (or uninitialised memory is harmless) -/
  stmts : ∀ q ∈ ps, (entryStmt q).isSome = true ∨ env.junk.isSome = true
  /-- address 2^64-1 is never freed more often than allocated -/
  reserved : ReservedOk (ps.flatMap entrySizes ++ entrySizes p ++ cutRecord left)
  /-- the stream does not end inside the value of a signed or blob variable (or
  uninitialised memory is harmless) -/
  complete : env.junk.isSome = true ∨ ¬ CutValue types left

/-- **C07**.  Reading is defined for every stream whose name table is complete
and ends in NUL and whose body is safe, when allocation succeeds. -/
theorem C07_no_undefined_behaviour (env : Env) (maxPoints : U64) (io : Bool) (bs : List U8)
    (halloc : ∀ n, env.canAlloc n = true) (hnames : NameTableOk bs)
    (hbody : ∀ names types body ps p left, HeaderOk names types → bs = encodeHeader names types ++ body →
      Decomposed names types body ps p left → SafeBody env types ps p left) :
    ∀ k, readTrace env maxPoints (gs io bs) ≠ .ub k := by
  intro k
  rcases readTrace_cases env maxPoints io bs with ⟨names, types, body, h1, h2, h3⟩ | ⟨_, _, _, h⟩ | ⟨_, h⟩ | ⟨_, _, h⟩
  · obtain ⟨ps, p, left, hd⟩ := exists_decomposition names types body
    have hs := hbody names types body ps p left h1 h3 hd
    have hall : ∀ q : List Entry, AllocsOk env types q := by
      intro q e _
      cases e with
      | var n t x => exact fun _ _ _ _ => halloc _
      | _ => trivial
    have hr1 : ReservedOk (ps.flatMap entrySizes ++ entrySizes p) :=
      hs.reserved.prefix (List.prefix_append _ _)
    have hr2 : ReservedOk (ps.flatMap entrySizes) := hr1.prefix (List.prefix_append _ _)
    have hfine : Fine env types [] ps := ⟨fun q _ => hall q, by simpa using hr2, hs.stmts⟩
    have hkept : Fine env types [] (kept maxPoints ps) := by
      unfold kept
      split
      · exact hfine
      · exact hfine.take _
    rw [h3]
    have hb := (readTrace_body (env := env) (io := io) (maxPoints := maxPoints) h1 h2 hd rfl).2 hkept
    by_cases hl : Limited maxPoints ps
    · rw [hb.1 hl]; simp
    · rcases (hb.2 hl).2 ⟨hall p, hr1⟩ with ⟨_, h6⟩ | ⟨_, h6 | h6⟩ | ⟨_, u, h6, htail⟩
      · rw [h6]; simp
      · rw [h6]; simp
      · rw [h6]; simp
      · exfalso
        cases htail with
        | badFree r hr hfr hc =>
          have hcr : cutRecord left = [r] := by
            unfold cutRecord at hr ⊢
            split at hr
            · split at hr
              · rename_i hh
                simp only [List.mem_singleton] at hr
                rw [hr]
                simp only [if_pos hh]
              · simp at hr
            · simp at hr
          have := hs.reserved
          rw [hcr] at this
          exact ReservedOk.not_overfree this ⟨hfr, hc⟩
        | oobWrite ty hm hnb h8 =>
          have := hs.sizes ty hm hnb
          omega
        | nullDeref n _ _ hc => rw [halloc] at hc; cases hc
        | uninit hj hcv =>
          rcases hs.complete with h | h
          · rw [hj] at h; cases h
          · exact h hcv
  · rw [h]; simp
  · rw [h]; simp
  · exact absurd hnames h

/-- The conditions hold for the example stream, also on the machine where
uninitialised memory is undefined: it has a complete name table, and its
decomposition (which is unique) is the recorded run. -/
example : NameTableOk exBytes ∧ Decomposed exNames exTypes (encodePoints exTypes exPoints) exPoints [] [] ∧
    SafeBody exStrict exTypes exPoints [] [] := by
  refine ⟨?_, ⟨by simp [encodeEntries], exWF, by simp, stuck_nil⟩, ⟨?_, ?_, ?_, Or.inr ?_⟩⟩
  · intro _; right; decide +kernel
  · decide +kernel
  · decide +kernel
  · decide +kernel
  · rintro ⟨n, t, v, part, ty, m, h, _⟩; simp at h

/-- **C07, necessity.**  For each condition there is a stream that violates only
it and reaches undefined behaviour: a name table cut short, a name table without
terminator, a 9-byte number, a point without statement id, a free of address
2^64-1, a stream that ends inside a signed value, and a blob that cannot be
allocated. -/
theorem C07_conditions_needed :
    readTrace exStrict 0 (IStream.ofBytes (leBytes 8 2 ++ [65])) = .ub .uninit ∧
    readTrace exEnv 0 (IStream.ofBytes (leBytes 8 1 ++ [65] ++ leBytes 4 0)) = .ub .oobRead ∧
    readTrace exEnv 0 (IStream.ofBytes (encodeHeader exNames [⟨0, .unsigned, 9⟩] ++
      (2 :: leBytes 4 0 ++ leBytes 4 0 ++ [1, 2, 3, 4, 5, 6, 7, 8, 9, 0]))) = .ub .oobWrite ∧
    readTrace exStrict 0 (IStream.ofBytes (encodeHeader exNames exTypes ++ [0])) = .ub .uninit ∧
    readTrace exEnv 0 (IStream.ofBytes (encodeHeader exNames exTypes ++
      encodePoints exTypes [[.stmt 1, .size ⟨u64Max, 0⟩]])) = .ub .badFree ∧
    readTrace exStrict 0 (IStream.ofBytes (encodeHeader exNames exTypes ++
      (2 :: leBytes 4 0 ++ leBytes 4 0 ++ [1, 2]))) = .ub .uninit ∧
    readTrace exPoor 0 (IStream.ofBytes (encodeHeader exNames exTypes ++
      encodePoints exTypes [[.stmt 1, .var 0 2 (List.replicate 200 0)]])) = .ub .nullDeref := by
  decide +kernel

/-! ### C08 -/

/-- **C08**.  If the unlimited read succeeds, the read with limit `k > 0`
succeeds and returns the same names and types and exactly the first `k` points
(all of them if there are fewer).  Conversely, a limited read that returns fewer
than `k` points has read everything: the unlimited read gives the same trace. -/
theorem C08_limit_is_prefix (env : Env) (s : IStream) (k : U64) (hk : k ≠ 0) (t : Trace) :
    (readTrace env 0 s = .ok t →
      readTrace env k s = .ok { t with points := t.points.take k.toNat }) ∧
    (readTrace env k s = .ok t → t.points.length < k.toNat → readTrace env 0 s = .ok t) ∧
    (readTrace env k s = .ok t → t.points.length ≤ k.toNat) := by
  simp only [readTrace_eq_history, readTraceWith_eq]
  cases hh : readHeader env s with
  | ok q =>
    simp only [Res.ok_bind]
    refine ⟨fun h => ?_, fun h hlt => ?_, fun h => ?_⟩
    · obtain ⟨h1, h2, h3⟩ := bind_ok_trace h
      rw [readPoints_limit hk _ 0 _ _ [] _ (fun _ => rfl) (Nat.zero_le _) h1]
      simp only [Res.ok_bind, Res.pure_eq, ← h2, ← h3]
    · obtain ⟨h1, h2, h3⟩ := bind_ok_trace h
      rw [readPoints_limit_back hk _ 0 _ _ [] _ (fun _ => rfl) h1 hlt]
      simp only [Res.ok_bind, Res.pure_eq, ← h2, ← h3]
    · obtain ⟨h1, h2, h3⟩ := bind_ok_trace h
      exact readPoints_limit_length hk _ 0 _ _ [] _ (fun _ => rfl) (Nat.zero_le _) h1
  | _ => exact ⟨by simp, by simp, by simp⟩

/-- **C08, damaged tails.**  A limited read succeeds whatever follows the `k`-th
point, as long as the first `k` points are readable. -/
theorem C08_limit_ignores_damage (env : Env) (io : Bool) (k : U64) (hk : k ≠ 0) (names : List Name)
    (types : List TypeDesc) (ps : List (List Entry)) (garbage : List U8)
    (hdr : HeaderOk names types) (halloc : ∀ n, env.canAlloc n = true)
    (hwf : ∀ p ∈ ps, ∀ e ∈ p, e.WF names types) (hlen : k.toNat = ps.length)
    (hstmt : ∀ p ∈ ps, (entryStmt p).isSome = true) (hres : ReservedOk (ps.flatMap entrySizes)) :
    readTrace env k (gs io (encodeHeader names types ++ (encodePoints types ps ++ garbage))) =
      .ok ⟨names, types, pointsOf types 0 0 [] ps⟩ := by
  have hall : ∀ q : List Entry, AllocsOk env types q := by
    intro q e _
    cases e with
    | var n t x => exact fun _ _ _ _ => halloc _
    | _ => trivial
  have hfine : Fine env types [] ps := ⟨fun q _ => hall q, by simpa using hres, fun p hp => Or.inl (hstmt p hp)⟩
  rw [readTrace_limit_damaged hk hdr ⟨fun _ => halloc _, fun _ => halloc _⟩ hwf (by omega) (hfine.take _)]
  rw [hlen, List.take_length, pointsOf_stmt ps _ 0 0 [] hstmt]

example : readTrace exEnv 2 (IStream.ofBytes (exBytes ++ [77, 77, 77])) = .ok exTrace :=
  C08_limit_ignores_damage exEnv false 2 (by decide) exNames exTypes exPoints [77, 77, 77]
    exHeaderOk (fun _ => rfl) exWF (by decide +kernel) (by decide +kernel) (by decide +kernel)
example : readTrace exEnv 0 (IStream.ofBytes (exBytes ++ [77, 77, 77])) = .throw .trace := by decide +kernel
example : readTrace exEnv 1 (IStream.ofBytes exBytes) =
    .ok { exTrace with points := exTrace.points.take 1 } :=
  (C08_limit_is_prefix exEnv _ 1 (by decide) exTrace).1 (by decide +kernel)

/-! ### C09 -/

/-- **C09**.  The variables of an accepted trace refer to existing names and
types and agree with their type. -/
theorem C09_variables_valid (env : Env) (maxPoints : U64) (s : IStream) (t : Trace)
    (h : readTrace env maxPoints s = .ok t) :
    ∀ pt ∈ t.points, ∀ v ∈ pt.vars, v.nameIndex.toNat < t.names.length ∧
      ∃ ty, t.types[v.typeIndex.toNat]? = some ty ∧ v.format = ty.format ∧
        (v.size = ty.size ∨ (ty.format = .blob ∧ ty.size = 0)) := by
  by_cases hg : s.st = .good
  · rw [stream_eq hg] at h
    rcases readTrace_ok h with ⟨body, ps, p, left, _, _, _, h4, _, h6, _⟩ | ⟨h1, _⟩
    · rw [h6]
      exact pointsOf_vars_valid _ _ _ _ (fun q hq => h4.points q (kept_mem hq))
    · rw [h1]; simp
  · obtain ⟨e, h'⟩ := readTrace_notgood (env := env) (maxPoints := maxPoints) hg
    rw [h'] at h; cases h

example : ∀ pt ∈ exTrace.points, ∀ v ∈ pt.vars, v.nameIndex.toNat < exTrace.names.length :=
  fun pt hpt v hv =>
    (C09_variables_valid exEnv 0 (IStream.ofBytes exBytes) exTrace (by decide +kernel) pt hpt v hv).1

/-! ### C10 -/

/-- **C10**.  `get_types` returns the name of every type when all name indices
of types are inside the name table, and reads out of bounds otherwise. -/
theorem C10_get_types (t : Trace) :
    ((∀ ty ∈ t.types, ty.nameIndex.toNat < t.names.length) →
      ∃ r, getTypes t = .ok r ∧ r.length = t.types.length ∧
        ∀ (i : Nat) (ty : TypeDesc) (n : Name), t.types[i]? = some ty → t.names[ty.nameIndex.toNat]? = some n →
          r[i]? = some (cStr n)) ∧
    (¬ (∀ ty ∈ t.types, ty.nameIndex.toNat < t.names.length) → getTypes t = .ub .oobRead) := by
  obtain ⟨names, types, points⟩ := t
  unfold getTypes
  simp only
  induction types with
  | nil => simp [getTypesLoop]
  | cons ty tys ih =>
    constructor
    · intro hall
      have hty := hall ty (by simp)
      obtain ⟨r, h1, h2, h3⟩ := ih.1 (fun x hx => hall x (by simp [hx]))
      refine ⟨cStr names[ty.nameIndex.toNat] :: r, ?_, by simp [h2], ?_⟩
      · simp [getTypesLoop, List.getElem?_eq_getElem hty, h1]
      · intro i ty' n hi hn
        cases i with
        | zero =>
          simp only [List.getElem?_cons_zero, Option.some.injEq] at hi
          subst hi
          rw [List.getElem?_eq_getElem hty, Option.some.injEq] at hn
          simp [hn]
        | succ i =>
          simp only [List.getElem?_cons_succ] at hi ⊢
          exact h3 i ty' n hi hn
    · intro hno
      rw [getTypesLoop]
      cases hn : names[ty.nameIndex.toNat]? with
      | none => rfl
      | some n =>
        have hlt : ty.nameIndex.toNat < names.length := (List.getElem?_eq_some_iff.mp hn).1
        have : ¬ ∀ ty ∈ tys, ty.nameIndex.toNat < names.length := by
          intro h
          apply hno
          intro x hx
          simp only [List.mem_cons] at hx
          rcases hx with rfl | hx
          · exact hlt
          · exact h x hx
        simp [ih.2 this]

example : getTypes exTrace = .ok [[105, 110, 116], [105, 110, 116], [105, 110, 116], [105, 110, 116]] := by
  decide +kernel

/-- **C10, defect.**  The reader accepts a trace on which `get_types` reads out
of bounds. -/
theorem C10_accepted_trace_without_type_name :
    ∃ bytes t, readTrace exStrict 0 (IStream.ofBytes bytes) = .ok t ∧ getTypes t = .ub .oobRead :=
  ⟨encodeHeader exNames [⟨3, .signed, 4⟩], ⟨exNames, [⟨3, .signed, 4⟩], []⟩, by decide +kernel, by decide +kernel⟩

/-! ### C11 -/

theorem stuck_badTag {names : List Name} {types : List TypeDesc} {c : U8} {R : List U8} (hc : 5 ≤ c.toNat) :
    Stuck names types (c :: R) := by
  constructor
  · intro R' h
    rw [(List.cons.inj h).1] at hc
    simp at hc
  · intro e R' _ h
    cases e <;>
    · simp only [Entry.encode, List.cons_append, List.cons.injEq] at h
      rw [h.1] at hc
      simp at hc

/-- **C11**.  A stream whose next tag after any complete points and entries is
none of the five tags is never accepted (unless the limit stops the reader
before), and is rejected with the trace error when the data before it is
readable. -/
theorem C11_invalid_tag_rejected (env : Env) (maxPoints : U64) (io : Bool) (names : List Name)
    (types : List TypeDesc) (ps : List (List Entry)) (p : List Entry) (c : U8) (R : List U8)
    (hdr : HeaderOk names types) (hwf : ∀ q ∈ ps, ∀ e ∈ q, e.WF names types)
    (hwf' : ∀ e ∈ p, e.WF names types) (hc : 5 ≤ c.toNat)
    (hmax : maxPoints = 0 ∨ ps.length < maxPoints.toNat) :
    (∀ t, readTrace env maxPoints (gs io (encodeHeader names types ++
      (encodePoints types ps ++ (encodeEntries types p ++ c :: R)))) ≠ .ok t) ∧
    ((∀ n, env.canAlloc n = true) → (∀ q ∈ ps, (entryStmt q).isSome = true) →
      ReservedOk (ps.flatMap entrySizes ++ entrySizes p) →
      readTrace env maxPoints (gs io (encodeHeader names types ++
        (encodePoints types ps ++ (encodeEntries types p ++ c :: R)))) = .throw .trace) := by
  have hd : Decomposed names types (encodePoints types ps ++ (encodeEntries types p ++ c :: R)) ps p (c :: R) :=
    ⟨rfl, hwf, hwf', stuck_badTag hc⟩
  have hl : ¬ Limited maxPoints ps := by
    rintro ⟨h1, h2⟩
    rcases hmax with h | h
    · exact h1 h
    · omega
  constructor
  · intro t h
    have := ((readTrace_ok_of hdr hd h).2.2.2 hl).1
    cases this
  · intro halloc hstmt hres
    have hall : ∀ q : List Entry, AllocsOk env types q := by
      intro q e _
      cases e with
      | var n t x => exact fun _ _ _ _ => halloc _
      | _ => trivial
    have hr2 : ReservedOk (ps.flatMap entrySizes) := hres.prefix (List.prefix_append _ _)
    have hfine : Fine env types [] ps :=
      ⟨fun q _ => hall q, by simpa using hr2, fun q hq => Or.inl (hstmt q hq)⟩
    rw [readTrace_header hdr ⟨fun _ => halloc _, fun _ => halloc _⟩]
    have hpl := encodePoints_length (types := types) ps
    obtain ⟨f, hf⟩ : ∃ f, (encodePoints types ps ++ (encodeEntries types p ++ c :: R)).length + 3 =
        ps.length + (f + 1) :=
      ⟨(encodePoints types ps ++ (encodeEntries types p ++ c :: R)).length + 2 - ps.length, by
        simp only [List.length_append]; omega⟩
    rw [hf, readPoints_points ps (f + 1) 0 [] [] _ (by rcases hmax with h | h; exact Or.inl h; right; omega) hwf hfine]
    have hw : Within maxPoints (0 + ps.length) := by
      rcases hmax with h | h
      · exact Or.inl h
      · right; omega
    rw [readPoints]
    simp only [gs_isGood, Bool.true_and, within_cond.mpr hw, if_true]
    have hf : ∃ f, entryFuel (gs io (encodeEntries types p ++ c :: R)) = p.length + (f + 1) := by
      have h1 := encodeEntries_length (types := types) p
      refine ⟨entryFuel (gs io (encodeEntries types p ++ c :: R)) - p.length - 1, ?_⟩
      simp only [entryFuel, List.length_append]
      omega
    obtain ⟨f, hf⟩ := hf
    rw [hf, readEntries_entries p (f + 1) _ _ _ hwf' (hall p) (by simpa using hres)]
    rw [readEntries, readTag (c := c.toNat) rfl]
    obtain ⟨m, hm⟩ : ∃ m, c.toNat = m + 5 := ⟨c.toNat - 5, by omega⟩
    rw [hm]
    rfl

example : readTrace exEnv 0 (IStream.ofBytes (encodeHeader exNames exTypes ++
    (encodePoints exTypes exPoints ++ (encodeEntries exTypes [.aux 3] ++ 200 :: [1, 2, 3])))) = .throw .trace :=
  (C11_invalid_tag_rejected exEnv 0 false exNames exTypes exPoints [.aux 3] 200 [1, 2, 3] exHeaderOk exWF
    (by decide +kernel) (by decide +kernel) (Or.inl rfl)).2 (fun _ => rfl) (by decide +kernel) (by decide +kernel)

/-! ### C12 -/

theorem signedOf_bounds {p : List U8} (h : 0 < p.length) :
    -(2 : Int) ^ (8 * p.length - 1) ≤ signedOf p ∧ signedOf p < 2 ^ (8 * p.length - 1) := by
  have hlt := leNat_lt p
  have hpow : (256 : Nat) ^ p.length = 2 ^ (8 * p.length) := by
    rw [show (256 : Nat) = 2 ^ 8 from rfl, ← Nat.pow_mul]
  rw [hpow] at hlt
  have h2 : 2 ^ (8 * p.length) = 2 * 2 ^ (8 * p.length - 1) := by
    rw [← Nat.pow_succ']; congr 1; omega
  unfold signedOf
  have e1 : ((2 : Int) ^ (8 * p.length - 1)) = ((2 ^ (8 * p.length - 1) : Nat) : Int) := by simp
  have e2 : ((2 : Int) ^ (8 * p.length)) = ((2 ^ (8 * p.length) : Nat) : Int) := by simp
  rw [e1, e2]
  split <;> omega

theorem toInt_ofInt_signedOf {p : List U8} (h : 0 < p.length) (h8 : p.length ≤ 8) :
    (BitVec.ofInt 64 (signedOf p)).toInt = signedOf p := by
  obtain ⟨h1, h2⟩ := signedOf_bounds h
  have hle : (2 : Int) ^ (8 * p.length - 1) ≤ 2 ^ 63 := by
    have : 2 ^ (8 * p.length - 1) ≤ 2 ^ 63 := Nat.pow_le_pow_right (by omega) (by omega)
    exact_mod_cast this
  rw [BitVec.toInt_ofInt]
  apply Int.bmod_eq_of_le
  · have : ((2 ^ 64 : Nat) : Int) / 2 = 2 ^ 63 := by decide
    omega
  · have : (((2 ^ 64 : Nat) : Int) + 1) / 2 = 2 ^ 63 := by decide
    omega

/-- **C12**.  In every accepted trace the value of a signed variable is the two's
complement integer of its recorded bytes, and the value of an unsigned variable
the unsigned integer of its recorded bytes (`signedOf` and `leNat` are the
mathematical integers; `toInt`/`toNat` read the 64-bit value as signed/unsigned).
The `j`-th variable of a point belongs to its `j`-th variable entry. -/
theorem C12_integers_exact (env : Env) (maxPoints : U64) (io : Bool) (names : List Name)
    (types : List TypeDesc) (body : List U8) (ps : List (List Entry)) (p : List Entry) (left : List U8)
    (hdr : HeaderOk names types) (hd : Decomposed names types body ps p left) (t : Trace)
    (h : readTrace env maxPoints (gs io (encodeHeader names types ++ body)) = .ok t)
    (i : Nat) (pt : Point) (hi : t.points[i]? = some pt) :
    ∃ es, ps[i]? = some es ∧ pt.vars.length = (varEntries [] es).length ∧
      ∀ (j : Nat) (H : List BufferSize) (n ti : U32) (payload : List U8) (v : VarInfo), (varEntries [] es)[j]? = some (H, n, ti, payload) → pt.vars[j]? = some v →
        v.nameIndex = n ∧ v.typeIndex = ti ∧
        ∃ ty : TypeDesc, types[ti.toNat]? = some ty ∧
          (ty.format = .signed → ∃ w, v.value = .word w ∧ w.toInt = signedOf payload) ∧
          (ty.format = .unsigned → ∃ w, v.value = .word w ∧ w.toNat = leNat payload) := by
  obtain ⟨_, _, rfl, _⟩ := readTrace_ok_of hdr hd h
  obtain ⟨es, h1, rfl⟩ := pointsOf_get _ _ _ _ _ _ hi
  have hps : ps[i]? = some es := by
    unfold kept at h1
    split at h1
    · exact h1
    · rw [List.getElem?_take] at h1
      split at h1
      · exact h1
      · cases h1
  have hes : ∀ e ∈ es, e.WF names types := hd.points es (List.mem_of_getElem? hps)
  -- positions and payloads do not depend on the history
  have hve : ∀ (l : List Entry) (H H' : List BufferSize),
      (varEntries H l).map (fun x => x.2) = (varEntries H' l).map (fun x => x.2) := by
    intro l
    induction l with
    | nil => intro H H'; rfl
    | cons e l ih =>
      intro H H'
      cases e <;> simp only [varEntries, List.map_cons]
      · exact ih _ _
      · rw [ih H H']
      · exact ih _ _
      · exact ih _ _
  obtain ⟨H0, hH0⟩ : ∃ H0, H0 = [] ++ ((kept maxPoints ps).take i).flatMap entrySizes := ⟨_, rfl⟩
  have hee := entryVars_entries es H0 hes
  refine ⟨es, hps, ?_, ?_⟩
  · have h3 := congrArg List.length (hve es H0 [])
    simp only [List.length_map] at h3
    show (entryVars types _ es).length = _
    rw [← hH0, hee.1, h3]
  · intro j H n ti payload v hj hv
    have h4 := congrArg (fun l => l[j]?) (hve es H0 [])
    simp only [List.getElem?_map, hj, Option.map_some] at h4
    cases hx : (varEntries H0 es)[j]? with
    | none => rw [hx] at h4; cases h4
    | some x =>
      rw [hx] at h4
      simp only [Option.map_some, Option.some.injEq] at h4
      obtain ⟨_, ty, hty, hp, hdec⟩ := hee.2 j x v hx (by rw [hH0]; exact hv)
      rw [h4] at hty hp hdec
      simp only at hty hp hdec
      have hn : v.nameIndex = n ∧ v.typeIndex = ti := by
        rw [hdec]; unfold decodeVar
        cases ty.format <;> simp only <;> first | exact ⟨trivial, trivial⟩ | (split <;> exact ⟨rfl, rfl⟩)
      refine ⟨hn.1, hn.2, ty, hty, ?_, ?_⟩
      · intro hf
        unfold PayloadOk at hp
        simp only [hf] at hp
        refine ⟨BitVec.ofInt 64 (signedOf payload), by rw [hdec]; simp only [decodeVar, hf], ?_⟩
        have hl : 0 < payload.length ∧ payload.length ≤ 8 := by
          rcases hp with ⟨hh | hh | hh | hh, h5⟩ <;> rw [hh] at h5 <;> rw [h5] <;> decide
        exact toInt_ofInt_signedOf hl.1 hl.2
      · intro hf
        unfold PayloadOk at hp
        simp only [hf] at hp
        refine ⟨BitVec.ofNat 64 (leNat payload), by rw [hdec]; simp only [decodeVar, hf], ?_⟩
        rw [BitVec.toNat_ofNat]
        apply Nat.mod_eq_of_lt
        have h5 := leNat_lt payload
        have h6 : 256 ^ payload.length ≤ 256 ^ 8 := Nat.pow_le_pow_right (by omega) (by omega)
        omega

/-- In the example: `-2` in four bytes and `65535` in two. -/
example : signedOf [254, 255, 255, 255] = -2 ∧ leNat [255, 255] = 65535 := by decide
example : (∃ w, (exTrace.points[0]?.bind (·.vars[0]?)).map (·.value) = some (.word w) ∧ w.toInt = -2) ∧
    (∃ w, (exTrace.points[1]?.bind (·.vars[1]?)).map (·.value) = some (.word w) ∧ w.toNat = 65535) :=
  ⟨⟨-2, by decide +kernel, by decide +kernel⟩, ⟨65535, by decide +kernel, by decide +kernel⟩⟩

/-- **C12, rejection.**  A variable of a signed type of any other size makes the
read fail with the trace error. -/
theorem C12_bad_signed_size_rejected (env : Env) (maxPoints : U64) (io : Bool) (names : List Name)
    (types : List TypeDesc) (ps : List (List Entry)) (p : List Entry) (n ti : U32) (ty : TypeDesc) (R : List U8)
    (hdr : HeaderOk names types) (hwf : ∀ q ∈ ps, ∀ e ∈ q, e.WF names types)
    (hwf' : ∀ e ∈ p, e.WF names types) (hty : types[ti.toNat]? = some ty) (hf : ty.format = .signed)
    (hsz : ¬ (ty.size = 1 ∨ ty.size = 2 ∨ ty.size = 4 ∨ ty.size = 8)) (hn : n.toNat < names.length)
    (hmax : maxPoints = 0 ∨ ps.length < maxPoints.toNat)
    (halloc : ∀ n, env.canAlloc n = true) (hstmt : ∀ q ∈ ps, (entryStmt q).isSome = true)
    (hres : ReservedOk (ps.flatMap entrySizes ++ entrySizes p)) :
    readTrace env maxPoints (gs io (encodeHeader names types ++ (encodePoints types ps ++
      (encodeEntries types p ++ 2 :: (leBytes 4 n.toNat ++ (leBytes 4 ti.toNat ++ R)))))) = .throw .trace := by
  have hall : ∀ q : List Entry, AllocsOk env types q := by
    intro q e _
    cases e with
    | var n t x => exact fun _ _ _ _ => halloc _
    | _ => trivial
  have hr2 : ReservedOk (ps.flatMap entrySizes) := hres.prefix (List.prefix_append _ _)
  have hfine : Fine env types [] ps :=
    ⟨fun q _ => hall q, by simpa using hr2, fun q hq => Or.inl (hstmt q hq)⟩
  rw [readTrace_header hdr ⟨fun _ => halloc _, fun _ => halloc _⟩]
  have hpl := encodePoints_length (types := types) ps
  obtain ⟨L, hL⟩ : ∃ L, L = 2 :: (leBytes 4 n.toNat ++ (leBytes 4 ti.toNat ++ R)) := ⟨_, rfl⟩
  rw [← hL]
  obtain ⟨f, hf'⟩ : ∃ f, (encodePoints types ps ++ (encodeEntries types p ++ L)).length + 3 =
      ps.length + (f + 1) :=
    ⟨(encodePoints types ps ++ (encodeEntries types p ++ L)).length + 2 - ps.length, by
      simp only [List.length_append]; omega⟩
  rw [hf', readPoints_points ps (f + 1) 0 [] [] _ (by rcases hmax with h | h; exact Or.inl h; right; omega) hwf hfine]
  have hw : Within maxPoints (0 + ps.length) := by
    rcases hmax with h | h
    · exact Or.inl h
    · right; omega
  rw [readPoints]
  simp only [gs_isGood, Bool.true_and, within_cond.mpr hw, if_true]
  have hf2 : ∃ f, entryFuel (gs io (encodeEntries types p ++ L)) = p.length + (f + 1) := by
    have h1 := encodeEntries_length (types := types) p
    refine ⟨entryFuel (gs io (encodeEntries types p ++ L)) - p.length - 1, ?_⟩
    simp only [entryFuel, List.length_append]
    omega
  obtain ⟨f, hf2⟩ := hf2
  rw [hf2, readEntries_entries p (f + 1) _ _ _ hwf' (hall p) (by simpa using hres)]
  rw [hL, readEntries, readTag (c := 2) rfl]
  simp only [Res.ok_bind, gs_isGood, Bool.not_true, Bool.false_or, beq_iff_eq, Nat.succ_ne_zero, if_false]
  unfold readVarInfo
  simp only [readUInt_le (u32_lt n), readUInt_le (u32_lt ti), Res.ok_bind, hty,
    if_neg (show ¬ n.toNat ≥ names.length by omega), hf, if_neg hsz]
  rfl

example : readTrace exEnv 0 (IStream.ofBytes (encodeHeader exNames [⟨0, .signed, 3⟩] ++ (encodePoints [] [] ++
    (encodeEntries [] [.stmt 4] ++ 2 :: (leBytes 4 1 ++ (leBytes 4 0 ++ [1, 2, 3, 0])))))) = .throw .trace := by
  decide +kernel

/-! ### C13 -/

/-- **C13**.  The `i`-th point of an accepted trace has counter `i`. -/
theorem C13_counters_consecutive (env : Env) (maxPoints : U64) (s : IStream) (t : Trace)
    (h : readTrace env maxPoints s = .ok t) (i : Nat) (pt : Point) (hi : t.points[i]? = some pt) :
    pt.counter = BitVec.ofNat 64 i := by
  by_cases hg : s.st = .good
  · rw [stream_eq hg] at h
    rcases readTrace_ok h with ⟨body, ps, p, left, _, _, _, h4, _, h6, _⟩ | ⟨h1, _⟩
    · rw [h6] at hi
      have := pointsOf_counter _ _ _ _ _ _ hi
      simpa using this
    · rw [h1] at hi; simp at hi
  · obtain ⟨e, h'⟩ := readTrace_notgood (env := env) (maxPoints := maxPoints) hg
    rw [h'] at h; cases h

example : exTrace.points[1]?.map (·.counter) = some 1 := by decide +kernel

/-! ### C14 -/

/-- **C14**.  In every accepted trace, the buffer size of a pointer variable is
the one that the allocation records preceding it determine: `H` are the records
of all earlier points and the earlier records of its own point, and
`LookupSpec H` is the plain specification of lookups.  No size is reported when
the specification answers "unknown". -/
theorem C14_buffer_sizes_follow_history (env : Env) (maxPoints : U64) (io : Bool) (names : List Name)
    (types : List TypeDesc) (body : List U8) (ps : List (List Entry)) (p : List Entry) (left : List U8)
    (hdr : HeaderOk names types) (hd : Decomposed names types body ps p left) (t : Trace)
    (h : readTrace env maxPoints (gs io (encodeHeader names types ++ body)) = .ok t)
    (i : Nat) (pt : Point) (hi : t.points[i]? = some pt) :
    ∃ es, ps[i]? = some es ∧
      pt.vars.length = (varEntries ((ps.take i).flatMap entrySizes) es).length ∧
      ∀ (j : Nat) (H : List BufferSize) (n ti : U32) (payload : List U8) (v : VarInfo), (varEntries ((ps.take i).flatMap entrySizes) es)[j]? = some (H, n, ti, payload) →
        pt.vars[j]? = some v → ∃ ty : TypeDesc, types[ti.toNat]? = some ty ∧
          (ty.format = .pointer → ∃ a r, v.value = .word a ∧ a = BitVec.ofNat 64 (leNat payload) ∧
            LookupSpec H a r ∧ (r = u64Max → v.hasBufferSize = false) ∧
            (r ≠ u64Max → v.hasBufferSize = true ∧ v.bufferSize = r)) ∧
          (ty.format ≠ .pointer → v.hasBufferSize = false) := by
  obtain ⟨_, _, rfl, _⟩ := readTrace_ok_of hdr hd h
  obtain ⟨es, h1, rfl⟩ := pointsOf_get _ _ _ _ _ _ hi
  have hlt : i < (kept maxPoints ps).length := (List.getElem?_eq_some_iff.mp h1).1
  have hps : ps[i]? = some es := by
    unfold kept at h1
    split at h1
    · exact h1
    · rw [List.getElem?_take] at h1
      split at h1
      · exact h1
      · cases h1
  have htake : (kept maxPoints ps).take i = ps.take i := by
    unfold kept at hlt ⊢
    split
    · rfl
    · rename_i h0
      rw [if_neg h0] at hlt
      rw [List.length_take] at hlt
      rw [List.take_take, Nat.min_eq_left (by omega)]
  have hes : ∀ e ∈ es, e.WF names types := hd.points es (List.mem_of_getElem? hps)
  have hee := entryVars_entries es ((ps.take i).flatMap entrySizes) hes
  refine ⟨es, hps, ?_, ?_⟩
  · show (entryVars types _ es).length = _
    rw [htake, List.nil_append, hee.1]
  · intro j H n ti payload v hj hv
    have hv' : (entryVars types ((ps.take i).flatMap entrySizes) es)[j]? = some v := by
      rw [← hv]
      show _ = (entryVars types _ es)[j]?
      rw [htake, List.nil_append]
    obtain ⟨_, ty, hty, hp, hdec⟩ := hee.2 j _ v hj hv'
    simp only at hty hp hdec
    refine ⟨ty, hty, ?_, ?_⟩
    · intro hf
      refine ⟨BitVec.ofNat 64 (leNat payload), lookupSize H (BitVec.ofNat 64 (leNat payload)), ?_, rfl,
        lookupSize_spec _ _, ?_, ?_⟩
      · rw [hdec]; simp only [decodeVar, hf]; split <;> rfl
      · intro hr
        rw [hdec]; simp only [decodeVar, hf, if_pos hr]
      · intro hr
        rw [hdec]; simp only [decodeVar, hf, if_neg hr]; exact ⟨trivial, trivial⟩
    · intro hf
      rw [hdec]; unfold decodeVar
      cases hff : ty.format <;> simp only
      exact absurd hff hf

/-- In the example the pointer is 11 bytes before the end of its buffer. -/
example : (exTrace.points[0]?.bind (·.vars[1]?)).map (fun v => (v.hasBufferSize, v.bufferSize)) = some (true, 11) ∧
    (varEntries [] exPoints.head!)[1]? =
      some ([⟨0x1000, 16⟩], 2, 1, [5, 16, 0, 0, 0, 0, 0, 0]) := by decide +kernel

/-! ### C17 -/

/-- **C17**.  The random tower heights of the memory map cannot be observed in
the result of a read, whatever the stream. -/
theorem C17_reading_ignores_randomness (env : Env) (coin : Nat → Nat → Bool) (maxPoints : U64) (s : IStream) :
    readTrace { env with coin := coin } maxPoints s = readTrace env maxPoints s :=
  readTrace_coin coin maxPoints s

example : readTrace { exEnv with coin := fun _ _ => false } 0 (IStream.ofBytes exBytes) = .ok exTrace := by
  rw [C17_reading_ignores_randomness]; decide +kernel

end TraceDB
