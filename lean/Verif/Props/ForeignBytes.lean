import Verif.Proofs.ForeignNames
import Verif.Proofs.ForeignCalls
import Verif.Proofs.Archive
/-
Properties of the interface between Lisp and C++, byte by byte: C108.
-/
namespace TraceDB

/-! Example data. -/

/-- The first address above all blocks. -/
def topOf (bs : List (Nat × Nat)) : Nat := bs.foldl (fun a b => max a (b.1 + b.2)) 4096

/-- Memory is given out upwards. -/
def upwards : Placing := fun bs n => if topOf bs + n < 2 ^ 64 then some (topOf bs) else none

theorem topOf_above (bs : List (Nat × Nat)) : 4096 ≤ topOf bs ∧ ∀ b ∈ bs, b.1 + b.2 ≤ topOf bs := by
  have h : ∀ (bs : List (Nat × Nat)) (k : Nat), k ≤ bs.foldl (fun a b => max a (b.1 + b.2)) k ∧
      ∀ b ∈ bs, b.1 + b.2 ≤ bs.foldl (fun a b => max a (b.1 + b.2)) k := by
    intro bs
    induction bs with
    | nil => simp
    | cons c cs ih =>
      intro k
      obtain ⟨h1, h2⟩ := ih (max k (c.1 + c.2))
      refine ⟨by rw [List.foldl_cons]; omega, fun b hb => ?_⟩
      rw [List.foldl_cons]
      rcases List.mem_cons.mp hb with rfl | hb
      · omega
      · exact h2 b hb
  exact h bs 4096

theorem upwards_sound : upwards.Sound := by
  intro bs n a h
  unfold upwards at h
  split at h
  · cases h
    obtain ⟨h1, h2⟩ := topOf_above bs
    refine ⟨by omega, by assumption, fun x hx ⟨b, hb, hr⟩ => ?_⟩
    have := h2 b hb
    unfold InRange at hx hr
    omega
  · cases h

/-- A trace with two names, two types and two points: an `int` variable `i` with buffer
size, a blob `b` of three bytes and two auxiliary values; and no variables. -/
def fbTrace : Trace :=
  ⟨[[105], [98, 98]], [⟨0, .signed, 4⟩, ⟨1, .blob, 3⟩],
    [⟨0, 9223373136366403591, [], [⟨.word (-3), 0, 0, .signed, 4, 9, true⟩, ⟨.blob [1, 0, 255], 1, 1, .blob, 3, 0, false⟩], [5, 6]⟩,
      ⟨1, 8, [], [], []⟩]⟩
/-- Where it keeps its names and its blob. -/
def fbPlace : TraceAt := ⟨fun _ => 64, fun i => if i = 0 then 80 else 90⟩
/-- Memory with these in it. -/
def fbState : FState :=
  ⟨BMem.put (BMem.put (BMem.put (fun _ => 170) 64 [1, 0, 255]) 80 [105, 0]) 90 [98, 98, 0], [(64, 3), (80, 2), (90, 3)]⟩

theorem fbPlace_kept : fbPlace.Kept fbTrace fbTrace.points fbState := by
  have h1 : fbState.Keeps 64 [1, 0, 255] := ⟨by decide, by decide, fun x hx => ⟨(64, 3), by decide, hx⟩, by decide +kernel⟩
  have h2 : fbState.Keeps 80 [105, 0] := ⟨by decide, by decide, fun x hx => ⟨(80, 2), by decide, hx⟩, by decide +kernel⟩
  have h3 : fbState.Keeps 90 [98, 98, 0] := ⟨by decide, by decide, fun x hx => ⟨(90, 3), by decide, hx⟩, by decide +kernel⟩
  constructor
  · intro i n hi
    match i with
    | 0 => cases hi; exact h2
    | 1 => cases hi; exact h3
    | i + 2 => cases hi
  · intro p hp v hv bs hb
    simp only [fbTrace, List.mem_cons, List.not_mem_nil, or_false] at hp
    rcases hp with rfl | rfl
    · simp only [List.mem_cons, List.not_mem_nil, or_false] at hv
      rcases hv with rfl | rfl
      · cases hb
      · cases hb; exact h1
    · cases hv

theorem fbTrace_fits : FitForeign fbTrace fbTrace.points := by
  refine ⟨by decide, by decide, by decide, by decide, by decide, ?_⟩
  intro p hp v hv
  simp only [fbTrace, List.mem_cons, List.not_mem_nil, or_false] at hp
  rcases hp with rfl | rfl
  · simp only [List.mem_cons, List.not_mem_nil, or_false] at hv
    rcases hv with rfl | rfl <;> simp [VarInfo.Sized]
  · cases hv

/-! C108 -/

/-- Structures laid out by C and by CFFI: for all lists of members with the same sizes and
alignments every member is at the same offset, and the structures have the same size. -/
theorem C108_layout_rules (ms : List (Member × Nat × Nat)) (h : ∀ m ∈ ms, 0 < m.2.2) (off : Nat) :
    cLayout off ms = cffiLayout off ms ∧ cSizeof ms = cffiSizeof ms :=
  ⟨cLayout_eq_cffi ms off h, cSizeof_eq_cffi ms h⟩

/-- The four structures that both sides declare: the same members at the same offsets, none
overlapping another, with the same size.  The array of points is allocated with the right
size although it is computed from the other structure. -/
theorem C108_structures :
    (∀ s ∈ [(cVarInfo, lispVarInfo), (cTracePoint, lispTracePoint), (cPredicate, lispPredicate), (cFreeVariable, lispFreeVariable)],
      cLayout 0 s.1 = cffiLayout 0 s.2 ∧ cSizeof s.1 = cffiSizeof s.2 ∧
      (cLayout 0 s.1).Pairwise (fun x y => x.2.1 + x.2.2 ≤ y.2.1 ∧ x.1 ≠ y.1) ∧
      ∀ x ∈ cLayout 0 s.1, x.2.1 + x.2.2 ≤ cSizeof s.1) ∧
    cSizeof cVarInfo = cSizeof cTracePoint := by
  decide

/-- The offsets. -/
example : (∀ m ∈ cVarInfo, 0 < m.2.2) ∧ cLayout 0 cVarInfo = [(.value, 0, 8), (.format, 8, 4), (.varNameIndex, 12, 4), (.typeNameIndex, 16, 4), (.size, 20, 4),
      (.bufferSize, 24, 8), (.hasBufferSize, 32, 1)] ∧ cSizeof cVarInfo = 40 ∧
    cLayout 0 cPredicate = [(.kind, 0, 4), (.nChildren, 8, 8), (.varIndex, 16, 8), (.unsignedValue, 24, 8), (.signedValue, 32, 8),
      (.floatValue, 40, 8), (.children, 48, 8)] ∧ cSizeof cPredicate = 56 := by
  decide

/-- A call from Lisp: whatever is in the unused bytes of the registers, the C function finds
exactly the arguments given; for `add_trace`, whose declarations differ, if none is
negative. -/
theorem C108_arguments (f : CFun) (vs : List Int) (junk slots : List U64) (h : lispCall f.imported.2 vs junk = some slots)
    (hpos : f = .addTrace → ∀ v ∈ vs, 0 ≤ v) : cParams f.declared.2 slots = some vs :=
  cParams_ok _ _ _ vs junk slots (call_agrees f) (fun hf => hpos (of_decide_eq_true hf)) h

/-- Calls are refused by CFFI exactly if the number of arguments is wrong or one is out of
range; all other calls reach C. -/
theorem C108_calls_taken (f : CFun) (vs : List Int) (junk : List U64) :
    (∃ slots, lispCall f.imported.2 vs junk = some slots) ↔
      vs.length = f.declared.2.length ∧ ∀ x ∈ f.imported.2.zip vs, x.1.takes x.2 = true := by
  have hl : f.declared.2.length = f.imported.2.length := by cases f <;> rfl
  rw [hl, ← lispCall_some f.imported.2 vs junk, Option.isSome_iff_exists]

/-- A negative timeout of `add_trace` would be taken for a large one, which is why Lisp
checks it before. -/
theorem C108_negative_timeout (db file points : U64) (timeout : Int) (junk : List U64) (h1 : -2 ^ 31 ≤ timeout) (h2 : timeout < 0) :
    ∃ slots, lispCall CFun.addTrace.imported.2 [db.toNat, file.toNat, timeout, points.toNat] junk = some slots ∧
      cParams CFun.addTrace.declared.2 slots = some [(db.toNat : Int), file.toNat, timeout + 2 ^ 32, points.toNat] := by
  have ht : FTy.int.takes timeout = true := by
    unfold FTy.takes
    rw [Bool.and_eq_true]
    exact ⟨decide_eq_true h1, decide_eq_true (by omega)⟩
  have hw : ∀ (u : U64) (ty : FTy), (ty = .pointer ∨ ty = .string ∨ ty = .uint64) → ty.takes u.toNat = true := by
    intro u ty hty
    have := u.isLt
    rcases hty with rfl | rfl | rfl <;>
      (unfold FTy.takes; rw [Bool.and_eq_true]; exact ⟨decide_eq_true (by omega), decide_eq_true (by simp only [FTy.bytes]; omega)⟩)
  have hs : ∀ (u j : U64), takeSlot 8 false (putSlot 8 (u.toNat : Int) j) = u.toNat := by
    intro u j
    have := u.isLt
    exact takeSlot_put_unsigned (n := 8) (by decide) (by omega) (by omega) j
  refine ⟨[putSlot 8 (db.toNat : Int) (junk.headD 0), putSlot 8 (file.toNat : Int) (junk.tail.headD 0),
    putSlot 4 timeout (junk.tail.tail.headD 0), putSlot 8 (points.toNat : Int) (junk.tail.tail.tail.headD 0)], ?_, ?_⟩
  · simp only [CFun.imported, lispCall, hw db .pointer (.inl rfl), hw file .string (.inr (.inl rfl)), ht,
      hw points .uint64 (.inr (.inr rfl)), if_true, Option.map_some]
    rfl
  · simp only [CFun.declared, cParams, FTy.bytes, CTy.bytes, CTy.signed, hs, Option.map_some, Option.some.injEq, List.cons.injEq,
      true_and, and_true]
    unfold takeSlot
    simp only [putSlot_mod (.inr (.inl rfl)), Bool.false_and]
    rw [if_neg (by simp)]
    omega

/-- The result of a C function: Lisp takes exactly the value returned, and expects one if
and only if there is one. -/
theorem C108_results (f : CFun) :
    (f.declared.1 = none ∧ f.imported.1 = none) ∨
    ∃ c t, f.declared.1 = some c ∧ f.imported.1 = some t ∧
      ∀ (v : Int) (junk : U64), c.has v = true → lispResult c t v junk = v := by
  rcases result_agrees f with h | ⟨c, t, h1, h2, h3, h4, h5⟩
  · exact .inl h
  · exact .inr ⟨c, t, h1, h2, fun v junk hv => slot_result h3 h4 h5 hv junk⟩

/-- A call of `query_trace` with junk in the registers, and one of `add_trace` with a timeout
of -1. -/
example : lispCall CFun.queryTrace.imported.2 [4096, 1, 5000, 2, 0, 6000, 0, 77, 1, 0, 0, 7000, 8000] (List.replicate 13 (-1)) =
      some [4096, 1, 5000, 18446744069414584322, 0, 6000, 18446744069414584320, 18446744069414584397, 18446744073709551361, 0, 0, 7000, 8000] ∧
    cParams CFun.queryTrace.declared.2
      [4096, 1, 5000, 18446744069414584322, 0, 6000, 18446744069414584320, 18446744069414584397, 18446744073709551361, 0, 0, 7000, 8000] =
      some [4096, 1, 5000, 2, 0, 6000, 0, 77, 1, 0, 0, 7000, 8000] ∧
    lispCall CFun.queryTrace.imported.2 [4096, 2 ^ 64, 5000, 2, 0, 6000, 0, 77, 1, 0, 0, 7000, 8000] [] = none ∧
    ((lispCall CFun.addTrace.imported.2 [1, 2, -1, 3] []).bind (cParams CFun.addTrace.declared.2)) = some [1, 2, 2 ^ 32 - 1, 3] ∧
    CTy.uint32.has 77 = true ∧ lispResult .uint32 .uint32 77 (-1) = 77 := by
  decide +kernel

/-- Points written by C as bytes and read by Lisp, for every trace and every way memory is
given out: unless an allocation fails, Lisp gets exactly the points of the trace, and no byte
that was in use before has changed. -/
theorem C108_points (pl : Placing) (hpl : pl.Sound) (place : TraceAt) (t : Trace) (points : List Point) (s : FState)
    (hk : place.Kept t points s) (hf : FitForeign t points) (l : List LPoint) (hl : lispPoints t points = .ok l) :
    lispPointsB pl place t points s = .ub .nullDeref ∨
    ∃ s', lispPointsB pl place t points s = .ok (l, s') ∧ OnlyNew s s' :=
  lispPointsB_ok hpl hk hf hl

/-- `get-trace` byte by byte. -/
theorem C108_get_trace (pl : Placing) (hpl : pl.Sound) (place : TraceAt) (t : Trace) (file : Option Nat) (s : FState)
    (hk : place.Kept t t.points s) (hf : FitForeign t t.points) (l : List LPoint) (hl : lispGetTrace t file = .ok l) :
    lispGetTraceB pl place t file s = .ub .nullDeref ∨
    ∃ s', lispGetTraceB pl place t file s = .ok (l, s') ∧ OnlyNew s s' := by
  unfold lispGetTrace at hl
  unfold lispGetTraceB
  cases hp : lispPoints t t.points with
  | ok ps =>
    rw [hp, Res.ok_bind] at hl
    have hl' : ofFile file ps = l := by cases hl; rfl
    rcases lispPointsB_ok hpl hk hf hp with e | ⟨s', e, n⟩
    · left; rw [e]; rfl
    · right
      rw [e]
      exact ⟨s', by rw [← hl']; rfl, n⟩
  | throw e => rw [hp] at hl; cases hl
  | abort => rw [hp] at hl; cases hl
  | ub k => rw [hp] at hl; cases hl
  | hang => rw [hp] at hl; cases hl

/-- The types of a trace, byte by byte. -/
theorem C108_types (pl : Placing) (hpl : pl.Sound) (place : TraceAt) (t : Trace) (s : FState)
    (hk : place.Kept t t.points s) (hf : FitForeign t t.points) (l : List (List U8)) (hl : getTypes t = .ok l) :
    lispTypesB pl place t s = .ub .nullDeref ∨ ∃ s', lispTypesB pl place t s = .ok (l, s') ∧ OnlyNew s s' :=
  lispTypesB_ok hpl hk hf.types hl

/-- For the example, and with memory given out upwards, nothing fails: both points and the
types arrive. -/
example : upwards.Sound ∧ fbPlace.Kept fbTrace fbTrace.points fbState ∧ FitForeign fbTrace fbTrace.points ∧
    (lispGetTraceB upwards fbPlace fbTrace none fbState >>= fun r => .ok r.1) =
      .ok [⟨7, some 1, [⟨[105], [105], .int (-3), some 9⟩, ⟨[98, 98], [98, 98], .blob [1, 0, 255], none⟩], [5, 6]⟩, ⟨8, none, [], []⟩] ∧
    (lispTypesB upwards fbPlace fbTrace fbState >>= fun r => .ok r.1) = .ok [[105], [98, 98]] := by
  exact ⟨upwards_sound, fbPlace_kept, fbTrace_fits, by decide +kernel, by decide +kernel⟩

end TraceDB
