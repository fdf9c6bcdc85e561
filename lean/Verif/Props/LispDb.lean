import Verif.Proofs.LispDb
import Verif.Props.Query
import Verif.Props.Database
/-
C48, C49, C50: statement ids, files and metadata on the Lisp side.
-/
namespace TraceDB

/-! C48 -/

/-- Packing and unpacking gives back file and statement. -/
theorem C48_round_trip (f a : Nat) (hf : f < 2 ^ 23) (ha : a < 2 ^ 40) :
    packId (some f) a < 2 ^ 64 ∧
    unpackF (BitVec.ofNat 64 (packId (some f) a)) = some f ∧
    unpackC (BitVec.ofNat 64 (packId (some f) a)) = a := by
  rw [packId_some hf ha, unpackF_eq, unpackC_eq, BitVec.toNat_ofNat, Nat.mod_eq_of_lt (by omega)]
  refine ⟨by omega, ?_, ?_⟩
  · rw [if_pos (by omega)]
    congr 1
    omega
  · rw [if_pos (by omega)]
    omega

/-- The id of an AST of a single file unpacks to itself, without file. -/
theorem C48_without_file (a : Nat) (ha : a < 2 ^ 63) :
    unpackF (BitVec.ofNat 64 (packId none a)) = none ∧ unpackC (BitVec.ofNat 64 (packId none a)) = a := by
  rw [show packId none a = a from rfl, unpackF_eq, unpackC_eq, BitVec.toNat_ofNat, Nat.mod_eq_of_lt (by omega)]
  exact ⟨if_neg (by omega), if_neg (by omega)⟩

/-- Different ASTs have different ids. -/
theorem C48_injective (f g : Option Nat) (a b : Nat) (hf : ∀ x, f = some x → x < 2 ^ 23)
    (hg : ∀ x, g = some x → x < 2 ^ 23) (ha : a < 2 ^ 40) (hb : b < 2 ^ 40)
    (h : packId f a = packId g b) : f = g ∧ a = b := by
  have key : ∀ (f : Option Nat) (a : Nat), (∀ x, f = some x → x < 2 ^ 23) → a < 2 ^ 40 →
      unpackF (BitVec.ofNat 64 (packId f a)) = f ∧ unpackC (BitVec.ofNat 64 (packId f a)) = a := by
    intro f a hf ha
    cases f with
    | none => exact C48_without_file a (by omega)
    | some f => exact (C48_round_trip f a (hf f rfl) ha).2
  obtain ⟨h1, h2⟩ := key f a hf ha
  obtain ⟨h3, h4⟩ := key g b hg hb
  rw [h] at h1 h2
  exact ⟨h1.symm.trans h3, h2.symm.trans h4⟩

/-- The bounds cannot be dropped: an AST index that is too large runs into the next
file, and file 2^23 is taken for file 0. -/
theorem C48_bounds_needed :
    packId (some 0) (2 ^ 40) = packId (some 1) 0 ∧
    (∀ a, packId (some (2 ^ 23)) a = packId (some 0) a) ∧
    unpackF (BitVec.ofNat 64 (packId none (2 ^ 63))) = some 0 := by
  refine ⟨by decide +kernel, fun a => ?_, by decide +kernel⟩
  have h : (1 <<< 63 ||| (2 ^ 23) <<< 40 : Nat) = (1 <<< 63 ||| 0 <<< 40) := by decide +kernel
  exact congrArg (· ||| a) h

example : packId (some 5) 77 = 0x8000050000000000 + 77 ∧ (5 < 2 ^ 23) ∧ 77 < 2 ^ 40 := by decide +kernel

/-! C49 -/

/-- What a query with a file looks at: the file bits, with or without flag. -/
theorem C49_selected (f : Nat) (hf : f < 2 ^ 23) :
    ∃ mask stmt, fileArgs (some f) = .ok (mask, stmt) ∧
      ∀ s : U64, (s &&& mask = stmt) ↔ s.toNat / 2 ^ 40 % 2 ^ 23 = f := by
  exact ⟨_, _, fileArgs_some hf, fun s => mask_iff s f hf⟩

/-- A query for a file is the query without file on the points of that file, the
same ones that `get-trace` returns for it: if all points carry a file id, or the file
is not file 0 and the ids without file are below 2^40. -/
theorem C49_points_of_file {σ : Type} (env : Env) (pick : U32 → Nat → Nat) (ev : Evaluator σ) (t : Trace)
    (q : LQuery) (f : Nat) (s : σ) (hf : f < 2 ^ 23) (hq : q.file = some f)
    (hids : ∀ p ∈ t.points, (unpackF p.statement).isSome ∨ (0 < f ∧ p.statement.toNat < 2 ^ 40)) :
    (lispQuery env pick ev t q [] s >>= fun r => .ok (r.1, r.2.2)) =
      (lispQuery env pick ev { t with points := t.points.filter fun p => decide (unpackF p.statement = some f) }
        { q with file := none } [] s >>= fun r => .ok (r.1, r.2.2)) ∧
    ∀ all, lispGetTrace t none = .ok all →
      lispGetTrace t (some f) =
        lispGetTrace { t with points := t.points.filter fun p => decide (unpackF p.statement = some f) } none := by
  obtain ⟨mask, stmt, ha, hm⟩ := C49_selected f hf
  have hpass : ∀ p ∈ t.points, (p.statement &&& mask = stmt) ↔ unpackF p.statement = some f := by
    intro p hp
    rw [hm, unpackF_eq]
    rcases hids p hp with h | ⟨h0, h⟩
    · rw [unpackF_eq] at h
      split at h
      · rename_i hflag
        rw [if_pos hflag, Option.some.injEq]
      · cases h
    · rw [if_neg (by omega)]
      constructor
      · intro he
        omega
      · intro he; cases he
  have hfilter : (t.points.filter fun p => decide (p.statement &&& mask = stmt)) =
      t.points.filter fun p => decide (unpackF p.statement = some f) := by
    apply List.filter_congr
    intro p hp
    rw [decide_eq_decide]
    exact hpass p hp
  constructor
  · generalize (t.points.filter fun p => decide (unpackF p.statement = some f)) = ps' at hfilter ⊢
    simp only [lispQuery, hq, ha, show fileArgs none = .ok (0, 0) from rfl, Res.bind_assoc, Res.ok_bind]
    rw [show getTypes { t with points := ps' } = getTypes t from rfl]
    refine congrArg (fun k => getTypes t >>= k) (funext fun types => ?_)
    refine congrArg (fun k => freeVars types q.varTypes >>= k) (funext fun fvs => ?_)
    have h24 := C24_statement_filter env pick ev t ⟨fvs, q.hard, q.soft, q.seed, mask, stmt⟩ s
    simp only [] at h24
    rw [hfilter] at h24
    simp only [queryTrace, Res.bind_assoc, Res.pure_eq, Res.ok_bind, lispPoints_with]
    revert h24
    generalize query env pick ev t ⟨fvs, q.hard, q.soft, q.seed, mask, stmt⟩ [] s = x
    generalize query env pick ev _ ⟨fvs, q.hard, q.soft, q.seed, 0, 0⟩ [] s = y
    intro h24
    cases x with
    | ok a =>
      cases y with
      | ok b =>
        obtain ⟨a1, a2, a3⟩ := a
        obtain ⟨b1, b2, b3⟩ := b
        simp only [Res.ok_bind, Res.ok.injEq, Prod.mk.injEq] at h24
        obtain ⟨rfl, rfl⟩ := h24
        simp only [Res.ok_bind]
        cases lispPoints t (if q.filter.isSome then a1 else deduplicate a1) <;> cases q.filter <;> rfl
      | throw e => cases h24
      | abort => cases h24
      | ub k => cases h24
      | hang => cases h24
    | throw e => cases y <;> first | cases h24; done | (cases h24; rfl)
    | abort => cases y <;> first | rfl | cases h24
    | ub k => cases y <;> first | cases h24; done | (cases h24; rfl)
    | hang => cases y <;> first | rfl | cases h24
  · intro all hall
    simp only [lispGetTrace] at hall ⊢
    obtain ⟨ps, hps, h⟩ := Res.bind_eq_ok.mp hall
    rw [hps, lispPoints_with, lispPoints_filter (g' := fun l => l.f == some f) (fun p l hl => by
      rw [(lispPoint_f hl).1]
      rw [Bool.eq_iff_iff]
      simp) hps]
    rfl

/-- With file 0 a query also finds points without file information, which
`get-trace` does not return. -/
theorem C49_file_zero (s : U64) (hs : s.toNat < 2 ^ 40) (t : Trace) (p : Point) (hp : p.statement = s) :
    unpackF s = none ∧
    (∃ mask stmt, fileArgs (some 0) = .ok (mask, stmt) ∧ filterPoints [p] mask stmt = [p]) ∧
    ∀ l, lispPoint t p = .ok l → ofFile (some 0) [l] = [] := by
  have hn : unpackF s = none := by rw [unpackF_eq, if_neg (by omega)]
  refine ⟨hn, ?_, fun l hl => ?_⟩
  · obtain ⟨mask, stmt, ha, hm⟩ := C49_selected 0 (by decide)
    refine ⟨mask, stmt, ha, ?_⟩
    have : p.statement &&& mask = stmt := by
      rw [hp]
      exact (hm s).mpr (by omega)
    simp [filterPoints, this]
  · simp [ofFile, (lispPoint_f hl).1, hp, hn]

/-- Two points of files 3 and 0 and one without file. -/
def fTrace : Trace :=
  ⟨[[120], [105]], [⟨1, .unsigned, 8⟩],
   [⟨0, BitVec.ofNat 64 (packId (some 3) 12), [], [qVar 0 0 1], []⟩,
    ⟨1, BitVec.ofNat 64 (packId (some 0) 13), [], [qVar 0 0 2], []⟩,
    ⟨2, BitVec.ofNat 64 (packId none 14), [], [qVar 0 0 3], []⟩]⟩

/-- The hypotheses hold for file 3 (but not for file 0), and something is selected. -/
example : (∀ p ∈ fTrace.points, (unpackF p.statement).isSome ∨ (0 < 3 ∧ p.statement.toNat < 2 ^ 40)) ∧
    (lispQuery qEnv (fun _ _ => 0) (plainEval exFloats) fTrace ⟨[[[105]]], .nullPred, [], 0, some 3, none⟩ [] () >>=
      fun r => .ok r.1) = .ok [⟨12, some 3, [⟨[120], [105], .int 1, none⟩], []⟩] ∧
    (lispGetTrace fTrace none).isOk = true := by
  refine ⟨by decide +kernel, by decide +kernel, by decide +kernel⟩

/-- For file 0 the query finds two points, `get-trace` one. -/
example : (lispQuery qEnv (fun _ _ => 0) (plainEval exFloats) fTrace ⟨[[[105]]], .nullPred, [], 0, some 0, none⟩ [] () >>=
      fun r => .ok (r.1.map LPoint.c)) = .ok [13, 14] ∧
    (lispGetTrace fTrace (some 0) >>= fun r => .ok (r.map LPoint.c)) = .ok [13] := by
  refine ⟨by decide +kernel, by decide +kernel⟩

/-! C50 -/

/-- When all traces come from files: trace `i` has the metadata it was added with. -/
theorem C50_files {μ : Type} (grow : Nat → Nat) (env : Env) (as : List (LispAdd μ)) (d : LispDb μ)
    (h : LispDb.empty.addAll grow env as = .ok d) (hfiles : ∀ a ∈ as, a.isFile = true)
    (hcount : d.db.traces.length < 2 ^ 32) :
    d.db.traces.length = (storedWith env as).length ∧
    ∀ (i : Nat) (t : Trace) (m : μ), (storedWith env as)[i]? = some (t, m) →
      d.db.traces[i]? = some t ∧ d.metadataAt i = .ok m := by
  obtain ⟨h1, h2⟩ := LispDb.addAll_spec h
  have e1 : (as.filter fun a => !a.isFile) = [] := by
    rw [List.filter_eq_nil_iff]
    intro a ha
    simp [hfiles a ha]
  have e2 : (as.filter fun a => a.isFile) = as := by
    rw [List.filter_eq_self]
    exact hfiles
  rw [e1, e2] at h2
  simp only [LispDb.empty, Db.create, List.nil_append, List.map_nil, List.reverse_nil, List.append_nil] at h1 h2
  have hlen : d.db.traces.length = (storedWith env as).length := by rw [h1, List.length_map]
  refine ⟨hlen, fun i t m hi => ⟨?_, ?_⟩⟩
  · rw [h1, List.getElem?_map, hi]; rfl
  · have hlt : i < (storedWith env as).length := by
      rcases Nat.lt_or_ge i (storedWith env as).length with hlt | hge
      · exact hlt
      · rw [List.getElem?_eq_none hge] at hi; cases hi
    unfold LispDb.metadataAt nTracesApi
    rw [if_pos (by rw [BitVec.toNat_ofNat, Nat.mod_eq_of_lt hcount, hlen]; exact hlt), h2, List.getElem?_map, hi]
    rfl

/-- With points the metadata is in another order: first that of all added points,
newest first, then that of the files. -/
theorem C50_points_reorder {μ : Type} (grow : Nat → Nat) (env : Env) (as : List (LispAdd μ)) (d : LispDb μ)
    (h : LispDb.empty.addAll grow env as = .ok d) :
    d.db.traces = (storedWith env as).map (·.1) ∧
    d.metadata = ((as.filter fun a => !a.isFile).map LispAdd.meta).reverse ++
      (storedWith env (as.filter fun a => a.isFile)).map (·.2) := by
  obtain ⟨h1, h2⟩ := LispDb.addAll_spec h
  simpa [LispDb.empty, Db.create] using And.intro h1 h2

/-- So after any earlier history, adding points gives their metadata to trace 0, and
trace 0 itself stays what it was. -/
theorem C50_points_steal {μ : Type} (grow : Nat → Nat) (env : Env) (as : List (LispAdd μ)) (d d' : LispDb μ)
    (ps : List InPoint) (names : List Name) (m : μ) (t : Trace)
    (h : LispDb.empty.addAll grow env as = .ok d) (ht : d.db.traces[0]? = some t)
    (h' : d.add grow env (.points ps names m) = .ok d') (hcount : d'.db.traces.length < 2 ^ 32) :
    d'.db.traces[0]? = some t ∧ d'.metadataAt 0 = .ok m := by
  obtain ⟨h1, h2, _⟩ := LispDb.add_spec h'
  have hpos : 0 < d.db.traces.length := by
    rcases Nat.eq_zero_or_pos d.db.traces.length with h0 | h0
    · rw [List.getElem?_eq_none (by omega)] at ht; cases ht
    · exact h0
  constructor
  · rw [h1, List.getElem?_append_left hpos, ht]
  · simp only [LispAdd.isFile, Bool.false_eq_true, if_false, LispAdd.meta] at h2
    unfold LispDb.metadataAt nTracesApi
    rw [if_pos (by
      rw [BitVec.toNat_ofNat, Nat.mod_eq_of_lt hcount, h1, List.length_append]
      omega), h2]
    rfl

/-- In the list-based database trace and metadata always belong together; the newest
trace has index 0. -/
theorem C50_list_based {μ : Type} (as : List (SexpAdd μ)) (i : Nat) (file : Option Nat) :
    (as.foldl SexpDb.add ⟨[], []⟩).getTrace i file =
      match (as.filterMap SexpAdd.stores).reverse[i]? with
      | some (ps, m) => (some (ofFile file ps), some m)
      | none => (none, none) := by
  obtain ⟨h1, h2⟩ := sexp_addAll as ⟨[], []⟩
  unfold SexpDb.getTrace
  rw [h1, h2, List.append_nil, List.append_nil, ← List.map_reverse, ← List.map_reverse, List.getElem?_map,
    List.getElem?_map]
  cases (as.filterMap SexpAdd.stores).reverse[i]? <;> rfl

/-- Two files with metadata 1 and 2 (and one that cannot be read), then points with
metadata 3. -/
def mAdds : List (LispAdd Nat) :=
  [.trace (some (IStream.ofBytes exBytes)) 0 1, .trace (some (IStream.ofBytes [1, 2, 3])) 0 9,
   .trace (some (IStream.ofBytes exBytes)) 0 2]

example : (∀ a ∈ mAdds, a.isFile = true) ∧ (storedWith qEnv mAdds).map (·.2) = [1, 2] ∧
    (LispDb.empty.addAll (2 * ·) qEnv mAdds >>= fun d => .ok (d.db.traces.length, d.metadata)) = .ok (2, [1, 2]) ∧
    (LispDb.empty.addAll (2 * ·) qEnv (mAdds ++ [.points dPoints [] 3]) >>= fun d =>
      .ok (d.db.traces.length, d.metadata)) = .ok (3, [3, 1, 2]) := by
  refine ⟨by decide, by decide +kernel, by decide +kernel, by decide +kernel⟩

example : ([SexpAdd.points [⟨1, none, [], []⟩] 1, .trace [] 9, .trace [⟨2, none, [], []⟩] 2].foldl SexpDb.add
    (⟨[], []⟩ : SexpDb Nat)).getTrace 1 none = (some [⟨1, none, [], []⟩], some 1) := by decide

end TraceDB
