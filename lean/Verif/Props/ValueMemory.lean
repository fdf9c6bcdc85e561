import Verif.Proofs.ValueMemory
import Verif.Props.Query
/-
C78: the numbers that are computed for predicates.
-/
namespace TraceDB

theorem PvFollows.total {fs : FloatSys} {m : PvMem fs} {p : Res Bool} {q : Res (Bool × PvMem fs)}
    (h : PvFollows False (PvDecided m) p q) : ∃ m', q = (p >>= fun b => .ok (b, m')) ∧ m.SameHeap m' := by
  rcases h with ⟨_, h⟩ | ⟨a, b, rfl, rfl, h1, h2⟩ | ⟨e, rfl, rfl⟩ | ⟨rfl, rfl⟩ | ⟨k, rfl, rfl⟩ | ⟨rfl, rfl⟩
  · exact h.elim
  · obtain ⟨b, m'⟩ := b
    cases h1
    exact ⟨m', rfl, h2⟩
  all_goals exact ⟨m, rfl, fun _ => rfl⟩

/-- **C78.**  If the compiler omits the copies of returned values, or no part of the
predicate has a missing value: deciding a predicate with heap objects has the outcome it
has with values, and afterwards the heap holds what it held before.  Each number that was
allocated has been deleted once, and no pointer was used wrongly. -/
theorem C78_values (fs : FloatSys) (elide : Nat → Nat) (vs : List VarInfo) (p : Pred) (m : PvMem fs)
    (h : (∀ n, elide n = 0) ∨ NeverMissing fs vs p) :
    ∃ m', satisfiedMem elide fs vs p m = (predicateSatisfied fs vs p >>= fun b => .ok (b, m')) ∧ m.SameHeap m' := by
  refine (satisfiedMem_follows elide vs p m ?_).total
  intro q hq hv ⟨n, hn⟩
  rcases h with h | h
  · exact hn (h n)
  · exact h q hq hv

/-- In any case the outcome is that of values or a null pointer is followed. -/
theorem C78_outcomes (fs : FloatSys) (elide : Nat → Nat) (vs : List VarInfo) (p : Pred) (m : PvMem fs) :
    satisfiedMem elide fs vs p m = .ub .nullDeref ∨
    ∃ m', satisfiedMem elide fs vs p m = (predicateSatisfied fs vs p >>= fun b => .ok (b, m')) ∧ m.SameHeap m' := by
  rcases satisfiedMem_follows (B := True) elide vs p m fun _ _ _ _ => trivial with ⟨h, _⟩ | h
  · exact .inl h
  · exact .inr (PvFollows.total (.inr h))

/-- A compiler that makes the copies, as C++11 allows: each comparison with a missing
value, which should be false, follows a null pointer. -/
theorem C78_copied (fs : FloatSys) (elide : Nat → Nat) (he : ∀ n, elide n ≠ 0) (vs : List VarInfo) (k : PKind)
    (hk : k.Compares) (d : U64) (a b : Pred) (x y : PVal fs) (ha : evaluate fs vs a = .ok x)
    (hb : evaluate fs vs b = .ok y) (hm : x = .invalid ∨ y = .invalid) (m : PvMem fs) :
    predicateSatisfied fs vs (.node k d [a, b]) = .ok false ∧
    satisfiedMem elide fs vs (.node k d [a, b]) m = .ub .nullDeref := by
  have h1 : ∀ (opI : Int → Int → Bool) (opF : fs.F → fs.F → Bool), evalCompare fs vs opI opF [a, b] = .ok false := by
    intro opI opF
    simp only [evalCompare, ha, hb, Res.ok_bind, Res.pure_eq]
    rcases hm with rfl | rfl
    · cases y <;> rfl
    · cases x <;> rfl
  have h2 : ∀ (opI : Int → Int → Bool) (opF : fs.F → fs.F → Bool),
      evalCompareMem elide fs vs opI opF [a, b] m = .ub .nullDeref := by
    intro opI opF
    simp only [evalCompareMem]
    rcases hm with rfl | rfl
    · rw [evaluateMem_null he vs a m ha]; rfl
    · rcases evaluateMem_follows (B := True) elide vs a m (fun _ _ _ _ => trivial) with
        ⟨h, _⟩ | ⟨x', r, h, h', _⟩ | ⟨e, h, _⟩ | ⟨h, _⟩ | ⟨k, h, _⟩ | ⟨h, _⟩
      · rw [h]; rfl
      · rw [h']
        simp only [Res.ok_bind]
        rw [evaluateMem_null he vs b r.2 hb]
        rfl
      all_goals rw [ha] at h; cases h
  rcases hk with rfl | rfl | rfl | rfl | rfl <;> simp only [predicateSatisfied, satisfiedMem] <;> exact ⟨h1 _ _, h2 _ _⟩

theorem memEval_sim (fs : FloatSys) (elide : Nat → Nat) (m : PvMem fs) :
    EvalSim fs (fun s => m.SameHeap s) (fun p vs => (∀ n, elide n = 0) ∨ NeverMissing fs vs p) (memEval elide fs) := by
  intro p vs s hK hs
  obtain ⟨s', e, h⟩ := C78_values fs elide vs p s hK
  have h' := hs.trans h
  unfold memEval plainEval
  rw [e]
  cases predicateSatisfied fs vs p with
  | ok b => exact ⟨rfl, h'⟩
  | throw e => rfl
  | abort => trivial
  | ub k => rfl
  | hang => trivial

/-- **C78**, for whole queries: with heap objects they have the outcome they have with
values, and the heap is what it was. -/
theorem C78_queries (fs : FloatSys) (elide : Nat → Nat) (env : Env) (pick : U32 → Nat → Nat) (t : Trace) (q : Query)
    (cache : PointsCache) (m : PvMem fs)
    (hcache : ∀ mask stmt ps, cache.lookup (mask, stmt) = some ps → ∀ p ∈ ps, p ∈ t.points)
    (h : (∀ n, elide n = 0) ∨ ∀ p ∈ q.hard :: q.soft, ∀ point ∈ t.points, ∀ vs : List VarInfo,
      (∀ v ∈ vs, v ∈ point.vars) → NeverMissing fs vs p) :
    ∃ m', query env pick (memEval elide fs) t q cache m =
      (query env pick (plainEval fs) t q cache () >>= fun r => .ok (r.1, r.2.1, m')) ∧ m.SameHeap m' := by
  have hpts : ∀ p ∈ (getPoints t.points cache q.mask q.stmt).1, p ∈ t.points := by
    intro p hp
    unfold getPoints at hp
    split at hp
    · rename_i ps hl
      exact hcache _ _ ps hl p hp
    · exact (List.mem_filter.mp hp).1
  have hs := queryPoints_sim (memEval_sim fs elide m) (env := env) (pick := pick)
    (points := (getPoints t.points cache q.mask q.stmt).1) (variables := q.variables) (hard := q.hard) (soft := q.soft)
    (seed := q.seed) (s := m) (fun _ => rfl) (fun point hp p vs hk => by
      rcases h with h | h
      · exact .inl h
      · obtain ⟨h1, b, h2, rfl⟩ := hk
        exact .inr (h p h1 point (hpts point hp) _ fun v hv => boundVars_mem hv))
  unfold query
  cases hx : queryPoints env pick (memEval elide fs) (getPoints t.points cache q.mask q.stmt).1 q.variables q.hard q.soft
      q.seed m with
  | ok r =>
    obtain ⟨rs, m'⟩ := r
    rw [hx] at hs
    cases hy : queryPoints env pick (plainEval fs) (getPoints t.points cache q.mask q.stmt).1 q.variables q.hard q.soft
        q.seed () <;> rw [hy] at hs <;> try exact hs.elim
    obtain ⟨rfl, hs⟩ := hs
    refine ⟨m', ?_, hs⟩
    simp [hx, hy]
  | throw e =>
    rw [hx] at hs
    cases hy : queryPoints env pick (plainEval fs) (getPoints t.points cache q.mask q.stmt).1 q.variables q.hard q.soft
        q.seed () <;> rw [hy] at hs <;> try exact hs.elim
    cases (show _ = _ from hs)
    exact ⟨m, by simp [hx, hy], fun _ => rfl⟩
  | abort =>
    rw [hx] at hs
    cases hy : queryPoints env pick (plainEval fs) (getPoints t.points cache q.mask q.stmt).1 q.variables q.hard q.soft
        q.seed () <;> rw [hy] at hs <;> try exact hs.elim
    exact ⟨m, by simp [hx, hy], fun _ => rfl⟩
  | ub k =>
    rw [hx] at hs
    cases hy : queryPoints env pick (plainEval fs) (getPoints t.points cache q.mask q.stmt).1 q.variables q.hard q.soft
        q.seed () <;> rw [hy] at hs <;> try exact hs.elim
    cases (show _ = _ from hs)
    exact ⟨m, by simp [hx, hy], fun _ => rfl⟩
  | hang =>
    rw [hx] at hs
    cases hy : queryPoints env pick (plainEval fs) (getPoints t.points cache q.mask q.stmt).1 q.variables q.hard q.soft
        q.seed () <;> rw [hy] at hs <;> try exact hs.elim
    exact ⟨m, by simp [hx, hy], fun _ => rfl⟩

/-! Examples: `value + 2 < value` and `size < 5`, on a signed variable of value -5 without a
buffer size. -/

def pvLess : Pred := .node .lessThan 2 [.node .add 2 [pVal 0, pNat 2], pVal 0]
def pvSize : Pred := .node .lessThan 2 [pSize 0, pNat 5]
def pvMem : PvMem exFloats := ⟨[none, some (.int 7)], 0⟩

/-- What is left of the numbers: which are still there, and how many there were. -/
def pvLeft (r : Res (Bool × PvMem exFloats)) : Res (Bool × List Bool) :=
  r >>= fun r => .ok (r.1, r.2.cells.map Option.isSome)

/-- Without copies four numbers are made and deleted, with three copies of each returned
value there are sixteen; 7 is left, which was there before. -/
example : pvLeft (satisfiedMem (fun _ => 0) exFloats [exSigned] pvLess pvMem) =
      .ok (false, [false, true, false, false, false, false]) ∧
    pvLeft (satisfiedMem (fun _ => 3) exFloats [exSigned] pvLess pvMem) =
      .ok (false, false :: true :: List.replicate 16 false) := by
  refine ⟨by decide +kernel, by decide +kernel⟩

/-- The parts of the first predicate have values. -/
example : NeverMissing exFloats [exSigned] pvLess := by
  have sub : ∀ q k d cs, Pred.Within q (.node k d cs) → q = .node k d cs ∨ ∃ c ∈ cs, q.Within c := by
    intro q k d cs h
    cases h with
    | refl => exact .inl rfl
    | child hc h => exact .inr ⟨_, hc, h⟩
  have hsub : ∀ q, q.Within pvLess → q ∈ [pvLess, .node .add 2 [pVal 0, pNat 2], pVal 0, pNat 2, pRef 0] := by
    intro q hq
    have hval : ∀ q : Pred, q.Within (pVal 0) → q = pVal 0 ∨ q = pRef 0 := by
      intro q hq
      rcases sub _ _ _ _ hq with h | ⟨c, hc, hq⟩
      · exact .inl h
      rw [List.mem_singleton.mp hc] at hq
      rcases sub _ _ _ _ hq with h | ⟨c, hc, hq⟩
      · exact .inr h
      · cases hc
    rcases sub _ _ _ _ hq with h | ⟨c, hc, hq⟩
    · rw [h]; exact List.mem_cons_self ..
    simp only [List.mem_cons, List.not_mem_nil, or_false] at hc
    rcases hc with rfl | rfl
    · rcases sub _ _ _ _ hq with h | ⟨c, hc, hq⟩
      · rw [h]; simp
      simp only [List.mem_cons, List.not_mem_nil, or_false] at hc
      rcases hc with rfl | rfl
      · rcases hval q hq with rfl | rfl <;> simp
      · rcases sub _ _ _ _ hq with h | ⟨c, hc, hq⟩
        · rw [h]; simp [pNat]
        · cases hc
    · rcases hval q hq with rfl | rfl <;> simp
  intro q hq
  have := hsub q hq
  simp only [List.mem_cons, List.not_mem_nil, or_false] at this
  rcases this with rfl | rfl | rfl | rfl | rfl <;>
    simp [evaluate, pvLess, pVal, pNat, pRef, Pred.kind, Pred.data, varAt, exSigned, valueOf, PVal.arith]

/-- The size that is missing: false if copies are omitted, a null pointer if not. -/
example : pvLeft (satisfiedMem (fun _ => 0) exFloats [exSigned] pvSize pvMem) = .ok (false, [false, true, false]) ∧
    pvLeft (satisfiedMem (fun _ => 1) exFloats [exSigned] pvSize pvMem) = .ub .nullDeref := by
  refine ⟨by decide +kernel, by decide +kernel⟩

/-- The hypotheses of `C78_copied` hold for it. -/
example : PKind.lessThan.Compares ∧ evaluate exFloats [exSigned] (pSize 0) = .ok .invalid ∧
    evaluate exFloats [exSigned] (pNat 5) = .ok (.int 5) :=
  ⟨.inr (.inr (.inl rfl)), by simp [evaluate, pSize, pRef, Pred.kind, Pred.data, varAt, exSigned, sizeOf],
    by simp [evaluate, pNat]⟩

/-- A query with memory, on a trace with one point: the results and what is left of the
numbers. -/
example : (query qEnv (fun _ _ => 0) (memEval (fun _ => 0) exFloats) ⟨[], [], [qPoint]⟩ qQuery [] pvMem >>= fun r =>
      .ok (r.1.map fun p => p.vars.map (·.nameIndex), r.2.2.cells.map Option.isSome)) =
    .ok ([[0, 2]], false :: true :: List.replicate 8 false) := by decide +kernel

end TraceDB
