import Verif.Proofs.QueryMemoryRun
import Verif.Props.LispQuery
/-
Properties of the foreign memory of Lisp queries: C71.
-/
namespace TraceDB

/-! Example data. -/

/-- A machine with enough memory. -/
def fWorld : QueryWorld Unit := ⟨qEnv, fun _ _ => 0, plainEval exFloats, .lp64, xAlloc⟩
/-- `(< (v/value x) (v/value y))` for the two variables `x`, `y` (1 and 2). -/
def fLess : SExp := .call .lt [.call .vValue [.sym 1], .call .vValue [.sym 2]]
/-- A query for two variables of type `i` with that predicate, and the same as a soft
predicate. -/
def fQuery : FQuery := ⟨[1, 2], [[[105]], [[105]]], fLess, [fLess, .nil], 0, none, none⟩
/-- The tree for that predicate. -/
def fTree : Pred := .node .lessThan 2 [.node .varValue 1 [.node .varReference 0 []], .node .varValue 1 [.node .varReference 1 []]]
/-- A filter that fails on the second variable of a point. -/
def fFails (p : LPoint) : Option Bool := if p.scopes.length = 2 then none else some true
/-- Memory with one block of each kind in use. -/
def fMem : FMem := ⟨[⟨true, .types [7]⟩], [⟨true, []⟩], [⟨[some (.word 5)], true⟩]⟩

theorem fLess_tree : SexpTree [1, 2] fLess fTree := by
  have hx : IsVar [1, 2] 1 0 := ⟨rfl, fun j hj => absurd hj (by omega)⟩
  have hy : IsVar [1, 2] 2 1 := ⟨rfl, fun j hj => by
    have : j = 0 := by omega
    subst this
    simp⟩
  exact .call rfl (by decide) (.cons (.call rfl (by decide) (.cons (.var hx) .nil))
    (.cons (.call rfl (by decide) (.cons (.var hy) .nil)) .nil))

theorem fQuery_fine (filter : Option (LPoint → Option Bool)) :
    { fQuery with filter := filter }.Fine [[105]] fTree [fTree, .nullPred] :=
  ⟨(by decide : ∀ ts ∈ fQuery.varTypes, ∀ n ∈ ts, n ∈ [[(105 : U8)]]), .inr (by simp [fQuery]), .inr fLess_tree,
    ⟨.inr fLess_tree, .inl ⟨rfl, rfl⟩, trivial⟩,
    (by decide : fQuery.varTypes.length < 2 ^ 32 ∧ (∀ ts ∈ fQuery.varTypes, ts.length < 2 ^ 32) ∧
      fQuery.varNames.length < 2 ^ 64)⟩

theorem cTrace_exportable : TraceExportable fWorld cTrace := ⟨by decide, fun _ => rfl, by decide +kernel⟩

/-- The query has one result. -/
theorem fQuery_result (filter : Bool) : (queryTrace qEnv (fun _ _ => 0) (plainEval exFloats) cTrace
    ⟨[[0], [0]], fTree, [fTree, .nullPred], 0, 0, 0⟩ filter [] () >>= fun r => .ok r.1) =
      .ok [⟨0, 7, [], [qVar 0 0 1, qVar 2 0 5], []⟩] := by
  cases filter <;> decide +kernel

theorem fQuery_fit (filter : Option (LPoint → Option Bool)) :
    ResultsFit fWorld cTrace { fQuery with filter := filter } [[105]] fTree [fTree, .nullPred] [] () := by
  intro fvs mask stmt rs c s' h1 h2 h3
  have e1 : freeVars [[105]] fQuery.varTypes = .ok [[0], [0]] := by decide
  have e2 : fileArgs fQuery.file = .ok (0, 0) := by decide
  rw [e1] at h1
  rw [e2] at h2
  cases h1
  cases h2
  have := fQuery_result filter.isSome
  have e3 := h3
  simp only [fWorld, fQuery] at e3
  rw [e3] at this
  cases this
  decide

/-! C71 -/

/-- A query that reaches the C interface and whose filter does not fail returns exactly what
the query on the trace returns; the free variables, predicates and results that pass through
memory are those meant.  On a normal return every block that was allocated on the way has
been freed once (freeing twice is undefined behaviour), and nothing else was touched. -/
theorem C71_answers_and_releases {σ : Type} (w : QueryWorld σ) (t : Trace) (q : FQuery) (types : List (List U8))
    (hard : Pred) (softs : List Pred) (filter : Option (LPoint → Bool)) (cache : PointsCache) (s : σ) (m : FMem)
    (htypes : getTypes t = .ok types) (hq : q.Fine types hard softs) (ht : TraceExportable w t) (hc : CacheOf t cache)
    (hfilter : q.filter = filter.map fun g p => some (g p))
    (hfit : ResultsFit w t q types hard softs cache s) :
    ∃ m', lispQueryM w t q cache s m =
        (lispQuery w.env w.pick w.ev t (q.meant hard softs filter) cache s, m') ∧
      ((lispQuery w.env w.pick w.ev t (q.meant hard softs filter) cache s).isOk = true →
        ∃ a p r, m.Adds m' a p r ∧ Released a p ∧ ∀ b ∈ r, b.live = false) := by
  obtain ⟨fvs, res, m', h1, h2, h3, h4⟩ := lispQueryM_run m htypes hq ht hc hfit
  have e : lispQuery w.env w.pick w.ev t (q.meant hard softs filter) cache s = res := by
    rw [h2]
    unfold lispQuery protectedResult FQuery.meant
    simp only [htypes, Res.ok_bind, h1]
    have hs : q.filter.isSome = filter.isSome := by rw [hfilter]; cases filter <;> rfl
    rw [hs]
    cases fileArgs q.file with
    | ok ms =>
      obtain ⟨mask, stmt⟩ := ms
      simp only [Res.ok_bind]
      cases queryTrace w.env w.pick w.ev t ⟨fvs, hard, softs, q.seed, mask, stmt⟩ filter.isSome cache s with
      | ok r =>
        obtain ⟨rs, c, s'⟩ := r
        simp only [Res.ok_bind]
        cases filter with
        | none =>
          rw [hfilter]
          simp only [Option.map_none, convertPoints_all]
        | some g =>
          rw [hfilter]
          simp only [Option.map_some, convertPoints_total]
          cases lispPoints t rs <;> rfl
      | _ => rfl
    | _ => rfl
  rw [e]
  refine ⟨m', h3, fun hok => ?_⟩
  obtain ⟨a, p, r, g1, g2, g3, _⟩ := h4 (.inl hok)
  rw [if_pos hok] at g3
  exact ⟨a, p, r, g1, g2, g3⟩

/-- The hypotheses hold for the example, whose query has one result: six arrays, eight
blocks of predicates and two of results come and go. -/
example : getTypes cTrace = .ok [[105]] ∧ fQuery.Fine [[105]] fTree [fTree, .nullPred] ∧
    TraceExportable fWorld cTrace ∧ CacheOf cTrace [] ∧
    ResultsFit fWorld cTrace fQuery [[105]] fTree [fTree, .nullPred] [] () ∧
    ((lispQueryM fWorld cTrace fQuery [] () fMem).1 >>= fun r => .ok r.1) =
      .ok [⟨7, none, [⟨[120], [105], .int 1, none⟩, ⟨[88], [105], .int 5, none⟩], []⟩] ∧
    (lispQueryM fWorld cTrace fQuery [] () fMem).2.arrays.map (·.live) = true :: List.replicate 6 false ∧
    (lispQueryM fWorld cTrace fQuery [] () fMem).2.preds.map (·.live) = true :: List.replicate 8 false ∧
    (lispQueryM fWorld cTrace fQuery [] () fMem).2.results.map (·.live) = true :: List.replicate 2 false := by
  refine ⟨by decide +kernel, fQuery_fine none, cTrace_exportable, by simp [CacheOf], fQuery_fit none, by decide +kernel,
    by decide +kernel, by decide +kernel, by decide +kernel⟩

/-- If an error is signalled after the call (by the filter, or by a conversion), the arrays
and predicates are freed all the same, but none of the results are. -/
theorem C71_error_keeps_results {σ : Type} (w : QueryWorld σ) (t : Trace) (q : FQuery) (types : List (List U8))
    (hard : Pred) (softs : List Pred) (cache : PointsCache) (s : σ) (m m' : FMem)
    (htypes : getTypes t = .ok types) (hq : q.Fine types hard softs) (ht : TraceExportable w t) (hc : CacheOf t cache)
    (hfit : ResultsFit w t q types hard softs cache s)
    (herr : lispQueryM w t q cache s m = (.throw .lisp, m')) :
    ∃ a p r, m.Adds m' a p r ∧ Released a p ∧ (∀ b ∈ r, b.live = true) ∧
      ∀ fvs mask stmt rs c s', freeVars types q.varTypes = .ok fvs → fileArgs q.file = .ok (mask, stmt) →
        queryTrace w.env w.pick w.ev t ⟨fvs, hard, softs, q.seed, mask, stmt⟩ q.filter.isSome cache s = .ok (rs, c, s') →
        r ≠ [] := by
  obtain ⟨fvs, res, m2, h1, h2, h3, h4⟩ := lispQueryM_run m htypes hq ht hc hfit
  rw [herr] at h3
  simp only [Prod.mk.injEq] at h3
  obtain ⟨rfl, rfl⟩ := h3
  obtain ⟨a, p, r, g1, g2, g3, g4⟩ := h4 (.inr rfl)
  refine ⟨a, p, r, g1, g2, by simpa [Res.isOk, RLive] using g3, ?_⟩
  intro fvs' mask stmt rs c s' e1 e2 e3 hr
  rw [h1] at e1
  cases e1
  exact g4 hr rfl mask stmt rs c s' e2 e3

/-- With a filter that fails on the result: an error, and the results stay. -/
example : { fQuery with filter := some fFails }.Fine [[105]] fTree [fTree, .nullPred] ∧
    ResultsFit fWorld cTrace { fQuery with filter := some fFails } [[105]] fTree [fTree, .nullPred] [] () ∧
    ((lispQueryM fWorld cTrace { fQuery with filter := some fFails } [] () fMem).1 >>= fun r => .ok r.1) = .throw .lisp ∧
    (lispQueryM fWorld cTrace { fQuery with filter := some fFails } [] () fMem).2.arrays.map (·.live) =
      true :: List.replicate 6 false ∧
    (lispQueryM fWorld cTrace { fQuery with filter := some fFails } [] () fMem).2.preds.map (·.live) =
      true :: List.replicate 8 false ∧
    (lispQueryM fWorld cTrace { fQuery with filter := some fFails } [] () fMem).2.results.map (·.live) =
      List.replicate 3 true := by
  refine ⟨fQuery_fine _, fQuery_fit _, by decide +kernel, by decide +kernel, by decide +kernel, by decide +kernel⟩

/-- A filter that fails on some result does so: the error is passed on. -/
theorem C71_filter_error {σ : Type} (w : QueryWorld σ) (t : Trace) (q : FQuery) (types : List (List U8))
    (hard : Pred) (softs : List Pred) (cache : PointsCache) (s : σ) (m : FMem)
    (htypes : getTypes t = .ok types) (hq : q.Fine types hard softs) (ht : TraceExportable w t) (hc : CacheOf t cache)
    (hfit : ResultsFit w t q types hard softs cache s)
    (g : LPoint → Option Bool) (hg : q.filter = some g)
    (fvs : List FreeVar) (mask stmt : U64) (rs : List Point) (c : PointsCache) (s' : σ) (xs : List LPoint)
    (h1 : freeVars types q.varTypes = .ok fvs) (h2 : fileArgs q.file = .ok (mask, stmt))
    (h3 : queryTrace w.env w.pick w.ev t ⟨fvs, hard, softs, q.seed, mask, stmt⟩ true cache s = .ok (rs, c, s'))
    (h4 : lispPoints t rs = .ok xs) (x : LPoint) (hx : x ∈ xs) (hf : g x = none) :
    (lispQueryM w t q cache s m).1 = .throw .lisp := by
  obtain ⟨fvs', res, m2, e1, e2, e3, _⟩ := lispQueryM_run m htypes hq ht hc hfit
  rw [h1] at e1
  cases e1
  rw [e3, e2]
  unfold protectedResult
  simp only [h2, Res.ok_bind, hg, Option.isSome_some, h3]
  have key : convertPoints t g rs = .throw .lisp := by
    clear h3
    induction rs generalizing xs with
    | nil => simp only [lispPoints] at h4; cases h4; simp at hx
    | cons p rs ih =>
      simp only [lispPoints] at h4
      obtain ⟨y, k1, h4⟩ := Res.bind_eq_ok.mp h4
      obtain ⟨ys, k2, h4⟩ := Res.bind_eq_ok.mp h4
      cases h4
      simp only [convertPoints, k1, Res.ok_bind]
      cases hy : g y with
      | none => rfl
      | some keep =>
        simp only
        rcases List.mem_cons.mp hx with rfl | hx
        · rw [hf] at hy; cases hy
        · rw [ih ys k2 hx]; rfl
  rw [key]
  rfl

/-- The hypotheses about the result hold for that filter. -/
example : ∃ c s' xs, freeVars [[105]] fQuery.varTypes = .ok [[0], [0]] ∧ fileArgs fQuery.file = .ok (0, 0) ∧
    queryTrace qEnv (fun _ _ => 0) (plainEval exFloats) cTrace ⟨[[0], [0]], fTree, [fTree, .nullPred], 0, 0, 0⟩ true [] () =
      .ok ([⟨0, 7, [], [qVar 0 0 1, qVar 2 0 5], []⟩], c, s') ∧
    lispPoints cTrace [⟨0, 7, [], [qVar 0 0 1, qVar 2 0 5], []⟩] = .ok xs ∧ ∃ x ∈ xs, fFails x = none := by
  have h := fQuery_result true
  cases hq : queryTrace qEnv (fun _ _ => 0) (plainEval exFloats) cTrace
      ⟨[[0], [0]], fTree, [fTree, .nullPred], 0, 0, 0⟩ true [] () with
  | ok r =>
    obtain ⟨rs, c, s'⟩ := r
    rw [hq] at h
    cases h
    exact ⟨c, s', [⟨7, none, [⟨[120], [105], .int 1, none⟩, ⟨[88], [105], .int 5, none⟩], []⟩], by decide, by decide, rfl,
      by decide +kernel, _, List.mem_singleton.mpr rfl, rfl⟩
  | _ => rw [hq] at h; cases h

/-- **C71, names are needed.**  A query with predicates but without names of variables signals an error before
it allocates anything. -/
theorem C71_names_needed {σ : Type} (w : QueryWorld σ) (t : Trace) (q : FQuery) (cache : PointsCache) (s : σ) (m : FMem)
    (hp : q.predicate ≠ .nil ∨ q.softs ≠ []) (hnames : q.varNames = []) :
    lispQueryM w t q cache s m = (.throw .lisp, m) := by
  have hn : q.hasNames = false := by
    unfold FQuery.hasNames
    rw [hnames]
    split
    · next h1 h2 => rcases hp with h | h <;> contradiction
    · rfl
  unfold lispQueryM
  rw [hn]
  rfl

example : { fQuery with varNames := [] }.predicate ≠ .nil ∧ { fQuery with varNames := [] }.varNames = [] :=
  ⟨(fun h => by cases h), rfl⟩

/-- A type that the trace does not have: nothing that was allocated so far is freed, neither
the array of free variables nor the arrays of types, among them the one for the variable with
the unknown type. -/
theorem C71_unknown_type_leaks {σ : Type} (w : QueryWorld σ) (t : Trace) (q : FQuery) (types : List (List U8))
    (cache : PointsCache) (s : σ) (m : FMem) (htypes : getTypes t = .ok types)
    (hnames : (q.predicate = .nil ∧ q.softs = []) ∨ q.varNames ≠ [])
    (good rest : List (List (List U8))) (bad : List (List U8)) (hv : q.varTypes = good ++ bad :: rest)
    (hgood : ∀ ts ∈ good, ∀ n ∈ ts, n ∈ types) (hbad : ∃ n ∈ bad, n ∉ types) :
    ∃ m' a, lispQueryM w t q cache s m = (.throw .lisp, m') ∧ m.Adds m' a [] [] ∧
      (a.filter (·.live)).length = good.length + 2 := by
  have hn : q.hasNames = true := by
    unfold FQuery.hasNames
    rcases hnames with ⟨h1, h2⟩ | h
    · rw [h1, h2]
    · cases q.predicate <;> cases q.softs <;> simp [h]
  let A : AHeap := m.arrays ++ [⟨false, .strings types⟩]
  let pss := good.map fun ts => ts.map (typePosition types)
  have hvars : freeVarsM types q.varTypes { m with arrays := A } = (.throw .lisp, { m with
      arrays := A ++ ⟨true, .vars (cVarEntries (A.length + 1) pss ++ List.replicate (rest.length + 1) none)⟩ ::
          (pss.map (typeBlock true) ++ [typeBlock true (bad.map (typePosition types))]) }) := by
    unfold freeVarsM
    rw [FM.bind_ok (FM.alloc_apply _ _), hv, List.map_append, List.map_cons]
    have h1 := fillVars_bad pss (rest.map fun ts => ts.map (typePosition types)) (bad.map (typePosition types))
      (by
        intro ps hps
        obtain ⟨ts, hts, rfl⟩ := List.mem_map.mp hps
        exact (storeTypes_known (hgood ts hts)).1)
      (storeTypes_unknown (by
        obtain ⟨n, h1, h2⟩ := hbad
        exact fun h => h2 (h n h1)))
      A { m with arrays := A ++ [⟨true, .vars (List.replicate (good ++ bad :: rest).length none)⟩] } (by simp [pss])
    rw [FM.bind_throw h1]
    simp
  refine ⟨{ m with
      arrays := A ++ ⟨true, .vars (cVarEntries (A.length + 1) pss ++ List.replicate (rest.length + 1) none)⟩ ::
          (pss.map (typeBlock true) ++ [typeBlock true (bad.map (typePosition types))]) },
    [⟨false, .strings types⟩] ++ ⟨true, .vars (cVarEntries (A.length + 1) pss ++ List.replicate (rest.length + 1) none)⟩ ::
          (pss.map (typeBlock true) ++ [typeBlock true (bad.map (typePosition types))]), ?_, ⟨?_, ?_, ?_⟩, ?_⟩
  · unfold lispQueryM
    rw [if_pos hn, FM.bind_ok (traceTypesM_ok htypes m), FM.bind_throw hvars]
  · simp [A]
  · simp
  · simp
  · simp only [List.singleton_append, List.filter_cons, Bool.false_eq_true, if_false, if_true, List.length_cons,
      List.filter_append, List.length_append, typeBlocks_live, pss, List.length_map]
    simp only [List.filter_nil, typeBlock, if_true, List.length_cons, List.length_nil]

/-- The second of three variables may have the unknown type `j`: three blocks stay. -/
example : (∀ ts ∈ [[[(105 : U8)]]], ∀ n ∈ ts, n ∈ [[(105 : U8)]]) ∧ (∃ n ∈ [[(105 : U8)], [106]], n ∉ [[(105 : U8)]]) ∧
    ((lispQueryM fWorld cTrace { fQuery with varTypes := [[[105]]] ++ [[105], [106]] :: [[[105]]] } [] () fMem).1 >>=
      fun r => .ok r.1) = .throw .lisp ∧
    (lispQueryM fWorld cTrace { fQuery with varTypes := [[[105]]] ++ [[105], [106]] :: [[[105]]] } [] () fMem).2 =
      { fMem with
        arrays := fMem.arrays ++ [⟨false, .strings [[105]]⟩, ⟨true, .vars [some (1, 3), none, none]⟩,
          ⟨true, .types [0]⟩, ⟨true, .types [0]⟩] } := by
  refine ⟨by decide, by decide, by decide +kernel, by decide +kernel⟩

/-- A predicate that is refused (an unknown operator, a variable without name, an integer
that does not fit): the free variables and what was built of the predicate stay allocated,
at least the block for its root. -/
theorem C71_refused_predicate_leaks {σ : Type} (w : QueryWorld σ) (t : Trace) (q : FQuery) (types : List (List U8))
    (cache : PointsCache) (s : σ) (m : FMem) (htypes : getTypes t = .ok types)
    (hknown : ∀ ts ∈ q.varTypes, ∀ n ∈ ts, n ∈ types) (hnames : q.varNames ≠ [])
    (hsmall : q.varNames.length < 2 ^ 64)
    (hbad : q.predicate.Refused q.varNames ∨
      ∃ hard good gs bad rest, SexpRoot q.varNames q.predicate hard ∧ SexpRoots q.varNames good gs ∧
        q.softs = good ++ bad :: rest ∧ bad.Refused q.varNames) :
    ∃ m' a p, lispQueryM w t q cache s m = (.throw .lisp, m') ∧ m.Adds m' a p [] ∧
      (a.filter (·.live)).length = q.varTypes.length + 1 ∧ p ≠ [] ∧ ∀ b ∈ p, b.live = true := by
  have hn : q.hasNames = true := by
    unfold FQuery.hasNames
    cases q.predicate <;> cases q.softs <;> simp [hnames]
  let A : AHeap := m.arrays ++ [⟨false, .strings types⟩]
  let pss := q.varTypes.map fun ts => ts.map (typePosition types)
  have hk : ∀ ps ∈ pss, (storeTypes ps).2 = true := by
    intro ps hps
    obtain ⟨ts, hts, rfl⟩ := List.mem_map.mp hps
    exact (storeTypes_known (hknown ts hts)).1
  have hvars : freeVarsM types q.varTypes { m with arrays := A } = (.ok A.length, { m with
      arrays := A ++ ⟨true, .vars (cVarEntries (A.length + 1) pss)⟩ :: pss.map (typeBlock true) }) := by
    unfold freeVarsM
    rw [FM.bind_ok (FM.alloc_apply _ _)]
    have h1 := fillVars_ok pss hk A [] [] 0 { m with arrays := A ++ [⟨true, .vars (List.replicate q.varTypes.length none)⟩] }
      (by simp [pss])
    simp only [List.length_nil, List.nil_append, Nat.add_zero, List.replicate_zero, List.append_nil] at h1
    rw [FM.bind_ok h1]
    rfl
  let m0 : FMem := { m with
      arrays := A ++ ⟨true, .vars (cVarEntries (A.length + 1) pss)⟩ :: pss.map (typeBlock true) }
  let B : AHeap := [⟨false, .strings types⟩] ++ ⟨true, .vars (cVarEntries (A.length + 1) pss)⟩ :: pss.map (typeBlock true)
  have hlive : (B.filter (·.live)).length = q.varTypes.length + 1 := by
    simp only [B, List.singleton_append, List.filter_cons, Bool.false_eq_true, if_false, if_true, List.length_cons,
      typeBlocks_live, pss, List.length_map]
  rcases hbad with hbad | ⟨hard, good, gs, bad, rest, hh, hgood, hsoft, hbad⟩
  · obtain ⟨new, e, h1, h2⟩ := buildPredicateM_refused hbad m.preds
    refine ⟨{ m0 with preds := m.preds ++ new }, B, new, ?_, ⟨by simp only [m0, A, B, List.append_assoc], rfl, by simp [m0]⟩, hlive, h2, h1⟩
    unfold lispQueryM
    rw [if_pos hn, FM.bind_ok (traceTypesM_ok htypes m), FM.bind_ok hvars,
      FM.bind_throw (m' := { m0 with preds := m.preds ++ new }) (e := .lisp) (by simp [FM.onPreds, e, m0])]
  · obtain ⟨w1, w2, w3⟩ := sexpRoot_wf hsmall hh
    obtain ⟨pred, new, bs, e, hp, hb⟩ := buildPredicate_ok q.varNames q.predicate m.preds w1 w2
    have hnew : AllLive new := buildPredicate_live e
    obtain ⟨new', e', h2, h1⟩ := buildSoftsM_refused hsmall good gs hgood bad rest hbad { m0 with preds := m.preds ++ new }
    refine ⟨{ m0 with preds := m.preds ++ (new ++ new') }, B, new ++ new', ?_,
      ⟨by simp only [m0, A, B, List.append_assoc], rfl, by simp [m0]⟩, hlive, by simp [h2], hnew.append h1⟩
    unfold lispQueryM
    rw [if_pos hn, FM.bind_ok (traceTypesM_ok htypes m), FM.bind_ok hvars,
      FM.bind_ok (m' := { m0 with preds := m.preds ++ new }) (a := pred) (by simp [FM.onPreds, buildPredicateM_ok e, m0]),
      hsoft, FM.bind_throw e']
    simp

/-- `(< (v/value x) z)` with the unknown variable `z`, as predicate and as soft predicate
after a good one. -/
example : (SExp.call .lt [.call .vValue [.sym 1], .sym 3]).Refused [1, 2] ∧
    ((lispQueryM fWorld cTrace { fQuery with predicate := .call .lt [.call .vValue [.sym 1], .sym 3] } [] () fMem).1 >>=
      fun r => .ok r.1) = .throw .lisp ∧
    (lispQueryM fWorld cTrace { fQuery with predicate := .call .lt [.call .vValue [.sym 1], .sym 3] } [] () fMem).2.inUse =
      fMem.inUse + 3 + 2 ∧
    (lispQueryM fWorld cTrace { fQuery with softs := [fLess] ++ .call .lt [.call .vValue [.sym 1], .sym 3] :: [.nil] } []
      () fMem).2.inUse = fMem.inUse + 3 + 4 + 4 + 2 := by
  refine ⟨⟨by simp, by simp [SExp.Wf, SExp.WfAll]⟩, by decide +kernel, by decide +kernel, by decide +kernel⟩

/-- The memory after asking the same query `k` times. -/
def askedTimes {σ : Type} (w : QueryWorld σ) (t : Trace) (q : FQuery) (cache : PointsCache) (s : σ) : Nat → FMem → FMem
  | 0, m => m
  | k + 1, m => askedTimes w t q cache s k (lispQueryM w t q cache s m).2

/-- What failing queries leave behind adds up without bound. -/
theorem C71_leaks_add_up {σ : Type} (w : QueryWorld σ) (t : Trace) (q : FQuery) (types : List (List U8))
    (cache : PointsCache) (s : σ) (htypes : getTypes t = .ok types)
    (hnames : (q.predicate = .nil ∧ q.softs = []) ∨ q.varNames ≠ [])
    (good rest : List (List (List U8))) (bad : List (List U8)) (hv : q.varTypes = good ++ bad :: rest)
    (hgood : ∀ ts ∈ good, ∀ n ∈ ts, n ∈ types) (hbad : ∃ n ∈ bad, n ∉ types) (k : Nat) (m : FMem) :
    (askedTimes w t q cache s k m).inUse = m.inUse + k * (good.length + 2) := by
  induction k generalizing m with
  | zero => simp [askedTimes]
  | succ k ih =>
    obtain ⟨m', a, e, ⟨h1, h2, h3⟩, h4⟩ := C71_unknown_type_leaks w t q types cache s m htypes hnames good rest bad hv hgood hbad
    simp only [askedTimes, e, ih]
    have : m'.inUse = m.inUse + (good.length + 2) := by
      simp only [FMem.inUse, h1, h2, h3, List.filter_append, List.length_append, h4, List.append_nil]
      omega
    rw [this, Nat.succ_mul]
    omega

/-- A thousand failing queries. -/
example : (askedTimes fWorld cTrace { fQuery with varTypes := [[[105]]] ++ [[105], [106]] :: [[[105]]] } [] () 1000
    fMem).inUse = 3003 := by
  rw [C71_leaks_add_up fWorld cTrace _ [[105]] [] () (by decide +kernel) (.inr (by simp [fQuery])) [[[105]]] [[[105]]]
    [[105], [106]] rfl (by decide) (by decide) 1000 fMem]
  decide

/-- `get-trace` returns the points of the trace and frees what it allocated; after an error
in a conversion the exported points stay allocated. -/
theorem C71_get_trace {σ : Type} (w : QueryWorld σ) (t : Trace) (file : Option Nat) (m : FMem)
    (ht : TraceExportable w t) (hfit : t.points.length * w.abi.sizeVar < 2 ^ (8 * w.abi.ptr.1)) :
    ∃ m' a r, lispGetTraceM w t file m = (lispGetTrace t file, m') ∧ m.Adds m' a [] r ∧ Released a [] ∧
      (if (lispGetTrace t file).isOk then ∀ b ∈ r, b.live = false else ∀ b ∈ r, b.live = true) := by
  obtain ⟨ptr, new, seen, e1, e2, e3, e4, e5, e6, e7⟩ :=
    C36_export_faithful w.abi w.alloc t.types t.points m.results ht.sizes.1 ht.sizes.2 hfit (ht.memory _)
      (fun p hp => by obtain ⟨a, b, c⟩ := ht.points p hp; exact ⟨a, b, c, ht.memory _, ht.memory _⟩)
  have h1 : FM.onResults (keepHeap (pointsToArray w.abi w.alloc t.types t.points)) m =
      (.ok ptr, { m with results := m.results ++ new }) := by
    simp only [FM.onResults, keepHeap, e1]
  have h2 := convertM_eq (filter := fun _ => some true) { m with results := m.results ++ new } rfl e3 e5 e6
  rw [convertPoints_all] at h2
  unfold lispGetTraceM lispGetTrace
  rw [FM.bind_ok h1]
  cases hp : lispPoints t t.points with
  | ok ps =>
    rw [hp] at h2
    refine ⟨{ m with
      arrays := m.arrays ++ [⟨false, .strings (getNames t)⟩],
      results := m.results ++ new.map fun b => { b with live := false } },
      [⟨false, .strings (getNames t)⟩], new.map fun b => { b with live := false }, ?_, ⟨rfl, by simp, ?_⟩, ?_, ?_⟩
    · rw [FM.bind_ok h2]; rfl
    · simp [Res.isOk]
    · exact ⟨by simp, by simp⟩
    · simp [Res.isOk]
  | _ =>
    rw [hp] at h2
    refine ⟨{ m with
      arrays := m.arrays ++ [⟨false, .strings (getNames t)⟩],
      results := m.results ++ new },
      [⟨false, .strings (getNames t)⟩], new, FM.bind_err _ h2 rfl, ⟨rfl, by simp, ?_⟩, ?_, ?_⟩
    · simp [Res.isOk]
    · exact ⟨by simp, by simp⟩
    · simpa [Res.isOk] using e2

/-- The hypotheses hold for the example. -/
example : TraceExportable fWorld fTrace ∧ fTrace.points.length * Abi.lp64.sizeVar < 2 ^ (8 * Abi.lp64.ptr.1) ∧
    (lispGetTraceM fWorld fTrace none fMem).2.inUse = fMem.inUse ∧ (lispGetTrace fTrace none).isOk = true := by
  refine ⟨⟨by decide, fun _ => rfl, by decide +kernel⟩, by decide, by decide +kernel, by decide +kernel⟩

end TraceDB
