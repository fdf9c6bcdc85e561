import Verif.Proofs.QueryMemoryPred
/-
A whole query and what it does to foreign memory.
-/
namespace TraceDB

/-- Result blocks that are all allocated. -/
def RLive (r : List Block) : Prop := ∀ b ∈ r, b.live = true
/-- Result blocks that are all free. -/
def RDead (r : List Block) : Prop := ∀ b ∈ r, b.live = false

/-- Conversion: what it returns and does to the memory, given an array of exported
points. -/
theorem convertM_eq {t : Trace} {filter : LPoint → Option Bool} {ptr : Nat} {rs : List Point} {seen : List Seen}
    {H new : Heap} (m : FMem) (hm : m.results = H ++ new)
    (hr : readArray ptr 0 rs.length (H ++ new) = .ok seen)
    (hs : ∀ (i : Nat) (p : Point) (s : Seen), rs[i]? = some p → seen[i]? = some s → SeenPoint t.types p s)
    (hf : freeTracePoints ptr rs.length (H ++ new) = .ok (H ++ new.map fun b => { b with live := false })) :
    convertM t filter ptr rs.length m =
      (convertPoints t filter rs,
        { m with
          arrays := m.arrays ++ [⟨false, .strings (getNames t)⟩]
          results := if (convertPoints t filter rs).isOk then H ++ new.map fun b => { b with live := false }
            else H ++ new }) := by
  unfold convertM
  rw [FM.bind_ok (getNamesM_ok t m)]
  have e1 : FM.onResults (fun h => (convertLoop (getNames t) filter ptr h 0 rs.length, h))
      { m with arrays := m.arrays ++ [⟨false, .strings (getNames t)⟩] } =
      (convertPoints t filter rs, { m with arrays := m.arrays ++ [⟨false, .strings (getNames t)⟩] }) := by
    simp only [FM.onResults, hm]
    rw [convertLoop_eq hr hs, ← hm]
  cases hc : convertPoints t filter rs with
  | ok ps =>
    rw [hc] at e1
    rw [FM.bind_ok e1]
    have e2 : FM.onResults (keepHeap fun h => (freeTracePoints ptr rs.length h) >>= fun h => .ok ((), h))
        { m with arrays := m.arrays ++ [⟨false, .strings (getNames t)⟩] } =
        (.ok (), { m with
          arrays := m.arrays ++ [⟨false, .strings (getNames t)⟩]
          results := H ++ new.map fun b => { b with live := false } }) := by
      simp only [FM.onResults, keepHeap, hm, hf, Res.ok_bind]
    rw [FM.bind_ok e2]
    simp [FM.pure_apply, Res.isOk]
  | _ =>
    rw [hc] at e1
    obtain ⟨r, h1, h2⟩ := FM.bind_pair (f := fun ps => (do
      FM.onResults (keepHeap fun h => (freeTracePoints ptr rs.length h) >>= fun h => .ok ((), h))
      pure ps)) e1 rfl
    rw [h1, h2]
    simp [Res.isOk, hm] <;> rw [← hm]

/-- What the protected part of `query-trace` returns. -/
def protectedResult {σ : Type} (w : QueryWorld σ) (t : Trace) (fvs : List FreeVar) (hard : Pred) (softs : List Pred)
    (q : FQuery) (cache : PointsCache) (s : σ) : Res (List LPoint × PointsCache × σ) := do
  let (mask, stmt) ← fileArgs q.file
  let (rs, cache, s) ← queryTrace w.env w.pick w.ev t ⟨fvs, hard, softs, q.seed, mask, stmt⟩ q.filter.isSome cache s
  match q.filter with
  | some g => do
    let ps ← convertPoints t g rs
    pure (removeDuplicates sameBindings ps, cache, s)
  | none => do
    let ps ← convertPoints t (fun _ => some true) rs
    pure (ps, cache, s)

/-- The protected part of `query-trace`. -/
def protectedBody {σ : Type} (w : QueryWorld σ) (t : Trace) (q : FQuery) (vars : Nat) (pred : Option Nat) (arr : Nat)
    (nSofts : Nat) (cache : PointsCache) (s : σ) : FM (List LPoint × PointsCache × σ) := do
  let (mask, stmt) ← FM.lift (fileArgs q.file)
  let (p, n, cache, s) ← queryTraceM w t vars q.varTypes.length pred arr nSofts q.seed
    q.filter.isSome mask stmt cache s
  match q.filter with
  | some g => do
    let ps ← convertM t g p n
    pure (removeDuplicates sameBindings ps, cache, s)
  | none => do
    let ps ← convertM t (fun _ => some true) p n
    pure (ps, cache, s)

/-- How the memory changes in the protected part. -/
def BodyMem (m m' : FMem) (ok : Bool) (r : List Block) : Prop :=
  m'.preds = m.preds ∧ m'.results = m.results ++ r ∧ (if ok then RDead r else RLive r) ∧
    ∃ c, m'.arrays = m.arrays ++ c ∧ ∀ b ∈ c, b.live = false

theorem BodyMem.same (m : FMem) (ok : Bool) : BodyMem m m ok [] :=
  ⟨rfl, by simp, by cases ok <;> simp [RLive, RDead], [], by simp, by simp⟩

theorem FM.bind_err {α β : Type} {x : FM α} {f : α → FM β} {m m' : FMem} {r : Res α} (g : α → Res β) (h : x m = (r, m'))
    (hr : r.isOk = false) : (x >>= f) m = (r >>= g, m') := by
  show FM.bind x f m = _
  simp only [FM.bind, h]
  cases r with
  | ok a => simp [Res.isOk] at hr
  | _ => rfl

theorem Res.isOk_bind_false {α β : Type} {r : Res α} (g : α → Res β) (hr : r.isOk = false) : (r >>= g).isOk = false := by
  cases r with
  | ok a => simp [Res.isOk] at hr
  | _ => rfl

theorem queryTraceM_eq {σ : Type} {w : QueryWorld σ} {t : Trace} {A C : AHeap}
    {pss : List (List (Option Nat))} {pred : Option Nat} {hard : Pred} {hbs : List Nat} {ps : List (Option Nat)}
    {softs : List Pred} {bss : List (List Nat)} {arr : Nat} (seed : U32) (keep : Bool) (mask stmt : U64)
    (cache : PointsCache) (s : σ) (m : FMem)
    (hv : VarsAt m A C pss) (hk : ∀ ps ∈ pss, (storeTypes ps).2 = true) (hl : ∀ ps ∈ pss, ps.length < 2 ^ 32)
    (hp : PredAt m.preds pred hard hbs)
    (harr : m.arrays[arr]? = some ⟨true, .ptrs ps⟩) (hsoft : AllAt m.preds ps softs bss) :
    queryTraceM w t A.length pss.length pred arr ps.length seed keep mask stmt cache s m =
      ((do
        let (rs, cache, s) ← FM.lift (queryTrace w.env w.pick w.ev t
          ⟨pss.map fun ps => (storeTypes ps).1, hard, softs, seed, mask, stmt⟩ keep cache s)
        let p ← FM.onResults (keepHeap (pointsToArray w.abi w.alloc t.types rs))
        pure (p, rs.length, cache, s)) : FM (Nat × Nat × PointsCache × σ)) m := by
  unfold queryTraceM
  rw [FM.bind_ok (readPred_ok hp), FM.bind_ok (readVars_ok hv hk hl pss.length 0 (by omega)),
    FM.bind_ok (readSofts_ok harr hsoft ps.length 0 (by omega))]
  simp only [List.drop_zero]

theorem protectedBody_eq {σ : Type} {w : QueryWorld σ} {t : Trace} {q : FQuery} {A C : AHeap}
    {pss : List (List (Option Nat))} {pred : Option Nat} {hard : Pred} {hbs : List Nat} {ps : List (Option Nat)}
    {softs : List Pred} {bss : List (List Nat)} {arr : Nat} {cache : PointsCache} {s : σ} {m : FMem}
    (ht : TraceExportable w t) (hc : CacheOf t cache)
    (hn : q.varTypes.length = pss.length) (hn32 : pss.length < 2 ^ 32)
    (hv : VarsAt m A C pss) (hk : ∀ ps ∈ pss, (storeTypes ps).2 = true) (hl : ∀ ps ∈ pss, ps.length < 2 ^ 32)
    (hp : PredAt m.preds pred hard hbs)
    (harr : m.arrays[arr]? = some ⟨true, .ptrs ps⟩) (hsoft : AllAt m.preds ps softs bss)
    (hfit : ∀ mask stmt rs c s', fileArgs q.file = .ok (mask, stmt) → queryTrace w.env w.pick w.ev t
        ⟨pss.map fun ps => (storeTypes ps).1, hard, softs, q.seed, mask, stmt⟩ q.filter.isSome cache s = .ok (rs, c, s') →
      rs.length * w.abi.sizeVar < 2 ^ (8 * w.abi.ptr.1)) :
    ∃ m' r, protectedBody w t q A.length pred arr ps.length cache s m =
        (protectedResult w t (pss.map fun ps => (storeTypes ps).1) hard softs q cache s, m') ∧
      BodyMem m m' (protectedResult w t (pss.map fun ps => (storeTypes ps).1) hard softs q cache s).isOk r ∧
      (r = [] → (protectedResult w t (pss.map fun ps => (storeTypes ps).1) hard softs q cache s).isOk = false →
        ∀ mask stmt rs c s', fileArgs q.file = .ok (mask, stmt) → queryTrace w.env w.pick w.ev t
          ⟨pss.map fun ps => (storeTypes ps).1, hard, softs, q.seed, mask, stmt⟩ q.filter.isSome cache s ≠ .ok (rs, c, s')) := by
  unfold protectedBody protectedResult
  cases hf : fileArgs q.file with
  | ok ms =>
    obtain ⟨mask, stmt⟩ := ms
    rw [FM.bind_ok (FM.lift_apply (.ok (mask, stmt)) m), Res.ok_bind]
    simp only
    cases hq : queryTrace w.env w.pick w.ev t
        ⟨pss.map fun ps => (storeTypes ps).1, hard, softs, q.seed, mask, stmt⟩ q.filter.isSome cache s with
    | ok rcs =>
      obtain ⟨rs, c', s'⟩ := rcs
      have hx := exportable_results ht hn32 (n := pss.length) (by
        have := queryTrace_from hc hq
        simpa using this)
      obtain ⟨ptr, new, seen, e1, e2, e3, e4, e5, e6, e7⟩ :=
        C36_export_faithful w.abi w.alloc t.types rs m.results ht.sizes.1 ht.sizes.2 (hfit _ _ _ _ _ hf hq)
          (ht.memory _) hx
      have hbody : queryTraceM w t A.length q.varTypes.length pred arr ps.length q.seed q.filter.isSome mask stmt cache s m
          = (.ok (ptr, rs.length, c', s'), { m with results := m.results ++ new }) := by
        rw [hn, queryTraceM_eq q.seed q.filter.isSome mask stmt cache s m hv hk hl hp harr hsoft, hq,
          FM.bind_ok (FM.lift_apply _ _)]
        have : FM.onResults (keepHeap (pointsToArray w.abi w.alloc t.types rs)) m =
            (.ok ptr, { m with results := m.results ++ new }) := by
          simp only [FM.onResults, keepHeap, e1]
        simp only
        rw [FM.bind_ok this]
        rfl
      rw [FM.bind_ok hbody, Res.ok_bind]
      simp only
      have hconv : ∀ filter, convertM t filter ptr rs.length { m with results := m.results ++ new } = _ := fun filter =>
        convertM_eq (filter := filter) { m with results := m.results ++ new } rfl e3 e5 e6
      have hmem : ∀ (filter : LPoint → Option Bool) (ok : Bool), (convertPoints t filter rs).isOk = ok →
          BodyMem m { m with
            arrays := m.arrays ++ [⟨false, .strings (getNames t)⟩]
            results := if ok then m.results ++ new.map fun b => { b with live := false } else m.results ++ new } ok
            (if ok then new.map (fun b => { b with live := false }) else new) := by
        intro filter ok _
        refine ⟨rfl, by cases ok <;> simp, ?_, _, rfl, by simp⟩
        cases ok
        · simpa [RLive] using e2
        · simp [RDead]
      have hnew : ∀ filter : LPoint → Option Bool, new = [] → (convertPoints t filter rs).isOk = true := by
        intro filter hnil
        rcases rs with _ | ⟨r0, rs⟩
        · rfl
        · exfalso
          subst hnil
          simp only [List.append_nil] at e3 e1
          have hp0 : ptr ≠ 0 := fun h => by simp [e7] at h
          obtain ⟨post, e⟩ := pointsToArray_eq w.abi w.alloc t.types (r0 :: rs) m.results (by simp) ht.sizes.1 ht.sizes.2
            (hfit _ _ _ _ _ hf hq) (ht.memory _) (fun p hp => by obtain ⟨a, _, _, b, c⟩ := hx p hp; exact ⟨a, b, c⟩)
          rw [e1] at e
          simp only [Res.ok.injEq, Prod.mk.injEq] at e
          have := congrArg List.length e.2
          simp only [List.length_append, List.length_cons, List.length_nil] at this
          omega
      cases hg : q.filter with
      | none =>
        simp only
        cases hcp : convertPoints t (fun _ => some true) rs with
        | ok xs =>
          refine ⟨_, _, ?_, hmem (fun _ => some true) true (by rw [hcp]; rfl), ?_⟩
          · rw [FM.bind_ok (by rw [hconv, hcp])]; rfl
          · simp [Res.isOk]
        | _ =>
          refine ⟨_, _, FM.bind_err _ (by rw [hconv, hcp]; rfl) rfl, hmem (fun _ => some true) false (by rw [hcp]; rfl), ?_⟩
          intro hnil
          exact absurd (hnew (fun _ => some true) (by simpa using hnil)) (by rw [hcp]; simp [Res.isOk])
      | some g =>
        simp only
        cases hcp : convertPoints t g rs with
        | ok xs =>
          refine ⟨_, _, ?_, hmem g true (by rw [hcp]; rfl), ?_⟩
          · rw [FM.bind_ok (by rw [hconv, hcp])]; rfl
          · simp [Res.isOk]
        | _ =>
          refine ⟨_, _, FM.bind_err _ (by rw [hconv, hcp]; rfl) rfl, hmem g false (by rw [hcp]; rfl), ?_⟩
          intro hnil
          exact absurd (hnew g (by simpa using hnil)) (by rw [hcp]; simp [Res.isOk])
    | _ =>
      have heq := queryTraceM_eq (w := w) (t := t) q.seed q.filter.isSome mask stmt cache s m hv hk hl hp harr hsoft
      rw [hq, ← hn] at heq
      have hx := heq.trans (FM.bind_err (fun _ => Res.hang) (FM.lift_apply _ m) rfl)
      refine ⟨m, [], (FM.bind_err (fun _ => Res.hang) hx rfl).trans rfl, BodyMem.same m _, ?_⟩
      · intro _ _ mask' stmt' rs c s' he
        cases he
        rw [hq]; simp
  | _ =>
    refine ⟨m, [], FM.bind_err _ (FM.lift_apply _ _) rfl, BodyMem.same m _, ?_⟩
    intro _ _ mask' stmt' rs c s' he
    cases he

/-- The cleanup. -/
theorem queryCleanup_eq {A C D : AHeap} {pss : List (List (Option Nat))} {pred : Option Nat} {hard : Pred}
    {hbs : List Nat} {ps : List (Option Nat)} {softs : List Pred} {bss : List (List Nat)} {m : FMem}
    (hC : C = ⟨true, .ptrs ps⟩ :: D)
    (hv : VarsAt m A C pss) (hp : PredAt m.preds pred hard hbs) (hsoft : AllAt m.preds ps softs bss)
    (hn : (hbs ++ bss.flatten).Nodup) :
    queryCleanup pred ps (A.length + 1 + pss.length) A.length pss.length m =
      (.ok (), { m with
        preds := killed m.preds (hbs ++ bss.flatten)
        arrays := A ++ ⟨false, .vars (cVarEntries (A.length + 1) pss)⟩ ::
          (pss.map (typeBlock false) ++ ⟨false, .ptrs ps⟩ :: D) }) := by
  obtain ⟨n1, n2, n3⟩ := List.nodup_append.mp hn
  unfold queryCleanup
  have e1 := freeSoftsM_ok (h0 := m.preds) (ps := [pred]) (qs := [hard]) (bss := [hbs]) ⟨hp, trivial⟩ (by simpa using n1) m
    (fun _ _ => rfl)
  simp only [List.flatten_cons, List.flatten_nil, List.append_nil] at e1
  rw [FM.bind_ok e1]
  have e2 := freeSoftsM_ok hsoft n2 { m with preds := killed m.preds hbs } (fun i hi => by
    simp only
    exact killed_other _ _ _ fun hb => n3 i hb i hi rfl)
  rw [FM.bind_ok e2]
  simp only [killed_append]
  have harr : m.arrays = (A ++ ⟨true, .vars (cVarEntries (A.length + 1) pss)⟩ :: pss.map (typeBlock true)) ++
      ⟨true, .ptrs ps⟩ :: D := by rw [hv.eq, hC]; simp
  have hlen : (A ++ ⟨true, .vars (cVarEntries (A.length + 1) pss)⟩ :: pss.map (typeBlock true) : AHeap).length =
      A.length + 1 + pss.length := by simp; omega
  have e3 : FM.free (A.length + 1 + pss.length) { m with preds := killed m.preds (hbs ++ bss.flatten) } =
      (.ok (), { m with
        preds := killed m.preds (hbs ++ bss.flatten)
        arrays := A ++ ⟨true, .vars (cVarEntries (A.length + 1) pss)⟩ ::
          (pss.map (typeBlock true) ++ ⟨false, .ptrs ps⟩ :: D) }) := by
    rw [FM.free_ok (d := .ptrs ps) (by simp only; rw [harr, ← hlen, getElem?_mid])]
    simp only [harr]
    rw [← hlen, set_mid]
    simp
  rw [FM.bind_ok e3]
  have e4 := freeVarTypes_ok A pss pss [] (⟨false, .ptrs ps⟩ :: D) { m with
        preds := killed m.preds (hbs ++ bss.flatten)
        arrays := A ++ ⟨true, .vars (cVarEntries (A.length + 1) pss)⟩ ::
          (pss.map (typeBlock true) ++ ⟨false, .ptrs ps⟩ :: D) } rfl (by simp)
  simp only [List.length_nil] at e4
  rw [FM.bind_ok e4, FM.free_ok (d := .vars (cVarEntries (A.length + 1) pss)) (by simp only; rw [getElem?_mid])]
  simp only [set_mid]

theorem killed_new (h new : PHeap) (bs : List Nat)
    (hb : ∀ i, i ∈ bs ↔ h.length ≤ i ∧ i < h.length + new.length) :
    killed (h ++ new) bs = h ++ new.map fun b => { b with live := false } := by
  apply List.ext_getElem?
  intro i
  rw [killed_getElem?]
  by_cases hi : i < h.length
  · have hn : i ∉ bs := by rw [hb]; omega
    rw [List.getElem?_append_left hi, List.getElem?_append_left hi]
    cases h[i]? <;> simp [hn]
  · rw [List.getElem?_append_right (by omega), List.getElem?_append_right (by omega), List.getElem?_map]
    by_cases hlt : i < h.length + new.length
    · have hn : i ∈ bs := by rw [hb]; omega
      simp only [hn, if_true]
    · rw [List.getElem?_eq_none (by omega)]
      rfl

/-- The preparation: arrays and predicates. -/
theorem lispQueryM_prepared {σ : Type} {w : QueryWorld σ} {t : Trace} {q : FQuery} {types : List (List U8)} {hard : Pred}
    {softs : List Pred} (htypes : getTypes t = .ok types) (hq : q.Fine types hard softs) (cache : PointsCache) (s : σ)
    (m : FMem) :
    ∃ (pss : List (List (Option Nat))) (A : AHeap) (pred : Option Nat) (ps : List (Option Nat)) (new : List PBlock)
      (hbs : List Nat) (bss : List (List Nat)) (m1 : FMem),
      pss = q.varTypes.map (fun ts => ts.map (typePosition types)) ∧
      A = m.arrays ++ [⟨false, .strings types⟩] ∧
      lispQueryM w t q cache s m = FM.unwindProtect
        (protectedBody w t q A.length pred (A.length + 1 + pss.length) ps.length cache s)
        (queryCleanup pred ps (A.length + 1 + pss.length) A.length q.varTypes.length) m1 ∧
      VarsAt m1 A [⟨true, .ptrs ps⟩] pss ∧ m1.preds = m.preds ++ new ∧ m1.results = m.results ∧
      PredAt m1.preds pred hard hbs ∧ AllAt m1.preds ps softs bss ∧ (hbs ++ bss.flatten).Nodup ∧
      ∀ i, i ∈ hbs ++ bss.flatten ↔ m.preds.length ≤ i ∧ i < m.preds.length + new.length := by
  have hnames : q.hasNames = true := by
    unfold FQuery.hasNames
    rcases hq.names with ⟨h1, h2⟩ | h
    · rw [h1, h2]
    · cases q.predicate <;> cases q.softs <;> simp [h]
  let pss := q.varTypes.map (fun ts => ts.map (typePosition types))
  let A : AHeap := m.arrays ++ [⟨false, .strings types⟩]
  have hk : ∀ ps ∈ pss, (storeTypes ps).2 = true := by
    intro ps hps
    obtain ⟨ts, hts, rfl⟩ := List.mem_map.mp hps
    exact (storeTypes_known (hq.types ts hts)).1
  have hvars : freeVarsM types q.varTypes { m with arrays := A } = (.ok A.length, { m with
      arrays := A ++ ⟨true, .vars (cVarEntries (A.length + 1) pss)⟩ :: pss.map (typeBlock true) }) := by
    unfold freeVarsM
    rw [FM.bind_ok (FM.alloc_apply _ _)]
    have h1 := fillVars_ok pss hk A [] [] 0 { m with arrays := A ++ [⟨true, .vars (List.replicate q.varTypes.length none)⟩] }
      (by simp [pss])
    simp only [List.length_nil, List.nil_append, Nat.add_zero, List.replicate_zero, List.append_nil] at h1
    rw [FM.bind_ok h1]
    rfl
  obtain ⟨w1, w2, w3⟩ := sexpRoot_wf hq.small.2.2 hq.hard
  obtain ⟨pred, new, hbs, e, hp, hb⟩ := buildPredicate_ok q.varNames q.predicate m.preds w1 w2
  rw [w3] at hp
  let m0 : FMem := { m with
    arrays := A ++ ⟨true, .vars (cVarEntries (A.length + 1) pss)⟩ :: pss.map (typeBlock true)
    preds := m.preds ++ new }
  obtain ⟨ps, new', bss, e', hp', hn', hb'⟩ := buildSoftsM_ok hq.small.2.2 hq.softs m0
  simp only [m0, List.length_append] at hb'
  refine ⟨pss, A, pred, ps, new ++ new', hbs, bss,
    { arrays := A ++ ⟨true, .vars (cVarEntries (A.length + 1) pss)⟩ :: (pss.map (typeBlock true) ++ [⟨true, .ptrs ps⟩])
      preds := m.preds ++ (new ++ new'), results := m.results }, rfl, rfl, ?_, ⟨rfl⟩, rfl, rfl, ?_, ?_, ?_, ?_⟩
  · unfold lispQueryM
    rw [if_pos hnames, FM.bind_ok (traceTypesM_ok htypes m), FM.bind_ok hvars]
    have e1 : FM.onPreds (buildPredicateM q.varNames q.predicate) { m with
        arrays := A ++ ⟨true, .vars (cVarEntries (A.length + 1) pss)⟩ :: pss.map (typeBlock true) } = (.ok pred, m0) := by
      simp [FM.onPreds, buildPredicateM_ok e, m0]
    rw [FM.bind_ok e1, FM.bind_ok e', FM.bind_ok (FM.alloc_apply _ _)]
    have hlen : (A ++ ⟨true, .vars (cVarEntries (A.length + 1) pss)⟩ :: pss.map (typeBlock true) : AHeap).length =
        A.length + 1 + pss.length := by simp; omega
    simp only [m0, hlen, List.append_assoc, List.cons_append]
    rfl
  · refine hp.frame fun i hi => ?_
    simp only
    rw [← List.append_assoc, List.getElem?_append_left]
    have := (hb i).mp hi
    simp; omega
  · simpa [m0, List.append_assoc] using hp'
  · rw [List.nodup_append]
    refine ⟨?_, hn', ?_⟩
    · cases pred with
      | none => rw [hp.2]; exact List.nodup_nil
      | some b => obtain ⟨_, _, _, _, hn, _⟩ := hp; exact hn
    · rintro a ha b hb2 rfl
      have := (hb a).mp ha
      have := (hb' a).mp hb2
      omega
  · intro i
    simp only [List.mem_append, List.length_append, hb, hb']
    omega

/-- A query that reaches C: what is returned, and the memory afterwards. -/
theorem lispQueryM_run {σ : Type} {w : QueryWorld σ} {t : Trace} {q : FQuery} {types : List (List U8)} {hard : Pred}
    {softs : List Pred} {cache : PointsCache} {s : σ} (m : FMem)
    (htypes : getTypes t = .ok types) (hq : q.Fine types hard softs) (ht : TraceExportable w t) (hc : CacheOf t cache)
    (hfit : ResultsFit w t q types hard softs cache s) :
    ∃ fvs res m', freeVars types q.varTypes = .ok fvs ∧
      res = protectedResult w t fvs hard softs q cache s ∧
      lispQueryM w t q cache s m = (res, m') ∧
      ((res.isOk = true ∨ res = .throw .lisp) → ∃ a p r, m.Adds m' a p r ∧ Released a p ∧
        (if res.isOk then RDead r else RLive r) ∧
        (r = [] → res.isOk = false → ∀ mask stmt rs c s', fileArgs q.file = .ok (mask, stmt) →
          queryTrace w.env w.pick w.ev t ⟨fvs, hard, softs, q.seed, mask, stmt⟩ q.filter.isSome cache s ≠ .ok (rs, c, s'))) := by
  obtain ⟨pss, A, pred, ps, new, hbs, bss, m1, hpss, hA, hrun, hv, hpr, hres, hp, hsoft, hn, hb⟩ :=
    lispQueryM_prepared (w := w) htypes hq cache s m
  have hk : ∀ ps ∈ pss, (storeTypes ps).2 = true := by
    intro ps hps
    rw [hpss] at hps
    obtain ⟨ts, hts, rfl⟩ := List.mem_map.mp hps
    exact (storeTypes_known (hq.types ts hts)).1
  have hl : ∀ ps ∈ pss, ps.length < 2 ^ 32 := by
    intro ps hps
    rw [hpss] at hps
    obtain ⟨ts, hts, rfl⟩ := List.mem_map.mp hps
    simpa using hq.small.2.1 ts hts
  have hlen : q.varTypes.length = pss.length := by rw [hpss]; simp
  have harr : m1.arrays[A.length + 1 + pss.length]? = some ⟨true, .ptrs ps⟩ := by
    have e : m1.arrays = (A ++ ⟨true, .vars (cVarEntries (A.length + 1) pss)⟩ :: pss.map (typeBlock true)) ++
      [⟨true, .ptrs ps⟩] := by rw [hv.eq]; simp
    have hlen : (A ++ ⟨true, .vars (cVarEntries (A.length + 1) pss)⟩ :: pss.map (typeBlock true) : AHeap).length =
      A.length + 1 + pss.length := by simp; omega
    rw [e, ← hlen, getElem?_mid]
  have hfv : freeVars types q.varTypes = .ok (pss.map fun ps => (storeTypes ps).1) := by
    rw [hpss]; exact freeVars_known hq.types
  obtain ⟨m2, r, hbody, hmem, hnil⟩ := protectedBody_eq (q := q) ht hc hlen (by have := hq.small.1; omega) hv hk hl hp harr hsoft
    (fun mask stmt rs c s' => hfit _ mask stmt rs c s' hfv)
  obtain ⟨hm1, hm2, hm3, c, hm4, hm5⟩ := hmem
  have hv2 : VarsAt m2 A (⟨true, .ptrs ps⟩ :: c) pss := ⟨by rw [hm4, hv.eq]; simp⟩
  have hclean := queryCleanup_eq (m := m2) (D := c) rfl hv2 (by rw [hm1]; exact hp) (by rw [hm1]; exact hsoft) hn
  rw [hm1, hpr, killed_new _ _ _ hb] at hclean
  have hcl : ∀ {α : Type} (x : Res α), (FM.bind (queryCleanup pred ps (A.length + 1 + pss.length) A.length pss.length)
      (fun _ => FM.lift x)) m2 = (x, { m2 with
        preds := m.preds ++ new.map fun b => { b with live := false }
        arrays := A ++ ⟨false, .vars (cVarEntries (A.length + 1) pss)⟩ ::
          (pss.map (typeBlock false) ++ ⟨false, .ptrs ps⟩ :: c) }) := by
    intro α x
    simp only [FM.bind, hclean, FM.lift_apply]
  have hfinal : ∀ m' : FMem, m' = { m2 with
        preds := m.preds ++ new.map fun b => { b with live := false }
        arrays := A ++ ⟨false, .vars (cVarEntries (A.length + 1) pss)⟩ ::
          (pss.map (typeBlock false) ++ ⟨false, .ptrs ps⟩ :: c) } →
      ∃ a p, m.Adds m' a p r ∧ Released a p := by
    rintro m' rfl
    refine ⟨⟨false, .strings types⟩ :: ⟨false, .vars (cVarEntries (A.length + 1) pss)⟩ ::
          (pss.map (typeBlock false) ++ ⟨false, .ptrs ps⟩ :: c), new.map fun b => { b with live := false },
      ⟨by simp [hA], rfl, by simp [hm2, hres]⟩, ?_, ?_⟩
    · intro b hb
      simp only [List.mem_cons, List.mem_append, List.mem_map] at hb
      rcases hb with rfl | rfl | ⟨x, _, rfl⟩ | rfl | hb
      · rfl
      · rfl
      · rfl
      · rfl
      · exact hm5 b hb
    · intro b hb
      obtain ⟨x, _, rfl⟩ := List.mem_map.mp hb
      rfl
  rw [hlen] at hrun
  unfold FM.unwindProtect at hrun
  rw [hbody] at hrun
  generalize hR : protectedResult w t (pss.map fun ps => (storeTypes ps).1) hard softs q cache s = res at hrun hm3 hnil
  cases res with
  | ok a =>
    simp only [hcl] at hrun
    obtain ⟨a', p', h1, h2⟩ := hfinal _ rfl
    exact ⟨_, _, _, hfv, hR.symm, hrun, fun _ => ⟨a', p', r, h1, h2, hm3, hnil⟩⟩
  | throw e =>
    by_cases he : e = .lisp
    · subst he
      simp only [hcl] at hrun
      obtain ⟨a', p', h1, h2⟩ := hfinal _ rfl
      exact ⟨_, _, _, hfv, hR.symm, hrun, fun _ => ⟨a', p', r, h1, h2, hm3, hnil⟩⟩
    · refine ⟨_, _, m2, hfv, hR.symm, ?_, fun h => ?_⟩
      · cases e <;> first | exact hrun | exact absurd rfl he
      · rcases h with h | h
        · simp [Res.isOk] at h
        · simp at h; exact absurd h he
  | abort => exact ⟨_, _, m2, hfv, hR.symm, hrun, fun h => by simp [Res.isOk] at h⟩
  | ub k => exact ⟨_, _, m2, hfv, hR.symm, hrun, fun h => by simp [Res.isOk] at h⟩
  | hang => exact ⟨_, _, m2, hfv, hR.symm, hrun, fun h => by simp [Res.isOk] at h⟩

end TraceDB
