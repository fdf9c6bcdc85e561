import Verif.Spec.IndexSafety
import Verif.Proofs.QueryMemoryConvert
import Verif.Proofs.ArchiveDb
import Verif.Proofs.SameAnswers
import Verif.Props.Database
import Verif.Props.Archive
/-
Indices of types in databases.
-/
namespace TraceDB

theorem exportVars_bad (types : List TypeDesc) (vs : List VarInfo) (h : ∃ v ∈ vs, types.length ≤ v.typeIndex.toNat) :
    exportVars types vs = .ub .oobRead := by
  induction vs with
  | nil => obtain ⟨v, hv, _⟩ := h; cases hv
  | cons v vs ih =>
    simp only [exportVars]
    by_cases hv : types.length ≤ v.typeIndex.toNat
    · rw [List.getElem?_eq_none hv]
    · rw [List.getElem?_eq_getElem (by omega)]
      obtain ⟨w, hw, hw'⟩ := h
      rcases List.mem_cons.mp hw with rfl | hw
      · exact absurd hw' hv
      · simp only [ih ⟨w, hw, hw'⟩]
        rfl

theorem exportPoint_bad (abi : Abi) (ae : AllocEnv) (types : List TypeDesc) (k i : Nat) (p : Point) (h : Heap)
    (cells : List (Option Cell)) (hsz : 0 < abi.sizeVar) (hk : h[k]? = some ⟨cells, true⟩) (hi : i < cells.length)
    (hal : ∀ n, ae.canAlloc n = true) (hbad : ∃ v ∈ p.vars, types.length ≤ v.typeIndex.toNat) :
    exportPoint abi ae types (k + 1) i p h = .ub .oobRead := by
  have hok := exportPoint_eq abi ae (List.replicate (2 ^ 32) ⟨0, .unsigned, 0⟩) k i p h cells hsz hk hi
    (fun v _ => by rw [List.length_replicate]; exact v.typeIndex.isLt) (hal _) (hal _)
  unfold exportPoint at hok ⊢
  generalize allocBlock ae (p.vars.length * abi.sizeVar) abi.sizeVar (some (.var zeroVar)) h = r at hok ⊢
  obtain ⟨cVars, h'⟩ := r
  simp only at hok ⊢
  generalize allocBlock ae (p.aux.length * 8) 8 (some (.word 0)) h' = r at hok ⊢
  obtain ⟨cAux, h''⟩ := r
  simp only at hok ⊢
  obtain ⟨h1, e1, hok⟩ := Res.bind_eq_ok.mp hok
  obtain ⟨h2, e2, hok⟩ := Res.bind_eq_ok.mp hok
  rw [e1, Res.ok_bind, e2, Res.ok_bind, exportVars_bad types p.vars hbad]
  rfl

theorem exportLoop_bad (abi : Abi) (ae : AllocEnv) (types : List TypeDesc) (k : Nat) (hsz : 0 < abi.sizeVar)
    (hal : ∀ n, ae.canAlloc n = true) (ps : List Point) (hbad : ∃ p ∈ ps, ∃ v ∈ p.vars, types.length ≤ v.typeIndex.toNat)
    (i : Nat) (h : Heap) (cells : List (Option Cell)) (hk : h[k]? = some ⟨cells, true⟩) (hi : i + ps.length ≤ cells.length) :
    exportLoop abi ae types (k + 1) i ps h = .ub .oobRead := by
  induction ps generalizing i h cells with
  | nil => obtain ⟨p, hp, _⟩ := hbad; cases hp
  | cons p ps ih =>
    simp only [List.length_cons] at hi
    by_cases hp : ∃ v ∈ p.vars, types.length ≤ v.typeIndex.toNat
    · simp only [exportLoop, exportPoint_bad abi ae types k i p h cells hsz hk (by omega) hal hp]
      rfl
    · have hgood : ∀ v ∈ p.vars, v.typeIndex.toNat < types.length := fun v hv =>
        Nat.lt_of_not_le fun e => hp ⟨v, hv, e⟩
      have hkl := (List.getElem?_eq_some_iff.mp hk).1
      simp only [exportLoop, exportPoint_eq abi ae types k i p h cells hsz hk (by omega) hgood (hal _) (hal _), Res.ok_bind]
      refine ih ?_ (i + 1) _ (cells.set i (some (.point (cpointOf ae types h.length p)))) (by
        rw [List.getElem?_append_left (by simpa using hkl)]
        simp [hkl]) (by simp; omega)
      obtain ⟨q, hq, hv⟩ := hbad
      rcases List.mem_cons.mp hq with rfl | hq
      · exact absurd hv hp
      · exact ⟨q, hq, hv⟩

theorem pointsToArray_bad (abi : Abi) (ae : AllocEnv) (types : List TypeDesc) (points : List Point) (h : Heap)
    (hp0 : 0 < abi.sizePoint) (hpv : abi.sizePoint ≤ abi.sizeVar)
    (hsmall : points.length * abi.sizeVar < 2 ^ (8 * abi.ptr.1)) (hal : ∀ n, ae.canAlloc n = true)
    (hbad : ∃ p ∈ points, ∃ v ∈ p.vars, types.length ≤ v.typeIndex.toNat) :
    pointsToArray abi ae types points h = .ub .oobRead := by
  have hne : 0 < points.length := by
    obtain ⟨p, hp, _⟩ := hbad
    exact List.length_pos_of_mem hp
  have hpos : 0 < points.length * abi.sizeVar := Nat.mul_pos hne (by omega)
  unfold pointsToArray
  simp only [Nat.mod_eq_of_lt hsmall, hpos, if_true, gt_iff_lt]
  have ha : allocBlock ae (points.length * abi.sizeVar) abi.sizePoint none h =
      (h.length + 1, h ++ [⟨List.replicate (points.length * abi.sizeVar / abi.sizePoint) none, true⟩]) := by
    unfold allocBlock
    rw [if_neg (by omega), if_pos (hal _)]
  rw [ha]
  simp only
  rw [exportLoop_bad abi ae types h.length (by omega) hal points hbad 0 _
    (List.replicate (points.length * abi.sizeVar / abi.sizePoint) none) (by simp) (by
      rw [Nat.zero_add, List.length_replicate, Nat.le_div_iff_mul_le hp0]
      exact Nat.mul_le_mul_left _ hpv)]
  rfl

theorem pointsToArray_good (abi : Abi) (ae : AllocEnv) (types : List TypeDesc) (points : List Point) (h : Heap)
    (hp0 : 0 < abi.sizePoint) (hpv : abi.sizePoint ≤ abi.sizeVar)
    (hsmall : points.length * abi.sizeVar < 2 ^ (8 * abi.ptr.1)) (hal : ∀ n, ae.canAlloc n = true)
    (hgood : ∀ p ∈ points, ∀ v ∈ p.vars, v.typeIndex.toNat < types.length) :
    ∃ ptr new, pointsToArray abi ae types points h = .ok (ptr, h ++ new) := by
  unfold pointsToArray
  by_cases hne : points = []
  · subst hne
    exact ⟨0, [], by simp⟩
  have hpos : 0 < points.length * abi.sizeVar := Nat.mul_pos (List.length_pos_iff.mpr hne) (by omega)
  simp only [Nat.mod_eq_of_lt hsmall, hpos, if_true, gt_iff_lt]
  have ha : allocBlock ae (points.length * abi.sizeVar) abi.sizePoint none h =
      (h.length + 1, h ++ [⟨List.replicate (points.length * abi.sizeVar / abi.sizePoint) none, true⟩]) := by
    unfold allocBlock
    rw [if_neg (by omega), if_pos (hal _)]
  rw [ha]
  simp only
  rw [exportLoop_eq abi ae types h.length (by omega) points (fun p hp => ⟨hgood p hp, hal _, hal _⟩) 0 _
    (List.replicate (points.length * abi.sizeVar / abi.sizePoint) none) (by simp) (by
      rw [Nat.zero_add, List.length_replicate, Nat.le_div_iff_mul_le hp0]
      exact Nat.mul_le_mul_left _ hpv), set_append_right' _ _ _ _ (Nat.le_refl _), List.append_assoc]
  exact ⟨_, _, rfl⟩

/-! Made databases -/

theorem madePoints_types (points : List InPoint) (names : List Name) :
    (⟨names, typesOf (noteFormats points), madePoints points 0 points⟩ : Trace).TypesExist := by
  intro q hq v hv
  obtain ⟨k, hk⟩ := List.mem_iff_getElem?.mp hq
  have hkl := (List.getElem?_eq_some_iff.mp hk).1
  simp only [length_madePoints] at hkl
  have := madePoints_get points points 0 k _ (List.getElem?_eq_getElem hkl)
  simp only at hk
  rw [hk] at this
  cases this
  obtain ⟨w, hw, rfl⟩ := List.mem_map.mp hv
  exact (List.getElem?_eq_some_iff.mp (inVar_eq points w (mem_allInVars points _ (List.getElem_mem hkl) w hw)).2).1

theorem adds_types (env : Env) (c : Call) : ∀ t ∈ (c.adds env).toList, t.TypesExist := by
  intro t ht
  rw [Option.mem_toList] at ht
  cases c with
  | addTrace src k =>
    cases src with
    | none => cases ht
    | some s =>
      simp only [Call.adds] at ht
      split at ht
      · rename_i t' hr
        cases ht
        intro p hp v hv
        obtain ⟨_, ty, hty, _⟩ := C09_variables_valid env k s t hr p hp v hv
        exact (List.getElem?_eq_some_iff.mp hty).1
      · cases ht
  | addTracePoints ps names =>
    simp only [Call.adds] at ht
    by_cases ha : ∀ p ∈ ps, p.aux = []
    · rw [traceOfPoints_eq ps names ha] at ht
      cases ht
      exact madePoints_types ps names
    · rw [traceOfPoints_aux ps names (by
        refine Classical.byContradiction fun hno => ha fun p hp => ?_
        exact Classical.byContradiction fun h => hno ⟨p, hp, h⟩)] at ht
      cases ht
  | getTrace i => cases ht
  | nTraces => cases ht
  | query i q keep => cases ht

theorem adds_good (env : Env) (c : Call) (hc : c.NamesNulFree) :
    ∀ t ∈ (c.adds env).toList, t.NulFree ∧ ∀ p ∈ t.points, ∀ v ∈ p.vars, v.Sized := by
  intro t ht
  refine added_good env [c] (by simpa using hc) t ?_
  rw [Option.mem_toList] at ht
  simp only [added, List.filterMap_cons, List.filterMap_nil]
  rw [ht]
  simp

/-- What holds of every database that was made. -/
structure DbInv (db : Db) : Prop where
  ok : db.Ok
  types : db.TypesExist
  nul : ∀ t ∈ db.traces, t.NulFree
  sized : ∀ t ∈ db.traces, ∀ p ∈ t.points, ∀ v ∈ p.vars, v.Sized

theorem fresh_ok (ts : List Trace) : (⟨ts, ts.map fun _ => [], ts.length, 0⟩ : Db).Ok := by
  refine ⟨by simp, ?_⟩
  intro i t c hi hc k ps hk
  simp only [List.getElem?_map] at hc
  simp only at hi
  rw [hi] at hc
  cases hc
  simp at hk

theorem dbMade_inv {db : Db} (h : DbMade db) : DbInv db := by
  induction h with
  | create =>
    refine ⟨⟨rfl, by simp [Db.create]⟩, ?_, ?_, ?_⟩ <;> (intro t ht; cases ht)
  | call w ev db db' s s' c a _ hc e ih =>
    obtain ⟨h1, h2⟩ := runCall_db w ev db ih.ok c a db' s s' e
    refine ⟨h1, ?_, ?_, ?_⟩ <;> (intro t ht; rw [h2] at ht; rcases List.mem_append.mp ht with ht | ht)
    · exact ih.types t ht
    · exact adds_types w.env c t ht
    · exact ih.nul t ht
    · exact (adds_good w.env c hc t ht).1
    · exact ih.sized t ht
    · exact (adds_good w.env c hc t ht).2
  | stored version db db' _ hc hv e ih =>
    rw [deserialize_serialize version hv db (fun t ht => (hc.each t ht).fits (ih.sized t ht)) ih.nul hc.traces hc.points] at e
    cases e
    exact ⟨fresh_ok _, ih.types, ih.nul, ih.sized⟩

theorem queryTraceApi_rows {σ : Type} {env : Env} {pick : U32 → Nat → Nat} {ev : Evaluator σ} {db db' : Db} (hok : db.Ok)
    {i : U64} {q : Query} {keep : Bool} {s s' : σ} {rs : List Point}
    (h : queryTraceApi env pick ev db i q keep s = .ok (rs, db', s')) :
    ∃ t, db.traces[i.toNat]? = some t ∧ ∀ r ∈ rs, ∃ p ∈ t.points, FromPoint q.variables.length p r := by
  unfold queryTraceApi at h
  split at h
  · rename_i t c ht hc
    obtain ⟨⟨rs1, c1, s1⟩, h, e⟩ := Res.bind_eq_ok.mp h
    cases e
    refine ⟨t, ht, ?_⟩
    unfold queryTrace query at h
    have hg := (getPoints_ok t.points c (hok.2 _ t c ht hc) q.mask q.stmt).1
    have hm : ∀ p ∈ (getPoints t.points c q.mask q.stmt).1, p ∈ t.points := fun p hp => by
      rw [hg] at hp
      exact (List.mem_filter.mp hp).1
    generalize getPoints t.points c q.mask q.stmt = g at h hm
    obtain ⟨points, c2⟩ := g
    obtain ⟨⟨r1, c3, s2⟩, h1, h⟩ := Res.bind_eq_ok.mp h
    obtain ⟨⟨r2, s3⟩, h2, h1⟩ := Res.bind_eq_ok.mp h1
    cases h1
    have hq : ∀ r ∈ r1, ∃ p ∈ t.points, FromPoint q.variables.length p r := by
      unfold queryPoints at h2
      split at h2
      · split at h2
        · cases h2; simp
        · split at h2
          · cases h2
          · rename_i p hp
            intro r hr
            exact ⟨p, hm p (List.mem_of_getElem? hp), collectResults_from h2 r hr⟩
      · intro r hr
        obtain ⟨p, hp, hf⟩ := queryAll_from h2 r hr
        exact ⟨p, hm p hp, hf⟩
    cases h
    intro r hr
    split at hr
    · exact hq r hr
    · exact hq r (dedupLoop_mem _ _ r hr)
  · cases h

end TraceDB
