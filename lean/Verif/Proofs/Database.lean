import Verif.Spec.Database
import Verif.Proofs.Export
import Verif.Proofs.Query
/-
The type table built by `add_trace_points`, and histories of database calls.
-/
namespace TraceDB

theorem lookup_assign (k k' : U32) (f : TypeFormat) (m : FormatMap) :
    (m.assign k f).lookup k' = if k' = k then some f else m.lookup k' := by
  induction m with
  | nil =>
    by_cases h : k' = k
    · subst h; simp [FormatMap.assign]
    · simp [FormatMap.assign, h, List.lookup]
      have : (k' == k) = false := by simp [h]
      simp [this]
  | cons a m ih =>
    obtain ⟨j, g⟩ := a
    unfold FormatMap.assign
    by_cases h : k' = k
    · subst h
      split
      · simp [List.lookup]
      · split
        · simp [List.lookup]
        · rename_i h2
          have : (k' == j) = false := by simp [h2]
          simp [List.lookup, this, ih]
    · simp only [h, if_false] at ih ⊢
      have hk : (k' == k) = false := by simp [h]
      split
      · simp [List.lookup, hk]
      · split
        · rename_i h2
          subst h2
          simp [List.lookup, hk]
        · simp only [List.lookup]
          split <;> simp_all

/-- Keys ascending. -/
def FormatMap.Sorted (m : FormatMap) : Prop := m.Pairwise fun a b => a.1.toNat < b.1.toNat

theorem mem_assign (k : U32) (f : TypeFormat) (m : FormatMap) (x : U32 × TypeFormat)
    (h : x ∈ m.assign k f) : x = (k, f) ∨ x ∈ m := by
  induction m with
  | nil => simpa [FormatMap.assign] using h
  | cons a m ih =>
    unfold FormatMap.assign at h
    split at h
    · simpa using h
    · split at h
      · rcases List.mem_cons.mp h with h | h
        · exact .inl h
        · exact .inr (List.mem_cons_of_mem _ h)
      · rcases List.mem_cons.mp h with h | h
        · exact .inr (by rw [h]; exact List.mem_cons_self ..)
        · rcases ih h with h | h
          · exact .inl h
          · exact .inr (List.mem_cons_of_mem _ h)

theorem sorted_assign (k : U32) (f : TypeFormat) (m : FormatMap) (hm : m.Sorted) : (m.assign k f).Sorted := by
  induction m with
  | nil => simp [FormatMap.assign, FormatMap.Sorted]
  | cons a m ih =>
    obtain ⟨j, g⟩ := a
    obtain ⟨h1, h2⟩ := List.pairwise_cons.mp hm
    unfold FormatMap.assign
    split
    · rename_i hlt
      refine List.pairwise_cons.mpr ⟨?_, hm⟩
      intro x hx
      rcases List.mem_cons.mp hx with hx | hx
      · rw [hx]; exact hlt
      · exact Nat.lt_trans hlt (h1 x hx)
    · split
      · rename_i _ e
        subst e
        exact List.pairwise_cons.mpr ⟨h1, h2⟩
      · rename_i hlt hne
        refine List.pairwise_cons.mpr ⟨?_, ih h2⟩
        intro x hx
        rcases mem_assign k f m x hx with hx | hx
        · rw [hx]
          have : j.toNat ≠ k.toNat := fun e => hne (BitVec.eq_of_toNat_eq e.symm)
          show j.toNat < k.toNat
          omega
        · exact h1 x hx

theorem lookup_isSome_any (m : FormatMap) (k : U32) : (m.lookup k).isSome = m.any (·.1 == k) := by
  induction m with
  | nil => rfl
  | cons a m ih =>
    obtain ⟨j, g⟩ := a
    simp only [List.lookup, List.any_cons]
    by_cases h : k = j
    · subst h; simp
    · have h1 : (k == j) = false := by simp [h]
      have h2 : (j == k) = false := by simp [Ne.symm h]
      simp [h1, h2, ih]

theorem lookup_noteFormat (m : FormatMap) (v : InVar) (k : U32) :
    (noteFormat m v).lookup k =
      if v.typeNameIndex = k ∧ v.value.toInt < 0 then some .signed
      else match m.lookup k with
        | some f => some f
        | none => if v.typeNameIndex = k then some .unsigned else none := by
  unfold noteFormat
  by_cases hv : v.value.toInt < 0
  · simp only [hv, if_true, and_true]
    rw [lookup_assign]
    by_cases hk : v.typeNameIndex = k
    · simp [hk]
    · simp only [Ne.symm hk, if_false, hk]
      cases m.lookup k <;> rfl
  · simp only [hv, if_false, and_false]
    rw [← lookup_isSome_any]
    cases hl : m.lookup v.typeNameIndex with
    | some g =>
      simp only [Option.isSome_some, if_true]
      by_cases hk : v.typeNameIndex = k
      · subst hk; simp [hl]
      · simp only [hk, if_false]; cases m.lookup k <;> rfl
    | none =>
      simp only [Option.isSome_none, Bool.false_eq_true, if_false]
      rw [lookup_assign]
      by_cases hk : v.typeNameIndex = k
      · subst hk; simp [hl]
      · simp only [Ne.symm hk, if_false, hk]; cases m.lookup k <;> rfl

theorem lookup_foldl_note (vs : List InVar) (m : FormatMap) (k : U32) :
    (vs.foldl noteFormat m).lookup k =
      if ∃ v ∈ vs, v.typeNameIndex = k ∧ v.value.toInt < 0 then some .signed
      else match m.lookup k with
        | some f => some f
        | none => if ∃ v ∈ vs, v.typeNameIndex = k then some .unsigned else none := by
  induction vs generalizing m with
  | nil => simp; cases m.lookup k <;> rfl
  | cons v vs ih =>
    simp only [List.foldl_cons, ih, lookup_noteFormat, List.mem_cons, exists_eq_or_imp]
    by_cases h1 : ∃ v ∈ vs, v.typeNameIndex = k ∧ v.value.toInt < 0
    · simp only [h1, if_true, or_true]
    · simp only [h1, if_false, or_false]
      by_cases h2 : v.typeNameIndex = k ∧ v.value.toInt < 0
      · simp only [h2, if_true, and_self]
      · simp only [h2, if_false]
        cases m.lookup k with
        | some f => rfl
        | none =>
          by_cases h3 : v.typeNameIndex = k
          · simp [h3]
          · simp [h3]

theorem sorted_noteFormat (m : FormatMap) (v : InVar) (h : m.Sorted) : (noteFormat m v).Sorted := by
  unfold noteFormat
  split
  · exact sorted_assign _ _ _ h
  · split
    · exact h
    · exact sorted_assign _ _ _ h

theorem sorted_foldl_note (vs : List InVar) (m : FormatMap) (h : m.Sorted) : (vs.foldl noteFormat m).Sorted := by
  induction vs generalizing m with
  | nil => exact h
  | cons v vs ih => exact ih _ (sorted_noteFormat m v h)

theorem noteFormats_flat (points : List InPoint) :
    noteFormats points = (allInVars points).foldl noteFormat [] := by
  unfold noteFormats allInVars
  generalize ([] : FormatMap) = m
  induction points generalizing m with
  | nil => rfl
  | cons p ps ih => simp only [List.foldl_cons, List.flatMap_cons, List.foldl_append, ih]

theorem noteFormats_sorted (points : List InPoint) : (noteFormats points).Sorted := by
  rw [noteFormats_flat]
  exact sorted_foldl_note _ _ List.Pairwise.nil

/-- A strictly ascending list of numbers below `n` (and from `lo` on). -/
theorem length_le_of_ascending (l : List Nat) (lo n : Nat) (h : l.Pairwise (· < ·))
    (hlo : ∀ x ∈ l, lo ≤ x) (hn : ∀ x ∈ l, x < n) : l.length ≤ n - lo := by
  induction l generalizing lo with
  | nil => simp
  | cons a l ih =>
    obtain ⟨h1, h2⟩ := List.pairwise_cons.mp h
    have := ih (a + 1) h2 (fun x hx => h1 x hx) (fun x hx => hn x (List.mem_cons_of_mem _ hx))
    have ha := hlo a (List.mem_cons_self ..)
    have hb := hn a (List.mem_cons_self ..)
    simp only [List.length_cons]
    omega

theorem sorted_length (m : FormatMap) (h : m.Sorted) : m.length ≤ 2 ^ 32 := by
  have := length_le_of_ascending (m.map (·.1.toNat)) 0 (2 ^ 32) (List.pairwise_map.mpr h) (by simp)
    (by intro x hx; obtain ⟨y, _, rfl⟩ := List.mem_map.mp hx; exact y.1.isLt)
  simpa using this

theorem typeIndexOf_lookup (m : FormatMap) (k : U32) (f : TypeFormat) (h : m.lookup k = some f) :
    (typesOf m)[typeIndexOf (typesOf m) k]? = some ⟨k, f, 8⟩ := by
  induction m with
  | nil => simp at h
  | cons a m ih =>
    obtain ⟨j, g⟩ := a
    simp only [List.lookup] at h
    simp only [typesOf, List.map_cons, typeIndexOf, List.findIdx_cons]
    by_cases hk : k = j
    · subst hk
      simp at h
      simp [h]
    · have h1 : (k == j) = false := by simp [hk]
      have h2 : (j == k) = false := by simp [Ne.symm hk]
      simp only [h1] at h
      simp only [h2, cond_false, List.getElem?_cons_succ]
      exact ih h

/-- The format chosen for a type name. -/
def formatOf (points : List InPoint) (k : U32) : TypeFormat :=
  if ∃ w ∈ allInVars points, w.typeNameIndex = k ∧ w.value.toInt < 0 then .signed else .unsigned

theorem lookup_noteFormats (points : List InPoint) (v : InVar) (hv : v ∈ allInVars points) :
    (noteFormats points).lookup v.typeNameIndex = some (formatOf points v.typeNameIndex) := by
  rw [noteFormats_flat, lookup_foldl_note]
  unfold formatOf
  split
  · rfl
  · have : ∃ w ∈ allInVars points, w.typeNameIndex = v.typeNameIndex := ⟨v, hv, rfl⟩
    simp [this]

/-- The record made for a variable. -/
def madeVar (points : List InPoint) (v : InVar) : VarInfo :=
  ⟨.word v.value, v.nameIndex, BitVec.ofNat 32 (typeIndexOf (typesOf (noteFormats points)) v.typeNameIndex),
    formatOf points v.typeNameIndex, 8, v.bufferSize, v.hasBufferSize⟩

theorem inVar_eq (points : List InPoint) (v : InVar) (hv : v ∈ allInVars points) :
    inVar (typesOf (noteFormats points)) v = .ok (madeVar points v) ∧
    (typesOf (noteFormats points))[(madeVar points v).typeIndex.toNat]? =
      some ⟨v.typeNameIndex, formatOf points v.typeNameIndex, 8⟩ := by
  have h := typeIndexOf_lookup _ _ _ (lookup_noteFormats points v hv)
  have hl := (List.getElem?_eq_some_iff.mp h).1
  have hs := sorted_length _ (noteFormats_sorted points)
  have hlen : (typesOf (noteFormats points)).length = (noteFormats points).length := by simp [typesOf]
  refine ⟨?_, ?_⟩
  · simp only [inVar, h, madeVar]
  · simp only [madeVar, BitVec.toNat_ofNat]
    rw [Nat.mod_eq_of_lt (by omega)]
    exact h

theorem inVars_eq (points : List InPoint) (vs : List InVar) (hv : ∀ v ∈ vs, v ∈ allInVars points) :
    inVars (typesOf (noteFormats points)) vs = .ok (vs.map (madeVar points)) := by
  induction vs with
  | nil => rfl
  | cons v vs ih =>
    simp [inVars, (inVar_eq points v (hv v (List.mem_cons_self ..))).1,
      ih (fun w hw => hv w (List.mem_cons_of_mem _ hw))]

/-- The points made. -/
def madePoints (points : List InPoint) : Nat → List InPoint → List Point
  | _, [] => []
  | i, p :: ps => ⟨BitVec.ofNat 64 i, p.statement, [], p.vars.map (madeVar points), []⟩ :: madePoints points (i + 1) ps

theorem inPoints_eq (points : List InPoint) (ps : List InPoint) (i : Nat)
    (hv : ∀ p ∈ ps, ∀ v ∈ p.vars, v ∈ allInVars points) (ha : ∀ p ∈ ps, p.aux = []) :
    inPoints (typesOf (noteFormats points)) i ps = .ok (madePoints points i ps) := by
  induction ps generalizing i with
  | nil => rfl
  | cons p ps ih =>
    have h1 := inVars_eq points p.vars (hv p (List.mem_cons_self ..))
    have h2 := ih (i + 1) (fun q hq => hv q (List.mem_cons_of_mem _ hq)) (fun q hq => ha q (List.mem_cons_of_mem _ hq))
    simp [inPoints, inPoint, ha p (List.mem_cons_self ..), h1, h2, madePoints]

theorem inPoints_aux (points : List InPoint) (ps : List InPoint) (i : Nat)
    (hv : ∀ p ∈ ps, ∀ v ∈ p.vars, v ∈ allInVars points) (ha : ∃ p ∈ ps, p.aux ≠ []) :
    inPoints (typesOf (noteFormats points)) i ps = .ub .oobWrite := by
  induction ps generalizing i with
  | nil => simp at ha
  | cons p ps ih =>
    have h1 := inVars_eq points p.vars (hv p (List.mem_cons_self ..))
    by_cases hp : p.aux = []
    · obtain ⟨q, hq, hne⟩ := ha
      have hq' : q ∈ ps := by
        rcases List.mem_cons.mp hq with h | h
        · subst h; exact absurd hp hne
        · exact h
      have h2 := ih (i + 1) (fun q hq => hv q (List.mem_cons_of_mem _ hq)) ⟨q, hq', hne⟩
      simp [inPoints, inPoint, hp, h1, h2]
    · have : p.aux.isEmpty = false := by simpa using hp
      simp [inPoints, inPoint, this]

theorem length_madePoints (points ps : List InPoint) (i : Nat) : (madePoints points i ps).length = ps.length := by
  induction ps generalizing i with
  | nil => rfl
  | cons p ps ih => simp [madePoints, ih]

theorem madePoints_get (points ps : List InPoint) (i k : Nat) (p : InPoint) (h : ps[k]? = some p) :
    (madePoints points i ps)[k]? =
      some ⟨BitVec.ofNat 64 (i + k), p.statement, [], p.vars.map (madeVar points), []⟩ := by
  induction ps generalizing i k with
  | nil => simp at h
  | cons q ps ih =>
    cases k with
    | zero => simp at h; subst h; simp [madePoints]
    | succ k =>
      simp only [List.getElem?_cons_succ] at h
      simp only [madePoints, List.getElem?_cons_succ]
      rw [ih (i + 1) k h]
      congr 3; omega

theorem mem_allInVars (points : List InPoint) (p : InPoint) (hp : p ∈ points) (v : InVar) (hv : v ∈ p.vars) :
    v ∈ allInVars points := List.mem_flatMap.mpr ⟨p, hp, hv⟩

/-- The trace made when no point has auxiliary values. -/
theorem traceOfPoints_eq (points : List InPoint) (names : List Name) (ha : ∀ p ∈ points, p.aux = []) :
    traceOfPoints points names =
      .ok ⟨names, typesOf (noteFormats points), madePoints points 0 points⟩ := by
  simp [traceOfPoints, inPoints_eq points points 0 (mem_allInVars points) ha]

theorem traceOfPoints_aux (points : List InPoint) (names : List Name) (ha : ∃ p ∈ points, p.aux ≠ []) :
    traceOfPoints points names = .ub .oobWrite := by
  simp [traceOfPoints, inPoints_aux points points 0 (mem_allInVars points) ha]

/-! Histories -/

theorem addTrace_traces (grow : Nat → Nat) (db : Db) (t : Trace) :
    (db.addTrace grow t).traces = db.traces ++ [t] := by
  unfold Db.addTrace; split <;> rfl

/-- The caches only hold what the filter would give. -/
def FilterCacheOk (points : List Point) (c : PointsCache) : Prop :=
  ∀ k ps, c.lookup k = some ps → ps = filterPoints points k.1 k.2

/-- Every trace has a correct cache. -/
def Db.Ok (db : Db) : Prop :=
  db.caches.length = db.traces.length ∧
  ∀ (i : Nat) (t : Trace) (c : PointsCache), db.traces[i]? = some t → db.caches[i]? = some c → FilterCacheOk t.points c

theorem getPoints_ok (points : List Point) (c : PointsCache) (hc : FilterCacheOk points c) (mask stmt : U64) :
    (getPoints points c mask stmt).1 = filterPoints points mask stmt ∧
    FilterCacheOk points (getPoints points c mask stmt).2 := by
  unfold getPoints
  cases h : c.lookup (mask, stmt) with
  | some ps => exact ⟨hc _ _ h, hc⟩
  | none =>
    refine ⟨rfl, ?_⟩
    intro k ps hk
    simp only [List.lookup] at hk
    split at hk
    · rename_i hb
      have : k = (mask, stmt) := by simpa using hb
      subst this; cases hk; rfl
    · exact hc k ps hk

theorem addTrace_ok (grow : Nat → Nat) (db : Db) (t : Trace) (h : db.Ok) : (db.addTrace grow t).Ok := by
  unfold Db.addTrace
  split
  · refine ⟨by simp [h.1], ?_⟩
    intro i u c hu hc
    simp only at hu hc
    by_cases hi : i < db.traces.length
    · rw [List.getElem?_append_left hi] at hu
      rw [List.getElem?_append_left (by rw [h.1]; exact hi)] at hc
      exact h.2 i u c hu hc
    · rw [List.getElem?_append_right (by rw [h.1]; omega)] at hc
      have : c = [] := by
        cases hj : i - db.caches.length <;> rw [hj] at hc <;> simp at hc
        exact hc
      subst this
      intro k ps hk; simp at hk
  · refine ⟨by simp, ?_⟩
    intro i u c hu hc
    simp only [List.getElem?_map] at hu hc
    rw [hu] at hc
    cases hc
    intro k ps hk; simp at hk

theorem query_cache {σ : Type} (env : Env) (pick : U32 → Nat → Nat) (ev : Evaluator σ) (t : Trace) (q : Query)
    (keep : Bool) (c c' : PointsCache) (s s' : σ) (rs : List Point) (hc : FilterCacheOk t.points c)
    (h : queryTrace env pick ev t q keep c s = .ok (rs, c', s')) :
    FilterCacheOk t.points c' ∧ ∃ c'', queryTrace env pick ev t q keep [] s = .ok (rs, c'', s') := by
  have h1 := getPoints_ok t.points c hc q.mask q.stmt
  have h2 := getPoints_ok t.points [] (by intro k ps hk; simp at hk) q.mask q.stmt
  have e1 : getPoints t.points c q.mask q.stmt = ((getPoints t.points c q.mask q.stmt).1,
    (getPoints t.points c q.mask q.stmt).2) := rfl
  have e2 : getPoints t.points [] q.mask q.stmt = ((getPoints t.points [] q.mask q.stmt).1,
    (getPoints t.points [] q.mask q.stmt).2) := rfl
  rw [h1.1] at e1
  rw [h2.1] at e2
  unfold queryTrace query at h ⊢
  rw [e1] at h
  rw [e2]
  simp only [Res.pure_eq, Res.bind_assoc, Res.ok_bind] at h ⊢
  obtain ⟨⟨rs1, s1⟩, e3, e4⟩ := Res.bind_eq_ok.mp h
  simp only at e4
  have e5 := Res.ok.inj e4
  simp only [Prod.mk.injEq] at e5
  refine ⟨by rw [← e5.2.1]; exact h1.2, (getPoints t.points [] q.mask q.stmt).2, ?_⟩
  rw [e3]
  simp only [Res.ok_bind]
  rw [← e5.1, ← e5.2.2]

/-- One call. -/
theorem runCall_spec (w : World) (fs : FloatSys) (db : Db) (h : db.Ok) (c : Call) (a : Answer) (db' : Db) (s s' : Unit)
    (e : runCall w (plainEval fs) db s c = .ok (a, db', s')) :
    db'.Ok ∧ db'.traces = db.traces ++ (c.adds w.env).toList ∧ Answers w fs db.traces c a := by
  cases c with
  | addTrace src k =>
    simp only [runCall] at e
    obtain ⟨⟨n, d⟩, e1, e2⟩ := Res.bind_eq_ok.mp e
    cases e2
    cases src with
    | none =>
      cases e1
      exact ⟨h, by simp [Call.adds], by simp [Answers, Call.adds]⟩
    | some st =>
      simp only [addTraceApi] at e1
      split at e1
      · rename_i t ht
        cases e1
        refine ⟨addTrace_ok _ _ _ h, ?_, ?_⟩
        · simp [addTrace_traces, Call.adds, ht]
        · simp [Answers, Call.adds, ht]
      · rename_i x ht
        cases e1
        exact ⟨h, by simp [Call.adds, ht], by simp [Answers, Call.adds, ht]⟩
      all_goals cases e1
  | addTracePoints ps names =>
    simp only [runCall] at e
    obtain ⟨⟨n, d⟩, e1, e2⟩ := Res.bind_eq_ok.mp e
    cases e2
    unfold addTracePointsApi at e1
    obtain ⟨t, e3, e4⟩ := Res.bind_eq_ok.mp e1
    cases e4
    exact ⟨addTrace_ok _ _ _ h, by simp [addTrace_traces, Call.adds, e3], rfl⟩
  | getTrace i =>
    simp only [runCall] at e
    obtain ⟨p, e1, e2⟩ := Res.bind_eq_ok.mp e
    cases e2
    unfold getTraceApi at e1
    split at e1
    · rename_i hi
      cases e1
      exact ⟨h, by simp [Call.adds], hi, _, rfl⟩
    · cases e1
  | nTraces =>
    cases e
    exact ⟨h, by simp [Call.adds], by simp [Answers, nTracesApi]⟩
  | query i q keep =>
    simp only [runCall] at e
    obtain ⟨⟨rs, d, s1⟩, e1, e2⟩ := Res.bind_eq_ok.mp e
    cases e2
    unfold queryTraceApi at e1
    split at e1
    · rename_i t c ht hc
      obtain ⟨⟨rs', c', s2⟩, e3, e4⟩ := Res.bind_eq_ok.mp e1
      cases e4
      obtain ⟨k1, c'', k2⟩ := query_cache _ _ _ _ _ _ _ _ _ _ _ (h.2 _ _ _ ht hc) e3
      refine ⟨⟨by simp [h.1], ?_⟩, by simp [Call.adds], t, _, c'', ht, rfl, k2⟩
      intro j u d hu hd
      simp only [List.getElem?_set] at hd
      split at hd
      · rename_i hij
        subst hij
        split at hd
        · cases hd
          simp only at hu
          rw [ht] at hu
          cases hu
          exact k1
        · cases hd
      · exact h.2 j u d hu hd
    · cases e1

theorem runCalls_spec (w : World) (fs : FloatSys) (cs : List Call) (db : Db) (h : db.Ok) (as : List Answer) (db' : Db)
    (s s' : Unit) (e : runCalls w (plainEval fs) db s cs = .ok (as, db', s')) :
    db'.Ok ∧ db'.traces = db.traces ++ added w.env cs ∧ as.length = cs.length ∧
    ∀ (i : Nat) (c : Call) (a : Answer), cs[i]? = some c → as[i]? = some a →
      Answers w fs (db.traces ++ added w.env (cs.take i)) c a := by
  induction cs generalizing db as with
  | nil => cases e; exact ⟨h, by simp [added], rfl, by simp⟩
  | cons c cs ih =>
    simp only [runCalls] at e
    obtain ⟨⟨a, d, s1⟩, e1, e2⟩ := Res.bind_eq_ok.mp e
    simp only at e2
    obtain ⟨⟨as', d', s2⟩, e3, e4⟩ := Res.bind_eq_ok.mp e2
    simp only at e4
    cases e4
    obtain ⟨k1, k2, k3⟩ := runCall_spec w fs db h c a d s s1 e1
    obtain ⟨j1, j2, j3, j4⟩ := ih d k1 as' e3
    have hadd : ∀ l, added w.env (c :: l) = (c.adds w.env).toList ++ added w.env l := by
      intro l
      simp only [added, List.filterMap_cons]
      cases c.adds w.env <;> rfl
    refine ⟨j1, by rw [j2, k2, hadd, List.append_assoc], by simp [j3], ?_⟩
    intro i c' a' hc ha
    cases i with
    | zero =>
      simp at hc ha
      subst hc ha
      simpa [added] using k3
    | succ i =>
      simp only [List.getElem?_cons_succ] at hc ha
      have := j4 i c' a' hc ha
      rw [List.take_succ_cons, hadd, ← List.append_assoc, ← k2]
      exact this

end TraceDB
