import Verif.Proofs.Database
import Verif.Props.Export
import Verif.Props.Reader
import Verif.Props.RoundTrip
/-
Properties of the database: C37 to C39 and C59, and the export of accepted traces
(C36).
-/
namespace TraceDB

/-! C36 for traces from the reader -/

/-- `get_points` on every trace the reader accepts: defined, in bounds and faithful
when memory suffices and no point has 2^32 variables or auxiliary values. -/
theorem C36_accepted_traces (abi : Abi) (ae : AllocEnv) (h : Heap) (env : Env) (maxPoints : U64) (s : IStream)
    (t : Trace) (hread : readTrace env maxPoints s = .ok t)
    (hp0 : 0 < abi.sizePoint) (hpv : abi.sizePoint ≤ abi.sizeVar)
    (hsmall : t.points.length * abi.sizeVar < 2 ^ (8 * abi.ptr.1)) (hal : ∀ n, ae.canAlloc n = true)
    (hpoints : ∀ p ∈ t.points, p.vars.length < 2 ^ 32 ∧ p.aux.length < 2 ^ 32) :
    ∃ ptr new seen,
      pointsToArray abi ae t.types t.points h = .ok (ptr, h ++ new) ∧
      readArray ptr 0 t.points.length (h ++ new) = .ok seen ∧
      seen.length = t.points.length ∧
      (∀ (i : Nat) (p : Point) (s : Seen), t.points[i]? = some p → seen[i]? = some s → SeenPoint t.types p s) := by
  obtain ⟨ptr, new, seen, h1, _, h3, h4, h5, _⟩ := C36_export_faithful abi ae t.types t.points h hp0 hpv hsmall (hal _)
    (fun p hp => ⟨fun v hv => by
      obtain ⟨_, ty, hty, _⟩ := C09_variables_valid env maxPoints s t hread p hp v hv
      exact (List.getElem?_eq_some_iff.mp hty).1, (hpoints p hp).1, (hpoints p hp).2, hal _, hal _⟩)
  exact ⟨ptr, new, seen, h1, h3, h4, h5⟩

example : readTrace exEnv 0 (IStream.ofBytes exBytes) = .ok exTrace ∧ exTrace.points ≠ [] ∧
    (∀ p ∈ exTrace.points, p.vars.length < 2 ^ 32 ∧ p.aux.length < 2 ^ 32) ∧
    exTrace.points.length * Abi.lp64.sizeVar < 2 ^ (8 * Abi.lp64.ptr.1) := by
  refine ⟨by decide +kernel, by decide +kernel, by decide +kernel, by decide +kernel⟩

/-! C37 -/

/-- Points to add: two types (names 10 and 11), a negative value in the second
point. -/
def dPoints : List InPoint :=
  [⟨7, [⟨5, 0, 11, 0, false⟩, ⟨6, 1, 10, 16, true⟩], []⟩, ⟨8, [⟨-1, 2, 11, 0, false⟩], []⟩]

/-- After `add_trace_points` the new trace is the last one, `get_points` on it
succeeds, and a client reading the array sees the points it gave: same order,
statements, variable and type names, values and buffer sizes; the format of a type
is signed exactly if one of its values is negative. -/
theorem C37_points_returned (grow : Nat → Nat) (db : Db) (points : List InPoint) (names : List Name)
    (abi : Abi) (ae : AllocEnv) (h : Heap)
    (haux : ∀ p ∈ points, p.aux = []) (hvars : ∀ p ∈ points, p.vars.length < 2 ^ 32)
    (hp0 : 0 < abi.sizePoint) (hpv : abi.sizePoint ≤ abi.sizeVar)
    (hsmall : points.length * abi.sizeVar < 2 ^ (8 * abi.ptr.1)) (hal : ∀ n, ae.canAlloc n = true) :
    ∃ db' t, addTracePointsApi grow db points names = .ok (1, db') ∧ db'.traces = db.traces ++ [t] ∧
      t.names = names ∧
      ∃ ptr h' seen, pointsToArray abi ae t.types t.points h = .ok (ptr, h') ∧
        readArray ptr 0 points.length h' = .ok seen ∧ seen.length = points.length ∧
        ∀ (i : Nat) (p : InPoint) (s : Seen), points[i]? = some p → seen[i]? = some s → SeenInPoint points p s := by
  have ht := traceOfPoints_eq points names haux
  refine ⟨db.addTrace grow ⟨names, typesOf (noteFormats points), madePoints points 0 points⟩,
    ⟨names, typesOf (noteFormats points), madePoints points 0 points⟩,
    by simp only [addTracePointsApi, ht, Res.ok_bind, Res.pure_eq], addTrace_traces _ _ _, rfl, ?_⟩
  have hmem : ∀ q ∈ madePoints points 0 points, ∃ p ∈ points, q.vars = p.vars.map (madeVar points) ∧ q.aux = [] := by
    intro q hq
    obtain ⟨k, hk⟩ := List.mem_iff_getElem?.mp hq
    have hkl := (List.getElem?_eq_some_iff.mp hk).1
    rw [length_madePoints] at hkl
    have := madePoints_get points points 0 k _ (List.getElem?_eq_getElem hkl)
    rw [hk] at this
    cases this
    exact ⟨points[k], List.getElem_mem hkl, rfl, rfl⟩
  obtain ⟨ptr, new, seen, h1, _, h3, h4, h5, _⟩ := C36_export_faithful abi ae (typesOf (noteFormats points))
    (madePoints points 0 points) h hp0 hpv (by rw [length_madePoints]; exact hsmall) (hal _)
    (fun q hq => by
      obtain ⟨p, hp, hv, ha⟩ := hmem q hq
      refine ⟨?_, by rw [hv, List.length_map]; exact hvars p hp, by rw [ha]; decide, hal _, hal _⟩
      intro v hv'
      rw [hv] at hv'
      obtain ⟨w, hw, rfl⟩ := List.mem_map.mp hv'
      exact (List.getElem?_eq_some_iff.mp (inVar_eq points w (mem_allInVars points p hp w hw)).2).1)
  rw [length_madePoints] at h3 h4
  refine ⟨ptr, _, seen, h1, h3, h4, ?_⟩
  intro i p s hi hs
  obtain ⟨g1, g2, g3, g4⟩ := h5 i _ s (madePoints_get points points 0 i p hi) hs
  have hp := List.mem_of_getElem? hi
  refine ⟨g1, by rw [haux p hp]; exact g2, by simpa using g3, ?_⟩
  intro j v c hj hc
  have hv := mem_allInVars points p hp v (List.mem_of_getElem? hj)
  obtain ⟨ty, hty, hcell⟩ := g4 j (madeVar points v) c (by simp [List.getElem?_map, hj]) hc
  rw [(inVar_eq points v hv).2] at hty
  cases hty
  refine ⟨formatOf points v.typeNameIndex, hcell, ?_, ?_⟩
  · unfold formatOf
    split
    · rename_i hx; simp only [true_iff]; exact hx
    · rename_i hx; simp only [false_iff, reduceCtorEq]; exact hx
  · unfold formatOf
    split
    · rename_i hx
      obtain ⟨w, hw, e, hn⟩ := hx
      simp only [false_iff, reduceCtorEq]
      intro hall
      have := hall w hw e
      omega
    · rename_i hx
      simp only [true_iff]
      intro w hw e
      by_cases hn : w.value.toInt < 0
      · exact absurd ⟨w, hw, e, hn⟩ hx
      · omega

example : (∀ p ∈ dPoints, p.aux = []) ∧ (∀ p ∈ dPoints, p.vars.length < 2 ^ 32) ∧
    traceOfPoints dPoints [] = .ok ⟨[], [⟨10, .unsigned, 8⟩, ⟨11, .signed, 8⟩],
      [⟨0, 7, [], [⟨.word 5, 0, 1, .signed, 8, 0, false⟩, ⟨.word 6, 1, 0, .unsigned, 8, 16, true⟩], []⟩,
       ⟨1, 8, [], [⟨.word (-1), 2, 1, .signed, 8, 0, false⟩], []⟩]⟩ := by decide +kernel

/-- A point with auxiliary values is undefined behaviour: they are stored into an
empty vector. -/
theorem C37_aux_undefined (grow : Nat → Nat) (db : Db) (points : List InPoint) (names : List Name)
    (haux : ∃ p ∈ points, p.aux ≠ []) : addTracePointsApi grow db points names = .ub .oobWrite := by
  simp [addTracePointsApi, traceOfPoints_aux points names haux]

example : ∃ p ∈ (dPoints ++ [⟨9, [], [1]⟩] : List InPoint), p.aux ≠ [] := by decide

/-! C38 -/

/-- For every history of calls that runs to its end: the traces are those added
successfully, in order; every answer is the one for the traces added before it
(in particular queries see exactly the trace they name, whatever was queried
before), and what was stored at any earlier time is still there. -/
theorem C38_append_only (w : World) (fs : FloatSys) (calls : List Call) (answers : List Answer) (db : Db) (u : Unit)
    (h : runCalls w (plainEval fs) Db.create () calls = .ok (answers, db, u)) :
    db.traces = added w.env calls ∧ answers.length = calls.length ∧
    ∀ (i : Nat) (c : Call) (a : Answer), calls[i]? = some c → answers[i]? = some a →
      Answers w fs (added w.env (calls.take i)) c a ∧ added w.env (calls.take i) <+: db.traces := by
  obtain ⟨_, h2, h3, h4⟩ := runCalls_spec w fs calls Db.create
    ⟨rfl, by simp [Db.create]⟩ answers db () u h
  simp only [Db.create, List.nil_append] at h2 h4
  refine ⟨h2, h3, fun i c a hc ha => ⟨h4 i c a hc ha, ?_⟩⟩
  rw [h2]
  refine ⟨added w.env (calls.drop i), ?_⟩
  unfold added
  rw [← List.filterMap_append, List.take_append_drop]

/-- Example world. -/
def dWorld : World := ⟨(2 * ·), qEnv, fun _ n => n - 1⟩

/-- A history with every kind of call: a rejected and an accepted stream, points
added, and everything read. -/
def dCalls : List Call :=
  [.addTrace (some (IStream.ofBytes [1, 2, 3])) 0, .nTraces, .addTrace none 0,
   .addTrace (some (IStream.ofBytes exBytes)) 0, .query 0 ⟨[], .nullPred, [], 0, 0, 0⟩ false,
   .addTracePoints dPoints [], .getTrace 1, .query 1 ⟨[[0]], .nullPred, [], 0, 0, 0⟩ true, .nTraces]

example : (runCalls dWorld (plainEval exFloats) Db.create () dCalls).isOk = true ∧
    (added dWorld.env dCalls).length = 2 := by decide +kernel

/-- A query on a missing trace aborts; `get_trace` does not check its index. -/
theorem C38_bad_index {σ : Type} (w : World) (ev : Evaluator σ) (db : Db) (s : σ) (i : U64) (j : U32) (q : Query)
    (keep : Bool) (hi : db.traces.length ≤ i.toNat) (hj : db.traces.length ≤ j.toNat) :
    runCall w ev db s (.query i q keep) = .abort ∧ runCall w ev db s (.getTrace j) = .ub .oobRead := by
  constructor
  · simp [runCall, queryTraceApi, List.getElem?_eq_none hi]
  · simp [runCall, getTraceApi, Nat.not_lt.mpr hj]

example : Db.create.traces.length ≤ (0 : U64).toNat ∧ Db.create.traces.length ≤ (3 : U32).toNat := by decide

/-! C39 -/

/-- `add_trace` returns 1 exactly when the stream opens and the reader accepts it,
and then appends what was read; it returns 0 exactly when the stream does not open
or the reader throws, and then changes nothing; no other value is returned. -/
theorem C39_failed_addition (grow : Nat → Nat) (env : Env) (db : Db) (src : Source) (maxPoints : U64) (n : Nat)
    (db' : Db) (h : addTraceApi grow env db src maxPoints = .ok (n, db')) :
    (n = 0 ∧ db' = db ∧ (src = none ∨ ∃ s e, src = some s ∧ readTrace env maxPoints s = .throw e)) ∨
    (n = 1 ∧ ∃ s t, src = some s ∧ readTrace env maxPoints s = .ok t ∧ db'.traces = db.traces ++ [t]) := by
  unfold addTraceApi at h
  split at h
  · cases h; exact .inl ⟨rfl, rfl, .inl rfl⟩
  · rename_i s
    split at h
    · rename_i t ht
      cases h
      exact .inr ⟨rfl, s, t, rfl, ht, addTrace_traces _ _ _⟩
    · rename_i e ht
      cases h
      exact .inl ⟨rfl, rfl, .inr ⟨s, e, rfl, ht⟩⟩
    all_goals cases h

/-- Conversely: every stream the reader accepts or rejects gives the corresponding
answer; nothing the reader throws escapes. -/
theorem C39_answer (grow : Nat → Nat) (env : Env) (db : Db) (s : IStream) (maxPoints : U64) :
    (∀ e, readTrace env maxPoints s = .throw e → addTraceApi grow env db (some s) maxPoints = .ok (0, db)) ∧
    (∀ t, readTrace env maxPoints s = .ok t →
      ∃ db', addTraceApi grow env db (some s) maxPoints = .ok (1, db') ∧ db'.traces = db.traces ++ [t]) ∧
    (∀ e, addTraceApi grow env db (some s) maxPoints ≠ .throw e) := by
  refine ⟨fun e h => by simp [addTraceApi, h], fun t h => ⟨_, by simp [addTraceApi, h]; rfl, addTrace_traces _ _ _⟩, ?_⟩
  intro e
  unfold addTraceApi
  simp only
  cases readTrace env maxPoints s <;> simp

/-- End to end: a representable trace written to a file is added as it is. -/
theorem C39_written_trace_added (grow : Nat → Nat) (env : Env) (db : Db) (t : Trace) (hr : Representable t)
    (halloc : ∀ n, env.canAlloc n = true) :
    ∃ db', addTraceApi grow env db (some (IStream.ofBytes (writeTrace t))) 0 = .ok (1, db') ∧
      db'.traces = db.traces ++ [t] :=
  (C39_answer grow env db _ 0).2.1 t (C01_write_read_round_trip env false t hr halloc)

example : (addTraceApi (2 * ·) qEnv Db.create (some (IStream.ofBytes exBytes)) 0).isOk = true ∧
    addTraceApi (2 * ·) qEnv Db.create (some (IStream.ofBytes [1, 2, 3])) 0 = .ok (0, Db.create) := by decide +kernel

/-! C59 -/

theorem deref_step {σ : Type} (w : World) (ev : Evaluator σ) (db db' : Db) (s s' : σ) (c : Call) (a : Answer)
    (h : runCall w ev db s c = .ok (a, db', s')) :
    db.gen ≤ db'.gen ∧ db.traces <+: db'.traces ∧ (db'.gen = db.gen → db'.cap = db.cap) ∧
    (db'.traces.length ≤ db.cap → db'.gen = db.gen) ∧
    (db.cap < db'.traces.length → db.traces.length ≤ db.cap → db.gen < db'.gen) := by
  have key : ∀ t, db.gen ≤ (db.addTrace w.grow t).gen ∧ db.traces <+: (db.addTrace w.grow t).traces ∧
      ((db.addTrace w.grow t).gen = db.gen → (db.addTrace w.grow t).cap = db.cap) ∧
      ((db.addTrace w.grow t).traces.length ≤ db.cap → (db.addTrace w.grow t).gen = db.gen) ∧
      (db.cap < (db.addTrace w.grow t).traces.length → db.traces.length ≤ db.cap →
        db.gen < (db.addTrace w.grow t).gen) := by
    intro t
    unfold Db.addTrace
    split
    · refine ⟨Nat.le_refl _, by simp, by simp, by simp, ?_⟩
      intro h1 _
      simp only [List.length_append, List.length_cons, List.length_nil] at h1
      omega
    · refine ⟨by simp, by simp, by simp, ?_, by simp⟩
      intro h1
      simp only [List.length_append, List.length_cons, List.length_nil] at h1
      omega
  have same : db.gen ≤ db.gen ∧ db.traces <+: db.traces ∧ (db.gen = db.gen → db.cap = db.cap) ∧
      (db.traces.length ≤ db.cap → db.gen = db.gen) ∧
      (db.cap < db.traces.length → db.traces.length ≤ db.cap → db.gen < db.gen) :=
    ⟨Nat.le_refl _, List.prefix_refl _, fun _ => rfl, fun _ => rfl, fun h1 h2 => by omega⟩
  cases c with
  | addTrace src k =>
    simp only [runCall] at h
    obtain ⟨⟨n, d⟩, e1, e2⟩ := Res.bind_eq_ok.mp h
    cases e2
    unfold addTraceApi at e1
    split at e1
    · cases e1; exact same
    · split at e1
      · cases e1; exact key _
      · cases e1; exact same
      all_goals cases e1
  | addTracePoints ps names =>
    simp only [runCall] at h
    obtain ⟨⟨n, d⟩, e1, e2⟩ := Res.bind_eq_ok.mp h
    cases e2
    unfold addTracePointsApi at e1
    obtain ⟨t, e3, e4⟩ := Res.bind_eq_ok.mp e1
    cases e4
    exact key _
  | getTrace i =>
    simp only [runCall] at h
    obtain ⟨p, e1, e2⟩ := Res.bind_eq_ok.mp h
    cases e2
    exact same
  | nTraces => cases h; exact same
  | query i q keep =>
    simp only [runCall] at h
    obtain ⟨⟨rs, d, s1⟩, e1, e2⟩ := Res.bind_eq_ok.mp h
    cases e2
    unfold queryTraceApi at e1
    split at e1
    · obtain ⟨⟨rs', c', s2⟩, e3, e4⟩ := Res.bind_eq_ok.mp e1
      cases e4
      exact same
    · cases e1

theorem runCalls_gen {σ : Type} (w : World) (ev : Evaluator σ) (cs : List Call) (db db' : Db) (s s' : σ) (as : List Answer)
    (hcap : db.traces.length ≤ db.cap) (h : runCalls w ev db s cs = .ok (as, db', s')) :
    db.traces <+: db'.traces ∧ db.gen ≤ db'.gen ∧
    (db'.traces.length ≤ db.cap → db'.gen = db.gen) ∧
    (db.cap < db'.traces.length → db.gen < db'.gen) := by
  induction cs generalizing db as s with
  | nil => cases h; exact ⟨List.prefix_refl _, Nat.le_refl _, fun _ => rfl, fun h => by omega⟩
  | cons c cs ih =>
    simp only [runCalls] at h
    obtain ⟨⟨a, d, s1⟩, e1, e2⟩ := Res.bind_eq_ok.mp h
    simp only at e2
    obtain ⟨⟨as', d', s2⟩, e3, e4⟩ := Res.bind_eq_ok.mp e2
    simp only at e4
    cases e4
    obtain ⟨k1, k2, k3, k4, k5⟩ := deref_step w ev db d s s1 c a e1
    by_cases hg : d.gen = db.gen
    · have hc := k3 hg
      have hdl : d.traces.length ≤ d.cap := by
        rw [hc]
        by_cases hx : d.traces.length ≤ db.cap
        · exact hx
        · have := k5 (by omega) hcap; omega
      obtain ⟨j1, j2, j3, j4⟩ := ih d s1 as' hdl e3
      exact ⟨k2.trans j1, by omega, fun h => by rw [j3 (by omega), hg], fun h => by have := j4 (by omega); omega⟩
    · have hdl : d.traces.length ≤ d.cap := by
        -- a reallocation makes room
        have : ∀ t, (db.addTrace w.grow t).traces.length ≤ (db.addTrace w.grow t).cap := by
          intro t
          unfold Db.addTrace
          split
          · simp only [List.length_append, List.length_cons, List.length_nil]; omega
          · simp only [List.length_append, List.length_cons, List.length_nil]; omega
        cases c with
        | addTrace src k =>
          simp only [runCall] at e1
          obtain ⟨⟨n, d0⟩, f1, f2⟩ := Res.bind_eq_ok.mp e1
          cases f2
          unfold addTraceApi at f1
          split at f1
          · cases f1; exact hcap
          · split at f1
            · cases f1; exact this _
            · cases f1; exact hcap
            all_goals cases f1
        | addTracePoints ps names =>
          simp only [runCall] at e1
          obtain ⟨⟨n, d0⟩, f1, f2⟩ := Res.bind_eq_ok.mp e1
          cases f2
          unfold addTracePointsApi at f1
          obtain ⟨t, f3, f4⟩ := Res.bind_eq_ok.mp f1
          cases f4
          exact this _
        | getTrace i =>
          simp only [runCall] at e1
          obtain ⟨p, f1, f2⟩ := Res.bind_eq_ok.mp e1
          cases f2
          exact hcap
        | nTraces => cases e1; exact hcap
        | query i q keep =>
          simp only [runCall] at e1
          obtain ⟨⟨rs, d0, s3⟩, f1, f2⟩ := Res.bind_eq_ok.mp e1
          cases f2
          unfold queryTraceApi at f1
          split at f1
          · obtain ⟨⟨rs', c', s4⟩, f3, f4⟩ := Res.bind_eq_ok.mp f1
            cases f4
            exact hcap
          · cases f1
      obtain ⟨j1, j2, j3, j4⟩ := ih d s1 as' hdl e3
      have hlen := (k2.trans j1).length_le
      refine ⟨k2.trans j1, by omega, ?_, fun h => by omega⟩
      intro hle
      have hdle : d.traces.length ≤ db.cap := Nat.le_trans j1.length_le hle
      exact absurd (k4 hdle) hg

/-- A pointer from `get_trace` refers to the trace with that index as long as the
traces added since fit into the capacity the vector had; once they do not, using it
is undefined behaviour. -/
theorem C59_trace_pointers {σ : Type} (w : World) (ev : Evaluator σ) (db db' : Db) (s s' : σ) (i : U32) (p : TracePtr)
    (calls : List Call) (answers : List Answer) (hcap : db.traces.length ≤ db.cap)
    (hget : getTraceApi db i = .ok p) (h : runCalls w ev db s calls = .ok (answers, db', s')) :
    (db'.traces.length ≤ db.cap → ∃ t, db.traces[i.toNat]? = some t ∧ derefTrace db' p = .ok t) ∧
    (db.cap < db'.traces.length → derefTrace db' p = .ub .dangling) := by
  obtain ⟨h1, h2, h3, h4⟩ := runCalls_gen w ev calls db db' s s' answers hcap h
  unfold getTraceApi at hget
  split at hget
  · rename_i hi
    cases hget
    constructor
    · intro hle
      refine ⟨db.traces[i.toNat], List.getElem?_eq_getElem hi, ?_⟩
      obtain ⟨r, hr⟩ := h1
      have : db'.traces[i.toNat]? = some db.traces[i.toNat] := by
        rw [← hr, List.getElem?_append_left hi, List.getElem?_eq_getElem hi]
      simp [derefTrace, h3 hle, this]
    · intro hlt
      have := h4 hlt
      simp [derefTrace, show db.gen ≠ db'.gen by omega]
  · cases hget

example : ∃ (db : Db) (p : TracePtr), db.traces.length ≤ db.cap ∧ getTraceApi db 0 = .ok p ∧
    (runCalls dWorld (plainEval exFloats) db () [.addTracePoints dPoints []]).isOk = true :=
  ⟨Db.create.addTrace (2 * ·) qTrace, ⟨1, 0⟩, by decide +kernel, by decide +kernel, by decide +kernel⟩

/-- With the doubling growth of libstdc++: add a trace, take its pointer, add a
second trace, use the pointer. -/
theorem C59_pointer_dangles :
    ∃ db p db', addTracePointsApi (2 * ·) Db.create dPoints [] = .ok (1, db) ∧ getTraceApi db 0 = .ok p ∧
      (derefTrace db p).isOk = true ∧
      addTracePointsApi (2 * ·) db dPoints [] = .ok (1, db') ∧ derefTrace db' p = .ub .dangling := by
  obtain ⟨t, ht⟩ : ∃ t, traceOfPoints dPoints [] = .ok t := ⟨_, traceOfPoints_eq _ _ (by decide)⟩
  exact ⟨Db.create.addTrace (2 * ·) t, ⟨1, 0⟩, (Db.create.addTrace (2 * ·) t).addTrace (2 * ·) t,
    by simp [addTracePointsApi, ht], rfl, rfl, by simp [addTracePointsApi, ht], rfl⟩

end TraceDB
