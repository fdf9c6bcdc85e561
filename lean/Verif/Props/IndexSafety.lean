import Verif.Proofs.IndexSafety
import Verif.Props.ArchiveCut
/-
C84: databases can be read without leaving the table of types.
-/
namespace TraceDB

/-! C84 -/

/-- C84.  Exporting points (`get_points`, `query_trace`) looks types up without a check.  It is
defined exactly if the types exist. -/
theorem C84_defined_iff (abi : Abi) (ae : AllocEnv) (types : List TypeDesc) (points : List Point) (h : Heap)
    (hp0 : 0 < abi.sizePoint) (hpv : abi.sizePoint ≤ abi.sizeVar)
    (hsmall : points.length * abi.sizeVar < 2 ^ (8 * abi.ptr.1)) (hal : ∀ n, ae.canAlloc n = true) :
    ((∀ p ∈ points, ∀ v ∈ p.vars, v.typeIndex.toNat < types.length) →
      ∃ ptr new, pointsToArray abi ae types points h = .ok (ptr, h ++ new)) ∧
    ((∃ p ∈ points, ∃ v ∈ p.vars, types.length ≤ v.typeIndex.toNat) →
      pointsToArray abi ae types points h = .ub .oobRead) :=
  ⟨pointsToArray_good abi ae types points h hp0 hpv hsmall hal, pointsToArray_bad abi ae types points h hp0 hpv hsmall hal⟩

/-- Every database a program makes with the interface, whatever files and points are added and
however often it is stored and loaded in between, has only variables whose type exists. -/
theorem C84_made {db : Db} (h : DbMade db) : db.TypesExist := (dbMade_inv h).types

/-- So all points of such a database can be exported. -/
theorem C84_get_points {db : Db} (hmade : DbMade db) (t : Trace) (ht : t ∈ db.traces) (abi : Abi) (ae : AllocEnv) (h : Heap)
    (hp0 : 0 < abi.sizePoint) (hpv : abi.sizePoint ≤ abi.sizeVar)
    (hsmall : t.points.length * abi.sizeVar < 2 ^ (8 * abi.ptr.1)) (hal : ∀ n, ae.canAlloc n = true) :
    ∃ ptr new, pointsToArray abi ae t.types t.points h = .ok (ptr, h ++ new) :=
  pointsToArray_good abi ae t.types t.points h hp0 hpv hsmall hal (C84_made hmade t ht)

/-- And the answer to every query. -/
theorem C84_query {σ : Type} {db : Db} (hmade : DbMade db) (w : World) (ev : Evaluator σ) (s s' : σ) (i : U64) (q : Query)
    (keep : Bool) (rs : List Point) (db' : Db) (hq : runCall w ev db s (.query i q keep) = .ok (.points rs, db', s'))
    (abi : Abi) (ae : AllocEnv) (h : Heap) (hp0 : 0 < abi.sizePoint) (hpv : abi.sizePoint ≤ abi.sizeVar)
    (hsmall : rs.length * abi.sizeVar < 2 ^ (8 * abi.ptr.1)) (hal : ∀ n, ae.canAlloc n = true) :
    ∃ t, db.traces[i.toNat]? = some t ∧ ∃ ptr new, pointsToArray abi ae t.types rs h = .ok (ptr, h ++ new) := by
  have inv := dbMade_inv hmade
  simp only [runCall] at hq
  obtain ⟨⟨rs1, db1, s1⟩, hq1, e⟩ := Res.bind_eq_ok.mp hq
  injection e with e
  injection e with e1 e2
  injection e1 with e1
  subst e1
  obtain ⟨t, ht, hr⟩ := queryTraceApi_rows inv.ok hq1
  refine ⟨t, ht, pointsToArray_good abi ae t.types rs1 h hp0 hpv hsmall hal fun r hr' v hv => ?_⟩
  obtain ⟨p, hp, hf⟩ := hr r hr'
  exact inv.types t (List.mem_of_getElem? ht) p hp v (hf.1 v hv)

/-- A database from a text, wherever the text comes from, if its types exist: they go on to
exist, whatever is called. -/
theorem C84_loaded (text : List U8) (db : Db) (hd : deserializeDb text = some db) (hs : db.TypesExist)
    {σ : Type} (w : World) (ev : Evaluator σ) (calls : List Call) (s s' : σ) (answers : List Answer) (db' : Db)
    (h : runCalls w ev db s calls = .ok (answers, db', s')) : db'.TypesExist := by
  have hok : db.Ok := by
    unfold deserializeDb at hd
    obtain ⟨x, _, hx⟩ := Option.bind_eq_some_iff.mp hd
    cases hx
    exact fresh_ok _
  obtain ⟨_, ht⟩ := runCalls_db w ev calls db hok answers db' s s' h
  intro t htm
  rw [ht] at htm
  rcases List.mem_append.mp htm with htm | htm
  · exact hs t htm
  · obtain ⟨c, _, hct⟩ := List.mem_filterMap.mp htm
    exact adds_types w.env c t (by rw [hct]; simp)

/-- A text that lost its end and is loaded nevertheless is safe as well, if its last trace has a
name or a type. -/
theorem C84_cut {db : Db} (hmade : DbMade db) (hc : db.Counts) (version : Nat) (hv : version < 2 ^ 32)
    (ts : List Trace) (t : Trace) (hdb : db.traces = ts ++ [t]) (hlast : t.names ≠ [] ∨ t.types ≠ [])
    (kept missing : List U8) (hcut : serializeDb version db = kept ++ missing ++ [0]) (hm : missing ≠ []) (db' : Db)
    (hd : deserializeDb (kept ++ [0]) = some db') : db'.TypesExist := by
  have inv := dbMade_inv hmade
  have hts := inv.types
  rw [Db.TypesExist, hdb] at hts
  obtain ⟨names, types, points⟩ := t
  by_cases h1 : types = []
  · subst h1
    have h2 : names ≠ [] := by simpa using hlast
    have hp := (List.dropLast_concat_getLast h2).symm
    generalize names.dropLast = ns at hp
    generalize names.getLast h2 = n at hp
    subst hp
    rw [C82_names version hv db hc inv.nul inv.sized ts ns n points hdb kept missing hcut hm] at hd
    obtain ⟨n', _, rfl⟩ := Option.map_eq_some_iff.mp hd
    intro t ht
    rcases List.mem_append.mp ht with ht | ht
    · exact hts t (List.mem_append_left _ ht)
    · have := hts _ (List.mem_append_right _ (List.mem_singleton.mpr rfl))
      cases List.mem_singleton.mp ht
      exact this
  · have hp := (List.dropLast_concat_getLast h1).symm
    generalize types.dropLast = tys at hp
    generalize types.getLast h1 = ty at hp
    subst hp
    rw [C82_types version hv db hc inv.nul inv.sized ts names tys ty points hdb kept missing hcut hm] at hd
    obtain ⟨ty', _, rfl⟩ := Option.map_eq_some_iff.mp hd
    intro t ht
    rcases List.mem_append.mp ht with ht | ht
    · exact hts t (List.mem_append_left _ ht)
    · have := hts _ (List.mem_append_right _ (List.mem_singleton.mpr rfl))
      cases List.mem_singleton.mp ht
      intro p hp v hv'
      have := this p hp v hv'
      simpa using this

/-- Calls that add ten points with a variable each, and then two points without. -/
def cutCalls : List Call :=
  [.addTracePoints ((List.range 10).map fun n => ⟨1, [⟨BitVec.ofNat 64 n, 0, 0, 0, false⟩], []⟩) [[97]],
   .addTracePoints [⟨2, [], []⟩, ⟨3, [], []⟩] []]

/-- The database they make. -/
def unsafeDb : Db := dbAfter (runCalls dWorld (plainEval exFloats) Db.create () cutCalls)

theorem unsafeDb_made : DbMade unsafeDb := by
  obtain ⟨db1, h1, h2⟩ : ∃ db1, runCall dWorld (plainEval exFloats) Db.create () (cutCalls[0]'(by decide)) = .ok (.int 1, db1, ()) ∧
      runCall dWorld (plainEval exFloats) db1 () (cutCalls[1]'(by decide)) = .ok (.int 1, unsafeDb, ()) :=
    ⟨dbAfter (runCalls dWorld (plainEval exFloats) Db.create () (cutCalls.take 1)), by decide +kernel, by decide +kernel⟩
  refine .call dWorld (plainEval exFloats) db1 unsafeDb () () _ _ (.call dWorld (plainEval exFloats) _ db1 () () _ _ .create ?_ h1) ?_ h2
  · simp [cutCalls, Call.NamesNulFree]
  · simp [cutCalls, Call.NamesNulFree]

/-- What becomes of the second trace. -/
def unsafeTrace : Trace :=
  ⟨[], [], [⟨0, 2, [], [], []⟩, ⟨1, 3, [], [⟨.word 1, 0, 0, .unsigned, 8, 0, false⟩], []⟩]⟩

/-- C84.  The condition is needed.  A program adds points twice with `add_trace_points`.  The text
of this database without its last character is loaded without complaint, and reading the points of
the second trace leaves the table of types. -/
theorem C84_cut_unsafe : DbMade unsafeDb ∧ ∃ (kept : List U8) (db' : Db) (t : Trace),
    serializeDb 17 unsafeDb = kept ++ [48] ++ [0] ∧ deserializeDb (kept ++ [0]) = some db' ∧ db'.traces[1]? = some t ∧
      ∀ h : Heap, pointsToArray .lp64 xAlloc t.types t.points h = .ub .oobRead := by
  refine ⟨unsafeDb_made, (archiveText 17 unsafeDb.traces).dropLast,
    Db.fresh (unsafeDb.traces.dropLast ++ [unsafeTrace]), unsafeTrace, by decide +kernel, by decide +kernel,
    by decide +kernel, fun h => ?_⟩
  exact pointsToArray_bad .lp64 xAlloc _ _ h (by decide) (by decide) (by decide) (fun _ => rfl)
    ⟨_, List.mem_cons_of_mem _ (List.mem_singleton.mpr rfl), _, List.mem_singleton.mpr rfl, by decide⟩

/-- The names of types are not checked either: a program that gives a type a name it does not
have makes a database for which `get_types` is undefined, also after storing and loading it. -/
theorem C84_type_names : ∃ db db' t, DbMade db ∧ deserializeDb (serializeDb 17 db) = some db' ∧ db'.traces = [t] ∧
    getTypes t = .ub .oobRead := by
  refine ⟨dbAfter (runCalls dWorld (plainEval exFloats) Db.create () [.addTracePoints [⟨1, [⟨5, 0, 3, 0, false⟩], []⟩] [[97]]]),
    Db.fresh [⟨[[97]], [⟨3, .unsigned, 8⟩], [⟨0, 1, [], [⟨.word 5, 0, 0, .unsigned, 8, 0, false⟩], []⟩]⟩], _,
    .call dWorld (plainEval exFloats) _ _ () () (.addTracePoints [⟨1, [⟨5, 0, 3, 0, false⟩], []⟩] [[97]]) (.int 1) .create
      (by simp [Call.NamesNulFree]) (by decide +kernel), by decide +kernel, rfl, by decide +kernel⟩

/-- A made database, stored and loaded, and a query of it. -/
example : ∃ db, DbMade db ∧ db.traces.length = 2 ∧ (∀ t ∈ db.traces, 0 < t.points.length) ∧
    ∃ rs db', runCall dWorld (plainEval exFloats) db () (.query 0 ⟨[[0]], .nullPred, [], 0, 0, 0⟩ true) = .ok (.points rs, db', ()) ∧
      rs.length = 10 := by
  refine ⟨Db.fresh unsafeDb.traces, .stored 17 unsafeDb _ unsafeDb_made ?_ (by decide) (by decide +kernel), by decide +kernel,
    by decide +kernel, ?_⟩
  · have h : (unsafeDb.traces.length < 2 ^ 64 ∧ (unsafeDb.traces.map fun t => t.points.length).sum < 2 ^ 64) ∧
      ∀ t ∈ unsafeDb.traces, (t.points.length < 2 ^ 64 ∧ t.names.length < 2 ^ 32 ∧ t.types.length < 2 ^ 32) ∧
        (∀ n ∈ t.names, n.length < 2 ^ 64) ∧ ∀ p ∈ t.points, p.sizes.length < 2 ^ 64 ∧ p.vars.length < 2 ^ 64 ∧ p.aux.length < 2 ^ 64 := by
      decide +kernel
    exact ⟨h.1.1, h.1.2, fun t ht => ⟨(h.2 t ht).1.1, (h.2 t ht).1.2.1, (h.2 t ht).1.2.2, (h.2 t ht).2.1,
      fun p hp => ((h.2 t ht).2.2 p hp).1, fun p hp => ((h.2 t ht).2.2 p hp).2.1, fun p hp => ((h.2 t ht).2.2 p hp).2.2⟩⟩
  · have hok : (match runCall dWorld (plainEval exFloats) (Db.fresh unsafeDb.traces) () (.query 0 ⟨[[0]], .nullPred, [], 0, 0, 0⟩ true) with
      | .ok (.points rs, _, _) => rs.length == 10
      | _ => false) = true := by decide +kernel
    generalize runCall dWorld (plainEval exFloats) (Db.fresh unsafeDb.traces) () (.query 0 ⟨[[0]], .nullPred, [], 0, 0, 0⟩ true) = r at hok
    match r, hok with
    | .ok (.points rs, db', ()), hok => exact ⟨rs, db', rfl, by simpa using hok⟩

/-- A made database whose last trace has a name, the text of which is loaded without its last
byte. -/
example : ∃ db, DbMade db ∧ db.Counts ∧ db.traces = [] ++ [⟨[[97, 98]], [], [⟨0, 7, [], [], []⟩]⟩] ∧
    ∃ kept db', serializeDb 17 db = kept ++ [98] ++ [0] ∧ deserializeDb (kept ++ [0]) = some db' := by
  refine ⟨dbAfter (runCalls dWorld (plainEval exFloats) Db.create () [.addTracePoints [⟨7, [], []⟩] [[97, 98]]]),
    .call dWorld (plainEval exFloats) _ _ () () (.addTracePoints [⟨7, [], []⟩] [[97, 98]]) (.int 1) .create
      (by simp [Call.NamesNulFree]) (by decide +kernel), ?_, by decide +kernel,
    (archiveText 17 [⟨[[97, 98]], [], [⟨0, 7, [], [], []⟩]⟩]).dropLast, Db.fresh [⟨[[97, 0]], [], [⟨0, 7, [], [], []⟩]⟩],
    by decide +kernel, by decide +kernel⟩
  have ht : (dbAfter (runCalls dWorld (plainEval exFloats) Db.create () [.addTracePoints [⟨7, [], []⟩] [[97, 98]]])).traces =
    [⟨[[97, 98]], [], [⟨0, 7, [], [], []⟩]⟩] := by decide +kernel
  refine ⟨by rw [ht]; decide, by rw [ht]; decide, fun t h => ?_⟩
  rw [ht, List.mem_singleton] at h
  subst h
  exact ⟨by decide, by decide, by decide, by decide, by decide, by decide, by decide⟩

end TraceDB
