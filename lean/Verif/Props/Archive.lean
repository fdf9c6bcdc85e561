import Verif.Proofs.ArchiveDb
import Verif.Proofs.SameAnswers
import Verif.Props.Database
/-
C40, C41: serialising a database.
-/
namespace TraceDB

/-! C40 -/

/-- C40.  Every database whose names are C strings and whose counts fit comes back from
its text with the same traces, in the same order, whatever the version of the library.
`Sized` says that a blob has the bytes its size says; `C40_reachable` shows that the
interface makes no others. -/
theorem C40_round_trip (version : Nat) (hv : version < 2 ^ 32) (db : Db) (hc : db.Counts)
    (hn : ∀ t ∈ db.traces, t.NulFree) (hs : ∀ t ∈ db.traces, ∀ p ∈ t.points, ∀ v ∈ p.vars, v.Sized) :
    ∃ db', deserializeDb (serializeDb version db) = some db' ∧ db'.traces = db.traces :=
  ⟨_, deserialize_serialize version hv db (fun t ht => (hc.each t ht).fits (hs t ht)) hn hc.traces hc.points, rfl⟩

/-- The same for every database a program can make with the interface, after every
history of calls: what is left of the conditions are the counts, and that the names given
to `add_trace_points` are C strings. -/
theorem C40_reachable {σ : Type} (w : World) (ev : Evaluator σ) (s s' : σ) (calls : List Call)
    (hcalls : ∀ c ∈ calls, c.NamesNulFree) (answers : List Answer) (db : Db)
    (h : runCalls w ev Db.create s calls = .ok (answers, db, s')) (hc : db.Counts)
    (version : Nat) (hv : version < 2 ^ 32) :
    ∃ db', deserializeDb (serializeDb version db) = some db' ∧ db'.traces = added w.env calls ∧
      db'.traces = db.traces := by
  obtain ⟨_, ht⟩ := runCalls_db w ev calls Db.create ⟨rfl, by simp [Db.create]⟩ answers db s s' h
  simp only [Db.create, List.nil_append] at ht
  have hg := added_good w.env calls hcalls
  rw [← ht] at hg ⊢
  obtain ⟨db', h1, h2⟩ := C40_round_trip version hv db hc (fun t ht => (hg t ht).1) (fun t ht => (hg t ht).2)
  exact ⟨db', h1, h2, h2⟩

/-- The database after calls. -/
def dbAfter : Res (List Answer × Db × Unit) → Db
  | .ok (_, db, _) => db
  | _ => Db.create

/-- The database made by the calls of the example of C38. -/
def archDb : Db := dbAfter (runCalls dWorld (plainEval exFloats) Db.create () dCalls)

example : (∀ c ∈ dCalls, c.NamesNulFree) ∧ archDb.Counts ∧ archDb.traces.length = 2 ∧
    ∃ as, runCalls dWorld (plainEval exFloats) Db.create () dCalls = .ok (as, archDb, ()) := by
  refine ⟨?_, ?_, by decide +kernel, ?_⟩
  · intro c hc
    simp only [dCalls, List.mem_cons, List.not_mem_nil, or_false] at hc
    rcases hc with rfl | rfl | rfl | rfl | rfl | rfl | rfl | rfl | rfl <;> simp [Call.NamesNulFree]
  · have h : (archDb.traces.length < 2 ^ 64 ∧ (archDb.traces.map fun t => t.points.length).sum < 2 ^ 64) ∧
      ∀ t ∈ archDb.traces, (t.points.length < 2 ^ 64 ∧ t.names.length < 2 ^ 32 ∧ t.types.length < 2 ^ 32) ∧
        (∀ n ∈ t.names, n.length < 2 ^ 64) ∧ ∀ p ∈ t.points, p.sizes.length < 2 ^ 64 ∧ p.vars.length < 2 ^ 64 ∧ p.aux.length < 2 ^ 64 := by
      decide +kernel
    exact ⟨h.1.1, h.1.2, fun t ht => ⟨(h.2 t ht).1.1, (h.2 t ht).1.2.1, (h.2 t ht).1.2.2, (h.2 t ht).2.1,
      fun p hp => ((h.2 t ht).2.2 p hp).1, fun p hp => ((h.2 t ht).2.2 p hp).2.1, fun p hp => ((h.2 t ht).2.2 p hp).2.2⟩⟩
  · have hok : (runCalls dWorld (plainEval exFloats) Db.create () dCalls).isOk = true := by decide +kernel
    unfold archDb
    generalize runCalls dWorld (plainEval exFloats) Db.create () dCalls = r at hok
    cases r with
    | ok x => exact ⟨x.1, rfl⟩
    | _ => simp [Res.isOk] at hok

/-- The text of a small database. -/
example : serializeDb 17 ⟨[⟨[[97]], [⟨0, .unsigned, 8⟩], [⟨0, 7, [], [], [5]⟩, ⟨1, 8, [], [], [5]⟩]⟩], [[]], 1, 0⟩ =
    -- "22 serialization::archive 17 0 0 1 0 0 2 1 1 0 0 0 7 0 0 0 0 0 0 0 1 5 1 8 0 1 a 0 0 0 0 8"
    ([50, 50, 32] ++ archiveSignature ++
      [32,49,55, 32,48, 32,48, 32,49, 32,48, 32,48, 32,50, 32,49, 32,49, 32,48, 32,48, 32,48, 32,55, 32,48, 32,48,
       32,48, 32,48, 32,48, 32,48, 32,48, 32,49, 32,53, 32,49, 32,56, 32,48, 32,49, 32,97, 32,48, 32,48, 32,48, 32,48,
       32,56, 0]) := by decide +kernel

/-- Shared data is stored only once: the objects numbered while the text is read back are
different from each other, and they are exactly the data of the points. -/
theorem C40_stored_once (version : Nat) (hv : version < 2 ^ 32) (db : Db) (hc : db.Counts)
    (hs : ∀ t ∈ db.traces, ∀ p ∈ t.points, ∀ v ∈ p.vars, v.Sized) :
    ∃ st, (do loadHeader; loadTraces : Load (List Trace)) ⟨archiveText version db.traces, .init⟩ = some (db.traces, st) ∧
      st.rest = [] ∧ st.arch.items.Nodup ∧
      ∀ d, d ∈ st.arch.items ↔ ∃ t ∈ db.traces, ∃ p ∈ t.points, p.body = d := by
  obtain ⟨st, h1, h2, h3⟩ := load_archiveText_items version hv db.traces hc.traces
    (fun t ht => (hc.each t ht).fits (hs t ht)) hc.points
  refine ⟨st, h1, h2, ?_, fun d => ?_⟩
  · rw [h3]; exact addAll_nodup _ _ List.nodup_nil
  · rw [h3, mem_addAll]
    simp only [List.not_mem_nil, false_or, List.mem_flatMap, List.mem_map]

/-- A name with a NUL byte, as only a direct C++ caller can give it, makes the text
unreadable: it is a C string and ends in the middle.  If nothing comes after the name the
text is read, but the bytes of the name after the NUL are lost. -/
theorem C40_nul_in_name :
    deserializeDb (serializeDb 17 ⟨[⟨[[65, 0, 66]], [⟨0, .unsigned, 8⟩], []⟩], [[]], 1, 0⟩) = none ∧
    deserializeDb (serializeDb 17 ⟨[⟨[[65, 0, 66]], [], []⟩], [[]], 1, 0⟩) =
      some ⟨[⟨[[65, 0, 0]], [], []⟩], [[]], 1, 0⟩ := by decide +kernel

/-! C41 -/

/-- C41.  Whatever a program did to make a database, and whatever it does next, it gets
the same answers from the database and from its copy made by serialising and
deserialising: every further sequence of calls (queries with all kinds of predicates,
additions, counts) ends in the same way on both, with the same answers up to the
addresses of traces.  Also with a predicate cache, whose state is shared by both. -/
theorem C41_same_answers {σ : Type} (w : World) (ev : Evaluator σ) (s s' : σ) (calls : List Call)
    (hcalls : ∀ c ∈ calls, c.NamesNulFree) (answers : List Answer) (db : Db)
    (h : runCalls w ev Db.create s calls = .ok (answers, db, s')) (hc : db.Counts)
    (version : Nat) (hv : version < 2 ^ 32) :
    ∃ db', deserializeDb (serializeDb version db) = some db' ∧
      ∀ (more : List Call) (w' : World) (ev' : Evaluator σ) (s'' : σ),
        SameEnd (runCalls w' ev' db s'' more) (runCalls w' ev' db' s'' more) := by
  obtain ⟨hok, ht⟩ := runCalls_db w ev calls Db.create ⟨rfl, by simp [Db.create]⟩ answers db s s' h
  simp only [Db.create, List.nil_append] at ht
  have hg := added_good w.env calls hcalls
  rw [← ht] at hg
  refine ⟨_, deserialize_serialize version hv db (fun t ht => (hc.each t ht).fits (hg t ht).2) (fun t ht => (hg t ht).1)
    hc.traces hc.points, fun more w' ev' s'' => ?_⟩
  refine runCalls_sameEnd w' ev' more db ⟨db.traces, db.traces.map fun _ => [], db.traces.length, 0⟩ ⟨rfl, hok, List.length_map _, ?_⟩ s''
  intro i t c hi hc'
  simp only [List.getElem?_map] at hc'
  rw [hi] at hc'
  cases hc'
  intro k ps hk
  simp at hk

/-- In particular: one query. -/
theorem C41_query {σ : Type} (w : World) (ev : Evaluator σ) (s s' : σ) (calls : List Call)
    (hcalls : ∀ c ∈ calls, c.NamesNulFree) (answers : List Answer) (db : Db)
    (h : runCalls w ev Db.create s calls = .ok (answers, db, s')) (hc : db.Counts)
    (version : Nat) (hv : version < 2 ^ 32) (env : Env) (pick : U32 → Nat → Nat) (s'' : σ) (i : U64) (q : Query) (keep : Bool) :
    ∃ db', deserializeDb (serializeDb version db) = some db' ∧
      (queryTraceApi env pick ev db i q keep s'' >>= fun r => .ok (r.1, r.2.2)) =
      (queryTraceApi env pick ev db' i q keep s'' >>= fun r => .ok (r.1, r.2.2)) := by
  obtain ⟨hok, ht⟩ := runCalls_db w ev calls Db.create ⟨rfl, by simp [Db.create]⟩ answers db s s' h
  simp only [Db.create, List.nil_append] at ht
  have hg := added_good w.env calls hcalls
  rw [← ht] at hg
  refine ⟨_, deserialize_serialize version hv db (fun t ht => (hc.each t ht).fits (hg t ht).2) (fun t ht => (hg t ht).1)
    hc.traces hc.points, ?_⟩
  refine (queryTraceApi_alike env pick ev db ⟨db.traces, db.traces.map fun _ => [], db.traces.length, 0⟩ ⟨rfl, hok, List.length_map _, ?_⟩ i q keep s'').eq (fun r => (r.1, r.2.2))
    (fun r => (r.1, r.2.2)) fun a b hab => by rw [hab.1, hab.2.2]
  intro i t c hi hc'
  simp only [List.getElem?_map] at hc'
  rw [hi] at hc'
  cases hc'
  intro k ps hk
  simp at hk

/-- A query with results on the example database. -/
example : (queryTraceApi qEnv (fun _ _ => 0) (plainEval exFloats) archDb 1 ⟨[[0]], .nullPred, [], 0, 0, 0⟩ true ()).isOk = true := by
  decide +kernel

end TraceDB
