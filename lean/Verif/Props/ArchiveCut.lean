import Verif.Proofs.ArchiveCut
import Verif.Props.Archive
/-
C82: a serialised database whose last bytes are missing.
-/
namespace TraceDB

/-! C82 -/

theorem cut_items {db : Db} (hc : db.Counts) {ts : List Trace} {t : Trace} (h : db.traces = ts ++ [t]) :
    (addAll [] (ts.flatMap fun t => t.points.map Point.body)).length < 2 ^ 64 ∧
    (addAll (addAll [] (ts.flatMap fun t => t.points.map Point.body)) (t.points.map Point.body)).length < 2 ^ 64 := by
  have hp := hc.points
  rw [h, List.map_append, List.sum_append] at hp
  have h1 := addAll_length_le [] (ts.flatMap fun t => t.points.map Point.body)
  have h2 := addAll_length_le (addAll [] (ts.flatMap fun t => t.points.map Point.body)) (t.points.map Point.body)
  simp only [List.length_flatMap, List.length_map, List.length_nil, Nat.zero_add, List.map_cons, List.map_nil, List.sum_cons,
    List.sum_nil, Nat.add_zero] at h1 h2 hp
  omega

/-- C82.  The text of a database whose last trace has types, without its last bytes: it
is rejected, except if only digits of the last number are missing, the size of the last
type.  Then a database comes back that differs in this size only. -/
theorem C82_types (version : Nat) (hv : version < 2 ^ 32) (db : Db) (hc : db.Counts)
    (hn : ∀ t ∈ db.traces, t.NulFree) (hs : ∀ t ∈ db.traces, ∀ p ∈ t.points, ∀ v ∈ p.vars, v.Sized)
    (ts : List Trace) (names : List Name) (tys : List TypeDesc) (ty : TypeDesc) (points : List Point)
    (hdb : db.traces = ts ++ [⟨names, tys ++ [ty], points⟩])
    (kept missing : List U8) (hcut : serializeDb version db = kept ++ missing ++ [0]) (hm : missing ≠ []) :
    deserializeDb (kept ++ [0]) =
      (ty.without missing.length).map fun ty' => Db.fresh (ts ++ [⟨names, tys ++ [ty'], points⟩]) := by
  have hcut : archiveText version db.traces = kept ++ missing := (List.append_inj' hcut rfl).1
  have hf : ∀ t ∈ db.traces, t.Fits := fun t ht => (hc.each t ht).fits (hs t ht)
  obtain ⟨hl1, hl2⟩ := cut_items hc hdb
  have hlen := hc.traces
  rw [deserialize_loaded version db.traces hn hcut]
  rw [hdb] at hcut hf hlen
  have hfts : ∀ t ∈ ts, t.Fits := fun t ht => hf t (List.mem_append_left _ ht)
  obtain ⟨pre, k, h, hk⟩ := endsIn_types names tys ty points (hf _ (by simp)) (lastState ts)
    (by rw [lastState_items ts hfts]; exact hl2)
  obtain ⟨pre', h'⟩ := endsIn_db ts _ hlen hfts hl1 h
  rcases h'.loaded hv hcut with ⟨P', e, hl⟩ | ⟨hlt, hl⟩
  · rw [hl, hk P' missing e hm, Option.map_map, Option.map_map]
    rfl
  · rw [hl, type_long ty missing.length (by simp at hlt; omega)]
    rfl

/-- In particular, if the last type is a single digit in size (all integers and pointers
are), nothing but the whole text is accepted. -/
theorem C82_small_type (version : Nat) (hv : version < 2 ^ 32) (db : Db) (hc : db.Counts)
    (hn : ∀ t ∈ db.traces, t.NulFree) (hs : ∀ t ∈ db.traces, ∀ p ∈ t.points, ∀ v ∈ p.vars, v.Sized)
    (ts : List Trace) (names : List Name) (tys : List TypeDesc) (ty : TypeDesc) (points : List Point)
    (hdb : db.traces = ts ++ [⟨names, tys ++ [ty], points⟩]) (hsize : ty.size.toNat < 10)
    (kept missing : List U8) (hcut : serializeDb version db = kept ++ missing ++ [0]) (hm : missing ≠ []) :
    deserializeDb (kept ++ [0]) = none := by
  rw [C82_types version hv db hc hn hs ts names tys ty points hdb kept missing hcut hm, TypeDesc.without, if_neg]
  · rfl
  · have h1 := List.length_pos_iff.mpr hm
    have := Nat.pow_le_pow_right (by decide : 0 < 10) h1
    omega

/-- If the last trace has names and no types, the last name may be cut: the missing bytes
become NULs, silently. -/
theorem C82_names (version : Nat) (hv : version < 2 ^ 32) (db : Db) (hc : db.Counts)
    (hn : ∀ t ∈ db.traces, t.NulFree) (hs : ∀ t ∈ db.traces, ∀ p ∈ t.points, ∀ v ∈ p.vars, v.Sized)
    (ts : List Trace) (names : List Name) (name : Name) (points : List Point)
    (hdb : db.traces = ts ++ [⟨names ++ [name], [], points⟩])
    (kept missing : List U8) (hcut : serializeDb version db = kept ++ missing ++ [0]) (hm : missing ≠ []) :
    deserializeDb (kept ++ [0]) =
      (name.without missing.length).map fun name' => Db.fresh (ts ++ [⟨names ++ [name'], [], points⟩]) := by
  have hcut : archiveText version db.traces = kept ++ missing := (List.append_inj' hcut rfl).1
  have hf : ∀ t ∈ db.traces, t.Fits := fun t ht => (hc.each t ht).fits (hs t ht)
  obtain ⟨hl1, hl2⟩ := cut_items hc hdb
  have hlen := hc.traces
  rw [deserialize_loaded version db.traces hn hcut]
  rw [hdb] at hcut hf hlen
  have hfts : ∀ t ∈ ts, t.Fits := fun t ht => hf t (List.mem_append_left _ ht)
  obtain ⟨pre, k, h, hk⟩ := endsIn_names names name points (hf _ (by simp)) (lastState ts)
    (by rw [lastState_items ts hfts]; exact hl2)
  obtain ⟨pre', h'⟩ := endsIn_db ts _ hlen hfts hl1 h
  rcases h'.loaded hv hcut with ⟨P', e, hl⟩ | ⟨hlt, hl⟩
  · rw [hl, hk P' missing e hm, Option.map_map, Option.map_map]
    rfl
  · rw [hl, name_long name missing.length (by omega)]
    rfl

/-- If the last trace has points only, at most the data of its last point changes. -/
theorem C82_points (version : Nat) (hv : version < 2 ^ 32) (db : Db) (hc : db.Counts)
    (hn : ∀ t ∈ db.traces, t.NulFree) (hs : ∀ t ∈ db.traces, ∀ p ∈ t.points, ∀ v ∈ p.vars, v.Sized)
    (ts : List Trace) (points : List Point) (p : Point) (hdb : db.traces = ts ++ [⟨[], [], points ++ [p]⟩])
    (kept missing : List U8) (hcut : serializeDb version db = kept ++ missing ++ [0]) (db' : Db)
    (h : deserializeDb (kept ++ [0]) = some db') :
    ∃ d, db' = Db.fresh (ts ++ [⟨[], [], points ++ [p.withBody d]⟩]) := by
  have hcut : archiveText version db.traces = kept ++ missing := (List.append_inj' hcut rfl).1
  have hf : ∀ t ∈ db.traces, t.Fits := fun t ht => (hc.each t ht).fits (hs t ht)
  obtain ⟨hl1, hl2⟩ := cut_items hc hdb
  have hlen := hc.traces
  rw [deserialize_loaded version db.traces hn hcut] at h
  rw [hdb] at hcut hf hlen
  have hfts : ∀ t ∈ ts, t.Fits := fun t ht => hf t (List.mem_append_left _ ht)
  obtain ⟨pre, tail, k, he, hk⟩ := endsIn_points points p (hf _ (by simp)) (lastState ts)
    (by rw [lastState_items ts hfts]; exact hl2)
  obtain ⟨pre', h'⟩ := endsIn_db ts _ hlen hfts hl1 he
  obtain ⟨x, hx, rfl⟩ := Option.map_eq_some_iff.mp h
  rcases h'.loaded hv hcut with ⟨P', e, hl⟩ | ⟨hlt, hl⟩
  · rw [hl] at hx
    obtain ⟨t, ht, rfl⟩ := Option.map_eq_some_iff.mp hx
    obtain ⟨d, rfl⟩ := hk P' t ht
    exact ⟨d, rfl⟩
  · rw [hl] at hx
    cases hx

/-- Nothing but the whole text is accepted if the last trace is empty, or if there are no
traces. -/
theorem C82_empty (version : Nat) (hv : version < 2 ^ 32) (db : Db) (hc : db.Counts)
    (hn : ∀ t ∈ db.traces, t.NulFree) (hs : ∀ t ∈ db.traces, ∀ p ∈ t.points, ∀ v ∈ p.vars, v.Sized)
    (hdb : db.traces = [] ∨ ∃ ts, db.traces = ts ++ [⟨[], [], []⟩])
    (kept missing : List U8) (hcut : serializeDb version db = kept ++ missing ++ [0]) (hm : missing ≠ []) :
    deserializeDb (kept ++ [0]) = none := by
  have hcut : archiveText version db.traces = kept ++ missing := (List.append_inj' hcut rfl).1
  have hf : ∀ t ∈ db.traces, t.Fits := fun t ht => (hc.each t ht).fits (hs t ht)
  rw [deserialize_loaded version db.traces hn hcut]
  rcases hdb with hdb | ⟨ts, hdb⟩
  · rw [hdb] at hcut
    obtain ⟨pre, k, he, hk⟩ := endsIn_empty
    rcases he.loaded hv hcut with ⟨P', e, hl⟩ | ⟨hlt, hl⟩
    · rw [hl, hk P' missing e hm]; rfl
    · rw [hl]; rfl
  · obtain ⟨hl1, _⟩ := cut_items hc hdb
    have hlen := hc.traces
    rw [hdb] at hcut hf hlen
    have hfts : ∀ t ∈ ts, t.Fits := fun t ht => hf t (List.mem_append_left _ ht)
    obtain ⟨pre, k, he, hk⟩ := endsIn_bare (lastState ts) (by rw [lastState_items ts hfts]; exact hl1)
    obtain ⟨pre', h'⟩ := endsIn_db ts _ hlen hfts hl1 he
    rcases h'.loaded hv hcut with ⟨P', e, hl⟩ | ⟨hlt, hl⟩
    · rw [hl, hk P' missing e hm]; rfl
    · rw [hl]; rfl

/-- What every accepted text has, whatever the database a program made: all traces but
the last are untouched, and the last has the numbers of names and types and the statements
it had. -/
theorem C82_reachable {σ : Type} (w : World) (ev : Evaluator σ) (s s' : σ) (calls : List Call)
    (hcalls : ∀ c ∈ calls, c.NamesNulFree) (answers : List Answer) (db : Db)
    (h : runCalls w ev Db.create s calls = .ok (answers, db, s')) (hc : db.Counts)
    (version : Nat) (hv : version < 2 ^ 32) (kept missing : List U8)
    (hcut : serializeDb version db = kept ++ missing ++ [0]) (hm : missing ≠ []) (db' : Db)
    (hd : deserializeDb (kept ++ [0]) = some db') :
    ∃ ts t t', db.traces = ts ++ [t] ∧ db' = Db.fresh (ts ++ [t']) ∧ t'.names.length = t.names.length ∧
      t'.types.length = t.types.length ∧ t'.points.map (·.statement) = t.points.map (·.statement) := by
  obtain ⟨_, ht⟩ := runCalls_db w ev calls Db.create ⟨rfl, by simp [Db.create]⟩ answers db s s' h
  simp only [Db.create, List.nil_append] at ht
  have hg := added_good w.env calls hcalls
  rw [← ht] at hg
  have hn := fun t ht => (hg t ht).1
  have hs := fun t ht => (hg t ht).2
  by_cases h0 : db.traces = []
  · rw [C82_empty version hv db hc hn hs (.inl h0) kept missing hcut hm] at hd
    cases hd
  have hdb := (List.dropLast_concat_getLast h0).symm
  generalize db.traces.dropLast = ts at hdb
  generalize db.traces.getLast h0 = t at hdb
  obtain ⟨names, types, points⟩ := t
  by_cases h1 : types = []
  · subst h1
    by_cases h2 : names = []
    · subst h2
      by_cases h3 : points = []
      · subst h3
        rw [C82_empty version hv db hc hn hs (.inr ⟨ts, hdb⟩) kept missing hcut hm] at hd
        cases hd
      · have hp := (List.dropLast_concat_getLast h3).symm
        generalize points.dropLast = ps at hp
        generalize points.getLast h3 = p at hp
        subst hp
        obtain ⟨d, rfl⟩ := C82_points version hv db hc hn hs ts ps p hdb kept missing hcut db' hd
        exact ⟨ts, _, _, hdb, rfl, rfl, rfl, by simp [Point.withBody]⟩
    · have hp := (List.dropLast_concat_getLast h2).symm
      generalize names.dropLast = ns at hp
      generalize names.getLast h2 = n at hp
      subst hp
      rw [C82_names version hv db hc hn hs ts ns n points hdb kept missing hcut hm] at hd
      obtain ⟨n', _, rfl⟩ := Option.map_eq_some_iff.mp hd
      exact ⟨ts, _, _, hdb, rfl, by simp, rfl, rfl⟩
  · have hp := (List.dropLast_concat_getLast h1).symm
    generalize types.dropLast = tys at hp
    generalize types.getLast h1 = ty at hp
    subst hp
    rw [C82_types version hv db hc hn hs ts names tys ty points hdb kept missing hcut hm] at hd
    obtain ⟨ty', _, rfl⟩ := Option.map_eq_some_iff.mp hd
    exact ⟨ts, _, _, hdb, rfl, rfl, by simp, rfl⟩

/-- A trace whose last type has the size 16. -/
def cutTyped : Trace := ⟨[[97]], [⟨0, .unsigned, 4⟩, ⟨0, .float, 16⟩], [⟨0, 7, [], [], [5]⟩]⟩

/-- Without its last byte the text gives the size 1; without the last two it is rejected. -/
example : (Db.fresh [cutTyped]).traces = [] ++ [⟨[[97]], [⟨0, .unsigned, 4⟩] ++ [⟨0, .float, 16⟩], [⟨0, 7, [], [], [5]⟩]⟩] ∧
    serializeDb 17 (Db.fresh [cutTyped]) = (serializeDb 17 (Db.fresh [cutTyped])).dropLast.dropLast ++ [54] ++ [0] ∧
    deserializeDb ((serializeDb 17 (Db.fresh [cutTyped])).dropLast.dropLast ++ [0]) =
      some (Db.fresh [⟨[[97]], [⟨0, .unsigned, 4⟩, ⟨0, .float, 1⟩], [⟨0, 7, [], [], [5]⟩]⟩]) ∧
    deserializeDb ((serializeDb 17 (Db.fresh [cutTyped])).dropLast.dropLast.dropLast ++ [0]) = none := by
  decide +kernel

/-- The conditions of the theorems hold for it. -/
example : (Db.fresh [cutTyped]).Counts ∧ (∀ t ∈ (Db.fresh [cutTyped]).traces, t.NulFree) ∧
    ∀ t ∈ (Db.fresh [cutTyped]).traces, ∀ p ∈ t.points, ∀ v ∈ p.vars, v.Sized := by
  refine ⟨⟨by decide, by decide, ?_⟩, ?_, ?_⟩
  · intro t ht
    simp only [Db.fresh, List.mem_singleton] at ht
    subst ht
    exact ⟨by decide, by decide, by decide, by decide, by decide, by decide, by decide⟩
  · intro t ht
    simp only [Db.fresh, List.mem_singleton] at ht
    subst ht
    unfold Trace.NulFree
    decide
  · intro t ht p hp v hv
    simp only [Db.fresh, List.mem_singleton] at ht
    subst ht
    simp only [cutTyped, List.mem_singleton] at hp
    subst hp
    simp at hv

/-- A trace without types: the name "ab" becomes "a" and a NUL. -/
example : serializeDb 17 (Db.fresh [⟨[[97, 98]], [], []⟩]) =
      (serializeDb 17 (Db.fresh [⟨[[97, 98]], [], []⟩])).dropLast.dropLast ++ [98] ++ [0] ∧
    deserializeDb ((serializeDb 17 (Db.fresh [⟨[[97, 98]], [], []⟩])).dropLast.dropLast ++ [0]) =
      some (Db.fresh [⟨[[97, 0]], [], []⟩]) := by decide +kernel

/-- Eleven points with different data. -/
def cutPoints : List Point := (List.range 11).map fun n => ⟨BitVec.ofNat 64 n, 7, [], [], [BitVec.ofNat 64 (100 + n)]⟩

/-- C82.  The data of the last point need not be a part of what was written: the text of a
trace with these points, without its last eleven bytes, gives the last point, whose data is
object number 10, the data of object number 1. -/
theorem C82_wrong_data : ∃ kept missing : List U8, missing.length = 11 ∧
    serializeDb 17 (Db.fresh [⟨[], [], cutPoints⟩]) = kept ++ missing ++ [0] ∧
    deserializeDb (kept ++ [0]) =
      some (Db.fresh [⟨[], [], cutPoints.dropLast ++ [⟨10, 7, [], [], [101]⟩]⟩]) := by
  refine ⟨(archiveText 17 [⟨[], [], cutPoints⟩]).take ((archiveText 17 [⟨[], [], cutPoints⟩]).length - 11),
    (archiveText 17 [⟨[], [], cutPoints⟩]).drop ((archiveText 17 [⟨[], [], cutPoints⟩]).length - 11), ?_, ?_, ?_⟩ <;>
  decide +kernel

/-- The last trace has a last type of one digit: nothing but the whole text is accepted,
whatever is cut off. -/
example (kept missing : List U8)
    (hcut : serializeDb 17 (Db.fresh [⟨[[97]], [⟨0, .float, 16⟩, ⟨0, .unsigned, 4⟩], []⟩]) = kept ++ missing ++ [0])
    (hm : missing ≠ []) : deserializeDb (kept ++ [0]) = none := by
  refine C82_small_type 17 (by decide) _ ⟨by decide, by decide, ?_⟩ ?_ ?_ [] [[97]] [⟨0, .float, 16⟩] ⟨0, .unsigned, 4⟩ [] rfl
    (by decide) kept missing hcut hm
  all_goals
    intro t ht
    simp only [Db.fresh, List.mem_singleton] at ht
    subst ht
  · exact ⟨by decide, by decide, by decide, by decide, by decide, by decide, by decide⟩
  · unfold Trace.NulFree; decide
  · simp

/-- A trace with two points and nothing else: if a cut text is accepted, the first point is
as it was. -/
example (kept missing : List U8)
    (hcut : serializeDb 17 (Db.fresh [⟨[], [], [⟨0, 7, [], [], [5]⟩, ⟨1, 8, [], [], [6]⟩]⟩]) = kept ++ missing ++ [0])
    (db : Db) (h : deserializeDb (kept ++ [0]) = some db) :
    ∃ d, db = Db.fresh [⟨[], [], [⟨0, 7, [], [], [5]⟩, Point.withBody ⟨1, 8, [], [], [6]⟩ d]⟩] := by
  refine C82_points 17 (by decide) _ ⟨by decide, by decide, ?_⟩ ?_ ?_ [] [⟨0, 7, [], [], [5]⟩] ⟨1, 8, [], [], [6]⟩ rfl
    kept missing hcut db h
  all_goals
    intro t ht
    simp only [Db.fresh, List.mem_singleton] at ht
    subst ht
  · exact ⟨by decide, by decide, by decide, by decide, by decide, by decide, by decide⟩
  · unfold Trace.NulFree; decide
  · simp

/-- A database whose last trace is empty. -/
example (kept missing : List U8) (hcut : serializeDb 17 (Db.fresh [cutTyped, ⟨[], [], []⟩]) = kept ++ missing ++ [0])
    (hm : missing ≠ []) : deserializeDb (kept ++ [0]) = none := by
  refine C82_empty 17 (by decide) _ ⟨by decide, by decide, ?_⟩ ?_ ?_ (.inr ⟨[cutTyped], rfl⟩) kept missing hcut hm
  all_goals
    intro t ht
    simp only [Db.fresh, List.mem_cons, List.not_mem_nil, or_false] at ht
    rcases ht with rfl | rfl
  · exact ⟨by decide, by decide, by decide, by decide, by decide, by decide, by decide⟩
  · exact ⟨by decide, by decide, by decide, by decide, by decide, by decide, by decide⟩
  · unfold Trace.NulFree; decide
  · unfold Trace.NulFree; decide
  · simp [cutTyped]
  · simp

end TraceDB
