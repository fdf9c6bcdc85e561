import Verif.Proofs.StoredSize
import Verif.Props.Archive
/-
Properties of the size of stored databases: C111.
-/
namespace TraceDB

/-! C111 -/

/-- The text of a database has, besides a fixed header and its names, between 2 and 21 bytes
for each number that has to be stored, where the data of points counts once however many
points have it. -/
theorem C111_size (version : Nat) (hv : version < 2 ^ 64) (db : Db) (hc : db.Counts) (ds : List Body)
    (hd : DifferentData db.traces ds) :
    26 + 2 * storedNumbers db.traces ds + 3 * (storedNames db.traces).length + nameBytes (storedNames db.traces) ≤
        (serializeDb version db).length ∧
      (serializeDb version db).length ≤
        26 + 21 * storedNumbers db.traces ds + 22 * (storedNames db.traces).length + nameBytes (storedNames db.traces) := by
  obtain ⟨h1, h2, h3⟩ := saved_counts db hc ds hd
  have hn : ∀ n ∈ strsOf (saveTraces db.traces .init).1, n.length < 2 ^ 64 := by
    rw [h2]
    intro n hn
    obtain ⟨t, ht, hn⟩ := List.mem_flatMap.mp hn
    exact (hc.each t ht).name n hn
  obtain ⟨l1, l2⟩ := toksText_length _ h3 hn
  rw [h2] at l1 l2
  obtain ⟨d1, d2⟩ := decimal_length hv
  unfold serializeDb
  rw [List.length_append, archiveText_length, List.length_cons, List.length_nil]
  omega

/-- Different data exist for every database. -/
theorem C111_data_exist (ts : List Trace) : ∃ ds, DifferentData ts ds :=
  ⟨addAll [] (ts.flatMap fun t => t.points.map Point.body), addAll_nodup _ _ List.nodup_nil, fun d => by
    rw [mem_addAll]
    simp only [List.not_mem_nil, false_or, List.mem_flatMap, List.mem_map]⟩

/-- A trace whose data all occur already, such as that of a run that does the same again,
makes the text longer by at most 21 bytes for each of three numbers for each point and type,
and its names, however many variables the points have and however large their values are. -/
theorem C111_known_data (version : Nat) (db db' : Db) (hc : db'.Counts) (t : Trace)
    (ht : db'.traces = db.traces ++ [t])
    (hk : ∀ p ∈ t.points, ∃ x ∈ db.traces, ∃ q ∈ x.points, q.body = p.body) :
    (serializeDb version db').length ≤ (serializeDb version db).length +
      21 * (t.numbers + 17) + 22 * t.names.length + nameBytes t.names := by
  have hl := hc.traces
  have hp := hc.points
  rw [ht] at hl hp
  simp only [List.length_append, List.length_cons, List.length_nil, List.map_append, List.sum_append] at hl hp
  have := one_more_length db.traces t hl (fun x hx => hc.each x (by rw [ht]; exact List.mem_append_left _ hx))
    (hc.each t (by rw [ht]; simp)) (by omega) hk
  unfold serializeDb
  rw [List.length_append, List.length_append, archiveText_length, archiveText_length, ht]
  omega

/-- A trace with a blob of 200 bytes, three points that share their data, and one with
nothing. -/
def ssTrace : Trace :=
  ⟨[[120], [121, 121]], [⟨1, .blob, 0⟩],
   [⟨0, 1, [], [⟨.blob (List.replicate 200 255), 0, 0, .blob, 200, 0, false⟩], []⟩,
    ⟨1, 2, [], [⟨.blob (List.replicate 200 255), 0, 0, .blob, 200, 0, false⟩], []⟩, ⟨2, 3, [], [], []⟩,
    ⟨3, 4, [], [⟨.blob (List.replicate 200 255), 0, 0, .blob, 200, 0, false⟩], []⟩]⟩

/-- The data in it. -/
def ssData : List Body := [⟨[], [], []⟩, ⟨[], [⟨.blob (List.replicate 200 255), 0, 0, .blob, 200, 0, false⟩], []⟩]

/-- Databases with the trace once and twice. -/
def ssDb1 : Db := ⟨[ssTrace], [[]], 1, 0⟩

@[inherit_doc ssDb1]
def ssDb2 : Db := ⟨[ssTrace, ssTrace], [[], []], 2, 0⟩

theorem ssDb_counts : ssDb1.Counts ∧ ssDb2.Counts := by
  have h : ssTrace.Counts := by
    have h : (ssTrace.points.length < 2 ^ 64 ∧ ssTrace.names.length < 2 ^ 32 ∧ ssTrace.types.length < 2 ^ 32) ∧
        (∀ n ∈ ssTrace.names, n.length < 2 ^ 64) ∧
        ∀ p ∈ ssTrace.points, p.sizes.length < 2 ^ 64 ∧ p.vars.length < 2 ^ 64 ∧ p.aux.length < 2 ^ 64 := by decide +kernel
    exact ⟨h.1.1, h.1.2.1, h.1.2.2, h.2.1, fun p hp => (h.2.2 p hp).1, fun p hp => (h.2.2 p hp).2.1, fun p hp => (h.2.2 p hp).2.2⟩
  refine ⟨⟨by decide, by decide, fun t ht => ?_⟩, ⟨by decide, by decide, fun t ht => ?_⟩⟩
  · rw [List.mem_singleton.mp ht]; exact h
  · rcases List.mem_cons.mp ht with ht | ht
    · rw [ht]; exact h
    · rw [List.mem_singleton.mp ht]; exact h

/-- The blob, 600 bytes of text (its bytes are written as -1), is in the text once: with it there are 246
numbers and two names, and the second trace takes 45 bytes. -/
example : ssDb1.Counts ∧ ssDb2.Counts ∧ DifferentData ssDb1.traces ssData ∧ DifferentData ssDb2.traces ssData ∧
    storedNumbers ssDb1.traces ssData = 246 ∧ storedNumbers ssDb2.traces ssData = 264 ∧
    (serializeDb 17 ssDb1).length = 730 ∧ (serializeDb 17 ssDb2).length = 775 ∧
    (∀ p ∈ ssTrace.points, ∃ x ∈ ssDb1.traces, ∃ q ∈ x.points, q.body = p.body) := by
  refine ⟨ssDb_counts.1, ssDb_counts.2, ⟨by decide +kernel, fun d => ?_⟩, ⟨by decide +kernel, fun d => ?_⟩, by decide +kernel,
    by decide +kernel, by decide +kernel, by decide +kernel, by decide +kernel⟩
  · have h1 : ∀ d ∈ ssData, ∃ t ∈ ssDb1.traces, ∃ p ∈ t.points, p.body = d := by decide +kernel
    have h2 : ∀ t ∈ ssDb1.traces, ∀ p ∈ t.points, p.body ∈ ssData := by decide +kernel
    exact ⟨h1 d, fun ⟨t, ht, p, hp, e⟩ => e ▸ h2 t ht p hp⟩
  · have h1 : ∀ d ∈ ssData, ∃ t ∈ ssDb2.traces, ∃ p ∈ t.points, p.body = d := by decide +kernel
    have h2 : ∀ t ∈ ssDb2.traces, ∀ p ∈ t.points, p.body ∈ ssData := by decide +kernel
    exact ⟨h1 d, fun ⟨t, ht, p, hp, e⟩ => e ▸ h2 t ht p hp⟩

end TraceDB
