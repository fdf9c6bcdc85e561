import Verif.Proofs.NameTable
/-
C53: tables of names and types in instrumented programs.
-/
namespace TraceDB

theorem TableTests.equal_lawful : TableTests.equal.Lawful := by
  constructor <;> simp only [TableTests.equal, beq_iff_eq, beq_self_eq_true, implies_true]
  · exact fun a b h => h.symm
  · exact fun a b c h h' => h.trans h'
  · exact fun a b h => h.symm
  · exact fun a b c h h' => h.trans h'
  · exact fun a b h => by rw [h]

theorem TableTests.equalp_lawful : TableTests.equalp.Lawful := by
  constructor <;>
    simp only [TableTests.equalp, Bool.and_eq_true, beq_iff_eq, beq_self_eq_true, implies_true, and_self]
  · exact fun a b h => h.symm
  · exact fun a b c h h' => h.trans h'
  · exact fun a b h => ⟨h.1.symm, h.2.symm⟩
  · exact fun a b c h h' => ⟨h.1.trans h'.1, h.2.trans h'.2⟩
  · exact fun a b h => h.2

/-- Every index handed out points at what was asked for in the emitted tables: a name
at that name, a type at a row with the name of the type and the format and size given
when the type was first asked for. -/
theorem C53_indices_mean_requests (te : TableTests) (law : te.Lawful) (rs : List TabReq) (j : Nat) (r : TabReq) (i : Nat)
    (hr : rs[j]? = some r) (hi : (Tables.empty.requests te rs).1[j]? = some i) :
    r.Answered te rs (Tables.empty.requests te rs).2.emitNames ((Tables.empty.requests te rs).2.emitTypes te) i := by
  obtain ⟨h1, _, _, _, _, h6⟩ := Tables.requests_spec law rs Tables.empty (Tables.inv_empty te)
  have hrows := Tables.rows_first law rs [] Tables.empty (Tables.inv_empty te) (by simp) (by simp [Tables.empty])
  have told := h6 j r i hr hi
  rw [Tables.emitNames_eq h1, Tables.emitTypes_eq law h1]
  generalize (Tables.empty.requests te rs).2 = s at h1 hrows told
  cases r with
  | name n =>
    obtain ⟨n', h2, h3⟩ := told
    exact ⟨n', by rw [List.getElem?_map, h2]; rfl, h3⟩
  | type k f z =>
    obtain ⟨k', h2, h3⟩ := told
    have e : (s.rows.map (·.1))[i]? = some k' := by rw [h1.keys, List.getElem?_map, h2]; rfl
    rw [List.getElem?_map, Option.map_eq_some_iff] at e
    obtain ⟨row, hrow, rfl⟩ := e
    obtain ⟨n', hn, hs⟩ := h1.rowName row (List.mem_of_getElem? hrow)
    obtain ⟨pre, post, hsplit, _, hno⟩ := hrows row (List.mem_of_getElem? hrow)
    refine ⟨row.2, n', row.1, by rw [List.getElem?_map, hrow]; rfl, by rw [List.getElem?_map, hn]; rfl,
      law.name_trans _ _ _ hs (law.type_name _ _ h3), pre, post, hsplit, h3, fun k'' f' z' hm => ?_⟩
    cases hb : te.type k'' k with
    | false => rfl
    | true =>
      have := hno k'' f' z' hm
      rw [law.type_trans _ _ _ hb (law.type_symm _ _ h3)] at this
      cases this

/-- Requests for the same thing get the same index, requests for different things of
one kind different indices. -/
theorem C53_shared_iff_same (te : TableTests) (law : te.Lawful) (rs : List TabReq) (j j' : Nat) (r r' : TabReq)
    (i i' : Nat) (b : Bool) (hr : rs[j]? = some r) (hr' : rs[j']? = some r')
    (hi : (Tables.empty.requests te rs).1[j]? = some i) (hi' : (Tables.empty.requests te rs).1[j']? = some i')
    (hb : r.same te r' = some b) : i = i' ↔ b = true := by
  obtain ⟨h1, _, _, _, _, h6⟩ := Tables.requests_spec law rs Tables.empty (Tables.inv_empty te)
  have t := h6 j r i hr hi
  have t' := h6 j' r' i' hr' hi'
  generalize (Tables.empty.requests te rs).2 = s at h1 t t'
  cases r with
  | name n =>
    cases r' with
    | name n' =>
      simp only [TabReq.same, Option.some.injEq] at hb
      subst hb
      obtain ⟨m, a1, a2⟩ := t
      obtain ⟨m', b1, b2⟩ := t'
      constructor
      · rintro rfl
        rw [a1] at b1
        cases b1
        exact law.name_trans _ _ _ (law.name_symm _ _ a2) b2
      · intro hs
        exact h1.names.unique law.name_symm a1 b1
          (law.name_trans _ _ _ a2 (law.name_trans _ _ _ hs (law.name_symm _ _ b2)))
    | type _ _ _ => cases hb
  | type k f z =>
    cases r' with
    | name _ => cases hb
    | type k' f' z' =>
      simp only [TabReq.same, Option.some.injEq] at hb
      subst hb
      obtain ⟨m, a1, a2⟩ := t
      obtain ⟨m', b1, b2⟩ := t'
      constructor
      · rintro rfl
        rw [a1] at b1
        cases b1
        exact law.type_trans _ _ _ (law.type_symm _ _ a2) b2
      · intro hs
        exact h1.types.unique law.type_symm a1 b1
          (law.type_trans _ _ _ a2 (law.type_trans _ _ _ hs (law.type_symm _ _ b2)))

/-- Tables emitted earlier (for the first of several programs in a project) are
beginnings of tables emitted later. -/
theorem C53_tables_grow (te : TableTests) (law : te.Lawful) (rs rs' : List TabReq) :
    (Tables.empty.requests te rs).2.emitNames <+: (Tables.empty.requests te (rs ++ rs')).2.emitNames ∧
    (Tables.empty.requests te rs).2.emitTypes te <+: (Tables.empty.requests te (rs ++ rs')).2.emitTypes te := by
  have split : ∀ (rs : List TabReq) (s : Tables),
      (s.requests te (rs ++ rs')).2 = ((s.requests te rs).2.requests te rs').2 := by
    intro rs
    induction rs with
    | nil => intro s; rfl
    | cons r rs ih => intro s; rw [List.cons_append, Tables.requests_cons, ih]; rfl
  obtain ⟨h1, _⟩ := Tables.requests_spec law rs Tables.empty (Tables.inv_empty te)
  obtain ⟨i1, i2, _, i4, _⟩ := Tables.requests_spec law rs' _ h1
  rw [split, Tables.emitNames_eq h1, Tables.emitTypes_eq law h1, Tables.emitNames_eq i1, Tables.emitTypes_eq law i1]
  exact ⟨i2.map _, i4.map _⟩

/-- With `equal` tables, as for single files, the table contains exactly the name that
was asked for. -/
theorem C53_single_file_names (rs : List TabReq) (j : Nat) (n : Name) (i : Nat) (hr : rs[j]? = some (.name n))
    (hi : (Tables.empty.requests .equal rs).1[j]? = some i) :
    (Tables.empty.requests .equal rs).2.emitNames[i]? = some n := by
  obtain ⟨n', h1, h2⟩ := C53_indices_mean_requests .equal TableTests.equal_lawful rs j (.name n) i hr hi
  simp only [TableTests.equal, beq_iff_eq] at h2
  rw [h1, h2]

/-- With the `equalp` tables of projects a name that differs from an earlier one only
in case is recorded as that one. -/
theorem C53_project_names_conflated (n n' : Name) (h : n.map foldChar = n'.map foldChar) :
    (Tables.empty.requests .equalp [.name n, .name n']).1 = [0, 0] ∧
    (Tables.empty.requests .equalp [.name n, .name n']).2.emitNames = [n] := by
  simp [Tables.requests, Tables.request, Tables.empty, indexFor, HTable.get, HTable.put, TableTests.equalp,
    Tables.emitNames, sortByIndex, insertByIndex, h]

/-- Two instrumentation threads can be given one index for two names. -/
theorem C53_threads_share_index :
    ∃ sched, runNameThreads (· == ·) [⟨[[120]], .start, []⟩, ⟨[[121]], .start, []⟩] [] sched =
      ([⟨[], .start, [([120], 0)]⟩, ⟨[], .start, [([121], 0)]⟩], [([120], 0), ([121], 0)]) :=
  ⟨[0, 1, 0, 1, 0, 1], by decide⟩

/-- Two instrumentation threads asking for the same name can be given different
indices, one of which is outside the emitted table. -/
theorem C53_threads_index_outside :
    ∃ sched ts tab, runNameThreads (· == ·) [⟨[[120]], .start, []⟩, ⟨[[120]], .start, []⟩] [] sched = (ts, tab) ∧
      ts = [⟨[], .start, [([120], 0)]⟩, ⟨[], .start, [([120], 1)]⟩] ∧
      (Tables.mk tab [] []).emitNames = [[120]] :=
  ⟨[0, 1, 0, 0, 1, 1], _, _, rfl, by decide, by decide⟩

/-- Requests of an instrumentation: `int x; int y; char *s` with strings printed and
not. -/
def tabReqs : List TabReq :=
  [.type (none, [105]) .signed 4, .name [120], .type (none, [105]) .signed 4, .name [121],
   .type (some 0, [42, 99]) .blob 0, .name [115], .type (none, [42, 99]) .pointer 8, .name [105]]

example : (Tables.empty.requests .equal tabReqs).1 = [0, 1, 0, 2, 1, 4, 2, 0] ∧
    (Tables.empty.requests .equal tabReqs).2.emitNames = [[105], [120], [121], [42, 99], [115]] ∧
    (Tables.empty.requests .equal tabReqs).2.emitTypes .equal =
      [⟨0, .signed, 4⟩, ⟨3, .blob, 0⟩, ⟨3, .pointer, 8⟩] := by decide +kernel

example : ([97] : Name).map foldChar = ([65] : Name).map foldChar := by decide

end TraceDB
