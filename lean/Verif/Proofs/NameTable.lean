import Verif.Spec.NameTable
/-
Invariants of the tables of an instrumenter.
-/
namespace TraceDB

variable {κ α : Type}

theorem sortByIndex_sorted (index : α → Nat) : ∀ l : List α, l.Pairwise (fun a b => index a ≤ index b) →
    sortByIndex index l = l
  | [], _ => rfl
  | x :: xs, h => by
    rw [List.pairwise_cons] at h
    rw [sortByIndex, sortByIndex_sorted index xs h.2]
    cases xs with
    | nil => rfl
    | cons y ys => simp [insertByIndex, h.1 y (by simp)]

theorem HTable.put_missing (same : κ → κ → Bool) : ∀ (t : HTable κ α) (k : κ) (v : α),
    t.get same k = none → t.put same k v = t ++ [(k, v)]
  | [], _, _, _ => rfl
  | (k', v') :: t, k, v, h => by
    unfold HTable.get at h
    rw [Option.map_eq_none_iff, List.find?_cons] at h
    simp only [] at h
    split at h
    · cases h
    · rename_i hs
      have ih := HTable.put_missing same t k v (by unfold HTable.get; rw [h]; rfl)
      simp [HTable.put, hs, ih]

theorem HTable.get_some {same : κ → κ → Bool} {t : HTable κ α} {k : κ} {v : α} (h : t.get same k = some v) :
    ∃ (i : Nat) (k' : κ), t[i]? = some (k', v) ∧ same k' k = true := by
  unfold HTable.get at h
  rw [Option.map_eq_some_iff] at h
  obtain ⟨e, he, hv⟩ := h
  obtain ⟨k', v'⟩ := e
  simp only [] at hv
  subst hv
  have hm := List.mem_of_find?_eq_some he
  obtain ⟨i, hi⟩ := List.getElem?_of_mem hm
  exact ⟨i, k', hi, by simpa using List.find?_some he⟩

theorem HTable.get_none {same : κ → κ → Bool} {t : HTable κ α} {k : κ} (h : t.get same k = none) :
    ∀ e ∈ t, same e.1 k = false := by
  unfold HTable.get at h
  rw [Option.map_eq_none_iff, List.find?_eq_none] at h
  intro e he
  simpa using h e he

/-- Entries carry their position, and no two keys count as the same. -/
structure HTable.Good (same : κ → κ → Bool) (t : HTable κ Nat) : Prop where
  pos : ∀ (i : Nat) (e : κ × Nat), t[i]? = some e → e.2 = i
  sep : t.Pairwise fun a b => same a.1 b.1 = false

theorem HTable.Good.nil (same : κ → κ → Bool) : HTable.Good same ([] : HTable κ Nat) :=
  ⟨by simp, .nil⟩

theorem HTable.Good.snoc {same : κ → κ → Bool} {t : HTable κ Nat} (h : HTable.Good same t) {k : κ}
    (hn : t.get same k = none) : HTable.Good same (t ++ [(k, t.length)]) := by
  constructor
  · intro i e he
    rcases Nat.lt_or_ge i t.length with hi | hi
    · rw [List.getElem?_append_left hi] at he
      exact h.pos i e he
    · rw [List.getElem?_append_right hi] at he
      rcases Nat.eq_zero_or_pos (i - t.length) with h0 | h0
      · rw [h0] at he
        simp only [List.getElem?_cons_zero, Option.some.injEq] at he
        subst he
        simp only []
        omega
      · rw [List.getElem?_eq_none (by simp; omega)] at he
        cases he
  · rw [List.pairwise_append]
    refine ⟨h.sep, by simp, fun a ha b hb => ?_⟩
    rw [List.mem_singleton] at hb
    subst hb
    exact HTable.get_none hn a ha

/-- Asking for an index: nothing is lost, and the index is the position of an entry
for the key. -/
theorem indexFor_spec {same : κ → κ → Bool} (hrefl : ∀ a, same a a = true) {t : HTable κ Nat}
    (h : HTable.Good same t) (k : κ) :
    HTable.Good same (indexFor same t k).2 ∧ t <+: (indexFor same t k).2 ∧
    ∃ k', (indexFor same t k).2[(indexFor same t k).1]? = some (k', (indexFor same t k).1) ∧ same k' k = true := by
  unfold indexFor
  cases hg : t.get same k with
  | some v =>
    obtain ⟨i, k', hi, hk⟩ := HTable.get_some hg
    have := h.pos i _ hi
    simp only [] at this
    subst this
    exact ⟨h, List.prefix_refl _, k', hi, hk⟩
  | none =>
    rw [HTable.put_missing same t k t.length hg]
    exact ⟨h.snoc hg, List.prefix_append _ _, k, by simp, hrefl k⟩

/-- Keys that count as the same have the same index. -/
theorem HTable.Good.unique {same : κ → κ → Bool} {t : HTable κ Nat} (h : HTable.Good same t)
    (hsymm : ∀ a b, same a b = true → same b a = true)
    {i j : Nat} {a b : κ × Nat} (hi : t[i]? = some a) (hj : t[j]? = some b) (hs : same a.1 b.1 = true) : i = j := by
  have hsep := h.sep
  rw [List.pairwise_iff_getElem] at hsep
  obtain ⟨li, ei⟩ := List.getElem?_eq_some_iff.mp hi
  obtain ⟨lj, ej⟩ := List.getElem?_eq_some_iff.mp hj
  rcases Nat.lt_trichotomy i j with hlt | heq | hgt
  · have := hsep i j li lj hlt
    rw [ei, ej, hs] at this
    cases this
  · exact heq
  · have := hsep j i lj li hgt
    rw [ei, ej, hsymm _ _ hs] at this
    cases this

theorem HTable.Good.get_of {same : κ → κ → Bool} {t : HTable κ Nat} (h : HTable.Good same t)
    (hrefl : ∀ a, same a a = true) (hsymm : ∀ a b, same a b = true → same b a = true)
    {i : Nat} {e : κ × Nat} (hi : t[i]? = some e) : t.get same e.1 = some i := by
  cases hg : t.get same e.1 with
  | none =>
    have := HTable.get_none hg e (List.mem_of_getElem? hi)
    rw [hrefl] at this
    cases this
  | some v =>
    obtain ⟨j, k', hj, hk⟩ := HTable.get_some hg
    have e1 := h.pos j _ hj
    have e2 := h.unique hsymm hj hi hk
    simp only [] at e1
    rw [e1, e2]

/-- What holds of the tables at any time. -/
structure Tables.Inv (te : TableTests) (s : Tables) : Prop where
  names : HTable.Good te.name s.names
  types : HTable.Good te.type s.types
  keys : s.rows.map (·.1) = s.types.map (·.1)
  rowName : ∀ e ∈ s.rows, ∃ n, s.names[e.2.name]? = some (n, e.2.name) ∧ te.name n e.1.2 = true

/-- What an index says about the tables. -/
def Tables.Told (te : TableTests) (s : Tables) (i : Nat) : TabReq → Prop
  | .name n => ∃ n', s.names[i]? = some (n', i) ∧ te.name n' n = true
  | .type k _ _ => ∃ k', s.types[i]? = some (k', i) ∧ te.type k' k = true

theorem prefix_getElem? {l l' : List α} (h : l <+: l') {i : Nat} {a : α} (hi : l[i]? = some a) : l'[i]? = some a := by
  obtain ⟨m, rfl⟩ := h
  rcases Nat.lt_or_ge i l.length with hlt | hge
  · rw [List.getElem?_append_left hlt, hi]
  · rw [List.getElem?_eq_none hge] at hi; cases hi

theorem Tables.Told.mono {te : TableTests} {s s' : Tables} (hn : s.names <+: s'.names) (ht : s.types <+: s'.types)
    {i : Nat} {r : TabReq} (h : s.Told te i r) : s'.Told te i r := by
  cases r with
  | name n =>
    obtain ⟨n', h1, h2⟩ := h
    exact ⟨n', prefix_getElem? hn h1, h2⟩
  | type k f z =>
    obtain ⟨k', h1, h2⟩ := h
    exact ⟨k', prefix_getElem? ht h1, h2⟩

/-- One request. -/
theorem Tables.request_spec {te : TableTests} (law : te.Lawful) {s : Tables} (h : s.Inv te) (r : TabReq) :
    (s.request te r).2.Inv te ∧ s.names <+: (s.request te r).2.names ∧ s.types <+: (s.request te r).2.types ∧
    s.rows <+: (s.request te r).2.rows ∧ (s.request te r).2.Told te (s.request te r).1 r ∧
    ((s.request te r).2.rows = s.rows ∨ ∃ k f z nm, r = .type k f z ∧ s.types.get te.type k = none ∧
      (s.request te r).2.rows = s.rows ++ [(k, ⟨nm, f, z⟩)]) := by
  cases r with
  | name n =>
    obtain ⟨h1, h2, h3⟩ := indexFor_spec law.name_refl h.names n
    refine ⟨⟨h1, h.types, h.keys, fun e he => ?_⟩, h2, List.prefix_refl _, List.prefix_refl _, h3, .inl rfl⟩
    obtain ⟨m, hm, hs⟩ := h.rowName e he
    exact ⟨m, prefix_getElem? h2 hm, hs⟩
  | type k f z =>
    cases hg : s.types.get te.type k with
    | some i =>
      have e : s.request te (.type k f z) = (i, s) := by simp only [Tables.request, hg]
      rw [e]
      refine ⟨h, List.prefix_refl _, List.prefix_refl _, List.prefix_refl _, ?_, .inl rfl⟩
      obtain ⟨j, k', hj, hk⟩ := HTable.get_some hg
      have := h.types.pos j _ hj
      simp only [] at this
      subst this
      exact ⟨k', hj, hk⟩
    | none =>
      obtain ⟨h1, h2, n', h3, h4⟩ := indexFor_spec law.name_refl h.names k.2
      have hrow : s.rows.get te.type k = none := by
        unfold HTable.get
        rw [Option.map_eq_none_iff, List.find?_eq_none]
        intro e he
        have : e.1 ∈ s.types.map (·.1) := by rw [← h.keys]; exact List.mem_map_of_mem he
        obtain ⟨e', he', heq⟩ := List.mem_map.mp this
        have := HTable.get_none hg e' he'
        rw [heq] at this
        simp [this]
      have e : s.request te (.type k f z) = (s.types.length, ⟨(indexFor te.name s.names k.2).2,
          s.types ++ [(k, s.types.length)], s.rows ++ [(k, ⟨(indexFor te.name s.names k.2).1, f, z⟩)]⟩) := by
        simp only [Tables.request, hg]
        rw [HTable.put_missing _ _ _ _ hg, HTable.put_missing _ _ _ _ hrow]
      rw [e]
      refine ⟨⟨h1, h.types.snoc hg, ?_, ?_⟩, h2, List.prefix_append _ _, List.prefix_append _ _,
        ⟨k, by simp, law.type_refl k⟩, .inr ⟨k, f, z, _, rfl, hg, rfl⟩⟩
      · simp only [List.map_append, h.keys, List.map_cons, List.map_nil]
      · intro e he
        rcases List.mem_append.mp he with he | he
        · obtain ⟨m, hm, hs⟩ := h.rowName e he
          exact ⟨m, prefix_getElem? h2 hm, hs⟩
        · rw [List.mem_singleton] at he
          subst he
          exact ⟨n', h3, h4⟩

theorem Tables.inv_empty (te : TableTests) : Tables.empty.Inv te :=
  ⟨.nil _, .nil _, rfl, by simp [Tables.empty]⟩

theorem Tables.requests_cons (te : TableTests) (s : Tables) (r : TabReq) (rs : List TabReq) :
    s.requests te (r :: rs) = ((s.request te r).1 :: ((s.request te r).2.requests te rs).1,
      ((s.request te r).2.requests te rs).2) := rfl

/-- A sequence of requests. -/
theorem Tables.requests_spec {te : TableTests} (law : te.Lawful) : ∀ (rs : List TabReq) (s : Tables), s.Inv te →
    (s.requests te rs).2.Inv te ∧ s.names <+: (s.requests te rs).2.names ∧
    s.types <+: (s.requests te rs).2.types ∧ s.rows <+: (s.requests te rs).2.rows ∧
    (s.requests te rs).1.length = rs.length ∧
    ∀ (j : Nat) (r : TabReq) (i : Nat), rs[j]? = some r → (s.requests te rs).1[j]? = some i →
      (s.requests te rs).2.Told te i r
  | [], s, h => ⟨h, List.prefix_refl _, List.prefix_refl _, List.prefix_refl _, rfl, by simp⟩
  | r :: rs, s, h => by
    obtain ⟨h1, h2, h3, h4, h5, _⟩ := Tables.request_spec law h r
    obtain ⟨i1, i2, i3, i4, i5, i6⟩ := Tables.requests_spec law rs _ h1
    rw [Tables.requests_cons]
    refine ⟨i1, h2.trans i2, h3.trans i3, h4.trans i4, by simp [i5], fun j q i hq hi => ?_⟩
    cases j with
    | zero =>
      simp only [List.getElem?_cons_zero, Option.some.injEq] at hq hi
      subst hq; subst hi
      exact h5.mono i2 i3
    | succ j =>
      simp only [List.getElem?_cons_succ] at hq hi
      exact i6 j q i hq hi

/-- Rows come from the first request for their key. -/
theorem Tables.rows_first {te : TableTests} (law : te.Lawful) : ∀ (rs pre : List TabReq) (s : Tables), s.Inv te →
    (∀ k f z, TabReq.type k f z ∈ pre → (s.types.get te.type k).isSome = true) →
    (∀ e ∈ s.rows, FirstTypeRequest te (pre ++ rs) e.1 e.1 e.2.format e.2.size) →
    ∀ e ∈ (s.requests te rs).2.rows, FirstTypeRequest te (pre ++ rs) e.1 e.1 e.2.format e.2.size
  | [], pre, s, _, _, h => h
  | r :: rs, pre, s, hinv, hpre, h => by
    obtain ⟨h1, h2, h3, h4, h5, h6⟩ := Tables.request_spec law hinv r
    rw [Tables.requests_cons]
    have key := Tables.rows_first law rs (pre ++ [r]) (s.request te r).2 h1
    rw [List.append_assoc, List.singleton_append] at key
    refine key ?_ ?_
    · intro k f z hk
      have mono : ∀ k, (∃ (i : Nat) (k' : TypeKey), (s.request te r).2.types[i]? = some (k', i) ∧ te.type k' k = true) →
          ((s.request te r).2.types.get te.type k).isSome = true := by
        rintro k ⟨i, k', hi, hk⟩
        cases hg : (s.request te r).2.types.get te.type k with
        | some _ => rfl
        | none =>
          have := HTable.get_none hg _ (List.mem_of_getElem? hi)
          rw [hk] at this
          cases this
      refine mono k ?_
      rcases List.mem_append.mp hk with hk | hk
      · have hs := hpre k f z hk
        cases hg : s.types.get te.type k with
        | none => rw [hg] at hs; cases hs
        | some v =>
          obtain ⟨i, k', hi, hk'⟩ := HTable.get_some hg
          have := hinv.types.pos i _ hi
          simp only [] at this
          subst this
          exact ⟨_, k', prefix_getElem? h3 hi, hk'⟩
      · rw [List.mem_singleton] at hk
        subst hk
        obtain ⟨k', a, b⟩ := h5
        exact ⟨_, k', a, b⟩
    · rcases h6 with he | ⟨k, f, z, nm, rfl, hg, he⟩
      · rw [he]
        exact h
      · rw [he]
        intro e hm
        rcases List.mem_append.mp hm with hm | hm
        · exact h e hm
        · rw [List.mem_singleton] at hm
          subst hm
          refine ⟨pre, rs, rfl, law.type_refl k, fun k'' f' z' hp => ?_⟩
          have hs := hpre k'' f' z' hp
          cases hb : te.type k'' k with
          | false => rfl
          | true =>
            exfalso
            cases hg' : s.types.get te.type k'' with
            | none => rw [hg'] at hs; cases hs
            | some v =>
              obtain ⟨i, k', hi, hk'⟩ := HTable.get_some hg'
              have := HTable.get_none hg _ (List.mem_of_getElem? hi)
              rw [law.type_trans _ _ _ hk' hb] at this
              cases this

/-- Emitted tables are the tables in order of insertion. -/
theorem Tables.emitNames_eq {te : TableTests} {s : Tables} (h : s.Inv te) : s.emitNames = s.names.map (·.1) := by
  unfold Tables.emitNames
  rw [sortByIndex_sorted]
  rw [List.pairwise_iff_getElem]
  intro i j hi hj hlt
  rw [h.names.pos i _ (List.getElem?_eq_getElem hi), h.names.pos j _ (List.getElem?_eq_getElem hj)]
  omega

theorem Tables.emitTypes_eq {te : TableTests} (law : te.Lawful) {s : Tables} (h : s.Inv te) :
    s.emitTypes te = s.rows.map (·.2) := by
  unfold Tables.emitTypes
  rw [sortByIndex_sorted]
  have hkey : ∀ (i : Nat) (hi : i < s.rows.length), s.types.get te.type s.rows[i].1 = some i := by
    intro i hi
    have e : (s.rows.map (·.1))[i]? = (s.types.map (·.1))[i]? := by rw [h.keys]
    rw [List.getElem?_map, List.getElem?_map, List.getElem?_eq_getElem hi] at e
    cases ht : s.types[i]? with
    | none => rw [ht] at e; cases e
    | some x =>
      rw [ht] at e
      simp only [Option.map_some, Option.some.injEq] at e
      rw [e]
      exact h.types.get_of law.type_refl law.type_symm ht
  rw [List.pairwise_iff_getElem]
  intro i j hi hj hlt
  simp only [hkey i hi, hkey j hj, Option.getD_some]
  omega

end TraceDB
