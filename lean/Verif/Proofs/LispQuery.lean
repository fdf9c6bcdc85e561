import Verif.Proofs.LispDb
import Verif.Proofs.Query
/-
Queries of the two databases in terms of named bindings.
-/
namespace TraceDB

/-! Removal of duplicates -/

theorem removeDuplicates_spec {α β : Type} [DecidableEq β] (same : α → α → Bool) (key : α → β)
    (h : ∀ a b, same a b = true ↔ key a = key b) : ∀ l : List α,
    (∀ x ∈ removeDuplicates same l, x ∈ l) ∧
    (∀ x ∈ l, ∃ y ∈ removeDuplicates same l, key y = key x) ∧
    (removeDuplicates same l).Pairwise (fun a b => key a ≠ key b)
  | [] => by simp [removeDuplicates]
  | x :: xs => by
    obtain ⟨i1, i2, i3⟩ := removeDuplicates_spec same key h xs
    unfold removeDuplicates
    split
    · rename_i hany
      obtain ⟨y, hy, hs⟩ := List.any_eq_true.mp hany
      refine ⟨fun z hz => List.mem_cons_of_mem _ (i1 z hz), fun z hz => ?_, i3⟩
      rcases List.mem_cons.mp hz with rfl | hz
      · obtain ⟨w, hw, e⟩ := i2 y hy
        exact ⟨w, hw, e.trans ((h _ _).mp hs).symm⟩
      · exact i2 z hz
    · rename_i hany
      refine ⟨fun z hz => ?_, fun z hz => ?_, ?_⟩
      · rcases List.mem_cons.mp hz with rfl | hz
        · simp
        · exact List.mem_cons_of_mem _ (i1 z hz)
      · rcases List.mem_cons.mp hz with rfl | hz
        · exact ⟨z, by simp, rfl⟩
        · obtain ⟨w, hw, e⟩ := i2 z hz
          exact ⟨w, List.mem_cons_of_mem _ hw, e⟩
      · rw [List.pairwise_cons]
        refine ⟨fun y hy he => hany (List.any_eq_true.mpr ⟨y, i1 y hy, (h _ _).mpr he⟩), i3⟩

theorem sameBindings_iff (p q : LPoint) : sameBindings p q = true ↔ foldedKey p = foldedKey q := by
  simp [sameBindings, foldedKey, Bool.and_eq_true, beq_iff_eq, and_assoc]

/-! The list-based database -/

theorem mem_cartesianNoDup : ∀ (ls : List (List Nat)) (b : List Nat),
    b ∈ cartesianNoDup ls ↔ b.length = ls.length ∧ b.Nodup ∧
      ∀ (i : Nat) (l : List Nat) (k : Nat), ls[i]? = some l → b[i]? = some k → k ∈ l
  | [], b => by
    simp only [cartesianNoDup, List.mem_singleton, List.length_nil]
    constructor
    · rintro rfl; simp
    · rintro ⟨h, _⟩; exact List.eq_nil_of_length_eq_zero h
  | l :: ls, b => by
    simp only [cartesianNoDup, List.mem_flatMap, List.mem_map, List.mem_filter]
    constructor
    · rintro ⟨inner, hin, k, ⟨hk, hnot⟩, rfl⟩
      obtain ⟨h1, h2, h3⟩ := (mem_cartesianNoDup ls inner).mp hin
      refine ⟨by simp [h1], List.nodup_cons.mpr ⟨by simpa using hnot, h2⟩, fun i m j hm hj => ?_⟩
      cases i with
      | zero =>
        simp only [List.getElem?_cons_zero, Option.some.injEq] at hm hj
        subst hm; subst hj; exact hk
      | succ i =>
        simp only [List.getElem?_cons_succ] at hm hj
        exact h3 i m j hm hj
    · rintro ⟨h1, h2, h3⟩
      cases b with
      | nil => simp at h1
      | cons k inner =>
        rw [List.nodup_cons] at h2
        refine ⟨inner, (mem_cartesianNoDup ls inner).mpr ⟨by simpa using h1, h2.2, fun i m j hm hj => ?_⟩, k,
          ⟨h3 0 l k rfl rfl, by simpa using h2.1⟩, rfl⟩
        exact h3 (i + 1) m j (by simpa using hm) (by simpa using hj)

theorem mem_sexpCandidates (p : LPoint) (ts : List (List U8)) (k : Nat) :
    k ∈ sexpCandidates p ts ↔ ∃ v, p.scopes[k]? = some v ∧ v.type ∈ ts := by
  unfold sexpCandidates
  rw [List.mem_filter, List.mem_range]
  constructor
  · rintro ⟨h, hm⟩
    rw [List.getElem?_eq_getElem h] at hm ⊢
    exact ⟨_, rfl, by simpa using hm⟩
  · rintro ⟨v, hv, hm⟩
    refine ⟨(List.getElem?_eq_some_iff.mp hv).1, ?_⟩
    rw [hv]
    simpa using hm

theorem mem_sexpAtPoint (varTypes : List (List (List U8))) (p r : LPoint) :
    r ∈ sexpAtPoint varTypes p ↔ ∃ b, IsNamedBinding varTypes p.scopes b ∧ b.Nodup ∧ r = namedResult p b := by
  unfold sexpAtPoint
  rw [List.mem_map]
  have key : ∀ b, b ∈ cartesianNoDup (varTypes.map (sexpCandidates p)) ↔
      IsNamedBinding varTypes p.scopes b ∧ b.Nodup := by
    intro b
    rw [mem_cartesianNoDup, List.length_map]
    unfold IsNamedBinding
    constructor
    · rintro ⟨h1, h2, h3⟩
      refine ⟨⟨h1, fun i ts k hts hk => (mem_sexpCandidates p ts k).mp (h3 i _ k ?_ hk)⟩, h2⟩
      rw [List.getElem?_map, hts]; rfl
    · rintro ⟨⟨h1, h3⟩, h2⟩
      refine ⟨h1, h2, fun i l k hl hk => ?_⟩
      rw [List.getElem?_map, Option.map_eq_some_iff] at hl
      obtain ⟨ts, hts, rfl⟩ := hl
      exact (mem_sexpCandidates p ts k).mpr (h3 i ts k hts hk)
  constructor
  · rintro ⟨b, hb, rfl⟩
    obtain ⟨h1, h2⟩ := (key b).mp hb
    exact ⟨b, h1, h2, rfl⟩
  · rintro ⟨b, h1, h2, rfl⟩
    exact ⟨b, (key b).mpr ⟨h1, h2⟩, rfl⟩

/-! Conversion -/

theorem lispVars_get {t : Trace} : ∀ {vs : List VarInfo} {ls : List LVar}, lispVars t vs = .ok ls →
    ls.length = vs.length ∧ ∀ (i : Nat) (v : VarInfo), vs[i]? = some v → ∃ l, ls[i]? = some l ∧ lispVar t v = .ok l
  | [], ls, h => by cases h; simp
  | v :: vs, ls, h => by
    simp only [lispVars] at h
    obtain ⟨x, hx, h⟩ := Res.bind_eq_ok.mp h
    obtain ⟨xs, hxs, h⟩ := Res.bind_eq_ok.mp h
    cases h
    obtain ⟨i1, i2⟩ := lispVars_get hxs
    refine ⟨by simp [i1], fun i w hw => ?_⟩
    cases i with
    | zero =>
      simp only [List.getElem?_cons_zero, Option.some.injEq] at hw
      subst hw
      exact ⟨x, rfl, hx⟩
    | succ i =>
      simp only [List.getElem?_cons_succ] at hw ⊢
      exact i2 i w hw

/-- Converting the bound variables gives the bound converted variables. -/
theorem lispVars_bound {t : Trace} {vs : List VarInfo} {ls : List LVar} (h : lispVars t vs = .ok ls) :
    ∀ b : List Nat, (∀ k ∈ b, k < vs.length) →
      lispVars t (b.filterMap (vs[·]?)) = .ok (b.filterMap (ls[·]?))
  | [], _ => rfl
  | k :: b, hb => by
    have hk := hb k (by simp)
    obtain ⟨h1, h2⟩ := lispVars_get h
    obtain ⟨l, hl, hc⟩ := h2 k _ (List.getElem?_eq_getElem hk)
    have ih := lispVars_bound h b (fun j hj => hb j (List.mem_cons_of_mem _ hj))
    rw [List.filterMap_cons, List.filterMap_cons, List.getElem?_eq_getElem hk, hl]
    simp only [lispVars, hc, ih, Res.ok_bind, Res.pure_eq]

theorem lispVar_type {t : Trace} {v : VarInfo} {l : LVar} (h : lispVar t v = .ok l) :
    ∃ ty n, t.types[v.typeIndex.toNat]? = some ty ∧ t.names[ty.nameIndex.toNat]? = some n ∧ l.type = cStr n := by
  unfold lispVar at h
  split at h
  · cases h
  · rename_i ty hty
    split at h
    · rename_i n tn hn htn
      obtain ⟨x, hx, h⟩ := Res.bind_eq_ok.mp h
      cases h
      exact ⟨ty, tn, hty, htn, rfl⟩
    · cases h

/-- Names and types of converted variables come from the tables. -/
theorem lispVar_names {t : Trace} {v : VarInfo} {l : LVar} (h : lispVar t v = .ok l) :
    l.name ∈ t.names.map cStr ∧ l.type ∈ t.names.map cStr := by
  unfold lispVar at h
  split at h
  · cases h
  · split at h
    · rename_i n tn hn htn
      obtain ⟨x, hx, h⟩ := Res.bind_eq_ok.mp h
      cases h
      exact ⟨List.mem_map_of_mem (List.mem_of_getElem? hn), List.mem_map_of_mem (List.mem_of_getElem? htn)⟩
    · cases h

/-- What `convert` makes of two variables with the same indices has the same names. -/
theorem lispVar_same {t : Trace} {v w : VarInfo} {l m : LVar} (hv : lispVar t v = .ok l) (hw : lispVar t w = .ok m)
    (hn : v.nameIndex = w.nameIndex) (ht : v.typeIndex = w.typeIndex) : l.name = m.name ∧ l.type = m.type := by
  unfold lispVar at hv hw
  rw [← ht, ← hn] at hw
  split at hv
  · cases hv
  · rename_i ty hty
    rw [hty] at hw
    simp only [] at hw
    split at hv
    · rename_i n tn hn' htn
      rw [hn', htn] at hw
      simp only [] at hw
      obtain ⟨x, _, hv⟩ := Res.bind_eq_ok.mp hv
      obtain ⟨y, _, hw⟩ := Res.bind_eq_ok.mp hw
      cases hv; cases hw
      exact ⟨rfl, rfl⟩
    · cases hv

theorem lispVars_same {t : Trace} : ∀ {vs ws : List VarInfo} {ls ms : List LVar},
    lispVars t vs = .ok ls → lispVars t ws = .ok ms →
    (vs.map fun v => (v.nameIndex, v.typeIndex)) = (ws.map fun v => (v.nameIndex, v.typeIndex)) →
    (ls.map fun v => (v.name, v.type)) = ms.map fun v => (v.name, v.type)
  | [], [], ls, ms, h, h', _ => by cases h; cases h'; rfl
  | [], _ :: _, _, _, _, _, e => by cases e
  | _ :: _, [], _, _, _, _, e => by cases e
  | v :: vs, w :: ws, ls, ms, h, h', e => by
    simp only [lispVars] at h h'
    obtain ⟨x, hx, h⟩ := Res.bind_eq_ok.mp h
    obtain ⟨xs, hxs, h⟩ := Res.bind_eq_ok.mp h
    obtain ⟨y, hy, h'⟩ := Res.bind_eq_ok.mp h'
    obtain ⟨ys, hys, h'⟩ := Res.bind_eq_ok.mp h'
    cases h; cases h'
    simp only [List.map_cons, List.cons.injEq, Prod.mk.injEq] at e ⊢
    exact ⟨lispVar_same hx hy e.1.1 e.1.2, lispVars_same hxs hys e.2⟩

/-- Equal keys on the C side give equal keys on the Lisp side. -/
theorem exactKey_of_bindingKey {t : Trace} {p q : Point} {l m : LPoint} (hp : lispPoint t p = .ok l)
    (hq : lispPoint t q = .ok m) (h : bindingKey p = bindingKey q) : exactKey l = exactKey m := by
  obtain ⟨a1, a2, _, a3⟩ := lispPoint_f hp
  obtain ⟨b1, b2, _, b3⟩ := lispPoint_f hq
  simp only [bindingKey, Prod.mk.injEq] at h
  simp only [exactKey, a1, a2, b1, b2, h.1, lispVars_same a3 b3 h.2]

/-! Types -/

theorem getTypesLoop_get {names : List Name} : ∀ {tys : List TypeDesc} {types : List (List U8)},
    getTypesLoop names tys = .ok types → types.length = tys.length ∧
      ∀ (i : Nat) (ty : TypeDesc), tys[i]? = some ty →
        ∃ n, names[ty.nameIndex.toNat]? = some n ∧ types[i]? = some (cStr n)
  | [], types, h => by cases h; simp
  | ty :: tys, types, h => by
    simp only [getTypesLoop] at h
    split at h
    · cases h
    · rename_i n hn
      obtain ⟨rest, hr, h⟩ := Res.bind_eq_ok.mp h
      cases h
      obtain ⟨i1, i2⟩ := getTypesLoop_get hr
      refine ⟨by simp [i1], fun i ty' h' => ?_⟩
      cases i with
      | zero =>
        simp only [List.getElem?_cons_zero, Option.some.injEq] at h'
        subst h'
        exact ⟨n, hn, rfl⟩
      | succ i =>
        simp only [List.getElem?_cons_succ] at h' ⊢
        exact i2 i ty' h'

/-- The position of a type name among distinct names. -/
theorem findIdx_nodup {types : List (List U8)} (h : types.Nodup) {i : Nat} {n : List U8} (hi : types[i]? = some n) :
    types.findIdx (· == n) = i := by
  obtain ⟨hlt, he⟩ := List.getElem?_eq_some_iff.mp hi
  rw [List.findIdx_eq hlt]
  refine ⟨by simp [he], fun j hj => ?_⟩
  have := (List.pairwise_iff_getElem.mp h) j i (by omega) hlt hj
  rw [he] at this
  simpa using this

theorem typePositions_ok {types : List (List U8)} : ∀ {ns : List (List U8)}, (∀ n ∈ ns, n ∈ types) →
    typePositions types ns = .ok (ns.map fun n => BitVec.ofNat 32 (types.findIdx (· == n)))
  | [], _ => rfl
  | n :: ns, h => by
    have hn : types.findIdx (· == n) < types.length :=
      List.findIdx_lt_length_of_exists ⟨n, h n (by simp), by simp⟩
    simp only [typePositions, if_pos hn, typePositions_ok (fun m hm => h m (List.mem_cons_of_mem _ hm)), Res.ok_bind,
      Res.pure_eq, List.map_cons]

theorem freeVars_ok {types : List (List U8)} : ∀ {tss : List (List (List U8))}, (∀ ts ∈ tss, ∀ n ∈ ts, n ∈ types) →
    freeVars types tss = .ok (tss.map fun ts => ts.map fun n => BitVec.ofNat 32 (types.findIdx (· == n)))
  | [], _ => rfl
  | ts :: tss, h => by
    simp only [freeVars, typePositions_ok (h ts (by simp)),
      freeVars_ok (fun m hm => h m (List.mem_cons_of_mem _ hm)), Res.ok_bind, Res.pure_eq, List.map_cons]

/-- Bindings by index and by name are the same. -/
theorem isBinding_iff {t : Trace} {types : List (List U8)} (htypes : getTypes t = .ok types) (hnodup : types.Nodup)
    (hsmall : types.length < 2 ^ 32) {p : Point} {l : LPoint} (hl : lispPoint t p = .ok l)
    {varTypes : List (List (List U8))} (hknown : ∀ ts ∈ varTypes, ∀ n ∈ ts, n ∈ types) (b : List Nat) :
    IsBinding (varTypes.map fun ts => ts.map fun n => BitVec.ofNat 32 (types.findIdx (· == n))) p.vars b ↔
      IsNamedBinding varTypes l.scopes b := by
  obtain ⟨_, _, _, hv⟩ := lispPoint_f hl
  obtain ⟨hlen, hget⟩ := lispVars_get hv
  obtain ⟨_, htget⟩ := getTypesLoop_get htypes
  have key : ∀ (k : Nat) (ts : List (List U8)), ts ∈ varTypes →
      ((∃ v, p.vars[k]? = some v ∧ v.typeIndex ∈ ts.map fun n => BitVec.ofNat 32 (types.findIdx (· == n))) ↔
      ∃ v, l.scopes[k]? = some v ∧ v.type ∈ ts) := by
    intro k ts hts
    have one : ∀ (v : VarInfo) (x : LVar), lispVar t v = .ok x →
        (v.typeIndex ∈ (ts.map fun n => BitVec.ofNat 32 (types.findIdx (· == n))) ↔ x.type ∈ ts) := by
      intro v x hx
      obtain ⟨ty, n, h1, h2, h3⟩ := lispVar_type hx
      obtain ⟨n', h4, h5⟩ := htget _ _ h1
      rw [h2] at h4
      cases h4
      rw [← h3] at h5
      have hidx := findIdx_nodup hnodup h5
      constructor
      · intro hm
        obtain ⟨m, hm, he⟩ := List.mem_map.mp hm
        have hml := hknown ts hts m hm
        have hfl : types.findIdx (· == m) < types.length := List.findIdx_lt_length_of_exists ⟨m, hml, by simp⟩
        have he' : types.findIdx (· == m) = v.typeIndex.toNat := by
          have := congrArg BitVec.toNat he
          rw [BitVec.toNat_ofNat, Nat.mod_eq_of_lt (by omega)] at this
          exact this
        have hfound : types[types.findIdx (· == m)] = m := by
          have := List.findIdx_getElem (p := (· == m)) (xs := types) (w := hfl)
          simpa using this
        have : types[types.findIdx (· == m)]? = some m := by rw [List.getElem?_eq_getElem hfl, hfound]
        rw [he', h5] at this
        cases this
        exact hm
      · intro hm
        refine List.mem_map.mpr ⟨x.type, hm, ?_⟩
        rw [hidx]
        exact BitVec.eq_of_toNat_eq (by rw [BitVec.toNat_ofNat, Nat.mod_eq_of_lt v.typeIndex.isLt])
    constructor
    · rintro ⟨v, hv, hm⟩
      obtain ⟨x, hx, hc⟩ := hget k v hv
      exact ⟨x, hx, (one v x hc).mp hm⟩
    · rintro ⟨x, hx, hm⟩
      have hlt : k < p.vars.length := by rw [← hlen]; exact (List.getElem?_eq_some_iff.mp hx).1
      obtain ⟨x', hx', hc⟩ := hget k _ (List.getElem?_eq_getElem hlt)
      rw [hx] at hx'
      cases hx'
      exact ⟨_, List.getElem?_eq_getElem hlt, (one _ x hc).mpr hm⟩
  unfold IsBinding IsNamedBinding
  rw [List.length_map]
  refine and_congr Iff.rfl ⟨fun h i ts k hts hk => ?_, fun h i fv k hfv hk => ?_⟩
  · exact (key k ts (List.mem_of_getElem? hts)).mp (h i _ k (by rw [List.getElem?_map, hts]; rfl) hk)
  · rw [List.getElem?_map, Option.map_eq_some_iff] at hfv
    obtain ⟨ts, hts, rfl⟩ := hfv
    exact (key k ts (List.mem_of_getElem? hts)).mpr (h i ts k hts hk)

/-- Positions of a binding are in range. -/
theorem IsBinding.lt {variables : List FreeVar} {vars : List VarInfo} {b : List Nat} (h : IsBinding variables vars b) :
    ∀ k ∈ b, k < vars.length := by
  intro k hk
  obtain ⟨i, hi⟩ := List.getElem?_of_mem hk
  have hlt : i < variables.length := by rw [← h.1]; exact (List.getElem?_eq_some_iff.mp hi).1
  obtain ⟨v, hv, _⟩ := h.2 i _ k (List.getElem?_eq_getElem hlt) hi
  exact (List.getElem?_eq_some_iff.mp hv).1

/-- The converted result of a binding. -/
theorem lispPoint_result {t : Trace} {p : Point} {l : LPoint} (hl : lispPoint t p = .ok l) {b : List Nat}
    (hb : ∀ k ∈ b, k < p.vars.length) : lispPoint t (resultOf p b) = .ok (namedResult l b) := by
  obtain ⟨h1, h2, h3, h4⟩ := lispPoint_f hl
  have := lispVars_bound h4 b hb
  simp only [lispPoint, resultOf, boundVars, this, Res.ok_bind, Res.pure_eq, namedResult]
  rw [h1, h2, h3]

/-- Converting lists of points that can be converted. -/
theorem lispPoints_ok {t : Trace} : ∀ {ps : List Point}, (∀ p ∈ ps, ∃ l, lispPoint t p = .ok l) →
    ∃ ls, lispPoints t ps = .ok ls ∧ (∀ l ∈ ls, ∃ p ∈ ps, lispPoint t p = .ok l) ∧
      ∀ p ∈ ps, ∃ l ∈ ls, lispPoint t p = .ok l
  | [], _ => ⟨[], rfl, by simp, by simp⟩
  | p :: ps, h => by
    obtain ⟨x, hx⟩ := h p (by simp)
    obtain ⟨xs, h1, h2, h3⟩ := lispPoints_ok (fun q hq => h q (List.mem_cons_of_mem _ hq))
    refine ⟨x :: xs, by simp only [lispPoints, hx, h1, Res.ok_bind, Res.pure_eq], fun l hl => ?_, fun q hq => ?_⟩
    · rcases List.mem_cons.mp hl with rfl | hl
      · exact ⟨p, by simp, hx⟩
      · obtain ⟨q, hq, e⟩ := h2 l hl
        exact ⟨q, List.mem_cons_of_mem _ hq, e⟩
    · rcases List.mem_cons.mp hq with rfl | hq
      · exact ⟨x, by simp, hx⟩
      · obtain ⟨l, hl, e⟩ := h3 q hq
        exact ⟨l, List.mem_cons_of_mem _ hl, e⟩

theorem lispPoints_mem {t : Trace} : ∀ {ps : List Point} {ls : List LPoint}, lispPoints t ps = .ok ls →
    (∀ l ∈ ls, ∃ p ∈ ps, lispPoint t p = .ok l) ∧ ∀ p ∈ ps, ∃ l ∈ ls, lispPoint t p = .ok l
  | [], ls, h => by cases h; simp
  | p :: ps, ls, h => by
    simp only [lispPoints] at h
    obtain ⟨x, hx, h⟩ := Res.bind_eq_ok.mp h
    obtain ⟨xs, hxs, h⟩ := Res.bind_eq_ok.mp h
    cases h
    obtain ⟨h2, h3⟩ := lispPoints_mem hxs
    refine ⟨fun l hl => ?_, fun q hq => ?_⟩
    · rcases List.mem_cons.mp hl with rfl | hl
      · exact ⟨p, by simp, hx⟩
      · obtain ⟨q, hq, e⟩ := h2 l hl
        exact ⟨q, List.mem_cons_of_mem _ hq, e⟩
    · rcases List.mem_cons.mp hq with rfl | hq
      · exact ⟨x, by simp, hx⟩
      · obtain ⟨l, hl, e⟩ := h3 q hq
        exact ⟨l, List.mem_cons_of_mem _ hl, e⟩

theorem foldedKey_of_exactKey {p q : LPoint} (h : exactKey p = exactKey q) : foldedKey p = foldedKey q := by
  simp only [exactKey, Prod.mk.injEq] at h
  obtain ⟨h1, h2, h3⟩ := h
  have := congrArg (List.map fun x : List U8 × List U8 => (x.1.map foldChar, x.2.map foldChar)) h3
  rw [List.map_map, List.map_map] at this
  simp only [foldedKey, h1, h2, Prod.mk.injEq, true_and]
  exact this

end TraceDB
