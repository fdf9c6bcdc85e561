import Verif.Proofs.ForeignPoints
/-
Names and types of a trace read by Lisp byte by byte, and whole traces.
-/
namespace TraceDB

theorem BMem.get_succ (m : BMem) (a j : Nat) : m.get a (j + 1) = m a :: m.get (a + 1) j := by
  unfold BMem.get
  rw [List.range_succ_eq_map, List.map_cons, List.map_map, Nat.add_zero]
  congr 1
  apply List.map_congr_left
  intro i _
  show m (a + (i + 1)) = m (a + 1 + i)
  congr 1
  omega

theorem BMem.text_ok (m : BMem) : ∀ (n : List U8) (a fuel : Nat), m.get a (n.length + 1) = n ++ [0] → n.length < fuel →
    m.text a fuel = some (cStr n)
  | [], a, fuel, h, hf => by
    obtain ⟨k, rfl⟩ : ∃ k, fuel = k + 1 := ⟨fuel - 1, by simp at hf; omega⟩
    rw [List.length_nil, BMem.get_succ] at h
    have h0 : m a = 0 := by simpa using (List.cons.inj h).1
    unfold BMem.text
    rw [if_pos h0]
    rfl
  | b :: n, a, fuel, h, hf => by
    obtain ⟨k, rfl⟩ : ∃ k, fuel = k + 1 := ⟨fuel - 1, by simp at hf; omega⟩
    rw [List.length_cons, BMem.get_succ] at h
    obtain ⟨h1, h2⟩ := List.cons.inj h
    unfold BMem.text
    rw [h1]
    by_cases hb : b = 0
    · rw [if_pos hb, hb]
      simp [cStr]
    · rw [if_neg hb, BMem.text_ok m n (a + 1) k h2 (by simp at hf; omega)]
      have hb' : decide (b ≠ 0) = true := by simpa using hb
      show some (b :: cStr n) = some (cStr (b :: n))
      unfold cStr
      rw [List.takeWhile_cons_of_pos (p := fun x : U8 => decide (x ≠ 0)) hb']

theorem lispStringB_ok {m : BMem} {a p : Nat} {n : List U8} (ha : m.getNat a 8 = p) (hp : 0 < p)
    (hb : p + (n ++ [0]).length < 2 ^ 64) (hm : m.get p (n ++ [0]).length = n ++ [0]) : lispStringB m a = .ok (cStr n) := by
  rw [List.length_append, List.length_singleton] at hb hm
  unfold lispStringB
  simp only [ha]
  rw [if_neg (by omega), BMem.text_ok m n p (addressLimit - p) hm (by unfold addressLimit; omega)]

theorem lispStringsB_ok {m : BMem} {base : Nat} : ∀ (xs : List (List U8)) (i : Nat),
    (∀ (k : Nat) x, xs[k]? = some x → lispStringB m (base + (i + k) * 8) = .ok x) → lispStringsB m base i xs.length = .ok xs
  | [], _, _ => rfl
  | x :: xs, i, h => by
    simp only [List.length_cons, lispStringsB]
    have h0 := h 0 x rfl
    rw [Nat.add_zero] at h0
    rw [h0, Res.ok_bind, lispStringsB_ok xs (i + 1) fun k y hy => by
      have := h (k + 1) y (by simpa using hy)
      have e : i + 1 + k = i + (k + 1) := by omega
      rw [e]
      exact this, Res.ok_bind]
    rfl

/-- Pointers stored one after the other. -/
def putPtrs (base : Nat) : Nat → List Nat → BMem → BMem
  | _, [], m => m
  | i, p :: ps, m => putPtrs base (i + 1) ps (m.putNat (base + i * 8) 8 p)

theorem putPtrs_ok (base : Nat) : ∀ (ps : List Nat) (i : Nat) (m : BMem), (∀ p ∈ ps, p < 2 ^ 64) →
    (∀ x, ¬ InRange (base + i * 8) (ps.length * 8) x → putPtrs base i ps m x = m x) ∧
      ∀ (k : Nat) p, ps[k]? = some p → (putPtrs base i ps m).getNat (base + (i + k) * 8) 8 = p
  | [], i, m, _ => ⟨fun _ _ => rfl, by simp⟩
  | p :: ps, i, m, h => by
    obtain ⟨f2, r2⟩ := putPtrs_ok base ps (i + 1) (m.putNat (base + i * 8) 8 p) fun q hq => h q (List.mem_cons_of_mem _ hq)
    refine ⟨?_, ?_⟩
    · intro x hx
      rw [List.length_cons] at hx
      unfold InRange at hx
      unfold putPtrs
      rw [f2 x (by unfold InRange; omega), BMem.putNat_other (by unfold InRange; omega)]
    · intro k q hq
      unfold putPtrs
      cases k with
      | zero =>
        simp only [List.getElem?_cons_zero, Option.some.injEq] at hq
        subst hq
        rw [BMem.getNat_congr (m := m.putNat (base + i * 8) 8 p)]
        · have := h p (List.mem_cons_self ..)
          exact BMem.getNat_putNat (by simpa using this)
        · intro x hx
          unfold InRange at hx
          exact f2 x (by unfold InRange; omega)
      | succ k =>
        rw [List.getElem?_cons_succ] at hq
        have := r2 k q hq
        rw [← this]
        congr 2
        omega

theorem exportNamesB_eq (place : TraceAt) {base : Nat} (hbase : base ≠ 0) : ∀ (n i : Nat) (m : BMem),
    exportNamesB place base i n m = .ok (putPtrs base i ((List.range' i n).map place.name) m)
  | 0, i, m => rfl
  | n + 1, i, m => by
    unfold exportNamesB
    rw [if_neg hbase, exportNamesB_eq place hbase n (i + 1)]
    rfl

theorem exportTypesB_eq (place : TraceAt) {names : List Name} {base : Nat} (hbase : base ≠ 0) :
    ∀ (tys : List TypeDesc) (i : Nat) (m : BMem), (∀ ty ∈ tys, ty.nameIndex.toNat < names.length) →
      exportTypesB place names base i tys m = .ok (putPtrs base i (tys.map fun ty => place.name ty.nameIndex.toNat) m)
  | [], i, m, _ => rfl
  | ty :: tys, i, m, h => by
    unfold exportTypesB
    rw [if_neg hbase, if_pos (h ty (List.mem_cons_self ..)),
      exportTypesB_eq place hbase tys (i + 1) _ fun t ht => h t (List.mem_cons_of_mem _ ht)]
    rfl

/-- An array of pointers to strings in a new block, read by Lisp. -/
theorem ptrs_read {pl : Placing} (hpl : pl.Sound) {s : FState} {ps : List Nat} {xs : List Name}
    (hlen : xs.length = ps.length)
    (hk : ∀ (k : Nat) p x, ps[k]? = some p → xs[k]? = some x → s.Keeps p (x ++ [0]))
    (hb : (s.alloc pl (ps.length * 8) true).1 ≠ 0) :
    lispStringsB (putPtrs (s.alloc pl (ps.length * 8) true).1 0 ps (s.alloc pl (ps.length * 8) true).2.mem)
      (s.alloc pl (ps.length * 8) true).1 0 xs.length = .ok (xs.map cStr) ∧
    OnlyNew s ⟨putPtrs (s.alloc pl (ps.length * 8) true).1 0 ps (s.alloc pl (ps.length * 8) true).2.mem,
      (s.alloc pl (ps.length * 8) true).2.blocks⟩ := by
  obtain ⟨n1, b1⟩ := FState.alloc_new hpl (ps.length * 8) true s
  generalize hA : s.alloc pl (ps.length * 8) true = A at *
  obtain ⟨base, s1⟩ := A
  dsimp only at *
  obtain ⟨hb1, _, _, hd⟩ := b1.resolve_left hb
  have hlt : ∀ p ∈ ps, p < 2 ^ 64 := by
    intro p hp
    obtain ⟨k, hk1, hk2⟩ := List.mem_iff_getElem.mp hp
    have hx : xs[k]? = some (xs[k]'(by omega)) := List.getElem?_eq_getElem (by omega)
    have := (hk k p _ (by rw [List.getElem?_eq_getElem hk1, hk2]) hx).bound
    omega
  obtain ⟨f1, r1⟩ := putPtrs_ok base ps 0 s1.mem hlt
  rw [Nat.zero_mul, Nat.add_zero] at f1
  have hnew : OnlyNew s ⟨putPtrs base 0 ps s1.mem, s1.blocks⟩ := by
    apply n1.write
    intro x hx
    apply f1
    intro hr
    rcases hx with hx | hx
    · exact hd x hr hx
    · apply hx
      rw [hb1]
      exact ⟨_, List.mem_append_right _ (List.mem_singleton.mpr rfl), hr⟩
  refine ⟨?_, hnew⟩
  have := lispStringsB_ok (m := putPtrs base 0 ps s1.mem) (base := base) (xs.map cStr) 0 ?_
  · rw [List.length_map] at this
    exact this
  · intro k y hy
    rw [List.getElem?_map] at hy
    cases hx : xs[k]? with
    | none => rw [hx] at hy; cases hy
    | some x =>
      rw [hx] at hy
      have hy' : cStr x = y := by simpa using hy
      subst hy'
      have hklt : k < ps.length := by rw [← hlen]; exact (List.getElem?_eq_some_iff.mp hx).1
      have hp : ps[k]? = some ps[k] := List.getElem?_eq_getElem hklt
      have hkeep := hnew.keeps (hk k _ x hp hx)
      exact lispStringB_ok (r1 k _ hp) hkeep.pos hkeep.bound hkeep.bytes

theorem lispNamesB_ok {pl : Placing} (hpl : pl.Sound) {place : TraceAt} {t : Trace} {points : List Point} {s : FState}
    (hk : place.Kept t points s) (hn : t.names.length < 2 ^ 32) :
    lispNamesB pl place t s = .ub .nullDeref ∨
    ∃ s', lispNamesB pl place t s = .ok (t.names.map cStr, s') ∧ OnlyNew s s' := by
  unfold lispNamesB
  dsimp only
  rw [Nat.mod_eq_of_lt hn]
  have hrange : ((List.range' 0 t.names.length).map place.name).length = t.names.length := by simp
  by_cases hb : (s.alloc pl (t.names.length * 8) true).1 = 0
  · rw [hb]
    cases hnames : t.names with
    | nil =>
      right
      obtain ⟨n1, _⟩ := FState.alloc_new hpl (([] : List Name).length * 8) true s
      exact ⟨_, rfl, n1⟩
    | cons n ns => left; rfl
  · right
    have hp := ptrs_read hpl (s := s) (ps := (List.range' 0 t.names.length).map place.name) (xs := t.names) (by rw [hrange])
      (by
        intro k p x h1 h2
        rw [List.getElem?_map] at h1
        have hlt := (List.getElem?_eq_some_iff.mp h2).1
        rw [List.getElem?_range' hlt] at h1
        have : place.name k = p := by simpa using h1
        subst this
        exact hk.name k x h2) (by rw [hrange]; exact hb)
    rw [hrange] at hp
    rw [exportNamesB_eq place hb, Res.ok_bind, hp.1, Res.ok_bind]
    exact ⟨_, rfl, hp.2⟩

theorem getTypesLoop_ok {names : List Name} : ∀ {tys : List TypeDesc} {l : List (List U8)}, getTypesLoop names tys = .ok l →
    ∃ xs : List Name, l = xs.map cStr ∧ xs.length = tys.length ∧
      ∀ (k : Nat) ty x, tys[k]? = some ty → xs[k]? = some x → names[ty.nameIndex.toNat]? = some x
  | [], l, h => by
    simp only [getTypesLoop, Res.ok.injEq] at h
    exact ⟨[], by simp [← h], rfl, by simp⟩
  | ty :: tys, l, h => by
    simp only [getTypesLoop] at h
    cases hn : names[ty.nameIndex.toNat]? with
    | none => rw [hn] at h; cases h
    | some n =>
      rw [hn] at h
      dsimp only at h
      cases hr : getTypesLoop names tys with
      | ok rest =>
        rw [hr, Res.ok_bind] at h
        obtain ⟨xs, e1, e2, e3⟩ := getTypesLoop_ok hr
        refine ⟨n :: xs, ?_, by simp [e2], ?_⟩
        · cases h; rw [e1]; rfl
        · intro k ty' x h1 h2
          cases k with
          | zero =>
            simp only [List.getElem?_cons_zero, Option.some.injEq] at h1 h2
            subst h1 h2
            exact hn
          | succ k => exact e3 k ty' x (by simpa using h1) (by simpa using h2)
      | throw e => rw [hr] at h; cases h
      | abort => rw [hr] at h; cases h
      | ub k => rw [hr] at h; cases h
      | hang => rw [hr] at h; cases h

theorem lispTypesB_ok {pl : Placing} (hpl : pl.Sound) {place : TraceAt} {t : Trace} {points : List Point} {s : FState}
    (hk : place.Kept t points s) (hn : t.types.length < 2 ^ 32) {l : List (List U8)} (hl : getTypes t = .ok l) :
    lispTypesB pl place t s = .ub .nullDeref ∨ ∃ s', lispTypesB pl place t s = .ok (l, s') ∧ OnlyNew s s' := by
  obtain ⟨xs, rfl, hlen, hxs⟩ := getTypesLoop_ok hl
  unfold lispTypesB
  dsimp only
  rw [Nat.mod_eq_of_lt hn]
  have hrange : (t.types.map fun ty => place.name ty.nameIndex.toNat).length = t.types.length := by simp
  by_cases hb : (s.alloc pl (t.types.length * 8) true).1 = 0
  · rw [hb]
    cases htypes : t.types with
    | nil =>
      right
      rw [htypes] at hlen
      have : xs = [] := List.length_eq_zero_iff.mp hlen
      subst this
      obtain ⟨n1, _⟩ := FState.alloc_new hpl (([] : List TypeDesc).length * 8) true s
      exact ⟨_, rfl, n1⟩
    | cons n ns => left; rfl
  · right
    have hp := ptrs_read hpl (s := s) (ps := t.types.map fun ty => place.name ty.nameIndex.toNat) (xs := xs) (by rw [hrange, hlen])
      (by
        intro k p x h1 h2
        rw [List.getElem?_map] at h1
        cases hty : t.types[k]? with
        | none => rw [hty] at h1; cases h1
        | some ty =>
          rw [hty] at h1
          have : place.name ty.nameIndex.toNat = p := by simpa using h1
          subst this
          exact hk.name _ x (hxs k ty x hty h2)) (by rw [hrange]; exact hb)
    rw [hrange, hlen] at hp
    have hidx : ∀ ty ∈ t.types, ty.nameIndex.toNat < t.names.length := by
      intro ty hty
      obtain ⟨k, h1, h2⟩ := List.mem_iff_getElem.mp hty
      exact (List.getElem?_eq_some_iff.mp (hxs k ty (xs[k]'(by omega)) (by rw [List.getElem?_eq_getElem h1, h2])
        (List.getElem?_eq_getElem (by omega)))).1
    rw [exportTypesB_eq place hb t.types 0 _ hidx, Res.ok_bind, hp.1, Res.ok_bind]
    exact ⟨_, rfl, hp.2⟩

/-- Points exported by C: whatever happens to memory later, as long as the new blocks, the
names and the blobs stay, Lisp reads them. -/
theorem pointsToArrayB_ok {pl : Placing} (hpl : pl.Sound) {place : TraceAt} {t : Trace} {points : List Point} {s : FState}
    (hk : place.Kept t points s) (hf : FitForeign t points) {l : List LPoint} (hl : lispPoints t points = .ok l) :
    pointsToArrayB pl place t.types points s = .ub .nullDeref ∨
    ∃ a s', pointsToArrayB pl place t.types points s = .ok (a, s') ∧ a < 2 ^ 64 ∧ OnlyNew s s' ∧
      ∀ m'' : BMem, (∀ x, InUse s'.blocks x → ¬ InUse s.blocks x → m'' x = s'.mem x) →
        (∀ p ∈ points, ∀ v ∈ p.vars, ∀ bs, v.value = .blob bs → m''.get (place.blob v) bs.length = bs) →
        convertB (t.names.map cStr) m'' a 0 points.length = .ok l := by
  unfold pointsToArrayB
  dsimp only
  rw [cVarInfo_size]
  have hmod : points.length * 40 % addressLimit = points.length * 40 := Nat.mod_eq_of_lt hf.count
  rw [hmod]
  by_cases h0 : points.length * 40 > 0
  · rw [if_pos h0]
    obtain ⟨n1, b1⟩ := FState.alloc_new hpl (points.length * 40) false s
    generalize s.alloc pl (points.length * 40) false = A at n1 b1
    obtain ⟨results, s1⟩ := A
    dsimp only at n1 b1 ⊢
    rcases b1 with hz | ⟨hb, _, hlt, hd⟩
    · left
      subst hz
      cases hp : points with
      | nil => rw [hp] at h0; simp at h0
      | cons p ps => rfl
    · have hR : ∀ x, InRange results (points.length * 40) x → InUse s1.blocks x ∧ ¬ InUse s.blocks x := fun x hx =>
        ⟨by rw [hb]; exact ⟨_, List.mem_append_right _ (List.mem_singleton.mpr rfl), hx⟩, hd x hx⟩
      rcases exportLoopB_ok hpl (place := place) points 0 s1 l n1 hR (by omega) hl hf.sized hk.blob hf.vars hf.aux with
        e | ⟨s2, e2, n2, _, _, r2⟩
      · left; rw [e]; rfl
      · right
        rw [e2]
        exact ⟨results, s2, rfl, by omega, n2, r2⟩
  · rw [if_neg h0]
    have hnil : points = [] := List.length_eq_zero_iff.mp (by omega)
    subst hnil
    have hl' : l = [] := by simp only [lispPoints, Res.ok.injEq] at hl; exact hl.symm
    subst hl'
    exact .inr ⟨0, s, rfl, by omega, OnlyNew.refl s, fun _ _ _ => rfl⟩

/-- Points exported by C and converted by Lisp. -/
theorem lispPointsB_ok {pl : Placing} (hpl : pl.Sound) {place : TraceAt} {t : Trace} {points : List Point} {s : FState}
    (hk : place.Kept t points s) (hf : FitForeign t points) {l : List LPoint} (hl : lispPoints t points = .ok l) :
    lispPointsB pl place t points s = .ub .nullDeref ∨
    ∃ s', lispPointsB pl place t points s = .ok (l, s') ∧ OnlyNew s s' := by
  unfold lispPointsB
  rcases pointsToArrayB_ok hpl hk hf hl with e | ⟨a, s2, e2, _, n2, r2⟩
  · left; rw [e]; rfl
  · rw [e2]
    simp only [Res.ok_bind]
    rcases lispNamesB_ok hpl (n2.kept hk) hf.names with e | ⟨s3, e3, n3⟩
    · left; rw [e]; rfl
    · right
      rw [e3]
      simp only [Res.ok_bind]
      rw [r2 s3.mem (fun x hx _ => n3.same x hx) fun p hp v hv bs e => (n3.keeps (n2.keeps (hk.blob p hp v hv bs e))).bytes]
      exact ⟨s3, rfl, n2.trans n3⟩

end TraceDB
