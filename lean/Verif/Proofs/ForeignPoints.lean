import Verif.Proofs.ForeignBytes
/-
Points exported byte by byte are read back by Lisp.
-/
namespace TraceDB

/-! Offsets -/

theorem cVarInfo_layout : cLayout 0 cVarInfo = [(.value, 0, 8), (.format, 8, 4), (.varNameIndex, 12, 4),
    (.typeNameIndex, 16, 4), (.size, 20, 4), (.bufferSize, 24, 8), (.hasBufferSize, 32, 1)] := by decide +kernel
theorem lispVarInfo_layout : cffiLayout 0 lispVarInfo = [(.value, 0, 8), (.format, 8, 4), (.varNameIndex, 12, 4),
    (.typeNameIndex, 16, 4), (.size, 20, 4), (.bufferSize, 24, 8), (.hasBufferSize, 32, 1)] := by decide +kernel
theorem cVarInfo_size : cSizeof cVarInfo = 40 := by decide +kernel
theorem lispVarInfo_size : cffiSizeof lispVarInfo = 40 := by decide +kernel
theorem cTracePoint_layout : cLayout 0 cTracePoint =
    [(.statement, 0, 8), (.vars, 8, 8), (.nVars, 16, 4), (.aux, 24, 8), (.nAux, 32, 4)] := by decide +kernel
theorem lispTracePoint_layout : cffiLayout 0 lispTracePoint =
    [(.statement, 0, 8), (.vars, 8, 8), (.nVars, 16, 4), (.aux, 24, 8), (.nAux, 32, 4)] := by decide +kernel
theorem cTracePoint_size : cSizeof cTracePoint = 40 := by decide +kernel
theorem lispTracePoint_size : cffiSizeof lispTracePoint = 40 := by decide +kernel

/-- Finding a member in a list that is given. -/
theorem Layout.find_cons (y x : Member) (o n : Nat) (l : Layout) :
    Layout.find ((y, o, n) :: l) x = if y = x then (o, n) else Layout.find l x := by
  unfold Layout.find
  rw [List.find?_cons]
  by_cases h : y = x
  · simp [h]
  · have : (y == x) = false := by simpa using h
    simp [this, h]

/-! Variables -/

/-- What is in memory at the address of a variable. -/
structure VarAt (m : BMem) (a : Nat) (value format nameIndex typeNameIndex size bufferSize has : Nat) : Prop where
  value : m.getNat a 8 = value
  format : m.getNat (a + 8) 4 = format
  name : m.getNat (a + 12) 4 = nameIndex
  type : m.getNat (a + 16) 4 = typeNameIndex
  size : m.getNat (a + 20) 4 = size
  buffer : m.getNat (a + 24) 8 = bufferSize
  has : m.getNat (a + 32) 1 = has

theorem VarAt.congr {m m' : BMem} {a x1 x2 x3 x4 x5 x6 x7 : Nat} (h : VarAt m a x1 x2 x3 x4 x5 x6 x7)
    (hm : ∀ x, InRange a 40 x → m' x = m x) : VarAt m' a x1 x2 x3 x4 x5 x6 x7 := by
  have k : ∀ b n, a ≤ b → b + n ≤ a + 40 → m'.getNat b n = m.getNat b n := fun b n h1 h2 =>
    BMem.getNat_congr fun x hx => hm x (by unfold InRange at *; omega)
  exact ⟨(k _ _ (by omega) (by omega)).trans h.value, (k _ _ (by omega) (by omega)).trans h.format,
    (k _ _ (by omega) (by omega)).trans h.name, (k _ _ (by omega) (by omega)).trans h.type,
    (k _ _ (by omega) (by omega)).trans h.size, (k _ _ (by omega) (by omega)).trans h.buffer,
    (k _ _ (by omega) (by omega)).trans h.has⟩

/-- The number of a format. -/
theorem cFormats_lt (f : TypeFormat) : cTypeFormats.findIdx (· == f) < 6 := by cases f <;> decide

theorem lispFormats_cFormats (f : TypeFormat) : lispTypeFormats[cTypeFormats.findIdx (· == f)]? = some f := by
  cases f <;> decide

theorem exportVarB_ok {place : TraceAt} {types : List TypeDesc} {a : Nat} {v : VarInfo} {m : BMem} {ty : TypeDesc}
    (hty : types[v.typeIndex.toNat]? = some ty) (hb : place.bits v < 2 ^ 64) :
    ∃ m', exportVarB place types a v m = .ok m' ∧ (∀ x, ¬ InRange a 40 x → m' x = m x) ∧
      VarAt m' a (place.bits v) (cTypeFormats.findIdx (· == v.format)) v.nameIndex.toNat ty.nameIndex.toNat v.size.toNat
        v.bufferSize.toNat v.hasBufferSize.toNat := by
  unfold exportVarB
  rw [hty]
  simp only [cVarInfo_layout, BMem.store, Layout.find_cons, reduceCtorEq, if_true, if_false, Nat.add_zero]
  have hf := cFormats_lt v.format
  have h1 := v.nameIndex.isLt
  have h2 := ty.nameIndex.isLt
  have h3 := v.size.isLt
  have h4 := v.bufferSize.isLt
  have h5 : v.hasBufferSize.toNat < 256 := by cases v.hasBufferSize <;> decide
  refine ⟨_, rfl, ?_, ?_⟩
  · intro x hx
    unfold InRange at hx
    repeat rw [BMem.putNat_other (by unfold InRange; omega)]
  · constructor
    · rw [BMem.getNat_putNat_disj (by omega), BMem.getNat_putNat_disj (by omega), BMem.getNat_putNat_disj (by omega),
        BMem.getNat_putNat_disj (by omega), BMem.getNat_putNat (by simpa using hb)]
    · rw [BMem.getNat_putNat_disj (by omega), BMem.getNat_putNat_disj (by omega), BMem.getNat_putNat_disj (by omega),
        BMem.getNat_putNat (by omega)]
    · rw [BMem.getNat_putNat_disj (by omega), BMem.getNat_putNat_disj (by omega), BMem.getNat_putNat_disj (by omega),
        BMem.getNat_putNat_disj (by omega), BMem.getNat_putNat_disj (by omega), BMem.getNat_putNat_disj (by omega),
        BMem.getNat_putNat (by simpa using h1)]
    · rw [BMem.getNat_putNat_disj (by omega), BMem.getNat_putNat_disj (by omega), BMem.getNat_putNat_disj (by omega),
        BMem.getNat_putNat_disj (by omega), BMem.getNat_putNat_disj (by omega), BMem.getNat_putNat (by simpa using h2)]
    · rw [BMem.getNat_putNat_disj (by omega), BMem.getNat_putNat_disj (by omega), BMem.getNat_putNat (by simpa using h3)]
    · rw [BMem.getNat_putNat_disj (by omega), BMem.getNat_putNat (by simpa using h4)]
    · rw [BMem.getNat_putNat (by simpa using h5)]

/-- The low bytes of what is in memory. -/
theorem BMem.getNat_mod (m : BMem) (a k n : Nat) (h : k ≤ n) : m.getNat a k = m.getNat a n % 256 ^ k := by
  have key : ∀ (k n a : Nat), k ≤ n → leNat (m.get a k) = leNat (m.get a n) % 256 ^ k := by
    intro k
    induction k with
    | zero => intro n a _; simp [BMem.get, leNat, Nat.mod_one]
    | succ k ih =>
      intro n a h
      cases n with
      | zero => omega
      | succ n =>
        have e : ∀ j, m.get a (j + 1) = m a :: m.get (a + 1) j := by
          intro j
          unfold BMem.get
          rw [List.range_succ_eq_map, List.map_cons, List.map_map, Nat.add_zero]
          congr 1
          apply List.map_congr_left
          intro i _
          show m (a + (i + 1)) = m (a + 1 + i)
          congr 1
          omega
        rw [e, e]
        simp only [leNat]
        rw [ih n (a + 1) (by omega)]
        have hb := (m a).isLt
        rw [Nat.pow_succ, Nat.mul_comm (256 ^ k) 256, Nat.mod_mul]
        have h1 : ((m a).toNat + 256 * leNat (m.get (a + 1) n)) % 256 = (m a).toNat := by omega
        have h2 : ((m a).toNat + 256 * leNat (m.get (a + 1) n)) / 256 = leNat (m.get (a + 1) n) := by omega
        rw [h1, h2]
  exact key k n a h

theorem lispValueB_ok {place : TraceAt} {v : VarInfo} {m : BMem} {a : Nat} {y : LValue} (hs : v.Sized)
    (hblob : ∀ bs, v.value = .blob bs → m.get (place.blob v) bs.length = bs) (hv : m.getNat a 8 = place.bits v)
    (hy : lispValue v = .ok y) : lispValueB m a v.format v.size.toNat = .ok y := by
  have e4 : m.getNat a 4 = m.getNat a 8 % 256 ^ 4 := BMem.getNat_mod m a 4 8 (by omega)
  unfold lispValue at hy
  unfold VarInfo.Sized at hs
  unfold TraceAt.bits at hv
  cases hval : v.value with
  | word u =>
    rw [hval] at hv hy
    dsimp only at hv
    have eu : BitVec.ofNat 64 u.toNat = u := by rw [BitVec.ofNat_toNat, BitVec.setWidth_eq]
    cases hf : v.format with
    | unsigned => rw [hf] at hy; unfold lispValueB; rw [hv]; exact hy
    | signed => rw [hf] at hy; unfold lispValueB; rw [hv, eu]; exact hy
    | float =>
      rw [hf] at hy
      have e5 : BitVec.ofNat 32 (m.getNat a 4) = u.setWidth 32 := by
        apply BitVec.eq_of_toNat_eq
        rw [BitVec.toNat_ofNat, BitVec.toNat_setWidth, e4, hv]
        exact Nat.mod_mod _ _
      unfold lispValueB
      rw [hv, e5, eu]
      by_cases h4 : v.size = 4
      · have h4' : v.size.toNat = 4 := by rw [h4]; rfl
        simp only [h4', if_true]
        simp only [h4, if_true] at hy
        exact hy
      · have h4' : ¬ v.size.toNat = 4 := fun h => h4 (BitVec.eq_of_toNat_eq h)
        simp only [h4', if_false]
        simp only [h4, if_false] at hy
        exact hy
    | pointer => rw [hf] at hy; unfold lispValueB; rw [hv]; exact hy
    | blob => rw [hf] at hy; cases hy
    | invalid => rw [hf] at hy; cases hy
  | blob bs =>
    rw [hval] at hv hy hs
    dsimp only at hv hs
    rw [hs.1] at hy ⊢
    unfold lispValueB
    rw [hv, hs.2, hblob bs hval]
    exact hy

theorem lispVarB_ok {place : TraceAt} {t : Trace} {v : VarInfo} {ty : TypeDesc} {m : BMem} {a : Nat} {x : LVar}
    (hty : t.types[v.typeIndex.toNat]? = some ty) (hs : v.Sized)
    (hblob : ∀ bs, v.value = .blob bs → m.get (place.blob v) bs.length = bs)
    (hm : VarAt m a (place.bits v) (cTypeFormats.findIdx (· == v.format)) v.nameIndex.toNat ty.nameIndex.toNat v.size.toNat
        v.bufferSize.toNat v.hasBufferSize.toNat) (hx : lispVar t v = .ok x) :
    lispVarB (t.names.map cStr) m a = .ok x := by
  unfold lispVar at hx
  rw [hty] at hx
  dsimp only at hx
  unfold lispVarB
  simp only [lispVarInfo_layout, BMem.load, Layout.find_cons, reduceCtorEq, if_true, if_false, hm.format, hm.name, hm.type,
    hm.size, hm.buffer, hm.has, lispFormats_cFormats, List.getElem?_map]
  have hval := fun y hy => lispValueB_ok (y := y) hs hblob hm.value hy
  cases hn : t.names[v.nameIndex.toNat]? with
  | none => rw [hn] at hx; simp at hx
  | some n =>
    cases htn : t.names[ty.nameIndex.toNat]? with
    | none => rw [hn, htn] at hx; simp at hx
    | some tn =>
      rw [hn, htn] at hx
      dsimp only at hx
      cases hl : lispValue v with
      | ok y =>
        rw [hl, Res.ok_bind] at hx
        rw [hval y hl, Res.ok_bind]
        simp only [Option.map_some]
        rw [← hx]
        cases v.hasBufferSize <;> rfl
      | throw e => rw [hl] at hx; cases hx
      | abort => rw [hl] at hx; cases hx
      | ub k => rw [hl] at hx; cases hx
      | hang => rw [hl] at hx; cases hx

theorem exportVarsB_ok {place : TraceAt} {t : Trace} {base : Nat} (hbase : base ≠ 0) :
    ∀ (vs : List VarInfo) (j : Nat) (m : BMem) (xs : List LVar), lispVars t vs = .ok xs → (∀ v ∈ vs, v.Sized) →
      (∀ v ∈ vs, place.bits v < 2 ^ 64) →
      ∃ m', exportVarsB place t.types base j vs m = .ok m' ∧
        (∀ x, ¬ InRange (base + j * 40) (vs.length * 40) x → m' x = m x) ∧
        ∀ m'' : BMem, (∀ x, InRange (base + j * 40) (vs.length * 40) x → m'' x = m' x) →
          (∀ v ∈ vs, ∀ bs, v.value = .blob bs → m''.get (place.blob v) bs.length = bs) →
          lispScopesB (t.names.map cStr) m'' base j vs.length = .ok xs
  | [], j, m, xs, hx, _, _ => ⟨m, rfl, fun _ _ => rfl, fun m'' _ _ => by
      simp only [lispVars, Res.ok.injEq] at hx
      subst hx
      rfl⟩
  | v :: vs, j, m, xs, hx, hs, hb => by
    simp only [lispVars] at hx
    cases hv : lispVar t v with
    | ok y =>
      rw [hv, Res.ok_bind] at hx
      cases hvs : lispVars t vs with
      | ok ys =>
        rw [hvs, Res.ok_bind] at hx
        have hx' : xs = y :: ys := by cases hx; rfl
        subst hx'
        have hty : ∃ ty, t.types[v.typeIndex.toNat]? = some ty := by
          unfold lispVar at hv
          cases h : t.types[v.typeIndex.toNat]? with
          | none => rw [h] at hv; cases hv
          | some ty => exact ⟨ty, rfl⟩
        obtain ⟨ty, hty⟩ := hty
        obtain ⟨m1, e1, f1, a1⟩ := exportVarB_ok (place := place) (a := base + j * 40) (m := m) hty
          (hb v (List.mem_cons_self ..))
        obtain ⟨m2, e2, f2, r2⟩ := exportVarsB_ok hbase vs (j + 1) m1 ys hvs
          (fun w hw => hs w (List.mem_cons_of_mem _ hw)) (fun w hw => hb w (List.mem_cons_of_mem _ hw))
        refine ⟨m2, ?_, ?_, ?_⟩
        · unfold exportVarsB
          rw [if_neg hbase, cVarInfo_size, e1, Res.ok_bind]
          exact e2
        · intro x hx
          rw [List.length_cons] at hx
          unfold InRange at hx
          rw [f2 x (by unfold InRange; omega), f1 x (by unfold InRange; omega)]
        · intro m'' hm hbl
          rw [List.length_cons] at hm
          simp only [List.length_cons, lispScopesB, lispVarInfo_size]
          have a2 := a1.congr (m' := m'') fun x hx => by
            unfold InRange at hx
            rw [hm x (by unfold InRange; omega), f2 x (by unfold InRange; omega)]
          rw [lispVarB_ok hty (hs v (List.mem_cons_self ..)) (fun bs e => hbl v (List.mem_cons_self ..) bs e) a2 hv,
            Res.ok_bind, r2 m'' (fun x hx => hm x (by unfold InRange at *; omega))
              fun w hw => hbl w (List.mem_cons_of_mem _ hw), Res.ok_bind]
          rfl
      | throw e => rw [hvs] at hx; cases hx
      | abort => rw [hvs] at hx; cases hx
      | ub k => rw [hvs] at hx; cases hx
      | hang => rw [hvs] at hx; cases hx
    | throw e => rw [hv] at hx; cases hx
    | abort => rw [hv] at hx; cases hx
    | ub k => rw [hv] at hx; cases hx
    | hang => rw [hv] at hx; cases hx

/-! Auxiliary values -/

theorem exportAuxB_ok {base : Nat} (hbase : base ≠ 0) : ∀ (us : List U64) (j : Nat) (m : BMem),
    ∃ m', exportAuxB base j us m = .ok m' ∧ (∀ x, ¬ InRange (base + j * 8) (us.length * 8) x → m' x = m x) ∧
      ∀ (i : Nat) u, us[i]? = some u → m'.getNat (base + (j + i) * 8) 8 = u.toNat
  | [], j, m => ⟨m, rfl, fun _ _ => rfl, by simp⟩
  | u :: us, j, m => by
    obtain ⟨m2, e2, f2, r2⟩ := exportAuxB_ok hbase us (j + 1) (m.putNat (base + j * 8) 8 u.toNat)
    refine ⟨m2, ?_, ?_, ?_⟩
    · unfold exportAuxB
      rw [if_neg hbase, e2]
    · intro x hx
      rw [List.length_cons] at hx
      unfold InRange at hx
      rw [f2 x (by unfold InRange; omega), BMem.putNat_other (by unfold InRange; omega)]
    · intro i w hw
      cases i with
      | zero =>
        simp only [List.getElem?_cons_zero, Option.some.injEq] at hw
        subst hw
        rw [BMem.getNat_congr (m := m.putNat (base + j * 8) 8 u.toNat)]
        · have := u.isLt
          exact BMem.getNat_putNat (by simpa using this)
        · intro x hx
          unfold InRange at hx
          exact f2 x (by unfold InRange; omega)
      | succ i =>
        rw [List.getElem?_cons_succ] at hw
        have := r2 i w hw
        rw [← this]
        congr 2
        omega

theorem lispAuxB_ok {m : BMem} {base : Nat} {us : List U64}
    (h : ∀ (i : Nat) u, us[i]? = some u → m.getNat (base + i * 8) 8 = u.toNat) : lispAuxB m base us.length = us := by
  apply List.ext_getElem
  · simp [lispAuxB]
  · intro i h1 h2
    simp only [lispAuxB, List.getElem_map, List.getElem_range]
    rw [h i us[i] (List.getElem?_eq_getElem h2)]
    simp

/-! Points -/

theorem exportPointB_ok {pl : Placing} (hpl : pl.Sound) {place : TraceAt} {t : Trace} {results i total : Nat} {p : Point}
    {s0 s : FState} {y : LPoint} (hnew : OnlyNew s0 s)
    (hR : ∀ x, InRange results total x → InUse s.blocks x ∧ ¬ InUse s0.blocks x)
    (hi : (i + 1) * 40 ≤ total) (hy : lispPoint t p = .ok y) (hs : ∀ v ∈ p.vars, v.Sized)
    (hkeep : ∀ v ∈ p.vars, ∀ bs, v.value = .blob bs → s0.Keeps (place.blob v) bs)
    (hnv : p.vars.length < 2 ^ 32) (hna : p.aux.length < 2 ^ 32) :
    exportPointB pl place t.types results i p s = .ub .nullDeref ∨
    ∃ s', exportPointB pl place t.types results i p s = .ok s' ∧ OnlyNew s0 s' ∧
      (∀ x, InUse s.blocks x → InUse s'.blocks x) ∧
      (∀ x, InUse s.blocks x → ¬ InRange (results + i * 40) 40 x → s'.mem x = s.mem x) ∧
      ∀ m'' : BMem, (∀ x, InUse s'.blocks x → ¬ InUse s0.blocks x → (InRange results total x → x < results + (i + 1) * 40) →
          m'' x = s'.mem x) →
        (∀ v ∈ p.vars, ∀ bs, v.value = .blob bs → m''.get (place.blob v) bs.length = bs) →
        lispPointB (t.names.map cStr) m'' (results + i * 40) = .ok y := by
  unfold exportPointB
  dsimp only
  rw [cVarInfo_size, cTracePoint_size]
  generalize hv1 : s.alloc pl (p.vars.length * 40) true = A1
  obtain ⟨n1, b1⟩ := FState.alloc_new hpl (p.vars.length * 40) true s
  rw [hv1] at n1 b1
  obtain ⟨cv, s1⟩ := A1
  dsimp only at n1 b1 ⊢
  generalize hv2 : s1.alloc pl (p.aux.length * 8) true = A2
  obtain ⟨n2, b2⟩ := FState.alloc_new hpl (p.aux.length * 8) true s1
  rw [hv2] at n2 b2
  obtain ⟨ca, s2⟩ := A2
  dsimp only at n2 b2 ⊢
  by_cases hr : results = 0
  · left; rw [if_pos hr]
  rw [if_neg hr]
  simp only [cTracePoint_layout, BMem.store, Layout.find_cons, reduceCtorEq, if_true, if_false, Nat.add_zero]
  have u1 := p.statement.isLt
  generalize ha : results + i * 40 = a
  -- the structure of the point
  have hcv : cv < 2 ^ 64 ∧ ca < 2 ^ 64 := by
    constructor
    · rcases b1 with h | ⟨_, _, h, _⟩ <;> omega
    · rcases b2 with h | ⟨_, _, h, _⟩ <;> omega
  have hstruct : ∃ m3 : BMem,
      m3 = ((((s2.mem.putNat a 8 p.statement.toNat).putNat (a + 32) 4 p.aux.length).putNat (a + 16) 4
        p.vars.length).putNat (a + 24) 8 ca).putNat (a + 8) 8 cv ∧
      (∀ x, ¬ InRange a 40 x → m3 x = s2.mem x) ∧ m3.getNat a 8 = p.statement.toNat ∧ m3.getNat (a + 8) 8 = cv ∧
      m3.getNat (a + 16) 4 = p.vars.length ∧ m3.getNat (a + 24) 8 = ca ∧ m3.getNat (a + 32) 4 = p.aux.length := by
    refine ⟨_, rfl, ?_, ?_, ?_, ?_, ?_, ?_⟩
    · intro x hx
      unfold InRange at hx
      repeat rw [BMem.putNat_other (by unfold InRange; omega)]
    · rw [BMem.getNat_putNat_disj (by omega), BMem.getNat_putNat_disj (by omega), BMem.getNat_putNat_disj (by omega),
        BMem.getNat_putNat_disj (by omega), BMem.getNat_putNat (by simpa using u1)]
    · rw [BMem.getNat_putNat (by simpa using hcv.1)]
    · rw [BMem.getNat_putNat_disj (by omega), BMem.getNat_putNat_disj (by omega), BMem.getNat_putNat (by simpa using hnv)]
    · rw [BMem.getNat_putNat_disj (by omega), BMem.getNat_putNat (by simpa using hcv.2)]
    · rw [BMem.getNat_putNat_disj (by omega), BMem.getNat_putNat_disj (by omega), BMem.getNat_putNat_disj (by omega),
        BMem.getNat_putNat (by simpa using hna)]
  obtain ⟨m3, e3, f3, r1, r2, r3, r4, r5⟩ := hstruct
  rw [← e3]
  clear e3
  -- the auxiliary values
  have haux : exportAuxB ca 0 p.aux m3 = .ub .nullDeref ∨
      ∃ m4, exportAuxB ca 0 p.aux m3 = .ok m4 ∧ (∀ x, ¬ (ca ≠ 0 ∧ InRange ca (p.aux.length * 8) x) → m4 x = m3 x) ∧
        ∀ (i : Nat) u, p.aux[i]? = some u → ca ≠ 0 ∧ m4.getNat (ca + i * 8) 8 = u.toNat := by
    by_cases hc : ca = 0
    · cases hus : p.aux with
      | nil => exact Or.inr ⟨m3, rfl, fun _ _ => rfl, by simp⟩
      | cons u us => left; unfold exportAuxB; rw [if_pos hc]
    · obtain ⟨m4, e, f, r⟩ := exportAuxB_ok hc p.aux 0 m3
      refine Or.inr ⟨m4, e, ?_, ?_⟩
      · intro x hx
        exact f x fun h => hx ⟨hc, by unfold InRange at *; omega⟩
      · intro i u hu
        have := r i u hu
        rw [Nat.zero_add] at this
        exact ⟨hc, this⟩
  rcases haux with haux | ⟨m4, e4, f4, r6⟩
  · left; rw [haux]; rfl
  rw [e4, Res.ok_bind]
  -- the variables
  unfold lispPoint at hy
  cases hvs : lispVars t p.vars with
  | throw e => rw [hvs] at hy; cases hy
  | abort => rw [hvs] at hy; cases hy
  | ub k => rw [hvs] at hy; cases hy
  | hang => rw [hvs] at hy; cases hy
  | ok xs =>
  rw [hvs, Res.ok_bind] at hy
  have hbits : ∀ v ∈ p.vars, place.bits v < 2 ^ 64 := by
    intro v hv
    unfold TraceAt.bits
    cases hval : v.value with
    | word u => exact u.isLt
    | blob bs =>
      have hk := hkeep v hv bs hval
      dsimp only
      have := hk.bound
      rcases Nat.lt_or_ge (place.blob v) (2 ^ 64) with h | h
      · exact h
      · -- the address is at the end of the address space
        exfalso
        omega
  have hvars : exportVarsB place t.types cv 0 p.vars m4 = .ub .nullDeref ∨
      ∃ m5, exportVarsB place t.types cv 0 p.vars m4 = .ok m5 ∧
        (∀ x, ¬ (cv ≠ 0 ∧ InRange cv (p.vars.length * 40) x) → m5 x = m4 x) ∧
        ∀ m'' : BMem, (∀ x, cv ≠ 0 → InRange cv (p.vars.length * 40) x → m'' x = m5 x) →
          (∀ v ∈ p.vars, ∀ bs, v.value = .blob bs → m''.get (place.blob v) bs.length = bs) →
          lispScopesB (t.names.map cStr) m'' cv 0 p.vars.length = .ok xs := by
    by_cases hc : cv = 0
    · cases hus : p.vars with
      | nil =>
        refine Or.inr ⟨m4, rfl, fun _ _ => rfl, fun m'' _ _ => ?_⟩
        rw [hus] at hvs
        simp only [lispVars, Res.ok.injEq] at hvs
        subst hvs
        rfl
      | cons u us => left; unfold exportVarsB; rw [if_pos hc]
    · obtain ⟨m5, e, f, r⟩ := exportVarsB_ok hc p.vars 0 m4 xs hvs hs hbits
      rw [Nat.zero_mul, Nat.add_zero] at f r
      exact Or.inr ⟨m5, e, fun x hx => f x fun h => hx ⟨hc, h⟩, fun m'' h1 h2 => r m'' (fun x hx => h1 x hc hx) h2⟩
  rcases hvars with hvars | ⟨m5, e5, f5, r7⟩
  · left; rw [hvars]; rfl
  rw [e5, Res.ok_bind]
  right
  -- where the blocks are
  have c1 : ∀ x, cv ≠ 0 → InRange cv (p.vars.length * 40) x → InUse s2.blocks x ∧ ¬ InUse s.blocks x := by
    intro x h0 hx
    rcases b1 with h | ⟨hb, _, _, hd⟩
    · exact absurd h h0
    · refine ⟨n2.use ?_, hd x hx⟩
      rw [hb]
      exact ⟨_, List.mem_append_right _ (List.mem_singleton.mpr rfl), hx⟩
  have c2 : ∀ x, ca ≠ 0 → InRange ca (p.aux.length * 8) x → InUse s2.blocks x ∧ ¬ InUse s1.blocks x := by
    intro x h0 hx
    rcases b2 with h | ⟨hb, _, _, hd⟩
    · exact absurd h h0
    · refine ⟨?_, hd x hx⟩
      rw [hb]
      exact ⟨_, List.mem_append_right _ (List.mem_singleton.mpr rfl), hx⟩
  have ca1 : ∀ x, InRange a 40 x → InUse s.blocks x ∧ ¬ InUse s0.blocks x := fun x hx =>
    hR x (by unfold InRange at *; omega)
  have n02 : OnlyNew s0 s2 := hnew.trans (n1.trans n2)
  have hmem : ∀ x, ¬ InRange a 40 x → (InUse s.blocks x ∨ ¬ InUse s2.blocks x) → m5 x = s2.mem x := by
    intro x hx h
    rw [f5 x, f4 x, f3 x hx]
    · rintro ⟨h0, hr'⟩
      rcases h with h | h
      · exact (c2 x h0 hr').2 (n1.use h)
      · exact h (c2 x h0 hr').1
    · rintro ⟨h0, hr'⟩
      rcases h with h | h
      · exact (c1 x h0 hr').2 h
      · exact h (c1 x h0 hr').1
  refine ⟨⟨m5, s2.blocks⟩, rfl, ?_, fun x hx => n2.use (n1.use hx), ?_, ?_⟩
  · apply n02.write
    intro x hx
    apply hmem x
    · intro hxa
      rcases hx with hx | hx
      · exact (ca1 x hxa).2 hx
      · exact hx (n2.use (n1.use (ca1 x hxa).1))
    · rcases hx with hx | hx
      · exact Or.inl (hnew.use hx)
      · exact Or.inr hx
  · intro x hx hxa
    show m5 x = s.mem x
    rw [hmem x hxa (Or.inl hx), n2.same x (n1.use hx), n1.same x hx]
  · intro m'' hm k5
    -- what of memory is the same
    have k1 : ∀ x, InRange a 40 x → m'' x = m3 x := by
      intro x hx
      have hu := (ca1 x hx).1
      rw [hm x (n2.use (n1.use hu)) (ca1 x hx).2 (fun _ => by unfold InRange at hx; omega)]
      show m5 x = m3 x
      rw [f5 x, f4 x]
      · rintro ⟨h0, hr'⟩; exact (c2 x h0 hr').2 (n1.use hu)
      · rintro ⟨h0, hr'⟩; exact (c1 x h0 hr').2 hu
    have k2 : ∀ b n, a ≤ b → b + n ≤ a + 40 → m''.getNat b n = m3.getNat b n := fun b n h1 h2 =>
      BMem.getNat_congr fun x hx => k1 x (by unfold InRange at *; omega)
    have k3 : ∀ x, cv ≠ 0 → InRange cv (p.vars.length * 40) x → m'' x = m5 x := fun x h0 hx =>
      hm x (c1 x h0 hx).1 (fun hu => (c1 x h0 hx).2 (hnew.use hu)) fun hin => absurd (hR x hin).1 (c1 x h0 hx).2
    have k4 : ∀ x, ca ≠ 0 → InRange ca (p.aux.length * 8) x → m'' x = m4 x := by
      intro x h0 hx
      rw [hm x (c2 x h0 hx).1 (fun hu => (c2 x h0 hx).2 (n1.use (hnew.use hu))) fun hin => absurd (n1.use (hR x hin).1) (c2 x h0 hx).2]
      show m5 x = m4 x
      rw [f5 x]
      rintro ⟨h1, hr'⟩
      refine (c2 x h0 hx).2 ?_
      rcases b1 with h | ⟨hb, _, _, _⟩
      · exact absurd h h1
      · rw [hb]
        exact ⟨_, List.mem_append_right _ (List.mem_singleton.mpr rfl), hr'⟩
    unfold lispPointB
    simp only [lispTracePoint_layout, BMem.load, Layout.find_cons, reduceCtorEq, if_true, if_false, Nat.add_zero]
    rw [k2 a 8 (by omega) (by omega), k2 (a + 8) 8 (by omega) (by omega), k2 (a + 16) 4 (by omega) (by omega),
      k2 (a + 24) 8 (by omega) (by omega), k2 (a + 32) 4 (by omega) (by omega), r1, r2, r3, r4, r5, r7 m'' k3 k5,
      Res.ok_bind, ← hy]
    have hax : lispAuxB m'' ca p.aux.length = p.aux := by
      apply lispAuxB_ok
      intro j u hu
      obtain ⟨h0, hg⟩ := r6 j u hu
      rw [← hg]
      apply BMem.getNat_congr
      intro x hx
      apply k4 x h0
      have hj := (List.getElem?_eq_some_iff.mp hu).1
      unfold InRange at *
      omega
    rw [hax]
    simp

theorem exportLoopB_ok {pl : Placing} (hpl : pl.Sound) {place : TraceAt} {t : Trace} {results total : Nat} {s0 : FState} :
    ∀ (ps : List Point) (i : Nat) (s : FState) (l : List LPoint), OnlyNew s0 s →
      (∀ x, InRange results total x → InUse s.blocks x ∧ ¬ InUse s0.blocks x) →
      (i + ps.length) * 40 ≤ total → lispPoints t ps = .ok l → (∀ p ∈ ps, ∀ v ∈ p.vars, v.Sized) →
      (∀ p ∈ ps, ∀ v ∈ p.vars, ∀ bs, v.value = .blob bs → s0.Keeps (place.blob v) bs) →
      (∀ p ∈ ps, p.vars.length < 2 ^ 32) → (∀ p ∈ ps, p.aux.length < 2 ^ 32) →
      exportLoopB pl place t.types results i ps s = .ub .nullDeref ∨
      ∃ s', exportLoopB pl place t.types results i ps s = .ok s' ∧ OnlyNew s0 s' ∧
        (∀ x, InUse s.blocks x → InUse s'.blocks x) ∧
        (∀ x, InUse s.blocks x → ¬ (InRange results total x ∧ results + i * 40 ≤ x) → s'.mem x = s.mem x) ∧
        ∀ m'' : BMem, (∀ x, InUse s'.blocks x → ¬ InUse s0.blocks x → m'' x = s'.mem x) →
          (∀ p ∈ ps, ∀ v ∈ p.vars, ∀ bs, v.value = .blob bs → m''.get (place.blob v) bs.length = bs) →
          convertB (t.names.map cStr) m'' results i ps.length = .ok l
  | [], i, s, l, hnew, hR, hi, hl, hs, hk, hv, ha =>
    Or.inr ⟨s, rfl, hnew, fun _ h => h, fun _ _ _ => rfl, fun m'' _ _ => by
      simp only [lispPoints, Res.ok.injEq] at hl
      subst hl
      rfl⟩
  | p :: ps, i, s, l, hnew, hR, hi, hl, hs, hk, hv, ha => by
    simp only [lispPoints] at hl
    cases hy : lispPoint t p with
    | throw e => rw [hy] at hl; cases hl
    | abort => rw [hy] at hl; cases hl
    | ub k => rw [hy] at hl; cases hl
    | hang => rw [hy] at hl; cases hl
    | ok y =>
    rw [hy, Res.ok_bind] at hl
    cases hys : lispPoints t ps with
    | throw e => rw [hys] at hl; cases hl
    | abort => rw [hys] at hl; cases hl
    | ub k => rw [hys] at hl; cases hl
    | hang => rw [hys] at hl; cases hl
    | ok ys =>
    rw [hys, Res.ok_bind] at hl
    have hl' : l = y :: ys := by cases hl; rfl
    subst hl'
    rw [List.length_cons] at hi
    unfold exportLoopB
    rcases exportPointB_ok hpl (place := place) (results := results) (i := i) (total := total) hnew hR (by omega) hy
      (hs p (List.mem_cons_self ..)) (hk p (List.mem_cons_self ..)) (hv p (List.mem_cons_self ..))
      (ha p (List.mem_cons_self ..)) with e | ⟨s1, e1, new1, use1, same1, read1⟩
    · left; rw [e]; rfl
    rw [e1, Res.ok_bind]
    rcases exportLoopB_ok hpl (place := place) (t := t) (results := results) (total := total) ps (i + 1) s1 ys new1
      (fun x hx => ⟨use1 x (hR x hx).1, (hR x hx).2⟩) (by omega) hys
      (fun q hq => hs q (List.mem_cons_of_mem _ hq)) (fun q hq => hk q (List.mem_cons_of_mem _ hq))
      (fun q hq => hv q (List.mem_cons_of_mem _ hq)) (fun q hq => ha q (List.mem_cons_of_mem _ hq)) with
      e | ⟨s2, e2, new2, use2, same2, read2⟩
    · left; exact e
    right
    refine ⟨s2, e2, new2, fun x hx => use2 x (use1 x hx), ?_, ?_⟩
    · intro x hx hx'
      rw [same2 x (use1 x hx) fun h => hx' ⟨h.1, by have := h.2; omega⟩, same1 x hx]
      intro h
      apply hx'
      unfold InRange at *
      omega
    · intro m'' hm hbl
      simp only [List.length_cons, convertB, lispTracePoint_size]
      rw [read1 m'', Res.ok_bind, read2 m'' hm fun q hq => hbl q (List.mem_cons_of_mem _ hq), Res.ok_bind]
      · rfl
      · intro x hx h0 hx'
        rw [hm x (use2 x hx) h0, same2 x hx]
        rintro ⟨h1, h2⟩
        have := hx' h1
        omega
      · exact hbl p (List.mem_cons_self ..)

end TraceDB
