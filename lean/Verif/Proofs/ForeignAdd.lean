import Verif.Model.ForeignAdd
import Verif.Proofs.ForeignQuery
import Verif.Proofs.ForeignCalls
import Verif.Proofs.AddMemory
import Verif.Proofs.Runtime
/-
Strings and points written by Lisp byte by byte are read back by C.
-/
namespace TraceDB

/-! Arrays of structures -/

/-- Storing an element changes only its own bytes. -/
def StoreLocal {α : Type} (store : Nat → α → BMem → BMem) (size : Nat) : Prop :=
  ∀ a x m y, ¬ InRange a size y → store a x m y = m y

theorem storeEachB_ok {α : Type} {store : Nat → α → BMem → BMem} {size : Nat} (hl : StoreLocal store size) (base : Nat) :
    ∀ (xs : List α) (i : Nat) (m : BMem),
      (∀ y, ¬ InRange (base + i * size) (xs.length * size) y → storeEachB store size base i xs m y = m y) ∧
      ∀ (k : Nat) x, xs[k]? = some x → ∃ m0, ∀ y, InRange (base + (i + k) * size) size y →
        storeEachB store size base i xs m y = store (base + (i + k) * size) x m0 y
  | [], i, m => ⟨fun _ _ => rfl, by simp⟩
  | x :: xs, i, m => by
    obtain ⟨f2, r2⟩ := storeEachB_ok hl base xs (i + 1) (store (base + i * size) x m)
    have e1 : (i + 1) * size = i * size + size := Nat.succ_mul ..
    have e2 : (xs.length + 1) * size = xs.length * size + size := Nat.succ_mul ..
    refine ⟨?_, ?_⟩
    · intro y hy
      rw [List.length_cons] at hy
      unfold InRange at hy
      unfold storeEachB
      rw [f2 y (by unfold InRange; omega), hl _ _ _ _ (by unfold InRange; omega)]
    · intro k q hq
      unfold storeEachB
      cases k with
      | zero =>
        simp only [List.getElem?_cons_zero, Option.some.injEq] at hq
        subst hq
        refine ⟨m, fun y hy => ?_⟩
        rw [Nat.add_zero] at hy ⊢
        unfold InRange at hy
        exact f2 y (by unfold InRange; omega)
      | succ k =>
        rw [List.getElem?_cons_succ] at hq
        have := r2 k q hq
        have e : i + 1 + k = i + (k + 1) := by omega
        rw [e] at this
        exact this

theorem createEachB_ok {α : Type} {pl : Placing} (hpl : pl.Sound) {store : Nat → α → BMem → BMem} {size : Nat}
    (hl : StoreLocal store size) (xs : List α) (s : FState) :
    createEachB pl store size xs s = .throw .lisp ∨
    ∃ a s', createEachB pl store size xs s = .ok (a, s') ∧ a < 2 ^ 64 ∧ OnlyNew s s' ∧
      ∀ m, Agrees s s' m → ∀ (k : Nat) x, xs[k]? = some x → ∃ m0, ∀ y, InRange (a + k * size) size y →
        m y = store (a + k * size) x m0 y := by
  unfold createEachB
  rcases lispAlloc_ok hpl (xs.length * size) s with e | ⟨a, s1, e1, hpos, hlt, n1, hc1, hr⟩
  · left; rw [e]; rfl
  rw [e1, Res.ok_bind]
  dsimp only
  right
  obtain ⟨f2, r2⟩ := storeEachB_ok hl a xs 0 s1.mem
  rw [Nat.zero_mul, Nat.add_zero] at f2
  refine ⟨a, _, rfl, by omega, n1.fill n1 (OnlyNew.refl _) hr f2, ?_⟩
  intro m hm k x hk
  have hlt := (List.getElem?_eq_some_iff.mp hk).1
  obtain ⟨m0, h0⟩ := r2 k x hk
  rw [Nat.zero_add] at h0
  refine ⟨m0, fun y hy => ?_⟩
  rw [← h0 y hy]
  have : (k + 1) * size ≤ xs.length * size := Nat.mul_le_mul_right _ hlt
  have e1 : (k + 1) * size = k * size + size := Nat.succ_mul ..
  unfold InRange at hy
  have := hr y (by unfold InRange; omega)
  exact hm y this.1 this.2

/-! Variables -/

theorem storeVarB_local : StoreLocal storeVarB 40 := by
  intro a v m x hx
  unfold storeVarB
  simp only [lispVarInfo_layout, BMem.store, Layout.find_cons, reduceCtorEq, if_true, if_false, Nat.add_zero]
  unfold InRange at hx
  repeat rw [BMem.putNat_other (by unfold InRange; omega)]

theorem readInVarB_congr {m m' : BMem} {a : Nat} (h : ∀ x, InRange a 40 x → m' x = m x) : readInVarB m' a = readInVarB m a := by
  have k : ∀ b n, a ≤ b → b + n ≤ a + 40 → m'.getNat b n = m.getNat b n := fun b n h1 h2 =>
    BMem.getNat_congr fun x hx => h x (by unfold InRange at *; omega)
  unfold readInVarB
  simp only [cVarInfo_layout, BMem.load, Layout.find_cons, reduceCtorEq, if_true, if_false, Nat.add_zero]
  rw [k a 8 (by omega) (by omega), k (a + 12) 4 (by omega) (by omega), k (a + 16) 4 (by omega) (by omega),
    k (a + 24) 8 (by omega) (by omega), k (a + 32) 1 (by omega) (by omega)]

theorem ofNat32_toNat (u : U32) : BitVec.ofNat 32 u.toNat = u := by rw [BitVec.ofNat_toNat, BitVec.setWidth_eq]

theorem readInVarB_store (a : Nat) (v : InVar) (m : BMem) : readInVarB (storeVarB a v m) a = v := by
  unfold storeVarB
  simp only [lispVarInfo_layout, BMem.store, Layout.find_cons, reduceCtorEq, if_true, if_false, Nat.add_zero]
  have h1 := v.value.isLt
  have h2 := v.nameIndex.isLt
  have h3 := v.typeNameIndex.isLt
  have h4 := v.bufferSize.isLt
  have h5 := v.hasBufferSize.toNat_lt
  generalize hM : BMem.putNat (BMem.putNat _ _ _ _) _ _ _ = M
  have e1 : M.getNat a 8 = v.value.toNat := by
    rw [← hM, BMem.getNat_putNat_disj (by omega), BMem.getNat_putNat_disj (by omega), BMem.getNat_putNat_disj (by omega),
      BMem.getNat_putNat_disj (by omega), BMem.getNat_putNat_disj (by omega), BMem.getNat_putNat_disj (by omega),
      BMem.getNat_putNat (by simpa using h1)]
  have e2 : M.getNat (a + 12) 4 = v.nameIndex.toNat := by
    rw [← hM, BMem.getNat_putNat_disj (by omega), BMem.getNat_putNat_disj (by omega), BMem.getNat_putNat_disj (by omega),
      BMem.getNat_putNat_disj (by omega), BMem.getNat_putNat (by simpa using h2)]
  have e3 : M.getNat (a + 16) 4 = v.typeNameIndex.toNat := by
    rw [← hM, BMem.getNat_putNat_disj (by omega), BMem.getNat_putNat_disj (by omega), BMem.getNat_putNat_disj (by omega),
      BMem.getNat_putNat (by simpa using h3)]
  have e4 : M.getNat (a + 32) 1 = v.hasBufferSize.toNat := by
    rw [← hM, BMem.getNat_putNat_disj (by omega), BMem.getNat_putNat (by omega)]
  have e5 : M.getNat (a + 24) 8 = v.bufferSize.toNat := by
    rw [← hM, BMem.getNat_putNat (by simpa using h4)]
  unfold readInVarB
  simp only [cVarInfo_layout, BMem.load, Layout.find_cons, reduceCtorEq, if_true, if_false, Nat.add_zero, e1, e2, e3, e4, e5,
    ofNat64_toNat, ofNat32_toNat]
  obtain ⟨_, _, _, _, b⟩ := v
  cases b <;> rfl

theorem readInVarsB_ok {m : BMem} {base : Nat} : ∀ (vs : List InVar) (j : Nat),
    (∀ (k : Nat) v, vs[k]? = some v → readInVarB m (base + (j + k) * 40) = v) → readInVarsB m base j vs.length = vs
  | [], _, _ => rfl
  | v :: vs, j, h => by
    have h0 := h 0 v rfl
    rw [Nat.add_zero] at h0
    simp only [List.length_cons, readInVarsB, cVarInfo_size]
    rw [h0, readInVarsB_ok vs (j + 1) fun k w hw => by
      have := h (k + 1) w (by simpa using hw)
      have e : j + 1 + k = j + (k + 1) := by omega
      rw [e]
      exact this]

/-! Points -/

theorem storePointB_local : StoreLocal storePointB 40 := by
  intro a c m x hx
  unfold storePointB
  simp only [lispTracePoint_layout, BMem.store, Layout.find_cons, reduceCtorEq, if_true, if_false, Nat.add_zero]
  unfold InRange at hx
  repeat rw [BMem.putNat_other (by unfold InRange; omega)]

theorem readInPointB_store {m m0 : BMem} {a : Nat} {c : PointCell} (hv : c.vars < 2 ^ 64) (hn : c.nVars < 2 ^ 32)
    (h : ∀ y, InRange a 40 y → m y = storePointB a c m0 y) :
    readInPointB m a = ⟨c.statement, readInVarsB m c.vars 0 c.nVars, []⟩ := by
  have k : ∀ b n, a ≤ b → b + n ≤ a + 40 → m.getNat b n = (storePointB a c m0).getNat b n := fun b n h1 h2 =>
    BMem.getNat_congr fun x hx => h x (by unfold InRange at *; omega)
  have h1 := c.statement.isLt
  unfold readInPointB
  simp only [cTracePoint_layout, BMem.load, Layout.find_cons, reduceCtorEq, if_true, if_false, Nat.add_zero]
  rw [k a 8 (by omega) (by omega), k (a + 8) 8 (by omega) (by omega), k (a + 16) 4 (by omega) (by omega),
    k (a + 24) 8 (by omega) (by omega), k (a + 32) 4 (by omega) (by omega)]
  unfold storePointB
  simp only [lispTracePoint_layout, BMem.store, Layout.find_cons, reduceCtorEq, if_true, if_false, Nat.add_zero]
  generalize hM : BMem.putNat (BMem.putNat _ _ _ _) _ _ _ = M
  have e1 : M.getNat a 8 = c.statement.toNat := by
    rw [← hM, BMem.getNat_putNat_disj (by omega), BMem.getNat_putNat_disj (by omega), BMem.getNat_putNat_disj (by omega),
      BMem.getNat_putNat_disj (by omega), BMem.getNat_putNat (by simpa using h1)]
  have e2 : M.getNat (a + 8) 8 = c.vars := by
    rw [← hM, BMem.getNat_putNat_disj (by omega), BMem.getNat_putNat_disj (by omega), BMem.getNat_putNat_disj (by omega),
      BMem.getNat_putNat (by simpa using hv)]
  have e3 : M.getNat (a + 16) 4 = c.nVars := by
    rw [← hM, BMem.getNat_putNat_disj (by omega), BMem.getNat_putNat_disj (by omega), BMem.getNat_putNat (by simpa using hn)]
  have e5 : M.getNat (a + 32) 4 = 0 := by
    rw [← hM, BMem.getNat_putNat (by omega)]
  rw [e1, e2, e3, e5, ofNat64_toNat]
  rfl

/-- The slots stand for the points. -/
def CellsRead (m : BMem) : List PointCell → List InPoint → Prop
  | [], [] => True
  | c :: cs, p :: ps => (c.vars < 2 ^ 64 ∧ c.nVars < 2 ^ 32 ∧ (⟨c.statement, readInVarsB m c.vars 0 c.nVars, []⟩ : InPoint) = p) ∧
      CellsRead m cs ps
  | _, _ => False

theorem readInPointsB_ok {m : BMem} {base : Nat} : ∀ (cs : List PointCell) (ps : List InPoint) (i : Nat), CellsRead m cs ps →
    (∀ (k : Nat) c, cs[k]? = some c → ∃ m0, ∀ y, InRange (base + (i + k) * 40) 40 y → m y = storePointB (base + (i + k) * 40) c m0 y) →
    readInPointsB m base i cs.length = ps
  | [], [], _, _, _ => rfl
  | [], _ :: _, _, h, _ => h.elim
  | _ :: _, [], _, h, _ => h.elim
  | c :: cs, p :: ps, i, ⟨⟨h1, h2, h3⟩, h4⟩, hl => by
    obtain ⟨m0, h0⟩ := hl 0 c rfl
    rw [Nat.add_zero] at h0
    simp only [List.length_cons, readInPointsB, cTracePoint_size]
    rw [readInPointB_store h1 h2 h0, h3, readInPointsB_ok cs ps (i + 1) h4 fun k c' hc' => by
      have := hl (k + 1) c' (by simpa using hc')
      have e : i + 1 + k = i + (k + 1) := by omega
      rw [e]
      exact this]

theorem lispInVars_either (names : List (List U8)) : ∀ vs : List LVar,
    lispInVars names vs = .throw .lisp ∨ ∃ xs, lispInVars names vs = .ok xs ∧ xs.length = vs.length
  | [] => .inr ⟨[], rfl, rfl⟩
  | v :: vs => by
    unfold lispInVars
    have h1 : lispInVar names v = .throw .lisp ∨ ∃ x, lispInVar names v = .ok x := by
      unfold lispInVar
      split
      · split
        · exact .inr ⟨_, rfl⟩
        · exact .inl rfl
      · exact .inl rfl
    rcases h1 with e | ⟨x, e⟩
    · left; rw [e]; rfl
    rcases lispInVars_either names vs with e' | ⟨xs, e', hl⟩
    · left; rw [e, e']; rfl
    · right; rw [e, e']; exact ⟨x :: xs, rfl, by simp [hl]⟩

theorem buildPointsB_ok {pl : Placing} (hpl : pl.Sound) (names : List (List U8)) : ∀ (trace : List LPoint) (s : FState),
    buildPointsB pl names trace s = .throw .lisp ∨
    ∃ ps cells s', lispInPoints names trace = .ok ps ∧ buildPointsB pl names trace s = .ok (cells, s') ∧ OnlyNew s s' ∧
      cells.length = trace.length ∧ ∀ m, Agrees s s' m → CellsRead m cells ps
  | [], s => .inr ⟨[], [], s, rfl, rfl, OnlyNew.refl s, rfl, fun _ _ => trivial⟩
  | p :: trace, s => by
    unfold buildPointsB lispInPoints
    rcases lispInVars_either names p.scopes with e | ⟨vars, e, hlen⟩
    · left; rw [e]; rfl
    have ep : lispInPoint names p = if packId p.f p.c < 2 ^ 64 then .ok ⟨BitVec.ofNat 64 (packId p.f p.c), vars, []⟩
        else .throw .lisp := by
      unfold lispInPoint
      rw [e, Res.ok_bind]
      rfl
    rw [e, Res.ok_bind, ep, lispVarInfo_size]
    rcases createEachB_ok hpl storeVarB_local vars s with e1 | ⟨a, s1, e1, a1, n1, r1⟩
    · left; rw [e1]; rfl
    rw [e1, Res.ok_bind]
    dsimp only
    by_cases hc : packId p.f p.c < 2 ^ 64 ∧ p.scopes.length < 2 ^ 32
    · rw [if_pos hc, if_pos hc.1, Res.ok_bind]
      rcases buildPointsB_ok hpl names trace s1 with e2 | ⟨ps, cells, s2, e2, e3, n2, l2, r2⟩
      · left; rw [e2]; rfl
      rw [e2, e3, Res.ok_bind, Res.ok_bind]
      refine .inr ⟨_, _, _, rfl, rfl, n1.trans n2, by simp [l2], fun m hm => ⟨⟨a1, hc.2, ?_⟩, r2 m (hm.right n1)⟩⟩
      dsimp only
      congr 1
      rw [← hlen]
      refine readInVarsB_ok vars 0 fun k v hk => ?_
      obtain ⟨m0, h0⟩ := r1 m (hm.left n2) k v hk
      rw [Nat.zero_add, readInVarB_congr h0, readInVarB_store]
    · rw [if_neg hc]
      exact .inl rfl

/-! Strings -/

theorem lispStringAllocB_ok {pl : Placing} (hpl : pl.Sound) (bs : List U8) (s : FState) :
    lispStringAllocB pl bs s = .throw .lisp ∨
    ∃ a s', lispStringAllocB pl bs s = .ok (a, s') ∧ 0 < a ∧ a < 2 ^ 64 ∧ OnlyNew s s' ∧
      ∀ m, Agrees s s' m → readStringB m a = .ok (cStr bs) := by
  unfold lispStringAllocB
  rcases lispAlloc_ok hpl (bs.length + 1) s with e | ⟨a, s1, e1, hpos, hlt, n1, hc1, hr⟩
  · left; rw [e]; rfl
  rw [e1, Res.ok_bind]
  dsimp only
  have hl : (bs ++ [0]).length = bs.length + 1 := by simp
  have f : ∀ x, ¬ InRange a (bs.length + 1) x → s1.mem.put a (bs ++ [0]) x = s1.mem x := fun x hx =>
    BMem.put_other (by rw [hl]; exact hx)
  refine .inr ⟨a, _, rfl, hpos, by omega, n1.fill n1 (OnlyNew.refl _) hr f, fun m hm => ?_⟩
  have hg : m.get a (bs.length + 1) = bs ++ [0] := by
    have := BMem.get_put s1.mem a (bs ++ [0])
    rw [hl] at this
    rw [← this]
    exact BMem.get_congr fun x hx => hm x (hr x hx).1 (hr x hx).2
  unfold readStringB
  rw [if_neg (by omega), BMem.text_ok m bs a _ hg (by unfold addressLimit; omega)]

theorem readStringsB_ok {m : BMem} {base : Nat} : ∀ (xs : List (List U8)) (i : Nat),
    (∀ (k : Nat) x, xs[k]? = some x → readStringB m (m.getNat (base + (i + k) * 8) 8) = .ok x) → readStringsB m base i xs.length = .ok xs
  | [], _, _ => rfl
  | x :: xs, i, h => by
    have h0 := h 0 x rfl
    rw [Nat.add_zero] at h0
    simp only [List.length_cons, readStringsB, CTy.bytes]
    rw [h0, Res.ok_bind, readStringsB_ok xs (i + 1) fun k w hw => by
      have := h (k + 1) w (by simpa using hw)
      have e : i + 1 + k = i + (k + 1) := by omega
      rw [e]
      exact this]
    rfl

theorem storeStringsB_ok {pl : Placing} (hpl : pl.Sound) {base total : Nat} {s0 : FState} :
    ∀ (ns : List (List U8)) (i : Nat) (s : FState), OnlyNew s0 s →
      (∀ x, InRange base total x → InUse s.blocks x ∧ ¬ InUse s0.blocks x) → (i + ns.length) * 8 ≤ total →
      storeStringsB pl base i ns s = .throw .lisp ∨
      ∃ s', storeStringsB pl base i ns s = .ok s' ∧ OnlyNew s0 s' ∧ (∀ x, InUse s.blocks x → InUse s'.blocks x) ∧
        (∀ x, InUse s.blocks x → ¬ (InRange base total x ∧ base + i * 8 ≤ x) → s'.mem x = s.mem x) ∧
        ∀ m, Agrees s0 s' m → ∀ (k : Nat) n, ns[k]? = some n → readStringB m (m.getNat (base + (i + k) * 8) 8) = .ok (cStr n)
  | [], i, s, hnew, hR, hi => .inr ⟨s, rfl, hnew, fun _ h => h, fun _ _ _ => rfl, fun _ _ => by simp⟩
  | n :: ns, i, s, hnew, hR, hi => by
    rw [List.length_cons] at hi
    unfold storeStringsB
    rcases lispStringAllocB_ok hpl n s with e | ⟨a, s1, e1, _, a1, n1, r1⟩
    · left; rw [e]; rfl
    rw [e1, Res.ok_bind]
    dsimp only [FTy.bytes]
    generalize hM : BMem.putNat s1.mem (base + i * 8) 8 a = M
    have hother : ∀ x, ¬ InRange (base + i * 8) 8 x → M x = s1.mem x := by
      intro x hx
      rw [← hM, BMem.putNat_other hx]
    have g1 : M.getNat (base + i * 8) 8 = a := by rw [← hM, BMem.getNat_putNat (by simpa using a1)]
    have hcell : ∀ x, InRange (base + i * 8) 8 x → InUse s.blocks x ∧ ¬ InUse s0.blocks x := by
      intro x hx
      unfold InRange at hx
      exact hR x (by unfold InRange; omega)
    have new1 : OnlyNew s0 ⟨M, s1.blocks⟩ := (hnew.trans n1).fill hnew n1 hcell hother
    rcases storeStringsB_ok hpl ns (i + 1) ⟨M, s1.blocks⟩ new1 (fun x hx => ⟨n1.use (hR x hx).1, (hR x hx).2⟩) (by omega) with
      e | ⟨s2, e2, n2, u2, same2, r2⟩
    · left; rw [e]
    right
    rw [e2]
    refine ⟨s2, rfl, n2, fun x hx => u2 x (n1.use hx), ?_, ?_⟩
    · intro x hx hx'
      have hnot : ¬ InRange (base + i * 8) 8 x := by
        intro hc
        apply hx'
        unfold InRange at hc ⊢
        omega
      rw [same2 x (n1.use hx) fun h => hx' ⟨h.1, by have := h.2; omega⟩]
      dsimp only
      rw [hother x hnot, n1.same x hx]
    · intro m hm k q hq
      cases k with
      | zero =>
        simp only [List.getElem?_cons_zero, Option.some.injEq] at hq
        subst hq
        rw [Nat.add_zero]
        have hmM : ∀ x, InRange (base + i * 8) 8 x → m x = M x := by
          intro x hx
          rw [hm x (u2 x (n1.use (hcell x hx).1)) (hcell x hx).2]
          exact same2 x (n1.use (hcell x hx).1) fun h => by
            have := h.2
            unfold InRange at hx
            omega
        rw [BMem.getNat_congr hmM, g1]
        apply r1 m
        intro x hx hn
        have hnot : ¬ InRange base total x := fun h => hn (hR x h).1
        rw [hm x (u2 x hx) fun h => hn (hnew.use h), same2 x hx fun h => hnot h.1]
        dsimp only
        exact hother x fun h => hn (hcell x h).1
      | succ k =>
        rw [List.getElem?_cons_succ] at hq
        have := r2 m hm k q hq
        have e : i + 1 + k = i + (k + 1) := by omega
        rw [e] at this
        exact this

theorem createStringsB_ok {pl : Placing} (hpl : pl.Sound) (ns : List (List U8)) (s : FState) :
    createStringsB pl ns s = .throw .lisp ∨
    ∃ a s', createStringsB pl ns s = .ok (a, s') ∧ a < 2 ^ 64 ∧ OnlyNew s s' ∧
      ∀ m, Agrees s s' m → readStringsB m a 0 ns.length = .ok (ns.map cStr) := by
  unfold createStringsB
  dsimp only [FTy.bytes]
  rcases lispAlloc_ok hpl (ns.length * 8) s with e | ⟨a, s1, e1, hpos, hlt, n1, hc1, hr⟩
  · left; rw [e]; rfl
  rw [e1, Res.ok_bind]
  dsimp only
  rcases storeStringsB_ok hpl ns 0 s1 n1 hr (by omega) with e | ⟨s2, e2, n2, _, _, r2⟩
  · left; rw [e]; rfl
  right
  rw [e2]
  refine ⟨a, s2, rfl, by omega, n2, fun m hm => ?_⟩
  have := readStringsB_ok (m := m) (base := a) (ns.map cStr) 0 fun k x hx => by
    rw [List.getElem?_map] at hx
    cases hk : ns[k]? with
    | none => rw [hk] at hx; cases hx
    | some n =>
      rw [hk] at hx
      cases hx
      exact r2 m hm k n hk
  rw [List.length_map] at this
  exact this

/-! The calls -/

theorem callAddPointsB_ok {μ : Type} {grow : Nat → Nat} {env : Env} {junk : List U64} {d : LispDb μ} {m : μ} {args : List Int}
    {mem : BMem} :
    callAddPointsB grow env junk d m args mem = .throw .lisp ∨
    callAddPointsB grow env junk d m args mem = addPointsC grow env d m args mem := by
  unfold callAddPointsB
  cases hc : lispCall CFun.addTracePoints.imported.2 args junk with
  | none => left; rfl
  | some slots =>
    right
    have hp := cParams_ok false CFun.addTracePoints.declared.2 CFun.addTracePoints.imported.2 _ junk slots
      (call_agrees .addTracePoints) (fun h => by cases h) hc
    dsimp only
    rw [hp]

theorem addPointsC_at {μ : Type} {grow : Nat → Nat} {env : Env} {d : LispDb μ} {m : μ} {db points n names k : Nat} {mem : BMem}
    {ns : List Name} (h : readStringsB mem names 0 k = .ok ns) :
    addPointsC grow env d m [(db : Int), (points : Int), (n : Int), (names : Int), (k : Int)] mem =
      d.add grow env (.points (readInPointsB mem points 0 n) ns m) := by
  unfold addPointsC
  dsimp only
  rw [Int.toNat_natCast, Int.toNat_natCast, Int.toNat_natCast, Int.toNat_natCast, h, Res.ok_bind]

theorem addPointsB_ok {μ : Type} {pl : Placing} (hpl : pl.Sound) (grow : Nat → Nat) (env : Env) (db : U64) (junk : List U64)
    (d : LispDb μ) (trace : List LPoint) (m : μ) (s : FState) :
    d.addPointsB pl grow env db junk trace m s = .throw .lisp ∨
    ∃ s', OnlyNew s s' ∧ d.addPointsB pl grow env db junk trace m s = (d.addPoints grow env trace m >>= fun d' => .ok (d', s')) := by
  unfold LispDb.addPointsB LispDb.addPoints
  dsimp only
  rcases buildPointsB_ok hpl (lispAddNames trace) trace s with e | ⟨ps, cells, s1, e0, e1, n1, l1, r1⟩
  · left; rw [e]; exact resThrow_bind _ _
  rw [e0, e1, Res.ok_bind, Res.ok_bind, lispTracePoint_size]
  dsimp only
  rcases createEachB_ok hpl storePointB_local cells s1 with e | ⟨a, s2, e2, a2, n2, r2⟩
  · left; rw [e]; exact resThrow_bind _ _
  rw [e2, Res.ok_bind]
  dsimp only
  rcases createStringsB_ok hpl (lispAddNames trace) s2 with e | ⟨b, s3, e3, a3, n3, r3⟩
  · left; rw [e]; exact resThrow_bind _ _
  rw [e3, Res.ok_bind]
  dsimp only
  have hA : Agrees s s3 s3.mem := fun _ _ _ => rfl
  have hA1 : Agrees s s1 s3.mem := hA.left (n2.trans n3)
  have hA2 : Agrees s1 s2 s3.mem := (hA.right n1).left n3
  have hA3 : Agrees s2 s3 s3.mem := (hA.right n1).right n2
  have hp : readInPointsB s3.mem a 0 trace.length = ps := by
    rw [← l1]
    refine readInPointsB_ok cells ps 0 (r1 _ hA1) fun k c hc => ?_
    rw [Nat.zero_add]
    exact r2 _ hA2 k c hc
  rcases callAddPointsB_ok (grow := grow) (env := env) (junk := junk) (d := d) (m := m) (mem := s3.mem)
    (args := [(db.toNat : Int), (a : Int), (trace.length : Int), (b : Int), ((lispAddNames trace).length : Int)]) with e | e
  · left; rw [e]; exact resThrow_bind _ _
  · refine .inr ⟨s3, (n1.trans n2).trans n3, ?_⟩
    rw [e, addPointsC_at (r3 _ hA3), hp]
    rfl

theorem pointer_has {a n : Nat} (hn : 8 * CTy.pointer.bytes = n) (h : a < 2 ^ n) : CTy.has .pointer (a : Int) = true := by
  unfold CTy.has
  dsimp only
  rw [hn, Bool.and_eq_true]
  refine ⟨decide_eq_true (Int.natCast_nonneg a), decide_eq_true ?_⟩
  have := Int.ofNat_lt.mpr h
  rwa [Int.natCast_pow] at this

theorem pointer_result {a : Nat} (h : a < 2 ^ 64) (junk : U64) : lispResult .pointer .string (a : Int) junk = a :=
  slot_result rfl (by decide) rfl (pointer_has rfl h) junk

theorem storeB_ok {μ : Type} {pl : Placing} (hpl : pl.Sound) (version : Nat) (d : LispDb μ) (junk : U64) (s : FState)
    (hn : ∀ t ∈ d.db.traces, t.NulFree) :
    d.storeB pl version junk s = .ub .nullDeref ∨
    ∃ s', d.storeB pl version junk s = .ok ((archiveText version d.db.traces, d.metadata), s') ∧ OnlyNew s s' := by
  unfold LispDb.storeB
  dsimp only
  obtain ⟨n1, b1⟩ := FState.alloc_new hpl (serializeDb version d.db).length false s
  generalize s.alloc pl (serializeDb version d.db).length false = A at n1 b1
  obtain ⟨a, s1⟩ := A
  dsimp only at n1 b1 ⊢
  rcases b1 with hz | ⟨hb, hp, hlt, hd⟩
  · left; rw [if_pos hz]
  right
  have hr : ∀ x, InRange a (serializeDb version d.db).length x → InUse s1.blocks x ∧ ¬ InUse s.blocks x := fun x hx =>
    ⟨by rw [hb]; exact ⟨_, List.mem_append_right _ (List.mem_singleton.mpr rfl), hx⟩, hd x hx⟩
  have ha : lispResult .pointer .string (a : Int) junk = a := pointer_result (by omega) junk
  have hg : (s1.mem.put a (serializeDb version d.db)).get a ((archiveText version d.db.traces).length + 1) =
      archiveText version d.db.traces ++ [0] := by
    have := BMem.get_put s1.mem a (serializeDb version d.db)
    unfold serializeDb at this ⊢
    rw [List.length_append, List.length_singleton] at this
    exact this
  have hlen : (serializeDb version d.db).length = (archiveText version d.db.traces).length + 1 := by simp [serializeDb]
  have hread : readStringB (s1.mem.put a (serializeDb version d.db)) a = .ok (archiveText version d.db.traces) := by
    unfold readStringB
    rw [if_neg (by omega), BMem.text_ok _ _ a _ hg (by unfold addressLimit; omega),
      cStr_of_nulFree (archiveText_no_nul version d.db.traces hn)]
  rw [if_neg (by omega), ha, Int.toNat_natCast, hread, Res.ok_bind]
  exact ⟨_, rfl, n1.fill n1 (OnlyNew.refl _) hr fun x hx => BMem.put_other hx⟩

theorem callDeserializeB_ok {junk : List U64} {args : List Int} {mem : BMem} :
    callDeserializeB junk args mem = .throw .lisp ∨ callDeserializeB junk args mem = deserializeC args mem := by
  unfold callDeserializeB
  cases hc : lispCall CFun.deserializeTraceDb.imported.2 args junk with
  | none => left; rfl
  | some slots =>
    right
    have hp := cParams_ok false CFun.deserializeTraceDb.declared.2 CFun.deserializeTraceDb.imported.2 _ junk slots
      (call_agrees .deserializeTraceDb) (fun h => by cases h) hc
    dsimp only
    rw [hp]

/-- What `deserialize_trace_db` does with a text. -/
def restored (text : List U8) : Res Db :=
  match deserializeDb text with
  | some db => .ok db
  | none => .abort

theorem deserializeC_at {a : Nat} {mem : BMem} {text : List U8} (h : readStringB mem a = .ok text) :
    deserializeC [(a : Int)] mem = restored text := by
  unfold deserializeC
  dsimp only
  rw [Int.toNat_natCast, h, Res.ok_bind]
  rfl

theorem restoreB_ok {μ : Type} {pl : Placing} (hpl : pl.Sound) (junk : List U64) (text : List U8) (ms : List μ) (s : FState)
    (hne : text ≠ []) :
    LispDb.restoreB pl junk (text, ms) s = .throw .lisp ∨
    ∃ s', OnlyNew s s' ∧ LispDb.restoreB pl junk (text, ms) s = (restored (cStr text) >>= fun db => .ok (⟨db, ms⟩, s')) := by
  unfold LispDb.restoreB
  rw [if_neg hne]
  rcases lispStringAllocB_ok hpl text s with e | ⟨a, s1, e1, hpos, a1, n1, r1⟩
  · left; dsimp only; rw [e]; exact resThrow_bind _ _
  dsimp only
  rw [e1, Res.ok_bind]
  dsimp only
  rcases callDeserializeB_ok (junk := junk) (args := [(a : Int)]) (mem := s1.mem) with e | e
  · left; rw [e]; exact resThrow_bind _ _
  · rw [e, deserializeC_at (r1 s1.mem (fun _ _ _ => rfl))]
    exact .inr ⟨s1, n1, rfl⟩

end TraceDB
