import Verif.Model.ForeignQuery
import Verif.Spec.QueryMemory
import Verif.Proofs.ForeignPoints
import Verif.Proofs.QueryMemoryPred
/-
Predicates written by Lisp byte by byte are read back by C.
-/
namespace TraceDB

theorem cPredicate_layout : cLayout 0 cPredicate = [(.kind, 0, 4), (.nChildren, 8, 8), (.varIndex, 16, 8),
    (.unsignedValue, 24, 8), (.signedValue, 32, 8), (.floatValue, 40, 8), (.children, 48, 8)] := by decide +kernel
theorem lispPredicate_layout : cffiLayout 0 lispPredicate = [(.kind, 0, 4), (.nChildren, 8, 8), (.varIndex, 16, 8),
    (.unsignedValue, 24, 8), (.signedValue, 32, 8), (.floatValue, 40, 8), (.children, 48, 8)] := by decide +kernel
theorem cPredicate_size : cSizeof cPredicate = 56 := by decide +kernel
theorem lispPredicate_size : cffiSizeof lispPredicate = 56 := by decide +kernel

theorem predicateKinds_lt (k : PKind) : lispPredicateKinds.findIdx (· == k) < 20 := by cases k <;> decide
theorem predicateKinds_same (k : PKind) : cPredicateKinds[lispPredicateKinds.findIdx (· == k)]? = some k := by
  cases k <;> decide

/-- The address of the children is one. -/
def CPred.Addr (c : CPred) : Prop := ∀ a, c.children = some a → 0 < a ∧ a < 2 ^ 64

theorem loadPredB_congr {m m' : BMem} {a : Nat} (h : ∀ x, InRange a 56 x → m' x = m x) : loadPredB m' a = loadPredB m a := by
  have k : ∀ b n, a ≤ b → b + n ≤ a + 56 → m'.getNat b n = m.getNat b n := fun b n h1 h2 =>
    BMem.getNat_congr fun x hx => h x (by unfold InRange at *; omega)
  unfold loadPredB
  simp only [cPredicate_layout, BMem.load, Layout.find_cons, reduceCtorEq, if_true, if_false, Nat.add_zero]
  rw [k a 4 (by omega) (by omega), k (a + 8) 8 (by omega) (by omega), k (a + 16) 8 (by omega) (by omega),
    k (a + 24) 8 (by omega) (by omega), k (a + 32) 8 (by omega) (by omega), k (a + 40) 8 (by omega) (by omega),
    k (a + 48) 8 (by omega) (by omega)]

theorem ofNat64_toNat (u : U64) : BitVec.ofNat 64 u.toNat = u := by rw [BitVec.ofNat_toNat, BitVec.setWidth_eq]

theorem storePredB_ok {a : Nat} {c : CPred} {m : BMem} (hc : c.Addr) :
    (∀ x, ¬ InRange a 56 x → storePredB a c m x = m x) ∧ loadPredB (storePredB a c m) a = .ok c := by
  unfold storePredB
  simp only [lispPredicate_layout, BMem.store, Layout.find_cons, reduceCtorEq, if_true, if_false, Nat.add_zero]
  have h0 := predicateKinds_lt c.kind
  have h1 := c.nChildren.isLt
  have h2 := c.varIndex.isLt
  have h3 := c.unsignedValue.isLt
  have h4 := c.signedValue.isLt
  have h5 := c.floatValue.isLt
  have h6 : c.children.getD 0 < 2 ^ 64 := by
    cases h : c.children with
    | none => exact Nat.two_pow_pos 64
    | some b => exact (hc b h).2
  constructor
  · intro x hx
    unfold InRange at hx
    repeat rw [BMem.putNat_other (by unfold InRange; omega)]
  · generalize hM : BMem.putNat (BMem.putNat _ _ _ _) _ _ _ = M
    have e0 : M.getNat a 4 = lispPredicateKinds.findIdx (· == c.kind) := by
      rw [← hM, BMem.getNat_putNat_disj (by omega), BMem.getNat_putNat_disj (by omega), BMem.getNat_putNat_disj (by omega),
        BMem.getNat_putNat_disj (by omega), BMem.getNat_putNat_disj (by omega), BMem.getNat_putNat_disj (by omega),
        BMem.getNat_putNat (by omega)]
    have e1 : M.getNat (a + 8) 8 = c.nChildren.toNat := by
      rw [← hM, BMem.getNat_putNat_disj (by omega), BMem.getNat_putNat_disj (by omega), BMem.getNat_putNat_disj (by omega),
        BMem.getNat_putNat_disj (by omega), BMem.getNat_putNat_disj (by omega), BMem.getNat_putNat (by simpa using h1)]
    have e2 : M.getNat (a + 16) 8 = c.varIndex.toNat := by
      rw [← hM, BMem.getNat_putNat_disj (by omega), BMem.getNat_putNat_disj (by omega), BMem.getNat_putNat_disj (by omega),
        BMem.getNat_putNat_disj (by omega), BMem.getNat_putNat (by simpa using h2)]
    have e3 : M.getNat (a + 24) 8 = c.unsignedValue.toNat := by
      rw [← hM, BMem.getNat_putNat_disj (by omega), BMem.getNat_putNat_disj (by omega), BMem.getNat_putNat_disj (by omega),
        BMem.getNat_putNat (by simpa using h3)]
    have e4 : M.getNat (a + 32) 8 = c.signedValue.toNat := by
      rw [← hM, BMem.getNat_putNat_disj (by omega), BMem.getNat_putNat_disj (by omega), BMem.getNat_putNat (by simpa using h4)]
    have e5 : M.getNat (a + 40) 8 = c.floatValue.toNat := by
      rw [← hM, BMem.getNat_putNat_disj (by omega), BMem.getNat_putNat (by simpa using h5)]
    have e6 : M.getNat (a + 48) 8 = c.children.getD 0 := by
      rw [← hM, BMem.getNat_putNat (by simpa using h6)]
    unfold loadPredB
    simp only [cPredicate_layout, BMem.load, Layout.find_cons, reduceCtorEq, if_true, if_false, Nat.add_zero, e0, e1, e2, e3,
      e4, e5, e6, predicateKinds_same, ofNat64_toNat]
    obtain ⟨k, n, v, u, sg, f, ch⟩ := c
    cases ch with
    | none => rfl
    | some b =>
      have := (hc b rfl).1
      simp only [Option.getD_some]
      rw [if_neg (by omega)]

theorem storePredsB_ok (base : Nat) : ∀ (cs : List CPred) (i : Nat) (m : BMem), (∀ c ∈ cs, c.Addr) →
    (∀ x, ¬ InRange (base + i * 56) (cs.length * 56) x → storePredsB base i cs m x = m x) ∧
      ∀ (k : Nat) c, cs[k]? = some c → loadPredB (storePredsB base i cs m) (base + (i + k) * 56) = .ok c
  | [], i, m, _ => ⟨fun _ _ => rfl, by simp⟩
  | c :: cs, i, m, h => by
    obtain ⟨f1, r1⟩ := storePredB_ok (a := base + i * 56) (m := m) (h c (List.mem_cons_self ..))
    obtain ⟨f2, r2⟩ := storePredsB_ok base cs (i + 1) (storePredB (base + i * 56) c m) fun q hq => h q (List.mem_cons_of_mem _ hq)
    refine ⟨?_, ?_⟩
    · intro x hx
      rw [List.length_cons] at hx
      unfold InRange at hx
      unfold storePredsB
      rw [lispPredicate_size, f2 x (by unfold InRange; omega), f1 x (by unfold InRange; omega)]
    · intro k q hq
      unfold storePredsB
      rw [lispPredicate_size]
      cases k with
      | zero =>
        simp only [List.getElem?_cons_zero, Option.some.injEq] at hq
        subst hq
        rw [Nat.add_zero, loadPredB_congr (m := storePredB (base + i * 56) c m)]
        · exact r1
        · intro x hx
          unfold InRange at hx
          exact f2 x (by unfold InRange; omega)
      | succ k =>
        rw [List.getElem?_cons_succ] at hq
        have := r2 k q hq
        have e : i + 1 + k = i + (k + 1) := by omega
        rw [e] at this
        exact this

/-! What was allocated between two states -/

/-- `m` has what `s'` has in the blocks that are not in `s`. -/
def Agrees (s s' : FState) (m : BMem) : Prop := ∀ x, InUse s'.blocks x → ¬ InUse s.blocks x → m x = s'.mem x

theorem Agrees.left {s s1 s2 : FState} {m : BMem} (h : Agrees s s2 m) (h2 : OnlyNew s1 s2) : Agrees s s1 m :=
  fun x hx hn => (h x (h2.use hx) hn).trans (h2.same x hx)

theorem Agrees.right {s s1 s2 : FState} {m : BMem} (h : Agrees s s2 m) (h1 : OnlyNew s s1) : Agrees s1 s2 m :=
  fun x hx hn => h x hx fun hu => hn (h1.use hu)

theorem OnlyNew.length {s s' : FState} (h : OnlyNew s s') : s.blocks.length ≤ s'.blocks.length := by
  obtain ⟨n, e, _⟩ := h.blocks
  rw [e, List.length_append]
  omega

theorem lispAlloc_ok {pl : Placing} (hpl : pl.Sound) (n : Nat) (s : FState) :
    lispAlloc pl n s = .throw .lisp ∨
    ∃ a s', lispAlloc pl n s = .ok (a, s') ∧ 0 < a ∧ a + n < 2 ^ 64 ∧ OnlyNew s s' ∧ s'.blocks.length = s.blocks.length + 1 ∧
      ∀ x, InRange a n x → InUse s'.blocks x ∧ ¬ InUse s.blocks x := by
  obtain ⟨n1, b1⟩ := FState.alloc_new hpl n false s
  unfold lispAlloc
  generalize s.alloc pl n false = A at n1 b1
  obtain ⟨a, s1⟩ := A
  dsimp only at n1 b1 ⊢
  rcases b1 with hz | ⟨hb, hp, hlt, hd⟩
  · left; rw [if_pos hz]
  · right
    rw [if_neg (by omega)]
    exact ⟨a, s1, rfl, hp, hlt, n1, by rw [hb]; simp, fun x hx =>
      ⟨by rw [hb]; exact ⟨_, List.mem_append_right _ (List.mem_singleton.mpr rfl), hx⟩, hd x hx⟩⟩

/-- Writing into a new block. -/
theorem OnlyNew.fill {s0 s s' : FState} (h : OnlyNew s0 s') (h0 : OnlyNew s0 s) (h1 : OnlyNew s s') {m : BMem} {a n : Nat}
    (hr : ∀ x, InRange a n x → InUse s.blocks x ∧ ¬ InUse s0.blocks x) (hm : ∀ x, ¬ InRange a n x → m x = s'.mem x) :
    OnlyNew s0 ⟨m, s'.blocks⟩ := by
  apply h.write
  intro x hx
  apply hm
  intro hi
  rcases hx with hx | hx
  · exact (hr x hi).2 hx
  · exact hx (h1.use (hr x hi).1)

/-! Trees -/

/-- What `create_predicate_obj` makes of the members of a predicate. -/
def fromCell (m : BMem) (fuel : Nat) (c : CPred) : Res Pred :=
  match c.children with
  | none => .ok (.node c.kind c.data [])
  | some b =>
    if 2 ^ 32 ≤ c.nChildren.toNat then .hang
    else do
      let cs ← createChildrenB (createPredB m fuel) b 0 c.nChildren.toNat
      pure (.node c.kind c.data cs)

theorem createPredB_cell {m : BMem} {fuel a : Nat} {c : CPred} (h : loadPredB m a = .ok c) :
    createPredB m (fuel + 1) a = fromCell m fuel c := by
  unfold createPredB
  rw [h, Res.ok_bind]
  rfl

/-- The members stand for the trees. -/
def CellsFor (m : BMem) (fuel : Nat) : List CPred → List Pred → Prop
  | [], [] => True
  | c :: cs, p :: ps => p.kind ≠ .null ∧ fromCell m fuel c = .ok p ∧ CellsFor m fuel cs ps
  | _, _ => False

theorem createChildrenB_ok {m : BMem} {fuel base : Nat} : ∀ (cs : List CPred) (ps : List Pred) (i : Nat),
    CellsFor m fuel cs ps → (∀ (k : Nat) c, cs[k]? = some c → loadPredB m (base + (i + k) * 56) = .ok c) →
    createChildrenB (createPredB m (fuel + 1)) base i cs.length = .ok ps
  | [], [], i, _, _ => rfl
  | [], _ :: _, i, h, _ => h.elim
  | _ :: _, [], i, h, _ => h.elim
  | c :: cs, p :: ps, i, h, hl => by
    obtain ⟨h1, h2, h3⟩ := h
    have h0 := hl 0 c rfl
    rw [Nat.add_zero] at h0
    simp only [List.length_cons, createChildrenB, cPredicate_size]
    rw [createPredB_cell h0, h2, Res.ok_bind, createChildrenB_ok cs ps (i + 1) h3 fun k c' hc' => by
      have := hl (k + 1) c' (by simpa using hc')
      have e : i + 1 + k = i + (k + 1) := by omega
      rw [e]
      exact this, Res.ok_bind, if_neg h1]
    rfl

theorem opKind_ne_null {op : LispOp} {k : PKind} (h : op.kind = some k) : k ≠ .null ∧ ∀ (n v u s f : U64) ch,
    (CPred.data ⟨k, n, v, u, s, f, ch⟩) = n := by
  cases op <;> simp only [LispOp.kind, Option.some.injEq, reduceCtorEq] at h <;> subst h <;>
    exact ⟨by decide, fun _ _ _ _ _ _ => rfl⟩

theorem buildInt_nat (n : U64) : buildInt (n.toNat : Int) = some ⟨.unsignedValue, 0, 0, n, 0, 0, none⟩ := by
  have hn := n.isLt
  unfold buildInt
  rw [if_pos (by omega), if_pos (by omega), BitVec.ofInt_natCast, ofNat64_toNat]

theorem buildInt_negative (n : U64) (hn : n.toInt < 0) : buildInt n.toInt = some ⟨.signedValue, 0, 0, 0, n, 0, none⟩ := by
  unfold buildInt
  rw [if_neg (by omega), if_pos (by have := @BitVec.le_toInt 64 n; omega), BitVec.ofInt_toInt]

theorem buildHelperB_int {pl : Placing} {names : List Nat} (s : FState) {i : Int} {c : CPred} (h : buildInt i = some c) :
    buildHelperB pl names (.int i) s = .ok (c, s) := by
  unfold buildHelperB
  rw [h]

theorem buildHelperB_nat {pl : Placing} {names : List Nat} (s : FState) (n : U64) :
    buildHelperB pl names (.int n.toNat) s = .ok (⟨.unsignedValue, 0, 0, n, 0, 0, none⟩, s) :=
  buildHelperB_int s (buildInt_nat n)

/-- Numbers and variables take no memory. -/
theorem buildLeafB_ok {pl : Placing} {names : List Nat} {e : SExp} {p : Pred} (s : FState) (h : SexpTree names e p)
    (hl : ∀ op args, e ≠ .call op args) :
    ∃ c : CPred, buildHelperB pl names e s = .ok (c, s) ∧ c.children = none ∧ p = .node c.kind c.data [] ∧ p.kind ≠ .null := by
  cases h with
  | @nat n =>
    exact ⟨_, buildHelperB_nat s n, rfl, rfl, fun h => by cases h⟩
  | @negative n hn =>
    refine ⟨⟨.signedValue, 0, 0, 0, n, 0, none⟩, ?_, rfl, rfl, by simp [Pred.kind]⟩
    unfold buildHelperB
    rw [buildInt_negative n hn]
  | @float bits =>
    refine ⟨⟨.floatValue, 0, 0, 0, 0, bits, none⟩, ?_, rfl, rfl, by simp [Pred.kind]⟩
    unfold buildHelperB
    rfl
  | @var x i hi =>
    refine ⟨⟨.varReference, 0, BitVec.ofNat 64 i, 0, 0, 0, none⟩, ?_, rfl, by simp only [CPred.data], by simp [Pred.kind]⟩
    unfold buildHelperB
    rw [hi.position]
  | call => exact absurd rfl (hl _ _)

theorem leaf_ok {pl : Placing} {names : List Nat} {e : SExp} {p : Pred} (s : FState) (h : SexpTree names e p)
    (hl : ∀ op args, e ≠ .call op args) :
    ∃ c s', buildHelperB pl names e s = .ok (c, s') ∧ OnlyNew s s' ∧ c.Addr ∧ p.kind ≠ .null ∧
      ∀ m fuel, Agrees s s' m → s'.blocks.length ≤ s.blocks.length + fuel → fromCell m fuel c = .ok p := by
  obtain ⟨c, h1, h2, h3, h4⟩ := buildLeafB_ok (pl := pl) s h hl
  refine ⟨c, s, h1, OnlyNew.refl s, ?_, h4, ?_⟩
  · intro a ha
    rw [h2] at ha
    cases ha
  · intro m fuel _ _
    unfold fromCell
    rw [h2, h3]

mutual
theorem buildHelperB_ok {pl : Placing} (hpl : pl.Sound) {names : List Nat} : ∀ (e : SExp) (p : Pred) (s : FState),
    SexpTree names e p →
    buildHelperB pl names e s = .throw .lisp ∨
    ∃ c s', buildHelperB pl names e s = .ok (c, s') ∧ OnlyNew s s' ∧ c.Addr ∧ p.kind ≠ .null ∧
      ∀ m fuel, Agrees s s' m → s'.blocks.length ≤ s.blocks.length + fuel → fromCell m fuel c = .ok p
  | .int i, p, s, h => .inr (leaf_ok s h fun _ _ hh => by cases hh)
  | .float bits, p, s, h => .inr (leaf_ok s h fun _ _ hh => by cases hh)
  | .sym x, p, s, h => .inr (leaf_ok s h fun _ _ hh => by cases hh)
  | .nil, p, s, h => by cases h
  | .call op args, p, s, h => by
    cases h with
    | @call _ k _ ps hk hlen hargs =>
    simp only [buildHelperB, hk]
    rcases buildArgsB_ok hpl args ps s hargs with e | ⟨cells, s1, e1, n1, l1, a1, r1⟩
    · left; rw [e]; rfl
    rw [e1]
    simp only [Res.ok_bind]
    rcases lispAlloc_ok hpl (args.length * cffiSizeof lispPredicate) s1 with e | ⟨a, s2, e2, hpos, hlt, n2, hc2, hr⟩
    · left; rw [e]; rfl
    rw [e2]
    simp only [Res.ok_bind]
    rw [lispPredicate_size] at hlt hr
    right
    obtain ⟨f3, r3⟩ := storePredsB_ok a cells 0 s2.mem a1
    rw [Nat.zero_mul, Nat.add_zero, l1] at f3
    have n3 : OnlyNew s1 ⟨storePredsB a 0 cells s2.mem, s2.blocks⟩ := n2.fill n2 (OnlyNew.refl _) hr f3
    obtain ⟨hnull, hdata⟩ := opKind_ne_null hk
    refine ⟨_, _, rfl, n1.trans n3, ?_, hnull, ?_⟩
    · intro b hb
      simp only [Option.some.injEq] at hb
      omega
    · intro m fuel hm hfuel
      have h1 := n1.length
      dsimp only at hfuel
      rw [hc2] at hfuel
      obtain ⟨f, rfl⟩ : ∃ f, fuel = f + 1 := ⟨fuel - 1, by omega⟩
      have hcells := r1 m f (hm.left n3) (by omega)
      have hn : (BitVec.ofNat 64 args.length).toNat = cells.length := by
        rw [BitVec.toNat_ofNat, Nat.mod_eq_of_lt (by omega), l1]
      unfold fromCell
      dsimp only
      rw [hn, if_neg (by omega), createChildrenB_ok cells ps 0 hcells, Res.ok_bind, hdata]
      · rfl
      · intro j c hc
        have hj : j < cells.length := (List.getElem?_eq_some_iff.mp hc).1
        rw [← r3 j c hc]
        apply loadPredB_congr
        intro x hx
        unfold InRange at hx
        have := hr x (by unfold InRange; omega)
        exact (hm.right n1) x this.1 this.2
theorem buildArgsB_ok {pl : Placing} (hpl : pl.Sound) {names : List Nat} : ∀ (es : List SExp) (ps : List Pred) (s : FState),
    SexpTrees names es ps →
    buildArgsB pl names es s = .throw .lisp ∨
    ∃ cs s', buildArgsB pl names es s = .ok (cs, s') ∧ OnlyNew s s' ∧ cs.length = es.length ∧ (∀ c ∈ cs, c.Addr) ∧
      ∀ m fuel, Agrees s s' m → s'.blocks.length ≤ s.blocks.length + fuel → CellsFor m fuel cs ps
  | [], ps, s, h => by
    right
    cases h
    exact ⟨[], s, rfl, OnlyNew.refl s, rfl, by simp, fun _ _ _ _ => trivial⟩
  | e :: es, ps, s, h => by
    cases h with
    | @cons _ _ p ps h1 h2 =>
    simp only [buildArgsB]
    rcases buildHelperB_ok hpl e p s h1 with e | ⟨c, s1, e1, n1, a1, k1, r1⟩
    · left; rw [e]; rfl
    rw [e1]
    simp only [Res.ok_bind]
    rcases buildArgsB_ok hpl es ps s1 h2 with e | ⟨cs, s2, e2, n2, l2, a2, r2⟩
    · left; rw [e]; rfl
    rw [e2]
    simp only [Res.ok_bind]
    right
    refine ⟨_, _, rfl, n1.trans n2, by simp [l2], ?_, ?_⟩
    · intro c' hc'
      rcases List.mem_cons.mp hc' with rfl | hc'
      · exact a1
      · exact a2 c' hc'
    · intro m fuel hm hfuel
      have := n1.length
      have := n2.length
      exact ⟨k1, r1 m fuel (hm.left n2) (by omega), r2 m fuel (hm.right n1) (by omega)⟩
end

theorem buildPredicateB_ok {pl : Placing} (hpl : pl.Sound) {names : List Nat} {e : SExp} {p : Pred} (s : FState)
    (h : SexpRoot names e p) :
    buildPredicateB pl names e s = .throw .lisp ∨
    ∃ a s', buildPredicateB pl names e s = .ok (a, s') ∧ a < 2 ^ 64 ∧ OnlyNew s s' ∧
      ∀ m fuel, Agrees s s' m → s'.blocks.length ≤ s.blocks.length + fuel → createObjB m fuel a = .ok p := by
  rcases h with ⟨rfl, rfl⟩ | h
  · exact .inr ⟨0, s, rfl, by omega, OnlyNew.refl s, fun _ _ _ _ => rfl⟩
  · have hne : e ≠ .nil := by rintro rfl; cases h
    have hb : buildPredicateB pl names e s = (do
        let (a, s) ← lispAlloc pl (cffiSizeof lispPredicate) s
        let (c, s) ← buildHelperB pl names e s
        pure (a, ⟨storePredB a c s.mem, s.blocks⟩)) := by
      cases e <;> first | rfl | exact absurd rfl hne
    rw [hb]
    rcases lispAlloc_ok hpl (cffiSizeof lispPredicate) s with e0 | ⟨a, s1, e1, hpos, hlt, n1, hc1, hr⟩
    · left; rw [e0]; rfl
    rw [e1]
    simp only [Res.ok_bind]
    rw [lispPredicate_size] at hlt hr
    rcases buildHelperB_ok hpl e p s1 h with e0 | ⟨c, s2, e2, n2, a2, k2, r2⟩
    · left; rw [e0]; rfl
    rw [e2]
    simp only [Res.ok_bind]
    right
    obtain ⟨f3, r3⟩ := storePredB_ok (a := a) (m := s2.mem) a2
    have n3 : OnlyNew s ⟨storePredB a c s2.mem, s2.blocks⟩ := (n1.trans n2).fill n1 n2 hr f3
    refine ⟨a, _, rfl, by omega, n3, ?_⟩
    intro m fuel hm hfuel
    have := n2.length
    dsimp only at hfuel
    obtain ⟨f, rfl⟩ : ∃ f, fuel = f + 1 := ⟨fuel - 1, by omega⟩
    have hl : loadPredB m a = .ok c := by
      rw [← r3]
      apply loadPredB_congr
      intro x hx
      exact hm x (n2.use (hr x hx).1) (hr x hx).2
    unfold createObjB
    rw [if_neg (by omega), createPredB_cell hl]
    apply r2 m f ?_ (by omega)
    intro x hx hn
    rw [hm x hx fun hu => hn (n1.use hu)]
    exact f3 x fun hi => hn (hr x hi).1

/-- The pointers stand for the soft predicates. -/
def PtrsFor (m : BMem) (fuel : Nat) : List Nat → List Pred → Prop
  | [], [] => True
  | a :: as, p :: ps => createObjB m fuel a = .ok p ∧ PtrsFor m fuel as ps
  | _, _ => False

theorem buildSoftsB_ok {pl : Placing} (hpl : pl.Sound) {names : List Nat} : ∀ (es : List SExp) (ps : List Pred) (s : FState),
    SexpRoots names es ps →
    buildSoftsB pl names es s = .throw .lisp ∨
    ∃ as s', buildSoftsB pl names es s = .ok (as, s') ∧ as.length = es.length ∧ (∀ a ∈ as, a < 2 ^ 64) ∧ OnlyNew s s' ∧
      ∀ m fuel, Agrees s s' m → s'.blocks.length ≤ s.blocks.length + fuel → PtrsFor m fuel as ps
  | [], [], s, _ => .inr ⟨[], s, rfl, rfl, by simp, OnlyNew.refl s, fun _ _ _ _ => trivial⟩
  | [], _ :: _, s, h => h.elim
  | _ :: _, [], s, h => h.elim
  | e :: es, p :: ps, s, h => by
    simp only [buildSoftsB]
    rcases buildPredicateB_ok hpl s h.1 with e0 | ⟨a, s1, e1, a1, n1, r1⟩
    · left; rw [e0]; rfl
    rw [e1]
    simp only [Res.ok_bind]
    rcases buildSoftsB_ok hpl es ps s1 h.2 with e0 | ⟨as, s2, e2, l2, a2, n2, r2⟩
    · left; rw [e0]; rfl
    rw [e2]
    simp only [Res.ok_bind]
    right
    refine ⟨_, _, rfl, by simp [l2], ?_, n1.trans n2, ?_⟩
    · intro a' ha'
      rcases List.mem_cons.mp ha' with rfl | ha'
      · exact a1
      · exact a2 a' ha'
    · intro m fuel hm hfuel
      have := n1.length
      have := n2.length
      exact ⟨r1 m fuel (hm.left n2) (by omega), r2 m fuel (hm.right n1) (by omega)⟩

theorem createSoftsB_ok {m : BMem} {fuel arr : Nat} : ∀ (as : List Nat) (ps : List Pred) (i : Nat), PtrsFor m fuel as ps →
    (∀ (k : Nat) a, as[k]? = some a → m.getNat (arr + (i + k) * 8) 8 = a) →
    createSoftsB m fuel arr i as.length = .ok ps
  | [], [], i, _, _ => rfl
  | [], _ :: _, i, h, _ => h.elim
  | _ :: _, [], i, h, _ => h.elim
  | a :: as, p :: ps, i, h, hl => by
    have h0 := hl 0 a rfl
    rw [Nat.add_zero] at h0
    simp only [List.length_cons, createSoftsB, CTy.bytes]
    rw [h0, h.1, Res.ok_bind, createSoftsB_ok as ps (i + 1) h.2 fun k c' hc' => by
      have := hl (k + 1) c' (by simpa using hc')
      have e : i + 1 + k = i + (k + 1) := by omega
      rw [e]
      exact this, Res.ok_bind]
    rfl

/-! Expressions that are refused -/

theorem lispAlloc_either (pl : Placing) (n : Nat) (s : FState) :
    lispAlloc pl n s = .throw .lisp ∨ ∃ r, lispAlloc pl n s = .ok r := by
  unfold lispAlloc
  generalize s.alloc pl n false = A
  dsimp only
  split
  · exact .inl rfl
  · exact .inr ⟨_, rfl⟩

theorem position_mem {x : Nat} : ∀ {names : List Nat} {i : Nat}, position x names = some i → x ∈ names
  | [], _, h => by cases h
  | y :: ys, _, h => by
    by_cases hy : y = x
    · subst hy; exact List.mem_cons_self ..
    · simp only [position, if_neg hy] at h
      cases hp : position x ys with
      | none => rw [hp] at h; cases h
      | some j => exact List.mem_cons_of_mem _ (position_mem hp)

theorem buildInt_range {i : Int} {c : CPred} (h : buildInt i = some c) : -2 ^ 63 ≤ i ∧ i < 2 ^ 64 := by
  unfold buildInt at h
  split at h
  · split at h
    · exact ⟨by omega, by assumption⟩
    · cases h
  · split at h
    · exact ⟨by assumption, by omega⟩
    · cases h

mutual
theorem buildHelperB_either (pl : Placing) (names : List Nat) : ∀ (e : SExp) (s : FState),
    buildHelperB pl names e s = .throw .lisp ∨ (e.Wf names ∧ ∃ r, buildHelperB pl names e s = .ok r)
  | .int i, s => by
    unfold buildHelperB
    cases h : buildInt i with
    | none => exact .inl rfl
    | some c => exact .inr ⟨by simp only [SExp.Wf]; exact buildInt_range h, _, rfl⟩
  | .float bits, s => .inr ⟨by simp [SExp.Wf], _, by unfold buildHelperB; rfl⟩
  | .sym x, s => by
    unfold buildHelperB
    cases h : position x names with
    | none => exact .inl rfl
    | some c => exact .inr ⟨by simp only [SExp.Wf]; exact position_mem h, _, rfl⟩
  | .nil, s => .inl (by simp only [buildHelperB])
  | .call op args, s => by
    unfold buildHelperB
    cases h : op.kind with
    | none => exact .inl rfl
    | some k =>
      dsimp only
      rcases buildArgsB_either pl names args s with e | ⟨hw, ⟨cs, s1⟩, e⟩
      · left; rw [e]; rfl
      · rw [e, Res.ok_bind]
        dsimp only
        rcases lispAlloc_either pl (args.length * cffiSizeof lispPredicate) s1 with e | ⟨⟨a, s2⟩, e⟩
        · left; rw [e]; rfl
        · right
          rw [e, Res.ok_bind]
          refine ⟨?_, _, rfl⟩
          simp only [SExp.Wf]
          refine ⟨?_, hw⟩
          rintro n rfl
          cases h
theorem buildArgsB_either (pl : Placing) (names : List Nat) : ∀ (es : List SExp) (s : FState),
    buildArgsB pl names es s = .throw .lisp ∨ (SExp.WfAll names es ∧ ∃ r, buildArgsB pl names es s = .ok r)
  | [], s => .inr ⟨by simp [SExp.WfAll], _, by unfold buildArgsB; rfl⟩
  | e :: es, s => by
    unfold buildArgsB
    rcases buildHelperB_either pl names e s with h | ⟨hw, ⟨c, s1⟩, h⟩
    · left; rw [h]; rfl
    rw [h, Res.ok_bind]
    dsimp only
    rcases buildArgsB_either pl names es s1 with h' | ⟨hw', ⟨cs, s2⟩, h'⟩
    · left; rw [h']; rfl
    rw [h', Res.ok_bind]
    exact .inr ⟨by simp only [SExp.WfAll]; exact ⟨hw, hw'⟩, _, rfl⟩
end

theorem buildPredicateB_refused {names : List Nat} {e : SExp} (h : e.Refused names) (pl : Placing) (s : FState) :
    buildPredicateB pl names e s = .throw .lisp := by
  have hb : buildPredicateB pl names e s = (do
      let (a, s) ← lispAlloc pl (cffiSizeof lispPredicate) s
      let (c, s) ← buildHelperB pl names e s
      pure (a, ⟨storePredB a c s.mem, s.blocks⟩)) := by
    cases e <;> first | rfl | exact absurd rfl h.1
  rw [hb]
  rcases lispAlloc_either pl (cffiSizeof lispPredicate) s with e0 | ⟨⟨a, s1⟩, e0⟩
  · rw [e0]; rfl
  rw [e0, Res.ok_bind]
  dsimp only
  rcases buildHelperB_either pl names e s1 with e1 | ⟨hw, _⟩
  · rw [e1]; rfl
  · exact absurd hw h.2

end TraceDB
