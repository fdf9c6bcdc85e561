import Verif.Proofs.ForeignPreds
/-
Arrays and free variables written by Lisp byte by byte are read back by C.
-/
namespace TraceDB

theorem storeArrayB_ok {n : Nat} (hn : n = 4 ∨ n = 8) (base : Nat) : ∀ (vs : List Nat) (i : Nat) (m : BMem), (∀ v ∈ vs, v < 256 ^ n) →
    (∀ x, ¬ InRange (base + i * n) (vs.length * n) x → storeArrayB n base i vs m x = m x) ∧
      ∀ (k : Nat) v, vs[k]? = some v → (storeArrayB n base i vs m).getNat (base + (i + k) * n) n = v
  | [], i, m, _ => ⟨fun _ _ => rfl, by simp⟩
  | p :: ps, i, m, h => by
    obtain ⟨f2, r2⟩ := storeArrayB_ok hn base ps (i + 1) (m.putNat (base + i * n) n p) fun q hq => h q (List.mem_cons_of_mem _ hq)
    have hp := h p (List.mem_cons_self ..)
    refine ⟨?_, ?_⟩
    · intro x hx
      rw [List.length_cons] at hx
      unfold InRange at hx
      unfold storeArrayB
      rw [f2 x (by unfold InRange; rcases hn with rfl | rfl <;> omega),
        BMem.putNat_other (by unfold InRange; rcases hn with rfl | rfl <;> omega)]
    · intro k q hq
      unfold storeArrayB
      cases k with
      | zero =>
        simp only [List.getElem?_cons_zero, Option.some.injEq] at hq
        subst hq
        rw [Nat.add_zero, BMem.getNat_congr (m := m.putNat (base + i * n) n p)]
        · exact BMem.getNat_putNat hp
        · intro x hx
          unfold InRange at hx
          exact f2 x (by unfold InRange; rcases hn with rfl | rfl <;> omega)
      | succ k =>
        rw [List.getElem?_cons_succ] at hq
        have := r2 k q hq
        have e : i + 1 + k = i + (k + 1) := by omega
        rw [e] at this
        exact this

theorem createArrayB_ok {pl : Placing} (hpl : pl.Sound) {n : Nat} (hn : n = 4 ∨ n = 8) (vs : List Nat) (s : FState)
    (hv : ∀ v ∈ vs, v < 256 ^ n) :
    createArrayB pl n vs s = .throw .lisp ∨
    ∃ a s', createArrayB pl n vs s = .ok (a, s') ∧ a < 2 ^ 64 ∧ OnlyNew s s' ∧
      ∀ m, Agrees s s' m → ∀ (k : Nat) v, vs[k]? = some v → m.getNat (a + k * n) n = v := by
  unfold createArrayB
  rcases lispAlloc_ok hpl (vs.length * n) s with e | ⟨a, s1, e1, hpos, hlt, n1, hc1, hr⟩
  · left; rw [e]; rfl
  rw [e1]
  simp only [Res.ok_bind]
  right
  obtain ⟨f2, r2⟩ := storeArrayB_ok hn a vs 0 s1.mem hv
  rw [Nat.zero_mul, Nat.add_zero] at f2
  refine ⟨a, _, rfl, by omega, n1.fill n1 (OnlyNew.refl _) hr f2, ?_⟩
  intro m hm k v hk
  have hlt := (List.getElem?_eq_some_iff.mp hk).1
  have := r2 k v hk
  rw [Nat.zero_add] at this
  rw [← this]
  apply BMem.getNat_congr
  intro x hx
  unfold InRange at hx
  have := hr x (by unfold InRange; rcases hn with rfl | rfl <;> omega)
  exact hm x this.1 this.2

theorem cFreeVariable_layout : cLayout 0 cFreeVariable = [(.nAllowedTypes, 0, 4), (.allowedTypes, 8, 8)] := by decide +kernel
theorem lispFreeVariable_layout : cffiLayout 0 lispFreeVariable = [(.nAllowedTypes, 0, 4), (.allowedTypes, 8, 8)] := by
  decide +kernel
theorem cFreeVariable_size : cSizeof cFreeVariable = 16 := by decide +kernel
theorem lispFreeVariable_size : cffiSizeof lispFreeVariable = 16 := by decide +kernel

theorem readFreeVarB_ok {m : BMem} {p a : Nat} {fv : FreeVar} (h1 : m.getNat p 4 = fv.length) (h2 : m.getNat (p + 8) 8 = a)
    (h3 : ∀ (k : Nat) v, (fv.map (·.toNat))[k]? = some v → m.getNat (a + k * 4) 4 = v) : readFreeVarB m p = fv := by
  unfold readFreeVarB
  simp only [cFreeVariable_layout, BMem.load, Layout.find_cons, reduceCtorEq, if_true, if_false, Nat.add_zero, h1, h2, CTy.bytes]
  apply List.ext_getElem
  · simp
  · intro i h4 h5
    simp only [List.getElem_map, List.getElem_range]
    rw [h3 i fv[i].toNat (by simp [h5])]
    apply BitVec.eq_of_toNat_eq
    rw [BitVec.toNat_ofNat, Nat.mod_eq_of_lt fv[i].isLt]

theorem buildVarsB_ok {pl : Placing} (hpl : pl.Sound) {vars total : Nat} {s0 : FState} :
    ∀ (fvs : List FreeVar) (i : Nat) (s : FState), OnlyNew s0 s →
      (∀ x, InRange vars total x → InUse s.blocks x ∧ ¬ InUse s0.blocks x) → (i + fvs.length) * 16 ≤ total →
      buildVarsB pl vars i fvs s = .throw .lisp ∨
      ∃ s', buildVarsB pl vars i fvs s = .ok s' ∧ OnlyNew s0 s' ∧ (∀ x, InUse s.blocks x → InUse s'.blocks x) ∧
        (∀ x, InUse s.blocks x → ¬ (InRange vars total x ∧ vars + i * 16 ≤ x) → s'.mem x = s.mem x) ∧
        ∀ m, Agrees s0 s' m → readFreeVarsB m vars i fvs.length = fvs
  | [], i, s, hnew, hR, hi => .inr ⟨s, rfl, hnew, fun _ h => h, fun _ _ _ => rfl, fun _ _ => rfl⟩
  | fv :: fvs, i, s, hnew, hR, hi => by
    rw [List.length_cons] at hi
    unfold buildVarsB
    rcases createArrayB_ok hpl (n := FTy.uint32.bytes) (.inl rfl) (fv.map (·.toNat)) s (by
      intro v hv
      obtain ⟨u, _, rfl⟩ := List.mem_map.mp hv
      exact u.isLt) with e | ⟨a, s1, e1, a1, n1, r1⟩
    · left; rw [e]; rfl
    rw [e1]
    simp only [Res.ok_bind]
    by_cases hlen : fv.length < 2 ^ 32
    · rw [if_pos hlen]
      simp only [lispFreeVariable_layout, lispFreeVariable_size, BMem.store, Layout.find_cons, reduceCtorEq, if_true, if_false,
        Nat.add_zero]
      generalize hM : BMem.putNat (BMem.putNat s1.mem (vars + i * 16) 4 fv.length) (vars + i * 16 + 8) 8 a = M
      have hother : ∀ x, ¬ InRange (vars + i * 16) 16 x → M x = s1.mem x := by
        intro x hx
        unfold InRange at hx
        rw [← hM, BMem.putNat_other (by unfold InRange; omega), BMem.putNat_other (by unfold InRange; omega)]
      have g1 : M.getNat (vars + i * 16) 4 = fv.length := by
        rw [← hM, BMem.getNat_putNat_disj (by omega), BMem.getNat_putNat (by simpa using hlen)]
      have g2 : M.getNat (vars + i * 16 + 8) 8 = a := by rw [← hM, BMem.getNat_putNat (by simpa using a1)]
      have hcell : ∀ x, InRange (vars + i * 16) 16 x → InUse s.blocks x ∧ ¬ InUse s0.blocks x := by
        intro x hx
        unfold InRange at hx
        exact hR x (by unfold InRange; omega)
      have new1 : OnlyNew s0 ⟨M, s1.blocks⟩ := (hnew.trans n1).fill hnew n1 hcell hother
      rcases buildVarsB_ok hpl fvs (i + 1) ⟨M, s1.blocks⟩ new1 (fun x hx => ⟨n1.use (hR x hx).1, (hR x hx).2⟩) (by omega) with
        e | ⟨s2, e2, n2, u2, same2, r2⟩
      · left; rw [e]
      right
      rw [e2]
      refine ⟨s2, rfl, n2, fun x hx => u2 x (n1.use hx), ?_, ?_⟩
      · intro x hx hx'
        have hnot : ¬ InRange (vars + i * 16) 16 x := by
          intro hc
          apply hx'
          unfold InRange at hc ⊢
          omega
        rw [same2 x (n1.use hx) fun h => hx' ⟨h.1, by have := h.2; omega⟩]
        dsimp only
        rw [hother x hnot, n1.same x hx]
      · intro m hm
        simp only [List.length_cons, readFreeVarsB, cFreeVariable_size]
        rw [r2 m hm]
        congr 1
        have hmM : ∀ x, InRange (vars + i * 16) 16 x → m x = M x := by
          intro x hx
          rw [hm x (u2 x (n1.use (hcell x hx).1)) (hcell x hx).2]
          exact same2 x (n1.use (hcell x hx).1) fun h => by
            have := h.2
            unfold InRange at hx
            omega
        apply readFreeVarB_ok (a := a)
        · rw [← g1]
          exact BMem.getNat_congr fun x hx => hmM x (by unfold InRange at *; omega)
        · rw [← g2]
          exact BMem.getNat_congr fun x hx => hmM x (by unfold InRange at *; omega)
        · apply r1 m
          intro x hx hn
          have hnot : ¬ InRange vars total x := fun h => hn (hR x h).1
          rw [hm x (u2 x hx) fun h => hn (hnew.use h), same2 x hx fun h => hnot h.1]
          dsimp only
          exact hother x fun h => hn (hcell x h).1
    · left
      rw [if_neg hlen]

theorem freeVarsB_ok {pl : Placing} (hpl : pl.Sound) (fvs : List FreeVar) (s : FState) :
    freeVarsB pl fvs s = .throw .lisp ∨
    ∃ a s', freeVarsB pl fvs s = .ok (a, s') ∧ a < 2 ^ 64 ∧ OnlyNew s s' ∧
      ∀ m, Agrees s s' m → readFreeVarsB m a 0 fvs.length = fvs := by
  unfold freeVarsB
  rw [lispFreeVariable_size]
  rcases lispAlloc_ok hpl (fvs.length * 16) s with e | ⟨a, s1, e1, hpos, hlt, n1, hc1, hr⟩
  · left; rw [e]; rfl
  rw [e1]
  simp only [Res.ok_bind]
  rcases buildVarsB_ok hpl fvs 0 s1 n1 hr (by omega) with e | ⟨s2, e2, n2, _, _, r2⟩
  · left; rw [e]; rfl
  right
  rw [e2]
  exact ⟨a, s2, rfl, by omega, n2, r2⟩

end TraceDB
