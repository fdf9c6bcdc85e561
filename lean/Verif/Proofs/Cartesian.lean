import Verif.Spec.Query
/-
`cartesian` enumerates all combinations.
-/
namespace TraceDB

/-- Product of the sizes. -/
def sizeProduct (vectors : List (List Nat)) : Nat := (vectors.map List.length).foldr (· * ·) 1

/-- All combinations, the first vector fastest. -/
def combos : List (List Nat) → List (List Nat)
  | [] => [[]]
  | v :: vs => (combos vs).flatMap fun r => v.map (· :: r)

theorem cartesianCount_foldl (vectors : List (List Nat)) (a : Nat) :
    vectors.foldl (fun n v => (n * v.length) % 2 ^ 64) (a % 2 ^ 64) =
      (a * sizeProduct vectors) % 2 ^ 64 := by
  induction vectors generalizing a with
  | nil => simp [sizeProduct]
  | cons v vs ih =>
    rw [List.foldl_cons]
    have : a % 2 ^ 64 * v.length % 2 ^ 64 = (a * v.length) % 2 ^ 64 := by
      rw [Nat.mul_mod, Nat.mod_mod, ← Nat.mul_mod]
    rw [this, ih]
    simp only [sizeProduct, List.map_cons, List.foldr_cons, Nat.mul_assoc]

/-- The counter holds the number of combinations modulo 2^64. -/
theorem cartesianCount_eq (vectors : List (List Nat)) :
    cartesianCount vectors = sizeProduct vectors % 2 ^ 64 := by
  have h := cartesianCount_foldl vectors 1
  rw [Nat.one_mul] at h
  unfold cartesianCount
  rw [← h]

theorem length_combos (vectors : List (List Nat)) : (combos vectors).length = sizeProduct vectors := by
  induction vectors with
  | nil => rfl
  | cons v vs ih =>
    simp only [combos, List.length_flatMap, List.length_map]
    rw [List.map_const', List.sum_replicate_nat, ih]
    simp only [sizeProduct, List.map_cons, List.foldr_cons, Nat.mul_comm]

/-- Elements of a list of equally long blocks. -/
theorem getElem?_flatMap_const {α β : Type} (l : List α) (v : List β) (g : α → β → α) (i : Nat)
    (hv : 0 < v.length) :
    (l.flatMap fun r => v.map (g r))[i]? =
      match l[i / v.length]?, v[i % v.length]? with
      | some r, some x => some (g r x)
      | _, _ => none := by
  induction l generalizing i with
  | nil => simp
  | cons r l ih =>
    rw [List.flatMap_cons]
    by_cases h : i < v.length
    · rw [List.getElem?_append_left (by simpa using h), Nat.div_eq_of_lt h, Nat.mod_eq_of_lt h]
      simp [List.getElem?_eq_getElem h]
    · rw [List.getElem?_append_right (by simpa using h), List.length_map, ih]
      have e1 : i / v.length = (i - v.length) / v.length + 1 := by
        rw [Nat.div_eq, if_pos ⟨hv, by omega⟩]
      have e2 : i % v.length = (i - v.length) % v.length := by
        rw [Nat.mod_eq_sub_mod (by omega)]
      rw [e1, e2, List.getElem?_cons_succ]

theorem cartesianPick_eq (vectors : List (List Nat)) (i : Nat) (hpos : 0 < sizeProduct vectors) :
    ∃ r, (combos vectors)[i % sizeProduct vectors]? = some r ∧ cartesianPick vectors i = .ok r := by
  induction vectors generalizing i with
  | nil => exact ⟨[], by simp [combos, sizeProduct, Nat.mod_one], rfl⟩
  | cons v vs ih =>
    have hsp : sizeProduct (v :: vs) = v.length * sizeProduct vs := rfl
    rw [hsp] at hpos
    have hv : 0 < v.length := Nat.pos_of_mul_pos_right hpos
    have hvs : 0 < sizeProduct vs := Nat.pos_of_mul_pos_left hpos
    obtain ⟨r, h1, h2⟩ := ih (i / v.length) hvs
    refine ⟨v[i % v.length]'(Nat.mod_lt _ hv) :: r, ?_, ?_⟩
    · rw [hsp]
      simp only [combos]
      rw [getElem?_flatMap_const (combos vs) v (fun r x => x :: r) _ hv]
      have e1 : i % (v.length * sizeProduct vs) / v.length = i / v.length % sizeProduct vs := by
        rw [Nat.mod_mul_right_div_self]
      have e2 : i % (v.length * sizeProduct vs) % v.length = i % v.length := by
        rw [Nat.mod_mul_right_mod]
      rw [e1, e2, h1, List.getElem?_eq_getElem (Nat.mod_lt _ hv)]
    · simp only [cartesianPick, List.getElem?_eq_getElem (Nat.mod_lt i hv), h2, Res.ok_bind,
        Res.pure_eq]

theorem cartesianLoop_eq (vectors : List (List Nat)) (l : List Nat) (n : Nat)
    (hn : n ≤ sizeProduct vectors) (hl : ∀ i ∈ l, i < n) :
    ∃ rs, cartesianLoop vectors l = .ok rs ∧ rs.length = l.length ∧
      ∀ k i : Nat, l[k]? = some i → rs[k]? = (combos vectors)[i]? := by
  induction l with
  | nil => exact ⟨[], rfl, rfl, by simp⟩
  | cons i l ih =>
    obtain ⟨rs, h1, h2, h3⟩ := ih (fun j hj => hl j (List.mem_cons_of_mem _ hj))
    have hi := hl i (List.mem_cons_self ..)
    obtain ⟨r, h4, h5⟩ := cartesianPick_eq vectors i (by omega)
    refine ⟨r :: rs, ?_, by simp [h2], ?_⟩
    · simp only [cartesianLoop, h5, Res.ok_bind, h1, Res.pure_eq]
    · intro k j hk
      cases k with
      | zero =>
        simp only [List.getElem?_cons_zero, Option.some.injEq] at hk ⊢
        subst hk
        rw [Nat.mod_eq_of_lt (by omega)] at h4
        exact h4.symm
      | succ k =>
        simp only [List.getElem?_cons_succ] at hk ⊢
        exact h3 k j hk

/-- The loop of `cartesian` returns a prefix of the combinations. -/
theorem cartesianLoop_range (vectors : List (List Nat)) (n : Nat) (hn : n ≤ sizeProduct vectors) :
    cartesianLoop vectors (List.range n) = .ok ((combos vectors).take n) := by
  obtain ⟨rs, h1, h2, h3⟩ := cartesianLoop_eq vectors (List.range n) n hn (by simp)
  rw [h1]
  congr 1
  apply List.ext_getElem?
  intro k
  rw [List.length_range] at h2
  by_cases hk : k < n
  · rw [h3 k k (by simp [hk]), List.getElem?_take_of_lt hk]
  · rw [List.getElem?_eq_none (by omega), List.getElem?_eq_none (by
      rw [List.length_take]; omega)]

/-- Exact result of `cartesian` when the allocation succeeds. -/
theorem cartesian_eq (env : Env) (vectors : List (List Nat))
    (halloc : env.canAlloc (24 * (sizeProduct vectors % 2 ^ 64)) = true) :
    cartesian env vectors = .ok ((combos vectors).take (sizeProduct vectors % 2 ^ 64)) := by
  unfold cartesian
  simp only [cartesianCount_eq, halloc, if_true]
  exact cartesianLoop_range _ _ (Nat.mod_le _ _)

theorem cartesian_eq_all (env : Env) (vectors : List (List Nat))
    (hlt : sizeProduct vectors < 2 ^ 64)
    (halloc : env.canAlloc (24 * sizeProduct vectors) = true) :
    cartesian env vectors = .ok (combos vectors) := by
  rw [cartesian_eq env vectors (by rw [Nat.mod_eq_of_lt hlt]; exact halloc), Nat.mod_eq_of_lt hlt,
    ← length_combos, List.take_length]

/-- Membership in the combinations. -/
theorem mem_combos (vectors : List (List Nat)) (b : List Nat) :
    b ∈ combos vectors ↔ b.length = vectors.length ∧
      ∀ (i : Nat) (v : List Nat) (k : Nat), vectors[i]? = some v → b[i]? = some k → k ∈ v := by
  induction vectors generalizing b with
  | nil => simp [combos]
  | cons v vs ih =>
    simp only [combos, List.mem_flatMap, List.mem_map]
    constructor
    · rintro ⟨r, hr, x, hx, rfl⟩
      obtain ⟨h1, h2⟩ := (ih r).mp hr
      refine ⟨by simp [h1], ?_⟩
      intro i w k hi hk
      cases i with
      | zero =>
        simp only [List.getElem?_cons_zero, Option.some.injEq] at hi hk
        subst hi hk; exact hx
      | succ i => exact h2 i w k (by simpa using hi) (by simpa using hk)
    · rintro ⟨h1, h2⟩
      cases b with
      | nil => simp at h1
      | cons x r =>
        refine ⟨r, (ih r).mpr ⟨by simpa using h1, ?_⟩, x, h2 0 v x (by simp) (by simp), rfl⟩
        intro i w k hi hk
        exact h2 (i + 1) w k (by simpa using hi) (by simpa using hk)

/-- Order of the combinations. -/
theorem combos_ordered (vectors : List (List Nat)) (hv : ∀ v ∈ vectors, v.Pairwise (· < ·)) :
    (combos vectors).Pairwise FirstFastest := by
  induction vectors with
  | nil => simp [combos]
  | cons v vs ih =>
    have ih := ih (fun w hw => hv w (List.mem_cons_of_mem _ hw))
    have hv0 := hv v (List.mem_cons_self ..)
    simp only [combos]
    rw [List.pairwise_flatMap]
    constructor
    · intro r _
      rw [List.pairwise_map]
      refine hv0.imp ?_
      intro a b hab
      refine ⟨0, a, b, by simp, by simp, hab, ?_⟩
      intro j hj
      cases j with
      | zero => omega
      | succ j => simp
    · refine ih.imp ?_
      intro a b hab x hx y hy
      simp only [List.mem_map] at hx hy
      obtain ⟨x, _, rfl⟩ := hx
      obtain ⟨y, _, rfl⟩ := hy
      obtain ⟨i, p, q, h1, h2, h3, h4⟩ := hab
      refine ⟨i + 1, p, q, by simpa using h1, by simpa using h2, h3, ?_⟩
      intro j hj
      cases j with
      | zero => omega
      | succ j => simpa using h4 j (by omega)

/-- Candidates are listed in order. -/
theorem matchingVars_ordered (fv : FreeVar) (vars : List VarInfo) :
    (matchingVars fv vars).Pairwise (· < ·) :=
  List.Pairwise.filter _ List.pairwise_lt_range

theorem typeCompatible_iff (fv : FreeVar) (v : VarInfo) : typeCompatible fv v = true ↔ v.typeIndex ∈ fv := by
  simp [typeCompatible]

theorem mem_matchingVars (fv : FreeVar) (vars : List VarInfo) (k : Nat) :
    k ∈ matchingVars fv vars ↔ ∃ v, vars[k]? = some v ∧ v.typeIndex ∈ fv := by
  unfold matchingVars
  rw [List.mem_filter, List.mem_range]
  constructor
  · rintro ⟨h1, h2⟩
    rw [List.getElem?_eq_getElem h1] at h2
    exact ⟨vars[k], List.getElem?_eq_getElem h1, (typeCompatible_iff _ _).mp h2⟩
  · rintro ⟨v, h1, h2⟩
    obtain ⟨h3, rfl⟩ := List.getElem?_eq_some_iff.mp h1
    refine ⟨h3, ?_⟩
    rw [h1]; exact (typeCompatible_iff _ _).mpr h2

theorem length_filter_range (p : VarInfo → Bool) (vars : List VarInfo) :
    ((List.range vars.length).filter fun i =>
      match vars[i]? with | some v => p v | none => false).length = vars.countP p := by
  induction vars with
  | nil => rfl
  | cons v vars ih =>
    rw [List.length_cons, List.range_succ_eq_map, List.filter_cons, List.filter_map]
    have : ((fun i => match (v :: vars)[i]? with | some v => p v | none => false) ∘ Nat.succ) =
        (fun i => match vars[i]? with | some v => p v | none => false) := by
      funext i; simp
    rw [this, List.countP_cons]
    simp only [List.getElem?_cons_zero]
    split
    · rw [List.length_cons, List.length_map, ih]
    · rw [List.length_map, ih]; simp

theorem length_matchingVars (fv : FreeVar) (vars : List VarInfo) :
    (matchingVars fv vars).length = candidates vars fv := by
  have := length_filter_range (typeCompatible fv) vars
  refine Eq.trans this ?_
  unfold candidates
  congr 1
  funext v
  have := typeCompatible_iff fv v
  by_cases h : v.typeIndex ∈ fv
  · rw [this.mpr h]; simp [h]
  · simp only [h, decide_false]
    cases hc : typeCompatible fv v
    · rfl
    · exact absurd (this.mp hc) h

theorem sizeProduct_matching (variables : List FreeVar) (vars : List VarInfo) :
    sizeProduct (variables.map fun fv => matchingVars fv vars) = combinations variables vars := by
  unfold sizeProduct combinations
  congr 1
  rw [List.map_map]
  apply List.map_congr_left
  intro fv _
  exact length_matchingVars fv vars

/-- The combinations of candidates are the bindings. -/
theorem mem_combos_matching (variables : List FreeVar) (vars : List VarInfo) (b : List Nat) :
    b ∈ combos (variables.map fun fv => matchingVars fv vars) ↔ IsBinding variables vars b := by
  rw [mem_combos]
  unfold IsBinding
  rw [List.length_map]
  constructor
  · rintro ⟨h1, h2⟩
    refine ⟨h1, ?_⟩
    intro i fv k hi hk
    exact (mem_matchingVars fv vars k).mp (h2 i _ k (by rw [List.getElem?_map, hi]; rfl) hk)
  · rintro ⟨h1, h2⟩
    refine ⟨h1, ?_⟩
    intro i w k hi hk
    rw [List.getElem?_map] at hi
    obtain ⟨fv, h3, rfl⟩ := Option.map_eq_some_iff.mp hi
    exact (mem_matchingVars fv vars k).mpr (h2 i fv k h3 hk)

end TraceDB
