import Verif.Spec.QueryVariables
import Verif.Proofs.QueryLaws
/-
Proofs of the laws about free variables.
-/
namespace TraceDB

/-- Combinations of elements, the first varying fastest. -/
def combosOf {α : Type} : List (List α) → List (List α)
  | [] => [[]]
  | v :: vs => (combosOf vs).flatMap fun r => v.map (· :: r)

/-- The variables with an allowed type. -/
def ofType (fv : FreeVar) (vars : List VarInfo) : List VarInfo := vars.filter fun v => decide (v.typeIndex ∈ fv)

theorem typeCompatible_eq (fv : FreeVar) (v : VarInfo) : typeCompatible fv v = decide (v.typeIndex ∈ fv) := by
  unfold typeCompatible
  rw [Bool.eq_iff_iff, List.any_eq_true, decide_eq_true_iff]
  constructor
  · rintro ⟨x, hx, e⟩
    exact (beq_iff_eq.mp e) ▸ hx
  · intro h
    exact ⟨_, h, beq_iff_eq.mpr rfl⟩

theorem matchingVars_any (fv : FreeVar) (vars : List VarInfo) : matchingVars fv vars =
    (List.range vars.length).filter fun i => (vars[i]?).any fun v => decide (v.typeIndex ∈ fv) := by
  unfold matchingVars
  refine List.filter_congr fun i _ => ?_
  cases vars[i]? with
  | none => rfl
  | some v => exact typeCompatible_eq fv v

theorem matching_map {β : Type} (fv : FreeVar) (vars : List VarInfo) (h : Nat → β) (g : VarInfo → β)
    (hg : ∀ (i : Nat) (v : VarInfo), vars[i]? = some v → h i = g v) :
    (matchingVars fv vars).map h = (ofType fv vars).map g := by
  rw [matchingVars_any]
  unfold ofType
  induction vars generalizing h with
  | nil => rfl
  | cons v vs ih =>
    have ih' := ih (fun i => h (i + 1)) fun i w hw => hg (i + 1) w hw
    rw [List.length_cons, List.range_succ_eq_map, List.filter_cons, List.filter_cons, List.filter_map]
    have e0 : ((fun i => ((v :: vs)[i]?).any fun v => decide (v.typeIndex ∈ fv)) ∘ Nat.succ) =
        fun i => (vs[i]?).any fun v => decide (v.typeIndex ∈ fv) := by
      funext i
      rfl
    rw [e0]
    simp only [List.getElem?_cons_zero, Option.any_some]
    split
    · rw [List.map_cons, List.map_cons, List.map_map, hg 0 v rfl, ← ih']
      rfl
    · rw [List.map_map, ← ih']
      rfl

theorem boundVars_combos (vars : List VarInfo) : ∀ variables : List FreeVar,
    (combos (variables.map fun fv => matchingVars fv vars)).map (boundVars vars) =
      combosOf (variables.map fun fv => ofType fv vars)
  | [] => rfl
  | fv :: fvs => by
    rw [List.map_cons, List.map_cons, combos, combosOf, ← boundVars_combos vars fvs, List.flatMap_map, List.map_flatMap]
    refine flatMap_same fun r _ => ?_
    rw [List.map_map]
    exact matching_map fv vars _ _ fun i v hv => by simp [boundVars, hv]

/-- All combinations at a point. -/
def answersAt (variables : List FreeVar) (p : Point) : List Point :=
  (combosOf (variables.map fun fv => ofType fv p.vars)).map fun vs => { p with vars := vs }

theorem results_answersAt (variables : List FreeVar) (p : Point) :
    (combos (variables.map fun fv => matchingVars fv p.vars)).map (resultOf p) = answersAt variables p := by
  unfold answersAt
  rw [← boundVars_combos, List.map_map]
  rfl

/-- Those that satisfy a formula. -/
def hardAt (fs : FloatSys) (variables : List FreeVar) (f : Form) (p : Point) : List Point :=
  (answersAt variables p).filter fun r => f.holds (lowFloat fs) r.vars

theorem good_hardAt (fs : FloatSys) (variables : List FreeVar) (f : Form) (p : Point) :
    (goodBindings (lowFloat fs) variables f p).map (resultOf p) = hardAt fs variables f p := by
  unfold hardAt goodBindings
  rw [← results_answersAt, List.filter_map]
  rfl

/-- The best of some answers. -/
def bestOf (fs : FloatSys) (sf : List Form) (rs : List Point) : List Point :=
  rs.filter fun r => decide (∀ r' ∈ rs, satCount (lowFloat fs) sf r' ≤ satCount (lowFloat fs) sf r)

theorem bestAt_eq (fs : FloatSys) (variables : List FreeVar) (f : Form) (sf : List Form) (p : Point) :
    bestAt fs variables f sf p = bestOf fs sf (hardAt fs variables f p) := by
  unfold bestAt bestOf
  simp only [good_hardAt]

theorem ofType_wider {fv gv : FreeVar} (h : ∀ ty ∈ fv, ty ∈ gv) (vars : List VarInfo) :
    ofType fv vars = (ofType gv vars).filter fun v => decide (v.typeIndex ∈ fv) := by
  unfold ofType
  rw [List.filter_filter]
  refine List.filter_congr fun v _ => ?_
  by_cases hv : v.typeIndex ∈ fv
  · simp [hv, h _ hv]
  · simp [hv]

theorem filter_flatMap_eq {α β : Type} (P : α → Bool) (g g' : α → List β) :
    ∀ l : List α, (∀ a ∈ l, g' a = if P a then g a else []) → (l.filter P).flatMap g = l.flatMap g'
  | [], _ => rfl
  | a :: l, h => by
    have ih := filter_flatMap_eq P g g' l fun b hb => h b (List.mem_cons_of_mem _ hb)
    rw [List.filter_cons, List.flatMap_cons, h a (List.mem_cons_self ..), ← ih]
    split <;> rfl

theorem combosOf_wider (vars : List VarInfo) : ∀ fvs gvs : List FreeVar, Wider fvs gvs →
    combosOf (fvs.map fun fv => ofType fv vars) = (combosOf (gvs.map fun gv => ofType gv vars)).filter (fitsTypes fvs)
  | [], [], _ => rfl
  | fv :: fvs, gv :: gvs, h => by
    rw [List.map_cons, List.map_cons, combosOf, combosOf, combosOf_wider vars fvs gvs h.2, List.filter_flatMap]
    refine filter_flatMap_eq _ _ _ _ fun r _ => ?_
    rw [ofType_wider h.1, List.filter_map]
    have e : (fitsTypes (fv :: fvs) ∘ fun x => x :: r) = fun v => decide (v.typeIndex ∈ fv) && fitsTypes fvs r := rfl
    rw [e]
    cases fitsTypes fvs r
    · simp
    · simp
  | [], _ :: _, h => h.elim
  | _ :: _, [], h => h.elim

theorem answersAt_wider {fvs gvs : List FreeVar} (h : Wider fvs gvs) (p : Point) :
    answersAt fvs p = (answersAt gvs p).filter fun r => fitsTypes fvs r.vars := by
  unfold answersAt
  rw [combosOf_wider p.vars fvs gvs h, List.filter_map]
  rfl

theorem Wider.length : ∀ {fvs gvs : List FreeVar}, Wider fvs gvs → fvs.length = gvs.length
  | [], [], _ => rfl
  | _ :: _, _ :: _, h => by rw [List.length_cons, List.length_cons, h.2.length]
  | [], _ :: _, h => h.elim
  | _ :: _, [], h => h.elim

theorem passing_withVars (ps : List Point) (vars : Point → List VarInfo) (mask stmt : U64) :
    passing (ps.map fun p => { p with vars := vars p }) mask stmt =
      (passing ps mask stmt).map fun p => { p with vars := vars p } := by
  unfold passing
  rw [List.filter_map]
  rfl

theorem ofType_usable {variables : List FreeVar} {fv : FreeVar} (h : fv ∈ variables) (p : Point) :
    ofType fv (usableVars variables p) = ofType fv p.vars := by
  unfold ofType usableVars
  rw [List.filter_filter]
  refine List.filter_congr fun v _ => ?_
  by_cases hv : v.typeIndex ∈ fv
  · simp only [hv, decide_true, Bool.true_and]
    exact List.any_eq_true.mpr ⟨fv, h, by simpa using hv⟩
  · simp [hv]

theorem answersAt_usable (variables : List FreeVar) (p : Point) :
    answersAt variables { p with vars := usableVars variables p } = answersAt variables p := by
  unfold answersAt
  have : (variables.map fun fv => ofType fv (usableVars variables p)) = variables.map fun fv => ofType fv p.vars :=
    List.map_congr_left fun fv hfv => ofType_usable hfv p
  simp only [this]

theorem candidates_ofType (vars : List VarInfo) (fv : FreeVar) : candidates vars fv = (ofType fv vars).length := by
  unfold candidates ofType
  rw [List.countP_eq_length_filter]

theorem combinations_usable (variables : List FreeVar) (p : Point) :
    combinations variables (usableVars variables p) = combinations variables p.vars := by
  unfold combinations
  congr 1
  refine List.map_congr_left fun fv hfv => ?_
  rw [candidates_ofType, candidates_ofType, ofType_usable hfv]

theorem flatMap_perm {α β : Type} {g g' : α → List β} : ∀ l : List α, (∀ a ∈ l, (g a).Perm (g' a)) →
    (l.flatMap g).Perm (l.flatMap g')
  | [], _ => .refl _
  | a :: l, h => by
    rw [List.flatMap_cons, List.flatMap_cons]
    exact (h a (List.mem_cons_self ..)).append (flatMap_perm l fun b hb => h b (List.mem_cons_of_mem _ hb))

theorem combosOf_perm {vars vars' : List VarInfo} (h : vars.Perm vars') : ∀ fvs : List FreeVar,
    (combosOf (fvs.map fun fv => ofType fv vars)).Perm (combosOf (fvs.map fun fv => ofType fv vars'))
  | [] => .refl _
  | fv :: fvs => by
    rw [List.map_cons, List.map_cons, combosOf, combosOf]
    refine ((combosOf_perm h fvs).flatMap_right _).trans (flatMap_perm _ fun r _ => ?_)
    exact (h.filter _).map _

theorem bestOf_perm (fs : FloatSys) (sf : List Form) {rs rs' : List Point} (h : rs.Perm rs') :
    (bestOf fs sf rs).Perm (bestOf fs sf rs') := by
  unfold bestOf
  refine (h.filter _).trans ?_
  rw [List.filter_congr]
  intro r _
  rw [decide_eq_decide]
  exact ⟨fun hm r' hr' => hm r' (h.mem_iff.mpr hr'), fun hm r' hr' => hm r' (h.mem_iff.mp hr')⟩

theorem hardAt_perm (fs : FloatSys) (variables : List FreeVar) (f : Form) (p : Point) {vars : List VarInfo}
    (h : vars.Perm p.vars) : (hardAt fs variables f { p with vars := vars }).Perm (hardAt fs variables f p) := by
  unfold hardAt answersAt
  exact ((combosOf_perm h variables).map _).filter _

end TraceDB
