import Verif.Spec.QueryUnused
import Verif.Proofs.QueryRewrite
/-
Proofs about free variables that predicates do not mention.
-/
namespace TraceDB

theorem readsTerm_mono {n m : Nat} (hnm : n ≤ m) {p : Pred} {a : Term} (h : ReadsTerm n p a) : ReadsTerm m p a := by
  induction h with
  | size h => exact .size (Nat.lt_of_lt_of_le h hnm)
  | value h => exact .value (Nat.lt_of_lt_of_le h hnm)
  | nat => exact .nat
  | integer => exact .integer
  | float => exact .float
  | add _ _ ih1 ih2 => exact .add ih1 ih2
  | sub _ _ ih1 ih2 => exact .sub ih1 ih2
  | mul _ _ ih1 ih2 => exact .mul ih1 ih2
  | div _ _ ih1 ih2 => exact .div ih1 ih2

mutual
theorem readsForm_mono {n m : Nat} (hnm : n ≤ m) : ∀ {p : Pred} {f : Form}, ReadsForm n p f → ReadsForm m p f
  | _, _, .null => .null
  | _, _, .and h => .and (readsConj_mono hnm h)
  | _, _, .or h => .or (readsDisj_mono hnm h)
  | _, _, .not h => .not (readsForm_mono hnm h)
  | _, _, .distinct hi hj => .distinct (Nat.lt_of_lt_of_le hi hnm) (Nat.lt_of_lt_of_le hj hnm)
  | _, _, .cmp ha hb => .cmp (readsTerm_mono hnm ha) (readsTerm_mono hnm hb)
theorem readsConj_mono {n m : Nat} (hnm : n ≤ m) : ∀ {ps : List Pred} {f : Form}, ReadsConj n ps f → ReadsConj m ps f
  | _, _, .nil => .nil
  | _, _, .cons h1 h2 => .cons (readsForm_mono hnm h1) (readsConj_mono hnm h2)
theorem readsDisj_mono {n m : Nat} (hnm : n ≤ m) : ∀ {ps : List Pred} {f : Form}, ReadsDisj n ps f → ReadsDisj m ps f
  | _, _, .nil => .nil
  | _, _, .cons h1 h2 => .cons (readsForm_mono hnm h1) (readsDisj_mono hnm h2)
end

theorem val_append {fs : FloatSys} (fl : VarInfo → fs.F) {n : Nat} {p : Pred} {a : Term} (h : ReadsTerm n p a)
    {vs : List VarInfo} (hv : vs.length = n) (v : VarInfo) : a.val fl (vs ++ [v]) = a.val fl vs := by
  have key : ∀ i : Nat, i < n → (vs ++ [v])[i]? = vs[i]? := fun i hi => List.getElem?_append_left (by rw [hv]; exact hi)
  induction h with
  | size h => simp only [Term.val, key _ h]
  | value h => simp only [Term.val, key _ h]
  | nat => rfl
  | integer => rfl
  | float => rfl
  | add _ _ ih1 ih2 => rw [Term.val, Term.val, ih1, ih2]
  | sub _ _ ih1 ih2 => rw [Term.val, Term.val, ih1, ih2]
  | mul _ _ ih1 ih2 => rw [Term.val, Term.val, ih1, ih2]
  | div _ _ ih1 ih2 => rw [Term.val, Term.val, ih1, ih2]

mutual
theorem holds_append {fs : FloatSys} (fl : VarInfo → fs.F) {n : Nat} {vs : List VarInfo} (hv : vs.length = n) (v : VarInfo) :
    ∀ {p : Pred} {f : Form}, ReadsForm n p f → f.holds fl (vs ++ [v]) = f.holds fl vs
  | _, _, .null => rfl
  | _, _, .and h => conj_append fl hv v h
  | _, _, .or h => disj_append fl hv v h
  | _, _, .not h => by rw [Form.holds, Form.holds, holds_append fl hv v h]
  | _, _, .distinct hi hj => by
    rw [Form.holds, Form.holds, List.getElem?_append_left (by rw [hv]; exact hi), List.getElem?_append_left (by rw [hv]; exact hj)]
  | _, _, .cmp ha hb => by rw [Form.holds, Form.holds, val_append fl ha hv, val_append fl hb hv]
theorem conj_append {fs : FloatSys} (fl : VarInfo → fs.F) {n : Nat} {vs : List VarInfo} (hv : vs.length = n) (v : VarInfo) :
    ∀ {ps : List Pred} {f : Form}, ReadsConj n ps f → f.holds fl (vs ++ [v]) = f.holds fl vs
  | _, _, .nil => rfl
  | _, _, .cons h1 h2 => by rw [Form.holds, Form.holds, holds_append fl hv v h1, conj_append fl hv v h2]
theorem disj_append {fs : FloatSys} (fl : VarInfo → fs.F) {n : Nat} {vs : List VarInfo} (hv : vs.length = n) (v : VarInfo) :
    ∀ {ps : List Pred} {f : Form}, ReadsDisj n ps f → f.holds fl (vs ++ [v]) = f.holds fl vs
  | _, _, .nil => rfl
  | _, _, .cons h1 h2 => by rw [Form.holds, Form.holds, holds_append fl hv v h1, disj_append fl hv v h2]
end

theorem combosOf_last {α : Type} (l : List α) : ∀ ls : List (List α),
    combosOf (ls ++ [l]) = l.flatMap fun x => (combosOf ls).map (· ++ [x])
  | [] => by
    simp only [List.nil_append, combosOf, List.flatMap_cons, List.flatMap_nil, List.append_nil, List.map_cons, List.map_nil]
    induction l with
    | nil => rfl
    | cons a l ih => rw [List.map_cons, List.flatMap_cons, ih]; rfl
  | v :: vs => by
    rw [List.cons_append, combosOf, combosOf_last l vs, List.flatMap_assoc]
    refine flatMap_same fun x _ => ?_
    rw [combosOf, List.flatMap_map, List.map_flatMap]
    refine flatMap_same fun r _ => ?_
    rw [List.map_map]
    rfl

theorem combosOf_length {α : Type} : ∀ (ls : List (List α)) (r : List α), r ∈ combosOf ls → r.length = ls.length
  | [], r, h => by
    simp only [combosOf, List.mem_singleton] at h
    rw [h]
    rfl
  | v :: vs, r, h => by
    rw [combosOf, List.mem_flatMap] at h
    obtain ⟨r', h1, h2⟩ := h
    obtain ⟨a, _, rfl⟩ := List.mem_map.mp h2
    rw [List.length_cons, combosOf_length vs r' h1, List.length_cons]

theorem answersAt_last (variables : List FreeVar) (fv : FreeVar) (x : Point) :
    answersAt (variables ++ [fv]) x = (x.varsOf fv).flatMap fun v => (answersAt variables x).map (Point.extended · v) := by
  unfold answersAt
  rw [List.map_append, List.map_cons, List.map_nil, combosOf_last, List.map_flatMap]
  refine flatMap_same fun v _ => ?_
  rw [List.map_map, List.map_map]
  rfl

theorem answersAt_length {variables : List FreeVar} {x r : Point} (h : r ∈ answersAt variables x) :
    r.vars.length = variables.length := by
  obtain ⟨vs, h1, rfl⟩ := List.mem_map.mp h
  rw [combosOf_length _ _ h1, List.length_map]

theorem hardAt_last (fs : FloatSys) (variables : List FreeVar) (fv : FreeVar) {p : Pred} {f : Form}
    (h : ReadsForm variables.length p f) (x : Point) :
    hardAt fs (variables ++ [fv]) f x = (x.varsOf fv).flatMap fun v => (hardAt fs variables f x).map (Point.extended · v) := by
  unfold hardAt
  rw [answersAt_last, List.filter_flatMap]
  refine flatMap_same fun v _ => ?_
  rw [List.filter_map]
  congr 1
  exact List.filter_congr fun r hr => holds_append _ (answersAt_length hr) v h

theorem bestOf_last (fs : FloatSys) (sf : List Form) (rs : List Point) (l : List VarInfo)
    (h : ∀ r ∈ rs, ∀ v, satCount (lowFloat fs) sf (r.extended v) = satCount (lowFloat fs) sf r) :
    bestOf fs sf (l.flatMap fun v => rs.map (Point.extended · v)) = l.flatMap fun v => (bestOf fs sf rs).map (Point.extended · v) := by
  unfold bestOf
  rw [List.filter_flatMap]
  refine flatMap_same fun v hv => ?_
  rw [List.filter_map]
  congr 1
  refine List.filter_congr fun r hr => ?_
  simp only [Function.comp_apply]
  rw [decide_eq_decide]
  constructor
  · intro hm r' hr'
    have := hm (r'.extended v) (List.mem_flatMap.mpr ⟨v, hv, List.mem_map_of_mem hr'⟩)
    rwa [h r' hr', h r hr] at this
  · intro hm r' hr'
    obtain ⟨w, _, hw⟩ := List.mem_flatMap.mp hr'
    obtain ⟨r0, h0, rfl⟩ := List.mem_map.mp hw
    rw [h r0 h0, h r hr]
    exact hm r0 h0

end TraceDB
