import Verif.Proofs.QueryMemoryConvert
import Verif.Proofs.PredicateBuild
import Verif.Proofs.PredicateMemory
/-
The phases of a query and what each does to foreign memory.
-/
namespace TraceDB

/-! Sequencing -/

theorem FM.bind_ok {α β : Type} {x : FM α} {f : α → FM β} {m m' : FMem} {a : α} (h : x m = (.ok a, m')) :
    (x >>= f) m = f a m' := by
  show FM.bind x f m = _
  simp only [FM.bind, h]

theorem FM.bind_throw {α β : Type} {x : FM α} {f : α → FM β} {m m' : FMem} {e : Exn} (h : x m = (.throw e, m')) :
    (x >>= f) m = (.throw e, m') := by
  show FM.bind x f m = _
  simp only [FM.bind, h]

theorem FM.bind_pair {α β : Type} {x : FM α} {f : α → FM β} {m m' : FMem} {r : Res α} (h : x m = (r, m'))
    (hr : r.isOk = false) : ∃ r' : Res β, (x >>= f) m = (r', m') ∧ r' = (r >>= fun a => (f a m').1) := by
  show ∃ r' : Res β, FM.bind x f m = (r', m') ∧ _
  simp only [FM.bind, h]
  cases r with
  | ok a => simp [Res.isOk] at hr
  | throw e => exact ⟨_, rfl, rfl⟩
  | abort => exact ⟨_, rfl, rfl⟩
  | ub k => exact ⟨_, rfl, rfl⟩
  | hang => exact ⟨_, rfl, rfl⟩

theorem FM.pure_apply {α : Type} (a : α) (m : FMem) : (pure a : FM α) m = (.ok a, m) := rfl

theorem FM.lift_apply {α : Type} (r : Res α) (m : FMem) : FM.lift r m = (r, m) := rfl

theorem FM.alloc_apply (d : AData) (m : FMem) :
    FM.alloc d m = (.ok m.arrays.length, { m with arrays := m.arrays ++ [⟨true, d⟩] }) := rfl

theorem FM.array_ok {b : Nat} {m : FMem} {d : AData} (h : m.arrays[b]? = some ⟨true, d⟩) :
    FM.array b m = (.ok d, m) := by
  simp [FM.array, h]

theorem FM.free_ok {b : Nat} {m : FMem} {d : AData} (h : m.arrays[b]? = some ⟨true, d⟩) :
    FM.free b m = (.ok (), { m with arrays := m.arrays.set b ⟨false, d⟩ }) := by
  simp [FM.free, h]

theorem getElem?_mid {α : Type} (A B : List α) (x : α) : (A ++ x :: B)[A.length]? = some x := by
  rw [List.getElem?_append_right (Nat.le_refl _)]
  simp

theorem set_mid {α : Type} (A B : List α) (x y : α) : (A ++ x :: B).set A.length y = A ++ y :: B := by
  rw [set_append_right' _ _ _ _ (Nat.le_refl _)]
  simp

/-- Strings fetched from C: the array is freed at once. -/
theorem fetchStrings (ss : List (List U8)) (m : FMem) :
    ((do
      let b ← FM.alloc (.strings ss)
      match ← FM.array b with
      | .strings l => do
        FM.free b
        pure l
      | _ => FM.lift (.ub .misuse)) : FM (List (List U8))) m =
      (.ok ss, { m with arrays := m.arrays ++ [⟨false, .strings ss⟩] }) := by
  rw [FM.bind_ok (FM.alloc_apply _ _)]
  have h : ({ m with arrays := m.arrays ++ [⟨true, .strings ss⟩] } : FMem).arrays[m.arrays.length]? =
      some ⟨true, .strings ss⟩ := getElem?_mid _ _ _
  rw [FM.bind_ok (FM.array_ok h)]
  simp only
  rw [FM.bind_ok (FM.free_ok h)]
  simp only [FM.pure_apply, set_mid]

theorem traceTypesM_ok {t : Trace} {types : List (List U8)} (h : getTypes t = .ok types) (m : FMem) :
    traceTypesM t m = (.ok types, { m with arrays := m.arrays ++ [⟨false, .strings types⟩] }) := by
  unfold traceTypesM
  rw [FM.bind_ok (m' := m) (a := types) (by rw [FM.lift_apply, h])]
  exact fetchStrings types m

theorem getNamesM_ok (t : Trace) (m : FMem) :
    getNamesM t m = (.ok (getNames t), { m with arrays := m.arrays ++ [⟨false, .strings (getNames t)⟩] }) :=
  fetchStrings (getNames t) m

/-! Free variables -/

theorem storeTypes_length {ps : List (Option Nat)} (h : (storeTypes ps).2 = true) :
    (storeTypes ps).1.length = ps.length := by
  induction ps with
  | nil => rfl
  | cons p ps ih =>
    cases p with
    | none => simp [storeTypes] at h
    | some i => simp only [storeTypes, List.length_cons] at h ⊢; rw [ih h]

theorem typePosition_known {types : List (List U8)} {n : List U8} (h : n ∈ types) :
    types.findIdx (· == n) < types.length := by
  rw [List.findIdx_lt_length]
  exact ⟨n, h, by simp⟩

theorem typePosition_unknown {types : List (List U8)} {n : List U8} (h : n ∉ types) :
    typePosition types n = none := by
  unfold typePosition
  rw [if_neg]
  rw [List.findIdx_lt_length]
  rintro ⟨x, hx, e⟩
  rw [beq_iff_eq] at e
  exact h (e ▸ hx)

/-- For known types the positions stored are those of the query. -/
theorem storeTypes_known {types : List (List U8)} {ts : List (List U8)} (h : ∀ n ∈ ts, n ∈ types) :
    (storeTypes (ts.map (typePosition types))).2 = true ∧
      typePositions types ts = .ok (storeTypes (ts.map (typePosition types))).1 := by
  induction ts with
  | nil => exact ⟨rfl, rfl⟩
  | cons n ts ih =>
    obtain ⟨h1, h2⟩ := ih fun x hx => h x (List.mem_cons_of_mem _ hx)
    have hn := typePosition_known (h n (List.mem_cons_self ..))
    simp only [List.map_cons, typePosition, hn, if_true, storeTypes, typePositions] at *
    exact ⟨h1, by rw [h2]; rfl⟩

theorem storeTypes_unknown {types : List (List U8)} {ts : List (List U8)} (h : ¬ ∀ n ∈ ts, n ∈ types) :
    (storeTypes (ts.map (typePosition types))).2 = false := by
  induction ts with
  | nil => simp at h
  | cons n ts ih =>
    by_cases hn : n ∈ types
    · have hlt := typePosition_known hn
      have : ¬ ∀ n ∈ ts, n ∈ types := fun hall => h fun x hx => by
        rcases List.mem_cons.mp hx with rfl | hx
        · exact hn
        · exact hall x hx
      simp only [List.map_cons, typePosition, hlt, if_true, storeTypes] at *
      exact ih this
    · rw [List.map_cons, typePosition_unknown hn]
      rfl

theorem freeVars_known {types : List (List U8)} {tss : List (List (List U8))}
    (h : ∀ ts ∈ tss, ∀ n ∈ ts, n ∈ types) :
    freeVars types tss = .ok ((tss.map fun ts => ts.map (typePosition types)).map fun ps => (storeTypes ps).1) := by
  induction tss with
  | nil => rfl
  | cons ts tss ih =>
    have h1 := (storeTypes_known (h ts (List.mem_cons_self ..))).2
    have h2 := ih fun x hx => h x (List.mem_cons_of_mem _ hx)
    simp only [freeVars, h1, h2, Res.ok_bind, List.map_cons, Res.pure_eq]

/-- The `c_free_variable` structures when the arrays of types start at block `base`. -/
def cVarEntries : Nat → List (List (Option Nat)) → List (Option (U32 × Nat))
  | _, [] => []
  | base, ps :: pss => some (BitVec.ofNat 32 ps.length, base) :: cVarEntries (base + 1) pss

theorem cVarEntries_length (base : Nat) (pss : List (List (Option Nat))) : (cVarEntries base pss).length = pss.length := by
  induction pss generalizing base with
  | nil => rfl
  | cons ps pss ih => simp [cVarEntries, ih]

/-- The array of types of a free variable. -/
def typeBlock (live : Bool) (ps : List (Option Nat)) : ABlock := ⟨live, .types (storeTypes ps).1⟩

theorem createTypes_ok {ps : List (Option Nat)} (h : (storeTypes ps).2 = true) (m : FMem) :
    createTypes ps m = (.ok m.arrays.length, { m with arrays := m.arrays ++ [typeBlock true ps] }) := by
  unfold createTypes
  rw [FM.bind_ok (FM.alloc_apply _ _), if_pos h]
  rfl

theorem createTypes_bad {ps : List (Option Nat)} (h : (storeTypes ps).2 = false) (m : FMem) :
    createTypes ps m = (.throw .lisp, { m with arrays := m.arrays ++ [typeBlock true ps] }) := by
  unfold createTypes
  rw [FM.bind_ok (FM.alloc_apply _ _), if_neg (by simp [h])]
  rfl

theorem setVar_ok {m : FMem} {A B : AHeap} {l : List (Option (U32 × Nat))} {i : Nat} {e : U32 × Nat}
    (hm : m.arrays = A ++ ⟨true, .vars l⟩ :: B) (hi : i < l.length) :
    FM.setVar A.length i e m = (.ok (), { m with arrays := A ++ ⟨true, .vars (l.set i (some e))⟩ :: B }) := by
  unfold FM.setVar
  rw [hm, getElem?_mid]
  simp only [hi, if_true, set_mid]

theorem fillVars_ok (pss : List (List (Option Nat))) (hk : ∀ ps ∈ pss, (storeTypes ps).2 = true) (A : AHeap) :
    ∀ (B : AHeap) (pre : List (Option (U32 × Nat))) (post : Nat) (m : FMem),
      m.arrays = A ++ ⟨true, .vars (pre ++ List.replicate (pss.length + post) none)⟩ :: B →
      fillVars A.length pre.length pss m = (.ok (), { m with arrays :=
        A ++ ⟨true, .vars (pre ++ cVarEntries (A.length + 1 + B.length) pss ++ List.replicate post none)⟩ ::
          (B ++ pss.map (typeBlock true)) }) := by
  induction pss with
  | nil =>
    intro B pre post m hm
    simp only [fillVars, cVarEntries, List.append_nil, List.map_nil, FM.pure_apply]
    simp only [List.length_nil, Nat.zero_add] at hm
    rw [← hm]
  | cons ps pss ih =>
    intro B pre post m hm
    simp only [fillVars]
    rw [FM.bind_ok (createTypes_ok (hk ps (List.mem_cons_self ..)) m)]
    have e1 : ({ m with arrays := m.arrays ++ [typeBlock true ps] } : FMem).arrays =
        A ++ ⟨true, .vars (pre ++ List.replicate ((ps :: pss).length + post) none)⟩ :: (B ++ [typeBlock true ps]) := by
      simp [hm]
    rw [FM.bind_ok (setVar_ok e1 (by simp; omega))]
    have hrep : List.replicate ((ps :: pss).length + post) (none : Option (U32 × Nat)) =
        none :: List.replicate (pss.length + post) none := by
      rw [show (ps :: pss).length + post = (pss.length + post) + 1 by simp; omega, List.replicate_succ]
    have hset : (pre ++ List.replicate ((ps :: pss).length + post) none).set pre.length
          (some (BitVec.ofNat 32 ps.length, m.arrays.length)) =
        (pre ++ [some (BitVec.ofNat 32 ps.length, m.arrays.length)]) ++ List.replicate (pss.length + post) none := by
      rw [hrep, set_mid]; simp
    have hlen : m.arrays.length = A.length + 1 + B.length := by rw [hm]; simp; omega
    have := ih (fun q hq => hk q (List.mem_cons_of_mem _ hq)) (B ++ [typeBlock true ps])
      (pre ++ [some (BitVec.ofNat 32 ps.length, m.arrays.length)]) post
      { m with arrays := A ++ ⟨true, .vars ((pre ++ List.replicate ((ps :: pss).length + post) none).set pre.length
          (some (BitVec.ofNat 32 ps.length, m.arrays.length)))⟩ :: (B ++ [typeBlock true ps]) }
      (by simp only; rw [hset])
    simp only [List.length_append, List.length_cons, List.length_nil, Nat.zero_add] at this ⊢
    rw [this]
    simp only [cVarEntries, hlen, List.map_cons]
    simp [Nat.add_assoc]

theorem fillVars_append (vars : Nat) (xs ys : List (List (Option Nat))) (i : Nat) (m : FMem) {m' : FMem}
    (h : fillVars vars i xs m = (.ok (), m')) : fillVars vars i (xs ++ ys) m = fillVars vars (i + xs.length) ys m' := by
  induction xs generalizing i m with
  | nil => simp only [fillVars, FM.pure_apply, Prod.mk.injEq, true_and] at h; subst h; simp
  | cons x xs ih =>
    simp only [fillVars, List.cons_append] at h ⊢
    generalize hc : createTypes x m = c at h
    obtain ⟨r, m1⟩ := c
    cases r with
    | ok b =>
      rw [FM.bind_ok hc] at h ⊢
      generalize hs : FM.setVar vars i (BitVec.ofNat 32 x.length, b) m1 = c at h
      obtain ⟨r, m2⟩ := c
      cases r with
      | ok u =>
        rw [FM.bind_ok hs] at h ⊢
        rw [ih _ _ h]
        congr 1
        simp; omega
      | _ => exact absurd (congrArg Prod.fst h) (by
          show (FM.bind _ _ m1).1 ≠ _
          simp [FM.bind, hs])
    | _ => exact absurd (congrArg Prod.fst h) (by
        show (FM.bind _ _ m).1 ≠ _
        simp [FM.bind, hc])

theorem fillVars_bad (good rest : List (List (Option Nat))) (bad : List (Option Nat))
    (hk : ∀ ps ∈ good, (storeTypes ps).2 = true) (hb : (storeTypes bad).2 = false) (A : AHeap) (m : FMem)
    (hm : m.arrays = A ++ [⟨true, .vars (List.replicate (good.length + (rest.length + 1)) none)⟩]) :
    fillVars A.length 0 (good ++ bad :: rest) m = (.throw .lisp, { m with arrays :=
      A ++ ⟨true, .vars (cVarEntries (A.length + 1) good ++ List.replicate (rest.length + 1) none)⟩ ::
          (good.map (typeBlock true) ++ [typeBlock true bad]) }) := by
  have h1 := fillVars_ok good hk A [] [] (rest.length + 1) m (by simpa using hm)
  simp only [List.length_nil, List.nil_append, Nat.add_zero] at h1
  rw [fillVars_append _ _ _ _ _ h1]
  simp only [fillVars]
  rw [FM.bind_throw (createTypes_bad hb _)]
  simp

/-- The free variables as they are in memory between construction and cleanup. -/
structure VarsAt (m : FMem) (A C : AHeap) (pss : List (List (Option Nat))) : Prop where
  eq : m.arrays = A ++ ⟨true, .vars (cVarEntries (A.length + 1) pss)⟩ :: (pss.map (typeBlock true) ++ C)

theorem cVarEntries_get (pss : List (List (Option Nat))) (base i : Nat) :
    (cVarEntries base pss)[i]? = (pss[i]?).map fun ps => some (BitVec.ofNat 32 ps.length, base + i) := by
  induction pss generalizing base i with
  | nil => simp [cVarEntries]
  | cons ps pss ih =>
    cases i with
    | zero => simp [cVarEntries]
    | succ i =>
      simp only [cVarEntries, List.getElem?_cons_succ, ih]
      congr 1
      funext x
      congr 2
      omega

theorem readVar_ok {m : FMem} {A C : AHeap} {pss : List (List (Option Nat))} (h : VarsAt m A C pss) {i : Nat}
    {ps : List (Option Nat)} (hi : pss[i]? = some ps) (hk : (storeTypes ps).2 = true) (hl : ps.length < 2 ^ 32) :
    readVar A.length i m = (.ok (storeTypes ps).1, m) := by
  unfold readVar
  rw [FM.bind_ok (FM.array_ok (d := .vars (cVarEntries (A.length + 1) pss)) (by rw [h.eq, getElem?_mid]))]
  simp only [cVarEntries_get, hi, Option.map_some]
  have hlt : i < pss.length := (List.getElem?_eq_some_iff.mp hi).1
  have hb : m.arrays[A.length + 1 + i]? = some (typeBlock true ps) := by
    rw [h.eq, List.getElem?_append_right (by omega),
      show A.length + 1 + i - A.length = i + 1 by omega, List.getElem?_cons_succ,
      List.getElem?_append_left (by simpa using hlt), List.getElem?_map, hi]
    rfl
  rw [FM.bind_ok (FM.array_ok (d := .types (storeTypes ps).1) hb)]
  have hn : (BitVec.ofNat 32 ps.length).toNat = (storeTypes ps).1.length := by
    rw [BitVec.toNat_ofNat, Nat.mod_eq_of_lt hl, storeTypes_length hk]
  simp only [hn, Nat.le_refl, if_true, List.take_length, FM.pure_apply]

theorem readVars_ok {m : FMem} {A C : AHeap} {pss : List (List (Option Nat))} (h : VarsAt m A C pss)
    (hk : ∀ ps ∈ pss, (storeTypes ps).2 = true) (hl : ∀ ps ∈ pss, ps.length < 2 ^ 32) :
    ∀ (n i : Nat), i + n = pss.length →
      readVars A.length i n m = (.ok ((pss.drop i).map fun ps => (storeTypes ps).1), m) := by
  intro n
  induction n with
  | zero =>
    intro i hi
    rw [List.drop_eq_nil_of_le (by omega)]
    rfl
  | succ n ih =>
    intro i hi
    have hlt : i < pss.length := by omega
    have hget : pss[i]? = some pss[i] := List.getElem?_eq_getElem hlt
    have hmem : pss[i] ∈ pss := List.getElem_mem hlt
    simp only [readVars]
    rw [FM.bind_ok (readVar_ok h hget (hk _ hmem) (hl _ hmem)), FM.bind_ok (ih (i + 1) (by omega))]
    rw [List.drop_eq_getElem_cons hlt]
    rfl

theorem freeVarTypes_ok (A : AHeap) (pss : List (List (Option Nat))) :
    ∀ (todo done : List (List (Option Nat))) (C : AHeap) (m : FMem), done ++ todo = pss →
      m.arrays = A ++ ⟨true, .vars (cVarEntries (A.length + 1) pss)⟩ ::
        (done.map (typeBlock false) ++ (todo.map (typeBlock true) ++ C)) →
      freeVarTypesM A.length done.length todo.length m = (.ok (), { m with arrays :=
        A ++ ⟨true, .vars (cVarEntries (A.length + 1) pss)⟩ :: (pss.map (typeBlock false) ++ C) }) := by
  intro todo
  induction todo with
  | nil =>
    intro done C m hd hm
    simp only [List.append_nil] at hd
    subst hd
    simp only [List.map_nil, List.nil_append] at hm
    simp only [List.length_nil, freeVarTypesM, FM.pure_apply]
    rw [← hm]
  | cons ps todo ih =>
    intro done C m hd hm
    simp only [List.length_cons, freeVarTypesM]
    rw [FM.bind_ok (FM.array_ok (d := .vars (cVarEntries (A.length + 1) pss)) (by rw [hm, getElem?_mid]))]
    have hget : pss[done.length]? = some ps := by rw [← hd]; exact getElem?_mid _ _ _
    simp only [cVarEntries_get, hget, Option.map_some]
    have e : m.arrays = (A ++ ⟨true, .vars (cVarEntries (A.length + 1) pss)⟩ :: done.map (typeBlock false)) ++
        typeBlock true ps :: (todo.map (typeBlock true) ++ C) := by
      rw [hm]; simp
    have hlen : (A ++ ⟨true, .vars (cVarEntries (A.length + 1) pss)⟩ :: done.map (typeBlock false) : AHeap).length =
        A.length + 1 + done.length := by simp; omega
    have hb : m.arrays[A.length + 1 + done.length]? = some ⟨true, .types (storeTypes ps).1⟩ := by
      rw [e, ← hlen, getElem?_mid]; rfl
    rw [FM.bind_ok (FM.free_ok hb)]
    have := ih (done ++ [ps]) C
      { m with arrays := m.arrays.set (A.length + 1 + done.length) ⟨false, .types (storeTypes ps).1⟩ }
      (by rw [← hd]; simp) (by
        simp only
        rw [e, ← hlen, set_mid]
        simp [typeBlock])
    simp only [List.length_append, List.length_cons, List.length_nil, Nat.zero_add] at this
    exact this

/-- All blocks of types are in use. -/
theorem typeBlocks_live (l : List (List (Option Nat))) :
    ((l.map (typeBlock true)).filter (·.live)).length = l.length := by
  rw [List.filter_eq_self.mpr (by
    intro b hb
    obtain ⟨x, _, rfl⟩ := List.mem_map.mp hb
    rfl), List.length_map]

end TraceDB
