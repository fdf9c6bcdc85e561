import Verif.Spec.AddMemory
import Verif.Proofs.ArchiveDb
/-
Lemmas for C92.
-/
namespace TraceDB

theorem lispInVar_ok {names : List (List U8)} {v : LVar} (hn : names.length ≤ 2 ^ 32) :
    (v.Storable → ∃ x, lispInVar names v = .ok x) ∧ (¬ v.Storable → lispInVar names v = .throw .lisp) := by
  obtain ⟨name, type, value, size⟩ := v
  unfold LVar.Storable lispInVar
  cases value with
  | int i =>
    by_cases h : 0 ≤ i ∧ i < 2 ^ 64 ∧ size.getD 0 < 2 ^ 64 ∧ names.length ≤ 2 ^ 32
    · refine ⟨fun _ => ⟨_, if_pos h⟩, fun hs => absurd ⟨⟨i.toNat, by omega, ?_⟩, ?_⟩ hs⟩
      · show LValue.int i = .int (i.toNat : Int)
        rw [Int.toNat_of_nonneg h.1]
      · intro z hz
        have hz : size = some z := hz
        have := h.2.2.1
        rw [hz] at this
        exact this
    · refine ⟨?_, fun _ => if_neg h⟩
      rintro ⟨⟨j, hj, e⟩, hz⟩
      have e : LValue.int i = .int (j : Int) := e
      injection e with e
      refine absurd ⟨by omega, by omega, ?_, hn⟩ h
      cases size with
      | none => simp
      | some z => exact hz z rfl
  | single _ => exact ⟨fun h => (by obtain ⟨⟨_, _, e⟩, _⟩ := h; cases e), fun _ => rfl⟩
  | double _ => exact ⟨fun h => (by obtain ⟨⟨_, _, e⟩, _⟩ := h; cases e), fun _ => rfl⟩
  | blob _ => exact ⟨fun h => (by obtain ⟨⟨_, _, e⟩, _⟩ := h; cases e), fun _ => rfl⟩

theorem Storable.numeric {v : LVar} (h : v.Storable) : v.Numeric := by
  obtain ⟨⟨i, _, e⟩, _⟩ := h
  intro b hb
  rw [e] at hb
  cases hb

/-- The lists made for variables that can be stored. -/
theorem apVars_storable {names : List (List U8)} (hn : names.length ≤ 2 ^ 32) (vs : List LVar)
    (h : ∀ v ∈ vs, v.Storable) :
    ∃ xs : List InVar, xs.length = vs.length ∧ lispInVars names vs = .ok xs ∧ apVars names vs = .ok (xs.map some) := by
  induction vs with
  | nil => exact ⟨[], rfl, rfl, rfl⟩
  | cons v vs ih =>
    obtain ⟨xs, h1, h2, h3⟩ := ih fun w hw => h w (List.mem_cons_of_mem _ hw)
    have hv := h v List.mem_cons_self
    obtain ⟨x, hx⟩ := (lispInVar_ok hn).1 hv
    refine ⟨x :: xs, by simp [h1], ?_, ?_⟩
    · simp only [lispInVars, hx, Res.ok_bind, h2]
      rfl
    · have : apVar names v = .ok (some x) := by
        unfold apVar
        rw [hx]
        obtain ⟨⟨i, _, e⟩, _⟩ := hv
        rw [e]
      simp only [apVars, this, Res.ok_bind, h3]
      rfl

/-- Variables one of which is no number. -/
theorem apVars_not_numeric {names : List (List U8)} (vs : List LVar) (h : ∃ v ∈ vs, ¬ v.Numeric) :
    apVars names vs = .throw .lisp := by
  have hv : ∀ v : LVar, (¬ v.Numeric → apVar names v = .throw .lisp) ∧
      (v.Numeric → ∃ x, apVar names v = .ok x) := by
    intro v
    unfold apVar LVar.Numeric
    cases v.value with
    | blob b => exact ⟨fun _ => rfl, fun h => absurd rfl (h b)⟩
    | int i =>
      refine ⟨fun h => absurd (fun b e => by cases e) h, fun _ => ?_⟩
      cases lispInVar names v <;> exact ⟨_, rfl⟩
    | single i =>
      refine ⟨fun h => absurd (fun b e => by cases e) h, fun _ => ?_⟩
      cases lispInVar names v <;> exact ⟨_, rfl⟩
    | double i =>
      refine ⟨fun h => absurd (fun b e => by cases e) h, fun _ => ?_⟩
      cases lispInVar names v <;> exact ⟨_, rfl⟩
  induction vs with
  | nil => obtain ⟨_, h, _⟩ := h; cases h
  | cons v vs ih =>
    by_cases hn : v.Numeric
    · obtain ⟨x, hx⟩ := (hv v).2 hn
      obtain ⟨w, hw, hb⟩ := h
      rcases List.mem_cons.mp hw with rfl | hw
      · exact absurd hn hb
      · simp only [apVars, hx, Res.ok_bind, ih ⟨w, hw, hb⟩]
        rfl
    · simp only [apVars, (hv v).1 hn]
      rfl

/-- Variables which are numbers but cannot all be stored. -/
theorem apVars_numeric {names : List (List U8)} (hn : names.length ≤ 2 ^ 32) (vs : List LVar)
    (h : ∀ v ∈ vs, v.Numeric) (hb : ∃ v ∈ vs, ¬ v.Storable) :
    ∃ cells : List (Option InVar), cells.length = vs.length ∧ apVars names vs = .ok cells ∧
      cells.all Option.isSome = false := by
  have one : ∀ v : LVar, v.Numeric → ∃ x, apVar names v = .ok x ∧ (¬ v.Storable → x = none) := by
    intro v hv
    unfold apVar
    by_cases hs : v.Storable
    · obtain ⟨x, hx⟩ := (lispInVar_ok hn).1 hs
      rw [hx]
      cases e : v.value with
      | blob b => exact absurd e (hv b)
      | int _ => exact ⟨_, rfl, fun h => absurd hs h⟩
      | single _ => exact ⟨_, rfl, fun h => absurd hs h⟩
      | double _ => exact ⟨_, rfl, fun h => absurd hs h⟩
    · rw [(lispInVar_ok hn).2 hs]
      cases e : v.value with
      | blob b => exact absurd e (hv b)
      | int _ => exact ⟨_, rfl, fun _ => rfl⟩
      | single _ => exact ⟨_, rfl, fun _ => rfl⟩
      | double _ => exact ⟨_, rfl, fun _ => rfl⟩
  have all : ∀ vs : List LVar, (∀ v ∈ vs, v.Numeric) → ∃ cells : List (Option InVar), cells.length = vs.length ∧
      apVars names vs = .ok cells ∧ ((∃ v ∈ vs, ¬ v.Storable) → none ∈ cells) := by
    intro vs
    induction vs with
    | nil => intro _; exact ⟨[], rfl, rfl, fun ⟨_, h, _⟩ => by cases h⟩
    | cons v vs ih =>
      intro h
      obtain ⟨cells, h1, h2, h3⟩ := ih fun w hw => h w (List.mem_cons_of_mem _ hw)
      obtain ⟨x, hx, hx'⟩ := one v (h v List.mem_cons_self)
      refine ⟨x :: cells, by simp [h1], ?_, ?_⟩
      · simp only [apVars, hx, Res.ok_bind, h2]
        rfl
      · rintro ⟨w, hw, hs⟩
        rcases List.mem_cons.mp hw with rfl | hw
        · rw [hx' hs]; exact List.mem_cons_self
        · exact List.mem_cons_of_mem _ (h3 ⟨w, hw, hs⟩)
  obtain ⟨cells, h1, h2, h3⟩ := all vs h
  refine ⟨cells, h1, h2, ?_⟩
  have := h3 hb
  rw [List.all_eq_false]
  exact ⟨none, this, by simp⟩

theorem apStored_map {α : Type} (xs : List α) : apStored (xs.map some) = xs := by
  induction xs with
  | nil => rfl
  | cons x xs ih => simp [apStored, ih]

theorem lispInVars_throw {names : List (List U8)} (hn : names.length ≤ 2 ^ 32) (vs : List LVar)
    (hb : ∃ v ∈ vs, ¬ v.Storable) : lispInVars names vs = .throw .lisp := by
  induction vs with
  | nil => obtain ⟨_, h, _⟩ := hb; cases h
  | cons v vs ih =>
    by_cases hs : v.Storable
    · obtain ⟨x, hx⟩ := (lispInVar_ok hn).1 hs
      obtain ⟨w, hw, h⟩ := hb
      rcases List.mem_cons.mp hw with rfl | hw
      · exact absurd hs h
      · simp only [lispInVars, hx, Res.ok_bind, ih ⟨w, hw, h⟩]
        rfl
    · simp only [lispInVars, (lispInVar_ok hn).2 hs]
      rfl

/-- What the variables of a point are stored as. -/
def apXs (names : List (List U8)) (p : LPoint) : List InVar :=
  match lispInVars names p.scopes with
  | .ok xs => xs
  | _ => []

/-- The list made for a point whose variables were stored at `b`. -/
def apCell (b : Nat) (p : LPoint) : Option ApPoint :=
  if packId p.f p.c < 2 ^ 64 ∧ p.scopes.length < 2 ^ 32 then
    some ⟨BitVec.ofNat 64 (packId p.f p.c), b, BitVec.ofNat 32 p.scopes.length⟩
  else none

/-- The lists made for points, the first one at `b`. -/
def apCells : Nat → List LPoint → List (Option ApPoint)
  | _, [] => []
  | b, p :: ps => apCell b p :: apCells (b + 1) ps

/-- The block with the variables of a point. -/
def apVarBlock (names : List (List U8)) (p : LPoint) : ApBlock := ⟨true, .vars p.scopes.length (apXs names p)⟩

theorem apCells_length (b : Nat) (ps : List LPoint) : (apCells b ps).length = ps.length := by
  induction ps generalizing b with
  | nil => rfl
  | cons p ps ih => simp [apCells, ih]

theorem apPoint_storable {names : List (List U8)} (hn : names.length ≤ 2 ^ 32) (p : LPoint) (h : ApHeap)
    (hp : ∀ v ∈ p.scopes, v.Storable) :
    apPoint names p h = (.ok (apCell h.length p), h ++ [apVarBlock names p]) := by
  obtain ⟨xs, h1, h2, h3⟩ := apVars_storable hn p.scopes hp
  unfold apPoint
  rw [h3]
  have hall : (xs.map some).all Option.isSome = true := by simp
  simp only [apCreate, hall, if_true, List.length_map, apStored_map, apVarBlock, apXs, h2, apCell, h1]

theorem apPoint_not_numeric {names : List (List U8)} (p : LPoint) (h : ApHeap)
    (hp : ∃ v ∈ p.scopes, ¬ v.Numeric) : apPoint names p h = (.throw .lisp, h) := by
  unfold apPoint
  rw [apVars_not_numeric p.scopes hp]

theorem apPoint_numeric {names : List (List U8)} (hn : names.length ≤ 2 ^ 32) (p : LPoint) (h : ApHeap)
    (hp : ∀ v ∈ p.scopes, v.Numeric) (hb : ∃ v ∈ p.scopes, ¬ v.Storable) :
    ∃ b : ApBlock, b.live = true ∧ apPoint names p h = (.throw .lisp, h ++ [b]) := by
  obtain ⟨cells, _, h2, h3⟩ := apVars_numeric hn p.scopes hp hb
  refine ⟨⟨true, .vars cells.length (apStored cells)⟩, rfl, ?_⟩
  unfold apPoint
  rw [h2]
  simp only [apCreate, h3, Bool.false_eq_true, if_false]

theorem apPoints_storable {names : List (List U8)} (hn : names.length ≤ 2 ^ 32) (ps : List LPoint)
    (hp : ∀ p ∈ ps, ∀ v ∈ p.scopes, v.Storable) : ∀ h : ApHeap,
    apPoints names ps h = (.ok (apCells h.length ps), h ++ ps.map (apVarBlock names)) := by
  induction ps with
  | nil => intro h; simp [apPoints, apCells]
  | cons p ps ih =>
    intro h
    simp only [apPoints, apPoint_storable hn p h (hp p List.mem_cons_self),
      ih (fun q hq => hp q (List.mem_cons_of_mem _ hq)), List.length_append, List.length_singleton, apCells,
      List.map_cons, List.append_assoc, List.singleton_append]

theorem apPoints_prefix {names : List (List U8)} (hn : names.length ≤ 2 ^ 32) (pre : List LPoint) (p : LPoint)
    (post : List LPoint) (hp : ∀ p ∈ pre, ∀ v ∈ p.scopes, v.Storable) : ∀ (h h' : ApHeap),
    apPoint names p (h ++ pre.map (apVarBlock names)) = (.throw .lisp, h') →
    apPoints names (pre ++ p :: post) h = (.throw .lisp, h') := by
  induction pre with
  | nil =>
    intro h h' e
    rw [List.map_nil, List.append_nil] at e
    simp only [List.nil_append, apPoints, e]
  | cons q pre ih =>
    intro h h' e
    have hq := apPoint_storable hn q h (hp q List.mem_cons_self)
    have := ih (fun q hq => hp q (List.mem_cons_of_mem _ hq)) (h ++ [apVarBlock names q]) h' (by
      rw [← e, List.append_assoc]
      rfl)
    simp only [List.cons_append, apPoints, hq, this]

/-- The points as `add_trace_points` gets them. -/
theorem apLispInPoints_eq {names : List (List U8)} (hn : names.length ≤ 2 ^ 32) (ps : List LPoint)
    (hp : ∀ p ∈ ps, ∀ v ∈ p.scopes, v.Storable) (hid : ∀ p ∈ ps, packId p.f p.c < 2 ^ 64) :
    lispInPoints names ps =
      .ok (ps.map fun p => ⟨BitVec.ofNat 64 (packId p.f p.c), apXs names p, []⟩) := by
  induction ps with
  | nil => rfl
  | cons p ps ih =>
    obtain ⟨xs, _, h2, _⟩ := apVars_storable hn p.scopes (hp p List.mem_cons_self)
    have e : lispInPoint names p = .ok ⟨BitVec.ofNat 64 (packId p.f p.c), apXs names p, []⟩ := by
      simp only [lispInPoint, h2, Res.ok_bind, apXs, hid p List.mem_cons_self, if_true]
      rfl
    simp only [lispInPoints, e, Res.ok_bind,
      ih (fun q hq => hp q (List.mem_cons_of_mem _ hq)) (fun q hq => hid q (List.mem_cons_of_mem _ hq))]
    rfl

theorem lispInPoints_throw {names : List (List U8)} (hn : names.length ≤ 2 ^ 32) (ps : List LPoint)
    (hp : ∃ p ∈ ps, (∃ v ∈ p.scopes, ¬ v.Storable) ∨ 2 ^ 64 ≤ packId p.f p.c) :
    lispInPoints names ps = .throw .lisp := by
  have one : ∀ p : LPoint, (∃ x, lispInPoint names p = .ok x) ∨ lispInPoint names p = .throw .lisp := by
    intro p
    by_cases hs : ∀ v ∈ p.scopes, v.Storable
    · obtain ⟨xs, _, h2, _⟩ := apVars_storable hn p.scopes hs
      simp only [lispInPoint, h2, Res.ok_bind]
      split
      · exact .inl ⟨_, rfl⟩
      · exact .inr rfl
    · have : ∃ v ∈ p.scopes, ¬ v.Storable := by
        refine Classical.byContradiction fun hh => hs fun v hv => Classical.byContradiction fun hs' => hh ⟨v, hv, hs'⟩
      right
      simp only [lispInPoint, lispInVars_throw hn p.scopes this]
      rfl
  induction ps with
  | nil => obtain ⟨_, h, _⟩ := hp; cases h
  | cons q ps ih =>
    rcases one q with ⟨x, hx⟩ | hx
    · obtain ⟨p, hmem, hb⟩ := hp
      rcases List.mem_cons.mp hmem with rfl | hmem
      · exfalso
        rcases hb with hb | hb
        · simp only [lispInPoint, lispInVars_throw hn p.scopes hb] at hx
          cases hx
        · simp only [lispInPoint] at hx
          obtain ⟨_, _, h2⟩ := Res.bind_eq_ok.mp hx
          rw [if_neg (by omega)] at h2
          cases h2
      · simp only [lispInPoints, hx, Res.ok_bind, ih ⟨p, hmem, hb⟩]
        rfl
    · simp only [lispInPoints, hx]
      rfl

/-! What C reads -/

theorem apReadVars_eq (b : Nat) (h : ApHeap) (len : Nat) (l : List InVar) (hb : h[b]? = some ⟨true, .vars len l⟩) :
    ∀ (n j : Nat), j + n = l.length → apReadVars b h j n = .ok (l.drop j) := by
  have hbl : apBlock b h = .ok (.vars len l) := by simp [apBlock, hb]
  intro n
  induction n with
  | zero =>
    intro j hj
    rw [List.drop_eq_nil_of_le (by omega)]
    rfl
  | succ n ih =>
    intro j hj
    have hlt : j < l.length := by omega
    simp only [apReadVars, hbl, Res.ok_bind, List.getElem?_eq_getElem hlt, ih (j + 1) (by omega)]
    rw [List.drop_eq_getElem_cons hlt]
    rfl

theorem apReadPoints_eq (b : Nat) (h : ApHeap) (len : Nat) (l : List ApPoint)
    (hb : h[b]? = some ⟨true, .points len l⟩) (read : ApPoint → List InVar)
    (hr : ∀ p ∈ l, apReadVars p.vars h 0 p.nVars.toNat = .ok (read p)) :
    ∀ (n i : Nat), i + n = l.length →
      apReadPoints b h i n = .ok ((l.drop i).map fun p => ⟨p.statement, read p, []⟩) := by
  have hbl : apBlock b h = .ok (.points len l) := by simp [apBlock, hb]
  intro n
  induction n with
  | zero =>
    intro i hi
    rw [List.drop_eq_nil_of_le (by omega)]
    rfl
  | succ n ih =>
    intro i hi
    have hlt : i < l.length := by omega
    simp only [apReadPoints, hbl, Res.ok_bind, List.getElem?_eq_getElem hlt, hr _ (List.getElem_mem hlt),
      ih (i + 1) (by omega)]
    rw [List.drop_eq_getElem_cons hlt]
    rfl

theorem cStr_nul (n : List U8) : cStr (n ++ [0]) = cStr n := by
  unfold cStr
  induction n with
  | nil => simp
  | cons a n ih => simp only [List.cons_append, List.takeWhile_cons, ih]

theorem apReadNames_eq (b : Nat) (h : ApHeap) (names : List (List U8)) (l : List Nat)
    (hb : h[b]? = some ⟨true, .strings l⟩)
    (hs : ∀ (i : Nat) (n : List U8), names[i]? = some n → ∃ c, l[i]? = some c ∧ h[c]? = some ⟨true, .text (n ++ [0])⟩) :
    ∀ (n i : Nat), i + n = names.length → apReadNames b h i n = .ok ((names.drop i).map cStr) := by
  have hbl : apBlock b h = .ok (.strings l) := by simp [apBlock, hb]
  intro n
  induction n with
  | zero =>
    intro i hi
    rw [List.drop_eq_nil_of_le (by omega)]
    rfl
  | succ n ih =>
    intro i hi
    have hlt : i < names.length := by omega
    obtain ⟨c, hc, ht⟩ := hs i _ (List.getElem?_eq_getElem hlt)
    have hstr : apString c h = .ok (cStr names[i]) := by
      simp only [apString, apBlock, ht, if_true, Res.ok_bind, cStr_nul]
      simp [pure]
    simp only [apReadNames, hbl, Res.ok_bind, hc, hstr, ih (i + 1) (by omega)]
    rw [List.drop_eq_getElem_cons hlt]
    rfl

/-- The points as they are stored. -/
def apStoredPoints : Nat → List LPoint → List ApPoint
  | _, [] => []
  | b, p :: ps => ⟨BitVec.ofNat 64 (packId p.f p.c), b, BitVec.ofNat 32 p.scopes.length⟩ :: apStoredPoints (b + 1) ps

theorem apCells_fit (ps : List LPoint) (h : ∀ p ∈ ps, packId p.f p.c < 2 ^ 64 ∧ p.scopes.length < 2 ^ 32) :
    ∀ b, apCells b ps = (apStoredPoints b ps).map some := by
  induction ps with
  | nil => intro b; rfl
  | cons p ps ih =>
    intro b
    simp only [apCells, apCell, h p List.mem_cons_self, and_self, if_true, apStoredPoints, List.map_cons,
      ih (fun q hq => h q (List.mem_cons_of_mem _ hq))]

theorem apStoredPoints_length (b : Nat) (ps : List LPoint) : (apStoredPoints b ps).length = ps.length := by
  induction ps generalizing b with
  | nil => rfl
  | cons p ps ih => simp [apStoredPoints, ih]

theorem apStoredPoints_mem (ps : List LPoint) : ∀ (b : Nat) (x : ApPoint), x ∈ apStoredPoints b ps →
    ∃ (i : Nat) (p : LPoint), ps[i]? = some p ∧
      x = ⟨BitVec.ofNat 64 (packId p.f p.c), b + i, BitVec.ofNat 32 p.scopes.length⟩ := by
  induction ps with
  | nil => intro b x hx; cases hx
  | cons p ps ih =>
    intro b x hx
    rcases List.mem_cons.mp hx with rfl | hx
    · exact ⟨0, p, rfl, rfl⟩
    · obtain ⟨i, q, hq, e⟩ := ih (b + 1) x hx
      exact ⟨i + 1, q, hq, by rw [e]; congr 1; omega⟩

theorem apXs_length {names : List (List U8)} (hn : names.length ≤ 2 ^ 32) (p : LPoint)
    (h : ∀ v ∈ p.scopes, v.Storable) : (apXs names p).length = p.scopes.length := by
  obtain ⟨xs, h1, h2, _⟩ := apVars_storable hn p.scopes h
  simp only [apXs, h2, h1]

/-- The blocks made for points that can be added. -/
def apNew (trace : List LPoint) (at_ : Nat) : List ApBlock :=
  let names := lispAddNames trace
  trace.map (apVarBlock names) ++ [⟨true, .points trace.length (apStoredPoints at_ trace)⟩] ++
    ⟨true, .strings ((List.range names.length).map fun i => at_ + trace.length + 2 + i)⟩ ::
    names.map fun n => ⟨true, .text (n ++ [0])⟩

theorem addPointsM_ok {μ : Type} (grow : Nat → Nat) (env : Env) (d : LispDb μ) (trace : List LPoint) (m : μ)
    (h : ApHeap) (hc : ApCounts trace) (hs : ∀ p ∈ trace, ∀ v ∈ p.scopes, v.Storable)
    (hid : ∀ p ∈ trace, packId p.f p.c < 2 ^ 64) :
    d.addPointsM grow env trace m h = (d.addPoints grow env trace m, h ++ apNew trace h.length) := by
  obtain ⟨hn, hv⟩ := hc
  have hfit : ∀ p ∈ trace, packId p.f p.c < 2 ^ 64 ∧ p.scopes.length < 2 ^ 32 := fun p hp => ⟨hid p hp, hv p hp⟩
  unfold LispDb.addPointsM
  simp only [apPoints_storable hn trace hs h, apCells_fit trace hfit]
  have hall : ((apStoredPoints h.length trace).map some).all Option.isSome = true := by simp
  simp only [apCreate, hall, if_true, List.length_map, apStoredPoints_length, apStored_map, apStrings,
    List.length_append, List.length_singleton]
  have hheap : (h ++ List.map (apVarBlock (lispAddNames trace)) trace ++
      [⟨true, .points trace.length (apStoredPoints h.length trace)⟩] ++
      ⟨true, .strings ((List.range (lispAddNames trace).length).map fun i => h.length + trace.length + 1 + 1 + i)⟩ ::
        (lispAddNames trace).map fun n => ⟨true, .text (n ++ [0])⟩) = h ++ apNew trace h.length := by
    simp [apNew, List.append_assoc]
  rw [hheap]
  refine Prod.ext ?_ rfl
  simp only
  -- the points
  have hat : ∀ (i : Nat) (p : LPoint), trace[i]? = some p →
      (h ++ apNew trace h.length)[h.length + i]? = some (apVarBlock (lispAddNames trace) p) := by
    intro i p hp
    have hlt := (List.getElem?_eq_some_iff.mp hp).1
    rw [List.getElem?_append_right (by omega), Nat.add_sub_cancel_left]
    unfold apNew
    rw [List.append_assoc, List.getElem?_append_left (by simpa using hlt), List.getElem?_map, hp]
    rfl
  have hpts : (h ++ apNew trace h.length)[h.length + trace.length]? =
      some ⟨true, .points trace.length (apStoredPoints h.length trace)⟩ := by
    rw [List.getElem?_append_right (by omega), Nat.add_sub_cancel_left]
    unfold apNew
    rw [List.append_assoc, List.getElem?_append_right (by simp)]
    simp
  have hstr : (h ++ apNew trace h.length)[h.length + trace.length + 1]? =
      some ⟨true, .strings ((List.range (lispAddNames trace).length).map fun i => h.length + trace.length + 2 + i)⟩ := by
    rw [List.getElem?_append_right (by omega), show h.length + trace.length + 1 - h.length = trace.length + 1 by omega]
    unfold apNew
    rw [List.getElem?_append_right (by simp)]
    simp
  have htext : ∀ (i : Nat) (n : List U8), (lispAddNames trace)[i]? = some n →
      (h ++ apNew trace h.length)[h.length + trace.length + 2 + i]? = some ⟨true, .text (n ++ [0])⟩ := by
    intro i n hi
    rw [List.getElem?_append_right (by omega),
      show h.length + trace.length + 2 + i - h.length = trace.length + 1 + (i + 1) by omega]
    unfold apNew
    rw [List.getElem?_append_right (by simp)]
    simp only [List.length_append, List.length_map, List.length_singleton, Nat.add_sub_cancel_left,
      List.getElem?_cons_succ, List.getElem?_map, hi, Option.map_some]
  generalize h ++ apNew trace h.length = H at *
  have hvars : ∀ x ∈ apStoredPoints h.length trace, ∀ read : ApPoint → List InVar,
      (∀ (i : Nat) (p : LPoint), trace[i]? = some p →
        read ⟨BitVec.ofNat 64 (packId p.f p.c), h.length + i, BitVec.ofNat 32 p.scopes.length⟩ =
          apXs (lispAddNames trace) p) →
      apReadVars x.vars H 0 x.nVars.toNat = .ok (read x) := by
    intro x hx read hread
    obtain ⟨i, p, hp, rfl⟩ := apStoredPoints_mem trace h.length x hx
    have hmem := List.mem_of_getElem? hp
    rw [hread i p hp]
    have hlen := apXs_length hn p (hs p hmem)
    have hnv : (BitVec.ofNat 32 p.scopes.length).toNat = p.scopes.length := by
      rw [BitVec.toNat_ofNat]; exact Nat.mod_eq_of_lt (hv p hmem)
    simp only [hnv]
    rw [apReadVars_eq _ H p.scopes.length (apXs (lispAddNames trace) p) (hat i p hp) _ 0 (by omega)]
    rfl
  -- a function giving the variables of a stored point
  let read : ApPoint → List InVar := fun x =>
    match trace[x.vars - h.length]? with
    | some p => apXs (lispAddNames trace) p
    | none => []
  have hread : ∀ (i : Nat) (p : LPoint), trace[i]? = some p →
      read ⟨BitVec.ofNat 64 (packId p.f p.c), h.length + i, BitVec.ofNat 32 p.scopes.length⟩ =
        apXs (lispAddNames trace) p := by
    intro i p hp
    simp only [read, Nat.add_sub_cancel_left, hp]
  have hps := apReadPoints_eq (h.length + trace.length) H trace.length _ hpts read
    (fun x hx => hvars x hx read hread) trace.length 0 (by rw [apStoredPoints_length]; omega)
  have hns := apReadNames_eq (h.length + trace.length + 1) H (lispAddNames trace) _ hstr
    (fun i n hi => ⟨h.length + trace.length + 2 + i, by
      rw [List.getElem?_map, List.getElem?_range (List.getElem?_eq_some_iff.mp hi).1]; rfl, htext i n hi⟩)
    (lispAddNames trace).length 0 (by omega)
  rw [hps, hns]
  simp only [Res.ok_bind, List.drop_zero]
  unfold LispDb.addPoints
  simp only [apLispInPoints_eq hn trace hs hid, Res.ok_bind]
  congr 2
  -- what is read is what was meant
  have : ∀ (ps : List LPoint) (k : Nat), (∀ (i : Nat) (p : LPoint), ps[i]? = some p → trace[k + i]? = some p) →
      (apStoredPoints (h.length + k) ps).map (fun p => (⟨p.statement, read p, []⟩ : InPoint)) =
      ps.map fun p => ⟨BitVec.ofNat 64 (packId p.f p.c), apXs (lispAddNames trace) p, []⟩ := by
    intro ps
    induction ps with
    | nil => intro k _; rfl
    | cons p ps ih =>
      intro k hk
      have h0 := hk 0 p rfl
      rw [Nat.add_zero] at h0
      simp only [apStoredPoints, List.map_cons, hread k p h0]
      congr 1
      have := ih (k + 1) (fun i q hq => by rw [Nat.add_assoc, Nat.add_comm 1]; exact hk (i + 1) q hq)
      rw [← Nat.add_assoc] at this
      exact this
  have := this trace 0 (fun i p hp => by rw [Nat.zero_add]; exact hp)
  rw [Nat.add_zero] at this
  rw [this]

theorem apNew_live (trace : List LPoint) (b : Nat) : ∀ x ∈ apNew trace b, x.live = true := by
  intro x hx
  simp only [apNew, List.mem_append, List.mem_cons, List.mem_map, List.not_mem_nil, or_false] at hx
  rcases hx with (⟨p, _, rfl⟩ | rfl) | rfl | ⟨n, _, rfl⟩ <;> rfl

theorem apNew_length (trace : List LPoint) (b : Nat) : (apNew trace b).length = apBlocksOf trace := by
  simp only [apNew, apBlocksOf, List.length_append, List.length_map, List.length_cons, List.length_nil]
  omega

theorem apNew_bytes (abi : Abi) (trace : List LPoint) (b : Nat) :
    apBytes abi (apNew trace b) = apBytesOf abi trace := by
  have h1 : ∀ (names : List (List U8)) (ps : List LPoint),
      ((ps.map (apVarBlock names)).map (ApBlock.bytes abi)).sum + ps.length * abi.sizePoint =
        (ps.map fun p => p.scopes.length * abi.sizeVar + abi.sizePoint).sum := by
    intro names ps
    induction ps with
    | nil => simp
    | cons p ps ih =>
      simp only [List.map_cons, List.sum_cons, List.length_cons, ← ih, Nat.add_mul, Nat.one_mul]
      simp only [ApBlock.bytes, apVarBlock]
      omega
  have h2 : ∀ names : List (List U8),
      names.length * abi.ptr.1 + ((names.map fun n => (⟨true, .text (n ++ [0])⟩ : ApBlock)).map (ApBlock.bytes abi)).sum =
        (names.map fun n => n.length + 1 + abi.ptr.1).sum := by
    intro names
    induction names with
    | nil => simp
    | cons n names ih =>
      simp only [List.map_cons, List.sum_cons, List.length_cons, ← ih, Nat.add_mul, Nat.one_mul]
      simp only [ApBlock.bytes, List.length_append, List.length_singleton]
      omega
  unfold apBytes apBytesOf apNew
  rw [← h1 (lispAddNames trace) trace, ← h2]
  simp only [List.map_append, List.map_cons, List.map_nil, List.sum_append, List.sum_cons, List.sum_nil]
  have e1 : ApBlock.bytes abi ⟨true, .points trace.length (apStoredPoints b trace)⟩ = trace.length * abi.sizePoint := rfl
  have e2 : ApBlock.bytes abi ⟨true, .strings ((List.range (lispAddNames trace).length).map
      fun i => b + trace.length + 2 + i)⟩ = (lispAddNames trace).length * abi.ptr.1 := by
    simp [ApBlock.bytes]
  rw [e1, e2]
  omega

theorem addPoints_throw {μ : Type} (grow : Nat → Nat) (env : Env) (d : LispDb μ) (trace : List LPoint) (m : μ)
    (hc : ApCounts trace)
    (h : ∃ p ∈ trace, (∃ v ∈ p.scopes, ¬ v.Storable) ∨ 2 ^ 64 ≤ packId p.f p.c) :
    d.addPoints grow env trace m = .throw .lisp := by
  unfold LispDb.addPoints
  simp only [lispInPoints_throw hc.1 trace h]
  rfl

theorem addPoints_ok {μ : Type} (grow : Nat → Nat) (env : Env) (d d' : LispDb μ) (trace : List LPoint) (m : μ)
    (hc : ApCounts trace) (e : d.addPoints grow env trace m = .ok d') :
    (∀ p ∈ trace, ∀ v ∈ p.scopes, v.Storable) ∧ ∀ p ∈ trace, packId p.f p.c < 2 ^ 64 := by
  refine ⟨fun p hp v hv => Classical.byContradiction fun hs => ?_, fun p hp => Classical.byContradiction fun hs => ?_⟩
  · rw [addPoints_throw grow env d trace m hc ⟨p, hp, .inl ⟨v, hv, hs⟩⟩] at e
    cases e
  · rw [addPoints_throw grow env d trace m hc ⟨p, hp, .inr (by omega)⟩] at e
    cases e

theorem addPointsM_not_numeric {μ : Type} (grow : Nat → Nat) (env : Env) (d : LispDb μ) (pre : List LPoint) (p : LPoint)
    (post : List LPoint) (m : μ) (h : ApHeap) (hc : ApCounts (pre ++ p :: post))
    (hs : ∀ p ∈ pre, ∀ v ∈ p.scopes, v.Storable) (hb : ∃ v ∈ p.scopes, ¬ v.Numeric) :
    d.addPointsM grow env (pre ++ p :: post) m h =
      (.throw .lisp, h ++ pre.map (apVarBlock (lispAddNames (pre ++ p :: post)))) := by
  unfold LispDb.addPointsM
  simp only [apPoints_prefix hc.1 pre p post hs h _ (apPoint_not_numeric p _ hb)]

theorem addPointsM_numeric {μ : Type} (grow : Nat → Nat) (env : Env) (d : LispDb μ) (pre : List LPoint) (p : LPoint)
    (post : List LPoint) (m : μ) (h : ApHeap) (hc : ApCounts (pre ++ p :: post))
    (hs : ∀ p ∈ pre, ∀ v ∈ p.scopes, v.Storable) (hn : ∀ v ∈ p.scopes, v.Numeric) (hb : ∃ v ∈ p.scopes, ¬ v.Storable) :
    ∃ b : ApBlock, b.live = true ∧ d.addPointsM grow env (pre ++ p :: post) m h =
      (.throw .lisp, h ++ (pre.map (apVarBlock (lispAddNames (pre ++ p :: post))) ++ [b])) := by
  obtain ⟨b, hl, e⟩ := apPoint_numeric hc.1 p (h ++ pre.map (apVarBlock (lispAddNames (pre ++ p :: post)))) hn hb
  refine ⟨b, hl, ?_⟩
  unfold LispDb.addPointsM
  simp only [apPoints_prefix hc.1 pre p post hs h _ e, List.append_assoc]

theorem addPointsM_statement {μ : Type} (grow : Nat → Nat) (env : Env) (d : LispDb μ) (trace : List LPoint) (m : μ)
    (h : ApHeap) (hc : ApCounts trace) (hs : ∀ p ∈ trace, ∀ v ∈ p.scopes, v.Storable)
    (hb : ∃ p ∈ trace, 2 ^ 64 ≤ packId p.f p.c) :
    ∃ b : ApBlock, b.live = true ∧ d.addPointsM grow env trace m h =
      (.throw .lisp, h ++ (trace.map (apVarBlock (lispAddNames trace)) ++ [b])) := by
  have hcell : ∀ (ps : List LPoint) (k : Nat), (∃ p ∈ ps, 2 ^ 64 ≤ packId p.f p.c) → none ∈ apCells k ps := by
    intro ps
    induction ps with
    | nil => rintro k ⟨_, h, _⟩; cases h
    | cons p ps ih =>
      rintro k ⟨q, hq, hb⟩
      rcases List.mem_cons.mp hq with rfl | hq
      · simp only [apCells, apCell]
        rw [if_neg (by omega)]
        exact List.mem_cons_self
      · exact List.mem_cons_of_mem _ (ih _ ⟨q, hq, hb⟩)
  have hall : (apCells h.length trace).all Option.isSome = false := by
    rw [List.all_eq_false]
    exact ⟨none, hcell trace _ hb, by simp⟩
  refine ⟨⟨true, .points trace.length (apStored (apCells h.length trace))⟩, rfl, ?_⟩
  unfold LispDb.addPointsM
  simp only [apPoints_storable hc.1 trace hs h, apCreate, hall, Bool.false_eq_true, if_false, apCells_length,
    List.append_assoc]

/-- In every case `add-trace-points` with memory has the outcome it has without, and all
it allocated stays. -/
theorem addPointsM_eq {μ : Type} (grow : Nat → Nat) (env : Env) (d : LispDb μ) (trace : List LPoint) (m : μ)
    (h : ApHeap) (hc : ApCounts trace) :
    ∃ new : List ApBlock, d.addPointsM grow env trace m h = (d.addPoints grow env trace m, h ++ new) ∧
      ∀ b ∈ new, b.live = true := by
  have hv : ∀ (ps : List LPoint) (names : List (List U8)), ∀ b ∈ ps.map (apVarBlock names), b.live = true := by
    intro ps names b hb
    obtain ⟨p, _, rfl⟩ := List.mem_map.mp hb
    rfl
  have split : ∀ ps : List LPoint, (∀ p ∈ ps, ∀ v ∈ p.scopes, v.Storable) ∨
      ∃ pre p post, ps = pre ++ p :: post ∧ (∀ p ∈ pre, ∀ v ∈ p.scopes, v.Storable) ∧ ∃ v ∈ p.scopes, ¬ v.Storable := by
    intro ps
    induction ps with
    | nil => exact .inl (fun p hp => by cases hp)
    | cons p ps ih =>
      by_cases hp : ∀ v ∈ p.scopes, v.Storable
      · rcases ih with ih | ⟨pre, q, post, rfl, h1, h2⟩
        · left
          intro q hq
          rcases List.mem_cons.mp hq with rfl | hq
          · exact hp
          · exact ih q hq
        · refine .inr ⟨p :: pre, q, post, rfl, ?_, h2⟩
          intro q hq
          rcases List.mem_cons.mp hq with rfl | hq
          · exact hp
          · exact h1 q hq
      · refine .inr ⟨[], p, ps, rfl, (fun p hp => by cases hp), ?_⟩
        exact Classical.byContradiction fun hh => hp fun v hv => Classical.byContradiction fun hs => hh ⟨v, hv, hs⟩
  rcases split trace with hs | ⟨pre, p, post, rfl, hs, hb⟩
  · by_cases hid : ∀ p ∈ trace, packId p.f p.c < 2 ^ 64
    · exact ⟨_, addPointsM_ok grow env d trace m h hc hs hid, apNew_live _ _⟩
    · have hid : ∃ p ∈ trace, 2 ^ 64 ≤ packId p.f p.c :=
        Classical.byContradiction fun hh => hid fun p hp => Classical.byContradiction fun hs => hh ⟨p, hp, by omega⟩
      obtain ⟨b, hl, e⟩ := addPointsM_statement grow env d trace m h hc hs hid
      obtain ⟨p, hp, hpid⟩ := hid
      refine ⟨_, by rw [e, addPoints_throw grow env d trace m hc ⟨p, hp, .inr hpid⟩], ?_⟩
      intro x hx
      rcases List.mem_append.mp hx with hx | hx
      · exact hv _ _ x hx
      · rw [List.mem_singleton.mp hx]; exact hl
  · have hthrow := addPoints_throw grow env d (pre ++ p :: post) m hc ⟨p, by simp, .inl hb⟩
    by_cases hn : ∀ v ∈ p.scopes, v.Numeric
    · obtain ⟨b, hl, e⟩ := addPointsM_numeric grow env d pre p post m h hc hs hn hb
      refine ⟨_, by rw [e, hthrow], ?_⟩
      intro x hx
      rcases List.mem_append.mp hx with hx | hx
      · exact hv _ _ x hx
      · rw [List.mem_singleton.mp hx]; exact hl
    · have hn : ∃ v ∈ p.scopes, ¬ v.Numeric :=
        Classical.byContradiction fun hh => hn fun v hv => Classical.byContradiction fun hs => hh ⟨v, hv, hs⟩
      exact ⟨_, by rw [addPointsM_not_numeric grow env d pre p post m h hc hs hn, hthrow], hv _ _⟩

theorem serializeDb_nul (version : Nat) (db : Db) : (0 : U8) ∈ serializeDb version db := by
  simp [serializeDb]

theorem storeM_eq {μ : Type} (canAlloc : Nat → Bool) (version : Nat) (d : LispDb μ) (h : ApHeap)
    (ha : canAlloc (serializeDb version d.db).length = true) :
    d.storeM canAlloc version h = (.ok (cStr (serializeDb version d.db), d.metadata),
      h ++ [⟨true, .text (serializeDb version d.db)⟩]) := by
  unfold LispDb.storeM
  have : apString h.length (h ++ [⟨true, .text (serializeDb version d.db)⟩]) =
      .ok (cStr (serializeDb version d.db)) := by
    simp only [apString, apBlock, List.getElem?_concat_length, if_true, Res.ok_bind, serializeDb_nul]
    rfl
  simp only [ha, if_true, List.length_append, List.length_singleton, Nat.add_sub_cancel, this, Res.ok_bind]
  rfl

end TraceDB
