import Verif.Spec.Export
/-
The heap after exporting points, and reading and freeing it.
-/
namespace TraceDB

theorem set_append_left' {α : Type} (l r : List α) (k : Nat) (x : α) (h : k < l.length) :
    (l ++ r).set k x = l.set k x ++ r := by
  rw [List.set_append]; simp [h]

theorem set_append_right' {α : Type} (l r : List α) (k : Nat) (x : α) (h : l.length ≤ k) :
    (l ++ r).set k x = l ++ r.set (k - l.length) x := by
  rw [List.set_append]; simp [Nat.not_lt.mpr h]

/-- Storing elements one after the other. -/
theorem storeAll_fill (k : Nat) (cs : List Cell) (i : Nat) (cells : List (Option Cell)) (h : Heap)
    (hk : h[k]? = some ⟨cells, true⟩) (hi : i + cs.length ≤ cells.length) :
    storeAll (k + 1) i cs h =
      .ok (h.set k ⟨cells.take i ++ cs.map some ++ cells.drop (i + cs.length), true⟩) := by
  induction cs generalizing i cells h with
  | nil =>
    simp only [storeAll, List.map_nil, List.append_nil, List.length_nil, Nat.add_zero, List.take_append_drop]
    congr 1
    apply List.ext_getElem?
    intro j
    rw [List.getElem?_set]
    split
    · rename_i hj; subst hj
      have := (List.getElem?_eq_some_iff.mp hk).1
      simp only [this, if_true, hk]
    · rfl
  | cons c cs ih =>
    simp only [List.length_cons] at hi
    have hlt : i < cells.length := by omega
    have hkl := (List.getElem?_eq_some_iff.mp hk).1
    simp only [storeAll, storeCell, hk, if_true, hlt, Res.ok_bind]
    rw [ih (i + 1) (cells.set i (some c)) _ (by simp [hkl]) (by simp; omega)]
    congr 1
    rw [List.set_set]
    congr 2
    rw [List.take_add_one, List.take_set_of_le (Nat.le_refl _), List.getElem?_set_self hlt,
      List.drop_set_of_lt (by omega), show i + 1 + cs.length = i + (cs.length + 1) by omega]
    simp

/-- Storing a full array. -/
theorem storeAll_full (k : Nat) (cs : List Cell) (cells : List (Option Cell)) (h : Heap)
    (hk : h[k]? = some ⟨cells, true⟩) (hi : cells.length = cs.length) :
    storeAll (k + 1) 0 cs h = .ok (h.set k ⟨cs.map some, true⟩) := by
  rw [storeAll_fill k cs 0 cells h hk (by omega)]
  simp [← hi]

/-- The array of variables that should be exported. -/
def varCells (types : List TypeDesc) (vs : List VarInfo) : List Cell :=
  vs.filterMap fun v => (types[v.typeIndex.toNat]?).map fun ty =>
    .var ⟨v.value, v.format, v.nameIndex, ty.nameIndex, v.size, v.bufferSize, v.hasBufferSize⟩

theorem exportVars_ok (types : List TypeDesc) (vs : List VarInfo)
    (h : ∀ v ∈ vs, v.typeIndex.toNat < types.length) :
    exportVars types vs = .ok (varCells types vs) ∧ (varCells types vs).length = vs.length := by
  induction vs with
  | nil => exact ⟨rfl, rfl⟩
  | cons v vs ih =>
    obtain ⟨h1, h2⟩ := ih (fun w hw => h w (List.mem_cons_of_mem _ hw))
    have hv := h v (List.mem_cons_self ..)
    simp only [exportVars, List.getElem?_eq_getElem hv, h1, Res.ok_bind, Res.pure_eq, varCells,
      List.filterMap_cons, Option.map_some, List.length_cons]
    exact ⟨trivial, by simpa [varCells] using h2⟩

/-- The block of an array; none if the array is empty and empty requests return
`NULL`. -/
def arrayBlocks (ae : AllocEnv) (cs : List Cell) : List Block :=
  if cs.isEmpty ∧ ae.zeroNull = true then [] else [⟨cs.map some, true⟩]

/-- The address of that block when `base` blocks exist. -/
def arrayPtr (ae : AllocEnv) (base : Nat) (cs : List Cell) : Nat :=
  if cs.isEmpty ∧ ae.zeroNull = true then 0 else base + 1

/-- Blocks of a point. -/
def pointBlocks (ae : AllocEnv) (types : List TypeDesc) (p : Point) : List Block :=
  arrayBlocks ae (varCells types p.vars) ++ arrayBlocks ae (p.aux.map .word)

/-- The structure of a point when `base` blocks exist. -/
def cpointOf (ae : AllocEnv) (types : List TypeDesc) (base : Nat) (p : Point) : CPoint :=
  ⟨p.statement, arrayPtr ae base (varCells types p.vars), BitVec.ofNat 32 p.vars.length,
    arrayPtr ae (base + (arrayBlocks ae (varCells types p.vars)).length) (p.aux.map .word),
    BitVec.ofNat 32 p.aux.length⟩

/-- Allocating and filling an array. -/
theorem alloc_eq (ae : AllocEnv) (size : Nat) (hs : 0 < size) (n : Nat) (init : Option Cell) (h : Heap)
    (hal : ae.canAlloc (n * size) = true) :
    allocBlock ae (n * size) size init h =
      if n = 0 ∧ ae.zeroNull = true then (0, h)
      else (h.length + 1, h ++ [⟨List.replicate n init, true⟩]) := by
  unfold allocBlock
  have h0 : n * size = 0 ↔ n = 0 := by
    constructor
    · intro e; rcases Nat.mul_eq_zero.mp e with e | e
      · exact e
      · omega
    · rintro rfl; simp
  simp only [h0, hal, if_true, Nat.mul_div_cancel _ hs]

theorem exportPoint_eq (abi : Abi) (ae : AllocEnv) (types : List TypeDesc) (k i : Nat) (p : Point) (h : Heap)
    (cells : List (Option Cell)) (hsz : 0 < abi.sizeVar) (hk : h[k]? = some ⟨cells, true⟩) (hi : i < cells.length)
    (hty : ∀ v ∈ p.vars, v.typeIndex.toNat < types.length)
    (hal1 : ae.canAlloc (p.vars.length * abi.sizeVar) = true) (hal2 : ae.canAlloc (p.aux.length * 8) = true) :
    exportPoint abi ae types (k + 1) i p h =
      .ok (h.set k ⟨cells.set i (some (.point (cpointOf ae types h.length p))), true⟩ ++
        pointBlocks ae types p) := by
  obtain ⟨hv1, hv2⟩ := exportVars_ok types p.vars hty
  have hkl := (List.getElem?_eq_some_iff.mp hk).1
  have hvz : p.vars.length = 0 ↔ (varCells types p.vars).isEmpty = true := by
    rw [← hv2]; simp
  have haz : p.aux.length = 0 ↔ (p.aux.map Cell.word).isEmpty = true := by simp
  unfold exportPoint
  rw [alloc_eq ae _ hsz _ _ _ hal1]
  unfold pointBlocks arrayBlocks cpointOf arrayPtr
  by_cases hz : p.vars.length = 0 ∧ ae.zeroNull = true
  · -- no block for the variables
    have hz' : (varCells types p.vars).isEmpty = true ∧ ae.zeroNull = true := ⟨hvz.mp hz.1, hz.2⟩
    have hnil : varCells types p.vars = [] := by simpa using hz'.1
    simp only [hz, and_self, if_true, arrayBlocks, List.nil_append]
    rw [alloc_eq ae 8 (by decide) _ _ _ hal2]
    by_cases hz2 : p.aux.length = 0 ∧ ae.zeroNull = true
    · have hnil2 : p.aux = [] := by simpa using hz2.1
      simp only [hz2, if_true, storeCell, hk, hi, Res.ok_bind, hnil2, List.map_nil, storeAll, hv1, hnil,
        List.isEmpty_nil, and_self, List.append_nil, List.length_nil, hz]
    · have hz2' : ¬ ((p.aux.map Cell.word).isEmpty = true ∧ ae.zeroNull = true) := by rwa [← haz]
      have hka : (h ++ [(⟨List.replicate p.aux.length (some (Cell.word 0)), true⟩ : Block)])[k]? = some ⟨cells, true⟩ := by
        rw [List.getElem?_append_left hkl]; exact hk
      have hn2 : ¬ p.aux.length = 0 := fun e => hz2 ⟨e, hz.2⟩
      have hn2' : (p.aux.map Cell.word).isEmpty = false := by
        cases he : (p.aux.map Cell.word).isEmpty
        · rfl
        · exact absurd (haz.mpr he) hn2
      simp only [hn2, hn2', false_and, Bool.false_eq_true, if_false, storeCell, hka, if_true, hi, Res.ok_bind, hnil,
        List.isEmpty_nil, hz, and_self, List.length_nil, Nat.add_zero]
      rw [set_append_left' _ _ _ _ hkl,
        storeAll_full h.length _ (List.replicate p.aux.length (some (Cell.word 0))) _ (by simp) (by simp)]
      simp only [Res.ok_bind, hv1, hnil, storeAll]
      rw [set_append_right' _ _ _ _ (by simp)]
      simp
  · have hz' : ¬ ((varCells types p.vars).isEmpty = true ∧ ae.zeroNull = true) := by rwa [← hvz]
    simp only [hz, hz', if_false, arrayBlocks]
    rw [alloc_eq ae 8 (by decide) _ _ _ hal2]
    by_cases hz2 : p.aux.length = 0 ∧ ae.zeroNull = true
    · have hnil2 : p.aux = [] := by simpa using hz2.1
      have hka : (h ++ [(⟨List.replicate p.vars.length (some (Cell.var zeroVar)), true⟩ : Block)])[k]? = some ⟨cells, true⟩ := by
        rw [List.getElem?_append_left hkl]; exact hk
      simp only [hz2, if_true, storeCell, hka, hi, Res.ok_bind, hnil2, List.map_nil, storeAll, hv1,
        List.isEmpty_nil, and_self, List.append_nil, List.length_nil]
      rw [set_append_left' _ _ _ _ hkl,
        storeAll_full h.length _ (List.replicate p.vars.length (some (Cell.var zeroVar))) _ (by simp) (by simp [hv2])]
      rw [set_append_right' _ _ _ _ (by simp)]
      simp
    · have hz2' : ¬ ((p.aux.map Cell.word).isEmpty = true ∧ ae.zeroNull = true) := by rwa [← haz]
      have hka : (h ++ [(⟨List.replicate p.vars.length (some (Cell.var zeroVar)), true⟩ : Block)] ++
          [(⟨List.replicate p.aux.length (some (Cell.word 0)), true⟩ : Block)])[k]? = some ⟨cells, true⟩ := by
        rw [List.append_assoc, List.getElem?_append_left hkl]; exact hk
      simp only [hz2, hz2', if_false, storeCell, hka, if_true, hi, Res.ok_bind]
      rw [List.append_assoc, set_append_left' _ _ _ _ hkl]
      simp only [List.length_append, List.length_cons, List.length_nil, Nat.zero_add]
      rw [storeAll_full (h.length + 1) _ (List.replicate p.aux.length (some (Cell.word 0))) _ (by simp) (by simp)]
      rw [set_append_right' _ _ _ _ (by simp)]
      simp only [Res.ok_bind, hv1, List.length_set, Nat.add_sub_cancel_left, List.cons_append, List.nil_append,
        List.set_cons_succ, List.set_cons_zero]
      rw [storeAll_full h.length _ (List.replicate p.vars.length (some (Cell.var zeroVar))) _ (by simp) (by simp [hv2])]
      rw [set_append_right' _ _ _ _ (by simp)]
      simp

/-- The structures of all points when `base` blocks exist. -/
def cpointsOf (ae : AllocEnv) (types : List TypeDesc) : Nat → List Point → List CPoint
  | _, [] => []
  | base, p :: ps =>
    cpointOf ae types base p :: cpointsOf ae types (base + (pointBlocks ae types p).length) ps

/-- The blocks of all points. -/
def allBlocks (ae : AllocEnv) (types : List TypeDesc) (ps : List Point) : List Block :=
  ps.flatMap (pointBlocks ae types)

theorem length_cpointsOf (ae : AllocEnv) (types : List TypeDesc) (base : Nat) (ps : List Point) :
    (cpointsOf ae types base ps).length = ps.length := by
  induction ps generalizing base with
  | nil => rfl
  | cons p ps ih => simp [cpointsOf, ih]

/-- What must hold of the points for the export to work. -/
def Exportable (abi : Abi) (ae : AllocEnv) (types : List TypeDesc) (ps : List Point) : Prop :=
  ∀ p ∈ ps, (∀ v ∈ p.vars, v.typeIndex.toNat < types.length) ∧
    ae.canAlloc (p.vars.length * abi.sizeVar) = true ∧ ae.canAlloc (p.aux.length * 8) = true

theorem exportLoop_eq (abi : Abi) (ae : AllocEnv) (types : List TypeDesc) (k : Nat) (hsz : 0 < abi.sizeVar)
    (ps : List Point) (hps : Exportable abi ae types ps) (i : Nat) (h : Heap) (cells : List (Option Cell))
    (hk : h[k]? = some ⟨cells, true⟩) (hi : i + ps.length ≤ cells.length) :
    exportLoop abi ae types (k + 1) i ps h =
      .ok (h.set k ⟨cells.take i ++ (cpointsOf ae types h.length ps).map (fun c => some (.point c)) ++
        cells.drop (i + ps.length), true⟩ ++ allBlocks ae types ps) := by
  induction ps generalizing i h cells with
  | nil =>
    simp only [exportLoop, cpointsOf, List.map_nil, List.append_nil, List.length_nil, Nat.add_zero,
      List.take_append_drop, allBlocks, List.flatMap_nil]
    congr 1
    apply List.ext_getElem?
    intro j
    rw [List.getElem?_set]
    split
    · rename_i hj; subst hj
      have := (List.getElem?_eq_some_iff.mp hk).1
      simp only [this, if_true, hk]
    · rfl
  | cons p ps ih =>
    simp only [List.length_cons] at hi
    have hlt : i < cells.length := by omega
    have hkl := (List.getElem?_eq_some_iff.mp hk).1
    obtain ⟨a1, a2, a3⟩ := hps p (List.mem_cons_self ..)
    simp only [exportLoop, exportPoint_eq abi ae types k i p h cells hsz hk hlt a1 a2 a3, Res.ok_bind]
    rw [ih (fun q hq => hps q (List.mem_cons_of_mem _ hq)) (i + 1) _
      (cells.set i (some (.point (cpointOf ae types h.length p)))) (by
        rw [List.getElem?_append_left (by simpa using hkl)]
        simp [hkl]) (by simp; omega)]
    congr 1
    rw [set_append_left' _ _ _ _ (by simpa using hkl), List.set_set]
    simp only [List.length_append, List.length_set, cpointsOf, List.map_cons, allBlocks, List.flatMap_cons,
      List.append_assoc]
    congr 2
    rw [List.take_add_one, List.take_set_of_le (Nat.le_refl _), List.getElem?_set_self hlt,
      List.drop_set_of_lt (by omega), show i + 1 + ps.length = i + (ps.length + 1) by omega]
    simp

/-- Reading a full array. -/
theorem readCells_full (k : Nat) (cs pre : List Cell) (h : Heap)
    (hk : h[k]? = some ⟨(pre ++ cs).map some, true⟩) :
    readCells (k + 1) pre.length cs.length h = .ok cs := by
  induction cs generalizing pre with
  | nil => rfl
  | cons c cs ih =>
    have := ih (pre ++ [c]) (by simpa using hk)
    simp only [List.length_append, List.length_cons, List.length_nil, Nat.zero_add] at this
    simp only [List.length_cons, readCells, loadCell, hk, if_true]
    rw [List.getElem?_map, List.getElem?_append_right (Nat.le_refl _)]
    simp only [Nat.sub_self, List.getElem?_cons_zero, Option.map_some, Res.ok_bind, this, Res.pure_eq]

theorem readCells_array (ae : AllocEnv) (cs : List Cell) (A B : Heap) :
    readCells (arrayPtr ae A.length cs) 0 cs.length (A ++ arrayBlocks ae cs ++ B) = .ok cs := by
  unfold arrayPtr arrayBlocks
  split
  · rename_i hz
    have : cs = [] := by simpa using hz.1
    subst this; rfl
  · exact readCells_full A.length cs [] _ (by simp)

/-- What a client sees of a point. -/
def seenOf (types : List TypeDesc) (p : Point) : Seen :=
  ⟨p.statement, varCells types p.vars, p.aux.map .word⟩

theorem readSeen_eq (ae : AllocEnv) (types : List TypeDesc) (p : Point) (A B : Heap)
    (hty : ∀ v ∈ p.vars, v.typeIndex.toNat < types.length)
    (h1 : p.vars.length < 2 ^ 32) (h2 : p.aux.length < 2 ^ 32) :
    readSeen (.point (cpointOf ae types A.length p)) (A ++ pointBlocks ae types p ++ B) =
      .ok (seenOf types p) := by
  have hv2 := (exportVars_ok types p.vars hty).2
  have e1 := readCells_array ae (varCells types p.vars) A (arrayBlocks ae (p.aux.map .word) ++ B)
  have e2 := readCells_array ae (p.aux.map Cell.word) (A ++ arrayBlocks ae (varCells types p.vars)) B
  simp only [List.append_assoc, hv2, List.length_append, List.length_map] at e1 e2
  simp only [readSeen, cpointOf, pointBlocks, BitVec.toNat_ofNat, Nat.mod_eq_of_lt h1, Nat.mod_eq_of_lt h2,
    List.append_assoc, e1, e2, Res.ok_bind, Res.pure_eq, seenOf]

theorem readArray_eq (ae : AllocEnv) (types : List TypeDesc) (k : Nat) (ps : List Point)
    (hty : ∀ p ∈ ps, (∀ v ∈ p.vars, v.typeIndex.toNat < types.length) ∧ p.vars.length < 2 ^ 32 ∧
      p.aux.length < 2 ^ 32)
    (A : Heap) (pre post : List (Option Cell))
    (hk : A[k]? = some ⟨pre ++ (cpointsOf ae types A.length ps).map (fun c => some (.point c)) ++ post, true⟩) :
    readArray (k + 1) pre.length ps.length (A ++ allBlocks ae types ps) = .ok (ps.map (seenOf types)) := by
  -- the array stays where it is while the blocks are consumed
  suffices H : ∀ (ps : List Point), (∀ p ∈ ps, (∀ v ∈ p.vars, v.typeIndex.toNat < types.length) ∧
      p.vars.length < 2 ^ 32 ∧ p.aux.length < 2 ^ 32) → ∀ (A : Heap) (pre : List (Option Cell)),
      A[k]? = some ⟨pre ++ (cpointsOf ae types A.length ps).map (fun c => some (.point c)) ++ post, true⟩ →
      readArray (k + 1) pre.length ps.length (A ++ allBlocks ae types ps) = .ok (ps.map (seenOf types)) by
    exact H ps hty A pre hk
  intro ps
  induction ps with
  | nil => intro _ A pre _; rfl
  | cons p ps ih =>
    intro hty A pre hk
    have hkl := (List.getElem?_eq_some_iff.mp hk).1
    obtain ⟨a1, a2, a3⟩ := hty p (List.mem_cons_self ..)
    have hk' : (A ++ allBlocks ae types (p :: ps))[k]? =
        some ⟨pre ++ (cpointsOf ae types A.length (p :: ps)).map (fun c => some (.point c)) ++ post, true⟩ := by
      rw [List.getElem?_append_left hkl]; exact hk
    have ih := ih (fun q hq => hty q (List.mem_cons_of_mem _ hq)) (A ++ pointBlocks ae types p)
      (pre ++ [some (.point (cpointOf ae types A.length p))]) (by
        rw [List.getElem?_append_left hkl, hk]
        simp [cpointsOf])
    simp only [List.length_append, List.length_cons, List.length_nil, Nat.zero_add] at ih
    have hl : loadCell (k + 1) pre.length (A ++ allBlocks ae types (p :: ps)) =
        .ok (.point (cpointOf ae types A.length p)) := by
      simp only [loadCell, hk', if_true]
      rw [List.append_assoc, List.getElem?_append_right (Nat.le_refl _)]
      simp [cpointsOf]
    have hs : allBlocks ae types (p :: ps) = pointBlocks ae types p ++ allBlocks ae types ps := rfl
    have hseen := readSeen_eq ae types p A (allBlocks ae types ps) a1 a2 a3
    simp only [List.length_cons, readArray, hl, Res.ok_bind]
    rw [hs, ← List.append_assoc, hseen]
    simp only [Res.ok_bind, ih, Res.pure_eq, List.map_cons]

/-- A freed block. -/
def Block.kill (b : Block) : Block := { b with live := false }

theorem freeBlock_array (ae : AllocEnv) (cs : List Cell) (A B : Heap) :
    freeBlock (arrayPtr ae A.length cs) (A ++ arrayBlocks ae cs ++ B) =
      .ok (A ++ (arrayBlocks ae cs).map Block.kill ++ B) := by
  unfold arrayPtr arrayBlocks
  split
  · rfl
  · simp only [freeBlock, List.append_assoc, List.getElem?_append_right (Nat.le_refl _), Nat.sub_self,
      List.cons_append, List.nil_append, List.getElem?_cons_zero, if_true, List.map_cons, List.map_nil]
    rw [set_append_right' _ _ _ _ (Nat.le_refl _)]
    simp [Block.kill]

theorem free_point (ae : AllocEnv) (types : List TypeDesc) (p : Point) (A B : Heap) :
    (freeBlock (cpointOf ae types A.length p).vars (A ++ pointBlocks ae types p ++ B) >>= fun h =>
      freeBlock (cpointOf ae types A.length p).aux h) =
      .ok (A ++ (pointBlocks ae types p).map Block.kill ++ B) := by
  have e1 := freeBlock_array ae (varCells types p.vars) A (arrayBlocks ae (p.aux.map .word) ++ B)
  have e2 := freeBlock_array ae (p.aux.map Cell.word)
    (A ++ (arrayBlocks ae (varCells types p.vars)).map Block.kill) B
  simp only [List.append_assoc, List.length_append, List.length_map] at e1 e2
  simp only [cpointOf, pointBlocks, List.append_assoc, e1, Res.ok_bind, e2, List.map_append]

theorem freePointsLoop_eq (ae : AllocEnv) (types : List TypeDesc) (k : Nat) (post : List (Option Cell))
    (ps : List Point) (A : Heap) (pre : List (Option Cell))
    (hk : A[k]? = some ⟨pre ++ (cpointsOf ae types A.length ps).map (fun c => some (.point c)) ++ post, true⟩) :
    freePointsLoop (k + 1) pre.length ps.length (A ++ allBlocks ae types ps) =
      .ok (A ++ (allBlocks ae types ps).map Block.kill) := by
  induction ps generalizing A pre with
  | nil => simp [freePointsLoop, allBlocks]
  | cons p ps ih =>
    have hkl := (List.getElem?_eq_some_iff.mp hk).1
    have hk' : (A ++ allBlocks ae types (p :: ps))[k]? =
        some ⟨pre ++ (cpointsOf ae types A.length (p :: ps)).map (fun c => some (.point c)) ++ post, true⟩ := by
      rw [List.getElem?_append_left hkl]; exact hk
    have ih := ih (A ++ (pointBlocks ae types p).map Block.kill)
      (pre ++ [some (.point (cpointOf ae types A.length p))]) (by
        rw [List.getElem?_append_left hkl, hk]
        simp [cpointsOf])
    simp only [List.length_append, List.length_cons, List.length_nil, Nat.zero_add] at ih
    have hl : loadCell (k + 1) pre.length (A ++ allBlocks ae types (p :: ps)) =
        .ok (.point (cpointOf ae types A.length p)) := by
      simp only [loadCell, hk', if_true]
      rw [List.append_assoc, List.getElem?_append_right (Nat.le_refl _)]
      simp [cpointsOf]
    have hs : allBlocks ae types (p :: ps) = pointBlocks ae types p ++ allBlocks ae types ps := rfl
    have hf := free_point ae types p A (allBlocks ae types ps)
    obtain ⟨h1, f1, f2⟩ := Res.bind_eq_ok.mp hf
    simp only [List.length_cons, freePointsLoop, hl, Res.ok_bind]
    rw [hs, ← List.append_assoc, f1]
    simp only [Res.ok_bind, f2, ih]
    simp

theorem seenOf_correct (types : List TypeDesc) (p : Point)
    (hty : ∀ v ∈ p.vars, v.typeIndex.toNat < types.length) : SeenPoint types p (seenOf types p) := by
  refine ⟨rfl, rfl, (exportVars_ok types p.vars hty).2, ?_⟩
  have key : ∀ vs : List VarInfo, (∀ v ∈ vs, v.typeIndex.toNat < types.length) →
      ∀ (i : Nat) (v : VarInfo) (c : Cell), vs[i]? = some v → (varCells types vs)[i]? = some c →
        SeenVar types v c := by
    intro vs
    induction vs with
    | nil => intro _ i v c h; simp at h
    | cons w vs ih =>
      intro hty i v c h1 h2
      have hw := hty w (List.mem_cons_self ..)
      have e : varCells types (w :: vs) = .var ⟨w.value, w.format, w.nameIndex, (types[w.typeIndex.toNat]).nameIndex,
          w.size, w.bufferSize, w.hasBufferSize⟩ :: varCells types vs := by
        simp [varCells, List.filterMap_cons, List.getElem?_eq_getElem hw]
      rw [e] at h2
      cases i with
      | zero =>
        cases h1; cases h2
        exact ⟨_, List.getElem?_eq_getElem hw, rfl⟩
      | succ i => exact ih (fun u hu => hty u (List.mem_cons_of_mem _ hu)) i v c (by simpa using h1) (by simpa using h2)
  exact key p.vars hty

/-- The heap after `points_to_array` for a non-empty list. -/
theorem pointsToArray_eq (abi : Abi) (ae : AllocEnv) (types : List TypeDesc) (ps : List Point) (h : Heap)
    (hne : ps ≠ []) (hp0 : 0 < abi.sizePoint) (hpv : abi.sizePoint ≤ abi.sizeVar)
    (hsmall : ps.length * abi.sizeVar < 2 ^ (8 * abi.ptr.1))
    (hal : ae.canAlloc (ps.length * abi.sizeVar) = true) (hps : Exportable abi ae types ps) :
    ∃ post, pointsToArray abi ae types ps h =
      .ok (h.length + 1, h ++ [⟨(cpointsOf ae types (h.length + 1) ps).map (fun c => some (.point c)) ++ post, true⟩] ++
        allBlocks ae types ps) := by
  have hsz : 0 < abi.sizeVar := by omega
  have hlen : 0 < ps.length := List.length_pos_iff.mpr hne
  have hpos : 0 < ps.length * abi.sizeVar := Nat.mul_pos hlen hsz
  have hcap : ps.length ≤ ps.length * abi.sizeVar / abi.sizePoint := by
    rw [Nat.le_div_iff_mul_le hp0]
    exact Nat.mul_le_mul_left _ hpv
  refine ⟨(List.replicate (ps.length * abi.sizeVar / abi.sizePoint) (none : Option Cell)).drop ps.length, ?_⟩
  unfold pointsToArray allocBlock
  simp only [Nat.mod_eq_of_lt hsmall, gt_iff_lt, hpos, if_true, hal, Nat.ne_of_gt hpos, false_and, if_false]
  have := exportLoop_eq abi ae types h.length hsz ps hps 0
    (h ++ [⟨List.replicate (ps.length * abi.sizeVar / abi.sizePoint) none, true⟩])
    (List.replicate (ps.length * abi.sizeVar / abi.sizePoint) none) (by simp) (by simpa using hcap)
  simp only [this, Res.ok_bind, Res.pure_eq]
  rw [set_append_right' _ _ _ _ (Nat.le_refl _)]
  simp

end TraceDB
