import Verif.Proofs.Export
import Verif.Props.Query
/-
Properties of the export to C structures: C36.
-/
namespace TraceDB

/-! Example data. -/

/-- An allocator that never fails and returns `NULL` for requests of 0 bytes. -/
def xAlloc : AllocEnv := ⟨fun _ => true, true⟩
/-- A type table. -/
def xTypes : List TypeDesc := [⟨10, .unsigned, 8⟩, ⟨11, .blob, 3⟩]
/-- A blob variable. -/
def xBlob : VarInfo := ⟨.blob [1, 2, 3], 4, 1, .blob, 3, 0, false⟩
/-- A point with two variables and an auxiliary value, and one without anything. -/
def xPoints : List Point := [⟨0, 7, [], [qVar 0 0 1, xBlob], [99]⟩, ⟨1, 8, [⟨1, 2⟩], [], []⟩]
/-- A heap with a live block of the client. -/
def xHeap : Heap := [⟨[some (.word 5)], true⟩]

/-! C36 -/

/-- The size computed with the wrong structure is large enough on both ABIs. -/
theorem C36_abi_sizes :
    (Abi.lp64.sizePoint = 40 ∧ Abi.lp64.sizeVar = 40) ∧
    (Abi.ilp32.sizePoint = 24 ∧ Abi.ilp32.sizeVar = 36) := by decide

/-- The export is defined, leaves the rest of the heap alone, gives exactly the
recorded content in order, and releasing the array frees each of its blocks exactly
once (freeing a block twice is undefined behaviour) and nothing else. -/
theorem C36_export_faithful (abi : Abi) (ae : AllocEnv) (types : List TypeDesc) (points : List Point) (h : Heap)
    (hp0 : 0 < abi.sizePoint) (hpv : abi.sizePoint ≤ abi.sizeVar)
    (hsmall : points.length * abi.sizeVar < 2 ^ (8 * abi.ptr.1))
    (hal : ae.canAlloc (points.length * abi.sizeVar) = true)
    (hpoints : ∀ p ∈ points, (∀ v ∈ p.vars, v.typeIndex.toNat < types.length) ∧
      p.vars.length < 2 ^ 32 ∧ p.aux.length < 2 ^ 32 ∧
      ae.canAlloc (p.vars.length * abi.sizeVar) = true ∧ ae.canAlloc (p.aux.length * 8) = true) :
    ∃ ptr new seen,
      pointsToArray abi ae types points h = .ok (ptr, h ++ new) ∧
      (∀ b ∈ new, b.live = true) ∧
      readArray ptr 0 points.length (h ++ new) = .ok seen ∧
      seen.length = points.length ∧
      (∀ (i : Nat) (p : Point) (s : Seen), points[i]? = some p → seen[i]? = some s → SeenPoint types p s) ∧
      freeTracePoints ptr points.length (h ++ new) = .ok (h ++ new.map fun b => { b with live := false }) ∧
      (ptr = 0 ↔ points = []) := by
  have hx : Exportable abi ae types points := fun p hp => by
    obtain ⟨a, _, _, b, c⟩ := hpoints p hp; exact ⟨a, b, c⟩
  by_cases hne : points = []
  · subst hne
    exact ⟨0, [], [], by simp [pointsToArray], by simp, rfl, rfl, by simp, by simp [freeTracePoints, freePointsLoop, freeBlock], by simp⟩
  · obtain ⟨post, e⟩ := pointsToArray_eq abi ae types points h hne hp0 hpv hsmall hal hx
    have er := readArray_eq ae types h.length points
      (fun p hp => by obtain ⟨a, b, c, _⟩ := hpoints p hp; exact ⟨a, b, c⟩)
      (h ++ [⟨(cpointsOf ae types (h.length + 1) points).map (fun c => some (.point c)) ++ post, true⟩]) [] post
      (by simp)
    have ef := freePointsLoop_eq ae types h.length post points
      (h ++ [⟨(cpointsOf ae types (h.length + 1) points).map (fun c => some (.point c)) ++ post, true⟩]) []
      (by simp)
    refine ⟨h.length + 1, _, points.map (seenOf types), by rw [e, List.append_assoc], ?_, ?_, by simp, ?_, ?_, by simp [hne]⟩
    · intro b hb
      rcases List.mem_append.mp hb with hb | hb
      · simp at hb; rw [hb]
      · obtain ⟨p, _, hb⟩ := List.mem_flatMap.mp hb
        unfold pointBlocks arrayBlocks at hb
        rcases List.mem_append.mp hb with hb | hb <;> split at hb <;> simp at hb <;> rw [hb]
    · rw [← List.append_assoc]; exact er
    · intro i p s hi hs
      rw [List.getElem?_map, hi] at hs
      cases hs
      exact seenOf_correct types p (hpoints p (List.mem_of_getElem? hi)).1
    · unfold freeTracePoints
      rw [← List.append_assoc]
      simp only [List.length_nil] at ef
      rw [ef]
      simp only [Res.ok_bind, freeBlock]
      rw [List.append_assoc, List.getElem?_append_right (Nat.le_refl _)]
      simp only [Nat.sub_self, List.cons_append, List.nil_append, List.getElem?_cons_zero, if_true]
      rw [set_append_right' _ _ _ _ (Nat.le_refl _)]
      simp [Block.kill]

example : (∀ p ∈ xPoints, (∀ v ∈ p.vars, v.typeIndex.toNat < xTypes.length) ∧
      p.vars.length < 2 ^ 32 ∧ p.aux.length < 2 ^ 32 ∧
      xAlloc.canAlloc (p.vars.length * Abi.lp64.sizeVar) = true ∧ xAlloc.canAlloc (p.aux.length * 8) = true) ∧
    0 < Abi.lp64.sizePoint ∧ Abi.lp64.sizePoint ≤ Abi.lp64.sizeVar ∧
    xPoints.length * Abi.lp64.sizeVar < 2 ^ (8 * Abi.lp64.ptr.1) := by decide +kernel

example : (pointsToArray .lp64 xAlloc xTypes xPoints xHeap >>= fun r => readArray r.1 0 2 r.2) =
    .ok [⟨7, [.var ⟨.word 1, .unsigned, 0, 10, 8, 0, false⟩, .var ⟨.blob [1, 2, 3], .blob, 4, 11, 3, 0, false⟩],
      [.word 99]⟩, ⟨8, [], []⟩] := by decide +kernel

/-- What the conditions exclude: a type index outside the table, a failing
allocation, and (on an ABI where the point structure is the larger one) the wrong
`sizeof` are undefined behaviour. -/
theorem C36_conditions_needed :
    pointsToArray .lp64 xAlloc [] xPoints xHeap = .ub .oobRead ∧
    pointsToArray .lp64 ⟨fun n => n ≤ 80, true⟩ xTypes (xPoints ++ xPoints) xHeap = .ub .nullDeref ∧
    pointsToArray .lp64 ⟨fun n => n ≠ 8, true⟩ xTypes xPoints xHeap = .ub .nullDeref ∧
    (∃ abi : Abi, abi.sizeVar < abi.sizePoint ∧ pointsToArray abi xAlloc xTypes xPoints [] = .ub .oobWrite) := by
  refine ⟨by decide +kernel, by decide +kernel, by decide +kernel, ⟨(8, 8), (16, 16)⟩, by decide +kernel, by decide +kernel⟩

/-- Releasing an array twice is undefined behaviour. -/
theorem C36_double_release (points n : Nat) (h h' : Heap) (hn : 0 < n) (e : freeTracePoints points n h = .ok h') :
    ∃ k, freeTracePoints points n h' = .ub k := by
  unfold freeTracePoints at e ⊢
  obtain ⟨h1, _, e2⟩ := Res.bind_eq_ok.mp e
  obtain ⟨m, rfl⟩ : ∃ m, n = m + 1 := ⟨n - 1, by omega⟩
  cases points with
  | zero => exact ⟨.nullDeref, rfl⟩
  | succ k =>
    refine ⟨.dangling, ?_⟩
    simp only [freeBlock] at e2
    split at e2
    · exact absurd e2 (by simp)
    · rename_i b hb
      split at e2
      · cases e2
        have hk := (List.getElem?_eq_some_iff.mp hb).1
        simp [freePointsLoop, loadCell, List.getElem?_set, hk]
      · exact absurd e2 (by simp)

example : (pointsToArray .lp64 xAlloc xTypes xPoints xHeap >>= fun r => freeTracePoints r.1 2 r.2).isOk = true := by
  decide +kernel

end TraceDB
