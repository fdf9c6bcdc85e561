import Verif.Proofs.Order
import Verif.Proofs.Flyweight
import Verif.Props.Reader
/-
Properties of equality, hashing and ordering: C43, C44, C56.
-/
namespace TraceDB

/-! C43 -/

/-- Two records are equal exactly if they have the same name, type, format, size and
buffer size and the bytes that their size says are meaningful agree; this is an
equivalence and equal records have equal hashes, for all hash functions. -/
theorem C43_records (H : HashSys) :
    HashAgrees (fun a b : VarInfo => a.eqv b = true) (VarInfo.hash H) ∧
    ∀ a b : VarInfo, a.eqv b = true ↔ SameRecord a b :=
  ⟨⟨VarInfo.eqv_refl, fun _ _ => VarInfo.eqv_symm, fun _ _ _ => VarInfo.eqv_trans, fun _ _ => VarInfo.hash_eqv H⟩,
    eqv_iff_same⟩

/-- For types, buffer sizes, point data and predicates equality is equality of
content, and equal values have equal hashes. -/
theorem C43_types_sizes_predicates (H : HashSys) :
    (HashAgrees (fun a b : TypeDesc => a.eqv b = true) (TypeDesc.hash H) ∧ ∀ a b : TypeDesc, a.eqv b = true ↔ a = b) ∧
    (HashAgrees (fun a b : BufferSize => a.eqv b = true) (BufferSize.hash H) ∧
      ∀ a b : BufferSize, a.eqv b = true ↔ a = b) ∧
    (HashAgrees (fun a b : PointData => a.eqv b = true) (PointData.hash H) ∧
      ∀ a b : PointData, a.eqv b = true ↔ a = b) ∧
    (HashAgrees (fun a b : Pred => Pred.eqv a b = true) (Pred.hash H) ∧ ∀ a b : Pred, Pred.eqv a b = true ↔ a = b) :=
  ⟨⟨hashAgrees_of_eq TypeDesc.eqv_iff_eq _, TypeDesc.eqv_iff_eq⟩,
    ⟨hashAgrees_of_eq BufferSize.eqv_iff_eq _, BufferSize.eqv_iff_eq⟩,
    ⟨hashAgrees_of_eq PointData.eqv_iff_eq _, PointData.eqv_iff_eq⟩,
    ⟨hashAgrees_of_eq Pred.eqv_iff_eq _, Pred.eqv_iff_eq⟩⟩

/-- Different records that are equal for the code: the high bits are ignored. -/
example : let a : VarInfo := ⟨.word 0x1ff, 3, 1, .unsigned, 1, 0, false⟩
    let b : VarInfo := ⟨.word 0xff, 3, 1, .unsigned, 1, 0, false⟩
    a.eqv b = true ∧ a ≠ b := by decide

/-! C44 -/

/-- What trace equality means: same names, same types, and points with the same
counters and statements; nothing else. -/
theorem C44_trace_equality (a b : Trace) :
    a.eqv b = true ↔ a.names = b.names ∧ a.types = b.types ∧
      a.points.map (fun p => (p.counter, p.statement)) = b.points.map (fun p => (p.counter, p.statement)) := by
  have hp : ∀ (ps qs : List Point), vecEqv Point.eqv ps qs = true ↔
      ps.map (fun p => (p.counter, p.statement)) = qs.map (fun p => (p.counter, p.statement)) := by
    intro ps
    induction ps with
    | nil => intro qs; cases qs <;> simp [vecEqv]
    | cons p ps ih => intro qs; cases qs <;> simp [vecEqv, Point.eqv, ih]
  simp only [Trace.eqv, Bool.and_eq_true, hp, vecEqv_iff_eq (· == ·) (fun _ _ => beq_iff_eq),
    vecEqv_iff_eq TypeDesc.eqv TypeDesc.eqv_iff_eq]
  constructor
  · rintro ⟨⟨h1, h2⟩, h3⟩; exact ⟨h2, h3, h1⟩
  · rintro ⟨h2, h3, h1⟩; exact ⟨⟨h1, h2⟩, h3⟩

/-- Databases are equal if they have equally many traces and those at the same places are equal. -/
theorem C44_database_equality (a b : List Trace) :
    dbEqv a b = true ↔ a.length = b.length ∧ ∀ (i : Nat) (s t : Trace), a[i]? = some s → b[i]? = some t →
      s.names = t.names ∧ s.types = t.types ∧
      s.points.map (fun p => (p.counter, p.statement)) = t.points.map (fun p => (p.counter, p.statement)) := by
  simp only [dbEqv, vecEqv_iff, C44_trace_equality]

/-- A trace without the data of its points. -/
def Trace.strip (t : Trace) : Trace :=
  { t with points := t.points.map fun p => { p with sizes := [], vars := [], aux := [] } }

/-- The natural claim (equal traces have equal content) fails for every trace with
some data: it equals the trace without any variables, buffer sizes and auxiliary
values. -/
theorem C44_data_ignored (t : Trace) (p : Point) (hp : p ∈ t.points)
    (hd : p.sizes ≠ [] ∨ p.vars ≠ [] ∨ p.aux ≠ []) : t.eqv t.strip = true ∧ t ≠ t.strip := by
  refine ⟨(C44_trace_equality _ _).mpr ⟨rfl, rfl, by simp [Trace.strip]⟩, fun h => ?_⟩
  rw [h] at hp
  obtain ⟨q, _, rfl⟩ := List.mem_map.mp hp
  simp at hd

example : ∃ p ∈ exTrace.points, p.sizes ≠ [] ∨ p.vars ≠ [] ∨ p.aux ≠ [] := by decide +kernel

/-- Equal databases with different content, and databases of one size that are not equal. -/
example : dbEqv [exTrace, exTrace] [exTrace.strip, exTrace] = true ∧ [exTrace, exTrace] ≠ [exTrace.strip, exTrace] ∧
    dbEqv [exTrace] [⟨[], [], []⟩] = false := by decide +kernel

/-- Equal traces can have different hashes, because points hash the address of their
data. -/
theorem C44_hash_differs :
    let H : HashSys := ⟨fun a b => a + b, fun _ n => BitVec.ofNat 64 n, fun l => l.foldl (· + ·) 0, fun n => BitVec.ofNat 64 n.length⟩
    let addr : Point → U64 := fun p => if p.aux = [] then 0x1000 else 0x2000
    let a : Trace := ⟨[], [], [⟨0, 5, [], [], [1]⟩]⟩
    let b : Trace := ⟨[], [], [⟨0, 5, [], [], []⟩]⟩
    a.eqv b = true ∧ a ≠ b ∧ a.hash H addr ≠ b.hash H addr := by
  decide +kernel

/-! C56 -/

/-- Types and buffer sizes are strictly and totally ordered, consistently with
equality. -/
theorem C56_types_and_sizes :
    StrictTotal (fun _ : TypeDesc => True) (fun a b => a.lt b = true) (fun a b => a.eqv b = true) ∧
    StrictTotal (fun _ : BufferSize => True) (fun a b => a.lt b = true) (fun a b => a.eqv b = true) := by
  constructor
  · refine tupleLt_strict _ (fun a : TypeDesc => [a.nameIndex.toNat, a.format.code, a.size.toNat]) _
      (fun _ _ _ _ => rfl) fun a b _ _ => ?_
    rw [TypeDesc.eqv_iff_eq]
    refine ⟨fun h => ?_, fun h => by rw [h]⟩
    simp only [List.cons.injEq, and_true] at h
    cases a; cases b
    simp only at h
    rw [BitVec.eq_of_toNat_eq h.1, TypeFormat.code_inj h.2.1, BitVec.eq_of_toNat_eq h.2.2]
  · refine tupleLt_strict _ (fun a : BufferSize => [a.address.toNat, a.size.toNat]) _
      (fun _ _ _ _ => rfl) fun a b _ _ => ?_
    rw [BufferSize.eqv_iff_eq]
    refine ⟨fun h => ?_, fun h => by rw [h]⟩
    simp only [List.cons.injEq, and_true] at h
    cases a; cases b
    simp only at h
    rw [BitVec.eq_of_toNat_eq h.1, BitVec.eq_of_toNat_eq h.2]

/-- Between records that are not blobs the ordering is strict and total, with
respect to identity of all members; for records the library makes that is the same
as equality. -/
theorem C56_words (pa pb : U64) :
    StrictTotal VarInfo.IsWord (fun a b => VarInfo.lt pa pb a b = .ok true) (fun a b => a = b) ∧
    StrictTotal (fun a => a.IsWord ∧ a.Canonical) (fun a b => VarInfo.lt pa pb a b = .ok true)
      (fun a b => a.eqv b = true) := by
  have key : ∀ a b, VarInfo.IsWord a → VarInfo.IsWord b →
      (VarInfo.lt pa pb a b = .ok true ↔
        tupleLt (match a.value with | .word u => u.toNat :: a.key | .blob _ => [])
          (match b.value with | .word u => u.toNat :: b.key | .blob _ => []) = true) := by
    rintro a b ⟨x, hx⟩ ⟨y, hy⟩
    rw [VarInfo.lt_word pa pb hx hy, hx, hy]
    simp
  have base : StrictTotal VarInfo.IsWord (fun a b : VarInfo =>
      tupleLt (match a.value with | .word u => u.toNat :: a.key | .blob _ => [])
          (match b.value with | .word u => u.toNat :: b.key | .blob _ => []) = true) (fun a b => a = b) := by
    apply tupleLt_strict VarInfo.IsWord (fun a : VarInfo => match a.value with | .word u => u.toNat :: a.key | .blob _ => [])
    · rintro a b ⟨x, hx⟩ ⟨y, hy⟩
      simp only [hx, hy]; rfl
    · rintro a b ⟨x, hx⟩ ⟨y, hy⟩
      simp only [hx, hy, List.cons.injEq]
      refine ⟨fun h => VarInfo.key_inj h.2 (by rw [hx, hy, BitVec.eq_of_toNat_eq h.1]), fun h => ?_⟩
      subst h
      rw [hx] at hy
      cases hy
      exact ⟨rfl, rfl⟩
  have h1 : StrictTotal VarInfo.IsWord (fun a b => VarInfo.lt pa pb a b = .ok true) (fun a b => a = b) :=
    ⟨fun a ha h => base.irrefl a ha ((key a a ha ha).mp h),
      fun a b c ha hb hc hab hbc => (key a c ha hc).mpr
        (base.trans a b c ha hb hc ((key a b ha hb).mp hab) ((key b c hb hc).mp hbc)),
      fun a b ha hb => by rw [key a b ha hb, key b a hb ha]; exact base.total a b ha hb,
      fun a b ha hb h => by rw [key a b ha hb, key b a hb ha]; exact base.sep a b ha hb h⟩
  refine ⟨h1, fun a ha => h1.irrefl a ha.1, fun a b c ha hb hc => h1.trans a b c ha.1 hb.1 hc.1, fun a b ha hb => ?_,
    fun a b ha hb h => h1.sep a b ha.1 hb.1 ((eqv_iff_eq ha.2 hb.2).mp h)⟩
  rw [eqv_iff_eq ha.2 hb.2]
  exact h1.total a b ha.1 hb.1

/-- Blobs of the same size are also strictly and totally ordered, wherever their
content is. -/
theorem C56_blobs_of_one_size (pa pb : U64) (n : Nat) :
    StrictTotal (VarInfo.IsBlobOf n) (fun a b => VarInfo.lt pa pb a b = .ok true) (fun a b => a = b) := by
  have key : ∀ a b, VarInfo.IsBlobOf n a → VarInfo.IsBlobOf n b →
      (VarInfo.lt pa pb a b = .ok true ↔
        tupleLt (match a.value with | .blob u => u.map charKey ++ a.key | .word _ => [])
          (match b.value with | .blob u => u.map charKey ++ b.key | .word _ => []) = true) := by
    rintro a b ⟨hs, x, hx, hxl⟩ ⟨_, y, hy, hyl⟩
    rw [VarInfo.lt_blob pa pb hx hy hxl hyl hs, hx, hy]
    simp
  have base : StrictTotal (VarInfo.IsBlobOf n) (fun a b : VarInfo =>
      tupleLt (match a.value with | .blob u => u.map charKey ++ a.key | .word _ => [])
          (match b.value with | .blob u => u.map charKey ++ b.key | .word _ => []) = true) (fun a b => a = b) := by
    apply tupleLt_strict (VarInfo.IsBlobOf n)
      (fun a : VarInfo => match a.value with | .blob u => u.map charKey ++ a.key | .word _ => [])
    · rintro a b ⟨_, x, hx, hxl⟩ ⟨_, y, hy, hyl⟩
      simp only [hx, hy, List.length_append, List.length_map, hxl, hyl]; rfl
    · rintro a b ⟨_, x, hx, hxl⟩ ⟨_, y, hy, hyl⟩
      simp only [hx, hy]
      refine ⟨fun h => ?_, fun h => ?_⟩
      · obtain ⟨h1, h2⟩ := List.append_inj h (by simp [hxl, hyl])
        exact VarInfo.key_inj h2 (by rw [hx, hy, (List.map_inj_right fun _ _ => charKey_inj).mp h1])
      · subst h
        rw [hx] at hy
        cases hy
        rfl
  exact ⟨fun a ha h => base.irrefl a ha ((key a a ha ha).mp h),
      fun a b c ha hb hc hab hbc => (key a c ha hc).mpr
        (base.trans a b c ha hb hc ((key a b ha hb).mp hab) ((key b c hb hc).mp hbc)),
      fun a b ha hb => by rw [key a b ha hb, key b a hb ha]; exact base.total a b ha hb,
      fun a b ha hb h => by rw [key a b ha hb, key b a hb ha]; exact base.sep a b ha hb h⟩

/-- A record of eight bytes. -/
def wideWord (u : U64) : VarInfo := ⟨.word u, 0, 0, .unsigned, 8, 0, false⟩

/-- A blob record. -/
def blobVar (bs : List U8) : VarInfo := ⟨.blob bs, 0, 0, .blob, BitVec.ofNat 32 bs.length, 0, false⟩

example : VarInfo.IsBlobOf 2 (blobVar [1, 200]) ∧ VarInfo.IsWord (wideWord 3) ∧ (wideWord 3).Canonical ∧
    VarInfo.lt 0 0 (blobVar [1, 200]) (blobVar [1, 100]) = .ok true := by
  exact ⟨⟨rfl, _, rfl, rfl⟩, ⟨_, rfl⟩, by decide, by decide⟩

/-- Comparing any longer blob with any shorter one reads out of bounds. -/
theorem C56_longer_blob_out_of_bounds (pa pb : U64) (a b : VarInfo) (x y : List U8) (ha : a.value = .blob x)
    (hb : b.value = .blob y) (hlen : y.length < a.size.toNat) : VarInfo.lt pa pb a b = .ub .oobRead := by
  unfold VarInfo.lt
  simp only [ha, hb]
  rw [if_neg (by omega)]

example : (blobVar [7]).size.toNat < (blobVar [7, 8]).size.toNat := by decide

/-- On records in general the relation is no order, even where it is defined: two
blobs and a word form a cycle.  `ptr` gives the address of each blob. -/
theorem C56_cycle :
    let x := blobVar [2]; let y := blobVar [1]; let w : VarInfo := ⟨.word 2, 0, 0, .unsigned, 8, 0, false⟩
    -- x is at address 1, y at address 3
    VarInfo.lt 1 0 x w = .ok true ∧ VarInfo.lt 0 3 w y = .ok true ∧ VarInfo.lt 3 1 y x = .ok true := by
  decide

/-- Records of a direct C++ caller: `==` holds although one is smaller. -/
theorem C56_inconsistent_with_equality (pa pb : U64) :
    let a : VarInfo := ⟨.word 0xff, 0, 0, .unsigned, 1, 0, false⟩
    let b : VarInfo := ⟨.word 0x1ff, 0, 0, .unsigned, 1, 0, false⟩
    a.eqv b = true ∧ VarInfo.lt pa pb a b = .ok true := by
  refine ⟨by decide, ?_⟩
  rw [VarInfo.lt_word pa pb rfl rfl]
  decide

end TraceDB
