import Verif.Proofs.Sharing
import Verif.Proofs.Distinct
import Verif.Props.Reader
/-
C42: sharing of variable records and point data.
-/
namespace TraceDB

/-- C42.  Whatever points of the library a program makes and destroys, in whatever
order, it always sees in the live points what it would see if nothing was shared:
values, indices, sizes, buffer sizes and auxiliary values.  Hash functions (also
colliding ones) and addresses (also reused ones) are arbitrary. -/
theorem C42_sharing_unobservable (se : ShareEnv) (hfv : ∀ used, se.freshVar used ∉ used)
    (hfd : ∀ used, se.freshData used ∉ used) (ops : List ShareOp) (hops : MakesOnly Recorded ops) :
    (runShare se ops [] ⟨[], []⟩).1.map (readPoint (runShare se ops [] ⟨[], []⟩).2) =
      (runUnshared ops []).map some :=
  (runShare_inv se hfv hfd ops (fun p hp => recorded_canonical (hops p hp)) [] _ [] shareInv_empty rfl).2

/-- The factories hold no object that is not used: once all points are destroyed
both are empty, and there are never more data objects than live points. -/
theorem C42_no_leak (se : ShareEnv) (hfv : ∀ used, se.freshVar used ∉ used)
    (hfd : ∀ used, se.freshData used ∉ used) (ops : List ShareOp) (hops : MakesOnly Recorded ops) :
    (runShare se ops [] ⟨[], []⟩).2.data.length ≤ (runUnshared ops []).length ∧
    (runUnshared ops [] = [] → (runShare se ops [] ⟨[], []⟩).2 = ⟨[], []⟩) := by
  obtain ⟨h, h'⟩ := runShare_inv se hfv hfd ops (fun p hp => recorded_canonical (hops p hp)) [] _ [] shareInv_empty rfl
  have hlen := congrArg List.length h'
  simp only [List.length_map] at hlen
  have hsub : ∀ e ∈ (runShare se ops [] ⟨[], []⟩).2.data,
      e.addr ∈ (runShare se ops [] ⟨[], []⟩).1.map (·.data) := by
    intro e he
    have h1 := h.data.refs e he
    have h2 := h.data.pos e he
    exact List.count_pos_iff.mp (by omega)
  refine ⟨?_, fun he => ?_⟩
  · rw [← hlen]
    have := nodup_length_le h.data.nodup (fun a ha => by
      obtain ⟨e, he, rfl⟩ := List.mem_map.mp ha
      exact hsub e he)
    simpa [Pool.addrs] using this
  · rw [he] at hlen
    have hlive := List.eq_nil_of_length_eq_zero hlen
    rw [hlive] at hsub
    have hd : (runShare se ops [] ⟨[], []⟩).2.data = [] := by
      apply List.eq_nil_iff_forall_not_mem.mpr
      intro e he
      simpa using hsub e he
    have hv : (runShare se ops [] ⟨[], []⟩).2.vars = [] := by
      apply List.eq_nil_iff_forall_not_mem.mpr
      intro e he
      have h1 := h.vars.refs e he
      have h2 := h.vars.pos e he
      rw [hd] at h1
      simp [heldVars] at h1
      omega
    cases hs : (runShare se ops [] ⟨[], []⟩).2
    rw [hs] at hd hv
    simp only at hd hv
    rw [hd, hv]

/-- Two live points refer to the same data object exactly if they have the same data:
after every history of recorded points, for all hash functions and addresses. -/
theorem C42_shared_iff_same_data (se : ShareEnv) (hfv : ∀ used, se.freshVar used ∉ used)
    (hfd : ∀ used, se.freshData used ∉ used) (ops : List ShareOp) (hops : MakesOnly Recorded ops)
    (i j : Nat) (r r' : PointRef) (p p' : Point)
    (hr : (runShare se ops [] ⟨[], []⟩).1[i]? = some r) (hr' : (runShare se ops [] ⟨[], []⟩).1[j]? = some r')
    (hp : (runUnshared ops [])[i]? = some p) (hp' : (runUnshared ops [])[j]? = some p') :
    r.data = r'.data ↔ p.sizes = p'.sizes ∧ p.vars = p'.vars ∧ p.aux = p'.aux := by
  obtain ⟨_, h'⟩ := runShare_inv se hfv hfd ops (fun p hp => recorded_canonical (hops p hp)) [] _ [] shareInv_empty rfl
  obtain ⟨hv, hd⟩ := runShare_distinct se ops [] ⟨[], []⟩ (by simp [Pool.Distinct]) (by simp [Pool.Distinct])
  have key : ∀ (k : Nat) (r : PointRef) (p : Point), (runShare se ops [] ⟨[], []⟩).1[k]? = some r →
      (runUnshared ops [])[k]? = some p → readPoint (runShare se ops [] ⟨[], []⟩).2 r = some p := by
    intro k r p hr hp
    have := congrArg (fun l : List (Option Point) => l[k]?) h'
    simpa [List.getElem?_map, hr, hp] using this
  rw [readPoint_same hv hd (key i r p hr hp) (key j r' p' hr' hp')]
  simp [Point.body]

/-- Hash functions with many collisions. -/
def badHash : HashSys := ⟨fun a b => a + b, fun _ n => BitVec.ofNat 64 (n % 3), fun l => l.foldl (· + ·) 0, fun n => BitVec.ofNat 64 n.length⟩

/-- Addresses in steps of 8, reused after destruction. -/
def exShare : ShareEnv := ⟨badHash, fun used => used.foldl max 0 + 8, fun used => used.foldl max 0 + 8⟩

/-- A history in which records and data are shared, and addresses reused. -/
def exShareOps : List ShareOp :=
  match exTrace.points with
  | p :: q :: _ => [.make p, .make q, .make p, .drop 0, .make { p with vars := p.vars.take 1 }, .drop 0, .drop 0, .make q]
  | _ => []

example : (∀ used, exShare.freshVar used ∉ used) ∧ (∀ used, exShare.freshData used ∉ used) ∧
    MakesOnly Recorded exShareOps ∧ exShareOps.length = 8 ∧
    (runShare exShare exShareOps [] ⟨[], []⟩).2.data.length < 8 := by
  have hf : ∀ used : List Nat, used.foldl max 0 + 8 ∉ used := fun used h => by
    have := (foldl_max_ge used 0).2 _ h; omega
  refine ⟨hf, hf, ?_, by decide +kernel, by decide +kernel⟩
  have hread : readTrace exEnv 0 (IStream.ofBytes exBytes) = .ok exTrace := by decide +kernel
  obtain ⟨p, q, l, hpq⟩ : ∃ p q l, exTrace.points = p :: q :: l := ⟨_, _, _, rfl⟩
  have hp : Recorded p := .read _ _ _ _ hread p (by rw [hpq]; simp)
  have hq : Recorded q := .read _ _ _ _ hread q (by rw [hpq]; simp)
  have hr : Recorded { p with vars := p.vars.take 1 } := .restrict p hp _ fun v hv => List.mem_of_mem_take hv
  intro x hx
  unfold exShareOps at hx
  rw [hpq] at hx
  simp only [List.mem_cons, ShareOp.make.injEq, reduceCtorEq, false_or, List.not_mem_nil, or_false] at hx
  rcases hx with rfl | rfl | rfl | rfl | rfl <;> assumption

/-- A history that ends with three points, the first and the last with the same data. -/
def exShareOps2 : List ShareOp :=
  match exTrace.points with
  | p :: q :: _ => [.make q, .make p, .make q, .make { p with counter := 9, statement := 9 }, .drop 0]
  | _ => []

example : ((runShare exShare exShareOps2 [] ⟨[], []⟩).1.map (·.data)) = [16, 8, 16] ∧
    (runUnshared exShareOps2 []).map Point.body =
      (match exTrace.points with | p :: q :: _ => [p.body, q.body, p.body] | _ => []) := by decide +kernel

/-- Two records of one byte with different high bits, as only a direct C++ caller
can make them. -/
def wideVar (u : U64) : VarInfo := ⟨.word u, 0, 0, .unsigned, 1, 0, false⟩

/-- For records with a size below 8 built directly the claim fails: the second point
shows the value given for the first, under all hash functions. -/
theorem C42_direct_records_change (se : ShareEnv) :
    let p : Point := ⟨0, 1, [], [wideVar 0x1ff], []⟩
    let q : Point := ⟨1, 2, [], [wideVar 0xff], []⟩
    (runShare se [.make p, .make q] [] ⟨[], []⟩).1.map (readPoint (runShare se [.make p, .make q] [] ⟨[], []⟩).2) =
      [some p, some { q with vars := [wideVar 0x1ff] }] ∧
    runUnshared [.make p, .make q] [] = [p, q] ∧ wideVar 0x1ff ≠ wideVar 0xff := by
  have h1 : (wideVar 511#64).hash se.H = (wideVar 255#64).hash se.H := VarInfo.hash_eqv se.H (by decide)
  have h2 : (wideVar 511#64).eqv (wideVar 255#64) = true := by decide
  refine ⟨?_, rfl, by decide⟩
  simp [runShare, makePoint, internVars, Pool.intern, varFactory, dataFactory, h1, h2, releaseVars, Pool.release,
    readPoint, Pool.get, PointData.eqv, vecEqv, BitVec.ofNat_eq_ofNat]

end TraceDB
