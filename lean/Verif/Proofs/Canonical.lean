import Verif.Proofs.Rewrite
import Verif.Proofs.Equality
/-
Variables of accepted traces are canonical.
-/
namespace TraceDB

variable {names : List Name} {types : List TypeDesc}

theorem decodeVar_canonical {ty : TypeDesc} {H : List BufferSize} {n ti : U32} {payload : List U8}
    (hok : PayloadOk ty payload) : (decodeVar ty H n ti payload).Canonical := by
  unfold PayloadOk at hok
  have hnat : ∀ L : Nat, payload.length = L → (BitVec.ofNat 64 (leNat payload)).toNat < 2 ^ (8 * L) := by
    intro L hL
    rw [pow_size, ← hL, BitVec.toNat_ofNat]
    exact Nat.lt_of_le_of_lt (Nat.mod_le _ _) (leNat_lt _)
  unfold decodeVar
  cases hf : ty.format <;> simp only [hf] at hok ⊢
  · simp only [VarInfo.Canonical]
    refine ⟨by simp, fun _ => ?_⟩
    exact hnat _ hok.2
  · simp only [VarInfo.Canonical]
    refine ⟨by simp, fun _ => ?_⟩
    have h0 : 0 < payload.length ∧ payload.length ≤ 8 := by
      rcases hok.1 with h | h | h | h <;> rw [hok.2, h] <;> decide
    rw [toInt_ofInt_signedOf h0.1 h0.2, ← hok.2]
    exact signedOf_bounds h0.1
  · simp only [VarInfo.Canonical]
    refine ⟨by simp, fun _ => ?_⟩
    exact hnat _ hok.2
  · split
    · simp only [VarInfo.Canonical]
      refine ⟨by simp, fun _ => ?_⟩
      exact hnat _ hok.2
    · simp only [VarInfo.Canonical]
      refine ⟨by simp, fun _ => ?_⟩
      exact hnat _ hok.2
  · simp only [VarInfo.Canonical]
    refine ⟨trivial, ?_⟩
    have : payload.length < 2 ^ 32 := by
      split at hok
      · exact hok
      · rw [hok]; exact ty.size.isLt
    rw [BitVec.toNat_ofNat, Nat.mod_eq_of_lt this]

theorem entryVars_canonical {es : List Entry} {H : List BufferSize}
    (hwf : ∀ e ∈ es, e.WF names types) : ∀ v ∈ entryVars types H es, v.Canonical := by
  intro v hv
  obtain ⟨j, hj⟩ := List.mem_iff_getElem?.mp hv
  have hee := entryVars_entries es H hwf
  have hlt : j < (varEntries H es).length := by
    rw [← hee.1]; exact (List.getElem?_eq_some_iff.mp hj).1
  obtain ⟨_, ty, _, hp, hdec⟩ := hee.2 j _ v (List.getElem?_eq_getElem hlt) hj
  rw [hdec]
  exact decodeVar_canonical hp

/-- Variables of accepted traces are canonical. -/
theorem accepted_canonical {env : Env} {maxPoints : U64} {s : IStream} {t : Trace}
    (h : readTrace env maxPoints s = .ok t) : ∀ p ∈ t.points, ∀ v ∈ p.vars, v.Canonical := by
  by_cases hg : s.st = .good
  · rw [stream_eq hg] at h
    rcases readTrace_ok h with ⟨body, ps, p, left, h1, _, _, h4, h5, h6, _⟩ | ⟨h1, _⟩
    · intro pt hpt v hv
      rw [h6] at hpt
      obtain ⟨j, hj⟩ := List.mem_iff_getElem?.mp hpt
      obtain ⟨es, hes, rfl⟩ := pointsOf_get _ _ _ _ _ _ hj
      exact entryVars_canonical (fun e he => h4.points es (kept_mem (List.mem_of_getElem? hes)) e he) v hv
    · rw [h1]; simp
  · obtain ⟨e, h'⟩ := readTrace_notgood (env := env) (maxPoints := maxPoints) hg
    rw [h'] at h; cases h

end TraceDB
