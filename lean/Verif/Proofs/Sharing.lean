import Verif.Proofs.Flyweight
import Verif.Proofs.Canonical
import Verif.Proofs.Database
import Verif.Spec.Sharing
/-
Histories of shared points.
-/
namespace TraceDB

theorem map_eraseIdx {α β : Type} (f : α → β) (l : List α) (k : Nat) : (l.eraseIdx k).map f = (l.map f).eraseIdx k := by
  induction l generalizing k with
  | nil => rfl
  | cons a l ih => cases k <;> simp [ih]

theorem perm_eraseIdx {α : Type} (l : List α) (k : Nat) (a : α) (h : l[k]? = some a) : l.Perm (a :: l.eraseIdx k) := by
  induction l generalizing k with
  | nil => simp at h
  | cons x l ih =>
    cases k with
    | zero => simp at h; subst h; simp
    | succ k =>
      simp at h
      exact ((ih k h).cons x).trans (List.Perm.swap ..)

theorem nodup_length_le {l l' : List Nat} (hn : l.Nodup) (hs : ∀ a ∈ l, a ∈ l') : l.length ≤ l'.length := by
  induction l generalizing l' with
  | nil => simp
  | cons a l ih =>
    have ha := hs a (List.mem_cons_self ..)
    rw [List.nodup_cons] at hn
    have := ih (l' := l'.erase a) hn.2 fun b hb => by
      have hne : b ≠ a := fun e => hn.1 (e ▸ hb)
      exact (List.mem_erase_of_ne hne).mpr (hs b (List.mem_cons_of_mem _ hb))
    rw [List.length_erase_of_mem ha] at this
    have := List.length_pos_of_mem ha
    simp only [List.length_cons]
    omega

theorem runShare_inv (se : ShareEnv) (hfv : ∀ used, se.freshVar used ∉ used) (hfd : ∀ used, se.freshData used ∉ used)
    (ops : List ShareOp) (hops : MakesOnly (fun p => ∀ v ∈ p.vars, v.Canonical) ops)
    (live : List PointRef) (sh : Sharing) (ps : List Point) (h : ShareInv live sh)
    (hs : live.map (readPoint sh) = ps.map some) :
    ShareInv (runShare se ops live sh).1 (runShare se ops live sh).2 ∧
    (runShare se ops live sh).1.map (readPoint (runShare se ops live sh).2) = (runUnshared ops ps).map some := by
  induction ops generalizing live sh ps with
  | nil => exact ⟨h, hs⟩
  | cons op ops ih =>
    have hops' : MakesOnly (fun p => ∀ v ∈ p.vars, v.Canonical) ops := fun p hp => hops p (List.mem_cons_of_mem _ hp)
    cases op with
    | make p =>
      obtain ⟨h1, h2, h3⟩ := makePoint_inv se hfv hfd p (hops p (List.mem_cons_self ..)) live sh h
      apply ih hops' _ _ _ h1
      rw [List.map_append, List.map_append, ← hs]
      congr 1
      · exact List.map_congr_left h3
      · simp only [List.map_cons, List.map_nil, h2]
    | drop k =>
      simp only [runShare, runUnshared]
      cases hk : live[k]? with
      | none =>
        have hlen : ps.length ≤ k := by
          have := congrArg List.length hs
          simp only [List.length_map] at this
          have := List.getElem?_eq_none_iff.mp hk
          omega
        rw [List.eraseIdx_of_length_le hlen]
        exact ih hops' _ _ _ h hs
      | some r =>
        obtain ⟨h1, h2⟩ := dropPoint_inv r live (live.eraseIdx k) sh h (perm_eraseIdx live k r hk)
        apply ih hops' _ _ _ h1
        rw [List.map_congr_left h2, map_eraseIdx, hs, ← map_eraseIdx]

theorem shareInv_empty : ShareInv [] ⟨[], []⟩ :=
  ⟨⟨List.nodup_nil, by simp, by simp, by simp, by simp [heldVars]⟩,
    ⟨List.nodup_nil, by simp, by simp, by simp, by simp⟩⟩

theorem recorded_canonical {p : Point} (h : Recorded p) : ∀ v ∈ p.vars, v.Canonical := by
  induction h with
  | read env m s t h p hp => exact accepted_canonical h p hp
  | made points names t h p hp =>
    intro v hv
    by_cases ha : ∃ p ∈ points, p.aux ≠ []
    · rw [traceOfPoints_aux points names ha] at h; cases h
    · have ha' : ∀ p ∈ points, p.aux = [] := fun q hq => Decidable.byContradiction fun hne => ha ⟨q, hq, hne⟩
      rw [traceOfPoints_eq points names ha'] at h
      cases h
      simp only at hp
      have : ∀ (ps : List InPoint) (i : Nat), p ∈ madePoints points i ps → ∃ q ∈ ps, p.vars = q.vars.map (madeVar points) := by
        intro ps
        induction ps with
        | nil => intro i hp; simp [madePoints] at hp
        | cons q ps ih =>
          intro i hp
          simp only [madePoints, List.mem_cons] at hp
          rcases hp with hp | hp
          · exact ⟨q, List.mem_cons_self .., by rw [hp]⟩
          · obtain ⟨q', h1, h2⟩ := ih (i + 1) hp
            exact ⟨q', List.mem_cons_of_mem _ h1, h2⟩
      obtain ⟨q, _, hq⟩ := this points 0 hp
      rw [hq] at hv
      obtain ⟨w, _, rfl⟩ := List.mem_map.mp hv
      simp only [VarInfo.Canonical, madeVar]
      refine ⟨by unfold formatOf; split <;> simp, fun h8 => absurd h8 (by decide)⟩
  | restrict p _ vs hv ih => exact fun v hv' => ih v (hv v hv')

end TraceDB
