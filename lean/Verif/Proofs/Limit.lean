import Verif.Proofs.HeaderCut
/-
The point limit.
-/
namespace TraceDB

variable {I : MapImpl} {env : Env} {names : List Name} {types : List TypeDesc}

instance (k : U64) (i : Nat) : Decidable (Within k i) := by unfold Within; infer_instance

theorem readPoints_unfold (maxPoints : U64) (fuel i : Nat) (s : IStream) (map : I.M) (acc : List Point) :
    readPoints I env names types maxPoints (fuel + 1) i s map acc =
      if s.isGood = true ∧ Within maxPoints i then
        readEntries I env names types (entryFuel s) s map .empty >>= fun q =>
          if q.1.isGood = true then
            finishStatement env q.2.2.statement >>= fun st =>
              readPoints I env names types maxPoints fuel (i + 1) q.1 q.2.1
                (acc ++ [⟨BitVec.ofNat 64 i, st, q.2.2.sizes, q.2.2.vars, q.2.2.aux⟩])
          else readPoints I env names types maxPoints fuel (i + 1) q.1 q.2.1 acc
      else .ok acc := by
  rw [readPoints]
  by_cases h : s.isGood = true ∧ Within maxPoints i
  · rw [if_pos h]
    have : (s.isGood && (decide (i < maxPoints.toNat) || maxPoints == 0)) = true := by
      rw [Bool.and_eq_true]; exact ⟨h.1, within_cond.mpr h.2⟩
    rw [if_pos this]
  · rw [if_neg h]
    have : ¬ (s.isGood && (decide (i < maxPoints.toNat) || maxPoints == 0)) = true := by
      rw [Bool.and_eq_true]; exact fun hh => h ⟨hh.1, within_cond.mp hh.2⟩
    rw [if_neg this]
    rfl

theorem readPoints_extends {maxPoints : U64} : ∀ (fuel i : Nat) (s : IStream) (map : I.M) (acc ps : List Point),
    readPoints I env names types maxPoints fuel i s map acc = .ok ps → acc <+: ps
  | 0, _, _, _, _, _, h => by simp [readPoints] at h
  | fuel + 1, i, s, map, acc, ps, h => by
    rw [readPoints_unfold] at h
    split at h
    · obtain ⟨q, _, h⟩ := Res.bind_eq_ok.mp h
      split at h
      · obtain ⟨st, _, h⟩ := Res.bind_eq_ok.mp h
        exact (List.prefix_append _ _).trans (readPoints_extends fuel _ _ _ _ _ h)
      · exact readPoints_extends fuel _ _ _ _ _ h
    · cases h; exact List.prefix_refl _

theorem within_zero (i : Nat) : Within 0 i := Or.inl rfl

theorem readPoints_limit {k : U64} (hk : k ≠ 0) : ∀ (fuel i : Nat) (s : IStream) (map : I.M) (acc ps : List Point),
    (s.isGood = true → acc.length = i) → acc.length ≤ k.toNat →
    readPoints I env names types 0 fuel i s map acc = .ok ps →
    readPoints I env names types k fuel i s map acc = .ok (ps.take k.toNat)
  | 0, _, _, _, _, _, _, _, h => by simp [readPoints] at h
  | fuel + 1, i, s, map, acc, ps, hi, hle, h => by
    have hext := readPoints_extends _ _ _ _ _ _ h
    rw [readPoints_unfold] at h ⊢
    by_cases hg : s.isGood = true
    · rw [if_pos ⟨hg, within_zero i⟩] at h
      by_cases hw : Within k i
      · rw [if_pos ⟨hg, hw⟩]
        have hik : i < k.toNat := by
          rcases hw with h0 | h0
          · exact absurd h0 hk
          · exact h0
        obtain ⟨q, hq, h⟩ := Res.bind_eq_ok.mp h
        rw [hq]
        simp only [Res.ok_bind]
        have hi' := hi hg
        split at h
        · rename_i hg'
          rw [if_pos hg']
          obtain ⟨st, hst, h⟩ := Res.bind_eq_ok.mp h
          rw [hst]
          simp only [Res.ok_bind]
          exact readPoints_limit hk fuel _ _ _ _ _ (fun _ => by simp [hi']) (by simp; omega) h
        · rename_i hg'
          rw [if_neg hg']
          exact readPoints_limit hk fuel _ _ _ _ _ (fun hh => absurd hh hg') hle h
      · rw [if_neg (fun hh => hw hh.2)]
        have hki : k.toNat ≤ i := by
          apply Classical.byContradiction
          intro hh
          exact hw (Or.inr (by omega))
        have hi' := hi hg
        have : acc.length = k.toNat := by omega
        rw [← this, ← List.prefix_iff_eq_take.mp hext]
    · rw [if_neg (fun hh => hg hh.1)] at h ⊢
      cases h
      rw [List.take_of_length_le hle]

theorem readPoints_limit_length {k : U64} (hk : k ≠ 0) : ∀ (fuel i : Nat) (s : IStream) (map : I.M) (acc ps : List Point),
    (s.isGood = true → acc.length = i) → acc.length ≤ k.toNat →
    readPoints I env names types k fuel i s map acc = .ok ps → ps.length ≤ k.toNat
  | 0, _, _, _, _, _, _, _, h => by simp [readPoints] at h
  | fuel + 1, i, s, map, acc, ps, hi, hle, h => by
    rw [readPoints_unfold] at h
    by_cases hg : s.isGood = true ∧ Within k i
    · rw [if_pos hg] at h
      have hik : i < k.toNat := by
        rcases hg.2 with h0 | h0
        · exact absurd h0 hk
        · exact h0
      obtain ⟨q, hq, h⟩ := Res.bind_eq_ok.mp h
      have hi' := hi hg.1
      split at h
      · obtain ⟨st, hst, h⟩ := Res.bind_eq_ok.mp h
        exact readPoints_limit_length hk fuel _ _ _ _ _ (fun _ => by simp [hi']) (by simp; omega) h
      · rename_i hg'
        exact readPoints_limit_length hk fuel _ _ _ _ _ (fun hh => absurd hh hg') hle h
    · rw [if_neg hg] at h
      cases h
      exact hle

theorem readPoints_limit_back {k : U64} (hk : k ≠ 0) : ∀ (fuel i : Nat) (s : IStream) (map : I.M) (acc ps : List Point),
    (s.isGood = true → acc.length = i) →
    readPoints I env names types k fuel i s map acc = .ok ps → ps.length < k.toNat →
    readPoints I env names types 0 fuel i s map acc = .ok ps
  | 0, _, _, _, _, _, _, h, _ => by simp [readPoints] at h
  | fuel + 1, i, s, map, acc, ps, hi, h, hlt => by
    rw [readPoints_unfold] at h ⊢
    by_cases hg : s.isGood = true
    · rw [if_pos ⟨hg, within_zero i⟩]
      have hi' := hi hg
      by_cases hw : Within k i
      · rw [if_pos ⟨hg, hw⟩] at h
        obtain ⟨q, hq, h⟩ := Res.bind_eq_ok.mp h
        rw [hq]
        simp only [Res.ok_bind]
        split at h
        · rename_i hg'
          rw [if_pos hg']
          obtain ⟨st, hst, h⟩ := Res.bind_eq_ok.mp h
          rw [hst]
          simp only [Res.ok_bind]
          exact readPoints_limit_back hk fuel _ _ _ _ _ (fun _ => by simp [hi']) h hlt
        · rename_i hg'
          rw [if_neg hg']
          exact readPoints_limit_back hk fuel _ _ _ _ _ (fun hh => absurd hh hg') h hlt
      · rw [if_neg (fun hh => hw hh.2)] at h
        cases h
        exfalso
        exact hw (Or.inr (by omega))
    · rw [if_neg (fun hh => hg hh.1)] at h ⊢
      exact h

theorem bind_ok_trace {names : List Name} {types : List TypeDesc} {x : Res (List Point)} {t : Trace}
    (h : (x >>= fun ps => (pure ⟨names, types, ps⟩ : Res Trace)) = .ok t) :
    x = .ok t.points ∧ t.names = names ∧ t.types = types := by
  obtain ⟨ps, h1, h2⟩ := Res.bind_eq_ok.mp h
  simp only [Res.pure_eq, Res.ok.injEq] at h2
  subst h2
  exact ⟨h1, rfl, rfl⟩

/-- Reading complete points within the limit, whatever follows them. -/
theorem readTrace_limit_damaged {io : Bool} {k : U64} {ps : List (List Entry)} {R : List U8} (hk : k ≠ 0)
    (h : HeaderOk names types) (ha : HeaderAlloc env names types)
    (hwf : ∀ p ∈ ps, ∀ e ∈ p, e.WF names types) (hle : k.toNat ≤ ps.length)
    (hf : Fine env types [] (ps.take k.toNat)) :
    readTrace env k (gs io (encodeHeader names types ++ (encodePoints types ps ++ R))) =
      .ok ⟨names, types, pointsOf types (junkStmt env) 0 [] (ps.take k.toNat)⟩ := by
  rw [readTrace_header h ha]
  have hlen : (ps.take k.toNat).length = k.toNat := by simp [hle]
  have hsplit : encodePoints types ps = encodePoints types (ps.take k.toNat) ++
      encodePoints types (ps.drop k.toNat) := by
    simp only [encodePoints]
    rw [← List.flatMap_append, List.take_append_drop]
  obtain ⟨f, hfe⟩ : ∃ f, (encodePoints types ps ++ R).length + 3 = (ps.take k.toNat).length + (f + 1) := by
    have := encodePoints_length (types := types) ps
    refine ⟨(encodePoints types ps ++ R).length + 2 - (ps.take k.toNat).length, ?_⟩
    simp only [List.length_append]
    omega
  rw [hfe, hsplit, List.append_assoc,
    readPoints_points (ps.take k.toNat) (f + 1) 0 [] [] _ (Or.inr (by omega))
      (fun p hp => hwf p (List.mem_of_mem_take hp)) hf, readPoints_stop]
  · rfl
  · rintro (h0 | h0)
    · exact hk h0
    · omega

end TraceDB
