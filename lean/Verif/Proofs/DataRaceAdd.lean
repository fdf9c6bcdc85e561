import Verif.Model.DataRace
import Verif.Spec.DataRaceAdd
import Verif.Proofs.ConcurrentRun
import Verif.Proofs.RoundTrip
/-
Data races of threads that add traces.
-/
namespace TraceDB

/-- The process begins by storing to the static variable. -/
def Proc.Stores {α : Type} (p : Proc α) : Prop := ∃ got k, p = .store got k
/-- The process does not use the static variable. -/
def Proc.Silent {α : Type} (p : Proc α) : Prop := ∃ r, p = .done r

theorem Proc.Stores.bind {α β : Type} {p : Proc α} (h : p.Stores) (f : α → Proc β) : (p.bind f).Stores := by
  obtain ⟨got, k, rfl⟩ := h
  exact ⟨got, _, rfl⟩

/-- The entry loop uses the static variable exactly if it finds auxiliary values. -/
theorem readEntriesP_head (I : MapImpl) (env : Env) (names : List Name) (types : List TypeDesc) (fuel : Nat)
    (s : IStream) (map : I.M) (acc : PointAcc) (x : IStream × I.M × PointAcc)
    (h : readEntries I env names types fuel s map acc = .ok x) :
    (readEntriesP I env names types fuel s map acc = .done (.ok x) ∧ x.2.2.aux = acc.aux) ∨
      ((readEntriesP I env names types fuel s map acc).Stores ∧ acc.aux.length < x.2.2.aux.length) := by
  induction fuel generalizing s map acc with
  | zero => cases h
  | succ fuel ih =>
    unfold readEntries at h
    unfold readEntriesP
    obtain ⟨⟨c, s1⟩, h1, h2⟩ := Res.bind_eq_ok.mp h
    rw [h1]
    simp only [Proc.bind] at h2 ⊢
    split at h2
    · rename_i hc
      rw [Res.pure_eq] at h2
      cases h2
      rw [if_pos hc]
      exact .inl ⟨rfl, rfl⟩
    · rename_i hc
      rw [if_neg hc]
      split at h2
      · obtain ⟨⟨got, s2⟩, h3, h4⟩ := Res.bind_eq_ok.mp h2
        rw [h3]
        simp only [Proc.bind] at h4 ⊢
        have := ih _ _ _ h4
        split at this
        · rename_i hl
          simp only [hl, if_true] at this ⊢
          exact this
        · rename_i hl
          simp only [hl, if_false] at this ⊢
          exact this
      · obtain ⟨⟨info, s2⟩, h3, h4⟩ := Res.bind_eq_ok.mp h2
        rw [h3]
        exact ih _ _ _ h4
      · obtain ⟨⟨size, s2⟩, h3, h4⟩ := Res.bind_eq_ok.mp h2
        obtain ⟨map2, h5, h6⟩ := Res.bind_eq_ok.mp h4
        rw [h3]
        simp only [Proc.bind]
        rw [h5]
        exact ih _ _ _ h6
      · obtain ⟨⟨value, s2⟩, h3, h4⟩ := Res.bind_eq_ok.mp h2
        unfold readUInt at h3
        obtain ⟨⟨got, s3⟩, h5, h6⟩ := Res.bind_eq_ok.mp h3
        rw [h5]
        right
        refine ⟨⟨got, _, rfl⟩, ?_⟩
        have := ih _ _ _ h4
        simp only [List.length_append, List.length_cons, List.length_nil] at this
        rcases this with ⟨_, h⟩ | ⟨_, h⟩
        · rw [h]; simp
        · omega
      · cases h2

/-- The points of a list from number `i` on that the limit lets through. -/
def keptFrom (maxPoints : U64) (i : Nat) (ps : List (List Entry)) : List (List Entry) :=
  if maxPoints = 0 then ps else ps.take (maxPoints.toNat - i)

theorem keptFrom_stop {maxPoints : U64} {i : Nat} (h : ¬ Within maxPoints i) (ps : List (List Entry)) :
    keptFrom maxPoints i ps = [] := by
  unfold Within at h
  simp only [not_or] at h
  unfold keptFrom
  rw [if_neg h.1, show maxPoints.toNat - i = 0 by omega]
  rfl

theorem keptFrom_cons {maxPoints : U64} {i : Nat} (h : Within maxPoints i) (p : List Entry) (ps : List (List Entry)) :
    keptFrom maxPoints i (p :: ps) = p :: keptFrom maxPoints (i + 1) ps := by
  unfold keptFrom
  split
  · rfl
  · rename_i h0
    rcases h with h | h
    · exact absurd h h0
    · obtain ⟨d, hd⟩ : ∃ d, maxPoints.toNat - i = d + 1 := ⟨maxPoints.toNat - i - 1, by omega⟩
      rw [hd, show maxPoints.toNat - (i + 1) = d by omega]
      rfl

variable {env : Env} {names : List Name} {types : List TypeDesc} {io : Bool}

theorem sim_ok {I J : MapImpl} {S : MapImpl.Sim I J} {x : Res (IStream × I.M × PointAcc)} {s : IStream} {n : J.M}
    {a : PointAcc} (h : MapImpl.EntriesRel S x (.ok (s, n, a))) : ∃ m, x = .ok (s, m, a) ∧ S.R m n := by
  cases x with
  | ok y =>
    obtain ⟨s', m, a'⟩ := y
    obtain ⟨rfl, h2, rfl⟩ := h
    exact ⟨m, rfl, h2⟩
  | _ => exact h.elim

theorem readPointsP_stop {I : MapImpl} {maxPoints : U64} {fuel i : Nat} {s : IStream} {m : I.M} {acc : List Point}
    (h : (s.isGood && (decide (i < maxPoints.toNat) || maxPoints == 0)) = false) :
    (readPointsP I env names types maxPoints (fuel + 1) i s m acc).Silent := by
  unfold readPointsP
  rw [h]
  exact ⟨_, rfl⟩

theorem readPointsP_head {I : MapImpl} (S : MapImpl.Sim I MapImpl.history) {maxPoints : U64} (ps : List (List Entry))
    (fuel i : Nat) (m : I.M) (H : List BufferSize) (acc : List Point) (hR : S.R m H)
    (hwf : ∀ p ∈ ps, ∀ e ∈ p, e.WF names types) (hfine : Fine env types H (keptFrom maxPoints i ps))
    (hf : ps.length + 2 ≤ fuel) :
    ((∃ q ∈ keptFrom maxPoints i ps, entryAux q ≠ []) ∧
      (readPointsP I env names types maxPoints fuel i (gs io (encodePoints types ps)) m acc).Stores) ∨
    ((∀ q ∈ keptFrom maxPoints i ps, entryAux q = []) ∧
      (readPointsP I env names types maxPoints fuel i (gs io (encodePoints types ps)) m acc).Silent) := by
  induction ps generalizing fuel i m H acc with
  | nil =>
    refine .inr ⟨by unfold keptFrom; simp, ?_⟩
    obtain ⟨f, rfl⟩ : ∃ f, fuel = f + 2 := ⟨fuel - 2, by simp at hf; omega⟩
    by_cases hw : Within maxPoints i
    · unfold readPointsP
      simp only [encodePoints, List.flatMap_nil, gs_isGood, Bool.true_and, within_cond.mpr hw, if_true]
      have hsim := MapImpl.readEntries_sim S env names types (entryFuel (gs io [])) (gs io []) m H .empty hR
      rw [show entryFuel (gs io []) = 1 + 1 from rfl, readEntries_end] at hsim
      obtain ⟨m', h1, h2⟩ := sim_ok hsim
      rcases readEntriesP_head I env names types _ _ _ _ _ h1 with ⟨h3, _⟩ | ⟨_, h3⟩
      · rw [show entryFuel (gs io []) = 1 + 1 from rfl, h3]
        simp only [Proc.bind]
        rw [if_neg (by cases io <;> simp [IStream.isGood, ended])]
        exact readPointsP_stop (by cases io <;> simp [IStream.isGood, ended])
      · simp [PointAcc.empty] at h3
    · refine readPointsP_stop ?_
      rw [Bool.and_eq_false_iff]
      right
      rw [Bool.eq_false_iff]
      exact fun h => hw (within_cond.mp h)
  | cons p ps ih =>
    obtain ⟨f, rfl⟩ : ∃ f, fuel = f + 1 := ⟨fuel - 1, by simp at hf; omega⟩
    by_cases hw : Within maxPoints i
    · rw [keptFrom_cons hw] at hfine ⊢
      obtain ⟨⟨h1, h2, h3⟩, h4⟩ := Fine.cons.mp hfine
      have he : encodePoints types (p :: ps) = encodePoint types p ++ encodePoints types ps := by
        simp [encodePoints]
      obtain ⟨d, hd⟩ : ∃ d, entryFuel (gs io (encodePoints types (p :: ps))) = p.length + (d + 1) := by
        have h1 := encodeEntries_length (types := types) p
        refine ⟨entryFuel (gs io (encodePoints types (p :: ps))) - p.length - 1, ?_⟩
        rw [he]
        simp only [entryFuel, encodePoint, List.length_append, List.length_cons, List.length_nil]
        omega
      unfold readPointsP
      simp only [gs_isGood, Bool.true_and, within_cond.mpr hw, if_true, hd]
      have hsim := MapImpl.readEntries_sim S env names types (p.length + (d + 1))
        (gs io (encodePoints types (p :: ps))) m H .empty hR
      have hres : readEntries MapImpl.history env names types (p.length + (d + 1))
          (gs io (encodePoints types (p :: ps))) H .empty =
          .ok (gs io (encodePoints types ps), H ++ entrySizes p, accAfter types H .empty p) := by
        rw [he]
        simp only [encodePoint, List.append_assoc]
        rw [readEntries_entries p (d + 1) H _ _ (hwf p (by simp)) h1 h2]
        simp only [List.cons_append, List.nil_append]
        rw [readEntries_fin]
      rw [hres] at hsim
      obtain ⟨m', h5, h6⟩ := sim_ok hsim
      rw [accAfter_empty] at h5
      rcases readEntriesP_head I env names types _ _ _ _ _ h5 with ⟨h7, h8⟩ | ⟨h7, h8⟩
      · rw [h7]
        simp only [Proc.bind, gs_isGood, if_true, finishStatement_ok h3]
        simp only [PointAcc.empty] at h8
        rcases ih f (i + 1) m' _ _ h6 (fun q hq => hwf q (by simp [hq])) h4 (by simp at hf; omega) with ⟨⟨q, hq, ha⟩, hs⟩ | ⟨ha, hs⟩
        · exact .inl ⟨⟨q, List.mem_cons_of_mem _ hq, ha⟩, hs⟩
        · refine .inr ⟨fun q hq => ?_, hs⟩
          rcases List.mem_cons.mp hq with rfl | hq
          · exact h8
          · exact ha q hq
      · refine .inl ⟨⟨p, List.mem_cons_self, fun h => ?_⟩, h7.bind _⟩
        simp only [h, List.length_nil] at h8
        omega
    · rw [keptFrom_stop hw]
      refine .inr ⟨by simp, readPointsP_stop ?_⟩
      rw [Bool.and_eq_false_iff]
      right
      rw [Bool.eq_false_iff]
      exact fun h => hw (within_cond.mp h)

/-- Reading a written trace uses the static variable exactly if a point that is read has an
auxiliary value. -/
theorem readTraceP_head {j : Job} {t : Trace} (h : j.Adds t) :
    (j.ReadsAux t ∧ (readTraceP j.env j.maxPoints (IStream.ofBytes (writeTrace t))).Stores) ∨
      (¬ j.ReadsAux t ∧ (readTraceP j.env j.maxPoints (IStream.ofBytes (writeTrace t))).Silent) := by
  have hw := h.writable
  have hk : keptFrom j.maxPoints 0 (t.points.map entriesOf) = (j.read t).map entriesOf := by
    unfold keptFrom Job.read
    split
    · rfl
    · rw [Nat.sub_zero, List.map_take]
  have hsub : ∀ p ∈ j.read t, p ∈ t.points := by
    intro p hp
    unfold Job.read at hp
    split at hp
    · exact hp
    · exact List.mem_of_mem_take hp
  have hwf : ∀ q ∈ t.points.map entriesOf, ∀ e ∈ q, e.WF t.names t.types := by
    intro q hq e he
    obtain ⟨p, hp, rfl⟩ := List.mem_map.mp hq
    simp only [entriesOf, List.mem_cons, List.mem_append, List.mem_map] at he
    rcases he with rfl | ⟨r, _, rfl⟩ | ⟨v, hv, rfl⟩ | ⟨a, _, rfl⟩
    · trivial
    · trivial
    · exact wf_entryOf hw.portable (hw.vars p hp v hv)
    · trivial
  have hpre : (j.read t) <+: t.points := by
    unfold Job.read
    split
    · exact List.prefix_refl _
    · exact List.take_prefix _ _
  have hfine : Fine j.env t.types [] (keptFrom j.maxPoints 0 (t.points.map entriesOf)) := by
    rw [hk]
    refine ⟨fun q _ e _ => ?_, ?_, fun q hq => ?_⟩
    · cases e with
      | var n t x => exact fun _ _ _ _ => h.memory _
      | _ => trivial
    · have : ((j.read t).map entriesOf).flatMap entrySizes = (j.read t).flatMap (·.sizes) := by
        rw [List.flatMap_map]
        apply flatMap_congr'
        intro p _
        exact entrySizes_entriesOf p
      rw [this, List.nil_append]
      refine hw.reserved.prefix ?_
      obtain ⟨rest, hr⟩ := hpre
      rw [← hr, List.flatMap_append]
      exact List.prefix_append _ _
    · obtain ⟨p, _, rfl⟩ := List.mem_map.mp hq
      left; rw [entryStmt_entriesOf]; rfl
  have hnt : readNameTable j.env (IStream.ofBytes (writeTrace t)) >>= (fun q => readTypeTable j.env q.2 >>= fun r => .ok (q.1, r)) =
      .ok (t.names, t.types, gs false (encodePoints t.types (t.points.map entriesOf))) := by
    have := readHeader_ok (env := j.env) (io := false) (R := encodePoints t.types (t.points.map entriesOf)) hw.header
      ⟨fun _ => h.memory _, fun _ => h.memory _⟩
    rw [← writeTrace_eq hw] at this
    exact this
  obtain ⟨⟨names, s1⟩, h1, h2⟩ := Res.bind_eq_ok.mp hnt
  obtain ⟨⟨types, s2⟩, h3, h4⟩ := Res.bind_eq_ok.mp h2
  simp only at h3
  cases h4
  have hp := readPointsP_head (io := false) (MapImpl.simHistory j.env.coin) (maxPoints := j.maxPoints)
    (t.points.map entriesOf) ((encodePoints t.types (t.points.map entriesOf)).length + 3) 0 _ [] []
    (MapImpl.simHistory j.env.coin).empty hwf hfine (by
      have := encodePoints_length (types := t.types) (t.points.map entriesOf)
      omega)
  unfold readTraceP
  rw [h1]
  simp only [Proc.bind]
  rw [h3]
  simp only [Proc.bind]
  rw [hk] at hp
  rcases hp with ⟨⟨q, hq, ha⟩, hs⟩ | ⟨ha, hs⟩
  · obtain ⟨p, hp, rfl⟩ := List.mem_map.mp hq
    rw [entryAux_entriesOf] at ha
    exact .inl ⟨⟨p, hp, ha⟩, hs.bind _⟩
  · refine .inr ⟨?_, ?_⟩
    · rintro ⟨p, hp, hne⟩
      apply hne
      rw [← entryAux_entriesOf]
      exact ha _ (List.mem_map.mpr ⟨p, hp, rfl⟩)
    · obtain ⟨r, hr⟩ := hs
      rw [hr]
      cases r <;> exact ⟨_, rfl⟩

/-! Threads -/

/-- The thread does not use the static variable any more. -/
def Thread.Quiet : Thread → Prop
  | .reading p => p.Silent
  | _ => True

theorem Thread.Quiet.not_value {th : Thread} (h : th.Quiet) (w : Bool) : th.about ≠ some (.value, w) := by
  cases th with
  | reading p =>
    obtain ⟨r, rfl⟩ := h
    simp [Thread.about]
  | _ => simp [Thread.about]

theorem step_quiet (grow : Nat → Nat) (st : AddSys) (i k : Nat) (h : ∀ th, st.threads[k]? = some th → th.Quiet) :
    ∀ th, (st.step grow i).threads[k]? = some th → th.Quiet := by
  have key : ∀ (x y : Thread), st.threads[i]? = some x → (x.Quiet → y.Quiet) →
      ∀ th, (st.threads.set i y)[k]? = some th → th.Quiet := by
    intro x y hx hq th hth
    rw [set_lookup hx] at hth
    split at hth
    · rename_i e
      subst e
      cases hth
      exact hq (h x hx)
    · exact h th hth
  unfold AddSys.step
  split
  · exact h
  · rename_i got p hx
    exact key _ _ hx (fun ⟨r, hr⟩ => by cases hr)
  · rename_i p hx
    exact key _ _ hx (fun ⟨r, hr⟩ => by cases hr)
  · rename_i hx; exact key _ _ hx fun _ => trivial
  · rename_i hx; exact key _ _ hx fun _ => trivial
  · rename_i hx; exact key _ _ hx fun _ => trivial
  · rename_i hx
    split
    · exact key _ _ hx fun _ => trivial
    · exact h
  · rename_i hx; exact key _ _ hx fun _ => trivial
  · rename_i hx; exact key _ _ hx fun _ => trivial
  · rename_i hx; exact key _ _ hx fun _ => trivial
  · exact h
  · exact h

theorem run_quiet (grow : Nat → Nat) (st : AddSys) (schedule : List Nat) (k : Nat)
    (h : ∀ th, st.threads[k]? = some th → th.Quiet) :
    ∀ th, (st.run grow schedule).threads[k]? = some th → th.Quiet := by
  unfold AddSys.run
  induction schedule generalizing st with
  | nil => exact h
  | cons i is ih => exact ih _ (step_quiet grow st i k h)

theorem about_holds {th : Thread} {w : Bool} (h : th.about = some (.traces, w)) : th.holds = true := by
  cases th with
  | reading p => cases p <;> simp [Thread.about] at h
  | pushing t => rfl
  | writing t s => rfl
  | _ => simp [Thread.about] at h

end TraceDB
