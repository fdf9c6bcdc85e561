import Verif.Proofs.DataRaceQuery
/-
How a query that is not disturbed uses the caches.
-/
namespace TraceDB

/-- The end of a thread that runs alone. -/
def RProc.final {α : Type} : RProc α → QShared → Res α × QShared
  | .done r, s => (r, s)
  | .act _ _ c n, s => (n s).final (c s)

theorem RProc.bind_alone {α β : Type} {p : RProc α} {f : α → RProc β} {s s' : QShared} {a : α}
    (h : p.final s = (.ok a, s')) :
    (p >>= f).final s = (f a).final s' ∧ (p >>= f).trail s = p.trail s ++ (f a).trail s' := by
  induction p generalizing s with
  | done r => cases h; exact ⟨rfl, rfl⟩
  | act m w c n ih =>
    have := ih s (s := c s) h
    refine ⟨this.1, ?_⟩
    show (m, w s) :: ((n s) >>= f).trail (c s) = (m, w s) :: ((n s).trail (c s)) ++ _
    rw [this.2]
    rfl

/-- What has happened when the questions `A` have been asked. -/
structure AskedAll (fs : FloatSys) (A : List (Pred × List VarInfo)) (s : QShared) (T : List (MapRef × Bool))
    (s' : QShared) : Prop where
  right : AnswersRight fs s'
  points : s'.points = s.points
  grow : AnswersGrow s s'
  maps : ∀ x ∈ T, x.1 = .answers
  any : T = [] ↔ A = []
  writes : (MapRef.answers, true) ∈ T ↔ ∃ x ∈ A, s.answers.get x.1 x.2 = none
  known : (∀ x ∈ A, (s.answers.get x.1 x.2).isSome = true) → s' = s
  after : ∀ x ∈ A, (s'.answers.get x.1 x.2).isSome = true

theorem AskedAll.append {fs : FloatSys} {A B : List (Pred × List VarInfo)} {s s1 s2 : QShared} {T U : List (MapRef × Bool)}
    (h : AskedAll fs A s T s1) (h' : AskedAll fs B s1 U s2) : AskedAll fs (A ++ B) s (T ++ U) s2 where
  right := h'.right
  points := h'.points.trans h.points
  grow p vs x := h'.grow p vs (h.grow p vs x)
  maps x hx := by
    rcases List.mem_append.mp hx with hx | hx
    · exact h.maps x hx
    · exact h'.maps x hx
  any := by simp only [List.append_eq_nil_iff, h.any, h'.any]
  writes := by
    rw [List.mem_append, h.writes, h'.writes]
    constructor
    · rintro (⟨x, hx, hn⟩ | ⟨x, hx, hn⟩)
      · exact ⟨x, List.mem_append.mpr (.inl hx), hn⟩
      · refine ⟨x, List.mem_append.mpr (.inr hx), ?_⟩
        cases hg : s.answers.get x.1 x.2 with
        | none => rfl
        | some b =>
          have := h.grow x.1 x.2 (by rw [hg]; rfl)
          rw [hn] at this
          cases this
    · rintro ⟨x, hx, hn⟩
      by_cases hA : ∃ x ∈ A, s.answers.get x.1 x.2 = none
      · exact .inl hA
      · refine .inr ⟨x, ?_, ?_⟩
        · rcases List.mem_append.mp hx with hx | hx
          · exact absurd ⟨x, hx, hn⟩ hA
          · exact hx
        · rw [h.known fun y hy => ?_]
          · exact hn
          · cases hg : s.answers.get y.1 y.2 with
            | none => exact absurd ⟨y, hy, hg⟩ hA
            | some b => rfl
  known hk := by
    have h1 := h.known fun x hx => hk x (List.mem_append.mpr (.inl hx))
    subst h1
    exact h'.known fun x hx => hk x (List.mem_append.mpr (.inr hx))
  after x hx := by
    rcases List.mem_append.mp hx with hx | hx
    · exact h'.grow _ _ (h.after x hx)
    · exact h'.after x hx

/-- A piece of work that asks `A` and gives `a`. -/
def Asking {α : Type} (fs : FloatSys) (A : List (Pred × List VarInfo)) (p : RProc α) (a : α) : Prop :=
  ∀ s, AnswersRight fs s → ∃ s', p.final s = (.ok a, s') ∧ AskedAll fs A s (p.trail s) s'

theorem Asking.done {α : Type} (fs : FloatSys) (a : α) : Asking fs [] (RProc.done (.ok a)) a :=
  fun s hs => ⟨s, rfl, hs, rfl, fun _ _ h => h, by simp [RProc.trail], by simp [RProc.trail], by simp [RProc.trail],
    fun _ => rfl, by simp⟩

theorem Asking.bind {α β : Type} {fs : FloatSys} {A B : List (Pred × List VarInfo)} {p : RProc α} {a : α}
    {f : α → RProc β} {b : β} (h : Asking fs A p a) (hf : Asking fs B (f a) b) : Asking fs (A ++ B) (p >>= f) b := by
  intro s hs
  obtain ⟨s1, h1, h2⟩ := h s hs
  obtain ⟨s2, h3, h4⟩ := hf s1 h2.right
  obtain ⟨e1, e2⟩ := RProc.bind_alone (f := f) h1
  refine ⟨s2, by rw [e1, h3], ?_⟩
  rw [e2]
  exact h2.append h4

theorem Asking.map {α β : Type} {fs : FloatSys} {A : List (Pred × List VarInfo)} {p : RProc α} {a : α}
    (h : Asking fs A p a) (g : α → β) : Asking fs A (p >>= fun x => RProc.done (.ok (g x))) (g a) := by
  have := h.bind (f := fun x => RProc.done (.ok (g x))) (Asking.done fs (g a))
  rw [List.append_nil] at this
  exact this

theorem Asking.bind_done {α β : Type} {fs : FloatSys} {A : List (Pred × List VarInfo)} {r : Res α} {a : α}
    {f : α → RProc β} {b : β} (h : r = .ok a) (hf : Asking fs A (f a) b) : Asking fs A (RProc.done r >>= f) b := by
  subst h
  exact hf

theorem answer_get (s : QShared) (p : Pred) (vs : List VarInfo) (b : Bool) :
    (s.answer p vs b).answers.get p vs = some b := by
  simp [QShared.answer, AnswerCache.get_cons, Pred.eqv_self]

theorem cachedR_asking {early : Bool} {fs : FloatSys} {p : Pred} {vs : List VarInfo} {b : Bool}
    (h : predicateSatisfied fs vs p = .ok b) : Asking fs [(p, vs)] (cachedR early fs p vs) b := by
  intro s hs
  unfold cachedR
  simp only [RProc.final, RProc.trail, id]
  cases hg : s.answers.get p vs with
  | some c =>
    have hcb : c = b := by
      have := hs p vs c hg
      rw [h] at this
      cases this; rfl
    subst hcb
    simp only [readAnswerR, RProc.final, RProc.trail, hg, Option.getD_some, Option.isNone_some]
    refine ⟨s, rfl, hs, rfl, fun _ _ h => h, by simp, by simp, by simp [hg], fun _ => rfl, by simp [hg]⟩
  | none =>
    cases early with
    | false =>
      simp only [storeAnswerR, Bool.false_eq_true, if_false, h, RProc.ok_bind, RProc.act_bind, readAnswerR, RProc.final,
        RProc.trail, answer_get, Option.getD_some, Option.isNone_some]
      refine ⟨_, rfl, answersRight_answer h hs, rfl, answersGrow_answer _ _ _ _, by simp, by simp, by simp [hg], ?_, ?_⟩
      · intro hk
        have := hk (p, vs) List.mem_cons_self
        rw [hg] at this
        cases this
      · simp [answer_get]
    | true =>
      simp only [storeAnswerR, if_true, h, RProc.ok_bind, RProc.act_bind, readAnswerR, RProc.final,
        RProc.trail, answer_get, hg, Option.getD_some, Option.isNone_some, Option.isNone_none]
      refine ⟨_, rfl, ?_, rfl, ?_, by simp, by simp, by simp [hg], ?_, ?_⟩
      · intro q ws c he
        simp only [QShared.answer, AnswerCache.get_cons] at he
        split at he
        · rename_i hq
          simp only [Bool.and_eq_true, decide_eq_true_eq] at hq
          cases he
          rw [Pred.eqv_eq _ _ hq.1, hq.2, h]
        · exact hs q ws c he
      · intro q ws hq
        exact answersGrow_answer _ _ _ _ q ws (answersGrow_answer _ _ _ _ q ws hq)
      · intro hk
        have := hk (p, vs) List.mem_cons_self
        rw [hg] at this
        cases this
      · simp [answer_get]

theorem satisfiesR_asking {early : Bool} {fs : FloatSys} {p : Pred} {point : Point} {b : List Nat} {sat : Bool}
    (hb : ∀ k ∈ b, k < point.vars.length) (h : (satisfies (plainEval fs) p point b ()).fst = .ok sat) :
    Asking fs [(p, boundVars point.vars b)] (satisfiesR early fs p point b) sat := by
  rw [satisfies_plain fs hb] at h
  have h' : predicateSatisfied fs (boundVars point.vars b) p = .ok sat := by
    cases hp : predicateSatisfied fs (boundVars point.vars b) p <;> rw [hp] at h <;> simp [Res.fst] at h
    rw [h]
  exact Asking.bind_done (lookupVars_eq _ _ hb).1 (cachedR_asking h')

theorem hardLoopR_asking {early : Bool} {fs : FloatSys} {hard : Pred} {point : Point} {bs : List (List Nat)}
    {found : List Point} (hb : ∀ b ∈ bs, ∀ k ∈ b, k < point.vars.length)
    (h : (hardLoop (plainEval fs) hard point bs ()).fst = .ok found) :
    Asking fs (bs.map fun b => (hard, boundVars point.vars b)) (hardLoopR early fs hard point bs) found := by
  induction bs generalizing found with
  | nil =>
    cases h
    exact Asking.done fs []
  | cons b bs ih =>
    have hb1 := hb b List.mem_cons_self
    have h0 := Res.fst_ok h
    simp only [hardLoop] at h0
    obtain ⟨⟨sat, u⟩, h1, h2⟩ := Res.bind_eq_ok.mp h0
    have h1' : (satisfies (plainEval fs) hard point b ()).fst = .ok sat := by rw [h1]; rfl
    unfold hardLoopR
    refine (satisfiesR_asking hb1 h1').bind (A := [_]) ?_
    cases sat with
    | false =>
      simp only [Bool.false_eq_true, if_false] at h2 ⊢
      exact ih (fun c hc => hb c (List.mem_cons_of_mem _ hc)) (by rw [h2]; rfl)
    | true =>
      simp only [if_true] at h2 ⊢
      obtain ⟨vars, h3, h4⟩ := Res.bind_eq_ok.mp h2
      obtain ⟨⟨rest, u2⟩, h5, h6⟩ := Res.bind_eq_ok.mp h4
      cases h6
      refine Asking.bind_done h3 ?_
      exact (ih (found := rest) (fun c hc => hb c (List.mem_cons_of_mem _ hc)) (by rw [h5]; rfl)).map _

theorem softCountR_asking {early : Bool} {fs : FloatSys} {r : Point} {b : List Nat} {ps : List Pred} {n : Nat}
    (hb : ∀ k ∈ b, k < r.vars.length) (h : (softCount (plainEval fs) r b ps ()).fst = .ok n) :
    Asking fs (ps.map fun p => (p, boundVars r.vars b)) (softCountR early fs r b ps) n := by
  induction ps generalizing n with
  | nil =>
    cases h
    exact Asking.done fs 0
  | cons p ps ih =>
    have h0 := Res.fst_ok h
    simp only [softCount] at h0
    obtain ⟨⟨sat, u⟩, h1, h2⟩ := Res.bind_eq_ok.mp h0
    obtain ⟨⟨k, u2⟩, h3, h4⟩ := Res.bind_eq_ok.mp h2
    cases h4
    unfold softCountR
    refine (satisfiesR_asking hb (by rw [h1]; rfl)).bind (A := [_]) ?_
    exact (ih (n := k) (by rw [h3]; rfl)).map _

theorem softCountsR_asking {early : Bool} {fs : FloatSys} {soft : List Pred} {b : List Nat} {rs : List Point}
    {ns : List Nat} (hb : ∀ r ∈ rs, ∀ k ∈ b, k < r.vars.length)
    (h : (softCounts (plainEval fs) soft b rs ()).fst = .ok ns) :
    Asking fs (rs.flatMap fun r => soft.map fun p => (p, boundVars r.vars b)) (softCountsR early fs soft b rs) ns := by
  induction rs generalizing ns with
  | nil =>
    cases h
    exact Asking.done fs []
  | cons r rs ih =>
    have h0 := Res.fst_ok h
    simp only [softCounts] at h0
    obtain ⟨⟨n, u⟩, h1, h2⟩ := Res.bind_eq_ok.mp h0
    obtain ⟨⟨ms, u2⟩, h3, h4⟩ := Res.bind_eq_ok.mp h2
    cases h4
    unfold softCountsR
    rw [List.flatMap_cons]
    refine (softCountR_asking (hb r List.mem_cons_self) (by rw [h1]; rfl)).bind ?_
    exact (ih (ns := ms) (fun c hc => hb c (List.mem_cons_of_mem _ hc)) (by rw [h3]; rfl)).map _

/-- The results of the loop over bindings are the satisfying ones. -/
theorem hardLoop_found {fs : FloatSys} {hard : Pred} {point : Point} {bs : List (List Nat)} {found : List Point}
    (hb : ∀ b ∈ bs, ∀ k ∈ b, k < point.vars.length)
    (h : hardLoop (plainEval fs) hard point bs () = .ok (found, ())) (vs : List VarInfo) :
    (∃ r ∈ found, r.vars = vs) ↔
      ∃ b ∈ bs, boundVars point.vars b = vs ∧ predicateSatisfied fs vs hard = .ok true := by
  induction bs generalizing found with
  | nil => simp only [hardLoop] at h; cases h; simp
  | cons b bs ih =>
    have hb1 := hb b List.mem_cons_self
    have hb2 : ∀ c ∈ bs, ∀ k ∈ c, k < point.vars.length := fun c hc => hb c (List.mem_cons_of_mem _ hc)
    simp only [hardLoop] at h
    rw [satisfies_plain fs hb1] at h
    obtain ⟨⟨sat, u⟩, h1, h2⟩ := Res.bind_eq_ok.mp h
    obtain ⟨x, h1a, h1b⟩ := Res.bind_eq_ok.mp h1
    cases h1b
    cases sat with
    | false =>
      simp only [Bool.false_eq_true, if_false] at h2
      rw [ih hb2 h2]
      constructor
      · rintro ⟨c, hc, hv⟩
        exact ⟨c, List.mem_cons_of_mem _ hc, hv⟩
      · rintro ⟨c, hc, hv, hs⟩
        rcases List.mem_cons.mp hc with rfl | hc
        · rw [hv, hs] at h1a
          cases h1a
        · exact ⟨c, hc, hv, hs⟩
    | true =>
      simp only [if_true] at h2
      obtain ⟨vars, h3, h4⟩ := Res.bind_eq_ok.mp h2
      obtain ⟨⟨rest, u2⟩, h5, h6⟩ := Res.bind_eq_ok.mp h4
      cases h6
      rw [(lookupVars_eq _ _ hb1).1] at h3
      cases h3
      have ih' := ih hb2 h5
      constructor
      · rintro ⟨r, hr, rfl⟩
        rcases List.mem_cons.mp hr with rfl | hr
        · exact ⟨b, List.mem_cons_self, rfl, h1a⟩
        · obtain ⟨c, hc, hv⟩ := ih'.mp ⟨r, hr, rfl⟩
          exact ⟨c, List.mem_cons_of_mem _ hc, hv⟩
      · rintro ⟨c, hc, hv, hs⟩
        rcases List.mem_cons.mp hc with rfl | hc
        · exact ⟨_, List.mem_cons_self, hv⟩
        · obtain ⟨r, hr, hrv⟩ := ih'.mpr ⟨c, hc, hv, hs⟩
          exact ⟨r, List.mem_cons_of_mem _ hr, hrv⟩

/-- What is asked at a point. -/
def AsksAt (fs : FloatSys) (variables : List FreeVar) (hard : Pred) (soft : List Pred) (point : Point) (p : Pred)
    (vs : List VarInfo) : Prop :=
  ∃ b, IsBinding variables point.vars b ∧ vs = boundVars point.vars b ∧
    (p = hard ∨ p ∈ soft ∧ predicateSatisfied fs vs hard = .ok true)

/-- `A` lists what satisfies `P`. -/
def Lists (A : List (Pred × List VarInfo)) (P : Pred → List VarInfo → Prop) : Prop :=
  ∀ p vs, (p, vs) ∈ A ↔ P p vs

theorem all_combinations {env : Env} {variables : List FreeVar} {vars : List VarInfo} {bs : List (List Nat)}
    (hlt : combinations variables vars < 2 ^ 64)
    (h : cartesian env (variables.map fun fv => matchingVars fv vars) = .ok bs) (b : List Nat) :
    b ∈ bs ↔ IsBinding variables vars b := by
  rw [← sizeProduct_matching] at hlt
  unfold cartesian at h
  simp only [cartesianCount_eq] at h
  split at h
  · rw [cartesianLoop_range _ _ (Nat.mod_le _ _), Nat.mod_eq_of_lt hlt, ← length_combos, List.take_length] at h
    cases h
    exact mem_combos_matching _ _ _
  · cases h

theorem collectR_asking {early : Bool} {fs : FloatSys} {env : Env} {point : Point} {variables : List FreeVar}
    {hard : Pred} {soft : List Pred} {rs : List Point} (hlt : combinations variables point.vars < 2 ^ 64)
    (h : (collectResults env (plainEval fs) point variables hard soft ()).fst = .ok rs) :
    ∃ A, Lists A (AsksAt fs variables hard soft point) ∧
      Asking fs A (collectR early fs env point variables hard soft) rs := by
  have h0 := Res.fst_ok h
  unfold collectResults at h0
  obtain ⟨first, h1, h2⟩ := Res.bind_eq_ok.mp h0
  split at h2
  · cases h2
  rename_i hsmall
  obtain ⟨bs, h3, h4⟩ := Res.bind_eq_ok.mp h2
  obtain ⟨⟨found, u⟩, h5, h6⟩ := Res.bind_eq_ok.mp h4
  have hbs := all_combinations hlt h3
  have hin : ∀ b ∈ bs, ∀ k ∈ b, k < point.vars.length := fun b hb => binding_inrange ((hbs b).mp hb)
  have hhard := hardLoopR_asking (early := early) hin (by rw [h5]; rfl)
  have hfound := hardLoop_found hin h5
  simp only at h6
  split at h6
  · rename_i hsoft
    cases h6
    refine ⟨bs.map fun b => (hard, boundVars point.vars b), fun p vs => ?_, ?_⟩
    · have hs : soft = [] := by simpa using hsoft
      subst hs
      simp only [List.mem_map, Prod.mk.injEq, AsksAt, hbs]
      constructor
      · rintro ⟨b, hb, rfl, rfl⟩
        exact ⟨b, hb, rfl, .inl rfl⟩
      · rintro ⟨b, hb, rfl, h | h⟩
        · exact ⟨b, hb, h.symm, rfl⟩
        · simp at h
    · unfold collectR
      refine Asking.bind_done h1 ?_
      rw [if_neg hsmall]
      refine Asking.bind_done h3 ?_
      simp only [hsoft, if_true]
      exact hhard.map _
  · rename_i hsoft
    obtain ⟨⟨counts, u2⟩, h7, h8⟩ := Res.bind_eq_ok.mp h6
    split at h8
    · cases h8
    rename_i hfew
    cases h8
    -- the variables of the results
    have hvars : ∀ vs, (∃ r ∈ first ++ found, r.vars = vs) ↔
        ∃ b, IsBinding variables point.vars b ∧ boundVars point.vars b = vs ∧
          predicateSatisfied fs vs hard = .ok true := by
      intro vs
      have h' : (∃ r ∈ found, r.vars = vs) ↔ ∃ b, IsBinding variables point.vars b ∧ boundVars point.vars b = vs ∧
          predicateSatisfied fs vs hard = .ok true := by
        rw [hfound]
        constructor
        · rintro ⟨b, hb, hv⟩; exact ⟨b, (hbs b).mp hb, hv⟩
        · rintro ⟨b, hb, hv⟩; exact ⟨b, (hbs b).mpr hb, hv⟩
      rw [← h']
      unfold firstResults at h1
      split at h1
      · rename_i hemp
        split at h1
        · rename_i hnull
          cases h1
          have hv0 : variables = [] := by simpa using hemp
          subst hv0
          constructor
          · rintro ⟨r, hr, rfl⟩
            rcases List.mem_append.mp hr with hr | hr
            · simp only [List.mem_singleton] at hr
              subst hr
              refine h'.mpr ⟨[], ⟨rfl, by simp⟩, rfl, ?_⟩
              obtain ⟨k, d, cs⟩ := hard
              simp only [Pred.kind] at hnull
              subst hnull
              rfl
            · exact ⟨r, hr, rfl⟩
          · rintro ⟨r, hr, hv⟩
            exact ⟨r, List.mem_append.mpr (.inr hr), hv⟩
        · cases h1
      · cases h1
        simp
    have hlen : ∀ r ∈ first ++ found, r.vars.length = variables.length := by
      intro r hr
      obtain ⟨b, hb, hv, _⟩ := (hvars r.vars).mp ⟨r, hr, rfl⟩
      rw [← hv, (lookupVars_eq _ _ (binding_inrange hb)).2, hb.1]
    have hsoftA := softCountsR_asking (early := early) (fs := fs) (soft := soft) (b := List.range variables.length)
      (rs := first ++ found) (ns := counts)
      (fun r hr k hk => by rw [hlen r hr]; exact List.mem_range.mp hk) (by rw [h7]; rfl)
    refine ⟨(bs.map fun b => (hard, boundVars point.vars b)) ++
        (first ++ found).flatMap fun r => soft.map fun p => (p, boundVars r.vars (List.range variables.length)),
      fun p vs => ?_, ?_⟩
    · simp only [List.mem_append, List.mem_map, Prod.mk.injEq, List.mem_flatMap, AsksAt, hbs]
      constructor
      · rintro (⟨b, hb, rfl, rfl⟩ | ⟨r, hr, q, hq, rfl, rfl⟩)
        · exact ⟨b, hb, rfl, .inl rfl⟩
        · have hr' : r ∈ first ++ found := List.mem_append.mpr hr
          rw [← hlen r hr', boundVars_range]
          obtain ⟨b, hb, hv, hs⟩ := (hvars r.vars).mp ⟨r, hr', rfl⟩
          exact ⟨b, hb, hv.symm, .inr ⟨hq, hs⟩⟩
      · rintro ⟨b, hb, rfl, rfl | ⟨hq, hs⟩⟩
        · exact .inl ⟨b, hb, rfl, rfl⟩
        · obtain ⟨r, hr, hv⟩ := (hvars (boundVars point.vars b)).mpr ⟨b, hb, rfl, hs⟩
          refine .inr ⟨r, List.mem_append.mp hr, p, hq, rfl, ?_⟩
          rw [← hlen r hr, boundVars_range, hv]
    · unfold collectR
      refine Asking.bind_done h1 ?_
      rw [if_neg hsmall]
      refine Asking.bind_done h3 ?_
      simp only [hsoft, if_false]
      refine hhard.bind ?_
      have := hsoftA.map (keepMax · (first ++ found))
      simp only [hfew, if_false]
      exact this

theorem queryAllR_asking {early : Bool} {fs : FloatSys} {env : Env} {variables : List FreeVar}
    {hard : Pred} {soft : List Pred} {ps rs : List Point} (hlt : ∀ p ∈ ps, combinations variables p.vars < 2 ^ 64)
    (h : (queryAll env (plainEval fs) variables hard soft ps ()).fst = .ok rs) :
    ∃ A, Lists A (fun p vs => ∃ point ∈ ps, AsksAt fs variables hard soft point p vs) ∧
      Asking fs A (queryAllR early fs env variables hard soft ps) rs := by
  induction ps generalizing rs with
  | nil =>
    cases h
    exact ⟨[], fun p vs => by simp, Asking.done fs []⟩
  | cons p ps ih =>
    have h0 := Res.fst_ok h
    simp only [queryAll] at h0
    obtain ⟨⟨r, u⟩, h1, h2⟩ := Res.bind_eq_ok.mp h0
    obtain ⟨⟨rest, u2⟩, h3, h4⟩ := Res.bind_eq_ok.mp h2
    cases h4
    obtain ⟨A, hA, hA'⟩ := collectR_asking (early := early) (hlt p List.mem_cons_self) (by rw [h1]; rfl)
    obtain ⟨B, hB, hB'⟩ := ih (rs := rest) (fun q hq => hlt q (List.mem_cons_of_mem _ hq)) (by rw [h3]; rfl)
    refine ⟨A ++ B, fun q vs => ?_, ?_⟩
    · rw [List.mem_append, hA q vs, hB q vs]
      simp [List.mem_cons, or_and_right, exists_or]
    · unfold queryAllR
      exact hA'.bind (hB'.map _)

theorem queryPointsR_asking {early : Bool} {fs : FloatSys} {env : Env} {pick : U32 → Nat → Nat} {traces : Nat → Trace}
    {j : QueryJob} {rs : List Point}
    (hlt : ∀ p ∈ j.chosen pick traces, combinations j.query.variables p.vars < 2 ^ 64)
    (h : (queryPoints env pick (plainEval fs) (passing (traces j.trace).points j.query.mask j.query.stmt)
      j.query.variables j.query.hard j.query.soft j.query.seed ()).fst = .ok rs) :
    ∃ A, Lists A (j.Asks fs pick traces) ∧
      Asking fs A (queryPointsR early fs env pick j.query (passing (traces j.trace).points j.query.mask j.query.stmt)) rs := by
  have hasks : ∀ p vs, j.Asks fs pick traces p vs ↔
      ∃ point ∈ j.chosen pick traces, AsksAt fs j.query.variables j.query.hard j.query.soft point p vs := by
    intro p vs
    constructor
    · rintro (⟨hp, hb⟩ | ⟨hp, hb, hs, hq⟩)
      · exact ⟨_, hp, _, hb, rfl, .inl rfl⟩
      · exact ⟨_, hp, _, hb, rfl, .inr ⟨hq, hs⟩⟩
    · rintro ⟨point, hp, b, hb, rfl, rfl | ⟨hq, hs⟩⟩
      · exact .hard hp hb
      · exact .soft hp hb hs hq
  unfold QueryJob.chosen at hlt hasks
  generalize hps : passing (traces j.trace).points j.query.mask j.query.stmt = ps at h hlt hasks ⊢
  unfold queryPoints at h
  unfold queryPointsR
  by_cases hseed : j.query.seed = 0
  · simp only [hseed, ne_eq, not_true, if_false, if_true] at h hlt hasks ⊢
    obtain ⟨A, h1, h2⟩ := queryAllR_asking (early := early) hlt h
    exact ⟨A, fun p vs => by rw [h1, hasks], h2⟩
  · simp only [hseed, ne_eq, not_false_eq_true, if_true, if_false] at h hlt hasks ⊢
    split at h
    · rename_i hemp
      cases h
      have : ps = [] := by simpa using hemp
      subst this
      simp only [List.isEmpty_nil, if_true]
      exact ⟨[], fun p vs => by rw [hasks]; simp, Asking.done fs []⟩
    · rename_i hemp
      simp only [hemp, if_false]
      cases hp : ps[pick j.query.seed ps.length]? with
      | none => rw [hp] at h; cases h
      | some point =>
        rw [hp] at h hlt
        simp only [hp, Option.toList_some, List.mem_singleton] at hlt hasks
        obtain ⟨A, h1, h2⟩ := collectR_asking (early := early) (hlt point rfl) h
        exact ⟨A, fun p vs => by rw [h1, hasks]; simp, h2⟩

/-! The filter -/

theorem copyPointsR_alone {i : Nat} {mask stmt : U64} {s : QShared} {ps : List Point}
    (h : s.get i (mask, stmt) = some ps) :
    (copyPointsR i mask stmt).final s = (.ok ps, s) ∧ (copyPointsR i mask stmt).trail s = [(.points i, false)] := by
  simp [copyPointsR, RProc.final, RProc.trail, h]

theorem fillR_alone (i : Nat) (mask stmt : U64) (ps : List Point) (s : QShared) (acc : List Point)
    (h : s.get i (mask, stmt) = some acc) :
    ∃ s', (fillR i mask stmt ps).final s = (.ok (), s') ∧ s'.answers = s.answers ∧
      s'.get i (mask, stmt) = some (acc ++ filterPoints ps mask stmt) ∧
      (∀ k, k ≠ i → s'.points k = s.points k) ∧
      (∀ k key, (s.get k key).isSome = true → (s'.get k key).isSome = true) ∧
      (∀ k key ps, s'.get k key = some ps → key = (mask, stmt) ∧ k = i ∨ s.get k key = some ps) ∧
      ∀ x ∈ (fillR i mask stmt ps).trail s, x.1 = .points i := by
  induction ps generalizing s acc with
  | nil =>
    exact ⟨s, rfl, rfl, by simp [filterPoints, h], fun _ _ => rfl, fun _ _ h => h, fun _ _ _ h => .inr h,
      by simp [fillR, RProc.trail]⟩
  | cons p ps ih =>
    unfold fillR
    cases hp : (p.statement &&& mask == stmt) with
    | false =>
      have : filterPoints (p :: ps) mask stmt = filterPoints ps mask stmt := by simp [filterPoints, hp]
      simp only [Bool.false_eq_true, if_false, this]
      exact ih s acc h
    | true =>
      have : filterPoints (p :: ps) mask stmt = p :: filterPoints ps mask stmt := by simp [filterPoints, hp]
      simp only [if_true, this, RProc.final, RProc.trail, h, Option.getD_some]
      obtain ⟨s', h1, h2, h3, h4, h4', h5, h6⟩ := ih (s.set i (mask, stmt) (acc ++ [p])) (acc ++ [p]) (by simp)
      refine ⟨s', h1, h2, by rw [h3, List.append_assoc]; rfl, fun k hk => ?_, fun k key hk => h4' k key ?_,
        fun k key qs hk => ?_, ?_⟩
      · rw [h4 k hk]
        simp [QShared.set, hk]
      · rw [QShared.get_set]
        split
        · rfl
        · exact hk
      · rcases h5 k key qs hk with h | h
        · exact .inl h
        · rw [QShared.get_set] at h
          split at h
          · rename_i e; exact .inl ⟨e.2, e.1⟩
          · exact .inr h
      · intro x hx
        rcases List.mem_cons.mp hx with rfl | hx
        · rfl
        · exact h6 x hx

/-- What `getPoints` does alone. -/
theorem getPointsR_alone (i : Nat) (points : List Point) (mask stmt : U64) (s : QShared)
    (hs : ∀ ps, s.get i (mask, stmt) = some ps → ps = passing points mask stmt) :
    ∃ s', (getPointsR i points mask stmt).final s = (.ok (passing points mask stmt), s') ∧ s'.answers = s.answers ∧
      (∀ k key, (s.get k key).isSome = true → (s'.get k key).isSome = true) ∧
      (∀ k key ps, s'.get k key = some ps → key = (mask, stmt) ∧ k = i ∧ ps = passing points mask stmt ∨
        s.get k key = some ps) ∧
      (s'.get i (mask, stmt)).isSome = true ∧
      (∃ w, (MapRef.points i, w) ∈ (getPointsR i points mask stmt).trail s) ∧
      (∀ x ∈ (getPointsR i points mask stmt).trail s, x.1 = .points i) ∧
      ((MapRef.points i, true) ∈ (getPointsR i points mask stmt).trail s ↔ s.get i (mask, stmt) = none) := by
  unfold getPointsR
  simp only [RProc.final, RProc.trail, id]
  cases hg : s.get i (mask, stmt) with
  | some ps =>
    have := hs ps hg
    subst this
    obtain ⟨h1, h2⟩ := copyPointsR_alone hg
    refine ⟨s, h1, rfl, fun _ _ h => h, fun _ _ _ h => .inr h, by rw [hg]; rfl, ⟨false, List.mem_cons_self⟩, ?_, ?_⟩
    · simp only [h2]
      simp
    · simp only [h2]
      simp
  | none =>
    simp only [RProc.final, RProc.trail]
    obtain ⟨s', h1, h2, h3, h4, h4', h5, h6⟩ := fillR_alone i mask stmt points (s.set i (mask, stmt) []) [] (by simp)
    rw [List.nil_append, filterPoints_passing] at h3
    obtain ⟨h7, h8⟩ := copyPointsR_alone h3
    obtain ⟨e1, e2⟩ := RProc.bind_alone (f := fun _ => copyPointsR i mask stmt) h1
    refine ⟨s', by rw [e1, h7], h2, fun k key hk => h4' k key ?_, fun k key ps hk => ?_, by rw [h3]; rfl,
      ⟨false, List.mem_cons_self⟩, ?_, ?_⟩
    · rw [QShared.get_set]
      split
      · rfl
      · exact hk
    · by_cases e : key = (mask, stmt) ∧ k = i
      · obtain ⟨rfl, rfl⟩ := e
        rw [h3] at hk
        cases hk
        exact .inl ⟨rfl, rfl, rfl⟩
      · rcases h5 k key ps hk with h | h
        · exact absurd h e
        · rw [QShared.get_set, if_neg (fun h => e ⟨h.2, h.1⟩)] at h
          exact .inr h
    · intro x hx
      rw [e2, h8] at hx
      simp only [List.mem_cons, List.mem_append, List.not_mem_nil, or_false] at hx
      rcases hx with rfl | rfl | hx | rfl
      · rfl
      · rfl
      · exact h6 x hx
      · rfl
    · simp

end TraceDB
