import Verif.Spec.QueryFail
import Verif.Proofs.ConcurrentQueryRace
import Verif.Proofs.ConcurrentQuerySound
/-
Lemmas for `Verif.Props.QueryFail`.
-/
namespace TraceDB

theorem QProc.Safe.weaken {α : Type} {R R' G G' : QShared → QShared → Prop} {Q : QShared → Res α → Prop}
    (hR : ∀ a b, R' a b → R a b) (hG : ∀ a b, G a b → G' a b) {s : QShared} {p : QProc α}
    (h : p.Safe R G Q s) : p.Safe R' G' Q s := by
  induction p generalizing s with
  | done r => exact h
  | act c n ih => exact fun s' hr => ⟨hG _ _ (h s' (hR _ _ hr)).1, ih s' (h s' (hR _ _ hr)).2⟩

theorem QProc.Safe.finish {α : Type} {G : QShared → QShared → Prop} {Q : QShared → Res α → Prop} {s : QShared}
    {p : QProc α} (h : p.Safe NoRely G Q s) : Q (p.finish s).2 (p.finish s).1 := by
  induction p generalizing s with
  | done r => exact h
  | act c n ih => exact ih s (h s rfl).2

theorem QProc.Safe.finished {α : Type} {G : QShared → QShared → Prop} {Q : QShared → Res α → Prop} {s : QShared}
    {p : QProc α} (h : p.Safe NoRely G Q s) {n : Nat} {r : Res α} {s' : QShared}
    (hn : p.advance n s = (.done r, s')) : Q s' r := by
  induction n generalizing s p with
  | zero =>
    simp only [QProc.advance, Prod.mk.injEq] at hn
    obtain ⟨rfl, rfl⟩ := hn
    exact h
  | succ n ih =>
    cases p with
    | done r' =>
      simp only [QProc.advance, Prod.mk.injEq] at hn
      obtain ⟨hr, rfl⟩ := hn
      cases hr
      exact h
    | act c k => exact ih (h s rfl).2 hn

/-- What every step keeps holds at any time. -/
theorem QProc.Safe.always {α : Type} {G : QShared → QShared → Prop} {Q : QShared → Res α → Prop} {s : QShared}
    {I : QShared → Prop} (hI : ∀ a b, G a b → I a → I b) {p : QProc α} (h : p.Safe NoRely G Q s) (hs : I s) :
    (∀ n, I (p.advance n s).2) ∧ I (p.finish s).2 := by
  induction p generalizing s with
  | done r => exact ⟨fun n => by cases n <;> exact hs, hs⟩
  | act c k ih =>
    have h' := h s rfl
    have hs' := hI _ _ h'.1 hs
    obtain ⟨h1, h2⟩ := ih s h'.2 hs'
    refine ⟨fun n => ?_, h2⟩
    cases n with
    | zero => exact hs
    | succ n => exact h1 n

/-- What every step keeps holds in the end. -/
theorem QProc.Safe.carry {α : Type} {G : QShared → QShared → Prop} {Q : QShared → Res α → Prop} {s : QShared}
    {I : QShared → Prop} (hI : ∀ a b, G a b → I a → I b) {p : QProc α} (h : p.Safe NoRely G Q s) (hs : I s) :
    p.Safe NoRely G (fun s r => Q s r ∧ I s) s := by
  induction p generalizing s with
  | done r => exact ⟨h, hs⟩
  | act c k ih =>
    rintro s' rfl
    exact ⟨(h _ rfl).1, ih _ (h _ rfl).2 (hI _ _ (h _ rfl).1 hs)⟩

/-- An invariant of the caches survives every query, whether it fails or not. -/
theorem Attempt.run_keeps {early : Bool} {fs : FloatSys} {env : Env} {pick : U32 → Nat → Nat} {traces : Nat → Trace}
    {a : Attempt} {s : QShared} {G : QShared → QShared → Prop} {Q : QShared → Res (List Point) → Prop}
    {I : QShared → Prop} (hI : ∀ a b, G a b → I a → I b)
    (h : (queryP early fs env pick traces a.job).Safe NoRely G Q s) (hs : I s) :
    I (a.run early fs env pick traces s).2 ∧ ∀ r, (a.run early fs env pick traces s).1 = some r →
      Q (a.run early fs env pick traces s).2 r := by
  obtain ⟨h1, h2⟩ := h.always hI hs
  unfold Attempt.run
  split
  · exact ⟨h2, fun r hr => by cases hr; exact h.finish⟩
  · rename_i n hn
    have h3 := h1 n
    split
    · rename_i r s' he
      rw [he] at h3
      exact ⟨h3, fun r' hr => by cases hr; exact h.finished he⟩
    · rename_i c k s' he
      rw [he] at h3
      exact ⟨h3, fun r' hr => nomatch hr⟩

/-- The list of a job. -/
abbrev QueryJob.pts (traces : Nat → Trace) (j : QueryJob) : List Point :=
  filterPoints (traces j.trace).points j.query.mask j.query.stmt

/-- The caches while the query of `j` is made, which began with `s0`. -/
structure During (fs : FloatSys) (traces : Nat → Trace) (j : QueryJob) (s0 s : QShared) : Prop where
  answers : AnswersRight fs s
  others : ∀ i key, ¬ (i = j.trace ∧ key = (j.query.mask, j.query.stmt)) → s.get i key = s0.get i key
  warm : ∀ ps, j.own s0 = some ps → j.own s = some ps
  cold : j.own s0 = none → j.own s = none ∨ ∃ k, j.own s = some ((j.pts traces).take k)

theorem During.refl {fs : FloatSys} {traces : Nat → Trace} {j : QueryJob} {s : QShared} (h : AnswersRight fs s) :
    During fs traces j s s :=
  ⟨h, fun _ _ _ => rfl, fun _ h => h, fun h => Or.inl h⟩

/-- All lists. -/
def anyList (o : QShared → Option (List Point)) : Prop := ∃ i key, o = fun s => s.get i key

theorem During.guar {fs : FloatSys} {traces : Nat → Trace} {j : QueryJob} {s0 a b : QShared}
    (hg : Guar fs anyList a b) (h : During fs traces j s0 a) : During fs traces j s0 b := by
  have hs : ∀ i key, b.get i key = a.get i key := fun i key => hg.same _ ⟨i, key, rfl⟩
  have ho : j.own b = j.own a := hs _ _
  exact ⟨hg.right h.answers, fun i key hk => by rw [hs, h.others i key hk], fun ps hp => by rw [ho]; exact h.warm ps hp,
    fun hc => by rw [ho]; exact h.cold hc⟩

/-- Steps that keep `During`. -/
def KeepsDuring (fs : FloatSys) (traces : Nat → Trace) (j : QueryJob) (s0 a b : QShared) : Prop :=
  During fs traces j s0 a → During fs traces j s0 b

theorem restP_keeps {fs : FloatSys} {traces : Nat → Trace} {j : QueryJob} {s0 : QShared} (env : Env)
    (pick : U32 → Nat → Nat) (ps : List Point) {s : QShared} (hs : AnswersRight fs s) (ho : j.own s = some ps) :
    (restP false fs env pick j ps).Safe NoRely (KeepsDuring fs traces j s0)
      (fun s r => r = answerOver fs env pick j ps ∧ j.own s = some ps) s := by
  have h := (queryPointsP_gives (cachedP_gives (fs := fs) (own := fun _ => none) (others := anyList)
    (fun _ _ _ _ => rfl) (by rintro _ ⟨i, key, rfl⟩ _ _ _ _; rfl) none) env pick j.query ps).bind
    (f := fun rs => QProc.done (.ok (if j.keepDuplicates then rs else deduplicate rs)))
    (g := fun rs => Res.ok (if j.keepDuplicates then rs else deduplicate rs)) (fun rs _ => Gives.done _)
  have h1 := (h s ⟨hs, rfl⟩).weaken (R' := NoRely) (by
    rintro a b rfl
    exact ⟨id, fun _ _ h => h, rfl⟩) (fun _ _ hg => hg)
  have h2 := h1.carry (I := fun s => j.own s = some ps) (fun a b hg ha => by
    have : j.own b = j.own a := hg.same _ ⟨_, _, rfl⟩
    rw [this]; exact ha) ho
  refine (h2.mono ?_).weaken (fun _ _ h => h) (fun a b hg ha => ha.guar hg)
  rintro _ r ⟨⟨_, rfl⟩, h⟩
  exact ⟨rfl, h⟩

theorem fillP_keeps {fs : FloatSys} {traces : Nat → Trace} {j : QueryJob} {s0 : QShared} (hcold : j.own s0 = none)
    {β : Type} {f : Unit → QProc β} {Q : QShared → Res β → Prop}
    (hf : ∀ s, During fs traces j s0 s → j.own s = some (j.pts traces) →
      (f ()).Safe NoRely (KeepsDuring fs traces j s0) Q s)
    (ps done : List Point) (hd : (traces j.trace).points = done ++ ps) {s : QShared} (hs : During fs traces j s0 s)
    (ho : j.own s = some (filterPoints done j.query.mask j.query.stmt)) :
    (fillP j.trace j.query.mask j.query.stmt ps >>= f).Safe NoRely (KeepsDuring fs traces j s0) Q s := by
  induction ps generalizing done s with
  | nil => exact hf s hs (by rw [ho]; unfold QueryJob.pts; rw [hd, List.append_nil])
  | cons p ps ih =>
    unfold fillP
    split
    · rename_i hp
      simp only [QProc.act_bind]
      rintro s' rfl
      have hown : s'.get j.trace (j.query.mask, j.query.stmt) =
          some (filterPoints done j.query.mask j.query.stmt) := ho
      simp only [hown, Option.getD_some]
      have e1 : filterPoints done j.query.mask j.query.stmt ++ [p] =
          filterPoints (done ++ [p]) j.query.mask j.query.stmt := by
        simp [filterPoints, hp]
      rw [e1]
      have hd' : (traces j.trace).points = (done ++ [p]) ++ ps := by rw [hd]; simp
      have hnew : During fs traces j s0 (s'.set j.trace (j.query.mask, j.query.stmt)
          (filterPoints (done ++ [p]) j.query.mask j.query.stmt)) := by
        refine ⟨hs.answers, fun i key hk => ?_, fun ps' hp' => ?_, fun _ => Or.inr ?_⟩
        · rw [QShared.get_set, if_neg hk, hs.others i key hk]
        · rw [hcold] at hp'; cases hp'
        · refine ⟨(filterPoints (done ++ [p]) j.query.mask j.query.stmt).length, ?_⟩
          have e2 : j.pts traces = filterPoints (done ++ [p]) j.query.mask j.query.stmt ++
              filterPoints ps j.query.mask j.query.stmt := by
            unfold QueryJob.pts
            rw [hd']; simp only [filterPoints, List.filter_append]
          rw [e2, List.take_left]
          simp [QueryJob.own]
      exact ⟨fun _ => hnew, ih (done ++ [p]) hd' hnew (by simp [QueryJob.own])⟩
    · rename_i hp
      refine ih (done ++ [p]) (by rw [hd]; simp) hs ?_
      rw [ho]
      congr 1
      simp only [filterPoints, List.filter_append, List.filter_cons, List.filter_nil]
      rw [if_neg hp, List.append_nil]

theorem copyPointsP_keeps {β : Type} {j : QueryJob} {s : QShared} {ps : List Point} {f : List Point → QProc β}
    {G : QShared → QShared → Prop} (hG : ∀ a, G a a)
    {Q : QShared → Res β → Prop} (ho : j.own s = some ps) (hf : (f ps).Safe NoRely G Q s) :
    (copyPointsP j.trace j.query.mask j.query.stmt >>= f).Safe NoRely G Q s := by
  rintro s' rfl
  have h : s'.get j.trace (j.query.mask, j.query.stmt) = some ps := ho
  simp only [h, Option.getD_some]
  exact ⟨hG _, hf⟩

/-- What a query does to the caches and what it gives. -/
theorem queryP_keeps {fs : FloatSys} {traces : Nat → Trace} {j : QueryJob} {s0 : QShared} (env : Env)
    (pick : U32 → Nat → Nat) (hs : AnswersRight fs s0) :
    (queryP false fs env pick traces j).Safe NoRely (KeepsDuring fs traces j s0)
      (fun s r => r = answerOver fs env pick j ((j.own s0).getD (j.pts traces)) ∧
        j.own s = some ((j.own s0).getD (j.pts traces))) s0 := by
  rw [queryP_eq]
  rintro s' rfl
  refine ⟨fun h => h, ?_⟩
  cases ho : j.own s' with
  | some ps =>
    have h : s'.get j.trace (j.query.mask, j.query.stmt) = some ps := ho
    simp only [h, Option.getD_some]
    exact copyPointsP_keeps (fun _ h => h) ho (restP_keeps env pick ps hs ho)
  | none =>
    have h : s'.get j.trace (j.query.mask, j.query.stmt) = none := ho
    simp only [h, Option.getD_none]
    show ((QProc.act _ _ : QProc (List Point)) >>= _).Safe _ _ _ _
    simp only [QProc.act_bind, bind_bind]
    rintro s2 rfl
    have h0 : During fs traces j s2 (s2.set j.trace (j.query.mask, j.query.stmt) []) := by
      refine ⟨hs, fun i key hk => ?_, fun ps' hp' => ?_, fun _ => Or.inr ⟨0, ?_⟩⟩
      · rw [QShared.get_set, if_neg hk]
      · rw [ho] at hp'; cases hp'
      · simp [QueryJob.own]
    refine ⟨fun _ => h0, ?_⟩
    refine fillP_keeps ho (f := fun _ => copyPointsP j.trace j.query.mask j.query.stmt >>= restP false fs env pick j)
      ?_ (traces j.trace).points [] rfl h0 (by simp [QueryJob.own, filterPoints])
    intro s3 h3 ho3
    exact copyPointsP_keeps (fun _ h => h) ho3 (restP_keeps env pick _ h3.answers ho3)

/-! Histories. -/

/-- The caches between queries: the answers are right, and the lists are beginnings of the right ones. -/
structure Cut (fs : FloatSys) (traces : Nat → Trace) (s : QShared) : Prop where
  answers : AnswersRight fs s
  lists : ∀ i key ps, s.get i key = some ps → ∃ k, ps = (passing (traces i).points key.1 key.2).take k

theorem Cut.of_right {fs : FloatSys} {traces : Nat → Trace} {s : QShared} (h : s.Right fs traces) : Cut fs traces s :=
  ⟨h.answers, fun i key ps hp => ⟨ps.length, by rw [← h.lists i key ps hp, List.take_length]⟩⟩

theorem Cut.during {fs : FloatSys} {traces : Nat → Trace} {j : QueryJob} {s0 s : QShared} (h0 : Cut fs traces s0)
    (h : During fs traces j s0 s) : Cut fs traces s := by
  refine ⟨h.answers, fun i key ps hp => ?_⟩
  by_cases hk : i = j.trace ∧ key = (j.query.mask, j.query.stmt)
  · obtain ⟨rfl, rfl⟩ := hk
    cases ho : j.own s0 with
    | some qs =>
      have := h.warm qs ho
      have e : some ps = some qs := by rw [← hp, ← this]; rfl
      cases e
      exact h0.lists _ _ _ ho
    | none =>
      rcases h.cold ho with hn | ⟨k, hk⟩
      · have e : some ps = none := by rw [← hp, ← hn]; rfl
        cases e
      · have e : some ps = some ((j.pts traces).take k) := by rw [← hp, ← hk]; rfl
        cases e
        exact ⟨k, by rw [← filterPoints_passing]⟩
  · rw [h.others i key hk] at hp
    exact h0.lists i key ps hp

/-- A query, failed or not. -/
theorem Attempt.run_during {fs : FloatSys} {traces : Nat → Trace} (env : Env) (pick : U32 → Nat → Nat) (a : Attempt)
    {s : QShared} (hs : AnswersRight fs s) :
    During fs traces a.job s (a.run false fs env pick traces s).2 ∧
    ∀ r, (a.run false fs env pick traces s).1 = some r →
      r = answerOver fs env pick a.job ((a.job.own s).getD (a.job.pts traces)) ∧
      a.job.own (a.run false fs env pick traces s).2 = some ((a.job.own s).getD (a.job.pts traces)) :=
  Attempt.run_keeps (fun _ _ h => h) (queryP_keeps env pick hs) (During.refl hs)

theorem passing_take (points : List Point) (mask stmt : U64) (k : Nat) :
    filterPoints ((passing points mask stmt).take k) mask stmt = (passing points mask stmt).take k := by
  rw [← filterPoints_passing]
  unfold filterPoints
  rw [List.filter_eq_self]
  intro p hp
  have := List.mem_of_mem_take hp
  simp only [List.mem_filter] at this
  exact this.2

theorem answerOver_first (fs : FloatSys) (env : Env) (pick : U32 → Nat → Nat) (traces : Nat → Trace) (j : QueryJob)
    (k : Nat) : answerOver fs env pick j ((passing (traces j.trace).points j.query.mask j.query.stmt).take k) =
      firstAnswers fs env pick traces j k := by
  unfold firstAnswers
  rw [aloneAnswer_eq]
  simp only [passing_take]
  rfl

theorem answerOver_all (fs : FloatSys) (env : Env) (pick : U32 → Nat → Nat) (traces : Nat → Trace) (j : QueryJob) :
    answerOver fs env pick j (j.pts traces) = aloneAnswer fs env pick traces j := by
  rw [aloneAnswer_eq]; rfl

theorem attempts_cut {fs : FloatSys} {traces : Nat → Trace} (env : Env) (pick : U32 → Nat → Nat)
    (h : List Attempt) (s : QShared) (hs : Cut fs traces s) (n : Nat) (a : Attempt) (r : Res (List Point))
    (ha : h[n]? = some a) (hr : (runAttempts false fs env pick traces h s).1[n]? = some (some r)) :
    ∃ k, r = firstAnswers fs env pick traces a.job k := by
  induction h generalizing s n with
  | nil => cases ha
  | cons b h ih =>
    obtain ⟨hd, ho⟩ := b.run_during (traces := traces) env pick hs.answers
    unfold runAttempts at hr
    cases n with
    | zero =>
      simp only [List.getElem?_cons_zero, Option.some.injEq] at ha hr
      subst ha
      obtain ⟨rfl, _⟩ := ho r hr
      cases e : b.job.own s with
      | none =>
        refine ⟨(b.job.pts traces).length, ?_⟩
        rw [← answerOver_first, ← filterPoints_passing, List.take_length, Option.getD_none]
      | some ps =>
        obtain ⟨k, rfl⟩ := hs.lists _ _ _ e
        exact ⟨k, by rw [← answerOver_first, Option.getD_some]⟩
    | succ n =>
      simp only [List.getElem?_cons_succ] at ha hr
      exact ih _ (hs.during hd) n ha hr

theorem attempts_right {fs : FloatSys} {traces : Nat → Trace} (env : Env) (pick : U32 → Nat → Nat)
    (h : List Attempt) (s : QShared) (hs : Cut fs traces s) (n : Nat) (a : Attempt) (r : Res (List Point))
    (hown : a.job.own s = none ∨ a.job.own s = some (a.job.pts traces))
    (ha : h[n]? = some a) (hr : (runAttempts false fs env pick traces h s).1[n]? = some (some r))
    (hok : ∀ m < n, ∀ b, h[m]? = some b → b.job.SamePoints a.job →
      (runAttempts false fs env pick traces h s).1[m]? ≠ some none) :
    r = aloneAnswer fs env pick traces a.job := by
  induction h generalizing s n with
  | nil => cases ha
  | cons b h ih =>
    obtain ⟨hd, ho⟩ := b.run_during (traces := traces) env pick hs.answers
    unfold runAttempts at hr hok
    cases n with
    | zero =>
      simp only [List.getElem?_cons_zero, Option.some.injEq] at ha hr
      subst ha
      obtain ⟨rfl, _⟩ := ho r hr
      rw [← answerOver_all]
      rcases hown with e | e <;> rw [e] <;> rfl
    | succ n =>
      simp only [List.getElem?_cons_succ] at ha hr
      refine ih _ (hs.during hd) n ?_ ha hr (fun m hm c hc hsame hn => ?_)
      · by_cases hsame : b.job.SamePoints a.job
        · have h0 := hok 0 (Nat.succ_pos n) b rfl hsame
          simp only [List.getElem?_cons_zero, ne_eq, Option.some.injEq] at h0
          obtain ⟨x, hx⟩ := Option.ne_none_iff_exists'.mp h0
          have h1 := (ho x hx).2
          have eown : ∀ s, a.job.own s = b.job.own s := fun s => by
            unfold QueryJob.own; rw [hsame.1, hsame.2.1, hsame.2.2]
          have epts : a.job.pts traces = b.job.pts traces := by
            unfold QueryJob.pts; rw [hsame.1, hsame.2.1, hsame.2.2]
          rw [eown, epts] at hown ⊢
          right
          rcases hown with e | e <;> rw [e] at h1 <;> exact h1
        · have e : a.job.own (b.run false fs env pick traces s).2 = a.job.own s := by
            refine hd.others _ _ fun hk => hsame ?_
            obtain ⟨h1, h2⟩ := hk
            simp only [Prod.mk.injEq] at h2
            exact ⟨h1.symm, h2.1.symm, h2.2.symm⟩
          rw [e]; exact hown
      · exact hok (m + 1) (Nat.succ_lt_succ hm) c (by simpa using hc) hsame (by simpa using hn)

theorem attempts_keep {fs : FloatSys} {traces : Nat → Trace} (env : Env) (pick : U32 → Nat → Nat)
    (h : List Attempt) (s : QShared) (hs : AnswersRight fs s) (i : Nat) (key : U64 × U64) (ps : List Point)
    (hp : s.get i key = some ps) : (runAttempts false fs env pick traces h s).2.get i key = some ps ∧
      AnswersRight fs (runAttempts false fs env pick traces h s).2 := by
  induction h generalizing s with
  | nil => exact ⟨hp, hs⟩
  | cons b h ih =>
    obtain ⟨hd, _⟩ := b.run_during (traces := traces) env pick hs
    refine ih (b.run false fs env pick traces s).2 hd.answers ?_
    by_cases hk : i = b.job.trace ∧ key = (b.job.query.mask, b.job.query.stmt)
    · obtain ⟨rfl, rfl⟩ := hk
      exact hd.warm ps hp
    · rw [hd.others i key hk]; exact hp

theorem attempts_lost {fs : FloatSys} {traces : Nat → Trace} (env : Env) (pick : U32 → Nat → Nat)
    (h : List Attempt) (s : QShared) (hs : AnswersRight fs s) (n : Nat) (a : Attempt) (r : Res (List Point))
    (ps : List Point) (hp : a.job.own s = some ps)
    (ha : h[n]? = some a) (hr : (runAttempts false fs env pick traces h s).1[n]? = some (some r)) :
    r = answerOver fs env pick a.job ps := by
  induction h generalizing s n with
  | nil => cases ha
  | cons b h ih =>
    obtain ⟨hd, ho⟩ := b.run_during (traces := traces) env pick hs
    unfold runAttempts at hr
    cases n with
    | zero =>
      simp only [List.getElem?_cons_zero, Option.some.injEq] at ha hr
      subst ha
      obtain ⟨rfl, _⟩ := ho r hr
      rw [hp]; rfl
    | succ n =>
      simp only [List.getElem?_cons_succ] at ha hr
      exact ih _ hd.answers n (attempts_keep env pick [b] s hs _ _ _ hp).1 ha hr

theorem advance_steps {α : Type} (n : Nat) (p : QProc α) (s : QShared) :
    p.advance n s = ((p.steps n s).2, (p.steps n s).1) := by
  induction n generalizing p s with
  | zero => rfl
  | succ n ih => cases p with
    | done r => rfl
    | act c k => exact ih _ _

theorem fillP_acts {early : Bool} {fs : FloatSys} {env : Env} {pick : U32 → Nat → Nat} (j : QueryJob) (ps : List Point)
    (s : QShared) (k : Nat) (hk : k ≤ (filterPoints ps j.query.mask j.query.stmt).length) :
    ∃ c n, ((fillP j.trace j.query.mask j.query.stmt ps >>= fun _ =>
      copyPointsP j.trace j.query.mask j.query.stmt >>= restP early fs env pick j).advance k s).1 = .act c n := by
  induction ps generalizing s k with
  | nil =>
    have : k = 0 := by simpa [filterPoints] using hk
    subst this
    exact ⟨_, _, rfl⟩
  | cons p ps ih =>
    unfold fillP
    split
    · rename_i hp
      simp only [QProc.act_bind]
      cases k with
      | zero => exact ⟨_, _, rfl⟩
      | succ k =>
        have hk' : k ≤ (filterPoints ps j.query.mask j.query.stmt).length := by
          simp only [filterPoints, List.filter_cons] at hk ⊢
          rw [if_pos hp] at hk
          simpa using hk
        exact ih _ k hk'
    · rename_i hp
      refine ih _ k ?_
      simp only [filterPoints, List.filter_cons] at hk ⊢
      rw [if_neg hp] at hk
      exact hk

/-- A query over points that are not cached, for which memory runs out when the list has `k` points. -/
theorem Attempt.run_torn (early : Bool) {fs : FloatSys} {traces : Nat → Trace} (env : Env) (pick : U32 → Nat → Nat)
    (j : QueryJob) {s : QShared} (ho : j.own s = none) (k : Nat) (hk : k ≤ (j.pts traces).length) :
    ((Attempt.mk j (some (k + 2))).run early fs env pick traces s).1 = none ∧
    j.own ((Attempt.mk j (some (k + 2))).run early fs env pick traces s).2 = some ((j.pts traces).take k) ∧
    ((Attempt.mk j (some (k + 2))).run early fs env pick traces s).2.answers = s.answers := by
  obtain ⟨f, h1, h2⟩ := queryP_cold early fs env pick traces j ho
  obtain ⟨rest, h3, _⟩ := fillP_steps j (fun _ => copyPointsP j.trace j.query.mask j.query.stmt >>=
      restP early fs env pick j) (traces j.trace).points (s.set j.trace (j.query.mask, j.query.stmt) []) k hk
  obtain ⟨c, n, h4⟩ := fillP_acts (early := early) (fs := fs) (env := env) (pick := pick) j (traces j.trace).points
    (s.set j.trace (j.query.mask, j.query.stmt) []) k hk
  have hadv : (queryP early fs env pick traces j).advance (k + 2) s =
      (QProc.act c n, pushAll j (s.set j.trace (j.query.mask, j.query.stmt) []) ((j.pts traces).take k)) := by
    rw [h1]
    show (f s).advance (k + 1) s = _
    rw [h2]
    show (fillingP early fs env pick traces j).advance k (s.set j.trace (j.query.mask, j.query.stmt) []) = _
    unfold fillingP
    rw [advance_steps, h3] at h4
    simp only at h4
    rw [advance_steps, h3, h4]
  unfold Attempt.run
  simp only [hadv]
  refine ⟨trivial, ?_, ?_⟩
  · have := pushAll_own j (s.set j.trace (j.query.mask, j.query.stmt) []) [] ((j.pts traces).take k)
      (by simp [QueryJob.own])
    simpa using this
  · rw [pushAll_answers]; rfl

theorem attempts_sound {fs : FloatSys} {traces : Nat → Trace} (early : Bool) (env : Env) (pick : U32 → Nat → Nat)
    (h : List Attempt) (s : QShared) (hs : Sane fs traces s) (n : Nat) (a : Attempt) (rs : List Point)
    (ha : h[n]? = some a) (hr : (runAttempts early fs env pick traces h s).1[n]? = some (some (.ok rs))) :
    ∀ r ∈ rs, Justified fs (traces a.job.trace) a.job.query r := by
  induction h generalizing s n with
  | nil => cases ha
  | cons b h ih =>
    obtain ⟨hd, ho⟩ := Attempt.run_keeps (a := b) (I := Sane fs traces) (G := KeepsSane fs traces)
      (fun _ _ h => h) ((queryP_sound (traces := traces) early env pick b.job s hs).weaken (R' := NoRely)
        (by rintro a b rfl h; exact h) (fun _ _ h => h)) hs
    unfold runAttempts at hr
    cases n with
    | zero =>
      simp only [List.getElem?_cons_zero, Option.some.injEq] at ha hr
      subst ha
      exact (ho _ hr rs rfl).2
    | succ n =>
      simp only [List.getElem?_cons_succ] at ha hr
      exact ih _ hd n ha hr

end TraceDB
