import Verif.Proofs.DataRace
/-
Queries: they are the processes of C70, they are honest, and how they use the maps.
-/
namespace TraceDB

/-! The same processes -/

/-- Forgetting the annotations. -/
def RProc.erase {α : Type} : RProc α → QProc α
  | .done r => .done r
  | .act _ _ c n => .act c fun s => (n s).erase

theorem RProc.erase_bind {α β : Type} (p : RProc α) (f : α → RProc β) :
    (p >>= f).erase = p.erase >>= fun a => (f a).erase := by
  induction p with
  | done r => cases r <;> rfl
  | act m w c n ih =>
    show QProc.act c (fun s => ((n s) >>= f).erase) = QProc.act c fun s => (n s).erase >>= fun a => (f a).erase
    congr 1
    funext s
    exact ih s

theorem fillR_erase (i : Nat) (mask stmt : U64) (ps : List Point) :
    (fillR i mask stmt ps).erase = fillP i mask stmt ps := by
  induction ps with
  | nil => rfl
  | cons p ps ih =>
    unfold fillR fillP
    split
    · simp only [RProc.erase, ih]
    · exact ih

theorem getPointsR_erase (i : Nat) (ps : List Point) (mask stmt : U64) :
    (getPointsR i ps mask stmt).erase = getPointsP i ps mask stmt := by
  unfold getPointsR getPointsP
  simp only [RProc.erase]
  congr 1
  funext s
  cases s.get i (mask, stmt) with
  | some _ => rfl
  | none =>
    simp only [RProc.erase]
    congr 1
    funext s
    rw [RProc.erase_bind, fillR_erase]
    rfl

theorem storeAnswerR_erase (early : Bool) (fs : FloatSys) (p : Pred) (vs : List VarInfo) :
    (storeAnswerR early fs p vs).erase = storeAnswerP early fs p vs := by
  unfold storeAnswerR storeAnswerP
  cases early with
  | false =>
    simp only [Bool.false_eq_true, if_false, RProc.erase_bind]
    rfl
  | true =>
    simp only [if_true, RProc.erase, RProc.erase_bind]
    congr 1

theorem cachedR_erase (early : Bool) (fs : FloatSys) (p : Pred) (vs : List VarInfo) :
    (cachedR early fs p vs).erase = cachedP early fs p vs := by
  unfold cachedR cachedP
  simp only [RProc.erase]
  congr 1
  funext s
  cases s.answers.get p vs with
  | some _ => rfl
  | none =>
    simp only [RProc.erase_bind, storeAnswerR_erase]
    rfl

theorem satisfiesR_erase (early : Bool) (fs : FloatSys) (p : Pred) (point : Point) (b : List Nat) :
    (satisfiesR early fs p point b).erase = satisfiesP early fs p point b := by
  unfold satisfiesR satisfiesP
  simp only [RProc.erase_bind, cachedR_erase]
  rfl

theorem hardLoopR_erase (early : Bool) (fs : FloatSys) (hard : Pred) (point : Point) (bs : List (List Nat)) :
    (hardLoopR early fs hard point bs).erase = hardLoopP early fs hard point bs := by
  induction bs with
  | nil => rfl
  | cons b bs ih =>
    unfold hardLoopR hardLoopP
    rw [RProc.erase_bind, satisfiesR_erase]
    congr 1
    funext sat
    cases sat
    · exact ih
    · simp only [if_true, RProc.erase_bind, ih]
      rfl

theorem softCountR_erase (early : Bool) (fs : FloatSys) (r : Point) (b : List Nat) (ps : List Pred) :
    (softCountR early fs r b ps).erase = softCountP early fs r b ps := by
  induction ps with
  | nil => rfl
  | cons p ps ih =>
    unfold softCountR softCountP
    simp only [RProc.erase_bind, satisfiesR_erase, ih]
    rfl

theorem softCountsR_erase (early : Bool) (fs : FloatSys) (soft : List Pred) (b : List Nat) (rs : List Point) :
    (softCountsR early fs soft b rs).erase = softCountsP early fs soft b rs := by
  induction rs with
  | nil => rfl
  | cons r rs ih =>
    unfold softCountsR softCountsP
    simp only [RProc.erase_bind, softCountR_erase, ih]
    rfl

theorem collectR_erase (early : Bool) (fs : FloatSys) (env : Env) (point : Point) (variables : List FreeVar)
    (hard : Pred) (soft : List Pred) :
    (collectR early fs env point variables hard soft).erase = collectP early fs env point variables hard soft := by
  unfold collectR collectP
  rw [RProc.erase_bind]
  show QProc.done _ >>= _ = QProc.done _ >>= _
  congr 1
  funext first
  split
  · rfl
  · rw [RProc.erase_bind]
    show QProc.done _ >>= _ = QProc.done _ >>= _
    congr 1
    funext bindings
    rw [RProc.erase_bind, hardLoopR_erase]
    congr 1
    funext found
    split
    · rfl
    · rw [RProc.erase_bind, softCountsR_erase]
      congr 1
      funext counts
      split <;> rfl

theorem queryAllR_erase (early : Bool) (fs : FloatSys) (env : Env) (variables : List FreeVar)
    (hard : Pred) (soft : List Pred) (ps : List Point) :
    (queryAllR early fs env variables hard soft ps).erase = queryAllP early fs env variables hard soft ps := by
  induction ps with
  | nil => rfl
  | cons p ps ih =>
    unfold queryAllR queryAllP
    simp only [RProc.erase_bind, collectR_erase, ih]
    rfl

theorem queryR_erase (early : Bool) (fs : FloatSys) (env : Env) (pick : U32 → Nat → Nat) (traces : Nat → Trace)
    (j : QueryJob) : (queryR early fs env pick traces j).erase = queryP early fs env pick traces j := by
  unfold queryR queryP
  rw [RProc.erase_bind, getPointsR_erase]
  congr 1
  funext points
  rw [RProc.erase_bind]
  have : (queryPointsR early fs env pick j.query points).erase = queryPointsP early fs env pick j.query points := by
    unfold queryPointsR queryPointsP
    split
    · split
      · rfl
      · cases points[pick j.query.seed points.length]? with
        | none => rfl
        | some p => exact collectR_erase ..
    · exact queryAllR_erase ..
  rw [this]
  rfl

/-- Forgetting the annotations of all threads. -/
def RSys.erase (st : RSys) : QSys := ⟨st.shared, st.threads.map RProc.erase⟩

theorem RSys.erase_step (st : RSys) (i : Nat) : (st.step i).erase = st.erase.step i := by
  unfold RSys.step QSys.step RSys.erase
  simp only [List.getElem?_map]
  cases h : st.threads[i]? with
  | none => rfl
  | some p =>
    cases p with
    | done r => rfl
    | act m w c n => simp only [Option.map_some, RProc.erase, List.map_set]

theorem RSys.erase_run (st : RSys) (schedule : List Nat) : (st.run schedule).erase = st.erase.run schedule := by
  unfold RSys.run QSys.run
  induction schedule generalizing st with
  | nil => rfl
  | cons i is ih => rw [List.foldl_cons, List.foldl_cons, ih, RSys.erase_step]

theorem RSys.erase_init (early : Bool) (fs : FloatSys) (env : Env) (pick : U32 → Nat → Nat) (traces : Nat → Trace)
    (s : QShared) (jobs : List QueryJob) :
    (RSys.init early fs env pick traces s jobs).erase = QSys.init early fs env pick traces s jobs := by
  unfold RSys.init QSys.init RSys.erase
  simp only [List.map_map]
  congr 1
  apply List.map_congr_left
  intro j _
  exact queryR_erase ..

/-! Honesty -/

theorem QShared.get_same {s s' : QShared} {i : Nat} (h : (MapRef.points i).Same s s') (key : U64 × U64) :
    s.get i key = s'.get i key := by
  unfold QShared.get
  rw [show s.points i = s'.points i from h]

theorem points_set_same {s s' : QShared} {i : Nat} (h : (MapRef.points i).Same s s') (key : U64 × U64) (ps : List Point) :
    (MapRef.points i).Same (s.set i key ps) (s'.set i key ps) := by
  show (s.set i key ps).points i = (s'.set i key ps).points i
  simp only [QShared.set, if_true]
  rw [show s.points i = s'.points i from h]

theorem set_other (s : QShared) {i : Nat} (key : U64 × U64) (ps : List Point) {m : MapRef} (h : m ≠ .points i) :
    m.Same (s.set i key ps) s := by
  cases m with
  | answers => rfl
  | points k =>
    have : k ≠ i := by rintro rfl; exact h rfl
    show (s.set i key ps).points k = s.points k
    simp [QShared.set, this]

theorem answer_other (s : QShared) (p : Pred) (vs : List VarInfo) (b : Bool) {m : MapRef} (h : m ≠ .answers) :
    m.Same (s.answer p vs b) s := by
  cases m with
  | answers => exact absurd rfl h
  | points k => rfl

theorem answer_same {s s' : QShared} (h : MapRef.answers.Same s s') (p : Pred) (vs : List VarInfo) (b : Bool) :
    MapRef.answers.Same (s.answer p vs b) (s'.answer p vs b) := by
  show (_ :: s.answers) = (_ :: s'.answers)
  rw [show s.answers = s'.answers from h]

theorem fillR_honest (i : Nat) (mask stmt : U64) (ps : List Point) : (fillR i mask stmt ps).Honest := by
  induction ps with
  | nil => trivial
  | cons p ps ih =>
    unfold fillR
    split
    · refine ⟨fun s s' h => ⟨rfl, ?_, rfl⟩, fun s m h => set_other s _ _ h, fun _ h => (nomatch h), fun _ => ih⟩
      dsimp only
      rw [QShared.get_same h]
      exact points_set_same h _ _
    · exact ih

theorem copyPointsR_honest (i : Nat) (mask stmt : U64) : (copyPointsR i mask stmt).Honest := by
  refine ⟨fun s s' h => ?_, fun s m h => ?_, fun s h => ?_, fun _ => trivial⟩
  · dsimp only
    rw [QShared.get_same h]
    refine ⟨rfl, ?_, rfl⟩
    cases s'.get i (mask, stmt) with
    | some _ => exact h
    | none => exact points_set_same h _ _
  · dsimp only
    cases s.get i (mask, stmt) with
    | some _ => exact .refl ..
    | none => exact set_other s _ _ h
  · dsimp only at h ⊢
    cases hg : s.get i (mask, stmt) with
    | some _ => rfl
    | none => rw [hg] at h; cases h

theorem getPointsR_honest (i : Nat) (ps : List Point) (mask stmt : U64) : (getPointsR i ps mask stmt).Honest := by
  refine ⟨fun s s' h => ⟨rfl, h, ?_⟩, fun s m h => .refl .., fun _ _ => rfl, fun s => ?_⟩
  · simp only [QShared.get_same h]
  · dsimp only
    cases s.get i (mask, stmt) with
    | some _ => exact copyPointsR_honest ..
    | none =>
      refine ⟨fun s s' h => ⟨rfl, points_set_same h _ _, rfl⟩, fun s m h => set_other s _ _ h, fun _ h => (nomatch h), fun _ => ?_⟩
      exact (fillR_honest ..).bind fun _ => copyPointsR_honest ..

theorem touch_honest {α : Type} (p : Pred) (vs : List VarInfo) (n : QShared → RProc α)
    (hn : ∀ s s', MapRef.answers.Same s s' → n s = n s') (hh : ∀ s, (n s).Honest) :
    (RProc.act .answers (fun s => (s.answers.get p vs).isNone)
      (fun s => match s.answers.get p vs with
        | some _ => s
        | none => s.answer p vs false) n).Honest := by
  refine ⟨fun s s' h => ?_, fun s m h => ?_, fun s h => ?_, hh⟩
  · have : s.answers = s'.answers := h
    dsimp only
    rw [this]
    refine ⟨rfl, ?_, hn s s' h⟩
    cases s'.answers.get p vs with
    | some _ => exact h
    | none => exact answer_same h _ _ _
  · dsimp only
    cases s.answers.get p vs with
    | some _ => exact .refl ..
    | none => exact answer_other s _ _ _ h
  · dsimp only at h ⊢
    cases hg : s.answers.get p vs with
    | some _ => rfl
    | none => rw [hg] at h; cases h

theorem readAnswerR_honest (p : Pred) (vs : List VarInfo) : (readAnswerR p vs).Honest :=
  touch_honest p vs _ (fun s s' h => by rw [show s.answers = s'.answers from h]) fun _ => trivial

theorem storeAnswerR_honest (early : Bool) (fs : FloatSys) (p : Pred) (vs : List VarInfo) :
    (storeAnswerR early fs p vs).Honest := by
  have h : (RProc.done (predicateSatisfied fs vs p) >>= fun b =>
      RProc.act .answers (fun _ => true) (fun s => s.answer p vs b) fun _ => RProc.done (.ok ())).Honest :=
    RProc.Honest.bind (p := RProc.done (predicateSatisfied fs vs p)) trivial fun b =>
      ⟨fun s s' h => ⟨rfl, answer_same h _ _ _, rfl⟩, fun s m h => answer_other s _ _ _ h, fun _ h => (nomatch h),
        fun _ => trivial⟩
  cases early with
  | false => exact h
  | true => exact touch_honest p vs _ (fun _ _ _ => rfl) fun _ => h

theorem cachedR_honest (early : Bool) (fs : FloatSys) (p : Pred) (vs : List VarInfo) : (cachedR early fs p vs).Honest := by
  refine ⟨fun s s' h => ⟨rfl, h, ?_⟩, fun s m h => .refl .., fun _ _ => rfl, fun s => ?_⟩
  · simp only [show s.answers = s'.answers from h]
  · dsimp only
    cases s.answers.get p vs with
    | some _ => exact readAnswerR_honest ..
    | none => exact (storeAnswerR_honest ..).bind fun _ => readAnswerR_honest ..

theorem done_honest {α : Type} (r : Res α) : (RProc.done r).Honest := trivial

theorem satisfiesR_honest (early : Bool) (fs : FloatSys) (p : Pred) (point : Point) (b : List Nat) :
    (satisfiesR early fs p point b).Honest :=
  (done_honest _).bind fun _ => cachedR_honest ..

theorem hardLoopR_honest (early : Bool) (fs : FloatSys) (hard : Pred) (point : Point) (bs : List (List Nat)) :
    (hardLoopR early fs hard point bs).Honest := by
  induction bs with
  | nil => trivial
  | cons b bs ih =>
    unfold hardLoopR
    refine (satisfiesR_honest ..).bind fun sat => ?_
    cases sat
    · exact ih
    · exact (done_honest _).bind fun _ => ih.bind fun _ => trivial

theorem softCountR_honest (early : Bool) (fs : FloatSys) (r : Point) (b : List Nat) (ps : List Pred) :
    (softCountR early fs r b ps).Honest := by
  induction ps with
  | nil => trivial
  | cons p ps ih => exact (satisfiesR_honest ..).bind fun _ => ih.bind fun _ => trivial

theorem softCountsR_honest (early : Bool) (fs : FloatSys) (soft : List Pred) (b : List Nat) (rs : List Point) :
    (softCountsR early fs soft b rs).Honest := by
  induction rs with
  | nil => trivial
  | cons r rs ih => exact (softCountR_honest ..).bind fun _ => ih.bind fun _ => trivial

theorem collectR_honest (early : Bool) (fs : FloatSys) (env : Env) (point : Point) (variables : List FreeVar)
    (hard : Pred) (soft : List Pred) : (collectR early fs env point variables hard soft).Honest := by
  unfold collectR
  refine (done_honest _).bind fun first => ?_
  split
  · trivial
  · refine (done_honest _).bind fun bindings => ?_
    refine (hardLoopR_honest ..).bind fun found => ?_
    split
    · trivial
    · refine (softCountsR_honest ..).bind fun counts => ?_
      split <;> trivial

theorem queryAllR_honest (early : Bool) (fs : FloatSys) (env : Env) (variables : List FreeVar)
    (hard : Pred) (soft : List Pred) (ps : List Point) : (queryAllR early fs env variables hard soft ps).Honest := by
  induction ps with
  | nil => trivial
  | cons p ps ih => exact (collectR_honest ..).bind fun _ => ih.bind fun _ => trivial

theorem queryR_honest (early : Bool) (fs : FloatSys) (env : Env) (pick : U32 → Nat → Nat) (traces : Nat → Trace)
    (j : QueryJob) : (queryR early fs env pick traces j).Honest := by
  unfold queryR
  refine (getPointsR_honest ..).bind fun points => ?_
  refine RProc.Honest.bind ?_ fun _ => trivial
  unfold queryPointsR
  split
  · split
    · trivial
    · cases points[pick j.query.seed points.length]? with
      | none => trivial
      | some p => exact collectR_honest ..
  · exact queryAllR_honest ..

theorem init_honest (early : Bool) (fs : FloatSys) (env : Env) (pick : U32 → Nat → Nat) (traces : Nat → Trace)
    (s : QShared) (jobs : List QueryJob) (i : Nat) (p : RProc (List Point))
    (h : (RSys.init early fs env pick traces s jobs).threads[i]? = some p) : p.Honest := by
  simp only [RSys.init, List.getElem?_map, Option.map_eq_some_iff] at h
  obtain ⟨j, _, rfl⟩ := h
  exact queryR_honest ..

end TraceDB
