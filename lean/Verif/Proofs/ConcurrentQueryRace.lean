import Verif.Proofs.ConcurrentQueryApart
/-
Threads that need the same list of points.
-/
namespace TraceDB

/-! A thread on its own -/

/-- What the query of a job gives over the points `ps`. -/
def answerOver (fs : FloatSys) (env : Env) (pick : U32 → Nat → Nat) (j : QueryJob) (ps : List Point) :
    Res (List Point) :=
  (queryPoints env pick (plainEval fs) ps j.query.variables j.query.hard j.query.soft j.query.seed ()).fst >>=
    fun rs => .ok (if j.keepDuplicates then rs else deduplicate rs)

theorem QProc.Safe.steps {α : Type} {G : QShared → QShared → Prop} {Q : QShared → Res α → Prop} {s s' : QShared}
    {p : QProc α} (h : p.Safe NoRely G Q s) {n : Nat} {r : Res α} (hn : p.steps n s = (s', .done r)) : Q s' r := by
  induction n generalizing s p with
  | zero =>
    simp only [QProc.steps, Prod.mk.injEq] at hn
    obtain ⟨rfl, rfl⟩ := hn
    exact h
  | succ n ih =>
    cases p with
    | done r' =>
      simp only [QProc.steps, Prod.mk.injEq] at hn
      obtain ⟨rfl, hr⟩ := hn
      cases hr
      exact h
    | act c k => exact ih (h s rfl).2 hn

/-- The part of a query after the points have been copied. -/
def restP (early : Bool) (fs : FloatSys) (env : Env) (pick : U32 → Nat → Nat) (j : QueryJob) (ps : List Point) :
    QProc (List Point) := do
  let rs ← queryPointsP early fs env pick j.query ps
  .done (.ok (if j.keepDuplicates then rs else deduplicate rs))

theorem restP_alone (early : Bool) (fs : FloatSys) (env : Env) (pick : U32 → Nat → Nat) (j : QueryJob)
    (ps : List Point) {s : QShared} (hs : AnswersRight fs s) :
    (restP early fs env pick j ps).Safe NoRely NoGuar (fun _ r => r = answerOver fs env pick j ps) s := by
  have h := (queryPointsP_gives (cachedP_alone (fs := fs) (own := fun _ => none) (fun _ _ _ _ => rfl) none early)
    env pick j.query ps).bind
    (f := fun rs => QProc.done (.ok (if j.keepDuplicates then rs else deduplicate rs)))
    (g := fun rs => Res.ok (if j.keepDuplicates then rs else deduplicate rs)) (fun rs _ => Gives.done _)
  refine (h s ⟨hs, rfl⟩).mono ?_
  rintro _ r ⟨_, rfl⟩
  rfl

theorem copyPointsP_alone {β : Type} {j : QueryJob} {s : QShared} {ps : List Point} {f : List Point → QProc β}
    {Q : QShared → Res β → Prop} (ho : j.own s = some ps) (hf : (f ps).Safe NoRely NoGuar Q s) :
    (copyPointsP j.trace j.query.mask j.query.stmt >>= f).Safe NoRely NoGuar Q s := by
  rintro s' rfl
  have h : s'.get j.trace (j.query.mask, j.query.stmt) = some ps := ho
  simp only [h, Option.getD_some]
  exact ⟨trivial, hf⟩

/-- The state after pushing `ps` to the list of the job. -/
def pushAll (j : QueryJob) (s : QShared) (ps : List Point) : QShared :=
  ps.foldl (fun s p => s.set j.trace (j.query.mask, j.query.stmt) (((j.own s).getD []) ++ [p])) s

theorem pushAll_own (j : QueryJob) (s : QShared) (acc ps : List Point) (h : j.own s = some acc) :
    j.own (pushAll j s ps) = some (acc ++ ps) := by
  induction ps generalizing s acc with
  | nil => simpa [pushAll] using h
  | cons p ps ih =>
    have := ih (s.set j.trace (j.query.mask, j.query.stmt) (acc ++ [p])) (acc ++ [p]) (by simp [QueryJob.own])
    simp only [pushAll, List.foldl_cons, h, Option.getD_some] at this ⊢
    rw [this, List.append_assoc]; rfl

theorem pushAll_answers (j : QueryJob) (s : QShared) (ps : List Point) : (pushAll j s ps).answers = s.answers := by
  induction ps generalizing s with
  | nil => rfl
  | cons p ps ih =>
    show (pushAll j _ ps).answers = _
    rw [ih]; rfl

/-- The loop pushes the points one after the other. -/
theorem fillP_steps {β : Type} (j : QueryJob) (f : Unit → QProc β) (ps : List Point) (s : QShared) (k : Nat)
    (hk : k ≤ (filterPoints ps j.query.mask j.query.stmt).length) :
    ∃ rest, ((fillP j.trace j.query.mask j.query.stmt ps >>= f).steps k s) =
        (pushAll j s ((filterPoints ps j.query.mask j.query.stmt).take k), rest) ∧
      (k = (filterPoints ps j.query.mask j.query.stmt).length → rest = f ()) := by
  induction ps generalizing s k with
  | nil =>
    have : k = 0 := by simpa [filterPoints] using hk
    subst this
    exact ⟨f (), rfl, fun _ => rfl⟩
  | cons p ps ih =>
    cases hp : (p.statement &&& j.query.mask == j.query.stmt) with
    | false =>
      have e : filterPoints (p :: ps) j.query.mask j.query.stmt = filterPoints ps j.query.mask j.query.stmt := by
        simp [filterPoints, hp]
      have e2 : fillP j.trace j.query.mask j.query.stmt (p :: ps) = fillP j.trace j.query.mask j.query.stmt ps := by
        simp [fillP, hp]
      rw [e] at hk ⊢
      rw [e2]
      exact ih s k hk
    | true =>
      have e : filterPoints (p :: ps) j.query.mask j.query.stmt = p :: filterPoints ps j.query.mask j.query.stmt := by
        simp [filterPoints, hp]
      have e2 : fillP j.trace j.query.mask j.query.stmt (p :: ps) =
          .act (fun s => s.set j.trace (j.query.mask, j.query.stmt)
            (((s.get j.trace (j.query.mask, j.query.stmt)).getD []) ++ [p]))
            fun _ => fillP j.trace j.query.mask j.query.stmt ps := by
        simp [fillP, hp]
      rw [e] at hk ⊢
      rw [e2]
      cases k with
      | zero => exact ⟨_, rfl, fun h => by simp at h⟩
      | succ k =>
        obtain ⟨rest, h1, h2⟩ := ih (s.set j.trace (j.query.mask, j.query.stmt)
            (((s.get j.trace (j.query.mask, j.query.stmt)).getD []) ++ [p])) k (by simpa using hk)
        refine ⟨rest, ?_, fun h => h2 (by simpa using h)⟩
        simp only [QProc.act_bind, QProc.steps, h1, List.take_succ_cons]
        rfl

theorem queryP_eq (early : Bool) (fs : FloatSys) (env : Env) (pick : U32 → Nat → Nat) (traces : Nat → Trace)
    (j : QueryJob) : queryP early fs env pick traces j =
      (getPointsP j.trace (traces j.trace).points j.query.mask j.query.stmt >>= restP early fs env pick j) := rfl

/-- A query that finds a list in the cache. -/
theorem queryP_warm (early : Bool) (fs : FloatSys) (env : Env) (pick : U32 → Nat → Nat) (traces : Nat → Trace)
    (j : QueryJob) {s : QShared} {ps : List Point} (ho : j.own s = some ps) (hs : AnswersRight fs s) :
    (queryP early fs env pick traces j).Safe NoRely NoGuar (fun _ r => r = answerOver fs env pick j ps) s := by
  rw [queryP_eq]
  rintro s' rfl
  refine ⟨trivial, ?_⟩
  have h : s'.get j.trace (j.query.mask, j.query.stmt) = some ps := ho
  simp only [h]
  exact copyPointsP_alone ho (restP_alone early fs env pick j ps hs)

/-- A query that finds nothing in the cache, at its third step. -/
def fillingP (early : Bool) (fs : FloatSys) (env : Env) (pick : U32 → Nat → Nat) (traces : Nat → Trace)
    (j : QueryJob) : QProc (List Point) :=
  fillP j.trace j.query.mask j.query.stmt (traces j.trace).points >>= fun _ =>
    copyPointsP j.trace j.query.mask j.query.stmt >>= restP early fs env pick j

theorem bind_bind {α β γ : Type} (p : QProc α) (f : α → QProc β) (g : β → QProc γ) :
    ((p >>= f) >>= g) = (p >>= fun a => f a >>= g) := by
  induction p with
  | done r => cases r <;> rfl
  | act c k ih =>
    simp only [QProc.act_bind]
    congr 1
    funext s
    exact ih s

theorem queryP_cold (early : Bool) (fs : FloatSys) (env : Env) (pick : U32 → Nat → Nat) (traces : Nat → Trace)
    (j : QueryJob) {s : QShared} (ho : j.own s = none) :
    ∃ k : QShared → QProc (List Point), queryP early fs env pick traces j = .act id k ∧
      k s = .act (fun s => s.set j.trace (j.query.mask, j.query.stmt) []) fun _ =>
        fillingP early fs env pick traces j := by
  refine ⟨_, rfl, ?_⟩
  have h : s.get j.trace (j.query.mask, j.query.stmt) = none := ho
  show QProc.bind _ _ = _
  simp only [h]
  show (QProc.act _ _ >>= _) = _
  simp only [QProc.act_bind, bind_bind]
  rfl

/-- The outcome of running thread `i` to its end. -/
theorem run_to_end {st : QSys} {i : Nat} {p : QProc (List Point)} {Q : QShared → Res (List Point) → Prop}
    (hp : st.threads[i]? = some p) (h : p.Safe NoRely NoGuar Q st.shared) :
    ∃ n s' r, (st.run (List.replicate n i)).outcome i = some r ∧ Q s' r := by
  obtain ⟨n, s', r, hn⟩ := p.finishes st.shared
  refine ⟨n, s', r, ?_, h.steps hn⟩
  rw [run_replicate st i n p hp, hn]
  unfold QSys.outcome
  simp only
  rw [set_lookup hp]
  simp

theorem qrun_append (st : QSys) (a b : List Nat) : st.run (a ++ b) = (st.run a).run b := by
  simp [QSys.run, List.foldl_append]

theorem alone_outcome (early : Bool) (fs : FloatSys) (env : Env) (pick : U32 → Nat → Nat) (traces : Nat → Trace)
    (j : QueryJob) {s : QShared} (hs : s.Right fs traces) :
    (queryP early fs env pick traces j).Safe NoRely NoGuar (fun _ r => r = aloneAnswer fs env pick traces j) s := by
  have he : aloneAnswer fs env pick traces j =
      answerOver fs env pick j (filterPoints (traces j.trace).points j.query.mask j.query.stmt) :=
    aloneAnswer_eq fs env pick traces j
  rw [he]
  cases ho : j.own s with
  | some ps =>
    have := hs.lists _ _ _ ho
    rw [← filterPoints_passing] at this
    simp only at this
    rw [← this]
    exact queryP_warm early fs env pick traces j ho hs.answers
  | none =>
    obtain ⟨k, h1, h2⟩ := queryP_cold early fs env pick traces j ho
    rw [h1]
    rintro s' rfl
    refine ⟨trivial, ?_⟩
    rw [h2]
    rintro s2 rfl
    refine ⟨trivial, ?_⟩
    have hfill : ∀ (s3 : QShared) (acc ps : List Point), AnswersRight fs s3 → j.own s3 = some acc →
        (fillP j.trace j.query.mask j.query.stmt ps >>= fun _ =>
          copyPointsP j.trace j.query.mask j.query.stmt >>= restP early fs env pick j).Safe NoRely NoGuar
        (fun _ r => r = answerOver fs env pick j (acc ++ filterPoints ps j.query.mask j.query.stmt)) s3 := by
      intro s3 acc ps h3 ho3
      induction ps generalizing s3 acc with
      | nil =>
        have : filterPoints [] j.query.mask j.query.stmt = [] := rfl
        rw [this, List.append_nil]
        exact copyPointsP_alone ho3 (restP_alone early fs env pick j acc h3)
      | cons p ps ih =>
        cases hp : (p.statement &&& j.query.mask == j.query.stmt) with
        | false =>
          have e : filterPoints (p :: ps) j.query.mask j.query.stmt = filterPoints ps j.query.mask j.query.stmt := by
            simp [filterPoints, hp]
          have e2 : fillP j.trace j.query.mask j.query.stmt (p :: ps) = fillP j.trace j.query.mask j.query.stmt ps := by
            simp [fillP, hp]
          rw [e, e2]
          exact ih s3 acc h3 ho3
        | true =>
          have e : filterPoints (p :: ps) j.query.mask j.query.stmt =
              p :: filterPoints ps j.query.mask j.query.stmt := by simp [filterPoints, hp]
          have e2 : fillP j.trace j.query.mask j.query.stmt (p :: ps) =
              .act (fun s => s.set j.trace (j.query.mask, j.query.stmt)
                (((s.get j.trace (j.query.mask, j.query.stmt)).getD []) ++ [p]))
                fun _ => fillP j.trace j.query.mask j.query.stmt ps := by
            simp [fillP, hp]
          rw [e, e2]
          rintro s4 rfl
          refine ⟨trivial, ?_⟩
          have hg : s4.get j.trace (j.query.mask, j.query.stmt) = some acc := ho3
          simp only [hg, Option.getD_some]
          have := ih (s4.set j.trace (j.query.mask, j.query.stmt) (acc ++ [p])) (acc ++ [p]) h3
            (by simp [QueryJob.own])
          rw [List.append_assoc] at this
          exact this
    exact hfill _ [] _ hs.answers (by simp [QueryJob.own])

/-! Two threads with the same query -/

theorem torn (early : Bool) (fs : FloatSys) (env : Env) (pick : U32 → Nat → Nat) (traces : Nat → Trace) (s : QShared)
    (j : QueryJob) (hs : AnswersRight fs s) (ho : j.own s = none) (k : Nat)
    (hk : k ≤ (filterPoints (traces j.trace).points j.query.mask j.query.stmt).length) :
    ∃ schedule, ((QSys.init early fs env pick traces s [j, j]).run schedule).outcome 1 =
      some (answerOver fs env pick j ((filterPoints (traces j.trace).points j.query.mask j.query.stmt).take k)) := by
  obtain ⟨f, h1, h2⟩ := queryP_cold early fs env pick traces j ho
  have hsteps : ∃ rest, (queryP early fs env pick traces j).steps (k + 2) s =
      (pushAll j (s.set j.trace (j.query.mask, j.query.stmt) [])
        ((filterPoints (traces j.trace).points j.query.mask j.query.stmt).take k), rest) := by
    obtain ⟨rest, h3, _⟩ := fillP_steps j (fun _ => copyPointsP j.trace j.query.mask j.query.stmt >>=
      restP early fs env pick j) (traces j.trace).points (s.set j.trace (j.query.mask, j.query.stmt) []) k hk
    refine ⟨rest, ?_⟩
    rw [h1]
    simp only [QProc.steps, id, h2]
    exact h3
  obtain ⟨rest, hsteps⟩ := hsteps
  let st := (QSys.init early fs env pick traces s [j, j]).run (List.replicate (k + 2) 0)
  have hst : st = QSys.mk (pushAll j (s.set j.trace (j.query.mask, j.query.stmt) [])
        ((filterPoints (traces j.trace).points j.query.mask j.query.stmt).take k))
      [rest, queryP early fs env pick traces j] := by
    show QSys.run _ _ = _
    rw [run_replicate _ 0 (k + 2) (queryP early fs env pick traces j) rfl]
    show QSys.mk ((queryP early fs env pick traces j).steps (k + 2) s).1 _ = _
    simp only [QSys.init]
    rw [hsteps]
    rfl
  have hown : j.own st.shared = some ((filterPoints (traces j.trace).points j.query.mask j.query.stmt).take k) := by
    rw [hst]
    exact pushAll_own j _ [] _ (by simp [QueryJob.own])
  have hans : AnswersRight fs st.shared := by
    rw [hst]
    intro p vs b h
    rw [pushAll_answers] at h
    exact hs p vs b h
  obtain ⟨n, s', r, h5, h6⟩ := run_to_end (st := st) (i := 1) (p := queryP early fs env pick traces j)
    (by rw [hst]; rfl) (queryP_warm early fs env pick traces j hown hans)
  refine ⟨List.replicate (k + 2) 0 ++ List.replicate n 1, ?_⟩
  rw [qrun_append, ← h6]
  exact h5

theorem doubled (early : Bool) (fs : FloatSys) (env : Env) (pick : U32 → Nat → Nat) (traces : Nat → Trace) (s : QShared)
    (j : QueryJob) (hs : AnswersRight fs s) (ho : j.own s = none) :
    ∃ schedule, ((QSys.init early fs env pick traces s [j, j]).run schedule).outcome 0 =
      some (answerOver fs env pick j (filterPoints (traces j.trace).points j.query.mask j.query.stmt ++
        filterPoints (traces j.trace).points j.query.mask j.query.stmt)) := by
  obtain ⟨f, h1, h2⟩ := queryP_cold early fs env pick traces j ho
  let L := filterPoints (traces j.trace).points j.query.mask j.query.stmt
  let s0 := s.set j.trace (j.query.mask, j.query.stmt) []
  let s1 := s0.set j.trace (j.query.mask, j.query.stmt) []
  -- both threads find nothing and make an empty list
  have e1 : (QSys.init early fs env pick traces s [j, j]).run [0, 1, 0, 1] =
      { shared := s1, threads := [fillingP early fs env pick traces j, fillingP early fs env pick traces j] } := by
    simp only [QSys.init, List.map_cons, List.map_nil, h1, QSys.run, List.foldl_cons, List.foldl_nil, QSys.step,
      List.getElem?_cons_zero, List.getElem?_cons_succ, id, List.set_cons_zero, List.set_cons_succ, h2]
    rfl
  -- the first one pushes all points
  obtain ⟨r0, h3, h3'⟩ := fillP_steps j (fun _ => copyPointsP j.trace j.query.mask j.query.stmt >>=
      restP early fs env pick j) (traces j.trace).points s1 L.length (Nat.le_refl _)
  obtain ⟨r1, h4, h4'⟩ := fillP_steps j (fun _ => copyPointsP j.trace j.query.mask j.query.stmt >>=
      restP early fs env pick j) (traces j.trace).points (pushAll j s1 L) L.length (Nat.le_refl _)
  have hL : (filterPoints (traces j.trace).points j.query.mask j.query.stmt).take L.length = L := List.take_length
  rw [hL] at h3 h4
  have h3'' := h3' rfl
  have h4'' := h4' rfl
  subst h3''
  subst h4''
  have e2 : (QSys.mk s1 [fillingP early fs env pick traces j, fillingP early fs env pick traces j]).run
      (List.replicate L.length 0) = QSys.mk (pushAll j s1 L)
        [copyPointsP j.trace j.query.mask j.query.stmt >>= restP early fs env pick j,
          fillingP early fs env pick traces j] := by
    rw [run_replicate _ 0 L.length (fillingP early fs env pick traces j) rfl]
    unfold fillingP
    simp only
    rw [h3]
    rfl
  have e3 : (QSys.mk (pushAll j s1 L) [copyPointsP j.trace j.query.mask j.query.stmt >>= restP early fs env pick j,
          fillingP early fs env pick traces j]).run
      (List.replicate L.length 1) = QSys.mk (pushAll j (pushAll j s1 L) L)
        [copyPointsP j.trace j.query.mask j.query.stmt >>= restP early fs env pick j,
          copyPointsP j.trace j.query.mask j.query.stmt >>= restP early fs env pick j] := by
    rw [run_replicate _ 1 L.length (fillingP early fs env pick traces j) rfl]
    unfold fillingP
    simp only
    rw [h4]
    rfl
  have hown : j.own (pushAll j (pushAll j s1 L) L) = some (L ++ L) :=
    pushAll_own j _ L L (pushAll_own j s1 [] L (by simp [QueryJob.own, s1]))
  have hans : AnswersRight fs (pushAll j (pushAll j s1 L) L) := by
    intro p vs b h
    rw [pushAll_answers, pushAll_answers] at h
    exact hs p vs b h
  obtain ⟨n, s', r, h5, h6⟩ := run_to_end
    (st := ⟨pushAll j (pushAll j s1 L) L, [copyPointsP j.trace j.query.mask j.query.stmt >>= restP early fs env pick j,
          copyPointsP j.trace j.query.mask j.query.stmt >>= restP early fs env pick j]⟩) (i := 0) rfl
    (copyPointsP_alone (j := j) hown (restP_alone early fs env pick j (L ++ L) hans))
  refine ⟨[0, 1, 0, 1] ++ List.replicate L.length 0 ++ List.replicate L.length 1 ++ List.replicate n 0, ?_⟩
  rw [qrun_append, qrun_append, qrun_append, e1, e2, e3, h5, h6]

end TraceDB
