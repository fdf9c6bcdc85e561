import Verif.Spec.ConcurrentQuery
import Verif.Proofs.ConcurrentRun
import Verif.Proofs.PredicateCache
/-
Threads that make queries: reasoning with what a thread may rely on.
-/
namespace TraceDB

@[simp] theorem QProc.pure_eq {α : Type} (a : α) : (pure a : QProc α) = .done (.ok a) := rfl
@[simp] theorem QProc.ok_bind {α β : Type} (a : α) (f : α → QProc β) : (QProc.done (.ok a) >>= f) = f a := rfl
@[simp] theorem QProc.act_bind {α β : Type} (c : QShared → QShared) (n : QShared → QProc α) (f : α → QProc β) :
    (QProc.act c n >>= f) = .act c fun s => n s >>= f := rfl

/-- A thread that goes on from `p` in state `s`, while others change the state only
as in `R`, changes it only as in `G` and ends with `Q`. -/
def QProc.Safe {α : Type} (R G : QShared → QShared → Prop) (Q : QShared → Res α → Prop) : QShared → QProc α → Prop
  | s, .done r => Q s r
  | s, .act c n => ∀ s', R s s' → G s' (c s') ∧ QProc.Safe R G Q (c s') (n s')

theorem QProc.Safe.stable {α : Type} {R G : QShared → QShared → Prop} {Q : Res α → Prop} {s s' : QShared}
    (htrans : ∀ a b c, R a b → R b c → R a c) {p : QProc α} (h : p.Safe R G (fun _ => Q) s) (hr : R s s') :
    p.Safe R G (fun _ => Q) s' := by
  cases p with
  | done r => exact h
  | act c n => exact fun s'' hr' => h s'' (htrans _ _ _ hr hr')

theorem QProc.Safe.mono {α : Type} {R G : QShared → QShared → Prop} {Q Q' : QShared → Res α → Prop}
    (hq : ∀ s r, Q s r → Q' s r) {s : QShared} {p : QProc α} (h : p.Safe R G Q s) : p.Safe R G Q' s := by
  induction p generalizing s with
  | done r => exact hq _ _ h
  | act c n ih => exact fun s' hr => ⟨(h s' hr).1, ih s' (h s' hr).2⟩

theorem QProc.Safe.bind {α β : Type} {R G : QShared → QShared → Prop} {Q : QShared → Res α → Prop}
    {Q' : QShared → Res β → Prop} {s : QShared} {p : QProc α} {f : α → QProc β} (h : p.Safe R G Q s)
    (hf : ∀ s r, Q s r → (QProc.done r >>= f).Safe R G Q' s) : (p >>= f).Safe R G Q' s := by
  induction p generalizing s with
  | done r => exact hf _ _ h
  | act c n ih => exact fun s' hr => ⟨(h s' hr).1, ih s' (h s' hr).2⟩

/-- Each thread is safe and relies only on what the others guarantee. -/
structure QSys.Safe (R G : Nat → QShared → QShared → Prop) (Q : Nat → Res (List Point) → Prop) (st : QSys) : Prop where
  each : ∀ (i : Nat) (p : QProc (List Point)), st.threads[i]? = some p →
    p.Safe (R i) (G i) (fun _ => Q i) st.shared

theorem QSys.Safe.step {R G : Nat → QShared → QShared → Prop} {Q : Nat → Res (List Point) → Prop} {st : QSys}
    (hrefl : ∀ i s, R i s s) (htrans : ∀ i a b c, R i a b → R i b c → R i a c)
    (hrely : ∀ i k a b, i ≠ k → G i a b → R k a b) (h : st.Safe R G Q) (i : Nat) : (st.step i).Safe R G Q := by
  unfold QSys.step
  split
  · rename_i c n hi
    have hs := h.each i _ hi st.shared (hrefl i _)
    refine ⟨fun k p hk => ?_⟩
    simp only at hk
    rw [set_lookup hi] at hk
    by_cases e : i = k
    · subst e
      simp only [if_true, Option.some.injEq] at hk
      subst hk
      exact hs.2
    · simp only [e, if_false] at hk
      exact (h.each k p hk).stable (htrans k) (hrely i k _ _ e hs.1)
  · exact h

theorem QSys.Safe.run {R G : Nat → QShared → QShared → Prop} {Q : Nat → Res (List Point) → Prop} {st : QSys}
    (hrefl : ∀ i s, R i s s) (htrans : ∀ i a b c, R i a b → R i b c → R i a c)
    (hrely : ∀ i k a b, i ≠ k → G i a b → R k a b) (h : st.Safe R G Q) (schedule : List Nat) :
    (st.run schedule).Safe R G Q := by
  unfold QSys.run
  induction schedule generalizing st with
  | nil => exact h
  | cons i is ih => exact ih (h.step hrefl htrans hrely i)

theorem QSys.Safe.outcome {R G : Nat → QShared → QShared → Prop} {Q : Nat → Res (List Point) → Prop} {st : QSys}
    (h : st.Safe R G Q) {i : Nat} {r : Res (List Point)} (hr : st.outcome i = some r) : Q i r := by
  unfold QSys.outcome at hr
  split at hr
  · rename_i hi
    cases hr
    exact h.each i _ hi
  · cases hr

/-! The maps -/

@[simp] theorem QShared.get_set (s : QShared) (i k : Nat) (key key' : U64 × U64) (ps : List Point) :
    (s.set i key ps).get k key' = if k = i ∧ key' = key then some ps else s.get k key' := by
  unfold QShared.get QShared.set
  by_cases h : k = i
  · subst h
    by_cases h2 : key' = key
    · subst h2
      simp
    · have : (key' == key) = false := by simp [h2]
      simp [h2, this, List.lookup]
  · simp [h]

@[simp] theorem QShared.get_answer (s : QShared) (p : Pred) (vs : List VarInfo) (b : Bool) (i : Nat) (key : U64 × U64) :
    (s.answer p vs b).get i key = s.get i key := rfl

@[simp] theorem QShared.answers_set (s : QShared) (i : Nat) (key : U64 × U64) (ps : List Point) :
    (s.set i key ps).answers = s.answers := rfl

mutual
theorem Pred.eqv_eq : ∀ p q : Pred, p.eqv q = true → p = q
  | .node k d cs, .node k' d' cs', h => by
    simp only [Pred.eqv, Bool.and_eq_true, beq_iff_eq] at h
    rw [h.1.1, h.1.2, Pred.eqvList_eq cs cs' h.2]
theorem Pred.eqvList_eq : ∀ ps qs : List Pred, Pred.eqvList ps qs = true → ps = qs
  | [], [], _ => rfl
  | p :: ps, q :: qs, h => by
    simp only [Pred.eqvList, Bool.and_eq_true] at h
    rw [Pred.eqv_eq p q h.1, Pred.eqvList_eq ps qs h.2]
  | [], _ :: _, h => by simp [Pred.eqvList] at h
  | _ :: _, [], h => by simp [Pred.eqvList] at h
end

mutual
theorem Pred.eqv_self : ∀ p : Pred, p.eqv p = true
  | .node k d cs => by simp [Pred.eqv, Pred.eqvList_self cs]
theorem Pred.eqvList_self : ∀ ps : List Pred, Pred.eqvList ps ps = true
  | [] => rfl
  | p :: ps => by simp [Pred.eqvList, Pred.eqv_self p, Pred.eqvList_self ps]
end

theorem AnswerCache.get_mem {c : AnswerCache} {p : Pred} {vs : List VarInfo} {b : Bool} (h : c.get p vs = some b) :
    (p, vs, b) ∈ c := by
  unfold AnswerCache.get at h
  rw [Option.map_eq_some_iff] at h
  obtain ⟨e, he, hb⟩ := h
  have h1 := List.mem_of_find?_eq_some he
  have h2 := List.find?_some he
  simp only [Bool.and_eq_true, decide_eq_true_eq] at h2
  have h3 := Pred.eqv_eq _ _ h2.1
  obtain ⟨a, b', c'⟩ := e
  simp only at h2 h3 hb
  rw [h3, h2.2, ← hb]
  exact h1

theorem AnswerCache.get_cons (c : AnswerCache) (p q : Pred) (vs ws : List VarInfo) (b : Bool) :
    AnswerCache.get ((p, vs, b) :: c) q ws = if q.eqv p && decide (ws = vs) then some b else c.get q ws := by
  unfold AnswerCache.get
  rw [List.find?_cons]
  cases q.eqv p && decide (ws = vs) <;> simp

/-- No entry of the answers is lost. -/
def AnswersGrow (s s' : QShared) : Prop :=
  ∀ p vs, (s.answers.get p vs).isSome = true → (s'.answers.get p vs).isSome = true

theorem answersGrow_answer (s : QShared) (p : Pred) (vs : List VarInfo) (b : Bool) : AnswersGrow s (s.answer p vs b) := by
  intro q ws h
  simp only [QShared.answer, AnswerCache.get_cons]
  split
  · rfl
  · exact h

/-! Threads that need different lists -/

/-- The answers that are cached are right. -/
def AnswersRight (fs : FloatSys) (s : QShared) : Prop :=
  ∀ p vs b, s.answers.get p vs = some b → predicateSatisfied fs vs p = .ok b

/-- What a thread relies on. -/
structure Rely (fs : FloatSys) (own : QShared → Option (List Point)) (s s' : QShared) : Prop where
  right : AnswersRight fs s → AnswersRight fs s'
  grow : AnswersGrow s s'
  same : own s' = own s

/-- What a thread guarantees. -/
structure Guar (fs : FloatSys) (others : (QShared → Option (List Point)) → Prop) (s s' : QShared) : Prop where
  right : AnswersRight fs s → AnswersRight fs s'
  grow : AnswersGrow s s'
  same : ∀ o, others o → o s' = o s

theorem Guar.refl (fs : FloatSys) (others : (QShared → Option (List Point)) → Prop) (s : QShared) : Guar fs others s s :=
  ⟨id, fun _ _ h => h, fun _ _ => rfl⟩

/-- The end of a piece of work that gives `x` and keeps `I`. -/
def Ends {α : Type} (I : QShared → Prop) (x : Res α) : QShared → Res α → Prop :=
  fun s r => (∀ a, r = .ok a → I s) ∧ r = x

/-- A piece of work that gives `x` and keeps `I` in every surrounding. -/
def Gives {α : Type} (R G : QShared → QShared → Prop) (I : QShared → Prop) (p : QProc α) (x : Res α) : Prop :=
  ∀ s, I s → p.Safe R G (Ends I x) s

theorem Gives.done {α : Type} {R G : QShared → QShared → Prop} {I : QShared → Prop} (r : Res α) :
    Gives R G I (QProc.done r) r :=
  fun _ hs => ⟨fun _ _ => hs, rfl⟩

theorem Gives.bind {α β : Type} {R G : QShared → QShared → Prop} {I : QShared → Prop} {p : QProc α} {x : Res α}
    {f : α → QProc β} {g : α → Res β}
    (h : Gives R G I p x) (hf : ∀ a, x = .ok a → Gives R G I (f a) (g a)) :
    Gives R G I (p >>= f) (x >>= g) := by
  intro s hs
  refine (h s hs).bind ?_
  rintro s' r ⟨hs', rfl⟩
  cases r with
  | ok a => exact hf a rfl s' (hs' a rfl)
  | throw e => exact ⟨fun _ h => (nomatch h), rfl⟩
  | abort => exact ⟨fun _ h => (nomatch h), rfl⟩
  | ub k => exact ⟨fun _ h => (nomatch h), rfl⟩
  | hang => exact ⟨fun _ h => (nomatch h), rfl⟩

/-- The own list does not depend on the answers. -/
def Blind (own : QShared → Option (List Point)) : Prop :=
  ∀ s p vs b, own (s.answer p vs b) = own s

theorem answersRight_answer {fs : FloatSys} {s : QShared} {p : Pred} {vs : List VarInfo} {b : Bool}
    (h : predicateSatisfied fs vs p = .ok b) (hs : AnswersRight fs s) : AnswersRight fs (s.answer p vs b) := by
  intro q ws c he
  simp only [QShared.answer, AnswerCache.get_cons] at he
  split at he
  · rename_i hq
    simp only [Bool.and_eq_true, decide_eq_true_eq] at hq
    cases he
    rw [Pred.eqv_eq _ _ hq.1, hq.2, h]
  · exact hs q ws c he

/-- Right answers and own list `o`. -/
def Steady (fs : FloatSys) (own : QShared → Option (List Point)) (o : Option (List Point)) (s : QShared) : Prop :=
  AnswersRight fs s ∧ own s = o

theorem readAnswerP_safe {fs : FloatSys} {own : QShared → Option (List Point)}
    {others : (QShared → Option (List Point)) → Prop} {o : Option (List Point)} {p : Pred} {vs : List VarInfo}
    {s : QShared} (hs : Steady fs own o s) (hin : (s.answers.get p vs).isSome = true) :
    (readAnswerP p vs).Safe (Rely fs own) (Guar fs others) (Ends (Steady fs own o) (predicateSatisfied fs vs p)) s := by
  intro s' hr
  obtain ⟨b, hb⟩ := Option.isSome_iff_exists.mp (hr.grow p vs hin)
  have hright := hr.right hs.1
  simp only [hb, Option.getD_some]
  exact ⟨Guar.refl .., fun _ _ => ⟨hright, by rw [hr.same, hs.2]⟩, (hright _ _ _ hb).symm⟩

theorem cachedP_gives {fs : FloatSys} {own : QShared → Option (List Point)}
    {others : (QShared → Option (List Point)) → Prop} (hown : Blind own) (hothers : ∀ o, others o → Blind o)
    (o : Option (List Point)) (p : Pred) (vs : List VarInfo) :
    Gives (Rely fs own) (Guar fs others) (Steady fs own o) (cachedP false fs p vs) (predicateSatisfied fs vs p) := by
  intro s hs s' hr
  refine ⟨Guar.refl .., ?_⟩
  have hs' : Steady fs own o s' := ⟨hr.right hs.1, by rw [hr.same, hs.2]⟩
  simp only [id]
  cases hg : s'.answers.get p vs with
  | some b => exact readAnswerP_safe hs' (by rw [hg]; rfl)
  | none =>
    simp only [storeAnswerP, Bool.false_eq_true, if_false]
    cases hp : predicateSatisfied fs vs p with
    | ok b =>
      simp only [QProc.ok_bind, QProc.act_bind]
      intro s2 hr2
      refine ⟨⟨answersRight_answer hp, answersGrow_answer _ _ _ _, fun o' h' => hothers o' h' ..⟩, ?_⟩
      have := readAnswerP_safe (others := others) (own := own) (o := o) (p := p) (vs := vs)
        (s := s2.answer p vs b) ⟨answersRight_answer hp (hr2.right hs'.1), by rw [hown, hr2.same, hs'.2]⟩
        (by simp [QShared.answer, AnswerCache.get_cons, Pred.eqv_self])
      rw [hp] at this
      exact this
    | throw e => exact ⟨fun _ h => (nomatch h), rfl⟩
    | abort => exact ⟨fun _ h => (nomatch h), rfl⟩
    | ub k => exact ⟨fun _ h => (nomatch h), rfl⟩
    | hang => exact ⟨fun _ h => (nomatch h), rfl⟩

/-- A thread that is not interrupted. -/
def NoRely (s s' : QShared) : Prop := s' = s

/-- Anything. -/
def NoGuar (_ _ : QShared) : Prop := True

theorem cachedP_alone {fs : FloatSys} {own : QShared → Option (List Point)} (hown : Blind own)
    (o : Option (List Point)) (early : Bool) (p : Pred) (vs : List VarInfo) :
    Gives NoRely NoGuar (Steady fs own o) (cachedP early fs p vs) (predicateSatisfied fs vs p) := by
  have hread : ∀ s b, Steady fs own o s → s.answers.get p vs = some b →
      (readAnswerP p vs).Safe NoRely NoGuar (Ends (Steady fs own o) (predicateSatisfied fs vs p)) s := by
    rintro s b hs hb s' rfl
    simp only [hb, Option.getD_some]
    exact ⟨trivial, fun _ _ => hs, (hs.1 _ _ _ hb).symm⟩
  rintro s hs s' rfl
  refine ⟨trivial, ?_⟩
  simp only [id]
  have hend : ∀ s2, (∀ b, predicateSatisfied fs vs p = .ok b → Steady fs own o (s2.answer p vs b)) →
      ((QProc.done (predicateSatisfied fs vs p) >>= fun b =>
          QProc.act (fun s => s.answer p vs b) fun _ => QProc.done (.ok ())) >>= fun _ => readAnswerP p vs).Safe
        NoRely NoGuar (Ends (Steady fs own o) (predicateSatisfied fs vs p)) s2 := by
    intro s2 h2
    cases hp : predicateSatisfied fs vs p with
    | ok b =>
      simp only [QProc.ok_bind, QProc.act_bind]
      rintro s3 rfl
      refine ⟨trivial, ?_⟩
      have := hread (s3.answer p vs b) b (h2 b hp) (by simp [QShared.answer, AnswerCache.get_cons, Pred.eqv_self])
      rw [hp] at this
      exact this
    | throw e => exact ⟨fun _ h => (nomatch h), rfl⟩
    | abort => exact ⟨fun _ h => (nomatch h), rfl⟩
    | ub k => exact ⟨fun _ h => (nomatch h), rfl⟩
    | hang => exact ⟨fun _ h => (nomatch h), rfl⟩
  cases hg : s'.answers.get p vs with
  | some b => exact hread s' b hs hg
  | none =>
    cases early with
    | false => exact hend s' fun b hb => ⟨answersRight_answer hb hs.1, by rw [hown, hs.2]⟩
    | true =>
      simp only [storeAnswerP, if_true, QProc.act_bind]
      rintro s2 rfl
      refine ⟨trivial, ?_⟩
      simp only [hg]
      refine hend _ fun b hb => ⟨?_, by rw [hown, hown, hs.2]⟩
      intro q ws c he
      simp only [QShared.answer, AnswerCache.get_cons] at he
      split at he
      · rename_i hq
        simp only [Bool.and_eq_true, decide_eq_true_eq] at hq
        cases he
        rw [Pred.eqv_eq _ _ hq.1, hq.2, hb]
      · exact hs.1 q ws c he

/-- The result without the state of the evaluator. -/
def Res.fst {α : Type} (x : Res (α × Unit)) : Res α := x >>= fun a => .ok a.1

theorem Res.fst_ok {α : Type} {x : Res (α × Unit)} {a : α} (h : x.fst = .ok a) : x = .ok (a, ()) := by
  cases x <;> simp [Res.fst] at h
  subst h; rfl

section Queries
variable {early : Bool} {fs : FloatSys} {R G : QShared → QShared → Prop} {I : QShared → Prop}
  (hc : ∀ p vs, Gives R G I (cachedP early fs p vs) (predicateSatisfied fs vs p))
include hc

theorem satisfiesP_gives (p : Pred) (point : Point) (b : List Nat) :
    Gives R G I (satisfiesP early fs p point b) (satisfies (plainEval fs) p point b ()).fst := by
  have : (satisfies (plainEval fs) p point b ()).fst =
      (lookupVars point.vars b >>= fun vs => predicateSatisfied fs vs p) := by
    unfold satisfies Res.fst plainEval
    rw [Res.bind_assoc]
    congr 1
    funext vs
    cases predicateSatisfied fs vs p <;> rfl
  rw [this]
  exact (Gives.done _).bind fun vs _ => hc p vs

theorem hardLoopP_gives (hard : Pred) (point : Point) (bs : List (List Nat)) :
    Gives R G I (hardLoopP early fs hard point bs) (hardLoop (plainEval fs) hard point bs ()).fst := by
  induction bs with
  | nil => exact Gives.done _
  | cons b bs ih =>
    have : (hardLoop (plainEval fs) hard point (b :: bs) ()).fst =
        ((satisfies (plainEval fs) hard point b ()).fst >>= fun sat =>
          if sat then lookupVars point.vars b >>= fun vars =>
            (hardLoop (plainEval fs) hard point bs ()).fst >>= fun rest =>
              .ok ({ point with vars := vars } :: rest)
          else (hardLoop (plainEval fs) hard point bs ()).fst) := by
      simp only [hardLoop, Res.fst, Res.bind_assoc]
      congr 1
      funext ⟨sat, u⟩
      cases sat
      · rfl
      · simp only [if_true, Res.ok_bind, Res.bind_assoc, Res.pure_eq]
    rw [this, hardLoopP]
    refine (satisfiesP_gives hc hard point b).bind fun sat _ => ?_
    cases sat
    · exact ih
    · exact (Gives.done _).bind fun vars _ => ih.bind fun rest _ => Gives.done _

theorem softCountP_gives (r : Point) (bindings : List Nat) (ps : List Pred) :
    Gives R G I (softCountP early fs r bindings ps) (softCount (plainEval fs) r bindings ps ()).fst := by
  induction ps with
  | nil => exact Gives.done _
  | cons p ps ih =>
    have : (softCount (plainEval fs) r bindings (p :: ps) ()).fst =
        ((satisfies (plainEval fs) p r bindings ()).fst >>= fun sat =>
          (softCount (plainEval fs) r bindings ps ()).fst >>= fun n => .ok ((if sat then 1 else 0) + n)) := by
      simp only [softCount, Res.fst, Res.bind_assoc, Res.ok_bind, Res.pure_eq]
    rw [this, softCountP]
    exact (satisfiesP_gives hc p r bindings).bind fun sat _ => ih.bind fun n _ => Gives.done _

theorem softCountsP_gives (soft : List Pred) (bindings : List Nat) (rs : List Point) :
    Gives R G I (softCountsP early fs soft bindings rs) (softCounts (plainEval fs) soft bindings rs ()).fst := by
  induction rs with
  | nil => exact Gives.done _
  | cons r rs ih =>
    have : (softCounts (plainEval fs) soft bindings (r :: rs) ()).fst =
        ((softCount (plainEval fs) r bindings soft ()).fst >>= fun n =>
          (softCounts (plainEval fs) soft bindings rs ()).fst >>= fun ns => .ok (n :: ns)) := by
      simp only [softCounts, Res.fst, Res.bind_assoc, Res.ok_bind, Res.pure_eq]
    rw [this, softCountsP]
    exact (softCountP_gives hc r bindings soft).bind fun n _ => ih.bind fun ns _ => Gives.done _

theorem collectP_gives (env : Env) (point : Point) (variables : List FreeVar) (hard : Pred) (soft : List Pred) :
    Gives R G I (collectP early fs env point variables hard soft)
      (collectResults env (plainEval fs) point variables hard soft ()).fst := by
  have : (collectResults env (plainEval fs) point variables hard soft ()).fst =
      (firstResults point variables hard >>= fun first =>
        if 2 ^ 32 ≤ point.vars.length ∧ ¬ variables.isEmpty then Res.hang else
        cartesian env (variables.map fun fv => matchingVars fv point.vars) >>= fun bindings =>
        (hardLoop (plainEval fs) hard point bindings ()).fst >>= fun found =>
        if soft.isEmpty then .ok (first ++ found)
        else (softCounts (plainEval fs) soft (List.range variables.length) (first ++ found) ()).fst >>= fun counts =>
          if 2 ^ 32 ≤ (first ++ found).length then Res.hang else .ok (keepMax counts (first ++ found))) := by
    simp only [collectResults, Res.fst, Res.bind_assoc, Res.pure_eq]
    congr 1
    funext first
    split
    · rfl
    · rw [Res.bind_assoc]
      congr 1
      funext bindings
      rw [Res.bind_assoc]
      congr 1
      funext ⟨found, u⟩
      simp only [Res.ok_bind]
      split
      · rfl
      · rw [Res.bind_assoc]
        congr 1
        funext ⟨counts, u⟩
        split
        · rfl
        · rfl
  rw [this, collectP]
  refine (Gives.done _).bind fun first _ => ?_
  split
  · exact Gives.done _
  · refine (Gives.done _).bind fun bindings _ => ?_
    refine (hardLoopP_gives hc hard point bindings).bind fun found _ => ?_
    split
    · exact Gives.done _
    · refine (softCountsP_gives hc soft _ _).bind fun counts _ => ?_
      split
      · exact Gives.done _
      · exact Gives.done _

theorem queryAllP_gives (env : Env) (variables : List FreeVar) (hard : Pred) (soft : List Pred) (ps : List Point) :
    Gives R G I (queryAllP early fs env variables hard soft ps)
      (queryAll env (plainEval fs) variables hard soft ps ()).fst := by
  induction ps with
  | nil => exact Gives.done _
  | cons p ps ih =>
    have : (queryAll env (plainEval fs) variables hard soft (p :: ps) ()).fst =
        ((collectResults env (plainEval fs) p variables hard soft ()).fst >>= fun r =>
          (queryAll env (plainEval fs) variables hard soft ps ()).fst >>= fun rs => .ok (r ++ rs)) := by
      simp only [queryAll, Res.fst, Res.bind_assoc, Res.ok_bind, Res.pure_eq]
    rw [this, queryAllP]
    exact (collectP_gives hc env p variables hard soft).bind fun r _ => ih.bind fun rs _ => Gives.done _

theorem queryPointsP_gives (env : Env) (pick : U32 → Nat → Nat) (q : Query) (ps : List Point) :
    Gives R G I (queryPointsP early fs env pick q ps)
      (queryPoints env pick (plainEval fs) ps q.variables q.hard q.soft q.seed ()).fst := by
  unfold queryPointsP queryPoints
  split
  · split
    · exact Gives.done _
    · cases ps[pick q.seed ps.length]? with
      | none => exact Gives.done _
      | some p => exact collectP_gives hc env _ _ _ _
  · exact queryAllP_gives hc env _ _ _ ps

end Queries

end TraceDB
