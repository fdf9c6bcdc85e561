import Verif.Proofs.LispGc
import Verif.Spec.LispGc
import Verif.Props.LispObjects
/-
Property C80: garbage collection and databases.
-/
namespace TraceDB

variable {μ σ : Type}

/-- Two images that a program cannot tell apart. -/
def GcImage.Same (g g' : GcImage μ) : Prop := g.heap = g'.heap ∧ g.refs = g'.refs

theorem gcStep_op {cap : FinCapture} {w : World} {version : Nat} {ev : Evaluator σ} {g : GcImage μ} (H : g.Inv cap) (s : σ)
    (o : ObjOp μ) :
    (gcStep cap w version ev g s (.op o) = .throw .lisp ∧ ∃ i, o.given = some i ∧ i ∉ g.refs) ∨
    ((∀ i, o.given = some i → i ∈ g.refs) ∧ gcStep cap w version ev g s (.op o) = do
      let (x, h, s) ← lispStep w version ev g.heap s o
      pure (some x, { g with heap := h, refs := refsAfter x g.refs, pending := pendingAfter o x g.pending }, s)) := by
  cases hg : o.given with
  | none =>
    right
    refine ⟨by simp, ?_⟩
    simp only [gcStep, hg]
  | some i =>
    by_cases hi : i ∈ g.refs
    · right
      refine ⟨by rintro j hj; cases hj; exact hi, ?_⟩
      obtain ⟨x, h1, h2, h3⟩ := H.usable hi
      simp only [gcStep, hg, List.contains_iff_mem.mpr hi, if_true, h1]
      rw [if_neg (by simp [h2, h3])]
    · left
      refine ⟨?_, i, rfl, hi⟩
      have : g.refs.contains i = false := by simpa using hi
      simp only [gcStep, hg, this]
      rfl

/-- The rest of a history after an answer. -/
def gcAfter (x : Option (LispAnswer μ)) (r : Res (List (LispAnswer μ) × GcImage μ × σ)) :
    Res (List (LispAnswer μ) × GcImage μ × σ) := do
  let (xs, g, s) ← r
  pure (x.toList ++ xs, g, s)

theorem gcRun_cons {cap : FinCapture} {w : World} {version : Nat} {ev : Evaluator σ} {g : GcImage μ} {s : σ} {op : GcOp μ}
    {ops : List (GcOp μ)} : gcRun cap w version ev g s (op :: ops) =
      ((gcStep cap w version ev g s op).bind fun r => gcAfter r.1 (gcRun cap w version ev r.2.1 r.2.2 ops)) := rfl

theorem gcAfter_seen (x : Option (LispAnswer μ)) {r r' : Res (List (LispAnswer μ) × GcImage μ × σ)} (h : gcSeen r = gcSeen r') :
    gcSeen (gcAfter x r) = gcSeen (gcAfter x r') := by
  cases r <;> cases r' <;> simp_all [gcSeen, gcAfter, bind, Res.bind, pure]

theorem gcAfter_none (r : Res (List (LispAnswer μ) × GcImage μ × σ)) : gcAfter none r = r := by
  cases r <;> rfl

theorem gcStep_collect {cap : FinCapture} {w : World} {version : Nat} {ev : Evaluator σ} {g : GcImage μ} (H : g.Inv cap) (s : σ)
    (choice : Nat → Bool) :
    ∃ g', gcStep cap w version ev g s (.collect choice) = .ok (none, g', s) ∧ g'.Inv cap ∧ g.Same g' := by
  obtain ⟨freed, h1, h2⟩ := H.collect choice rfl
  exact ⟨_, by simp only [gcStep, h1, Res.ok_bind]; rfl, h2, rfl, rfl⟩

theorem gcRun_idle {cap : FinCapture} {w : World} {version : Nat} {ev : Evaluator σ} (l : List (GcOp μ)) :
    ∀ (g g' : GcImage μ) (s : σ), g.Inv cap → g'.Inv cap → g.Same g' →
      gcSeen (gcRun cap w version ev g s l) =
        gcSeen (gcRun cap w version ev g' s (l.map GcOp.idle)) := by
  induction l with
  | nil =>
    intro g g' s _ _ h
    simp only [gcRun, List.map_nil, gcSeen, h.1]
  | cons op l ih =>
    intro g g' s H H' hsame
    rw [List.map_cons, gcRun_cons, gcRun_cons]
    cases op with
    | op o =>
      simp only [GcOp.idle]
      rcases gcStep_op (w := w) (version := version) (ev := ev) H s o with ⟨h1, i, h2, h3⟩ | ⟨h1, h2⟩
      · rcases gcStep_op (w := w) (version := version) (ev := ev) H' s o with ⟨h4, _⟩ | ⟨h4, _⟩
        · rw [h1, h4]; rfl
        · exact absurd (hsame.2 ▸ h4 i h2) h3
      · rcases gcStep_op (w := w) (version := version) (ev := ev) H' s o with ⟨_, i, h4, h5⟩ | ⟨h4, h5⟩
        · exact absurd (hsame.2 ▸ h1 i h4) h5
        · rw [h2, h5, ← hsame.1]
          cases hl : lispStep w version ev g.heap s o with
          | ok r =>
            obtain ⟨x, h, s'⟩ := r
            refine gcAfter_seen (some x) (ih _ _ s' (H.op (reshaped hl) h1) ?_ ⟨rfl, by simp only [hsame.2]⟩)
            exact H'.op (h' := h) (by rw [← hsame.1]; exact reshaped hl) h4
          | throw e => rfl
          | abort => rfl
          | ub k => rfl
          | hang => rfl
    | forget i =>
      exact gcAfter_seen none (ih _ _ s (H.forget i) (H'.forget i) ⟨hsame.1, by simp only [hsame.2]⟩)
    | collect choice =>
      simp only [GcOp.idle]
      obtain ⟨g₁, h1, h2, h3⟩ := gcStep_collect (w := w) (version := version) (ev := ev) H s choice
      obtain ⟨g₂, h4, h5, h6⟩ := gcStep_collect (w := w) (version := version) (ev := ev) H' s (fun _ => false)
      rw [h1, h4]
      exact gcAfter_seen none (ih _ _ s h2 h5 ⟨h3.1.symm.trans (hsame.1.trans h6.1), h3.2.symm.trans (hsame.2.trans h6.2)⟩)

/-- **C80**.  Collections cannot be noticed: a program that creates, restricts, copies,
fills and queries databases and forgets about them has the same outcome, with the same
answers, whatever is collected at any time, as if nothing were ever collected.  This holds
whether the finalizer refers to the object, as in the code, or to the pointer only. -/
theorem C80_collection_unnoticed (cap : FinCapture) (w : World) (version : Nat) (ev : Evaluator σ) (s : σ)
    (l : List (GcOp μ)) :
    gcSeen (gcRun cap w version ev GcImage.fresh s l) =
      gcSeen (gcRun cap w version ev GcImage.fresh s (l.map GcOp.idle)) :=
  gcRun_idle l _ _ s (inv_fresh cap) (inv_fresh cap) ⟨rfl, rfl⟩

theorem gcRun_lisp {cap : FinCapture} {w : World} {version : Nat} {ev : Evaluator σ} (l : List (GcOp μ)) :
    ∀ (g : GcImage μ) (s : σ), g.Inv cap → OnlyReferred w version ev g.refs g.heap s l →
      gcSeen (gcRun cap w version ev g s l) = lispRun w version ev g.heap s (opsOf l) := by
  induction l with
  | nil => intros; rfl
  | cons op l ih =>
    intro g s H hr
    rw [gcRun_cons]
    cases op with
    | op o =>
      rcases gcStep_op (w := w) (version := version) (ev := ev) H s o with ⟨_, i, h1, h2⟩ | ⟨h1, h2⟩
      · exact absurd (hr.1 i h1) h2
      · rw [h2]
        have hops : opsOf (.op o :: l) = o :: opsOf l := rfl
        rw [hops]
        simp only [lispRun]
        cases hl : lispStep w version ev g.heap s o with
        | ok r =>
          obtain ⟨x, h, s'⟩ := r
          have h3 := ih _ s' (H.op (reshaped hl) h1) (by
            have := hr.2 x h s' hl
            cases x <;> exact this)
          show gcSeen (gcAfter (some x) _) = _
          simp only [Res.ok_bind]
          simp only at h3
          rw [← h3]
          cases gcRun cap w version ev _ s' l <;> rfl
        | throw e => rfl
        | abort => rfl
        | ub k => rfl
        | hang => rfl
    | forget i =>
      show gcSeen (gcAfter none _) = _
      rw [gcAfter_none]
      exact ih _ s (H.forget i) hr
    | collect choice =>
      obtain ⟨g₁, h1, h2, h3⟩ := gcStep_collect (w := w) (version := version) (ev := ev) H s choice
      rw [h1]
      show gcSeen (gcAfter none _) = _
      rw [gcAfter_none]
      have := ih g₁ s h2 (by rw [← h3.1, ← h3.2]; exact hr)
      rw [← h3.1] at this
      exact this

theorem gcRun_inv {cap : FinCapture} {w : World} {version : Nat} {ev : Evaluator σ} (l : List (GcOp μ)) :
    ∀ (g : GcImage μ) (s : σ), g.Inv cap → ∀ r, gcRun cap w version ev g s l = .ok r → r.2.1.Inv cap := by
  induction l with
  | nil => rintro g s H r hr; cases hr; exact H
  | cons op l ih =>
    intro g s H r hr
    rw [gcRun_cons] at hr
    obtain ⟨⟨x, g₁, s₁⟩, h1, h2⟩ := Res.bind_eq_ok.mp hr
    have H₁ : g₁.Inv cap := by
      cases op with
      | op o =>
        rcases gcStep_op (w := w) (version := version) (ev := ev) H s o with ⟨h3, _⟩ | ⟨h3, h4⟩
        · rw [h3] at h1; cases h1
        · rw [h4] at h1
          obtain ⟨⟨y, h, s'⟩, h5, h6⟩ := Res.bind_eq_ok.mp h1
          cases h6
          exact H.op (reshaped h5) h3
      | forget i => cases h1; exact H.forget i
      | collect choice =>
        obtain ⟨g₂, h3, h4, _⟩ := gcStep_collect (w := w) (version := version) (ev := ev) H s choice
        rw [h3] at h1
        cases h1
        exact h4
    obtain ⟨⟨xs, g₂, s₂⟩, h3, h4⟩ := Res.bind_eq_ok.mp h2
    have := ih g₁ s₁ H₁ _ h3
    cases h4
    exact this

/-- **C80, answers.**  The operations of a program that uses only objects it refers to have
the outcome and the answers of databases that are never freed (which are described by
C66), whatever is collected. -/
theorem C80_answers (cap : FinCapture) (w : World) (version : Nat) (ev : Evaluator σ) (s : σ) (l : List (GcOp μ))
    (h : OnlyReferred w version ev [] ⟨[], []⟩ s l) :
    gcSeen (gcRun cap w version ev GcImage.fresh s l) = lispRun w version ev ⟨[], []⟩ s (opsOf l) :=
  gcRun_lisp l GcImage.fresh s (inv_fresh cap) h

/-- **C80, leak.**  No database is ever freed while the program runs, whatever it forgets
and whenever a collection takes place, because the finalizer refers to the object it
belongs to. -/
theorem C80_never_freed (w : World) (version : Nat) (ev : Evaluator σ) (s : σ) (l : List (GcOp μ))
    (xs : List (LispAnswer μ)) (g : GcImage μ) (s' : σ)
    (h : gcRun .object w version ev GcImage.fresh s l = .ok (xs, g, s')) : g.freed = [] :=
  (gcRun_inv l GcImage.fresh s (inv_fresh .object) _ h).kept rfl

/-- **C80, defect.**  A program that has forgotten all its databases does not get their
memory back when everything that can be collected is collected; it would if the finalizer
referred to the pointer only. -/
theorem C80_leak :
    (∀ (w : World) (version : Nat) (ev : Evaluator Unit), ∃ g : GcImage Nat,
      gcRun .object w version ev GcImage.fresh () [.op .create, .forget 0, .collect fun _ => true] =
        .ok ([.object 0], g, ()) ∧ g.refs = [] ∧ g.freed = [] ∧ g.heap.dbs.length = 1) ∧
    (∀ (w : World) (version : Nat) (ev : Evaluator Unit), ∃ g : GcImage Nat,
      gcRun .pointer w version ev GcImage.fresh () [.op .create, .forget 0, .collect fun _ => true] =
        .ok ([.object 0], g, ()) ∧ g.refs = [] ∧ g.freed = [0] ∧ g.heap.dbs.length = 1) :=
  ⟨fun _ _ _ => ⟨_, rfl, rfl, rfl, rfl⟩, fun _ _ _ => ⟨_, rfl, rfl, rfl, rfl⟩⟩

/-- Two databases, one with a wrapper; both objects are forgotten, and everything that can
be collected is collected.  The wrapper still works. -/
def gcOps : List (GcOp Nat) :=
  [.op .create, .op (.add 0 (.trace (some (IStream.ofBytes exBytes)) 0 7)), .op (.restrict 0 2), .op .create, .forget 0,
   .forget 2, .collect fun _ => true, .op (.get 1 0 none), .op (.restrict 1 5), .forget 1, .collect fun _ => true,
   .op (.get 3 0 none)]

/-- What the collector has done: only the second database would be freed if the finalizer
referred to the pointer only. -/
example : (gcRun .object objWorld 17 (plainEval exFloats) GcImage.fresh () gcOps >>= fun r =>
      .ok (r.1.map (fun x => match x with | .trace _ m => some m | _ => none), r.2.1.freed, r.2.1.collected)) =
    .ok ([none, none, none, none, some 7, none, some 7], [], []) ∧
    (gcRun .pointer objWorld 17 (plainEval exFloats) GcImage.fresh () gcOps >>= fun r =>
      .ok (r.1.map (fun x => match x with | .trace _ m => some m | _ => none), r.2.1.freed, r.2.1.collected)) =
    .ok ([none, none, none, none, some 7, none, some 7], [1], [2]) := by decide +kernel

/-- Using an object that was forgotten is not possible. -/
example : (gcRun .object objWorld 17 (plainEval exFloats) (GcImage.fresh : GcImage Nat) ()
    [.op .create, .forget 0, .op (.restrict 0 1)] >>= fun r => .ok r.1) = .throw .lisp := by decide +kernel

/-- A program that only uses what it refers to. -/
example : OnlyReferred objWorld 17 (plainEval exFloats) [] ⟨[], []⟩ ()
    [.op .create, .op (.restrict 0 2), .op .create, .forget 0, .forget 2, .collect fun _ => true, .op (.restrict 1 5),
     (.forget 1 : GcOp Nat)] := by
  refine ⟨by simp [ObjOp.given], fun _ _ _ h => ?_⟩
  cases h
  refine ⟨by simp [ObjOp.given], fun _ _ _ h => ?_⟩
  cases h
  refine ⟨by simp [ObjOp.given], fun _ _ _ h => ?_⟩
  cases h
  refine ⟨by simp [ObjOp.given], fun _ _ _ h => ?_⟩
  cases h
  trivial

end TraceDB
