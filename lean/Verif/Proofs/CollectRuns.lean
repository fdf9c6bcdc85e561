import Verif.Spec.CollectRuns
import Verif.Props.CollectFiles
import Verif.Props.RunDatabase
/-
Lemmas for C103.
-/
namespace TraceDB

theorem provided_get {τ : Type} : ∀ {as : List (CfAttempt τ)} {j : Nat} {x : τ}, (provided as)[j]? = some x → as[j]? = some (.added x)
  | [], _, _, h => by simp [provided] at h
  | .added t :: as, 0, x, h => by
    simp only [provided, List.getElem?_cons_zero, Option.some.injEq] at h
    subst h
    rfl
  | .added t :: as, j + 1, x, h => by
    simp only [provided, List.getElem?_cons_succ] at h
    simp only [List.getElem?_cons_succ]
    exact provided_get h
  | .noHandshake :: _, _, _, h => by simp [provided] at h
  | .refused :: _, _, _, h => by simp [provided] at h
  | .failed :: _, _, _, h => by simp [provided] at h

theorem provided_all {τ : Type} : ∀ {as : List (CfAttempt τ)}, (∀ a ∈ as, ∃ t, a = .added t) → (provided as).length = as.length
  | [], _ => rfl
  | a :: as, h => by
    obtain ⟨t, rfl⟩ := h a (by simp)
    simp only [provided, List.length_cons]
    rw [provided_all fun a ha => h a (List.mem_cons_of_mem _ ha)]

section
variable {env : Env} {cf : CFloat} {mem : CMem} {runOf : Nat × Nat → ProjRun} {complete : Nat × Nat → Prop}
  {file : Nat × Nat → IStream} {w : CfWorld (Nat × Trace)}

theorem ReadsRuns.provided_at (hw : ReadsRuns env cf mem runOf complete file w) {k j : Nat} {x : Nat × Trace}
    (h : (provided (w.attempts k))[j]? = some x) : x.1 = j :=
  (hw.added k j x.1 x.2 (provided_get h)).1

/-- The numbers of the attempts of a test case that added traces. -/
theorem ReadsRuns.numbers (hw : ReadsRuns env cf mem runOf complete file w) (k : Nat) :
    (provided (w.attempts k)).map (·.1) = List.range (provided (w.attempts k)).length := by
  apply List.ext_getElem?
  intro j
  rw [List.getElem?_map]
  cases h : (provided (w.attempts k))[j]? with
  | none =>
    have := List.getElem?_eq_none_iff.mp h
    simp [this]
  | some x =>
    have hj := (List.getElem?_eq_some_iff.mp h).1
    rw [Option.map_some, hw.provided_at h, List.getElem?_range hj]

theorem ReadsRuns.entry (hw : ReadsRuns env cf mem runOf complete file w) {n : Nat} {e : Nat × Nat × Trace}
    (h : e ∈ providedBy (gives false w) n) :
    readTrace env (runOf (e.1, e.2.1)).limit (file (e.1, e.2.1)) = .ok e.2.2 ∧
      ∃ io bytes, file (e.1, e.2.1) = ⟨bytes, io, .good⟩ ∧ (runOf (e.1, e.2.1)).Built ∧
        (runOf (e.1, e.2.1)).Leaves cf mem (complete (e.1, e.2.1)) bytes := by
  obtain ⟨k, _, he⟩ := List.mem_flatMap.mp h
  obtain ⟨x, hx, rfl⟩ := List.mem_map.mp he
  simp only [gives, Bool.false_eq_true, if_false] at hx
  obtain ⟨j, hj⟩ := List.mem_iff_getElem?.mp hx
  have h1 := provided_get hj
  obtain ⟨h2, h3⟩ := hw.added k j x.1 x.2 h1
  simp only
  rw [h2]
  exact ⟨h3, hw.runs k j _ h1 (by simp) (by simp)⟩

theorem ReadsRuns.ordered (hw : ReadsRuns env cf mem runOf complete file w) (n : Nat) :
    (providedBy (gives false w) n).Pairwise fun a b => AttemptBefore (a.1, a.2.1) (b.1, b.2.1) := by
  unfold providedBy
  rw [List.pairwise_flatMap]
  constructor
  · intro k _
    simp only [tagged, gives, Bool.false_eq_true, if_false]
    rw [List.pairwise_map]
    have h := List.pairwise_lt_range (n := (provided (w.attempts k)).length)
    rw [← hw.numbers k, List.pairwise_map] at h
    exact h.imp fun hab => .inr ⟨rfl, hab⟩
  · refine List.pairwise_lt_range.imp fun {a b} hab => ?_
    intro x hx y hy
    obtain ⟨_, _, rfl⟩ := List.mem_map.mp hx
    obtain ⟨_, _, rfl⟩ := List.mem_map.mp hy
    exact .inl hab

theorem collected_stored {l : List (Nat × Nat × Trace)}
    (hl : ∀ e ∈ l, readTrace env (runOf (e.1, e.2.1)).limit (file (e.1, e.2.1)) = .ok e.2.2) :
    SpecHeap.after env ⟨[], []⟩ (collectedOps runOf file l) = ⟨[l.map fun x => (x.2.2, (x.1, x.2.1))], [(0, none)]⟩ := by
  unfold collectedOps
  rw [after_adds]
  congr 2
  induction l with
  | nil => rfl
  | cons e l ih =>
    have ih := ih fun e he => hl e (List.mem_cons_of_mem _ he)
    unfold storedWith at ih ⊢
    rw [List.map_cons, List.filterMap_cons]
    have h1 : LispAdd.stores env (.trace (some (file (e.1, e.2.1))) (runOf (e.1, e.2.1)).limit (e.1, e.2.1)) = some e.2.2 := by
      simp only [LispAdd.stores, hl e (by simp)]
    rw [h1]
    exact congrArg (List.cons _) ih

theorem specRun_adds {μ σ : Type} (wd : World) (ev : Evaluator σ) (s : σ) : ∀ (adds : List (LispAdd μ)) (S : SpecHeap μ),
    0 < S.objs.length → (∀ a ∈ adds, ∃ src k m t, a = .trace (some src) k m ∧ readTrace wd.env k src = .ok t) →
    ∃ xs, SpecHeap.run wd ev S s (adds.map (.add 0)) = .ok (xs, s)
  | [], _, _, _ => ⟨[], rfl⟩
  | a :: adds, S, hS, h => by
    obtain ⟨src, k, m, t, rfl, ht⟩ := h a (by simp)
    have hS' : 0 < (S.step wd.env (.add 0 (.trace (some src) k m))).objs.length := by
      simp only [SpecHeap.step]
      split <;> exact hS
    obtain ⟨xs, hxs⟩ := specRun_adds wd ev s adds _ hS' fun a ha => h a (List.mem_cons_of_mem _ ha)
    refine ⟨.done :: xs, ?_⟩
    simp only [List.map_cons, SpecHeap.run, SpecHeap.answer, hS, if_true, ht, Res.ok_bind, hxs]

/-- All attempts of a test case whose runs are complete add traces. -/
theorem ReadsRuns.all_added (hw : ReadsRuns env cf mem runOf complete file w) (hal : ∀ n, env.canAlloc n = true)
    (henv : env.junk.isSome = true) {k : Nat} (hruns : ∀ a ∈ w.attempts k, a ≠ .noHandshake ∧ a ≠ .failed)
    (hc : ∀ j, j < (w.attempts k).length → complete (k, j)) : ∀ a ∈ w.attempts k, ∃ t, a = .added t := by
  intro a ha
  obtain ⟨j, hj⟩ := List.mem_iff_getElem?.mp ha
  obtain ⟨h1, h2⟩ := hruns a ha
  cases a with
  | added t => exact ⟨t, rfl⟩
  | noHandshake => exact absurd rfl h1
  | failed => exact absurd rfl h2
  | refused =>
    obtain ⟨io, bytes, e, hb, hl⟩ := hw.runs k j _ hj h1 h2
    obtain ⟨t, ht⟩ := run_whole env io cf mem _ _ bytes hb hl hal henv (hc j (List.getElem?_eq_some_iff.mp hj).1)
    exact absurd (by rw [e]; exact ht) (hw.refused k j t hj)

theorem collect_compiled {τ : Type} {sexp : Bool} {w : CfWorld τ} {b : Budget} {n : Nat} {s : CfState τ} (h : Compiled w s) :
    (cfCollect sexp w b n s).1 ≠ .returned ∧ (cfCollect sexp w b n s).1 ≠ .error .compile := by
  rcases cfCollect_cases w s with hb | ⟨hb, he⟩ | ⟨hb, he⟩
  · rw [cfCollect_present sexp w b n s hb]
    have f := allTests_facts sexp w b n s
    exact ⟨f.ret, (f.present hb).2.2.2⟩
  · rw [cfCollect_compiled sexp w b n s hb he]
    have hcr : (w.compile s.compiles).creates = true := by
      rcases h with h | h
      · rw [hb] at h; cases h
      · exact h.1
    have f := allTests_facts sexp w b n { s with bin := (w.compile s.compiles).creates, compiles := s.compiles + 1 }
    exact ⟨f.ret, (f.present hcr).2.2.2⟩
  · rcases h with h | h
    · rw [hb] at h; cases h
    · rw [he] at h; cases h.2

theorem Budget.firsts_map {α β : Type} (b : Budget) (f : α → β) (l : List α) : (b.firsts l).map f = b.firsts (l.map f) := by
  cases b with
  | none => rfl
  | some n => exact List.map_take ..

end

end TraceDB
