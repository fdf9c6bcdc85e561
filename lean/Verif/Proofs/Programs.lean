import Verif.Spec.Programs
import Verif.Props.Statements
import Verif.Props.EndToEnd
/-
Proofs about programs of several functions.
-/
namespace TraceDB

/-! What is so for all steps is so for runs -/

/-- A relation between state, steps and state that holds for single steps (for points: if
`P`) and is kept by doing one after the other. -/
structure StepRel {σ : Type} (w : ActWorld σ) (P : PointEvent → Prop) (R : σ → List Step → σ → Prop) : Prop where
  nil : ∀ s, R s [] s
  app : ∀ {s l s' l' s''}, R s l s' → R s' l' s'' → R s (l ++ l') s''
  act : ∀ a s, R s [.did a] (w.act a s).1
  cond : ∀ c s, R s [.asked c] (w.cond c s).1
  value : ∀ c s, R s [.asked c] (w.value c s).1
  point : ∀ e s, P e → R s [.point e] s

/-- All runs of a meaning. -/
def Runs {σ : Type} (R : σ → List Step → σ → Prop) (m : Meaning σ) : Prop :=
  ∀ e s, R s (m.run e s).1 (m.run e s).2.1

section
variable {σ : Type} {w : ActWorld σ} {P : PointEvent → Prop} {R : σ → List Step → σ → Prop}

theorem StepRel.andThen (h : StepRel w P R) {s : σ} {r : Ran σ} {k : σ → Ran σ} (h1 : R s r.1 r.2.1)
    (h2 : R r.2.1 (k r.2.1).1 (k r.2.1).2.1) : R s (r.andThen k).1 (r.andThen k).2.1 := by
  obtain ⟨l, s', f⟩ := r
  cases f <;> first | exact h1 | exact h.app h1 h2

theorem StepRel.afterRound (h : StepRel w P R) {s : σ} {r : Ran σ} {k : σ → Ran σ} (h1 : R s r.1 r.2.1)
    (h2 : R r.2.1 (k r.2.1).1 (k r.2.1).2.1) : R s (afterRound r k).1 (afterRound r k).2.1 := by
  obtain ⟨l, s', f⟩ := r
  cases f <;> first | exact h1 | exact h.app h1 h2

theorem StepRel.afterSwitch {s : σ} {r : Ran σ} (h1 : R s r.1 r.2.1) :
    R s (afterSwitch r).1 (afterSwitch r).2.1 := by
  obtain ⟨l, s', f⟩ := r
  cases f <;> exact h1

theorem StepRel.guard (h : StepRel w P R) {labs : CLabel → Bool} {run : Option CLabel → σ → Ran σ}
    (hr : ∀ e s, R s (run e s).1 (run e s).2.1) : Runs R (.guard labs run) := by
  intro e s
  cases e with
  | none => exact hr none s
  | some l =>
    simp only [Meaning.guard]
    split
    · exact hr _ s
    · exact h.nil s

theorem StepRel.seq (h : StepRel w P R) {ms : List (Meaning σ)} (hm : ∀ m ∈ ms, Runs R m) : Runs R (meanSeq ms) := by
  show ∀ e s, R s (runSeq ms e s).1 (runSeq ms e s).2.1
  induction ms with
  | nil => intro e s; cases e <;> exact h.nil s
  | cons m ms ih =>
    have ih := ih fun m hm' => hm m (List.mem_cons_of_mem _ hm')
    intro e s
    cases e with
    | none => exact h.andThen (hm m (by simp) _ _) (ih none _)
    | some l =>
      rw [runSeq]
      split
      · exact h.andThen (hm m (by simp) _ _) (ih none _)
      · exact ih _ s

theorem StepRel.rounds (h : StepRel w P R) (c : Nat) {x : Meaning σ} (hx : Runs R x)
    (step : σ → Ran σ) (hs : ∀ s, R s (step s).1 (step s).2.1) :
    ∀ n s, R s (rounds w c x step n s).1 (rounds w c x step n s).2.1
  | 0, s => h.nil s
  | n + 1, s => by
    rw [TraceDB.rounds]
    refine h.andThen (h.cond c s) ?_
    simp only
    split
    · exact h.afterRound (hx _ _) (h.andThen (hs _) (h.rounds c hx step hs n _))
    · exact h.nil _

theorem StepRel.astMeans (h : StepRel w P R) (n : Nat) (k : AstKind) {ms : List (Meaning σ)}
    (hms : ∀ m ∈ ms, Runs R m) : ∀ m ∈ astMeans w n k ms, Runs R m := by
  have hnil : ∀ s : σ, R s (Ran.nothing s).1 (Ran.nothing s).2.1 := h.nil
  have hev : ∀ (u : Nat) (s : σ), R s (evalStep w u s).1 (evalStep w u s).2.1 := h.cond
  have hlab : ∀ l, Runs R (meanLab l : Meaning σ) := fun l => h.guard fun _ s => h.nil s
  intro m hm
  unfold TraceDB.astMeans at hm
  split at hm
  · simp at hm
  · rw [List.mem_singleton] at hm; subst hm; exact h.guard fun _ s => h.act _ s
  · rw [List.mem_singleton] at hm; subst hm; exact h.seq hms
  · rcases List.mem_cons.mp hm with rfl | hm
    · exact hlab _
    · exact hms m hm
  · rcases List.mem_cons.mp hm with rfl | hm
    · exact hlab _
    · exact hms m hm
  · rcases List.mem_cons.mp hm with rfl | hm
    · exact hlab _
    · exact hms m hm
  · rename_i c _ x
    have hx := hms x (by simp)
    rw [List.mem_singleton] at hm; subst hm
    refine h.guard fun e s => ?_
    cases e with
    | none =>
      refine h.andThen (h.cond c s) ?_
      split
      · exact hx _ _
      · exact h.nil _
    | some l =>
      simp only
      split
      · exact hx _ _
      · exact h.nil _
  · rename_i c _ x y
    have hx := hms x (by simp)
    have hy := hms y (by simp)
    rw [List.mem_singleton] at hm; subst hm
    refine h.guard fun e s => ?_
    cases e with
    | none =>
      refine h.andThen (h.cond c s) ?_
      split
      · exact hx _ _
      · exact hy _ _
    | some l =>
      simp only
      split
      · exact hx _ _
      · exact hy _ _
  · rename_i c _ x
    have hx := hms x (by simp)
    rw [List.mem_singleton] at hm; subst hm
    refine h.guard fun e s => ?_
    cases e with
    | none => exact h.rounds c hx _ hnil n s
    | some l => exact h.afterRound (hx _ _) (h.rounds c hx _ hnil n _)
  · rename_i c x _
    have hx := hms x (by simp)
    rw [List.mem_singleton] at hm; subst hm
    exact h.guard fun e s => h.afterRound (hx _ _) (h.rounds c hx _ hnil n _)
  · rename_i i c u _ _ _ x
    have hx := hms x (by simp)
    rw [List.mem_singleton] at hm; subst hm
    refine h.guard fun e s => ?_
    cases e with
    | none => exact h.andThen (hev i s) (h.rounds c hx _ (hev u) n _)
    | some l => exact h.afterRound (hx _ _) (h.andThen (hev u _) (h.rounds c hx _ (hev u) n _))
  · rename_i e _ x
    have hx := hms x (by simp)
    rw [List.mem_singleton] at hm; subst hm
    refine h.guard fun en s => ?_
    cases en with
    | none =>
      refine h.andThen (h.value e s) ?_
      simp only
      split
      · exact StepRel.afterSwitch (hx _ _)
      · split
        · exact StepRel.afterSwitch (hx _ _)
        · exact h.nil _
    | some l => exact StepRel.afterSwitch (hx _ _)
  · simp at hm

mutual
/-- All points of a tree. -/
def Ast.allPoints (P : PointEvent → Prop) : Ast → Prop
  | .mk _ _ b a cs => (∀ e ∈ b, P e) ∧ (∀ e ∈ a, P e) ∧ Ast.allPointsEach P cs
/-- All points of several trees. -/
def Ast.allPointsEach (P : PointEvent → Prop) : List Ast → Prop
  | [] => True
  | c :: cs => c.allPoints P ∧ Ast.allPointsEach P cs
end

mutual
theorem StepRel.mean (h : StepRel w P R) (n : Nat) : ∀ x : Ast, x.allPoints P → Runs R (x.mean w n)
  | .mk k t b a cs, hx => by
    rw [Ast.allPoints] at hx
    obtain ⟨hb, ha, hcs⟩ := hx
    have hp : ∀ e, P e → Runs R (meanPoint e : Meaning σ) := fun e he => h.guard fun _ s => h.point e s he
    rw [Ast.mean]
    refine h.seq fun m hm => ?_
    rw [List.mem_append, List.mem_append] at hm
    rcases hm with (hm | hm) | hm
    · obtain ⟨e, he, rfl⟩ := List.mem_map.mp hm
      exact hp e (hb e he)
    · exact h.astMeans n k (h.meanEach n cs hcs) m hm
    · obtain ⟨e, he, rfl⟩ := List.mem_map.mp hm
      exact hp e (ha e he)
theorem StepRel.meanEach (h : StepRel w P R) (n : Nat) : ∀ cs : List Ast, Ast.allPointsEach P cs →
    ∀ m ∈ Ast.meanEach w n cs, Runs R m
  | [], _ => by intro m hm; simp [Ast.meanEach] at hm
  | c :: cs, hx => by
    rw [Ast.allPointsEach] at hx
    rw [Ast.meanEach]
    intro m hm
    rcases List.mem_cons.mp hm with rfl | hm
    · exact h.mean n c hx.1
    · exact h.meanEach n cs hx.2 m hm
end

theorem StepRel.callBody (h : StepRel w P R) {x : Meaning σ} (hx : Runs R x) :
    ∀ (m : Nat) (e : Option CLabel) (s : σ), R s (callBody x m e s).1 (callBody x m e s).2.1
  | 0, _, s => h.nil s
  | m + 1, e, s => by
    rw [TraceDB.callBody]
    have h1 := hx e s
    revert h1
    generalize x.run e s = r
    intro h1
    obtain ⟨l, s', f⟩ := r
    cases f with
    | goto g => exact h.andThen (r := (l, s', .normal)) h1 (h.callBody hx m _ _)
    | _ => exact h1

end

/-! The points of an instrumented function -/

mutual
theorem withPoints_points {P : PointEvent → Prop} (after : Bool) (ids : Nat → Nat) (filter : Nat → Bool) :
    ∀ (x : Ast) (path : AstPath) (pk : AstKind) (i num : Nat), x.plain = true →
      (∀ s ∈ ((⟨path, pk, i, x⟩ :: x.sites path : List AstSite).zipIdx num).filter (siteTraced filter),
        P ⟨ids s.2, false⟩ ∧ (after = true → P ⟨ids s.2, true⟩)) →
      (x.withPoints after ids filter pk i num).allPoints P
  | .mk k t b a cs, path, pk, i, num, hp, h => by
    rw [Ast.plain] at hp
    simp only [Bool.and_eq_true, List.isEmpty_iff] at hp
    obtain ⟨⟨rfl, rfl⟩, hp⟩ := hp
    rw [Ast.sites, List.zipIdx_cons] at h
    have hin := withPointsEach_points after ids filter cs path k 0 (num + 1) hp (P := P) (fun s hs => h s (by
      rw [List.filter_cons]
      split
      · exact List.mem_cons_of_mem _ hs
      · exact hs))
    rw [Ast.withPoints]
    split
    · rename_i hf
      have hh := h (⟨path, pk, i, .mk k t [] [] cs⟩, num) (by
        rw [List.filter_cons_of_pos]
        · exact List.mem_cons_self
        · rw [siteTraced, ← fullStatement_eq]
          exact hf)
      rw [Ast.allPoints]
      refine ⟨by simpa using hh.1, ?_, hin⟩
      cases after with
      | false => simp
      | true => simpa using hh.2 rfl
    · rw [Ast.allPoints]
      exact ⟨by simp, by simp, hin⟩
theorem withPointsEach_points {P : PointEvent → Prop} (after : Bool) (ids : Nat → Nat) (filter : Nat → Bool) :
    ∀ (cs : List Ast) (path : AstPath) (pk : AstKind) (i num : Nat), Ast.plainEach cs = true →
      (∀ s ∈ ((sitesList path pk i cs).zipIdx num).filter (siteTraced filter),
        P ⟨ids s.2, false⟩ ∧ (after = true → P ⟨ids s.2, true⟩)) →
      Ast.allPointsEach P (Ast.withPointsEach after ids filter pk i num cs)
  | [], _, _, _, _, _, _ => by simp [Ast.withPointsEach, Ast.allPointsEach]
  | c :: cs, path, pk, i, num, hp, h => by
    rw [Ast.plainEach, Bool.and_eq_true] at hp
    rw [sitesList, ← List.cons_append, List.zipIdx_append, List.filter_append, List.length_cons, sites_length] at h
    rw [Ast.withPointsEach, Ast.allPointsEach]
    exact ⟨withPoints_points after ids filter c (path ++ [i]) pk i num hp.1 fun s hs => h s (List.mem_append_left _ hs),
      withPointsEach_points after ids filter cs path pk (i + 1) _ hp.2 fun s hs => h s (List.mem_append_right _ hs)⟩
end

theorem bodyWithPoints_points {P : PointEvent → Prop} (after : Bool) (ids : Nat → Nat) (filter : Nat → Bool) (x : Ast)
    (hp : x.plain = true)
    (h : ∀ s ∈ tracedSites filter x, P ⟨ids s.2, false⟩ ∧ (after = true → P ⟨ids s.2, true⟩)) :
    (x.bodyWithPoints after ids filter).allPoints P := by
  obtain ⟨k, t, b, a, cs⟩ := x
  rw [Ast.plain] at hp
  simp only [Bool.and_eq_true, List.isEmpty_iff] at hp
  obtain ⟨⟨rfl, rfl⟩, hp⟩ := hp
  rw [Ast.bodyWithPoints, Ast.allPoints]
  refine ⟨by simp, by simp, withPointsEach_points after ids filter cs [] k 0 0 hp fun s hs => h s ?_⟩
  rw [tracedSites, Ast.sites]
  exact hs

/-! Programs -/

theorem readEach_some : ∀ {xs : List Ast}, (∀ x ∈ xs, ∃ l, x.read = some l) → ∃ ls, readEach xs = some ls
  | [], _ => ⟨[], rfl⟩
  | x :: xs, h => by
    obtain ⟨l, hl⟩ := h x (by simp)
    obtain ⟨ls, hls⟩ := readEach_some fun y hy => h y (List.mem_cons_of_mem _ hy)
    exact ⟨l :: ls, by rw [readEach, hl, hls]⟩

theorem readEach_get : ∀ {xs : List Ast} {ls : List (List CStmt)}, readEach xs = some ls → ∀ f : Nat,
    (xs[f]?.bind Ast.read) = ls[f]?
  | [], ls, h, f => by
    simp only [readEach, Option.some.injEq] at h
    subst h
    simp
  | x :: xs, ls, h, f => by
    rw [readEach] at h
    split at h
    · rename_i l ls' hl hls
      cases h
      cases f with
      | zero => simpa using hl
      | succ f => simpa using readEach_get hls f
    · cases h

theorem instrumentFunctions_get (after : Bool) (filter : Nat → Nat → Bool) (funs : List Ast) (f : Nat) :
    (instrumentFunctions after filter funs)[f]? = funs[f]?.map (instrumentBody after id (filter f)) := by
  rw [instrumentFunctions, List.getElem?_map, List.getElem?_zipIdx]
  cases funs[f]? <;> simp

/-- The text of an instrumented program means what the trees with points mean. -/
theorem textMeans_points {σ : Type} {after : Bool} {filter : Nat → Nat → Bool} {funs : List Ast}
    (hok : FunctionsOk filter funs) {texts : List (List CStmt)}
    (ht : readEach (instrumentFunctions after filter funs) = some texts) (n f m : Nat) (w : ActWorld (Life σ))
    (s : Life σ) :
    callBody (textMeans n texts f w) m none s = callBody (pointMeans after filter n funs f w) m none s := by
  have hg := readEach_get ht f
  rw [instrumentFunctions_get] at hg
  rw [textMeans, pointMeans, List.getD_eq_getElem?_getD, ← hg]
  cases hf : funs[f]? with
  | none => rfl
  | some x =>
    obtain ⟨l, hl, h⟩ := C64_instrumented_runs after id (filter f) x (hok f x hf).block (hok f x hf).shaped (hok f x hf).labels
    simp only [Option.map_some, Option.bind_some, hl, Option.getD_some]
    exact h (Life σ) w n m s

/-- But for the points it is the text of the original program. -/
theorem textMeans_own {σ : Type} {after : Bool} {filter : Nat → Nat → Bool} {funs : List Ast}
    (hok : FunctionsOk filter funs) {texts₀ texts : List (List CStmt)} (h₀ : readEach funs = some texts₀)
    (ht : readEach (instrumentFunctions after filter funs) = some texts) (n f m : Nat) (w : ActWorld (Life σ))
    (s : Life σ) :
    callBody (textMeans n texts₀ f w) m none s = ownRan (callBody (textMeans n texts f w) m none s) := by
  have hg := readEach_get ht f
  have hg₀ := readEach_get h₀ f
  rw [instrumentFunctions_get] at hg
  rw [textMeans, textMeans, List.getD_eq_getElem?_getD, List.getD_eq_getElem?_getD, ← hg, ← hg₀]
  cases hf : funs[f]? with
  | none =>
    cases m with
    | zero => rfl
    | succ m => rfl
  | some x =>
    obtain ⟨l₀, l, hl₀, hl, h⟩ := C64_same_behaviour after id (filter f) x (hok f x hf).block (hok f x hf).plain
      (hok f x hf).shaped (hok f x hf).labels
    simp only [Option.map_some, Option.bind_some, hl, hl₀, Option.getD_some]
    exact h (Life σ) w n m s

theorem callFn_congr {σ : Type} {fns fns' : Nat → ActWorld (Life σ) → Meaning (Life σ)} (pw : ProgWorld σ) (m : Nat)
    (h : ∀ f w s, callBody (fns f w) m none s = callBody (fns' f w) m none s) :
    ∀ k, callFn fns pw m k = callFn fns' pw m k
  | 0 => rfl
  | k + 1 => by
    funext f l
    rw [callFn, callFn, callFn_congr pw m h k, h]

theorem code_run_life {σ α : Type} {call call' : FnMeaning σ} (h : ∀ f l, (call f l).2 = (call' f l).2) :
    ∀ c : Code σ α, (c.run call).2 = (c.run call').2
  | .done _ _ => rfl
  | .exit _ => rfl
  | .call f s k => by
    unfold Code.run
    simp only [h f ⟨s, false⟩]
    split
    · rfl
    · exact code_run_life h _

theorem fnWorld_congr {σ : Type} {call call' : FnMeaning σ} (h : ∀ f l, (call f l).2 = (call' f l).2)
    (pw : ProgWorld σ) (f : Nat) : fnWorld call pw f = fnWorld call' pw f := by
  have ha : ∀ a l, (doAct call pw f a l).2 = (doAct call' pw f a l).2 := fun a l => by
    unfold doAct
    split
    · rfl
    · simp only [code_run_life h]
  have he : ∀ c l, (doEval call pw f c l).2 = (doEval call' pw f c l).2 := fun c l => by
    unfold doEval
    split
    · rfl
    · simp only [code_run_life h]
  unfold fnWorld
  simp only [ha, he]

/-- Programs that differ in points only leave the same states. -/
theorem callFn_own {σ : Type} {fns fns' : Nat → ActWorld (Life σ) → Meaning (Life σ)} (pw : ProgWorld σ) (m : Nat)
    (h : ∀ f w s, callBody (fns f w) m none s = ownRan (callBody (fns' f w) m none s)) :
    ∀ k f l, (callFn fns pw m k f l).2 = (callFn fns' pw m k f l).2
  | 0, _, _ => rfl
  | k + 1, f, l => by
    have hw := fnWorld_congr (callFn_own pw m h k) pw f
    rw [callFn, callFn]
    simp only [hw, h, ownRan]

theorem code_run_passed {σ α : Type} {call : FnMeaning σ} {Q : Passed σ → Prop} (h : ∀ f l, ∀ p ∈ (call f l).1, Q p) :
    ∀ c : Code σ α, ∀ p ∈ (c.run call).1, Q p
  | .done _ _ => by simp [Code.run]
  | .exit _ => by simp [Code.run]
  | .call f s k => by
    intro p hp
    unfold Code.run at hp
    simp only at hp
    split at hp
    · exact h f _ p hp
    · rcases List.mem_append.mp hp with hp | hp
      · exact h f _ p hp
      · exact code_run_passed h _ p hp

theorem passedIn_all {σ : Type} {call : FnMeaning σ} {Q : Passed σ → Prop} (h : ∀ f l, ∀ p ∈ (call f l).1, Q p)
    (pw : ProgWorld σ) (f : Nat) : ∀ (l : List Step) (s : Life σ), (∀ e, .point e ∈ l → ∀ st, Q ⟨f, e, st⟩) →
      ∀ p ∈ passedIn call pw f l s, Q p
  | [], _, _ => by simp [passedIn]
  | .point e :: l, s, hl => by
    intro p hp
    rw [passedIn] at hp
    rcases List.mem_append.mp hp with hp | hp
    · split at hp
      · simp at hp
      · rw [List.mem_singleton.mp hp]
        exact hl e (by simp) _
    · exact passedIn_all h pw f l s (fun e he => hl e (List.mem_cons_of_mem _ he)) p hp
  | .did a :: l, s, hl => by
    intro p hp
    rw [passedIn] at hp
    rcases List.mem_append.mp hp with hp | hp
    · unfold doAct at hp
      split at hp
      · simp at hp
      · exact code_run_passed h _ p hp
    · exact passedIn_all h pw f l _ (fun e he => hl e (List.mem_cons_of_mem _ he)) p hp
  | .asked c :: l, s, hl => by
    intro p hp
    rw [passedIn] at hp
    rcases List.mem_append.mp hp with hp | hp
    · unfold doEval at hp
      split at hp
      · simp at hp
      · exact code_run_passed h _ p hp
    · exact passedIn_all h pw f l _ (fun e he => hl e (List.mem_cons_of_mem _ he)) p hp

theorem mem_programPoints {after : Bool} {filter : Nat → Nat → Bool} {funs : List Ast} {f : Nat} {e : PointEvent} :
    (f, e) ∈ programPoints after filter funs ↔
      ∃ x, funs[f]? = some x ∧ (∃ s ∈ tracedSites (filter f) x, s.2 = e.id) ∧ (e.after = true → after = true) := by
  obtain ⟨num, ea⟩ := e
  unfold programPoints
  simp only [List.mem_flatMap, List.mem_reverse]
  constructor
  · rintro ⟨⟨x, g⟩, hx, ⟨s, num'⟩, hs, hm⟩
    have hx : funs[g]? = some x := List.mem_zipIdx_iff_getElem?.mp hx
    have hs := (List.mergeSort_perm _ _).mem_iff.mp hs
    rcases List.mem_cons.mp hm with hm | hm
    · simp only [Prod.mk.injEq, PointEvent.mk.injEq] at hm
      obtain ⟨rfl, rfl, rfl⟩ := hm
      exact ⟨x, hx, ⟨_, hs, rfl⟩, by simp⟩
    · cases after with
      | false => simp at hm
      | true =>
        simp only [if_true, List.mem_singleton, Prod.mk.injEq, PointEvent.mk.injEq] at hm
        obtain ⟨rfl, rfl, rfl⟩ := hm
        exact ⟨x, hx, ⟨_, hs, rfl⟩, fun _ => rfl⟩
  · rintro ⟨x, hx, ⟨⟨s, num'⟩, hs, rfl⟩, ha⟩
    refine ⟨(x, f), List.mem_zipIdx_iff_getElem?.mpr hx, (s, num'), (List.mergeSort_perm _ _).mem_iff.mpr hs, ?_⟩
    cases ea with
    | false => simp
    | true =>
      rw [show after = true from ha rfl]
      simp

/-- Every point passed by an instrumented program is one of those code was generated for. -/
theorem passed_programPoints {σ : Type} {after : Bool} {filter : Nat → Nat → Bool} {funs : List Ast}
    (hok : FunctionsOk filter funs) (pw : ProgWorld σ) (n m : Nat) : ∀ k f l,
      ∀ p ∈ (callFn (pointMeans after filter n funs) pw m k f l).1, (p.fn, p.point) ∈ programPoints after filter funs
  | 0, _, _ => by simp [callFn]
  | k + 1, f, l => by
    rw [callFn]
    refine passedIn_all (Q := fun p => (p.fn, p.point) ∈ programPoints after filter funs)
      (passed_programPoints hok pw n m k) pw f _ l fun e he st => ?_
    have hrel : StepRel (fnWorld (callFn (pointMeans after filter n funs) pw m k) pw f) (fun e => (f, e) ∈ programPoints after filter funs)
        (fun _ l _ => ∀ e, .point e ∈ l → (f, e) ∈ programPoints after filter funs) :=
      ⟨by simp, fun h1 h2 e he => (List.mem_append.mp he).elim (h1 e) (h2 e), by simp, by simp, by simp,
        fun e _ he e' he' => by
          simp only [List.mem_singleton, Step.point.injEq] at he'
          exact he' ▸ he⟩
    refine hrel.callBody ?_ m none l e he
    rw [pointMeans]
    cases hf : funs[f]? with
    | none => exact hrel.seq (by simp)
    | some x =>
      refine hrel.mean n _ (bodyWithPoints_points after id (filter f) x (hok f x hf).plain fun s hs => ?_)
      exact ⟨mem_programPoints.mpr ⟨x, hf, ⟨s, hs, rfl⟩, by simp⟩,
        fun ha => mem_programPoints.mpr ⟨x, hf, ⟨s, hs, rfl⟩, fun _ => ha⟩⟩

theorem tracedSites_nodup (filter : Nat → Bool) (x : Ast) : ((tracedSites filter x).map (·.2)).Nodup := by
  unfold tracedSites
  refine List.Nodup.sublist (List.filter_sublist.map _) ?_
  have : ((x.sites []).zipIdx.map (·.2)) = List.range' 0 (x.sites []).length := by
    simp [List.zipIdx_map_snd]
  rw [this]
  exact List.nodup_range'

theorem mem_pointsAt {after : Bool} {f num : Nat} {y : Nat × PointEvent}
    (hy : y ∈ (f, (⟨num, false⟩ : PointEvent)) :: if after then [(f, ⟨num, true⟩)] else []) : y.1 = f ∧ y.2.id = num := by
  cases after
  · simp at hy
    subst hy
    exact ⟨rfl, rfl⟩
  · simp at hy
    rcases hy with rfl | rfl <;> exact ⟨rfl, rfl⟩

theorem programPoints_nodup (after : Bool) (filter : Nat → Nat → Bool) (funs : List Ast) :
    (programPoints after filter funs).Nodup := by
  unfold programPoints
  rw [List.nodup_iff_pairwise_ne, List.pairwise_flatMap]
  constructor
  · rintro ⟨x, f⟩ hx
    rw [List.pairwise_flatMap]
    constructor
    · rintro ⟨s, num⟩ hs
      cases after <;> simp
    · have := tracedSites_nodup (filter f) x
      have h2 : ((sortedSites (tracedSites (filter f) x)).map (·.2)).Nodup :=
        (((List.mergeSort_perm _ _).map _).nodup_iff).mpr this
      rw [List.nodup_iff_pairwise_ne, List.pairwise_map] at h2
      refine h2.imp fun {a b} hab y hy z hz => ?_
      rintro rfl
      exact hab ((mem_pointsAt hy).2.symm.trans (mem_pointsAt hz).2)
  · rw [List.pairwise_reverse]
    have : (funs.zipIdx.map (·.2)).Nodup := by
      rw [List.zipIdx_map_snd]
      exact List.nodup_range'
    rw [List.nodup_iff_pairwise_ne, List.pairwise_map] at this
    refine this.imp fun {a b} hab y hy z hz => ?_
    rintro rfl
    obtain ⟨s, _, hs⟩ := List.mem_flatMap.mp hy
    obtain ⟨s', _, hs'⟩ := List.mem_flatMap.mp hz
    exact hab ((mem_pointsAt hs').1.symm.trans (mem_pointsAt hs).1)

theorem nodup_index {α : Type} {l : List α} (h : l.Nodup) {i j : Nat} {x : α} (hi : l[i]? = some x)
    (hj : l[j]? = some x) : j = i := by
  obtain ⟨hj', _⟩ := List.getElem?_eq_some_iff.mp hj
  exact (List.getElem?_inj hj' h).mp (hj.trans hi.symm)

/-! Steps without points, and replays -/

theorem ownSteps_silent {σ : Type} (r : Ran σ) : ∀ e, .point e ∉ (ownRan r).1 := by
  intro e he
  have := (List.mem_filter.mp he).2
  cases this

theorem callFn_silent {σ : Type} {fns : Nat → ActWorld (Life σ) → Meaning (Life σ)} (pw : ProgWorld σ) (m : Nat)
    (h : ∀ f w s e, .point e ∉ (callBody (fns f w) m none s).1) : ∀ k f l, (callFn fns pw m k f l).1 = []
  | 0, _, _ => rfl
  | k + 1, f, l => by
    rw [callFn]
    refine List.eq_nil_iff_forall_not_mem.mpr fun p hp => ?_
    refine passedIn_all (Q := fun _ => False) (fun f l p hp => ?_) pw f _ l (fun e he => ?_) p hp
    · rw [callFn_silent pw m h k] at hp
      cases hp
    · exact absurd he (h _ _ _ e)

theorem replay_append {σ : Type} (call : FnMeaning σ) (pw : ProgWorld σ) (f : Nat) (l' : List Step) :
    ∀ (l : List Step) (s : Life σ), replay call pw f (l ++ l') s = replay call pw f l' (replay call pw f l s)
  | [], _ => rfl
  | .point _ :: l, s => replay_append call pw f l' l s
  | .did _ :: l, _ => replay_append call pw f l' l _
  | .asked _ :: l, _ => replay_append call pw f l' l _

mutual
theorem allPoints_true : ∀ x : Ast, x.allPoints fun _ => True
  | .mk k t b a cs => by
    rw [Ast.allPoints]
    exact ⟨fun _ _ => trivial, fun _ _ => trivial, allPointsEach_true cs⟩
theorem allPointsEach_true : ∀ cs : List Ast, Ast.allPointsEach (fun _ => True) cs
  | [] => trivial
  | c :: cs => by
    rw [Ast.allPointsEach]
    exact ⟨allPoints_true c, allPointsEach_true cs⟩
end

/-! Traces and queries -/

theorem AllRel.comp {α β γ : Type} {R : α → β → Prop} {S : β → γ → Prop} {T : α → γ → Prop} {l : List α} {m : List β}
    {n : List γ} (h : AllRel R l m) (h' : AllRel S m n) (hT : ∀ a b c, R a b → S b c → T a c) : AllRel T l n := by
  induction h generalizing n with
  | nil => cases h'; exact .nil
  | cons h _ ih =>
    cases h' with
    | cons h1 h2 => exact .cons (hT _ _ _ h h1) (ih h2)

/-- The visit that passing a point is. -/
def Passed.IsVisit {σ : Type} (pts : List (Nat × PointEvent)) (env : Passed σ → CEnv) (p : Passed σ) (v : Visit) : Prop :=
  pts[v.site]? = some (p.fn, p.point) ∧ v.env = env p

theorem passed_visits {σ : Type} {cf : CFloat} {mem : CMem} {pts : List (Nat × PointEvent)} {gens : List GenSite}
    {env : Passed σ → CEnv} {ps : List (Passed σ)} {calls : List (U64 × List RtCall)}
    (h : AllRel (Passed.RunsAs cf mem pts gens env) ps calls) :
    ∃ visits, AllRel (Passed.IsVisit pts env) ps visits ∧ AllRel (Visit.RunsAs cf mem gens) visits calls := by
  induction h with
  | nil => exact ⟨[], .nil, .nil⟩
  | cons h _ ih =>
    obtain ⟨visits, h1, h2⟩ := ih
    obtain ⟨i, hi, hr⟩ := h
    exact ⟨_ :: visits, .cons ⟨hi, rfl⟩ h1, .cons hr h2⟩

theorem programSites_get {file : Option Nat} {pos : Nat → Nat → Nat}
    {parts : Nat → PointEvent → List (Bool × List ScopeVar)} {pts : List (Nat × PointEvent)} {i f : Nat} {e : PointEvent}
    (h : pts[i]? = some (f, e)) : (programSites file pos parts pts)[i]? = some ⟨file, pos f e.id, parts f e⟩ := by
  rw [programSites, List.getElem?_map, h]
  rfl

theorem isVisit_shown {σ : Type} {te : TableTests} {file : Option Nat} {pos : Nat → Nat → Nat}
    {parts : Nat → PointEvent → List (Bool × List ScopeVar)} {pts : List (Nat × PointEvent)} {env : Passed σ → CEnv}
    {p : Passed σ} {v : Visit} (h : p.IsVisit pts env v) (l : LPoint) :
    v.Shown te (programSites file pos parts pts) l ↔ p.Shown te file pos parts env l := by
  unfold Visit.Shown Passed.Shown
  rw [programSites_get h.1, h.2]
  simp

theorem isVisit_fits {σ : Type} {cf : CFloat} {file : Option Nat} {pos : Nat → Nat → Nat}
    {parts : Nat → PointEvent → List (Bool × List ScopeVar)} {pts : List (Nat × PointEvent)} {env : Passed σ → CEnv}
    {p : Passed σ} {v : Visit} (h : p.IsVisit pts env v) (hp : p.Fits cf parts env) :
    v.Fits cf (programSites file pos parts pts) := by
  intro x hx
  rw [programSites_get h.1] at hx
  cases hx
  rw [h.2]
  exact hp

end TraceDB
