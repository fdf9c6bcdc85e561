import Verif.Proofs.StatementEdits
/-
Helper lemmas about the meaning of instrumented programs.
-/
namespace TraceDB

theorem Ran.andThen_assoc {σ : Type} (r : Ran σ) (k k' : σ → Ran σ) :
    (r.andThen k).andThen k' = r.andThen fun s => (k s).andThen k' := by
  obtain ⟨l, s, f⟩ := r
  cases f <;> simp only [Ran.andThen]
  cases h : (k s).2.2 <;> simp [h]

theorem Ran.nothing_andThen {σ : Type} (s : σ) (k : σ → Ran σ) : (Ran.nothing s).andThen k = k s := by
  simp [Ran.nothing, Ran.andThen]

theorem Meaning.eq {σ : Type} {x y : Meaning σ} (h1 : ∀ l, x.labs l = y.labs l)
    (h2 : ∀ e s, x.run e s = y.run e s) : x = y := by
  obtain ⟨a, b⟩ := x
  obtain ⟨c, d⟩ := y
  have e1 : a = c := funext h1
  have e2 : b = d := funext fun e => funext (h2 e)
  rw [e1, e2]

theorem runSeq_append_none {σ : Type} (ys : List (Meaning σ)) : ∀ (xs : List (Meaning σ)) (s : σ),
    runSeq (xs ++ ys) none s = (runSeq xs none s).andThen (runSeq ys none)
  | [], s => by simp [runSeq, Ran.nothing_andThen]
  | x :: xs, s => by
    show (x.run none s).andThen (runSeq (xs ++ ys) none) =
      ((x.run none s).andThen (runSeq xs none)).andThen (runSeq ys none)
    rw [Ran.andThen_assoc, funext (runSeq_append_none ys xs)]

theorem runSeq_append_some {σ : Type} (ys : List (Meaning σ)) (l : CLabel) : ∀ (xs : List (Meaning σ)) (s : σ),
    runSeq (xs ++ ys) (some l) s =
      if xs.any (fun m => m.labs l) then (runSeq xs (some l) s).andThen (runSeq ys none)
      else runSeq ys (some l) s
  | [], s => by simp
  | x :: xs, s => by
    show (if x.labs l then (x.run (some l) s).andThen (runSeq (xs ++ ys) none) else runSeq (xs ++ ys) (some l) s) =
      if (x :: xs).any (fun m => m.labs l) then
        (if x.labs l then (x.run (some l) s).andThen (runSeq xs none) else runSeq xs (some l) s).andThen
          (runSeq ys none)
      else runSeq ys (some l) s
    by_cases hx : x.labs l
    · rw [if_pos hx, if_pos hx, if_pos (by simp [hx]), Ran.andThen_assoc, funext (runSeq_append_none ys xs)]
    · rw [if_neg hx, if_neg hx, runSeq_append_some ys l xs s]
      simp [hx]

theorem runSeq_skip {σ : Type} (xs : List (Meaning σ)) (l : CLabel) (s : σ)
    (h : xs.any (fun m => m.labs l) = false) : runSeq xs (some l) s = Ran.nothing s := by
  induction xs with
  | nil => rfl
  | cons x xs ih =>
    simp only [List.any_cons, Bool.or_eq_false_iff] at h
    rw [runSeq, h.1]
    exact ih h.2

theorem meanSeq_nested {σ : Type} (xs ys zs : List (Meaning σ)) :
    meanSeq (xs ++ meanSeq ys :: zs) = meanSeq (xs ++ (ys ++ zs)) := by
  apply Meaning.eq
  · intro l; simp [meanSeq, List.any_append]
  · intro e s
    have h0 : ∀ e s, runSeq (meanSeq ys :: zs) e s = runSeq (ys ++ zs) e s := by
      intro e s
      cases e with
      | none => rw [runSeq_append_none]; rfl
      | some l => rw [runSeq_append_some]; rfl
    show runSeq (xs ++ meanSeq ys :: zs) e s = runSeq (xs ++ (ys ++ zs)) e s
    cases e with
    | none => rw [runSeq_append_none, runSeq_append_none, funext (h0 none)]
    | some l => rw [runSeq_append_some, runSeq_append_some, funext (h0 none), h0]

theorem meanSeq_nestedAll {σ : Type} (lss : List (List (Meaning σ))) :
    ∀ (xs zs : List (Meaning σ)),
      meanSeq (xs ++ (lss.map meanSeq ++ zs)) = meanSeq (xs ++ (lss.flatten ++ zs)) := by
  induction lss with
  | nil => intro xs zs; rfl
  | cons ys lss ih =>
    intro xs zs
    rw [List.map_cons, List.cons_append, meanSeq_nested, List.flatten_cons,
      show xs ++ (ys ++ (lss.map meanSeq ++ zs)) = (xs ++ ys) ++ (lss.map meanSeq ++ zs) by simp, ih]
    simp

theorem meanEach_append {σ : Type} (w : ActWorld σ) (n : Nat) (xs ys : List CStmt) :
    meanEach w n (xs ++ ys) = meanEach w n xs ++ meanEach w n ys := by
  induction xs with
  | nil => simp [meanEach]
  | cons x xs ih => simp [meanEach, ih]

theorem meanEach_flatten {σ : Type} (w : ActWorld σ) (n : Nat) (lss : List (List CStmt)) :
    meanEach w n lss.flatten = (lss.map (meanEach w n)).flatten := by
  induction lss with
  | nil => simp [meanEach]
  | cons x xs ih => simp [meanEach_append, ih]

theorem meanEach_points {σ : Type} (w : ActWorld σ) (n : Nat) (es : List PointEvent) :
    meanEach w n (es.map .point) = es.map meanPoint := by
  induction es with
  | nil => rfl
  | cons e es ih => simp [meanEach, CStmt.mean, ih]

theorem Ast.length_meanEach {σ : Type} (w : ActWorld σ) (n : Nat) (cs : List Ast) :
    (Ast.meanEach w n cs).length = cs.length := by
  induction cs with
  | nil => rfl
  | cons c cs ih => simp [Ast.meanEach, ih]

theorem length_two {α : Type} {l : List α} (h : l.length = 2) : ∃ a b, l = [a, b] := by
  match l, h with
  | [a, b], _ => exact ⟨a, b, rfl⟩

theorem length_three {α : Type} {l : List α} (h : l.length = 3) : ∃ a b c, l = [a, b, c] := by
  match l, h with
  | [a, b, c], _ => exact ⟨a, b, c, rfl⟩

theorem length_four {α : Type} {l : List α} (h : l.length = 4) : ∃ a b c d, l = [a, b, c, d] := by
  match l, h with
  | [a, b, c, d], _ => exact ⟨a, b, c, d, rfl⟩

/-- What the text of an AST is known to be. -/
def ReadsAs (x : Ast) (l : List CStmt) : Prop :=
  x.read = some l ∧ (∀ (σ : Type) (w : ActWorld σ) (n : Nat), meanSeq (meanEach w n l) = x.mean w n) ∧
  (x.single = true → firstStmt l = some (l, []))

theorem firstStmt_append_labels (l : CLabel) (ss : List CStmt) (h : firstStmt ss = some (ss, [])) :
    firstStmt (.lab l :: ss) = some (.lab l :: ss, []) := by
  rw [firstStmt]
  simp [CStmt.isLab, h]

/-- From the texts of the children to the text of the AST. -/
theorem readsAs_mk (k : AstKind) (t : List U8) (b a : List PointEvent) (cs : List Ast)
    (ls : List (List CStmt)) (core : List CStmt) (hr : readEach cs = some ls)
    (hc : stmtText k ls = some core)
    (hm : ∀ (σ : Type) (w : ActWorld σ) (n : Nat) (xs zs : List (Meaning σ)),
      meanSeq (xs ++ (meanEach w n core ++ zs)) = meanSeq (xs ++ (astMeans w n k (Ast.meanEach w n cs) ++ zs)))
    (hs : (Ast.mk k t b a cs).single = true → firstStmt core = some (core, [])) :
    ReadsAs (.mk k t b a cs) (b.map .point ++ core ++ a.map .point) := by
  refine ⟨?_, ?_, ?_⟩
  · rw [Ast.read, hr]
    simp [hc]
  · intro σ w n
    rw [meanEach_append, meanEach_append, meanEach_points, meanEach_points, Ast.mean, List.append_assoc,
      List.append_assoc]
    exact hm σ w n _ _
  · intro h
    have hb : b = [] ∧ a = [] := by
      unfold Ast.single at h
      rw [Bool.and_eq_true, Bool.and_eq_true, List.isEmpty_iff, List.isEmpty_iff] at h
      exact h.1
    obtain ⟨rfl, rfl⟩ := hb
    simpa using hs h

mutual
theorem read_shaped : ∀ (x : Ast), x.shaped = true → ∃ l, ReadsAs x l
  | .mk k t b a cs, h => by
    rw [Ast.shaped, Bool.and_eq_true] at h
    obtain ⟨hb, hcs⟩ := h
    obtain ⟨ls, hr, hm, hs, hf⟩ := readEach_shaped cs hcs
    have hlen : ls.length = cs.length := by
      have := congrArg List.length (hm Unit ⟨fun _ s => (s, .normal), fun _ s => (s, true), fun _ s => (s, 0)⟩ 0)
      rwa [List.length_map, Ast.length_meanEach] at this
    have hflat : ∀ (c : CStmt) (σ : Type) (w : ActWorld σ) (n : Nat) (xs zs : List (Meaning σ)),
        meanSeq (xs ++ (meanEach w n (c :: ls.flatten) ++ zs)) =
        meanSeq (xs ++ ((c.mean w n :: Ast.meanEach w n cs) ++ zs)) := by
      intro c σ w n xs zs
      have := meanSeq_nestedAll (ls.map (meanEach w n)) (xs ++ [c.mean w n]) zs
      rw [List.map_map] at this
      rw [meanEach, meanEach_flatten, ← hm σ w n]
      simp only [List.append_assoc, List.cons_append, List.nil_append] at this ⊢
      exact this.symm
    cases k with
    | expr =>
      exact ⟨_, readsAs_mk .expr t b a cs ls [] hr rfl (by intros; simp [meanEach, astMeans])
        (by intro h; simp [Ast.single] at h)⟩
    | simple x =>
      exact ⟨_, readsAs_mk (.simple x) t b a cs ls [.act x] hr rfl
        (by intros; simp [meanEach, astMeans, CStmt.mean])
        (by intro _; simp [firstStmt, CStmt.isLab])⟩
    | block =>
      refine ⟨_, readsAs_mk .block t b a cs ls [.block ls.flatten] hr rfl ?_
        (by intro _; simp [firstStmt, CStmt.isLab])⟩
      intro σ w n xs zs
      have := meanSeq_nestedAll (ls.map (meanEach w n)) [] []
      simp only [List.nil_append, List.append_nil, List.map_map] at this
      simp only [meanEach, astMeans, CStmt.mean, meanEach_flatten, ← this]
      rw [← hm σ w n]
    | label l =>
      refine ⟨_, readsAs_mk (.label l) t b a cs ls (.lab (.named l) :: ls.flatten) hr rfl ?_ ?_⟩
      · intro σ w n xs zs
        exact hflat (.lab (.named l)) σ w n xs zs
      · intro h
        refine firstStmt_append_labels _ _ (hf ?_)
        unfold Ast.single at h
        rw [Bool.and_eq_true] at h
        exact h.2
    | case v =>
      cases v with
      | none =>
        refine ⟨_, readsAs_mk (.case none) t b a cs ls (.lab .default :: ls.flatten) hr rfl ?_ ?_⟩
        · intro σ w n xs zs
          exact hflat (.lab .default) σ w n xs zs
        · intro h
          refine firstStmt_append_labels _ _ (hf ?_)
          unfold Ast.single at h
          rw [Bool.and_eq_true] at h
          exact h.2
      | some v =>
        refine ⟨_, readsAs_mk (.case (some v)) t b a cs ls (.lab (.case v) :: ls.flatten) hr rfl ?_ ?_⟩
        · intro σ w n xs zs
          exact hflat (.lab (.case v)) σ w n xs zs
        · intro h
          refine firstStmt_append_labels _ _ (hf ?_)
          unfold Ast.single at h
          rw [Bool.and_eq_true] at h
          exact h.2
    | ite c =>
      match cs, hb, hr, hm, hs, hlen with
      | [c0, x], hb, hr, hm, hs, hlen =>
        obtain ⟨l0, lx, rfl⟩ := length_two hlen
        have hx := hs 1 x lx rfl rfl hb
        refine ⟨_, readsAs_mk (.ite c) t b a [c0, x] [l0, lx] [.ite c lx []] hr
          (by simp [stmtText, hx]) ?_ (by intro _; simp [firstStmt, CStmt.isLab])⟩
        intro σ w n xs zs
        have := hm σ w n
        simp only [List.map_cons, List.map_nil, Ast.meanEach, List.cons.injEq, and_true] at this
        simp [meanEach, astMeans, CStmt.mean, Ast.meanEach, ← this.2]
      | [c0, x, y], hb, hr, hm, hs, hlen =>
        obtain ⟨l0, lx, ly, rfl⟩ := length_three hlen
        simp only [branchesSingle, Bool.and_eq_true] at hb
        have hx := hs 1 x lx rfl rfl hb.1
        have hy := hs 2 y ly rfl rfl hb.2
        refine ⟨_, readsAs_mk (.ite c) t b a [c0, x, y] [l0, lx, ly] [.ite c lx ly] hr
          (by simp [stmtText, hx, hy]) ?_ (by intro _; simp [firstStmt, CStmt.isLab])⟩
        intro σ w n xs zs
        have := hm σ w n
        simp only [List.map_cons, List.map_nil, Ast.meanEach, List.cons.injEq, and_true] at this
        simp [meanEach, astMeans, CStmt.mean, Ast.meanEach, ← this.2.1, ← this.2.2]
    | whileLoop c =>
      match cs, hb, hr, hm, hs, hlen with
      | [c0, x], hb, hr, hm, hs, hlen =>
        obtain ⟨l0, lx, rfl⟩ := length_two hlen
        have hx := hs 1 x lx rfl rfl hb
        refine ⟨_, readsAs_mk (.whileLoop c) t b a [c0, x] [l0, lx] [.whileLoop c lx] hr
          (by simp [stmtText, hx]) ?_ (by intro _; simp [firstStmt, CStmt.isLab])⟩
        intro σ w n xs zs
        have := hm σ w n
        simp only [List.map_cons, List.map_nil, Ast.meanEach, List.cons.injEq, and_true] at this
        simp [meanEach, astMeans, CStmt.mean, Ast.meanEach, ← this.2]
    | doLoop c =>
      match cs, hb, hr, hm, hs, hlen with
      | [x, c0], hb, hr, hm, hs, hlen =>
        obtain ⟨lx, l0, rfl⟩ := length_two hlen
        have hx := hs 0 x lx rfl rfl hb
        refine ⟨_, readsAs_mk (.doLoop c) t b a [x, c0] [lx, l0] [.doLoop c lx] hr
          (by simp [stmtText, hx]) ?_ (by intro _; simp [firstStmt, CStmt.isLab])⟩
        intro σ w n xs zs
        have := hm σ w n
        simp only [List.map_cons, List.map_nil, Ast.meanEach, List.cons.injEq, and_true] at this
        simp [meanEach, astMeans, CStmt.mean, Ast.meanEach, ← this.1]
    | forLoop i c u =>
      match cs, hb, hr, hm, hs, hlen with
      | [c0, c1, c2, x], hb, hr, hm, hs, hlen =>
        obtain ⟨l0, l1, l2, lx, rfl⟩ := length_four hlen
        have hx := hs 3 x lx rfl rfl hb
        refine ⟨_, readsAs_mk (.forLoop i c u) t b a [c0, c1, c2, x] [l0, l1, l2, lx] [.forLoop i c u lx] hr
          (by simp [stmtText, hx]) ?_ (by intro _; simp [firstStmt, CStmt.isLab])⟩
        intro σ w n xs zs
        have := hm σ w n
        simp only [List.map_cons, List.map_nil, Ast.meanEach, List.cons.injEq, and_true] at this
        simp [meanEach, astMeans, CStmt.mean, Ast.meanEach, ← this.2.2.2]
    | switch e =>
      match cs, hb, hr, hm, hs, hlen with
      | [c0, x], hb, hr, hm, hs, hlen =>
        obtain ⟨l0, lx, rfl⟩ := length_two hlen
        have hx := hs 1 x lx rfl rfl hb
        refine ⟨_, readsAs_mk (.switch e) t b a [c0, x] [l0, lx] [.switch e lx] hr
          (by simp [stmtText, hx]) ?_ (by intro _; simp [firstStmt, CStmt.isLab])⟩
        intro σ w n xs zs
        have := hm σ w n
        simp only [List.map_cons, List.map_nil, Ast.meanEach, List.cons.injEq, and_true] at this
        simp [meanEach, astMeans, CStmt.mean, Ast.meanEach, ← this.2]
    | directive =>
      exact ⟨_, readsAs_mk .directive t b a cs ls [] hr rfl (by intros; simp [meanEach, astMeans])
        (by intro h; simp [Ast.single] at h)⟩
    | group c => simp [branchesSingle] at hb
    | elifGroup c => simp [branchesSingle] at hb
    | elseGroup => simp [branchesSingle] at hb
    | fragment => simp [branchesSingle] at hb
theorem readEach_shaped : ∀ (cs : List Ast), Ast.shapedEach cs = true → ∃ ls : List (List CStmt),
    readEach cs = some ls ∧
    (∀ (σ : Type) (w : ActWorld σ) (n : Nat), ls.map (meanSeq ∘ meanEach w n) = Ast.meanEach w n cs) ∧
    (∀ (j : Nat) (x : Ast) (l : List CStmt), cs[j]? = some x → ls[j]? = some l → x.single = true →
      firstStmt l = some (l, [])) ∧
    (Ast.singleEach cs = true → firstStmt ls.flatten = some (ls.flatten, []))
  | [], _ => ⟨[], rfl, fun _ _ _ => rfl, by simp, by simp [Ast.singleEach]⟩
  | c :: cs, h => by
    rw [Ast.shapedEach, Bool.and_eq_true] at h
    obtain ⟨l, hr, hm, hs⟩ := read_shaped c h.1
    obtain ⟨ls, hr', hm', hs', hf'⟩ := readEach_shaped cs h.2
    refine ⟨l :: ls, by simp [readEach, hr, hr'], ?_, ?_, ?_⟩
    · intro σ w n
      rw [List.map_cons, hm', Ast.meanEach, ← hm]
      rfl
    · intro j x l' hx hl' hsx
      cases j with
      | zero =>
        simp only [List.getElem?_cons_zero, Option.some.injEq] at hx hl'
        subst hx; subst hl'
        exact hs hsx
      | succ j => exact hs' j x l' (by simpa using hx) (by simpa using hl') hsx
    · intro hsingle
      cases cs with
      | nil =>
        simp only [readEach, Option.some.injEq] at hr'
        subst hr'
        simpa using hs hsingle
      | cons c' cs =>
        obtain ⟨k, t, b, a, ccs⟩ := c
        simp only [Ast.singleEach, Bool.and_eq_true, beq_iff_eq, List.isEmpty_iff] at hsingle
        obtain ⟨⟨⟨rfl, rfl⟩, rfl⟩, hrest⟩ := hsingle
        have hl : l = [] := by
          rw [Ast.read] at hr
          cases he : readEach ccs with
          | none => simp [he] at hr
          | some lss =>
            simp only [he, stmtText, Option.map_some, Option.some.injEq] at hr
            simpa using hr.symm
        subst hl
        simpa using hf' hrest
end

end TraceDB
