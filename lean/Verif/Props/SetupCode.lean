import Verif.Proofs.SetupCode
/-
C75: the setup code of an instrumented file.
-/
namespace TraceDB

/-- A translation unit. -/
def unitAst (cs : List TopAst) : TopAst := .node .other none [] cs []

/-- What the added pieces make of the text, whether they are compiled or not. -/
theorem setup_cases (holds : Nat → Bool) (cs : List TopAst) (hn : hasNode cs = true) (hf : freshEach cs = true) :
    ∃ r R1, addSetupCode (unitAst cs) = .ok r ∧
      (if leadCompiledEach holds cs = true then
        ∃ R, R1 = leadTextEach cs ++ .declarations :: R ∧ withMacrosEach holds cs = leadTextEach cs ++ R
      else R1 = withMacrosEach holds cs) ∧
      (if trailCompiledEach holds cs = true then
        ∃ L, r.compiled holds = L ++ appendedPieces (hasMainEach cs) ++ trailTextEach cs ∧ R1 = L ++ trailTextEach cs
      else r.compiled holds = R1) ∧ (trailTextEach cs).all Piece.isOwn = true := by
  obtain ⟨p, q, r, hp, hq, hr, hcomp⟩ := addSetupCode_eq cs hn
  have hroot : ∀ cs, (TopAst.node .other none [] cs []).withMacros holds = withMacrosEach holds cs := by
    intro cs; simp [TopAst.withMacros]
  obtain ⟨j, p', rfl⟩ : ∃ j p', p = j :: p' := by
    obtain ⟨j, p', e⟩ := firstTarget_some cs hn 0
    rw [hp] at e
    exact ⟨j, p', Option.some.inj e⟩
  -- the declarations
  have h1 : ((TopAst.node .other none [] cs []).change (addBefore .declarations) (j :: p')) =
      .node .other none [] (cs.modify j (TopAst.change (addBefore .declarations) p')) [] := rfl
  have hg := fun t => isText_change (addBefore .declarations) (isText_addBefore _) p' t
  generalize hcs1 : cs.modify j (TopAst.change (addBefore .declarations) p') = cs1 at h1
  have hn1 : hasNode cs1 = true := by rw [← hcs1, hasNode_modify _ hg, hn]
  have ht1 : trailTextEach cs1 = trailTextEach cs := by
    rw [← hcs1, trailTextEach_modify _ hg (change_text (addBefore _) (fun _ => rfl) p') (trailText_before _ p')]
  have hc1 : trailCompiledEach holds cs1 = trailCompiledEach holds cs := by
    rw [← hcs1, trailCompiledEach_modify holds _ hg (trailCompiled_before holds _ p')]
  have hq1 : lastTarget 0 cs1 = some q := by
    have hs : ((TopAst.node .other none [] cs []).change (addBefore .declarations) (j :: p')).shape =
        (TopAst.node .other none [] cs []).shape := shape_change _ (shape_addBefore _) _ _
    rw [h1] at hs
    have := lastTarget_eq _ _ hs
    simp only [TopAst.children] at this
    rw [this, hq]
  refine ⟨r, withMacrosEach holds cs1, hr, ?_, ?_, trailTextEach_own cs hf⟩
  · split
    · rename_i hl
      obtain ⟨j', q', R, e, h2, h3⟩ := leadEach_spot holds .declarations cs 0 hn hl
      rw [hp] at e
      simp only [Nat.zero_add, Option.some.injEq, List.cons.injEq] at e
      obtain ⟨rfl, rfl⟩ := e
      rw [hcs1] at h2
      exact ⟨R, h2, h3⟩
    · rename_i hl
      obtain ⟨j', q', e, h2⟩ := leadEach_hidden holds .declarations cs 0 (by simpa using hl)
      rw [hp] at e
      simp only [Nat.zero_add, Option.some.injEq, List.cons.injEq] at e
      obtain ⟨rfl, rfl⟩ := e
      rw [hcs1] at h2
      exact h2
  · rw [hcomp, h1]
    split
    · rename_i hl
      obtain ⟨i, q', L, e, h2, h3⟩ := trailEach_spot holds (appendedPieces (hasMainEach cs)) cs1 0 hn1 (by rw [hc1, hl])
      rw [hq1] at e
      simp only [Nat.zero_add, Option.some.injEq] at e
      subst e
      refine ⟨L, ?_, by rw [h3, ht1]⟩
      rw [TopAst.change, hroot, h2, ht1]
    · rename_i hl
      obtain ⟨i, q', e, h2⟩ := trailEach_hidden holds (appendedPieces (hasMainEach cs)) cs1 0
        (by rw [hc1]; simpa using hl)
      rw [hq1] at e
      simp only [Nat.zero_add, Option.some.injEq] at e
      subst e
      rw [TopAst.change, hroot, h2]

/-- C75 (order): the text of an instrumented file, whatever the conditions of its preprocessor
directives: blanks and comments, the declarations, the program with the macro before each
declarator of `main`, the implementation, the initialization if there is such a declarator,
blanks and comments.  Presupposed is that ASTs that were not parsed are not inside of branches
that are left out. -/
theorem C75_order (holds : Nat → Bool) (cs : List TopAst) (hn : hasNode cs = true) (hf : freshEach cs = true)
    (hl : leadCompiledEach holds cs = true) (ht : trailCompiledEach holds cs = true) :
    ∃ r mid, addSetupCode (unitAst cs) = .ok r ∧
      r.compiled holds = leadTextEach cs ++ [.declarations] ++ mid ++ [.implementation] ++
        (if hasMainEach cs then [.initialization] else []) ++ trailTextEach cs ∧
      withMacrosEach holds cs = leadTextEach cs ++ mid ++ trailTextEach cs := by
  obtain ⟨r, R1, hr, h1, h2, hown⟩ := setup_cases holds cs hn hf
  rw [if_pos hl] at h1
  rw [if_pos ht] at h2
  obtain ⟨R, e1, e2⟩ := h1
  obtain ⟨L, e3, e4⟩ := h2
  have hno := own_all hown .declarations rfl
  rw [e1] at e4
  have key : ∃ mid, L = leadTextEach cs ++ .declarations :: mid ∧ R = mid ++ trailTextEach cs := by
    rcases List.append_eq_append_iff.mp e4 with ⟨as, ha, hb⟩ | ⟨bs, ha, hb⟩
    · cases as with
      | nil => rw [List.nil_append] at hb; rw [← hb] at hno; simp at hno
      | cons x as =>
        simp only [List.cons_append, List.cons.injEq] at hb
        exact ⟨as, by rw [ha, hb.1], hb.2⟩
    · rw [hb] at hno
      simp at hno
  obtain ⟨mid, hL, hR⟩ := key
  refine ⟨r, mid, hr, ?_, ?_⟩
  · rw [e3, hL, appendedPieces]
    simp
  · rw [e2, hR]
    simp

/-- C75 (setup): after preprocessing, the log variables and the function that opens the trace
are defined once if a declarator of `main` is compiled, and otherwise not. -/
theorem C75_setup (holds : Nat → Bool) (cs : List TopAst) (hn : hasNode cs = true) (hf : freshEach cs = true)
    (ht : trailCompiledEach holds cs = true) :
    ∃ r, addSetupCode (unitAst cs) = .ok r ∧
      (preprocessed false (r.compiled holds)).count .initialization =
        if mainCompiledEach holds cs = true then 1 else 0 := by
  obtain ⟨r, R1, hr, h1, h2, hown⟩ := setup_cases holds cs hn hf
  rw [if_pos ht] at h2
  obtain ⟨L, e3, e4⟩ := h2
  refine ⟨r, hr, ?_⟩
  obtain ⟨hm1, hm2⟩ := withMacrosEach_mem holds cs hf
  have hR1 : .initialization ∉ R1 ∧ (.entryMacro ∈ R1 ↔ mainCompiledEach holds cs = true) := by
    have hbase : .initialization ∉ withMacrosEach holds cs := by
      intro h
      rcases hm1 _ h with h | h <;> simp [Piece.isOwn] at h
    split at h1
    · obtain ⟨R, e1, e2⟩ := h1
      rw [e2] at hbase hm2
      rw [e1]
      simp only [List.mem_append, not_or] at hbase
      refine ⟨by simp [hbase.1, hbase.2], ?_⟩
      rw [← hm2]
      simp
    · rw [h1]
      exact ⟨hbase, hm2⟩
  have htm := own_all hown .entryMacro rfl
  have hti := own_all hown .initialization rfl
  rw [e4] at hR1
  simp only [List.mem_append, not_or, htm, or_false] at hR1
  rw [e3, appendedPieces]
  cases hm : hasMainEach cs with
  | false =>
    have : mainCompiledEach holds cs = false := by
      cases h : mainCompiledEach holds cs with
      | false => rfl
      | true => rw [hasMainEach_of_compiled holds cs h] at hm; simp at hm
    rw [count_preprocessed_none _ _ (by simp [hR1.1.1, hti]), this]
    simp
  | true =>
    have hlist : L ++ (.implementation :: if true = true then [Piece.initialization] else []) ++ trailTextEach cs =
        (L ++ [.implementation]) ++ .initialization :: trailTextEach cs := by simp
    rw [hlist, count_preprocessed _ _ _ (by simp [hR1.1.1]) hti]
    simp [hR1.2]

/-- C75 (link): so the files of an executable define them once exactly if a declarator of
`main` is compiled in one of them - a mere declaration of `main` in another one is one too
many. -/
theorem C75_link (holds : Nat → Bool) (files : List (List TopAst))
    (h : ∀ cs ∈ files, hasNode cs = true ∧ freshEach cs = true ∧ trailCompiledEach holds cs = true) :
    ∃ rs : List TopAst, files.map (fun cs => addSetupCode (unitAst cs)) = rs.map .ok ∧
      setupDefinitions holds rs = files.countP fun cs => mainCompiledEach holds cs := by
  induction files with
  | nil => exact ⟨[], rfl, rfl⟩
  | cons cs files ih =>
    obtain ⟨rs, h1, h2⟩ := ih fun x hx => h x (List.mem_cons_of_mem _ hx)
    obtain ⟨hn, hf, ht⟩ := h cs List.mem_cons_self
    obtain ⟨r, hr, hc⟩ := C75_setup holds cs hn hf ht
    refine ⟨r :: rs, by simp only [List.map_cons, hr, h1], ?_⟩
    simp only [setupDefinitions, List.map_cons, List.sum_cons, hc]
    simp only [setupDefinitions] at h2
    rw [h2, List.countP_cons]
    omega

/-- C75 (not parsed): setup code goes into ASTs that were not parsed.  If those at the end are
inside a branch that is left out, there is no implementation and no initialization, even where
`main` is compiled; if those at the start are, there are no declarations. -/
theorem C75_not_parsed (holds : Nat → Bool) (cs : List TopAst) (hn : hasNode cs = true) (hf : freshEach cs = true) :
    ∃ r, addSetupCode (unitAst cs) = .ok r ∧
      (trailCompiledEach holds cs = false →
        .implementation ∉ r.compiled holds ∧ .initialization ∉ r.compiled holds) ∧
      (leadCompiledEach holds cs = false → .declarations ∉ r.compiled holds) := by
  obtain ⟨r, R1, hr, h1, h2, hown⟩ := setup_cases holds cs hn hf
  obtain ⟨hm1, _⟩ := withMacrosEach_mem holds cs hf
  have hb : ∀ x : Piece, x.isOwn = false → x ≠ .entryMacro → x ∉ withMacrosEach holds cs := by
    intro x hx hx' h
    rcases hm1 x h with h | h
    · rw [hx] at h; simp at h
    · exact hx' h
  refine ⟨r, hr, fun ht => ?_, fun hl => ?_⟩
  · rw [if_neg (by simp [ht])] at h2
    rw [h2]
    split at h1
    · obtain ⟨R, e1, e2⟩ := h1
      have hi := hb .implementation rfl (by simp)
      have hj := hb .initialization rfl (by simp)
      rw [e2] at hi hj
      simp only [List.mem_append, not_or] at hi hj
      rw [e1]
      simp [hi, hj]
    · rw [h1]
      exact ⟨hb _ rfl (by simp), hb _ rfl (by simp)⟩
  · rw [if_neg (by simp [hl])] at h1
    have hd := hb .declarations rfl (by simp)
    rw [← h1] at hd
    split at h2
    · obtain ⟨L, e3, e4⟩ := h2
      rw [e4] at hd
      simp only [List.mem_append, not_or] at hd
      rw [e3, appendedPieces]
      cases hasMainEach cs <;> simp [hd]
    · rw [h2]
      exact hd

/-- C75 (empty): a file without anything but text cannot be instrumented; every other can. -/
theorem C75_empty (cs : List TopAst) :
    (hasNode cs = false → addSetupCode (unitAst cs) = .throw .lisp) ∧
    (hasNode cs = true → ∃ r, addSetupCode (unitAst cs) = .ok r) := by
  refine ⟨fun h => ?_, fun h => ?_⟩
  · simp [addSetupCode, unitAst, prependSetup, TopAst.children, firstTarget_none cs h 0, bind, Res.bind]
  · obtain ⟨_, _, r, _, _, hr, _⟩ := addSetupCode_eq cs h
    exact ⟨r, hr⟩

/-! ### Examples -/

/-- A comment, an `#include`, a function, `main` inside `#if 7`, a newline. -/
def exUnit : List TopAst :=
  [.text (.own 0), .node .other none [] [.text (.own 1)] [], .node .other none [] [.text (.own 2)] [],
   .node .other (some 7) [] [.text (.own 3), .node .other none []
     [.text (.own 4), .node .mainDeclarator none [] [.text (.own 5)] [], .text (.own 6)] []] [], .text (.own 8)]

/-- The hypotheses of `C75_order` and `C75_setup`, and what comes out. -/
example : hasNode exUnit = true ∧ freshEach exUnit = true ∧ leadCompiledEach (fun _ => true) exUnit = true ∧
    trailCompiledEach (fun _ => true) exUnit = true ∧
    (addSetupCode (unitAst exUnit)).bind (fun r => .ok (r.compiled fun _ => true)) =
      .ok [.own 0, .declarations, .own 1, .own 2, .own 3, .own 4, .entryMacro, .own 5, .own 6, .implementation,
        .initialization, .own 8] ∧
    (addSetupCode (unitAst exUnit)).bind (fun r => .ok (preprocessed false (r.compiled fun _ => false))) =
      .ok [.own 0, .declarations, .own 1, .own 2, .implementation, .own 8] := by decide +kernel

/-- A file that only declares `main`, next to the one that defines it: two definitions. -/
example :
    let declares : List TopAst := [.node .other none [] [.text (.own 0), .node .mainDeclarator none [] [.text (.own 1)] []] []]
    (∀ cs ∈ [exUnit, declares], hasNode cs = true ∧ freshEach cs = true ∧
      trailCompiledEach (fun _ => true) cs = true) ∧
    ([exUnit, declares].countP fun cs => mainCompiledEach (fun _ => true) cs) = 2 := by decide +kernel

/-- A file that ends in something not parsed, with `#if 7` in it: `main` is compiled, the
initialization is not. -/
def exBroken : List TopAst :=
  [.node .other none [] [.text (.own 0), .node .mainDeclarator none [] [.text (.own 1)] []] [],
   .node .error (some 7) [] [.text (.own 2), .node .other none [] [.text (.own 3)] []] []]

example : hasNode exBroken = true ∧ freshEach exBroken = true ∧ trailCompiledEach (fun _ => false) exBroken = false ∧
    mainCompiledEach (fun _ => false) exBroken = true ∧
    (addSetupCode (unitAst exBroken)).bind (fun r => .ok (r.compiled fun _ => false)) =
      .ok [.declarations, .own 0, .entryMacro, .own 1] ∧
    leadCompiledEach (fun _ => false) exBroken.reverse = false := by decide +kernel

/-- Text only. -/
example : hasNode [.text (.own 0)] = false ∧ hasNode [.text (.own 0), .node .error none [] [] []] = true := by
  decide +kernel

end TraceDB
