import Verif.Spec.SetupCode
/-
Lemmas about the placement of setup code.
-/
namespace TraceDB

/-! ### Shapes -/

mutual
/-- An AST without what is before and after. -/
def TopAst.shape : TopAst → TopAst
  | .text p => .text p
  | .node k c _ cs _ => .node k c [] (shapeEach cs) []
def shapeEach : List TopAst → List TopAst
  | [] => []
  | c :: cs => c.shape :: shapeEach cs
end

mutual
theorem firstConcrete_shape : ∀ t : TopAst, firstConcrete t.shape = firstConcrete t
  | .text p => rfl
  | .node k c b cs a => by simp only [TopAst.shape, firstConcrete, firstTarget_shape 0 cs]
theorem firstTarget_shape : ∀ (i : Nat) (cs : List TopAst), firstTarget i (shapeEach cs) = firstTarget i cs
  | i, [] => rfl
  | i, .text p :: cs => by simp only [shapeEach, TopAst.shape, firstTarget, firstTarget_shape (i + 1) cs]
  | i, .node k c b xs a :: cs => by
    have h := firstConcrete_shape (.node k c b xs a)
    rw [TopAst.shape] at h
    simp only [shapeEach, TopAst.shape, firstTarget, h]
end

mutual
theorem lastConcrete_shape : ∀ t : TopAst, lastConcrete t.shape = lastConcrete t
  | .text p => rfl
  | .node k c b cs a => by simp only [TopAst.shape, lastConcrete, lastTarget_shape 0 cs]
theorem lastTarget_shape : ∀ (i : Nat) (cs : List TopAst), lastTarget i (shapeEach cs) = lastTarget i cs
  | i, [] => rfl
  | i, .text p :: cs => by simp only [shapeEach, TopAst.shape, lastTarget, lastTarget_shape (i + 1) cs]
  | i, .node k c b xs a :: cs => by
    have h := lastConcrete_shape (.node k c b xs a)
    rw [TopAst.shape] at h
    simp only [shapeEach, TopAst.shape, lastTarget, lastTarget_shape (i + 1) cs, h]
end

mutual
theorem mainPaths_shape : ∀ t : TopAst, mainPaths t.shape = mainPaths t
  | .text p => rfl
  | .node k c b cs a => by simp only [TopAst.shape, mainPaths, mainPathsEach_shape 0 cs]
theorem mainPathsEach_shape : ∀ (i : Nat) (cs : List TopAst), mainPathsEach i (shapeEach cs) = mainPathsEach i cs
  | i, [] => rfl
  | i, c :: cs => by simp only [shapeEach, mainPathsEach, mainPaths_shape c, mainPathsEach_shape (i + 1) cs]
end

theorem shapeEach_modify (g : TopAst → TopAst) (h : ∀ t, (g t).shape = t.shape) :
    ∀ (i : Nat) (cs : List TopAst), shapeEach (cs.modify i g) = shapeEach cs
  | i, [] => by simp [shapeEach]
  | 0, c :: cs => by simp [shapeEach, h]
  | i + 1, c :: cs => by simp [shapeEach, shapeEach_modify g h i cs]

theorem shape_change (f : TopAst → TopAst) (h : ∀ t, (f t).shape = t.shape) :
    ∀ (q : List Nat) (t : TopAst), (t.change f q).shape = t.shape
  | [], t => h t
  | _ :: _, .text p => rfl
  | i :: q, .node k c b cs a => by
    simp only [TopAst.change, TopAst.shape]
    rw [shapeEach_modify _ (shape_change f h q)]

theorem shape_addBefore (p : Piece) (t : TopAst) : (addBefore p t).shape = t.shape := by
  cases t <;> rfl

/-- Several pieces at once. -/
def addAfters (ps : List Piece) : TopAst → TopAst
  | .text q => .text q
  | .node k c b cs a => .node k c b cs (a ++ ps)

theorem addAfter_eq (p : Piece) : addAfter p = addAfters [p] := by
  funext t; cases t <;> rfl

theorem shape_addAfters (ps : List Piece) (t : TopAst) : (addAfters ps t).shape = t.shape := by
  cases t <;> rfl

theorem shape_children (t t' : TopAst) (h : t.shape = t'.shape) : shapeEach t.children = shapeEach t'.children := by
  cases t <;> cases t' <;> simp [TopAst.shape] at h <;> simp [TopAst.children, shapeEach, h]

theorem firstTarget_eq (t t' : TopAst) (h : t.shape = t'.shape) :
    firstTarget 0 t.children = firstTarget 0 t'.children := by
  rw [← firstTarget_shape, shape_children t t' h, firstTarget_shape]

theorem lastTarget_eq (t t' : TopAst) (h : t.shape = t'.shape) :
    lastTarget 0 t.children = lastTarget 0 t'.children := by
  rw [← lastTarget_shape, shape_children t t' h, lastTarget_shape]

theorem mainPaths_eq (t t' : TopAst) (h : t.shape = t'.shape) : mainPaths t = mainPaths t' := by
  rw [← mainPaths_shape, h, mainPaths_shape]

/-! ### Changes -/

theorem change_change (f g : TopAst → TopAst) (hf : ∀ p, f (.text p) = .text p) (hg : ∀ p, g (.text p) = .text p) :
    ∀ (q : List Nat) (t : TopAst), (t.change g q).change f q = t.change (f ∘ g) q
  | [], t => rfl
  | _ :: _, .text p => rfl
  | i :: q, .node k c b cs a => by
    simp only [TopAst.change]
    congr 1
    apply List.ext_getElem?
    intro n
    simp only [List.getElem?_modify, Option.map_eq_map]
    cases h : cs[n]? with
    | none => simp
    | some x =>
      by_cases hn : i = n
      · simp [hn, change_change f g hf hg q x]
      · simp [hn]

theorem addAfters_comp (ps qs : List Piece) : addAfters qs ∘ addAfters ps = addAfters (ps ++ qs) := by
  funext t; cases t <;> simp [addAfters]

/-! ### The entry macro -/

mutual
/-- The macro before every declarator of `main`. -/
def markMains : TopAst → TopAst
  | .text p => .text p
  | .node k c b cs a => .node k c (b ++ if k = .mainDeclarator then [.entryMacro] else []) (markEach cs) a
def markEach : List TopAst → List TopAst
  | [] => []
  | c :: cs => markMains c :: markEach cs
end

theorem foldl_change_below (f : TopAst → TopAst) (k : TopKind) (c : Option Nat) (b a : List Piece) (i : Nat) (x : TopAst)
    (pre post : List TopAst) (hi : pre.length = i) (ps : List (List Nat)) :
    (ps.map (i :: ·)).foldl (fun r p => TopAst.change f p r) (TopAst.node k c b (pre ++ x :: post) a) =
      TopAst.node k c b (pre ++ ps.foldl (fun r p => TopAst.change f p r) x :: post) a := by
  induction ps generalizing x with
  | nil => rfl
  | cons p ps ih =>
    simp only [List.map_cons, List.foldl_cons, TopAst.change]
    have : (pre ++ x :: post).modify i (TopAst.change f p) = pre ++ x.change f p :: post := by
      subst hi
      apply List.ext_getElem?
      intro n
      simp only [List.getElem?_modify, Option.map_eq_map]
      rcases Nat.lt_trichotomy n pre.length with h | h | h
      · rw [List.getElem?_append_left h, List.getElem?_append_left h]
        simp [Nat.ne_of_gt h]
      · subst h; simp
      · rw [List.getElem?_append_right (by omega), List.getElem?_append_right (by omega)]
        obtain ⟨d, hd⟩ : ∃ d, n - pre.length = d + 1 := ⟨n - pre.length - 1, by omega⟩
        rw [hd]
        simp [Nat.ne_of_lt h]
    rw [this]
    exact ih _

mutual
theorem foldl_mark : ∀ t : TopAst,
    (mainPaths t).foldl (fun r p => TopAst.change (addBefore .entryMacro) p r) t = markMains t
  | .text p => rfl
  | .node k c b cs a => by
    rw [mainPaths, List.foldl_append]
    by_cases hk : k = .mainDeclarator
    · have h := foldl_markEach k c (b ++ [.entryMacro]) a cs []
      simp only [hk, if_true, List.foldl_cons, List.foldl_nil, TopAst.change, addBefore, markMains] at h ⊢
      exact h
    · have h := foldl_markEach k c b a cs []
      simp only [hk, if_false, List.foldl_nil, markMains, List.append_nil]
      exact h
theorem foldl_markEach (k : TopKind) (c : Option Nat) (b a : List Piece) : ∀ (cs pre : List TopAst),
    (mainPathsEach pre.length cs).foldl (fun r p => TopAst.change (addBefore .entryMacro) p r) (TopAst.node k c b (pre ++ cs) a)
      = TopAst.node k c b (pre ++ markEach cs) a
  | [], pre => by simp [mainPathsEach, markEach]
  | x :: cs, pre => by
    rw [mainPathsEach, List.foldl_append, foldl_change_below _ k c b a pre.length x pre cs rfl, foldl_mark x]
    have h := foldl_markEach k c b a cs (pre ++ [markMains x])
    simp only [List.length_append, List.length_cons, List.length_nil, List.append_assoc, List.cons_append,
      List.nil_append, Nat.zero_add] at h
    simp only [markEach]
    exact h
end

mutual
theorem shape_mark : ∀ t : TopAst, (markMains t).shape = t.shape
  | .text p => rfl
  | .node k c b cs a => by simp only [markMains, TopAst.shape, shapeEach_mark cs]
theorem shapeEach_mark : ∀ cs : List TopAst, shapeEach (markEach cs) = shapeEach cs
  | [] => rfl
  | c :: cs => by simp only [markEach, shapeEach, shape_mark c, shapeEach_mark cs]
end

mutual
theorem compiled_mark (holds : Nat → Bool) : ∀ t : TopAst, (markMains t).compiled holds = t.withMacros holds
  | .text p => rfl
  | .node k c b cs a => by
    simp only [markMains, TopAst.compiled, TopAst.withMacros, compiledEach_mark holds cs]
theorem compiledEach_mark (holds : Nat → Bool) : ∀ cs : List TopAst,
    compiledEach holds (markEach cs) = withMacrosEach holds cs
  | [] => rfl
  | c :: cs => by simp only [markEach, compiledEach, withMacrosEach, compiled_mark holds c, compiledEach_mark holds cs]
end

mutual
theorem mark_none : ∀ t : TopAst, t.hasMain = false → markMains t = t
  | .text p, _ => rfl
  | .node k c b cs a, h => by
    simp only [TopAst.hasMain, Bool.or_eq_false_iff, beq_eq_false_iff_ne, ne_eq] at h
    simp only [markMains, h.1, if_false, List.append_nil, markEach_none cs h.2]
theorem markEach_none : ∀ cs : List TopAst, hasMainEach cs = false → markEach cs = cs
  | [], _ => rfl
  | c :: cs, h => by
    simp only [hasMainEach, Bool.or_eq_false_iff] at h
    simp only [markEach, mark_none c h.1, markEach_none cs h.2]
end

mutual
theorem mainPaths_nil : ∀ t : TopAst, mainPaths t = [] ↔ t.hasMain = false
  | .text p => by simp [mainPaths, TopAst.hasMain]
  | .node k c b cs a => by
    by_cases hk : k = .mainDeclarator
    · simp [mainPaths, TopAst.hasMain, hk]
    · simp [mainPaths, TopAst.hasMain, hk, mainPathsEach_nil 0 cs]
theorem mainPathsEach_nil : ∀ (i : Nat) (cs : List TopAst), mainPathsEach i cs = [] ↔ hasMainEach cs = false
  | i, [] => by simp [mainPathsEach, hasMainEach]
  | i, c :: cs => by simp [mainPathsEach, hasMainEach, mainPaths_nil c, mainPathsEach_nil (i + 1) cs]
end

theorem markEach_modify (f g : TopAst → TopAst) (h : ∀ t, markMains (f t) = g (markMains t)) :
    ∀ (i : Nat) (cs : List TopAst), markEach (cs.modify i f) = (markEach cs).modify i g
  | i, [] => by simp [markEach]
  | 0, c :: cs => by simp [markEach, h]
  | i + 1, c :: cs => by simp [markEach, markEach_modify f g h i cs]

theorem mark_addAfters (ps : List Piece) : ∀ (q : List Nat) (t : TopAst),
    markMains (t.change (addAfters ps) q) = (markMains t).change (addAfters ps) q
  | [], .text p => rfl
  | [], .node k c b cs a => rfl
  | _ :: _, .text p => rfl
  | i :: q, .node k c b cs a => by
    simp only [TopAst.change, markMains]
    rw [markEach_modify _ _ (mark_addAfters ps q)]

/-! ### In front -/

mutual
theorem lead_spot (holds : Nat → Bool) (p : Piece) : ∀ t : TopAst, t.isText = false → leadCompiled holds t = true →
    ∃ R, (t.change (addBefore p) (firstConcrete t)).withMacros holds = leadText t ++ p :: R ∧
      t.withMacros holds = leadText t ++ R
  | .text _, h, _ => by simp [TopAst.isText] at h
  | .node k c b cs a, _, hc => by
    by_cases hk : k = .error
    · cases hn : hasNode cs with
      | false =>
        have ht := firstTarget_none cs hn 0
        have hl := leadTextEach_none cs hn
        simp only [firstConcrete, hk, if_true, ht, Option.getD_none, TopAst.change, addBefore, leadText, hl,
          TopAst.withMacros, List.append_nil]
        exact ⟨(if TopKind.error = TopKind.mainDeclarator then [.entryMacro] else []) ++
          (if c.all holds then withMacrosEach holds cs else []) ++ a, by simp, by simp⟩
      | true =>
        simp only [leadCompiled, hk, hn, bne_self_eq_false, Bool.not_true, Bool.false_or, Bool.and_eq_true] at hc
        obtain ⟨j, q, R, ht, h1, h2⟩ := leadEach_spot holds p cs 0 hn hc.2
        simp only [Nat.zero_add] at ht
        refine ⟨R ++ a, ?_, ?_⟩
        · simp only [firstConcrete, hk, if_true, ht, Option.getD_some, TopAst.change, leadText, TopAst.withMacros, hc.1,
            h1]
          simp
        · simp only [leadText, hk, if_true, TopAst.withMacros, hc.1, h2]
          simp
    · simp only [firstConcrete, hk, if_false, TopAst.change, addBefore, leadText, TopAst.withMacros, List.append_nil]
      exact ⟨(if k = .mainDeclarator then [.entryMacro] else []) ++
        (if c.all holds then withMacrosEach holds cs else []) ++ a, by simp, by simp⟩
theorem leadEach_spot (holds : Nat → Bool) (p : Piece) : ∀ (cs : List TopAst) (k : Nat), hasNode cs = true →
    leadCompiledEach holds cs = true → ∃ (j : Nat) (q : List Nat) (R : List Piece),
      firstTarget k cs = some ((k + j) :: q) ∧
      withMacrosEach holds (cs.modify j (TopAst.change (addBefore p) q)) = leadTextEach cs ++ p :: R ∧
      withMacrosEach holds cs = leadTextEach cs ++ R
  | [], _, h, _ => by simp [hasNode] at h
  | .text t :: cs, k, h, hc => by
    simp only [hasNode] at h
    obtain ⟨j, q, R, ht, h1, h2⟩ := leadEach_spot holds p cs (k + 1) h (by simpa [leadCompiledEach] using hc)
    refine ⟨j + 1, q, R, ?_, ?_, ?_⟩
    · simp only [firstTarget, ht]
      congr 2
      omega
    · simp [withMacrosEach, h1, leadTextEach, h, TopAst.withMacros]
    · simp [withMacrosEach, h2, leadTextEach, h, TopAst.withMacros]
  | .node kd c b xs a :: cs, k, _, hc => by
    obtain ⟨R, h1, h2⟩ := lead_spot holds p (.node kd c b xs a) rfl (by simpa [leadCompiledEach] using hc)
    refine ⟨0, firstConcrete (.node kd c b xs a), R ++ withMacrosEach holds cs, rfl, ?_, ?_⟩
    · simp only [List.modify_zero_cons, withMacrosEach, h1, leadTextEach]
      simp
    · simp only [withMacrosEach, h2, leadTextEach]
      simp
theorem firstTarget_none : ∀ (cs : List TopAst), hasNode cs = false → ∀ k, firstTarget k cs = none
  | [], _, _ => rfl
  | .text _ :: cs, h, k => by
    simp only [hasNode] at h
    rw [firstTarget, firstTarget_none cs h]
  | .node _ _ _ _ _ :: _, h, _ => by simp [hasNode] at h
theorem leadTextEach_none : ∀ (cs : List TopAst), hasNode cs = false → leadTextEach cs = []
  | [], _ => rfl
  | .text _ :: cs, h => by
    simp only [hasNode] at h
    simp [leadTextEach, h]
  | .node _ _ _ _ _ :: _, h => by simp [hasNode] at h
end

mutual
theorem lead_hidden (holds : Nat → Bool) (p : Piece) : ∀ t : TopAst, leadCompiled holds t = false →
    (t.change (addBefore p) (firstConcrete t)).withMacros holds = t.withMacros holds
  | .text _, h => by simp [leadCompiled] at h
  | .node k c b cs a, hc => by
    simp only [leadCompiled, Bool.or_eq_false_iff, bne_eq_false_iff_eq, Bool.not_eq_false'] at hc
    obtain ⟨⟨hk, hn⟩, hc⟩ := hc
    cases hcd : c.all holds with
    | false =>
      simp only [firstConcrete, hk, if_true]
      obtain ⟨j, q, ht⟩ := firstTarget_some cs hn 0
      simp only [ht, Option.getD_some, TopAst.change, TopAst.withMacros, hcd]
      simp
    | true =>
      rw [hcd, Bool.true_and] at hc
      obtain ⟨j, q, ht, h1⟩ := leadEach_hidden holds p cs 0 hc
      simp only [Nat.zero_add] at ht
      simp only [firstConcrete, hk, if_true, ht, Option.getD_some, TopAst.change, TopAst.withMacros, h1]
theorem leadEach_hidden (holds : Nat → Bool) (p : Piece) : ∀ (cs : List TopAst) (k : Nat),
    leadCompiledEach holds cs = false → ∃ (j : Nat) (q : List Nat), firstTarget k cs = some ((k + j) :: q) ∧
      withMacrosEach holds (cs.modify j (TopAst.change (addBefore p) q)) = withMacrosEach holds cs
  | [], _, h => by simp [leadCompiledEach] at h
  | .text t :: cs, k, h => by
    obtain ⟨j, q, ht, h1⟩ := leadEach_hidden holds p cs (k + 1) (by simpa [leadCompiledEach] using h)
    refine ⟨j + 1, q, ?_, ?_⟩
    · simp only [firstTarget, ht]
      congr 2
      omega
    · simp [withMacrosEach, h1]
  | .node kd c b xs a :: cs, k, h => by
    have h1 := lead_hidden holds p (.node kd c b xs a) (by simpa [leadCompiledEach] using h)
    exact ⟨0, firstConcrete (.node kd c b xs a), rfl, by simp only [List.modify_zero_cons, withMacrosEach, h1]⟩
theorem firstTarget_some : ∀ (cs : List TopAst), hasNode cs = true → ∀ k, ∃ j q, firstTarget k cs = some (j :: q)
  | [], h, _ => by simp [hasNode] at h
  | .text _ :: cs, h, k => by
    simp only [hasNode] at h
    exact firstTarget_some cs h (k + 1)
  | .node kd c b xs a :: _, _, k => ⟨k, _, rfl⟩
end

/-! ### Behind -/

theorem lastTarget_none : ∀ (cs : List TopAst), hasNode cs = false → ∀ k, lastTarget k cs = none
  | [], _, _ => rfl
  | .text _ :: cs, h, k => by
    simp only [hasNode] at h
    rw [lastTarget, lastTarget_none cs h]
  | .node _ _ _ _ _ :: _, h, _ => by simp [hasNode] at h

theorem lastTarget_some : ∀ (cs : List TopAst), hasNode cs = true → ∀ k, ∃ j q, lastTarget k cs = some (j :: q)
  | [], h, _ => by simp [hasNode] at h
  | .text _ :: cs, h, k => by
    simp only [hasNode] at h
    exact lastTarget_some cs h (k + 1)
  | .node kd c b xs a :: cs, _, k => by
    cases hn : hasNode cs with
    | true =>
      obtain ⟨j, q, e⟩ := lastTarget_some cs hn (k + 1)
      exact ⟨j, q, by rw [lastTarget, e, Option.some_or]⟩
    | false => exact ⟨k, lastConcrete (.node kd c b xs a), by rw [lastTarget, lastTarget_none cs hn, Option.none_or]⟩

theorem withMacrosEach_texts (holds : Nat → Bool) : ∀ cs : List TopAst, hasNode cs = false →
    withMacrosEach holds cs = ownTexts cs
  | [], _ => rfl
  | .text p :: cs, h => by
    simp only [hasNode] at h
    simp [withMacrosEach, TopAst.withMacros, ownTexts, withMacrosEach_texts holds cs h]
  | .node _ _ _ _ _ :: _, h => by simp [hasNode] at h

mutual
theorem trail_spot (holds : Nat → Bool) (ps : List Piece) : ∀ t : TopAst, t.isText = false →
    trailCompiled holds t = true →
    ∃ L, (t.change (addAfters ps) (lastConcrete t)).withMacros holds = L ++ ps ++ trailText t ∧
      t.withMacros holds = L ++ trailText t
  | .text _, h, _ => by simp [TopAst.isText] at h
  | .node k c b cs a, _, hc => by
    by_cases hk : k = .error
    · cases hn : hasNode cs with
      | false =>
        have ht := lastTarget_none cs hn 0
        simp only [lastConcrete, hk, if_true, ht, Option.getD_none, TopAst.change, addAfters, trailText, hn,
          Bool.false_eq_true, and_false, if_false, TopAst.withMacros, List.append_nil]
        exact ⟨_, by simp only [List.append_assoc], rfl⟩
      | true =>
        simp only [trailCompiled, hk, hn, bne_self_eq_false, Bool.not_true, Bool.false_or, Bool.and_eq_true] at hc
        obtain ⟨j, q, L, ht, h1, h2⟩ := trailEach_spot holds ps cs 0 hn hc.2
        simp only [Nat.zero_add] at ht
        refine ⟨b ++ L, ?_, ?_⟩
        · simp only [lastConcrete, hk, if_true, ht, Option.getD_some, TopAst.change, trailText, hn, TopAst.withMacros,
            hc.1, h1]
          simp
        · simp only [trailText, hk, hn, TopAst.withMacros, hc.1, h2]
          simp
    · simp only [lastConcrete, hk, if_false, TopAst.change, addAfters, trailText, TopAst.withMacros, false_and,
        List.append_nil]
      exact ⟨_, by simp only [List.append_assoc], rfl⟩
theorem trailEach_spot (holds : Nat → Bool) (ps : List Piece) : ∀ (cs : List TopAst) (k : Nat), hasNode cs = true →
    trailCompiledEach holds cs = true → ∃ (j : Nat) (q : List Nat) (L : List Piece),
      lastTarget k cs = some ((k + j) :: q) ∧
      withMacrosEach holds (cs.modify j (TopAst.change (addAfters ps) q)) = L ++ ps ++ trailTextEach cs ∧
      withMacrosEach holds cs = L ++ trailTextEach cs
  | [], _, h, _ => by simp [hasNode] at h
  | x :: cs, k, h, hc => by
    cases hn : hasNode cs with
    | true =>
      simp only [trailCompiledEach, hn, if_true] at hc
      obtain ⟨j, q, L, ht, h1, h2⟩ := trailEach_spot holds ps cs (k + 1) hn hc
      refine ⟨j + 1, q, x.withMacros holds ++ L, ?_, ?_, ?_⟩
      · have e : lastTarget k (x :: cs) = some ((k + 1 + j) :: q) := by cases x <;> simp [lastTarget, ht]
        rw [e]
        simp only [Option.some.injEq, List.cons.injEq, and_true]
        omega
      · cases x <;> simp [withMacrosEach, h1, trailTextEach, hn]
      · cases x <;> simp [withMacrosEach, h2, trailTextEach, hn]
    | false =>
      match x, h, hc with
      | .text p, h, _ => simp [hasNode, hn] at h
      | .node kd c b xs a, _, hc =>
        simp only [trailCompiledEach, hn, TopAst.isText, Bool.false_eq_true, if_false, Bool.false_or] at hc
        obtain ⟨L, h1, h2⟩ := trail_spot holds ps (.node kd c b xs a) rfl hc
        refine ⟨0, lastConcrete (.node kd c b xs a), L, ?_, ?_, ?_⟩
        · rw [lastTarget, lastTarget_none cs hn, Option.none_or]
          rfl
        · simp only [List.modify_zero_cons, withMacrosEach, h1, trailTextEach, hn, withMacrosEach_texts holds cs hn]
          simp
        · simp only [withMacrosEach, h2, trailTextEach, hn, withMacrosEach_texts holds cs hn]
          simp
end

mutual
theorem trail_hidden (holds : Nat → Bool) (ps : List Piece) : ∀ t : TopAst, trailCompiled holds t = false →
    (t.change (addAfters ps) (lastConcrete t)).withMacros holds = t.withMacros holds
  | .text _, h => by simp [trailCompiled] at h
  | .node k c b cs a, hc => by
    simp only [trailCompiled, Bool.or_eq_false_iff, bne_eq_false_iff_eq, Bool.not_eq_false'] at hc
    obtain ⟨⟨hk, hn⟩, hc⟩ := hc
    cases hcd : c.all holds with
    | false =>
      simp only [lastConcrete, hk, if_true]
      obtain ⟨j, q, ht⟩ := lastTarget_some cs hn 0
      simp only [ht, Option.getD_some, TopAst.change, TopAst.withMacros, hcd]
      simp
    | true =>
      rw [hcd, Bool.true_and] at hc
      obtain ⟨j, q, ht, h1⟩ := trailEach_hidden holds ps cs 0 hc
      simp only [Nat.zero_add] at ht
      simp only [lastConcrete, hk, if_true, ht, Option.getD_some, TopAst.change, TopAst.withMacros, h1]
theorem trailEach_hidden (holds : Nat → Bool) (ps : List Piece) : ∀ (cs : List TopAst) (k : Nat),
    trailCompiledEach holds cs = false → ∃ (j : Nat) (q : List Nat), lastTarget k cs = some ((k + j) :: q) ∧
      withMacrosEach holds (cs.modify j (TopAst.change (addAfters ps) q)) = withMacrosEach holds cs
  | [], _, h => by simp [trailCompiledEach] at h
  | x :: cs, k, h => by
    cases hn : hasNode cs with
    | true =>
      simp only [trailCompiledEach, hn, if_true] at h
      obtain ⟨j, q, ht, h1⟩ := trailEach_hidden holds ps cs (k + 1) h
      refine ⟨j + 1, q, ?_, ?_⟩
      · have e : lastTarget k (x :: cs) = some ((k + 1 + j) :: q) := by cases x <;> simp [lastTarget, ht]
        rw [e]
        simp only [Option.some.injEq, List.cons.injEq, and_true]
        omega
      · simp [withMacrosEach, h1]
    | false =>
      match x, h with
      | .text p, h => simp [trailCompiledEach, hn, TopAst.isText] at h
      | .node kd c b xs a, h =>
        simp only [trailCompiledEach, hn, TopAst.isText, Bool.false_eq_true, if_false, Bool.false_or] at h
        have h1 := trail_hidden holds ps (.node kd c b xs a) h
        refine ⟨0, lastConcrete (.node kd c b xs a), ?_, ?_⟩
        · rw [lastTarget, lastTarget_none cs hn, Option.none_or]
          rfl
        · simp only [List.modify_zero_cons, withMacrosEach, h1]
end

/-! ### What stays the same -/

theorem hasNode_modify (g : TopAst → TopAst) (hg : ∀ t, (g t).isText = t.isText) : ∀ (i : Nat) (cs : List TopAst),
    hasNode (cs.modify i g) = hasNode cs := by
  have key : ∀ (t : TopAst) (cs : List TopAst), hasNode (t :: cs) = (!t.isText || hasNode cs) := by
    intro t cs; cases t <;> simp [hasNode, TopAst.isText]
  intro i cs
  induction cs generalizing i with
  | nil => simp
  | cons c cs ih => cases i with
    | zero => simp [key, hg]
    | succ i => simp [key, ih]

theorem change_text (f : TopAst → TopAst) (hf : ∀ p, f (.text p) = .text p) (q : List Nat) (p : Piece) :
    (TopAst.text p).change f q = .text p := by
  cases q with
  | nil => exact hf p
  | cons i q => rfl

theorem isText_change (f : TopAst → TopAst) (hf : ∀ t, (f t).isText = t.isText) (q : List Nat) (t : TopAst) :
    (t.change f q).isText = t.isText := by
  cases q with
  | nil => exact hf t
  | cons i q => cases t <;> rfl

theorem isText_addBefore (p : Piece) (t : TopAst) : (addBefore p t).isText = t.isText := by cases t <;> rfl

theorem isText_addAfters (ps : List Piece) (t : TopAst) : (addAfters ps t).isText = t.isText := by cases t <;> rfl

theorem ownTexts_modify (g : TopAst → TopAst) (hg : ∀ t, (g t).isText = t.isText) (hp : ∀ p, g (.text p) = .text p) :
    ∀ (i : Nat) (cs : List TopAst), ownTexts (cs.modify i g) = ownTexts cs := by
  have key : ∀ (t : TopAst) (cs : List TopAst), t.isText = false → ownTexts (t :: cs) = ownTexts cs := by
    intro t cs h; cases t <;> simp [ownTexts, TopAst.isText] at h ⊢
  intro i cs
  induction cs generalizing i with
  | nil => simp
  | cons c cs ih => cases i with
    | zero =>
      cases c with
      | text p => simp [hp]
      | node k cd b xs a =>
        rw [List.modify_zero_cons, key _ _ (by rw [hg]; rfl), key _ _ rfl]
    | succ i => cases c <;> simp [ownTexts, ih]

theorem trailTextEach_node (t : TopAst) (h : t.isText = false) (cs : List TopAst) :
    trailTextEach (t :: cs) = if hasNode cs then trailTextEach cs else trailText t ++ ownTexts cs := by
  cases t with
  | text p => simp [TopAst.isText] at h
  | node k c b xs a => rfl

theorem trailTextEach_modify (g : TopAst → TopAst) (hg : ∀ t, (g t).isText = t.isText)
    (hp : ∀ p, g (.text p) = .text p) (ht : ∀ t, trailText (g t) = trailText t) :
    ∀ (i : Nat) (cs : List TopAst), trailTextEach (cs.modify i g) = trailTextEach cs := by
  intro i cs
  induction cs generalizing i with
  | nil => simp
  | cons c cs ih => cases i with
    | zero =>
      cases c with
      | text p => simp [hp]
      | node k cd b xs a =>
        rw [List.modify_zero_cons, trailTextEach_node _ (by rw [hg]; rfl), trailTextEach_node _ rfl, ht]
    | succ i =>
      cases c <;> simp only [List.modify_succ_cons, trailTextEach, hasNode_modify g hg, ih, ownTexts_modify g hg hp]

theorem trailText_before (p : Piece) : ∀ (q : List Nat) (t : TopAst),
    trailText (t.change (addBefore p) q) = trailText t
  | [], .text _ => rfl
  | [], .node k c b cs a => rfl
  | _ :: _, .text _ => rfl
  | i :: q, .node k c b cs a => by
    have hg := fun t => isText_change (addBefore p) (isText_addBefore p) q t
    simp only [TopAst.change, trailText, hasNode_modify _ hg,
      trailTextEach_modify _ hg (change_text (addBefore p) (fun _ => rfl) q) (trailText_before p q)]

theorem trailCompiledEach_modify (holds : Nat → Bool) (g : TopAst → TopAst) (hg : ∀ t, (g t).isText = t.isText)
    (ht : ∀ t, trailCompiled holds (g t) = trailCompiled holds t) :
    ∀ (i : Nat) (cs : List TopAst), trailCompiledEach holds (cs.modify i g) = trailCompiledEach holds cs := by
  intro i cs
  induction cs generalizing i with
  | nil => simp
  | cons c cs ih => cases i with
    | zero => simp [trailCompiledEach, hg, ht]
    | succ i => simp [trailCompiledEach, hasNode_modify g hg, ih]

theorem trailCompiled_before (holds : Nat → Bool) (p : Piece) : ∀ (q : List Nat) (t : TopAst),
    trailCompiled holds (t.change (addBefore p) q) = trailCompiled holds t
  | [], .text _ => rfl
  | [], .node k c b cs a => rfl
  | _ :: _, .text _ => rfl
  | i :: q, .node k c b cs a => by
    have hg := fun t => isText_change (addBefore p) (isText_addBefore p) q t
    simp only [TopAst.change, trailCompiled, hasNode_modify _ hg,
      trailCompiledEach_modify holds _ hg (trailCompiled_before holds p q)]

/-! ### What is in the text -/

theorem own_all {l : List Piece} (h : l.all Piece.isOwn = true) (x : Piece) (hx : x.isOwn = false) : x ∉ l := by
  intro hm
  have := List.all_eq_true.mp h x hm
  rw [hx] at this
  exact absurd this (by simp)

theorem ownTexts_own : ∀ cs : List TopAst, freshEach cs = true → (ownTexts cs).all Piece.isOwn = true
  | [], _ => rfl
  | .text p :: cs, h => by
    simp only [freshEach, TopAst.fresh, Bool.and_eq_true] at h
    simp [ownTexts, h.1, ownTexts_own cs h.2]
  | .node _ _ _ _ _ :: cs, h => by
    simp only [freshEach, Bool.and_eq_true] at h
    simp only [ownTexts, ownTexts_own cs h.2]

mutual
theorem trailText_own : ∀ t : TopAst, t.fresh = true → (trailText t).all Piece.isOwn = true
  | .text _, _ => rfl
  | .node k c b cs a, h => by
    simp only [TopAst.fresh, Bool.and_eq_true] at h
    rw [trailText]
    split
    · simp [trailTextEach_own cs h.1.2, h.2]
    · rfl
theorem trailTextEach_own : ∀ cs : List TopAst, freshEach cs = true → (trailTextEach cs).all Piece.isOwn = true
  | [], _ => rfl
  | .text p :: cs, h => by
    simp only [freshEach, Bool.and_eq_true] at h
    rw [trailTextEach]
    exact trailTextEach_own cs h.2
  | .node k c b xs a :: cs, h => by
    simp only [freshEach, Bool.and_eq_true] at h
    rw [trailTextEach]
    split
    · exact trailTextEach_own cs h.2
    · simp [trailText_own (.node k c b xs a) h.1, ownTexts_own cs h.2]
end

mutual
/-- A text with macros has only pieces of the program and macros, and macros exactly if `main`
is compiled. -/
theorem withMacros_mem (holds : Nat → Bool) : ∀ t : TopAst, t.fresh = true →
    (∀ x ∈ t.withMacros holds, x.isOwn = true ∨ x = .entryMacro) ∧
    (.entryMacro ∈ t.withMacros holds ↔ t.mainCompiled holds = true)
  | .text p, h => by
    simp only [TopAst.fresh] at h
    refine ⟨fun x hx => ?_, ?_⟩
    · simp only [TopAst.withMacros, List.mem_singleton] at hx
      exact Or.inl (hx ▸ h)
    · simp only [TopAst.withMacros, List.mem_singleton, TopAst.mainCompiled, Bool.false_eq_true, iff_false]
      intro e
      rw [← e] at h
      simp [Piece.isOwn] at h
  | .node k c b cs a, h => by
    simp only [TopAst.fresh, Bool.and_eq_true] at h
    obtain ⟨⟨hb, hcs⟩, ha⟩ := h
    have ⟨h1, h2⟩ := withMacrosEach_mem holds cs hcs
    have nb := own_all hb .entryMacro rfl
    have na := own_all ha .entryMacro rfl
    refine ⟨fun x hx => ?_, ?_⟩
    · simp only [TopAst.withMacros, List.mem_append] at hx
      rcases hx with ((hx | hx) | hx) | hx
      · exact Or.inl (List.all_eq_true.mp hb x hx)
      · split at hx
        · exact Or.inr (List.mem_singleton.mp hx)
        · simp at hx
      · split at hx
        · exact h1 x hx
        · simp at hx
      · exact Or.inl (List.all_eq_true.mp ha x hx)
    · simp only [TopAst.withMacros, List.mem_append, nb, na, false_or, or_false, TopAst.mainCompiled]
      by_cases hk : k = .mainDeclarator
      · simp [hk]
      · cases hc : c.all holds
        · simp [hk]
        · simp [hk, h2]
theorem withMacrosEach_mem (holds : Nat → Bool) : ∀ cs : List TopAst, freshEach cs = true →
    (∀ x ∈ withMacrosEach holds cs, x.isOwn = true ∨ x = .entryMacro) ∧
    (.entryMacro ∈ withMacrosEach holds cs ↔ mainCompiledEach holds cs = true)
  | [], _ => by simp [withMacrosEach, mainCompiledEach]
  | c :: cs, h => by
    simp only [freshEach, Bool.and_eq_true] at h
    have ⟨a1, a2⟩ := withMacros_mem holds c h.1
    have ⟨b1, b2⟩ := withMacrosEach_mem holds cs h.2
    refine ⟨fun x hx => ?_, ?_⟩
    · simp only [withMacrosEach, List.mem_append] at hx
      rcases hx with hx | hx
      · exact a1 x hx
      · exact b1 x hx
    · simp [withMacrosEach, mainCompiledEach, a2, b2]
end

mutual
theorem hasMain_of_compiled (holds : Nat → Bool) : ∀ t : TopAst, t.mainCompiled holds = true → t.hasMain = true
  | .text _, h => by simp [TopAst.mainCompiled] at h
  | .node k c b cs a, h => by
    simp only [TopAst.mainCompiled, Bool.or_eq_true, Bool.and_eq_true] at h
    simp only [TopAst.hasMain, Bool.or_eq_true]
    rcases h with h | h
    · exact Or.inl h
    · exact Or.inr (hasMainEach_of_compiled holds cs h.2)
theorem hasMainEach_of_compiled (holds : Nat → Bool) : ∀ cs : List TopAst, mainCompiledEach holds cs = true →
    hasMainEach cs = true
  | [], h => by simp [mainCompiledEach] at h
  | c :: cs, h => by
    simp only [mainCompiledEach, Bool.or_eq_true] at h
    simp only [hasMainEach, Bool.or_eq_true]
    rcases h with h | h
    · exact Or.inl (hasMain_of_compiled holds c h)
    · exact Or.inr (hasMainEach_of_compiled holds cs h)
end

/-- The preprocessor, up to the initialization. -/
theorem count_preprocessed : ∀ (xs ys : List Piece) (e : Bool), .initialization ∉ xs → .initialization ∉ ys →
    (preprocessed e (xs ++ .initialization :: ys)).count .initialization =
      if e = true ∨ .entryMacro ∈ xs then 1 else 0 := by
  have tail : ∀ (ys : List Piece) (e : Bool), .initialization ∉ ys →
      (preprocessed e ys).count .initialization = 0 := by
    intro ys
    induction ys with
    | nil => intro e _; rfl
    | cons y ys ih =>
      intro e h
      simp only [List.mem_cons, not_or] at h
      cases y with
      | initialization => exact absurd rfl h.1
      | entryMacro => exact ih true h.2
      | own n => simp [preprocessed, ih e h.2]
      | declarations => simp [preprocessed, ih e h.2]
      | implementation => simp [preprocessed, ih e h.2]
  intro xs
  induction xs with
  | nil =>
    intro ys e _ hy
    cases e <;> simp [preprocessed, tail ys _ hy]
  | cons x xs ih =>
    intro ys e hx hy
    simp only [List.mem_cons, not_or] at hx
    cases x with
    | initialization => exact absurd rfl hx.1
    | entryMacro => simp [preprocessed, ih ys true hx.2 hy]
    | own n => simp [preprocessed, ih ys e hx.2 hy]
    | declarations => simp [preprocessed, ih ys e hx.2 hy]
    | implementation => simp [preprocessed, ih ys e hx.2 hy]

theorem count_preprocessed_none : ∀ (ys : List Piece) (e : Bool), .initialization ∉ ys →
    (preprocessed e ys).count .initialization = 0 := by
  intro ys
  induction ys with
  | nil => intro e _; rfl
  | cons y ys ih =>
    intro e h
    simp only [List.mem_cons, not_or] at h
    cases y with
    | initialization => exact absurd rfl h.1
    | entryMacro => exact ih true h.2
    | own n => simp [preprocessed, ih e h.2]
    | declarations => simp [preprocessed, ih e h.2]
    | implementation => simp [preprocessed, ih e h.2]

/-! ### A file -/

/-- The pieces that are appended. -/
def appendedPieces (main : Bool) : List Piece := .implementation :: if main then [.initialization] else []

/-- The setup code of a file in one go. -/
theorem addSetupCode_eq (cs : List TopAst) (h : hasNode cs = true) :
    ∃ (p q : List Nat) (r : TopAst), firstTarget 0 cs = some p ∧ lastTarget 0 cs = some q ∧
      addSetupCode (.node .other none [] cs []) = .ok r ∧
      ∀ holds, r.compiled holds = (((TopAst.node .other none [] cs []).change (addBefore .declarations) p).change
        (addAfters (appendedPieces (hasMainEach cs))) q).withMacros holds := by
  obtain ⟨j, p, hp⟩ := firstTarget_some cs h 0
  obtain ⟨i, q, hq⟩ := lastTarget_some cs h 0
  generalize hroot : TopAst.node .other none [] cs [] = root
  have hch : root.children = cs := by rw [← hroot]; rfl
  have hmain : root.hasMain = hasMainEach cs := by rw [← hroot]; simp [TopAst.hasMain]
  have hp' : firstTarget 0 root.children = some (j :: p) := by rw [hch, hp]
  have hs1 : (root.change (addBefore .declarations) (j :: p)).shape = root.shape :=
    shape_change _ (shape_addBefore _) _ _
  have hq1 : lastTarget 0 (root.change (addBefore .declarations) (j :: p)).children = some (i :: q) := by
    rw [lastTarget_eq _ root hs1, hch, hq]
  generalize hr1 : root.change (addBefore .declarations) (j :: p) = root1 at hs1 hq1
  have hs2 : (root1.change (addAfters [.implementation]) (i :: q)).shape = root.shape :=
    (shape_change _ (shape_addAfters _) _ _).trans hs1
  refine ⟨j :: p, i :: q, ?_⟩
  have hm2 : mainPaths (root1.change (addAfters [.implementation]) (i :: q)) = mainPaths root := mainPaths_eq _ _ hs2
  have hgo : addSetupCode root = placeInitialization (root1.change (addAfters [.implementation]) (i :: q)) := by
    simp only [addSetupCode, prependSetup, hp', hr1, appendSetup, hq1, addAfter_eq, bind, Res.bind]
  rw [hgo, placeInitialization, hr1]
  cases hm : mainPaths root with
  | nil =>
    have hno : root.hasMain = false := (mainPaths_nil root).mp hm
    refine ⟨_, hp, hq, by rw [hm2, hm], fun holds => ?_⟩
    have hno2 : (root1.change (addAfters [.implementation]) (i :: q)).hasMain = false :=
      (mainPaths_nil _).mp (by rw [hm2, hm])
    rw [← hmain, hno, appendedPieces, if_neg (by simp), ← compiled_mark, mark_none _ hno2]
  | cons m ms =>
    have hyes : root.hasMain = true := by
      cases hh : root.hasMain with
      | true => rfl
      | false => rw [(mainPaths_nil root).mpr hh] at hm; simp at hm
    have hf := foldl_mark (root1.change (addAfters [.implementation]) (i :: q))
    rw [hm2, hm] at hf
    have hq2 : lastTarget 0 (markMains (root1.change (addAfters [.implementation]) (i :: q))).children
        = some (i :: q) := by
      rw [lastTarget_eq _ root ((shape_mark _).trans hs2), hch, hq]
    refine ⟨(markMains (root1.change (addAfters [.implementation]) (i :: q))).change (addAfters [.initialization])
      (i :: q), hp, hq, ?_, fun holds => ?_⟩
    · rw [hm2, hm]
      simp only [hf, appendSetup, hq2, addAfter_eq]
    · rw [← mark_addAfters, compiled_mark, change_change _ _ (fun _ => rfl) (fun _ => rfl), addAfters_comp, ← hmain,
        hyes]
      rfl

end TraceDB
