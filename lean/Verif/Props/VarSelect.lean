import Verif.Proofs.VarSelect
import Verif.Props.GenText
/-
C76: which variables are recorded.
-/
namespace TraceDB

theorem varInstrumentP_iff (root : DeclTree) (name : Name) (decl : VarDecl) (scope : List Nat)
    (hp : scope <+: decl.path) (hs : ∃ t, root.nodeAt scope = some t) :
    varInstrumentP root name decl scope = true ↔
      (CIdent name ∨ ∃ s, CIdent s ∧ name = s ++ [10]) ∧ ¬ ascii "__attribute" <+: name ∧
      (decl.cls = .variable ∨ decl.cls = .declaration) ∧
      ¬ (Between root scope decl.path .functionDeclarator ∧ Between root scope decl.path .parameterList) := by
  have hne : identifierRegex name = true → name.isEmpty = false := by cases name <;> simp [identifierRegex]
  have hpre : ascii "__attribute" = attributePrefix := by decide +kernel
  rw [← identifierRegex_iff, ← functionPointerParameter_iff root scope decl.path hp hs, hpre]
  simp only [varInstrumentP, Bool.and_eq_true, Bool.not_eq_true', Bool.not_eq_true]
  have hi : attributePrefix.isPrefixOf name = false ↔ ¬ attributePrefix <+: name := by
    rw [← Bool.not_eq_true, List.isPrefixOf_iff_prefix]
  rw [hi]
  constructor
  · rintro ⟨⟨⟨⟨⟨_, h1⟩, h2⟩, h3⟩, h4⟩, h5⟩
    refine ⟨h1, h4, ?_, h5⟩
    cases h : decl.cls <;> simp [h] at h2 h3 ⊢
  · rintro ⟨h1, h4, h2, h5⟩
    refine ⟨⟨⟨⟨⟨hne h1, h1⟩, ?_⟩, ?_⟩, h4⟩, h5⟩
    · rcases h2 with h | h <;> simp [h]
    · rcases h2 with h | h <;> simp [h]

theorem varToRecord_iff (root : DeclTree) (e : VarInScope) (hp : e.placed root) (v : ScopeVar) :
    varToRecord root e = some v ↔ VarRecorded root e v := by
  obtain ⟨n, d, sc⟩ := e
  cases n with
  | none => simp [varToRecord, VarRecorded]
  | some name =>
  cases d with
  | none => simp [varToRecord, VarRecorded]
  | some decl =>
  cases sc with
  | none => simp [varToRecord, VarRecorded]
  | some scope =>
  obtain ⟨h1, h2⟩ := hp decl scope rfl rfl
  have hv := varInstrumentP_iff root name decl scope h1 h2
  simp only [varToRecord, VarRecorded, Option.some.injEq, exists_and_left, exists_eq_left']
  constructor
  · intro h
    split at h
    · rename_i hvp
      obtain ⟨a1, a2, a3, a4⟩ := hv.mp hvp
      split at h
      · cases h
      · rename_i type mark hc
        cases h
        refine ⟨rfl, a1, a2, ?_, a4⟩
        rcases a3 with a3 | a3
        · simp only [canonicalizedType, a3, Option.some.injEq] at hc
          exact .inl ⟨a3, hc⟩
        · simp only [canonicalizedType, a3, Option.map_eq_some_iff] at hc
          obtain ⟨x, hx, hx'⟩ := hc
          obtain ⟨hb, l, r, hl, hn⟩ := List.find?_eq_some_iff_append.mp hx
          refine .inr ⟨a3, l, r, ?_, fun y hy => by simpa using hn y hy⟩
          rw [hl, show x = (name, type, mark) from Prod.ext (by simpa using hb) hx']
    · cases h
  · rintro ⟨rfl, a1, a2, a3, a4⟩
    have hvp : varInstrumentP root v.name decl scope = true := hv.mpr ⟨a1, a2, by rcases a3 with a | a <;> simp [a.1], a4⟩
    rw [if_pos hvp]
    have hc : canonicalizedType decl v.name = some (v.type, v.mark) := by
      rcases a3 with ⟨a3, a5⟩ | ⟨a3, l, r, a5, a6⟩
      · simp [canonicalizedType, a3, a5]
      · have : decl.declarators.find? (fun x => x.1 == v.name) = some (v.name, v.type, v.mark) :=
          List.find?_eq_some_iff_append.mpr ⟨by simp, l, r, a5, fun y hy => by simpa using a6 y hy⟩
        simp [canonicalizedType, a3, this]
    rw [hc]

/-- C76 (recorded): the calls at a statement are made for exactly these variables in scope, in
their order: those declared as variables, not as enumerators, with identifiers as names (one
newline at the end is overlooked) that do not start with `__attribute`, whose declaration is not
inside the parameter list of a function declarator below the child of their scope.  Their type
is that of the first declarator with their name in a declaration, and that of the declaring AST
otherwise; without such a declarator nothing is recorded. -/
theorem C76_recorded (root : DeclTree) (es : List VarInScope) (hp : ∀ e ∈ es, e.placed root) :
    ∃ rs : List (Option ScopeVar), AllRel (fun e r => ∀ v, r = some v ↔ VarRecorded root e v) es rs ∧
      ∀ te ps s, varInstrument te root ps es s = instrumentExprs te ps (rs.filterMap id) s := by
  refine ⟨es.map (varToRecord root), ?_, fun te ps s => ?_⟩
  · induction es with
    | nil => exact .nil
    | cons e es ih =>
      exact .cons (fun v => varToRecord_iff root e (hp e List.mem_cons_self) v)
        (ih fun x hx => hp x (List.mem_cons_of_mem _ hx))
  · simp [varInstrument, varsToRecord, List.filterMap_map]

/-- C76 (calls): whatever the names in scope are - macros, operators, names with templates,
attributes - the text of each call that is generated reads as the call it should be.  Only newlines
at the ends of names are left out. -/
theorem C76_calls (te : TableTests) (root : DeclTree) (ps : Bool) (es : List VarInScope) (s : Tables)
    (hn : ∀ e ∈ es, ∀ n, e.name = some n → n.getLast? ≠ some 10) :
    ∀ c ∈ (varInstrument te root ps es s).1, (cTokens (c.text ps)).bind takeCall = some c.read := by
  refine C69_calls te ps _ s fun v hv => ?_
  simp only [varsToRecord, List.mem_filterMap] at hv
  obtain ⟨e, he, h⟩ := hv
  obtain ⟨n, d, sc⟩ := e
  have hn' := hn _ he
  cases n with
  | none => simp [varToRecord] at h
  | some name =>
  cases d with
  | none => simp [varToRecord] at h
  | some decl =>
  cases sc with
  | none => simp [varToRecord] at h
  | some scope =>
  simp only [varToRecord] at h
  split at h
  · rename_i hvp
    split at h
    · cases h
    · cases h
      simp only [varInstrumentP, Bool.and_eq_true] at hvp
      rcases (identifierRegex_iff name).mp hvp.1.1.1.1.2 with h | ⟨t, _, rfl⟩
      · exact h
      · exact absurd (by simp) (hn' _ rfl)
  · cases h

/-- The test for a declaration below a child of the scope. -/
theorem fpp_below (root t c : DeclTree) (f : List Nat) (k : Nat) (hf : root.nodeAt f = some t)
    (hc : t.children[k]? = some c) (j : Nat) (r : List Nat) (x : DeclTree) (hx : c.children[j]? = some x) :
    functionPointerParameter root f (f ++ k :: j :: r) = true ↔
      ∀ a : DeclClass, a ≠ .other → ∃ r0 t', r0 <+: r ∧ x.nodeAt r0 = some t' ∧ t'.cls = a := by
  have h := (looked_at root f t hf).2 k (j :: r)
  rw [hc] at h
  simp only [parentAsts_dropLast, hx] at h
  have e : functionPointerParameter root f (f ++ k :: j :: r) =
      (onWay .functionDeclarator (parentAsts (f ++ [k] ++ [j]) x r) && onWay .parameterList (parentAsts (f ++ [k] ++ [j]) x r)) := by
    simp only [functionPointerParameter, h, onWay]
  rw [e, Bool.and_eq_true, onWay_iff, onWay_iff]
  constructor
  · rintro ⟨h1, h2⟩ a ha
    cases a with
    | functionDeclarator => exact h1
    | parameterList => exact h2
    | other => exact absurd rfl ha
  · exact fun h => ⟨h _ (by simp), h _ (by simp)⟩

/-- Which parameters in a function head are taken. -/
theorem fpp_head (root type body : DeclTree) (f : List Nat) (d : CDeclr)
    (hf : root.nodeAt f = some (functionTree type d body)) (p : List Nat) (hp : p ∈ d.params) :
    functionPointerParameter root f (f ++ 1 :: p) = false ↔ ∃ d' ps i, d = .func d' ps ∧ p = [1, i] := by
  have hc : (functionTree type d body).children[1]? = some d.tree := rfl
  cases d with
  | name => simp [CDeclr.params] at hp
  | wrap d =>
    simp only [CDeclr.params, List.mem_map] at hp
    obtain ⟨q, hq, rfl⟩ := hp
    have h := (fpp_below root _ _ f 1 hf hc 0 q d.tree (by simp [CDeclr.tree, DeclTree.children])).mpr
      fun a ha => params_classes d q hq a ha
    simp [h]
  | func d ps =>
    simp only [CDeclr.params, List.mem_append, List.mem_map] at hp
    rcases hp with ⟨q, hq, rfl⟩ | ⟨q, hq, rfl⟩
    · have h := (fpp_below root _ _ f 1 hf hc 0 q d.tree (by simp [CDeclr.tree, DeclTree.children])).mpr
        fun a ha => params_classes d q hq a ha
      simp [h]
    · have hb := fpp_below root _ _ f 1 hf hc 1 q (.mk .parameterList (paramTrees ps)) (by simp [CDeclr.tree, DeclTree.children])
      obtain ⟨i, x, hi, rfl | ⟨r, hr, rfl⟩⟩ := (mem_paramsEach ps 0 q).mp hq
      · simp only [Nat.zero_add]
        refine ⟨fun _ => ⟨d, ps, i, rfl, rfl⟩, fun _ => ?_⟩
        simp only [Nat.zero_add] at hb
        rw [← Bool.not_eq_true, hb]
        intro h
        obtain ⟨r0, t', h1, h2, h3⟩ := h .functionDeclarator (by simp)
        cases r0 with
        | nil =>
          simp only [DeclTree.nodeAt, Option.some.injEq] at h2
          subst h2
          simp [DeclTree.cls] at h3
        | cons j r0 =>
          rw [List.cons_prefix_cons, List.prefix_nil] at h1
          obtain ⟨rfl, rfl⟩ := h1
          simp only [DeclTree.nodeAt, DeclTree.children, paramTrees_getElem?, hi, Option.map_some, Option.bind_some,
            Option.some.injEq] at h2
          subst h2
          simp [DeclTree.cls] at h3
      · simp only [Nat.zero_add] at hb ⊢
        have h := hb.mpr fun a ha => by
          obtain ⟨r0, t', h1, h2, h3⟩ := params_classes x r hr a ha
          refine ⟨i :: 0 :: r0, t', ?_, ?_, h3⟩
          · rw [List.cons_prefix_cons, List.cons_prefix_cons]; exact ⟨rfl, rfl, h1⟩
          · simpa [DeclTree.nodeAt, DeclTree.children, paramTrees_getElem?, hi] using h2
        simp [h]

theorem own_none_params (d : CDeclr) (h : d.own = none) : d.params = [] := by
  induction d using CDeclr.own.induct with
  | case1 => simp [CDeclr.params]
  | case2 d ih =>
    simp only [CDeclr.own, Option.map_eq_none_iff] at h
    simp [CDeclr.params, ih h]
  | case3 d ps l hl ih => simp [CDeclr.own, hl] at h
  | case4 d ps hl ih => simp [CDeclr.own, hl] at h

theorem mem_own_range (ps : List CDeclr) (i : Nat) : [1, i] ∈ (List.range ps.length).map (fun i => [1, i]) ↔ i < ps.length := by
  simp

theorem own_params (d : CDeclr) : ∀ own, d.own = some own → ∀ p ∈ own, p ∈ d.params := by
  induction d using CDeclr.own.induct with
  | case1 => simp [CDeclr.own]
  | case2 d ih =>
    intro own h p hp
    simp only [CDeclr.own, Option.map_eq_some_iff] at h
    obtain ⟨l, hl, rfl⟩ := h
    obtain ⟨q, hq, rfl⟩ := List.mem_map.mp hp
    simp only [CDeclr.params, List.mem_map]
    exact ⟨q, ih l hl q hq, rfl⟩
  | case3 d ps l hl ih =>
    intro own h p hp
    simp only [CDeclr.own, hl, Option.some.injEq] at h
    subst h
    obtain ⟨q, hq, rfl⟩ := List.mem_map.mp hp
    simp only [CDeclr.params, List.mem_append, List.mem_map]
    exact .inl ⟨q, ih l hl q hq, rfl⟩
  | case4 d ps hl ih =>
    intro own h p hp
    simp only [CDeclr.own, hl, Option.some.injEq] at h
    subst h
    simp only [List.mem_map, List.mem_range] at hp
    obtain ⟨i, hi, rfl⟩ := hp
    simp only [CDeclr.params, List.mem_append, List.mem_map]
    exact .inr ⟨[i], (mem_paramsEach ps 0 [i]).mpr ⟨i, ps[i], by simp [hi], .inl (by simp)⟩, rfl⟩

/-- C76 (parameters): of all parameters that are declared in the head of a function whose
result is no pointer - its own, those of functions that they point to, and so on - exactly its own
count as variables of the function. -/
theorem C76_parameters (root type body : DeclTree) (f : List Nat) (d : CDeclr) (ps : List CDeclr) (hd : d.own = none)
    (hf : root.nodeAt f = some (functionTree type (.func d ps) body)) :
    ∃ own, (CDeclr.func d ps).own = some own ∧ own.length = ps.length ∧
      (∀ p ∈ own, p ∈ (CDeclr.func d ps).params) ∧
      ∀ p ∈ (CDeclr.func d ps).params, functionPointerParameter root f (f ++ 1 :: p) = false ↔ p ∈ own := by
  have ho : (CDeclr.func d ps).own = some ((List.range ps.length).map fun i => [1, i]) := by simp [CDeclr.own, hd]
  refine ⟨_, ho, by simp, own_params _ _ ho, fun p hp => ?_⟩
  rw [fpp_head root type body f _ hf p hp]
  constructor
  · rintro ⟨d', ps', i, e, rfl⟩
    simp only [CDeclr.params, own_none_params d hd, List.map_nil, List.nil_append, List.mem_map, List.cons.injEq,
      true_and, exists_eq_right] at hp
    obtain ⟨j, x, hj, h | ⟨r, _, h⟩⟩ := (mem_paramsEach ps 0 [i]).mp hp
    · simp only [Nat.zero_add, List.cons.injEq, and_true] at h
      subst h
      rw [mem_own_range]
      exact (List.getElem?_eq_some_iff.mp hj).1
    · simp at h
  · intro h
    simp only [List.mem_map, List.mem_range] at h
    obtain ⟨i, _, rfl⟩ := h
    exact ⟨d, ps, i, rfl, rfl⟩

/-- C76 (pointer results): of a function that returns a pointer, no parameter is ever recorded;
of one that returns a pointer to a function, those of that function are taken in place of its
own. -/
theorem C76_pointer_results (root type body : DeclTree) (f : List Nat) (d : CDeclr) (own : List (List Nat))
    (ho : d.own = some own) :
    (root.nodeAt f = some (functionTree type (.wrap d) body) →
      (CDeclr.wrap d).own = some (own.map (0 :: ·)) ∧
      ∀ p ∈ (CDeclr.wrap d).params, functionPointerParameter root f (f ++ 1 :: p) = true) ∧
    (∀ ps, root.nodeAt f = some (functionTree type (.func d ps) body) →
      (CDeclr.func d ps).own = some (own.map (0 :: ·)) ∧
      (∀ p ∈ own.map (0 :: ·), functionPointerParameter root f (f ++ 1 :: p) = true) ∧
      ∀ i, i < ps.length → functionPointerParameter root f (f ++ [1, 1, i]) = false) := by
  refine ⟨fun hf => ⟨by simp [CDeclr.own, ho], fun p hp => ?_⟩, fun ps hf => ⟨by simp [CDeclr.own, ho], fun p hp => ?_, fun i hi => ?_⟩⟩
  · rw [← Bool.not_eq_false, fpp_head root type body f _ hf p hp]
    rintro ⟨_, _, _, h, _⟩
    cases h
  · have hp' := own_params (.func d ps) _ (by simp [CDeclr.own, ho]) p hp
    rw [← Bool.not_eq_false, fpp_head root type body f _ hf p hp']
    rintro ⟨_, _, i, _, rfl⟩
    simp at hp
  · refine (fpp_head root type body f _ hf [1, i] ?_).mpr ⟨d, ps, i, rfl, rfl⟩
    simp only [CDeclr.params, List.mem_append, List.mem_map]
    exact .inr ⟨[i], (mem_paramsEach ps 0 [i]).mpr ⟨i, ps[i], by simp [hi], .inl (by simp)⟩, rfl⟩

/-- C76 (prototypes): no parameter in a declaration of a function, or of a variable that points
to one, is taken for a variable of the scope with the declaration. -/
theorem C76_prototypes (root t type : DeclTree) (scope : List Nat) (i : Nat) (d : CDeclr)
    (hs : root.nodeAt scope = some t) (hi : t.children[i]? = some (declarationTree type d)) :
    ∀ p ∈ d.params, functionPointerParameter root scope (scope ++ i :: 1 :: p) = true := fun p hp =>
  (fpp_below root t _ scope i hs hi 1 p d.tree (by simp [declarationTree, DeclTree.children])).mpr
    fun a ha => params_classes d p hp a ha

/-- C76 (enclosing): the statement around an AST that is found is the innermost one that
`instrument` would record, if there is one. -/
theorem C76_enclosing (root : Ast) (path : AstPath) :
    let traced := fun q => ∃ s ∈ tracedSites (fun _ => true) root, s.1.path = q
    match enclosingTraceable root path.length path with
    | some q => q <+: path ∧ traced q ∧ ∀ q', q' <+: path → traced q' → q' <+: q
    | none => ∀ q', q' <+: path → ¬ traced q' := by
  obtain ⟨h1, h2⟩ := enclosing_spec root path.length path (Nat.le_refl _)
  simp only [← tracedAt_iff]
  cases h : enclosingTraceable root path.length path with
  | some q =>
    obtain ⟨a, b, c⟩ := h1 q h
    refine ⟨a, b, fun q' hq' ht => ?_⟩
    rcases Nat.lt_or_ge q.length q'.length with hl | hl
    · rw [c q' hq' hl] at ht; simp at ht
    · exact List.prefix_of_prefix_length_le hq' a hl
  | none =>
    intro q' hq' ht
    rw [h2 h q' hq'] at ht
    simp at ht

/-! ### Examples -/

/-- `int f(int x, int (*cb)(int y)) { int a, *b; ... }` as the second AST of a file; declarations are
the first ASTs of the body. -/
def exHead : CDeclr := .func .name [.name, .func (.wrap (.wrap .name)) [.name]]

def exFunction : DeclTree :=
  .mk .other [.mk .other [], functionTree (.mk .other []) exHead (.mk .other [.mk .other []])]

def exInt : CType := insX.type
def exString : CType := insS.type

/-- Its variables: `x`, `cb`, `y`, `a`, `b`, one that the declaration does not declare, one that has
no identifier, an attribute, an enumerator. -/
def exScope : List VarInScope :=
  let decl : VarDecl := ⟨[1, 2, 0], .declaration, [(ascii "a", exInt, 0), (ascii "b", exString, 1)], (exInt, 0)⟩
  [⟨some (ascii "x"), some ⟨[1, 1, 1, 0], .variable, [], (exInt, 0)⟩, some [1]⟩,
   ⟨some (ascii "cb"), some ⟨[1, 1, 1, 1], .variable, [], (exInt, 0)⟩, some [1]⟩,
   ⟨some (ascii "y"), some ⟨[1, 1, 1, 1, 0, 1, 0], .variable, [], (exInt, 0)⟩, some [1]⟩,
   ⟨some (ascii "a"), some decl, some [1, 2]⟩, ⟨some (ascii "b"), some decl, some [1, 2]⟩,
   ⟨some (ascii "c"), some decl, some [1, 2]⟩, ⟨some (ascii "operator+"), some decl, some [1, 2]⟩,
   ⟨some (ascii "__attribute__"), some decl, some [1, 2]⟩,
   ⟨some (ascii "RED"), some ⟨[0], .enumerator, [], (exInt, 0)⟩, some []⟩]

/-- The hypotheses of `C76_recorded` and `C76_calls`, and what is recorded. -/
example : (∀ e ∈ exScope, e.placed exFunction) ∧ (∀ e ∈ exScope, ∀ n, e.name = some n → n.getLast? ≠ some 10) ∧
    varsToRecord exFunction exScope = [⟨ascii "x", exInt, 0⟩, ⟨ascii "cb", exInt, 0⟩, ⟨ascii "a", exInt, 0⟩,
      ⟨ascii "b", exString, 1⟩] := by
  refine ⟨fun e he decl scope h1 h2 => ?_, ?_, by decide +kernel⟩
  · have h : ∀ e ∈ exScope, ∀ decl ∈ e.decl, ∀ scope ∈ e.scope,
        scope.isPrefixOf decl.path = true ∧ (exFunction.nodeAt scope).isSome = true := by decide +kernel
    obtain ⟨a, b⟩ := h e he decl h1 scope h2
    exact ⟨List.isPrefixOf_iff_prefix.mp a, Option.isSome_iff_exists.mp b⟩
  · have h : ∀ e ∈ exScope, ∀ n ∈ e.name, n.getLast? ≠ some 10 := by decide +kernel
    exact fun e he n hn => h e he n hn

/-- A name with a newline at the end. -/
example : identifierRegex (ascii "x" ++ [10]) = true ∧ identifierRegex ([10] ++ ascii "x") = false ∧
    identifierRegex (ascii "x" ++ [10, 10]) = false ∧ identifierRegex (ascii "1x") = false := by decide +kernel

/-- The hypotheses of `C76_parameters`; the parameters are the two own ones and the nested one. -/
example : CDeclr.own .name = none ∧ exFunction.nodeAt [1] = some (functionTree (.mk .other []) exHead (.mk .other [.mk .other []])) ∧
    exHead.own = some [[1, 0], [1, 1]] ∧ exHead.params = [[1, 0], [1, 1], [1, 1, 0, 1, 0]] := by
  exact ⟨rfl, rfl, by decide +kernel, by decide +kernel⟩

/-- `char *g(int x) { ... }`: `x` is not recorded. -/
example :
    let root : DeclTree := .mk .other [functionTree (.mk .other []) (.wrap (.func .name [.name])) (.mk .other [])]
    (CDeclr.func .name [.name]).own = some [[1, 0]] ∧
    root.nodeAt [0] = some (functionTree (.mk .other []) (.wrap (.func .name [.name])) (.mk .other [])) ∧
    (CDeclr.wrap (.func .name [.name])).params = [[0, 1, 0]] ∧
    varsToRecord root [⟨some (ascii "x"), some ⟨[0, 1, 0, 1, 0], .variable, [], (exInt, 0)⟩, some [0]⟩] = [] := by
  exact ⟨rfl, rfl, by decide +kernel, by decide +kernel⟩

/-- `void (*h(int a))(int b)`: `b` is taken, `a` is not. -/
example :
    let d : CDeclr := .func (.wrap (.wrap (.func .name [.name]))) [.name]
    let root : DeclTree := .mk .other [functionTree (.mk .other []) d (.mk .other [])]
    d.own = some [[0, 0, 0, 1, 0]] ∧ d.params = [[0, 0, 0, 1, 0], [1, 0]] ∧
    functionPointerParameter root [0] [0, 1, 0, 0, 0, 1, 0] = true ∧
    functionPointerParameter root [0] [0, 1, 1, 0] = false := by
  exact ⟨by decide +kernel, by decide +kernel, by decide +kernel, by decide +kernel⟩

/-- `int f(int x);` in a file. -/
example :
    let root : DeclTree := .mk .other [declarationTree (.mk .other []) (.func .name [.name])]
    root.nodeAt [] = some root ∧ root.children[0]? = some (declarationTree (.mk .other []) (.func .name [.name])) ∧
    (CDeclr.func .name [.name]).params = [[1, 0]] := by
  exact ⟨rfl, rfl, by decide +kernel⟩

/-- The condition of a loop in a function body belongs to the loop, the body of the function to no
statement. -/
example :
    let body : Ast := .mk .block [] [] [] [.mk (.whileLoop 1) [] [] [] [.mk .expr [] [] [] [], .mk (.simple 2) [] [] [] []]]
    enclosingTraceable body 2 [0, 0] = some [0] ∧ enclosingTraceable body 2 [0, 1] = some [0, 1] ∧
    enclosingTraceable body 0 [] = none := by
  decide +kernel

end TraceDB
