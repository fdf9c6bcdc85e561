import Verif.Spec.VarSelect
import Verif.Proofs.StatementEdits
/-
Helper lemmas for C76.
-/
namespace TraceDB

theorem regexLetter_eq (c : U8) : regexLetter c = cLetter c := by
  revert c; decide +kernel

theorem regexWord_eq (c : U8) : regexWord c = (cLetter c || cDigit c) := by
  revert c; decide +kernel

theorem regexTail_iff (s : List U8) :
    regexTail s = true ↔ (∀ d ∈ s, (cLetter d || cDigit d) = true) ∨
      ∃ t, s = t ++ [10] ∧ ∀ d ∈ t, (cLetter d || cDigit d) = true := by
  induction s with
  | nil => simp [regexTail]
  | cons c cs ih =>
    simp only [regexTail, Bool.or_eq_true, Bool.and_eq_true, beq_iff_eq, List.isEmpty_iff, regexWord_eq, ih]
    constructor
    · rintro (⟨rfl, rfl⟩ | ⟨h, h1 | ⟨t, rfl, h1⟩⟩)
      · exact .inr ⟨[], rfl, by simp⟩
      · exact .inl (by simpa using ⟨h, by simpa using h1⟩)
      · exact .inr ⟨c :: t, rfl, by simpa using ⟨h, by simpa using h1⟩⟩
    · rintro (h | ⟨t, e, h⟩)
      · exact .inr ⟨by simpa using h c List.mem_cons_self, .inl fun d hd => by simpa using h d (List.mem_cons_of_mem _ hd)⟩
      · cases t with
        | nil => simp only [List.nil_append, List.cons.injEq] at e; exact .inl e
        | cons x t =>
          simp only [List.cons_append, List.cons.injEq] at e
          obtain ⟨rfl, rfl⟩ := e
          exact .inr ⟨by simpa using h c List.mem_cons_self, .inr ⟨t, rfl, fun d hd => by simpa using h d (List.mem_cons_of_mem _ hd)⟩⟩

theorem identifierRegex_iff (s : List U8) :
    identifierRegex s = true ↔ CIdent s ∨ ∃ t, CIdent t ∧ s = t ++ [10] := by
  cases s with
  | nil =>
    simp only [identifierRegex, Bool.false_eq_true, false_iff, not_or]
    refine ⟨?_, ?_⟩
    · rintro ⟨c, cs, h, _⟩; cases h
    · rintro ⟨t, _, h⟩; simp at h
  | cons c cs =>
    simp only [identifierRegex, Bool.and_eq_true, regexLetter_eq, regexTail_iff]
    constructor
    · rintro ⟨h, h1 | ⟨t, rfl, h1⟩⟩
      · exact .inl ⟨c, cs, rfl, h, h1⟩
      · exact .inr ⟨c :: t, ⟨c, t, rfl, h, h1⟩, rfl⟩
    · rintro (⟨c', cs', e, h, h1⟩ | ⟨t, ⟨c', t', rfl, h, h1⟩, e⟩)
      · cases e; exact ⟨h, .inl h1⟩
      · simp only [List.cons_append, List.cons.injEq] at e
        obtain ⟨rfl, rfl⟩ := e
        exact ⟨h, .inr ⟨t', rfl, h1⟩⟩

/-! ### Parents -/

theorem mem_parentAsts (x : List Nat × DeclClass) : ∀ (r a : List Nat) (t : DeclTree),
    x ∈ parentAsts a t r ↔ ∃ r0 t', r0 <+: r ∧ x.1 = a ++ r0 ∧ t.nodeAt r0 = some t' ∧ t'.cls = x.2
  | [], a, t => by
    simp only [parentAsts, List.mem_singleton, List.prefix_nil]
    constructor
    · rintro rfl; exact ⟨[], t, rfl, by simp, rfl, rfl⟩
    · rintro ⟨r0, t', rfl, h1, h2, h3⟩
      simp only [DeclTree.nodeAt, Option.some.injEq] at h2
      subst h2
      exact Prod.ext (by simpa using h1) h3.symm
  | i :: r, a, t => by
    have top : (x = (a, t.cls)) ↔ ∃ t', x.1 = a ++ [] ∧ t.nodeAt [] = some t' ∧ t'.cls = x.2 := by
      simp only [DeclTree.nodeAt, Option.some.injEq, List.append_nil]
      constructor
      · rintro rfl; exact ⟨t, rfl, rfl, rfl⟩
      · rintro ⟨t', h1, rfl, h3⟩; exact Prod.ext h1 h3.symm
    have split : (∃ r0 t', r0 <+: i :: r ∧ x.1 = a ++ r0 ∧ t.nodeAt r0 = some t' ∧ t'.cls = x.2) ↔
        (∃ t', x.1 = a ++ [] ∧ t.nodeAt [] = some t' ∧ t'.cls = x.2) ∨
        ∃ r0 t', r0 <+: r ∧ x.1 = a ++ i :: r0 ∧ t.nodeAt (i :: r0) = some t' ∧ t'.cls = x.2 := by
      constructor
      · rintro ⟨r0, t', h, h1, h2, h3⟩
        cases r0 with
        | nil => exact .inl ⟨t', h1, h2, h3⟩
        | cons j r0 =>
          rw [List.cons_prefix_cons] at h
          obtain ⟨rfl, h⟩ := h
          exact .inr ⟨r0, t', h, h1, h2, h3⟩
      · rintro (⟨t', h⟩ | ⟨r0, t', h, h1⟩)
        · exact ⟨[], t', List.nil_prefix, h⟩
        · exact ⟨i :: r0, t', by rw [List.cons_prefix_cons]; exact ⟨rfl, h⟩, h1⟩
    rw [split, ← top]
    simp only [parentAsts]
    cases hc : t.children[i]? with
    | none =>
      simp only [List.mem_singleton]
      constructor
      · exact .inl
      · rintro (h | ⟨r0, t', _, _, h, _⟩)
        · exact h
        · simp [DeclTree.nodeAt, hc] at h
    | some c =>
      simp only [List.mem_append, List.mem_singleton, mem_parentAsts x r (a ++ [i]) c]
      constructor
      · rintro (⟨r0, t', h, h1, h2, h3⟩ | h)
        · exact .inr ⟨r0, t', h, by simpa using h1, by simpa [DeclTree.nodeAt, hc] using h2, h3⟩
        · exact .inl h
      · rintro (h | ⟨r0, t', h, h1, h2, h3⟩)
        · exact .inr h
        · exact .inl ⟨r0, t', h, by simpa using h1, by simpa [DeclTree.nodeAt, hc] using h2, h3⟩

theorem takeUntil_append_stop {α : Type} {f : α → Bool} {l : List α} (h : ∀ x ∈ l, f x = false) (y : α) (hy : f y = true)
    (r : List α) : takeUntil f (l ++ y :: r) = l := by
  induction l with
  | nil => simp [takeUntil, hy]
  | cons x l ih =>
    simp only [List.cons_append, takeUntil, h x List.mem_cons_self, Bool.false_eq_true, if_false]
    rw [ih fun z hz => h z (List.mem_cons_of_mem _ hz)]

/-- The parents above an AST come after it. -/
theorem parentAsts_append : ∀ (q a r : List Nat) (root t : DeclTree), root.nodeAt q = some t →
    ∃ rest, parentAsts a root (q ++ r) = parentAsts (a ++ q) t r ++ rest
  | [], a, r, root, t, h => by
    simp only [DeclTree.nodeAt, Option.some.injEq] at h
    subst h
    exact ⟨[], by simp⟩
  | i :: q, a, r, root, t, h => by
    simp only [DeclTree.nodeAt] at h
    cases hc : root.children[i]? with
    | none => rw [hc] at h; simp at h
    | some c =>
      rw [hc] at h
      obtain ⟨rest, e⟩ := parentAsts_append q (a ++ [i]) r c t h
      refine ⟨rest ++ [(a, root.cls)], ?_⟩
      simp only [List.cons_append, parentAsts, hc, e, List.append_assoc]
      simp

/-- What is looked at: everything below the child of the scope. -/
theorem looked_at (root : DeclTree) (q : List Nat) (t : DeclTree) (hq : root.nodeAt q = some t) :
    ((takeUntil (fun x => x.1 == q) (parentAsts [] root q)).dropLast = []) ∧
    ∀ i r, (takeUntil (fun x => x.1 == q) (parentAsts [] root (q ++ i :: r))).dropLast =
      match t.children[i]? with
      | none => []
      | some c => (parentAsts (q ++ [i]) c r).dropLast := by
  refine ⟨?_, fun i r => ?_⟩
  · obtain ⟨rest, e⟩ := parentAsts_append q [] [] root t hq
    simp only [List.append_nil, List.nil_append] at e
    rw [e]
    simp [parentAsts, takeUntil]
  · obtain ⟨rest, e⟩ := parentAsts_append q [] (i :: r) root t hq
    simp only [List.nil_append] at e
    rw [e]
    simp only [parentAsts]
    cases hc : t.children[i]? with
    | none => simp [takeUntil]
    | some c =>
      simp only [List.append_assoc, List.singleton_append]
      rw [takeUntil_append_stop _ _ (by simp)]
      intro x hx
      obtain ⟨r0, _, _, h, _⟩ := (mem_parentAsts x r (q ++ [i]) c).mp hx
      have : x.1.length ≠ q.length := by rw [h]; simp
      simp only [beq_eq_false_iff_ne]
      intro e; exact this (by rw [e])

theorem parentAsts_dropLast (a : List Nat) (t : DeclTree) (r : List Nat) :
    (parentAsts a t r).dropLast =
      match r with
      | [] => []
      | j :: r' =>
        match t.children[j]? with
        | none => []
        | some c => parentAsts (a ++ [j]) c r' := by
  cases r with
  | nil => simp [parentAsts]
  | cons j r' =>
    simp only [parentAsts]
    cases t.children[j]? <;> simp

/-- Is an AST of a class among those on a way? -/
def onWay (c : DeclClass) (l : List (List Nat × DeclClass)) : Bool := l.any fun x => x.2 == c

theorem onWay_iff (c : DeclClass) (a : List Nat) (t : DeclTree) (r : List Nat) :
    onWay c (parentAsts a t r) = true ↔ ∃ r0 t', r0 <+: r ∧ t.nodeAt r0 = some t' ∧ t'.cls = c := by
  simp only [onWay, List.any_eq_true, beq_iff_eq]
  constructor
  · rintro ⟨x, hx, rfl⟩
    obtain ⟨r0, t', h, _, h2, h3⟩ := (mem_parentAsts x r a t).mp hx
    exact ⟨r0, t', h, h2, h3⟩
  · rintro ⟨r0, t', h, h2, h3⟩
    exact ⟨(a ++ r0, c), (mem_parentAsts _ r a t).mpr ⟨r0, t', h, rfl, h2, h3⟩, rfl⟩

theorem nodeAt_append (p q : List Nat) : ∀ (t : DeclTree), t.nodeAt (p ++ q) = (t.nodeAt p).bind fun c => c.nodeAt q := by
  induction p with
  | nil => intro t; simp [DeclTree.nodeAt]
  | cons i p ih =>
    intro t
    simp only [List.cons_append, DeclTree.nodeAt]
    cases t.children[i]? with
    | none => rfl
    | some c => simp [ih]

/-- The test is what it should be. -/
theorem onWay_between (root : DeclTree) (scope decl : List Nat) (c : DeclClass) (hp : scope <+: decl)
    (hs : ∃ t, root.nodeAt scope = some t) :
    onWay c (takeUntil (fun x => x.1 == scope) (parentAsts [] root decl)).dropLast = true ↔ Between root scope decl c := by
  obtain ⟨t, ht⟩ := hs
  obtain ⟨r, rfl⟩ := hp
  obtain ⟨h1, h2⟩ := looked_at root scope t ht
  have long : ∀ p : List Nat, p <+: scope ++ r → scope.length + 1 < p.length →
      ∃ i j r0, r0 ++ [] = r0 ∧ p = scope ++ i :: j :: r0 ∧ (i :: j :: r0) <+: r := by
    intro p hp hl
    obtain ⟨s, hs⟩ := hp
    rcases List.append_eq_append_iff.mp hs with ⟨as, ha, hb⟩ | ⟨bs, ha, hb⟩
    · have : p.length ≤ scope.length := by rw [ha]; simp
      omega
    · rw [ha] at hl
      simp only [List.length_append] at hl
      match bs, hl with
      | i :: j :: r0, _ => exact ⟨i, j, r0, by simp, ha, ⟨s, hb.symm⟩⟩
      | [_], hl => simp at hl
      | [], hl => simp at hl; omega
  cases r with
  | nil =>
    rw [List.append_nil, h1]
    simp only [onWay, List.any_nil, Bool.false_eq_true, false_iff]
    rintro ⟨p, _, hp, hl, _⟩
    have := hp.length_le
    omega
  | cons i r =>
    rw [h2]
    have key : Between root scope (scope ++ i :: r) c ↔
        ∃ j r0 t', (j :: r0) <+: r ∧ t.nodeAt (i :: j :: r0) = some t' ∧ t'.cls = c := by
      constructor
      · rintro ⟨p, t', hp, hl, hn, hc⟩
        obtain ⟨i', j, r0, _, rfl, hr⟩ := long p hp hl
        rw [List.cons_prefix_cons] at hr
        obtain ⟨rfl, hr⟩ := hr
        rw [nodeAt_append, ht] at hn
        exact ⟨j, r0, t', hr, hn, hc⟩
      · rintro ⟨j, r0, t', hr, hn, hc⟩
        refine ⟨scope ++ i :: j :: r0, t', ?_, by simp, by rw [nodeAt_append, ht]; exact hn, hc⟩
        rw [List.prefix_append_right_inj, List.cons_prefix_cons]
        exact ⟨rfl, hr⟩
    rw [key]
    cases hc : t.children[i]? with
    | none => simp [onWay, DeclTree.nodeAt, hc]
    | some x =>
      simp only [parentAsts_dropLast]
      cases r with
      | nil => simp [onWay]
      | cons j r =>
        simp only
        cases hj : x.children[j]? with
        | none =>
          simp only [onWay, List.any_nil, Bool.false_eq_true, false_iff]
          rintro ⟨j', r0, t', hr, hn, _⟩
          rw [List.cons_prefix_cons] at hr
          obtain ⟨rfl, _⟩ := hr
          simp [DeclTree.nodeAt, hc, hj] at hn
        | some y =>
          simp only [onWay_iff]
          constructor
          · rintro ⟨r0, t', hr, hn, h⟩
            exact ⟨j, r0, t', by rw [List.cons_prefix_cons]; exact ⟨rfl, hr⟩, by simpa [DeclTree.nodeAt, hc, hj] using hn, h⟩
          · rintro ⟨j', r0, t', hr, hn, h⟩
            rw [List.cons_prefix_cons] at hr
            obtain ⟨rfl, hr⟩ := hr
            exact ⟨r0, t', hr, by simpa [DeclTree.nodeAt, hc, hj] using hn, h⟩

theorem functionPointerParameter_iff (root : DeclTree) (scope decl : List Nat) (hp : scope <+: decl)
    (hs : ∃ t, root.nodeAt scope = some t) :
    functionPointerParameter root scope decl = true ↔
      Between root scope decl .functionDeclarator ∧ Between root scope decl .parameterList := by
  rw [← onWay_between root scope decl _ hp hs, ← onWay_between root scope decl _ hp hs]
  simp [functionPointerParameter, onWay]

/-! ### Parameters -/

theorem paramTrees_getElem? (ps : List CDeclr) (i : Nat) :
    (paramTrees ps)[i]? = ps[i]?.map fun p => .mk .other [p.tree] := by
  induction ps generalizing i with
  | nil => simp [paramTrees]
  | cons p ps ih => cases i <;> simp [paramTrees, ih]

theorem mem_paramsEach (ps : List CDeclr) (k : Nat) (q : List Nat) :
    q ∈ paramsEach k ps ↔ ∃ i p, ps[i]? = some p ∧ (q = [k + i] ∨ ∃ r ∈ p.params, q = (k + i) :: 0 :: r) := by
  induction ps generalizing k with
  | nil => simp [paramsEach]
  | cons p ps ih =>
    simp only [paramsEach, List.cons_append, List.mem_cons, List.mem_append, List.mem_map, ih]
    constructor
    · rintro (rfl | ⟨r, hr, rfl⟩ | ⟨i, p', h, h'⟩)
      · exact ⟨0, p, rfl, .inl rfl⟩
      · exact ⟨0, p, rfl, .inr ⟨r, hr, rfl⟩⟩
      · refine ⟨i + 1, p', by simpa using h, ?_⟩
        rw [show k + (i + 1) = k + 1 + i by omega]
        exact h'
    · rintro ⟨i, p', h, h'⟩
      cases i with
      | zero =>
        simp only [List.getElem?_cons_zero, Option.some.injEq] at h
        subst h
        rcases h' with rfl | ⟨r, hr, rfl⟩
        · exact .inl rfl
        · exact .inr (.inl ⟨r, hr, rfl⟩)
      | succ i =>
        refine .inr (.inr ⟨i, p', by simpa using h, ?_⟩)
        rw [show k + 1 + i = k + (i + 1) by omega]
        exact h'

/-- Above each parameter there is a function with its list. -/
theorem params_classes (d : CDeclr) (p : List Nat) (h : p ∈ d.params) (c : DeclClass) (hc : c ≠ .other) :
    ∃ r t, r <+: p ∧ d.tree.nodeAt r = some t ∧ t.cls = c := by
  match d with
  | .name => simp [CDeclr.params] at h
  | .wrap d =>
    simp only [CDeclr.params, List.mem_map] at h
    obtain ⟨q, hq, rfl⟩ := h
    obtain ⟨r, t, h1, h2, h3⟩ := params_classes d q hq c hc
    exact ⟨0 :: r, t, by rw [List.cons_prefix_cons]; exact ⟨rfl, h1⟩,
      by simpa [DeclTree.nodeAt, CDeclr.tree, DeclTree.children] using h2, h3⟩
  | .func d ps =>
    simp only [CDeclr.params, List.mem_append, List.mem_map] at h
    rcases h with ⟨q, hq, rfl⟩ | ⟨q, hq, rfl⟩
    · obtain ⟨r, t, h1, h2, h3⟩ := params_classes d q hq c hc
      exact ⟨0 :: r, t, by rw [List.cons_prefix_cons]; exact ⟨rfl, h1⟩,
        by simpa [DeclTree.nodeAt, CDeclr.tree, DeclTree.children] using h2, h3⟩
    · cases c with
      | functionDeclarator => exact ⟨[], _, List.nil_prefix, rfl, by simp [CDeclr.tree, DeclTree.cls]⟩
      | parameterList =>
        refine ⟨[1], .mk .parameterList (paramTrees ps), by rw [List.cons_prefix_cons]; exact ⟨rfl, List.nil_prefix⟩, ?_, rfl⟩
        simp [DeclTree.nodeAt, CDeclr.tree, DeclTree.children]
      | other => exact absurd rfl hc

/-! ### Statements -/

theorem lookup_cons (x : Ast) (i : Nat) (p : AstPath) : x.lookup (i :: p) = (x.children[i]?).bind fun c => c.lookup p := by
  simp only [Ast.lookup]
  cases x.children[i]? <;> rfl

theorem lookup_append (p q : AstPath) : ∀ x : Ast, x.lookup (p ++ q) = (x.lookup p).bind fun y => y.lookup q := by
  induction p with
  | nil => intro x; simp [Ast.lookup]
  | cons i p ih =>
    intro x
    rw [List.cons_append, lookup_cons, lookup_cons]
    cases x.children[i]? with
    | none => rfl
    | some c => simp [ih]

/-- A site that belongs to an AST at a path. -/
def SiteOf (x : Ast) (path : AstPath) (s : AstSite) : Prop :=
  ∃ p y, s.path = path ++ p ++ [s.index] ∧ x.lookup p = some y ∧ y.kind = s.parent ∧ y.children[s.index]? = some s.ast

mutual
theorem mem_sites (s : AstSite) : ∀ (x : Ast) (path : AstPath), s ∈ x.sites path ↔ SiteOf x path s
  | .mk k t b a cs, path => by
    rw [Ast.sites, mem_sitesList s cs path k 0]
    constructor
    · rintro ⟨i, c, hc, rfl | ⟨p, y, h1, h2, h3, h4⟩⟩
      · exact ⟨[], .mk k t b a cs, by simp, rfl, rfl, by simpa [Ast.children] using hc⟩
      · refine ⟨i :: p, y, by simpa using h1, ?_, h3, h4⟩
        rw [lookup_cons]
        simpa [Ast.children, hc] using h2
    · rintro ⟨p, y, h1, h2, h3, h4⟩
      cases p with
      | nil =>
        simp only [Ast.lookup, Option.some.injEq] at h2
        subst h2
        refine ⟨s.index, s.ast, by simpa [Ast.children] using h4, .inl ?_⟩
        obtain ⟨sp, sk, si, sa⟩ := s
        simp only at h1 h3
        simp only [Ast.kind] at h3
        simp [h1, h3]
      | cons i p =>
        rw [lookup_cons] at h2
        cases hc : cs[i]? with
        | none => simp [Ast.children, hc] at h2
        | some c =>
          refine ⟨i, c, hc, .inr ⟨p, y, by simpa using h1, by simpa [Ast.children, hc] using h2, h3, h4⟩⟩
theorem mem_sitesList (s : AstSite) : ∀ (cs : List Ast) (path : AstPath) (pk : AstKind) (k : Nat),
    s ∈ sitesList path pk k cs ↔
      ∃ i c, cs[i]? = some c ∧ (s = ⟨path ++ [k + i], pk, k + i, c⟩ ∨ SiteOf c (path ++ [k + i]) s)
  | [], path, pk, k => by simp [sitesList]
  | c :: cs, path, pk, k => by
    simp only [sitesList, List.mem_cons, List.mem_append]
    rw [mem_sites s c (path ++ [k]), mem_sitesList s cs path pk (k + 1)]
    constructor
    · rintro (h | h | ⟨i, c', h, h'⟩)
      · exact ⟨0, c, rfl, .inl h⟩
      · exact ⟨0, c, rfl, .inr h⟩
      · refine ⟨i + 1, c', by simpa using h, ?_⟩
        rw [show k + (i + 1) = k + 1 + i by omega]
        exact h'
    · rintro ⟨i, c', h, h'⟩
      cases i with
      | zero =>
        simp only [List.getElem?_cons_zero, Option.some.injEq] at h
        subst h
        rcases h' with h | h
        · exact .inl h
        · exact .inr (.inl h)
      | succ i =>
        refine .inr (.inr ⟨i, c', by simpa using h, ?_⟩)
        rw [show k + 1 + i = k + (i + 1) by omega]
        exact h'
end

theorem tracedAt_iff (root : Ast) (path : AstPath) :
    tracedAt root path = true ↔ ∃ s ∈ tracedSites (fun _ => true) root, s.1.path = path := by
  have hz : (∃ s ∈ tracedSites (fun _ => true) root, s.1.path = path) ↔
      ∃ s ∈ root.sites [], canBeTraced s.parent s.index s.ast = true ∧ s.path = path := by
    simp only [tracedSites, List.mem_filter, Bool.and_true]
    constructor
    · rintro ⟨⟨s, n⟩, ⟨h, h1⟩, h2⟩
      exact ⟨s, (List.mem_zipIdx h).2.2 ▸ List.getElem_mem _, h1, h2⟩
    · rintro ⟨s, h, h1, h2⟩
      obtain ⟨n, hn, e⟩ := List.getElem_of_mem h
      exact ⟨(s, n), ⟨by rw [List.mem_zipIdx_iff_getElem?]; simp [hn, e], h1⟩, h2⟩
  rw [hz]
  simp only [mem_sites]
  constructor
  · intro h
    unfold tracedAt at h
    split at h
    · rename_i i p x hi hp hx
      have hpath : path = path.dropLast ++ [i] := by
        obtain ⟨ys, rfl⟩ := List.getLast?_eq_some_iff.mp hi
        simp
      rw [hpath, lookup_append, hp] at hx
      simp only [Option.bind_some] at hx
      rw [lookup_cons] at hx
      have hx' : p.children[i]? = some x := by
        cases h' : p.children[i]? with
        | none => rw [h'] at hx; simp at hx
        | some c => rw [h'] at hx; simpa [Ast.lookup] using hx
      exact ⟨⟨path, p.kind, i, x⟩, ⟨path.dropLast, p, by simpa using hpath, hp, rfl, hx'⟩, h, rfl⟩
    · exact absurd h (by simp)
  · rintro ⟨s, ⟨p, y, h1, h2, h3, h4⟩, h5, rfl⟩
    simp only [List.nil_append] at h1
    have hx : root.lookup (p ++ [s.index]) = some s.ast := by
      rw [lookup_append, h2]
      simp [h4, Ast.lookup]
    simp only [tracedAt, h1, List.getLast?_append, List.getLast?_singleton, Option.some_or, List.dropLast_concat, h2, hx]
    rw [h3]
    exact h5

theorem enclosing_spec (root : Ast) : ∀ (n : Nat) (path : AstPath), path.length ≤ n →
    (∀ q, enclosingTraceable root n path = some q →
      q <+: path ∧ tracedAt root q = true ∧ ∀ q', q' <+: path → q.length < q'.length → tracedAt root q' = false) ∧
    (enclosingTraceable root n path = none → ∀ q', q' <+: path → tracedAt root q' = false) := by
  intro n
  induction n with
  | zero =>
    intro path h
    have : path = [] := by simpa using h
    subst this
    simp only [enclosingTraceable]
    refine ⟨fun q hq => ?_, fun hn q' hq' => ?_⟩
    · split at hq
      · rename_i ht
        cases hq
        refine ⟨List.nil_prefix, ht, fun q' hq' hl => ?_⟩
        have := hq'.length_le
        simp only [List.length_nil] at this hl
        omega
      · cases hq
    · rw [List.prefix_nil] at hq'
      subst hq'
      simpa using hn
  | succ n ih =>
    intro path h
    simp only [enclosingTraceable]
    by_cases ht : tracedAt root path = true
    · simp only [ht, if_true, Option.some.injEq, reduceCtorEq, false_implies, and_true]
      rintro q rfl
      refine ⟨List.prefix_rfl, ht, fun q' hq' hl => ?_⟩
      have := hq'.length_le
      omega
    · have hf : tracedAt root path = false := by simpa using ht
      simp only [ht, Bool.false_eq_true, if_false]
      cases path with
      | nil =>
        simp only [List.isEmpty_nil, if_true, reduceCtorEq, false_implies, implies_true, true_and, true_implies]
        intro q' hq'
        rw [List.prefix_nil] at hq'
        rw [hq']; exact hf
      | cons i p =>
        simp only [List.isEmpty_cons, Bool.false_eq_true, if_false]
        have hl : (i :: p).dropLast.length ≤ n := by simp at h ⊢; omega
        obtain ⟨h1, h2⟩ := ih _ hl
        have hcase : ∀ q', q' <+: i :: p → q' = i :: p ∨ q' <+: (i :: p).dropLast := by
          intro q' hq'
          rcases Nat.lt_or_ge q'.length (i :: p).length with hlt | hge
          · right
            rw [List.prefix_iff_eq_take] at hq' ⊢
            rw [List.dropLast_eq_take, List.take_take]
            rw [Nat.min_eq_left (by simp at hlt ⊢; omega)]
            exact hq'
          · exact .inl (hq'.eq_of_length_le hge)
        refine ⟨fun q hq => ?_, fun hn q' hq' => ?_⟩
        · obtain ⟨a, b, c⟩ := h1 q hq
          refine ⟨a.trans (List.dropLast_prefix _), b, fun q' hq' hlt => ?_⟩
          rcases hcase q' hq' with rfl | h'
          · exact hf
          · exact c q' h' hlt
        · rcases hcase q' hq' with rfl | h'
          · exact hf
          · exact h2 hn q' h'

end TraceDB
