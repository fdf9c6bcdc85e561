import Verif.Model.VarSelect
import Verif.Spec.GenText
/-
Which variables should be recorded.
-/
namespace TraceDB

/-- The AST at a path. -/
def DeclTree.nodeAt : DeclTree → List Nat → Option DeclTree
  | t, [] => some t
  | t, i :: p => (t.children[i]?).bind fun c => c.nodeAt p

/-- Between a scope and a declaration in it, the child of the scope left out, there is a node of a
class. -/
def Between (root : DeclTree) (scope decl : List Nat) (c : DeclClass) : Prop :=
  ∃ p t, p <+: decl ∧ scope.length + 1 < p.length ∧ root.nodeAt p = some t ∧ t.cls = c

/-- What is recorded for an entry. -/
def VarRecorded (root : DeclTree) (e : VarInScope) (v : ScopeVar) : Prop :=
  ∃ name decl scope, e.name = some name ∧ e.decl = some decl ∧ e.scope = some scope ∧ v.name = name ∧
    (CIdent name ∨ ∃ s, CIdent s ∧ name = s ++ [10]) ∧ ¬ ascii "__attribute" <+: name ∧
    ((decl.cls = .variable ∧ decl.whole = (v.type, v.mark)) ∨
     (decl.cls = .declaration ∧ ∃ l r, decl.declarators = l ++ (name, v.type, v.mark) :: r ∧ ∀ d ∈ l, d.1 ≠ name)) ∧
    ¬ (Between root scope decl.path .functionDeclarator ∧ Between root scope decl.path .parameterList)

/-- The scope of an entry is an AST, and the declaration is in it. -/
def VarInScope.placed (root : DeclTree) (e : VarInScope) : Prop :=
  ∀ decl scope, e.decl = some decl → e.scope = some scope →
    scope <+: decl.path ∧ ∃ t, root.nodeAt scope = some t

/-- Declarators of C: the declared name, a pointer or array or parentheses around a declarator, and
functions with the declarators of their parameters. -/
inductive CDeclr where
  | name
  | wrap (d : CDeclr)
  | func (d : CDeclr) (params : List CDeclr)

mutual
/-- The tree of a declarator. -/
def CDeclr.tree : CDeclr → DeclTree
  | .name => .mk .other []
  | .wrap d => .mk .other [d.tree]
  | .func d ps => .mk .functionDeclarator [d.tree, .mk .parameterList (paramTrees ps)]
/-- The trees of parameters. -/
def paramTrees : List CDeclr → List DeclTree
  | [] => []
  | p :: ps => .mk .other [p.tree] :: paramTrees ps
end

mutual
/-- The paths of all parameter declarations in a declarator. -/
def CDeclr.params : CDeclr → List (List Nat)
  | .name => []
  | .wrap d => d.params.map (0 :: ·)
  | .func d ps => d.params.map (0 :: ·) ++ (paramsEach 0 ps).map (1 :: ·)
def paramsEach (i : Nat) : List CDeclr → List (List Nat)
  | [] => []
  | p :: ps => [i] :: (p.params.map fun q => i :: 0 :: q) ++ paramsEach (i + 1) ps
end

/-- The parameters of the function that a declarator declares: those next to the name, with
nothing but parentheses, pointers and arrays between.  Those further out are the parameters of
the functions that its result points to. -/
def CDeclr.own : CDeclr → Option (List (List Nat))
  | .name => none
  | .wrap d => d.own.map fun l => l.map (0 :: ·)
  | .func d ps =>
    match d.own with
    | some l => some (l.map (0 :: ·))
    | none => some ((List.range ps.length).map fun i => [1, i])

/-- A function definition: result type, declarator, body. -/
def functionTree (type : DeclTree) (d : CDeclr) (body : DeclTree) : DeclTree := .mk .other [type, d.tree, body]

/-- A declaration: type and declarator. -/
def declarationTree (type : DeclTree) (d : CDeclr) : DeclTree := .mk .other [type, d.tree]

end TraceDB
