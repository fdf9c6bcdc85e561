import Verif.Model.Statements
/-
Function bodies with conditional compilation and with text that was not parsed:
`possibly-incomplete-ast-p` (instrumentation/c-cpp.lisp:671-705), and what the C
preprocessor makes of the printed result.
-/
namespace TraceDB

/-- `statement-ast` (for the classes see `+traceable-stmt-types+`, c-cpp.lisp:344-350, which adds
directives and groups to it). -/
def AstKind.isProperStatement : AstKind → Bool
  | .expr | .group _ | .elifGroup _ | .elseGroup | .directive | .fragment => false
  | _ => true

/-- `error-ast-p` (c-cpp.lisp:685-686). -/
def AstKind.isFragment : AstKind → Bool
  | .fragment => true
  | _ => false

/-- The last child is a statement.  For instrumentation/c-cpp.lisp:671-705. -/
def endsInStatement (cs : List Ast) : Bool :=
  match cs.getLast? with
  | some x => x.kind.isProperStatement
  | none => false

/-- `possibly-incomplete-macro-p` (c-cpp.lisp:687-690). -/
def Ast.isUnfinishedGroup : Ast → Bool
  | .mk (.group _) _ _ _ cs => !endsInStatement cs
  | _ => false

/-- `possibly-incomplete-ast-p` (c-cpp.lisp:671-705) of an AST between two siblings. -/
def possiblyIncomplete (prev next : Option Ast) : Bool :=
  (match prev with
   | some x => x.isUnfinishedGroup || x.kind.isFragment
   | none => false) ||
  (match next with
   | some x => x.kind.isFragment
   | none => false)

/-- Whether an AST is not ruled out as incomplete (c-cpp.lisp:633, 645, 655): itself (`inc`) or,
as a statement in a row, by its parent (`pinc`). -/
def notRuledOut (pk : AstKind) (i : Nat) (pinc inc : Bool) : Bool :=
  !inc && (isBranch pk i || !pinc)

mutual
/-- For each AST below one, in the order of `Ast.sites`: is it not ruled out?  For instrumentation/c-cpp.lisp:671-705. -/
def Ast.completeBelow (inc : Bool) : Ast → List Bool
  | .mk k _ _ _ cs => Ast.completeEach k inc 0 none cs
/-- The same for the children from number `i` on; `prev` is the one before.  For instrumentation/c-cpp.lisp:671-705. -/
def Ast.completeEach (pk : AstKind) (pinc : Bool) (i : Nat) (prev : Option Ast) : List Ast → List Bool
  | [] => []
  | c :: cs =>
    notRuledOut pk i pinc (possiblyIncomplete prev cs.head?) ::
      (c.completeBelow (possiblyIncomplete prev cs.head?) ++ Ast.completeEach pk pinc (i + 1) (some c) cs)
end

/-- `instrument` (c-cpp.lisp:399-414, 494-502, 622-655) of a function body: no points at ASTs that may
be incomplete. -/
def instrumentGroups (functionsAfter : Bool) (ids : Nat → Nat) (filter : Nat → Bool) (root : Ast) : Ast :=
  instrumentBody functionsAfter ids (fun n => filter n && (root.completeBelow false)[n]?.getD true) root

/-! The C preprocessor -/

/-- Points that stand before or after a group, as a piece of text of their own.  For instrumentation/c-cpp.lisp:671-705. -/
def loosePoints : List PointEvent → List Ast
  | [] => []
  | b => [.mk .directive [] b [] []]

/-- Another part of a group: `#elif` or `#else`.  For instrumentation/c-cpp.lisp:671-705. -/
def AstKind.isAlternative : AstKind → Bool
  | .elifGroup _ | .elseGroup => true
  | _ => false

/-- Statements in a row are the children.  For instrumentation/c-cpp.lisp:671-705. -/
def AstKind.isRow : AstKind → Bool
  | .block | .label _ | .case _ => true
  | _ => false

/-- A text (with the ASTs in it) put before a list of statements: it belongs to the first
one, if that is a plain statement that nothing was put before.  Directives in between do
not matter.  For instrumentation/c-cpp.lisp:671-705. -/
def attachText (t : List U8) (ts : List Ast) : List Ast → Option (List Ast)
  | [] => none
  | .mk k t' b a cs :: r =>
    match k with
    | .simple n => if b.isEmpty then some (.mk (.simple n) (t ++ t') b a (ts ++ cs) :: r) else none
    | .directive =>
      if b.isEmpty && a.isEmpty then (attachText t ts r).map fun r => .mk .directive t' b a cs :: r else none
    | _ => none

/-- Unparsed text in a row becomes part of the statement after it, like a qualifier of a
declaration.  For instrumentation/c-cpp.lisp:671-705. -/
def joinRow : List Ast → List Ast
  | [] => []
  | .mk k t b a cs :: r =>
    if k.isFragment && b.isEmpty && a.isEmpty then
      match attachText t cs (joinRow r) with
      | some l => l
      | none => .mk k t b a cs :: joinRow r
    else .mk k t b a cs :: joinRow r

/-- An expression or the like that is in no statement.  For instrumentation/c-cpp.lisp:671-705. -/
def Ast.asFragment : Ast → Ast
  | .mk _ t b a cs => .mk .fragment t b a cs

mutual
/-- What the preprocessor leaves of an AST where the conditions are as `ρ` says.  For instrumentation/c-cpp.lisp:671-705. -/
def Ast.resolve (ρ : Nat → Bool) : Ast → List Ast
  | .mk (.group c) _ b a cs =>
    loosePoints b ++ (if ρ c then Ast.resolveItems ρ true cs else Ast.resolveOther ρ cs) ++ loosePoints a
  | .mk (.elifGroup c) _ b a cs =>
    loosePoints b ++ (if ρ c then Ast.resolveItems ρ true cs else Ast.resolveOther ρ cs) ++ loosePoints a
  | .mk .elseGroup _ b a cs => loosePoints b ++ Ast.resolveItems ρ false cs ++ loosePoints a
  | .mk k t b a cs =>
    [.mk k t b a (if k.isRow then joinRow (Ast.resolveEach ρ cs) else Ast.resolveEach ρ cs)]
/-- Several ASTs.  For instrumentation/c-cpp.lisp:671-705. -/
def Ast.resolveEach (ρ : Nat → Bool) : List Ast → List Ast
  | [] => []
  | c :: cs => c.resolve ρ ++ Ast.resolveEach ρ cs
/-- The statements of a part of a group, maybe without the condition.  Anything else, like
a qualifier, is text for the next statement.  For instrumentation/c-cpp.lisp:671-705. -/
def Ast.resolveItems (ρ : Nat → Bool) (condition : Bool) : List Ast → List Ast
  | [] => []
  | c :: cs =>
    (if condition || c.kind.isAlternative then []
     else if c.kind == .expr then (c.resolve ρ).map Ast.asFragment
     else c.resolve ρ) ++ Ast.resolveItems ρ false cs
/-- The next part of a group.  For instrumentation/c-cpp.lisp:671-705. -/
def Ast.resolveOther (ρ : Nat → Bool) : List Ast → List Ast
  | [] => []
  | c :: cs => (if c.kind.isAlternative then c.resolve ρ else []) ++ Ast.resolveOther ρ cs
end

/-- A function body after preprocessing.  For instrumentation/c-cpp.lisp:671-705. -/
def Ast.preprocess (ρ : Nat → Bool) : Ast → Ast
  | .mk k t b a cs =>
    .mk k t b a (if k.isRow then joinRow (Ast.resolveEach ρ cs) else Ast.resolveEach ρ cs)

end TraceDB
