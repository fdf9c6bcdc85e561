import Verif.Model.Instrument
import Verif.Model.Statements
/-
Which variables in scope are recorded (instrumentation/c-cpp.lisp:841-905), and the statement
around an AST that is traced (609-620).

The variables in scope come from the AST library (`get-vars-in-scope`), which is not part of the
repository: any list of entries.
-/
namespace TraceDB

/-- The classes of ASTs that are told apart around a declaration.  For instrumentation/c-cpp.lisp:841-905. -/
inductive DeclClass where
  | functionDeclarator
  | parameterList
  | other
  deriving DecidableEq, Repr

/-- An AST as far as its classes go.  For instrumentation/c-cpp.lisp:841-905. -/
inductive DeclTree where
  | mk (cls : DeclClass) (children : List DeclTree)

/-- Its class.  For instrumentation/c-cpp.lisp:841-905. -/
def DeclTree.cls : DeclTree → DeclClass
  | .mk c _ => c

/-- Its children.  For instrumentation/c-cpp.lisp:841-905. -/
def DeclTree.children : DeclTree → List DeclTree
  | .mk _ cs => cs

/-- `get-parent-asts` of the AST library: the ASTs on the way from the root to a path with their
paths, the AST itself first.  `at_` is the path of the root.  For instrumentation/c-cpp.lisp:841-905. -/
def parentAsts (at_ : List Nat) : DeclTree → List Nat → List (List Nat × DeclClass)
  | t, [] => [(at_, t.cls)]
  | t, i :: p =>
    match t.children[i]? with
    | none => [(at_, t.cls)]
    | some c => parentAsts (at_ ++ [i]) c p ++ [(at_, t.cls)]

/-- `take-until` (of Serapeum): those before the first for which it holds.  For instrumentation/c-cpp.lisp:841-905. -/
def takeUntil {α : Type} (f : α → Bool) : List α → List α
  | [] => []
  | x :: xs => if f x then [] else x :: takeUntil f xs

/-- `function-pointer-parameter-p` (c-cpp.lisp:890-895): ASTs are the same if their paths are. -/
def functionPointerParameter (root : DeclTree) (scope decl : List Nat) : Bool :=
  let parents := (takeUntil (fun x => x.1 == scope) (parentAsts [] root decl)).dropLast
  parents.any (fun x => x.2 == .functionDeclarator) && parents.any (fun x => x.2 == .parameterList)

/-- `[A-Za-z_]`.  For instrumentation/c-cpp.lisp:841-905. -/
def regexLetter (c : U8) : Bool :=
  (65 ≤ c && c ≤ 90) || (97 ≤ c && c ≤ 122) || c == 95

/-- `[A-Za-z0-9_]`.  For instrumentation/c-cpp.lisp:841-905. -/
def regexWord (c : U8) : Bool :=
  (65 ≤ c && c ≤ 90) || (97 ≤ c && c ≤ 122) || (48 ≤ c && c ≤ 57) || c == 95

/-- `[A-Za-z0-9_]*$`: with any number of characters taken by the star.  `$` of cl-ppcre also
matches before a newline at the end.  For instrumentation/c-cpp.lisp:841-905. -/
def regexTail : List U8 → Bool
  | [] => true
  | c :: cs => (c == 10 && cs.isEmpty) || (regexWord c && regexTail cs)

/-- `+identifier-regex+` (c-cpp.lisp:842-843). -/
def identifierRegex : List U8 → Bool
  | [] => false
  | c :: cs => regexLetter c && regexTail cs

/-- "__attribute".  For instrumentation/c-cpp.lisp:845-890. -/
def attributePrefix : List U8 := [95, 95, 97, 116, 116, 114, 105, 98, 117, 116, 101]

example : attributePrefix = ascii "__attribute" := by decide +kernel

/-- Classes of the ASTs that names in scope belong to: `c/cpp-declaration`, `c/cpp-enumerator`,
other kinds of `variable-declaration-ast` (parameters, range loops), and others (functions,
types, macros).  For instrumentation/c-cpp.lisp:841-905. -/
inductive VarDeclClass where
  | declaration
  | enumerator
  | variable
  | other
  deriving DecidableEq, Repr

/-- The AST of a declaration: its place, its class, the names and types of its declarators, and
the type for the AST as a whole.  What `canonicalize-type` and `declarator-name` of the AST
library return is given; a type comes with its mark (see `ScopeVar`).  For instrumentation/c-cpp.lisp:841-905. -/
structure VarDecl where
  path : List Nat
  cls : VarDeclClass
  declarators : List (Name × CType × Nat)
  whole : CType × Nat
  deriving DecidableEq, Repr

/-- An entry of the variables in scope: the path stands for the AST of the scope.  For instrumentation/c-cpp.lisp:841-905. -/
structure VarInScope where
  name : Option Name
  decl : Option VarDecl
  scope : Option (List Nat)
  deriving DecidableEq, Repr

/-- `get-canonicalized-type` (c-cpp.lisp:868-880). -/
def canonicalizedType (decl : VarDecl) (name : Name) : Option (CType × Nat) :=
  match decl.cls with
  | .declaration => (decl.declarators.find? fun d => d.1 == name).map (·.2)
  | _ => some decl.whole

/-- `var-instrument-p` (c-cpp.lisp:882-905). -/
def varInstrumentP (root : DeclTree) (name : Name) (decl : VarDecl) (scope : List Nat) : Bool :=
  !name.isEmpty && identifierRegex name &&
  (decl.cls == .declaration || decl.cls == .enumerator || decl.cls == .variable) &&
  !(decl.cls == .enumerator) && !(attributePrefix.isPrefixOf name) &&
  !functionPointerParameter root scope decl.path

/-- The `and-let*` of `var-instrument` (c-cpp.lisp:854-861) for one entry. -/
def varToRecord (root : DeclTree) (e : VarInScope) : Option ScopeVar :=
  match e.name with
  | none => none
  | some name =>
    match e.decl with
    | none => none
    | some decl =>
      match e.scope with
      | none => none
      | some scope =>
        if varInstrumentP root name decl scope then
          match canonicalizedType decl name with
          | none => none
          | some (type, mark) => some ⟨name, type, mark⟩
        else none

/-- `names-and-types` in `var-instrument` (c-cpp.lisp:853-862). -/
def varsToRecord (root : DeclTree) (es : List VarInScope) : List ScopeVar := es.filterMap (varToRecord root)

/-- `var-instrument` (c-cpp.lisp:845-866). -/
def varInstrument (te : TableTests) (root : DeclTree) (ps : Bool) (es : List VarInScope) (s : Tables) :
    List GenCall × Tables :=
  instrumentExprs te ps (varsToRecord root es) s

/-- The AST at a path.  For instrumentation/c-cpp.lisp:841-905. -/
def Ast.lookup : Ast → AstPath → Option Ast
  | x, [] => some x
  | x, i :: p =>
    match x.children[i]? with
    | none => none
    | some c => c.lookup p

/-- `can-be-made-traceable-p` (c-cpp.lisp:622-633) for the AST at a path below the function body;
the body itself is no statement that is traced. -/
def tracedAt (root : Ast) (path : AstPath) : Bool :=
  match path.getLast?, root.lookup path.dropLast, root.lookup path with
  | some i, some p, some x => canBeTraced p.kind i x
  | _, _, _ => false

/-- `enclosing-traceable-stmt` (c-cpp.lisp:609-620), for the AST at a path.  The first two branches
are one: `canBeTraced` includes `traceableStmt`.  `n` bounds the number of parents. -/
def enclosingTraceable (root : Ast) : Nat → AstPath → Option AstPath
  | 0, path => if tracedAt root path then some path else none
  | n + 1, path =>
    if tracedAt root path then some path
    else if path.isEmpty then none
    else enclosingTraceable root n path.dropLast

end TraceDB
