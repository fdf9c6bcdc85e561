import Verif.Model.Statements
/-
Statements of functions whose names look like keywords to the code
(instrumentation/c-cpp.lisp:657-671).

One function at a time; functions inside functions are not modelled.
-/
namespace TraceDB

/-- `misidentified-function-p` (c-cpp.lisp:660-666): the name of the enclosing function is "struct", "enum",
"class" or "namespace". -/
def misidentifiedFunction (name : List U8) : Bool :=
  [[115, 116, 114, 117, 99, 116], [101, 110, 117, 109], [99, 108, 97, 115, 115],
   [110, 97, 109, 101, 115, 112, 97, 99, 101]].contains name

/-- `traceable-stmt-p` (c-cpp.lisp:635-655) in a function with a name. -/
def traceableStmtIn (name : List U8) (pk : AstKind) (x : Ast) : Bool :=
  traceableStmt pk x && !misidentifiedFunction name

/-- `can-be-made-traceable-p` (c-cpp.lisp:622-633), for child number `i`; only its first alternative looks at
the function. -/
def canBeTracedIn (name : List U8) (pk : AstKind) (i : Nat) (x : Ast) : Bool :=
  traceableStmtIn name pk x || (x.kind != .block && isBranch pk i)

/-- The ASTs to be instrumented with their numbers (c-cpp.lisp:399-414, 471-484). -/
def tracedSitesIn (name : List U8) (filter : Nat → Bool) (root : Ast) : List (AstSite × Nat) :=
  ((root.sites []).zipIdx).filter fun s => canBeTracedIn name s.1.parent s.1.index s.1.ast && filter s.2

/-- `instrument` (c-cpp.lisp:494-502) as far as it changes the body of a function with a name. -/
def instrumentFunction (name : List U8) (functionsAfter : Bool) (ids : Nat → Nat) (filter : Nat → Bool) (root : Ast) : Ast :=
  (sortedSites (tracedSitesIn name filter root)).foldl (fun r s =>
    r.modifyAt (instrumentAst functionsAfter (ids s.2) (!traceableStmtIn name s.1.parent s.1.ast)) s.1.path) root

end TraceDB
