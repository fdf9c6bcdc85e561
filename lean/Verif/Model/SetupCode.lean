import Verif.Model.Outcome
/-
Where the setup code of an instrumented file is put (instrumentation/c-cpp.lisp:285-290,
505-507, 1060-1214), and what the preprocessor and the linker make of it.
-/
namespace TraceDB

/-- Pieces of program text: those of the program, numbered, and the four that are added:
forward declarations (c-cpp.lisp:31-95), the entry macro (285-291), the implementation (98-283) and
the initialization (293-342). -/
inductive Piece where
  | own (n : Nat)
  | declarations
  | entryMacro
  | implementation
  | initialization
  deriving DecidableEq, Repr

/-- Kinds of ASTs: those of `+error-ast-types+` (c-cpp.lisp:363-367), declarators of functions
that are named `main`, all others. -/
inductive TopKind where
  | error
  | mainDeclarator
  | other
  deriving DecidableEq, Repr

/-- An AST: text of its own between the children, and children with `before-asts` and
`after-asts`.  With a condition, what is inside is compiled only if it holds (a branch of `#if`).
For instrumentation/c-cpp.lisp:1060-1214. -/
inductive TopAst where
  | text (p : Piece)
  | node (kind : TopKind) (cond : Option Nat) (before : List Piece) (children : List TopAst) (after : List Piece)

/-- Children; text is none.  For instrumentation/c-cpp.lisp:1060-1214. -/
def TopAst.children : TopAst → List TopAst
  | .text _ => []
  | .node _ _ _ cs _ => cs

mutual
/-- `concretize-error-ast #'first` (c-cpp.lisp:1167-1175): the way from an AST to the one that is
taken.  If an error has no children it is taken itself. -/
def firstConcrete : TopAst → List Nat
  | .text _ => []
  | .node k _ _ cs _ => if k = .error then (firstTarget 0 cs).getD [] else []
/-- The first of the immediate children (c-cpp.lisp:1162-1165), made concrete (1182-1186). -/
def firstTarget (i : Nat) : List TopAst → Option (List Nat)
  | [] => none
  | .text _ :: cs => firstTarget (i + 1) cs
  | .node k c b xs a :: _ => some (i :: firstConcrete (.node k c b xs a))
end

mutual
/-- `concretize-error-ast #'lastcar` (c-cpp.lisp:1167-1175). -/
def lastConcrete : TopAst → List Nat
  | .text _ => []
  | .node k _ _ cs _ => if k = .error then (lastTarget 0 cs).getD [] else []
/-- The last of the immediate children, made concrete (c-cpp.lisp:1195-1199). -/
def lastTarget (i : Nat) : List TopAst → Option (List Nat)
  | [] => none
  | .text _ :: cs => lastTarget (i + 1) cs
  | .node k c b xs a :: cs => (lastTarget (i + 1) cs).or (some (i :: lastConcrete (.node k c b xs a)))
end

/-- `with root target`: the AST at a path is replaced.  For instrumentation/c-cpp.lisp:1060-1214. -/
def TopAst.change (f : TopAst → TopAst) : List Nat → TopAst → TopAst
  | [], x => f x
  | _ :: _, .text p => .text p
  | i :: q, .node k c b cs a => .node k c b (cs.modify i (TopAst.change f q)) a

/-- `prepend-before-asts` (c-cpp.lisp:1220-1223): at the end of what is already before. -/
def addBefore (p : Piece) : TopAst → TopAst
  | .text q => .text q
  | .node k c b cs a => .node k c (b ++ [p]) cs a

/-- `append-after-asts` (c-cpp.lisp:1225-1227). -/
def addAfter (p : Piece) : TopAst → TopAst
  | .text q => .text q
  | .node k c b cs a => .node k c b cs (a ++ [p])

mutual
/-- `main-declarators` (c-cpp.lisp:1139-1146): the ways to them in the order of `asts`. -/
def mainPaths : TopAst → List (List Nat)
  | .text _ => []
  | .node k _ _ cs _ => (if k = .mainDeclarator then [[]] else []) ++ mainPathsEach 0 cs
/-- The same for the children from number `i` on.  For instrumentation/c-cpp.lisp:1060-1214. -/
def mainPathsEach (i : Nat) : List TopAst → List (List Nat)
  | [] => []
  | c :: cs => (mainPaths c).map (i :: ·) ++ mainPathsEach (i + 1) cs
end

/-- `prepend-instrumentation-setup-code` without target (c-cpp.lisp:1177-1186, 1201-1210). -/
def prependSetup (p : Piece) (root : TopAst) : Res TopAst :=
  match firstTarget 0 root.children with
  | none => .throw .lisp
  | some t => .ok (root.change (addBefore p) t)

/-- `append-instrumentation-setup-code` without target (c-cpp.lisp:1188-1199, 1201-1210). -/
def appendSetup (p : Piece) (root : TopAst) : Res TopAst :=
  match lastTarget 0 root.children with
  | none => .throw .lisp
  | some t => .ok (root.change (addAfter p) t)

/-- `initialize-tracing` (c-cpp.lisp:1113-1132) as far as it places code. -/
def placeInitialization (root : TopAst) : Res TopAst :=
  match mainPaths root with
  | [] => .ok root
  | m :: ms => appendSetup .initialization ((m :: ms).foldl (fun r p => r.change (addBefore .entryMacro) p) root)

/-- The setup code of a file (c-cpp.lisp:504-507).  Simplification: also for the other files of a
project (592-604), where the declarators of `main` are looked up first. -/
def addSetupCode (root : TopAst) : Res TopAst := do
  let root ← prependSetup .declarations root
  let root ← appendSetup .implementation root
  placeInitialization root

mutual
/-- The text that is left by the conditions of the program itself, in order.  For instrumentation/c-cpp.lisp:1060-1214. -/
def TopAst.compiled (holds : Nat → Bool) : TopAst → List Piece
  | .text p => [p]
  | .node _ c b cs a => b ++ (if c.all holds then compiledEach holds cs else []) ++ a
/-- The same for several ASTs.  For instrumentation/c-cpp.lisp:1060-1214. -/
def compiledEach (holds : Nat → Bool) : List TopAst → List Piece
  | [] => []
  | c :: cs => c.compiled holds ++ compiledEach holds cs
end

/-- `#ifdef __GT_TRACEDB_ENTRY_POINT` (c-cpp.lisp:295): the initialization counts only after the
macro.  Assumed: the program does not define it itself. -/
def preprocessed : Bool → List Piece → List Piece
  | _, [] => []
  | _, .entryMacro :: ps => preprocessed true ps
  | e, .initialization :: ps => (if e then [.initialization] else []) ++ preprocessed e ps
  | e, p :: ps => p :: preprocessed e ps

/-- How many definitions of `__bi_setup` and of the log variables (c-cpp.lisp:303-306) the files of
an executable have. -/
def setupDefinitions (holds : Nat → Bool) (files : List TopAst) : Nat :=
  (files.map fun f => (preprocessed false (f.compiled holds)).count .initialization).sum

end TraceDB
