import Verif.Model.Statements
/-
Removal of the instrumentation (instrumentation/c-cpp.lisp:418-421, 504-539,
instrument.lisp:20-21, 54-58), and the setup code that comes with it.

A file is one AST here: the translation unit, below it function definitions with their
bodies.
-/
namespace TraceDB

/-- An annotated compound statement (c-cpp.lisp:485-493, 1157-1160).  Blocks made by
`instrument` have no text of their own, all others start with a brace. -/
def Ast.isWrapper (x : Ast) : Bool := x.kind == .block && x.text.isEmpty

/-- The places of the annotated blocks, in the order of `asts` (c-cpp.lisp:519-531). -/
def wrapperPaths (root : Ast) : List AstPath :=
  ((root.sites []).filter fun s => s.ast.isWrapper).map fun s => s.path

/-- The AST that a block is set to: its first child at that time (c-cpp.lisp:521-527).
Simplification: for a block without children, which `instrument` never makes, the code
ends with an error. -/
def unwrapBlock : Ast → Ast
  | .mk k t b a cs =>
    match cs with
    | c :: _ => c
    | [] => .mk k t b a []

/-- The first half of `uninstrument` (c-cpp.lisp:518-531): from the last block to the
first. -/
def removeWrappers (root : Ast) : Ast :=
  (wrapperPaths root).reverse.foldl (fun r p => r.modifyAt unwrapBlock p) root

mutual
/-- The second half (c-cpp.lisp:533-539): all annotated ASTs are cut.  Simplification: all at
once. -/
def Ast.cutCalls : Ast → Ast
  | .mk k t _ _ cs => .mk k t [] [] (cutCallsEach cs)
/-- The same for several ASTs.  For instrumentation/c-cpp.lisp:533-539. -/
def cutCallsEach : List Ast → List Ast
  | [] => []
  | c :: cs => c.cutCalls :: cutCallsEach cs
end

/-- Code added around the functions of a file (c-cpp.lisp:505-507, 1117-1132). -/
inductive SetupCode where
  | declarations
  | implementation
  | entryMacro
  | initialization
  deriving DecidableEq, Repr

/-- A software object: its AST with the setup code in it, whether it has a function `main`,
its compiler flags, and whether its own text has the name of the log variable in it.
For instrumentation/c-cpp.lisp:418-421, 504-539. -/
structure CFile where
  root : Ast
  setup : List SetupCode
  main : Bool
  flags : List (List U8)
  mentions : Bool

/-- "-lpthread" (c-cpp.lisp:509-510) -/
def pthreadFlag : List U8 := [45, 108, 112, 116, 104, 114, 101, 97, 100]

/-- The setup code for a file (c-cpp.lisp:505-507, 592-604, 1104-1132). -/
def CFile.addSetup (f : CFile) : CFile :=
  { f with setup := f.setup ++ [.declarations, .implementation] ++ if f.main then [.entryMacro, .initialization] else [] }

/-- `instrument` for a file (c-cpp.lisp:434-512). -/
def CFile.instrument (after : Bool) (ids : Nat → Nat) (filter : Nat → Bool) (f : CFile) : CFile :=
  { (CFile.addSetup { f with root := instrumentBody after ids filter f.root }) with flags := f.flags ++ [pthreadFlag] }

/-- `uninstrument` for a file (c-cpp.lisp:514-539). -/
def CFile.uninstrument (f : CFile) : CFile :=
  { f with root := (removeWrappers f.root).cutCalls, setup := [] }

/-- `instrumented-p` for a file (c-cpp.lisp:418-421): each setup code has the name of the log
variable in it, and so has each call.  Simplification: calls come with setup code. -/
def CFile.instrumentedP (f : CFile) : Bool := f.mentions || !f.setup.isEmpty

/-- A project: its evolve files and its other files.  For instrumentation/c-cpp.lisp:418-421, 504-539. -/
structure CProject where
  evolve : List CFile
  other : List CFile

/-- `instrument` for projects (c-cpp.lisp:551-605) as far as it changes the files; ids and
filters of the files are arbitrary. -/
def CProject.instrument (after : Bool) (ids : CFile → Nat → Nat) (filter : CFile → Nat → Bool) (p : CProject) :
    CProject :=
  ⟨p.evolve.map fun f => f.instrument after (ids f) (filter f),
   p.other.map fun f => if f.main then f.addSetup else f⟩

/-- `uninstrument` for projects (instrument.lisp:54-58): the files of `instrumentation-files`
(c-cpp.lisp:541-549), all evolve files. -/
def CProject.uninstrument (p : CProject) : CProject := ⟨p.evolve.map CFile.uninstrument, p.other⟩

/-- `instrumented-p` for projects (instrument.lisp:18-21). -/
def CProject.instrumentedP (p : CProject) : Bool := p.evolve.any CFile.instrumentedP

end TraceDB
