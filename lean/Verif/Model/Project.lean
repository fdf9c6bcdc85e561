import Verif.Model.Instrument
/-
Instrumentation of a project (instrumentation/c-cpp.lisp:541-605), files in turn
(`num-threads` zero; for several threads see ParallelInstrument.lean).
-/
namespace TraceDB

/-- A file of a project: its path, whether it has a function `main`
(`contains-main-p`, c-cpp.lisp:1136-1139), and its statements to be instrumented with
their numbers. -/
structure ProjFile where
  path : Name
  main : Bool
  stmts : List (Nat × List (Bool × List ScopeVar))
  deriving DecidableEq, Repr

/-- `instrumentation-files` (c-cpp.lisp:541-549). -/
def instrumentationFiles (evolve : List ProjFile) : List ProjFile :=
  evolve.filter (fun f => !f.main) ++ evolve.filter (fun f => f.main)

/-- The statements of a file with its id (`get-ast-ids-ht`, c-cpp.lisp:399-414). -/
def ProjFile.sites (f : ProjFile) (id : Nat) : List Site := f.stmts.map fun s => ⟨some id, s.1, s.2⟩

/-- The tables written into a file with a function `main` (c-cpp.lisp:1060-1134). -/
structure ProjHeader where
  names : List Name
  types : List TypeRow
  deriving DecidableEq, Repr

/-- An instrumented file.  For instrumentation/c-cpp.lisp:541-605. -/
structure ProjOut where
  gens : List GenSite
  header : Option ProjHeader
  deriving DecidableEq, Repr

/-- `initialize-tracing` (c-cpp.lisp:1060-1134): the header as the tables are now, for files
with `main`. -/
def initTracing (te : TableTests) (main : Bool) (s : Tables) : Option ProjHeader :=
  if main then some ⟨s.emitNames, s.emitTypes te⟩ else none

/-- The instrumentation of numbered files in turn (c-cpp.lisp:434-512). -/
def instrumentFiles (te : TableTests) : List (ProjFile × Nat) → Tables → List ProjOut × Tables
  | [], s => ([], s)
  | (f, id) :: fs, s =>
    let (gens, s) := instrumentSites te (f.sites id) s
    let out : ProjOut := ⟨gens, initTracing te f.main s⟩
    let (outs, s) := instrumentFiles te fs s
    (out :: outs, s)

/-- An instrumented project: the evolve files without `main`, those with `main`, and what
is written into the other files.  For instrumentation/c-cpp.lisp:541-605. -/
structure ProjResult where
  plain : List ProjOut
  mains : List ProjOut
  others : List (Option ProjHeader)
  deriving DecidableEq, Repr

/-- `instrument` for projects (c-cpp.lisp:551-605). -/
def instrumentProject (evolve other : List ProjFile) : ProjResult :=
  let files := instrumentationFiles evolve
  let (plain, s) := instrumentFiles .equalp ((files.filter fun f => !f.main).zipIdx) Tables.empty
  let (mains, s) := instrumentFiles .equalp (files.zipIdx.filter fun f => f.1.main) s
  ⟨plain, mains, other.map fun f => initTracing .equalp f.main s⟩

end TraceDB
