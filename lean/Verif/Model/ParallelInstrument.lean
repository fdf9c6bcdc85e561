import Verif.Model.Project
/-
Instrumentation of a project by several threads (instrumentation/c-cpp.lisp:551-605 with
`num-threads`): files without `main` are instrumented at the same time, with shared tables.
Each access to a table is atomic (`make-thread-safe-hash-table`, 552-554); nothing else is.

The number of threads is not modelled: any file may be at work at any time, which includes
all runs of any number of threads.
-/
namespace TraceDB

/-- A computation that asks for indices of names and types.  For instrumentation/c-cpp.lisp:551-605. -/
inductive ReqProg (α : Type) where
  | done (a : α)
  | ask (r : TabReq) (k : Nat → ReqProg α)

/-- One computation after the other.  For instrumentation/c-cpp.lisp:551-605. -/
def ReqProg.bind {α β : Type} : ReqProg α → (α → ReqProg β) → ReqProg β
  | .done a, f => f a
  | .ask r k, f => .ask r fun i => (k i).bind f

/-- The loop of `instrument-c-exprs` (c-cpp.lisp:1002-1025). -/
def genExprsReq (ps : Bool) : List ScopeVar → ReqProg (List GenVar × List GenBlob)
  | [] => .done ([], [])
  | v :: vs =>
    match formatAndSize v.type ps with
    | none => genExprsReq ps vs
    | some (format, size) =>
      .ask (.type (v.key ps) format size) fun ti =>
      .ask (.name v.name) fun ni =>
      (genExprsReq ps vs).bind fun r =>
      .done (if ps && v.type.isCString then (r.1, ⟨ni, ti, v⟩ :: r.2)
        else if ps && v.type.isCppString then (r.1, ⟨ni, ti, v⟩ :: r.2)
        else (⟨ni, ti, size, format, v⟩ :: r.1, r.2))

/-- `instrument-c-exprs` for each instrumentation function (c-cpp.lisp:471-480, 907-1036). -/
def partsReq : List (Bool × List ScopeVar) → ReqProg (List GenCall)
  | [] => .done []
  | p :: ps =>
    (genExprsReq p.1 p.2).bind fun r =>
    (partsReq ps).bind fun cs =>
    .done (((if r.1.isEmpty then [] else [.variables r.1]) ++ (if r.2.isEmpty then [] else [.blobs r.2])) ++ cs)

/-- `instrument-ast` (c-cpp.lisp:456-470) for all statements in turn. -/
def sitesReq : List Site → ReqProg (List GenSite)
  | [] => .done []
  | x :: xs =>
    (partsReq x.parts).bind fun c =>
    (sitesReq xs).bind fun cs =>
    .done (⟨packId x.file x.ast, c⟩ :: cs)

/-- Where a thread is in `get-name-index` and `get-type-index` (c-cpp.lisp:973-992). -/
inductive TabPc where
  | start
  /-- the name was not found -/
  | nameMissed
  /-- the names have been counted -/
  | nameCounted (i : Nat)
  /-- the type was not found -/
  | typeMissed
  /-- nor was its name -/
  | typeNameMissed
  /-- the names have been counted for the type's name -/
  | typeNameCounted (i : Nat)
  /-- the type's name has this index -/
  | typeNamed (i : Nat)
  /-- the description is stored -/
  | typeDescribed
  /-- the types have been counted -/
  | typeCounted (i : Nat)
  deriving DecidableEq, Repr

/-- A thread: what it still has to do, and where it is in the first request of that.  For instrumentation/c-cpp.lisp:551-605. -/
structure TabThread (α : Type) where
  prog : ReqProg α
  pc : TabPc

/-- One access of a thread to the shared tables (c-cpp.lisp:973-992). -/
def TabThread.step {α : Type} (te : TableTests) (t : TabThread α) (s : Tables) : TabThread α × Tables :=
  match t.prog with
  | .done _ => (t, s)
  | .ask (.name n) k =>
    match t.pc with
    | .nameMissed => ({ t with pc := .nameCounted s.names.length }, s)
    | .nameCounted i => (⟨k i, .start⟩, { s with names := s.names.put te.name n i })
    | _ => match s.names.get te.name n with
      | some i => (⟨k i, .start⟩, s)
      | none => ({ t with pc := .nameMissed }, s)
  | .ask (.type key format size) k =>
    match t.pc with
    | .typeMissed => match s.names.get te.name key.2 with
      | some i => ({ t with pc := .typeNamed i }, s)
      | none => ({ t with pc := .typeNameMissed }, s)
    | .typeNameMissed => ({ t with pc := .typeNameCounted s.names.length }, s)
    | .typeNameCounted i => ({ t with pc := .typeNamed i }, { s with names := s.names.put te.name key.2 i })
    | .typeNamed i => ({ t with pc := .typeDescribed }, { s with rows := s.rows.put te.type key ⟨i, format, size⟩ })
    | .typeDescribed => ({ t with pc := .typeCounted s.types.length }, s)
    | .typeCounted i => (⟨k i, .start⟩, { s with types := s.types.put te.type key i })
    | _ => match s.types.get te.type key with
      | some i => (⟨k i, .start⟩, s)
      | none => ({ t with pc := .typeMissed }, s)

/-- Threads run in the order given by a schedule.  For instrumentation/c-cpp.lisp:551-605. -/
def runTabThreads {α : Type} (te : TableTests) : List (TabThread α) → Tables → List Nat → List (TabThread α) × Tables
  | ts, s, [] => (ts, s)
  | ts, s, i :: sched =>
    match ts[i]? with
    | none => runTabThreads te ts s sched
    | some t =>
      let r := t.step te s
      runTabThreads te (ts.set i r.1) r.2 sched

/-- The result of a thread that has finished.  For instrumentation/c-cpp.lisp:551-605. -/
def TabThread.result {α : Type} (t : TabThread α) : Option α :=
  match t.prog with
  | .done a => some a
  | .ask _ _ => none

/-- The results of all threads, if all have finished: `task-map` waits for them
(c-cpp.lisp:563). -/
def threadResults {α : Type} : List (TabThread α) → Option (List α)
  | [] => some []
  | t :: ts => match t.result, threadResults ts with
    | some a, some as => some (a :: as)
    | _, _ => none

/-- `instrument` for projects with threads (c-cpp.lisp:551-605); `none` if the schedule ends
before all threads have finished. -/
def instrumentParallel (evolve other : List ProjFile) (sched : List Nat) : Option ProjResult :=
  let files := instrumentationFiles evolve
  let r := runTabThreads .equalp
    (((files.filter fun f => !f.main).zipIdx).map fun f => ⟨sitesReq (f.1.sites f.2), .start⟩) Tables.empty sched
  match threadResults r.1 with
  | none => none
  | some gens =>
    let m := instrumentFiles .equalp (files.zipIdx.filter fun f => f.1.main) r.2
    some ⟨gens.map fun g => ⟨g, none⟩, m.1, other.map fun f => initTracing .equalp f.main m.2⟩

end TraceDB
