import Verif.Model.Project
import Verif.Spec.Instrument
/-
What traces of instrumented projects should show.
-/
namespace TraceDB

/-- A program of a project passes statement `stmt` of file `file`, in the order of
instrumentation. -/
structure ProjVisit where
  file : Nat
  stmt : Nat
  env : CEnv

/-- Executing the code at the statement. -/
def ProjVisit.RunsAs (cf : CFloat) (mem : CMem) (outs : List ProjOut) (v : ProjVisit) (c : U64 × List RtCall) : Prop :=
  ∃ (o : ProjOut) (g : GenSite), outs[v.file]? = some o ∧ o.gens[v.stmt]? = some g ∧ c.1 = BitVec.ofNat 64 g.id ∧
    AllRel (GenCall.RunsAs cf mem v.env) g.calls c.2

/-- What should be shown for it: the number of the statement, the number of the file, and
the variables. -/
def ProjVisit.Shown (files : List ProjFile) (v : ProjVisit) (p : LPoint) : Prop :=
  ∃ (f : ProjFile) (s : Nat × List (Bool × List ScopeVar)), files[v.file]? = some f ∧ f.stmts[v.stmt]? = some s ∧
    p.c = s.1 ∧ p.f = some v.file ∧ p.aux = [] ∧
    ∃ ls : List (List LVar), p.scopes = ls.flatten ∧ AllRel (PartShown .equalp v.env) s.2 ls

/-- The state fits the variables there. -/
def ProjVisit.Fits (cf : CFloat) (files : List ProjFile) (v : ProjVisit) : Prop :=
  ∀ (f : ProjFile) (s : Nat × List (Bool × List ScopeVar)), files[v.file]? = some f → f.stmts[v.stmt]? = some s →
    ∀ part ∈ s.2, ∀ y ∈ part.2, y.Fits cf part.1 v.env

/-- A file the instrumentation can handle. -/
structure ProjFile.Ok (f : ProjFile) : Prop where
  vars : ∀ s ∈ f.stmts, ∀ part ∈ s.2, ∀ v ∈ part.2, v.Ok
  count : ∀ s ∈ f.stmts, ∀ part ∈ s.2, part.2.length < 2 ^ 32
  number : ∀ s ∈ f.stmts, s.1 < 2 ^ 40

/-- The tables of a header fit the format of traces. -/
structure ProjHeader.Small (h : ProjHeader) : Prop where
  names : h.names.length < 2 ^ 32
  chars : (h.names.map fun n => n.length + 1).sum < 2 ^ 63
  types : h.types.length < 2 ^ 32

end TraceDB
