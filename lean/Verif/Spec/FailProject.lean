import Verif.Spec.RunDatabase
import Verif.Spec.WriteFail
/-
Runs of programs built from a project that cannot write all of their trace.
-/
namespace TraceDB

/-- A run of a program with one thread: the project, what instrumenting it gave, what its `main`
writes, the statements passed, and the maximal number of points to be read. -/
structure FailRun where
  evolve : List ProjFile
  other : List ProjFile
  project : ProjResult
  header : ProjHeader
  first : ProjVisit
  rest : List ProjVisit
  limit : U64

/-- The program and the statements passed. -/
def FailRun.inOne (r : FailRun) : ProjRun :=
  ⟨r.evolve, r.other, r.project, r.header, [r.first :: r.rest], r.limit⟩

/-- What the program does in the run, and the calls `c0` for the first statement; no point but the first is
larger than the buffer of the stream. -/
def FailRun.Does (cf : CFloat) (mem : CMem) (size : Nat) (r : FailRun) (c0 : U64 × List RtCall) (acts : List FkAct) : Prop :=
  (∀ v ∈ r.first :: r.rest, v.Fits cf (instrumentationFiles r.evolve)) ∧
  ∃ calls : List (U64 × List RtCall),
    r.first.RunsAs cf mem (r.project.plain ++ r.project.mains) c0 ∧
    AllRel (ProjVisit.RunsAs cf mem (r.project.plain ++ r.project.mains)) r.rest calls ∧
    (∀ c ∈ calls, ∀ b, rtBytes cf mem (pointCalls c.1 c.2) = .ok b → b.length ≤ size) ∧
    fkProgram cf mem r.header.names (r.header.types.map TypeRow.desc) ((c0 :: calls).map .point) = .ok acts

/-- The process is killed. -/
def FwEvent.IsKill : FwEvent → Prop
  | .kill => True
  | _ => False

/-- All that the process wrote has come into the file, and it has ended. -/
def FwWhole (events : List FwEvent) (s : FwState) : Prop := (∀ e ∈ events, ¬ e.IsFail ∧ ¬ e.IsKill) ∧ s.todo = []

end TraceDB
