import Verif.Spec.RunDatabase
import Verif.Spec.ForkThreads
/-
Runs of programs built from a project that fork and create threads.
-/
namespace TraceDB

mutual
/-- The points of a program, in any order. -/
def FtItem.points {α : Type} : FtItem α → List α
  | .point a => [a]
  | .fork c => ftPoints c
  | .spawn c => ftPoints c

def ftPoints {α : Type} : List (FtItem α) → List α
  | [] => []
  | x :: xs => x.points ++ ftPoints xs
end

/-- A run of a program: the project, what instrumenting it gave, what its `main` writes, the first
statement passed, what comes then, and the maximal number of points to be read. -/
structure ForkRun where
  evolve : List ProjFile
  other : List ProjFile
  project : ProjResult
  header : ProjHeader
  first : ProjVisit
  prog : List (FtItem ProjVisit)
  limit : U64

/-- The program and all statements passed, as if by one thread. -/
def ForkRun.inOne (r : ForkRun) : ProjRun :=
  ⟨r.evolve, r.other, r.project, r.header, [r.first :: ftPoints r.prog], r.limit⟩

/-- What the main thread does in the run; no point is larger than the buffer of the stream. -/
def ForkRun.Does (cf : CFloat) (mem : CMem) (size : Nat) (r : ForkRun) (acts : List FtAct) : Prop :=
  (∀ v ∈ r.first :: ftPoints r.prog, v.Fits cf (instrumentationFiles r.evolve)) ∧
  ∃ (c0 : U64 × List RtCall) (calls : List (FtItem (U64 × List RtCall))),
    r.first.RunsAs cf mem (r.project.plain ++ r.project.mains) c0 ∧
    FtRel (ProjVisit.RunsAs cf mem (r.project.plain ++ r.project.mains)) r.prog calls ∧
    (∀ c ∈ ftPoints calls, ∀ b, rtBytes cf mem (pointCalls c.1 c.2) = .ok b → b.length ≤ size) ∧
    ftProgram cf mem r.header.names (r.header.types.map TypeRow.desc) (.point c0 :: calls) = .ok acts

end TraceDB
