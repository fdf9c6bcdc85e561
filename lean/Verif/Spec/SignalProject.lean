import Verif.Spec.RunDatabase
import Verif.Spec.Signals
/-
Runs of programs built from a project whose threads are interrupted by signals.
-/
namespace TraceDB

/-- A run of a program: the project, what instrumenting it gave, what its `main` writes, the
statements its threads pass, what happens (steps of threads, signals with the statements that the
handler passes, handlers that leave by `longjmp` with the statements passed from there), and the
maximal number of points to be read. -/
structure SigRun where
  evolve : List ProjFile
  other : List ProjFile
  project : ProjResult
  header : ProjHeader
  threads : List (List ProjVisit)
  events : List (SgEvent (List ProjVisit))
  limit : U64

/-- All statements of threads and handlers. -/
def SigRun.visits (r : SigRun) : List ProjVisit := r.threads.flatten ++ r.events.flatMap SgEvent.code

/-- The program and all statements, as if passed by one thread. -/
def SigRun.inOne (r : SigRun) : ProjRun := ⟨r.evolve, r.other, r.project, r.header, [r.visits], r.limit⟩

/-- The steps of the threads, and those of the handlers. -/
def SigRun.Does (cf : CFloat) (mem : CMem) (r : SigRun) (acts : List (List RtAct)) (steps : List (SgEvent (List RtAct))) : Prop :=
  (∀ v ∈ r.visits, v.Fits cf (instrumentationFiles r.evolve)) ∧ (∀ e ∈ r.events, e.InRange r.threads.length) ∧
  (∃ calls, AllRel (AllRel (ProjVisit.RunsAs cf mem (r.project.plain ++ r.project.mains))) r.threads calls ∧
    Steps cf mem calls acts) ∧
  ∃ calls, AllRel (SgEvent.Rel (AllRel (ProjVisit.RunsAs cf mem (r.project.plain ++ r.project.mains)))) r.events calls ∧
    AllRel (SgEvent.Rel fun l a => rtActs cf mem (l.flatMap fun p => pointCalls p.1 p.2) = .ok a) calls steps

end TraceDB
