import Verif.Model.ParallelInstrument
import Verif.Spec.ProjectText
/-
Schedules of instrumentation threads.
-/
namespace TraceDB

/-- The thread has found something missing and has not stored it yet. -/
def TabThread.Storing {α : Type} (t : TabThread α) : Prop := t.pc ≠ .start

/-- At most one thread at a time is between finding that a name or type is missing and
storing it, throughout the run. -/
def OneStoring {α : Type} (te : TableTests) (ts : List (TabThread α)) (s : Tables) (sched : List Nat) : Prop :=
  ∀ (n i j : Nat) (a b : TabThread α), (runTabThreads te ts s (sched.take n)).1[i]? = some a →
    (runTabThreads te ts s (sched.take n)).1[j]? = some b → a.Storing → b.Storing → i = j

/-- The threads that instrument the files of a project without `main`. -/
def projectThreads (evolve : List ProjFile) : List (TabThread (List GenSite)) :=
  ((evolve.filter fun f => !f.main).zipIdx).map fun f => ⟨sitesReq (f.1.sites f.2), .start⟩

/-- Code without the indices of names and types. -/
def GenCall.unnumbered : GenCall → GenCall
  | .variables l => .variables (l.map fun g => { g with name := 0, type := 0 })
  | .blobs l => .blobs (l.map fun g => { g with name := 0, type := 0 })

/-- A file without the indices of names and types. -/
def ProjOut.unnumbered (o : ProjOut) : List GenSite := o.gens.map fun g => ⟨g.id, g.calls.map GenCall.unnumbered⟩

end TraceDB
