import Verif.Spec.ParallelInstrument
import Verif.Spec.LispObjects
/-
Databases with the traces of programs.
-/
namespace TraceDB

/-- A run of a program: the project it was built from, what instrumenting the project gave, the
names and types its `main` writes, the statements passed by each of its threads, and the maximal
number of points to be read (0: no limit). -/
structure ProjRun where
  evolve : List ProjFile
  other : List ProjFile
  project : ProjResult
  header : ProjHeader
  threads : List (List ProjVisit)
  limit : U64

/-- The project was instrumented without two threads storing at once (C100), and the program
contains the code of all files passed and a `main` instrumented after them. -/
structure ProjRun.Built (r : ProjRun) : Prop where
  ok : ∀ f ∈ r.evolve, f.Ok
  few : r.evolve.length ≤ 2 ^ 23
  instrumented : ∃ sched, instrumentParallel r.evolve r.other sched = some r.project ∧
    OneStoring .equalp (projectThreads r.evolve) Tables.empty sched
  small : r.header.Small
  main : (∃ (p : Nat) (o : ProjOut), (r.project.plain ++ r.project.mains)[p]? = some o ∧
    o.header = some r.header ∧ ∀ l ∈ r.threads, ∀ v ∈ l, v.file ≤ p) ∨ some r.header ∈ r.project.others
  types : OneTypePerFoldedName r.evolve

/-- `bytes` is what the run left in its file: its threads pass the statements in any order, it ends
or dies, and any first part of what it wrote is there, at least the header.  If `complete`, it
has ended and nothing is lost. -/
def ProjRun.Leaves (cf : CFloat) (mem : CMem) (r : ProjRun) (complete : Prop) (bytes : List U8) : Prop :=
  (∀ l ∈ r.threads, ∀ v ∈ l, v.Fits cf (instrumentationFiles r.evolve)) ∧
  ∃ (calls : List (List (U64 × List RtCall))) (acts : List (List RtAct)) (sched : List Nat) (header T : List U8) (st : RtState),
    AllRel (AllRel (ProjVisit.RunsAs cf mem (r.project.plain ++ r.project.mains))) r.threads calls ∧
    Steps cf mem calls acts ∧ writeTraceHeader r.header.names (r.header.types.map TypeRow.desc) = .ok header ∧
    (RtState.init header acts).run sched = .ok st ∧ bytes = header ++ T ∧ bytes <+: st.out ∧
    (complete → st.Ended ∧ bytes = st.out)

/-- A file left by the run, as it is given to `add-trace`, with any metadata that tells the run. -/
def LispAdd.OfRun {μ : Type} (cf : CFloat) (mem : CMem) (runOf : μ → ProjRun) (complete : μ → Prop) (a : LispAdd μ) : Prop :=
  ∃ io bytes m, a = .trace (some ⟨bytes, io, .good⟩) (runOf m).limit m ∧ (runOf m).Built ∧
    (runOf m).Leaves cf mem (complete m) bytes

/-- `shown` are statements passed by the run, for each thread its first ones in its order; all of
them, up to the limit, if `complete`. -/
def ProjRun.Passed (r : ProjRun) (complete : Prop) (shown : List ProjVisit) : Prop :=
  ∃ order : List (Nat × ProjVisit), shown = limited r.limit (order.map (·.2)) ∧
    (∀ x ∈ order, x.1 < r.threads.length) ∧
    (∀ (i : Nat) (l : List ProjVisit), r.threads[i]? = some l → threadPart i order <+: l) ∧
    (complete → Interleaves order r.threads)

end TraceDB
