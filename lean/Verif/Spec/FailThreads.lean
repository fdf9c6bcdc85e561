import Verif.Model.FailThreads
import Verif.Spec.RunDatabase
/-
Programs with threads that cannot write all of their trace.
-/
namespace TraceDB

/-- A failed write. -/
def FmEvent.IsFail : FmEvent → Prop
  | .fail _ _ _ => True
  | .exitFail _ => True
  | _ => False

/-- The process is killed. -/
def FmEvent.IsKill : FmEvent → Prop
  | .kill => True
  | _ => False

/-- Failures that lose everything that was in a buffer of `size` bytes and write nothing of it. -/
def FmEvent.AllOrNothing (size : Nat) : FmEvent → Prop
  | .fail _ k lost => k = 0 ∧ size ≤ lost
  | .exitFail k => k = 0
  | _ => True

/-- Failures are for ever: after one of them the file does not change any more. -/
def FmFailsForEver (size : Nat) (s : FmState) (events : List FmEvent) : Prop :=
  ∀ a e b s1 s2, events = a ++ e :: b → e.IsFail → s.run size (a ++ [e]) = .ok s1 → s.run size events = .ok s2 → s2.out = s1.out

/-- Nothing failed, nobody killed the process, and it has ended after its threads. -/
def FmWhole (events : List FmEvent) (s : FmState) : Prop :=
  (∀ e ∈ events, ¬ e.IsFail ∧ ¬ e.IsKill) ∧ s.ended = true ∧ ∀ t ∈ s.threads, t = []

/-- What the threads do in the run of a program: the calls they make, and what these do. -/
def ProjRun.DoesThreads (cf : CFloat) (mem : CMem) (r : ProjRun) (calls : List (List (U64 × List RtCall))) (acts : List (List FtAct)) : Prop :=
  (∀ l ∈ r.threads, ∀ v ∈ l, v.Fits cf (instrumentationFiles r.evolve)) ∧
  AllRel (AllRel (ProjVisit.RunsAs cf mem (r.project.plain ++ r.project.mains))) r.threads calls ∧
  AllRel (fun l a => ftItems cf mem [] (l.map .point) = .ok a) calls acts

/-- The bytes of no point are more than `size`. -/
def PointsFit (cf : CFloat) (mem : CMem) (size : Nat) (calls : List (List (U64 × List RtCall))) : Prop :=
  ∀ l ∈ calls, ∀ c ∈ l, ∀ b, rtBytes cf mem (pointCalls c.1 c.2) = .ok b → b.length ≤ size

end TraceDB
