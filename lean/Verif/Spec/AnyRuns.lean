import Verif.Spec.ForkProject
import Verif.Spec.SignalProject
import Verif.Spec.FailProject
import Verif.Spec.FailThreads
import Verif.Spec.CollectRuns
import Verif.Spec.BestAnswers
/-
Runs of programs of every kind: with threads, child processes, signals and failing writes.
-/
namespace TraceDB

/-- Statements passed by threads: for each thread its first ones in its order, and all if `whole`. -/
def FirstOfEach (threads : List (List ProjVisit)) (whole : Prop) (all : List ProjVisit) : Prop :=
  ∃ order : List (Nat × ProjVisit), all = order.map (·.2) ∧ (∀ x ∈ order, x.1 < threads.length) ∧
    (∀ (i : Nat) (l : List ProjVisit), threads[i]? = some l → threadPart i order <+: l) ∧ (whole → Interleaves order threads)

/-- Statements passed by threads: for each thread some of them in its order, and all if `whole`. -/
def SomeOfEach (threads : List (List ProjVisit)) (whole : Prop) (all : List ProjVisit) : Prop :=
  ∃ order : List (Nat × ProjVisit), all = order.map (·.2) ∧ (∀ x ∈ order, x.1 < threads.length) ∧
    (∀ (i : Nat) (l : List ProjVisit), threads[i]? = some l → (threadPart i order).Sublist l) ∧ (whole → Interleaves order threads)

/-- Statements passed by a program with child processes: the first one and then those of the processes so
far, and all if `whole`; or none. -/
def ForkRun.May (r : ForkRun) (whole : Prop) (all : List ProjVisit) : Prop :=
  (all = [] ∧ ¬ whole) ∨ ∃ later, all = r.first :: later ∧ FkSoFar (ftAsFork r.prog) later ∧ (whole → FkAll (ftAsFork r.prog) later)

/-- Statements passed by threads that are interrupted by signals: those of threads and handlers so far, and
all if `whole`. -/
def SigRun.May (r : SigRun) (whole : Prop) (all : List ProjVisit) : Prop :=
  ∃ signals order left, all = order.map (·.2) ∧ signals <+: r.events.filter SgEvent.isSignal ∧
    SgReach r.threads signals order left ∧ (whole → signals = r.events.filter SgEvent.isSignal ∧ ∀ l ∈ left, l = [])

/-- Statements passed by one thread: the first ones, and all if `whole`. -/
def FailRun.MayFirst (r : FailRun) (whole : Prop) (all : List ProjVisit) : Prop :=
  all <+: r.first :: r.rest ∧ (whole → all = r.first :: r.rest)

/-- Statements passed by one thread: the first one and some others in their order, and all if `whole`. -/
def FailRun.MaySome (r : FailRun) (whole : Prop) (all : List ProjVisit) : Prop :=
  ∃ later, all = r.first :: later ∧ later.Sublist r.rest ∧ (whole → later = r.rest)

/-- All processes end, none is killed or forks while others of its threads are alive, and so on (C105). -/
def FtWhole (size : Nat) (acts : List FtAct) (events : List FtEvent) (s : FtState) : Prop :=
  (∀ e ∈ events, ¬ e.IsKill) ∧ FtJoined size (FtState.start acts) events ∧ s.Ended

/-- No signal comes while its thread has the mutex, all threads end, and nothing is lost (C106). -/
def SgWhole (header : List U8) (acts : List (List RtAct)) (steps : List (SgEvent (List RtAct))) (T : List U8) (s : RtState) : Prop :=
  SgSafe (RtState.init header acts) steps ∧ s.Ended ∧ header ++ T = s.out

/-- `LeftBy cf mem p may whole bytes`: a run of the program `p.project` that can pass the statements
`p.threads` leaves `bytes` in its file, a trace of which may show (before a limit is applied) the
lists of statements `may`; if `whole`, nothing has kept the program from writing all of its trace.
At least the header is in the file. -/
inductive LeftBy (cf : CFloat) (mem : CMem) : ProjRun → (List ProjVisit → Prop) → Prop → List U8 → Prop
  /-- Threads; the program ends or dies (C101). -/
  | threads (r : ProjRun) (whole : Prop) (bytes : List U8) (hb : r.Built) (hl : r.Leaves cf mem whole bytes) :
    LeftBy cf mem r (FirstOfEach r.threads whole) whole bytes
  /-- Threads and child processes (C105). -/
  | forks (r : ForkRun) (size : Nat) (acts : List FtAct) (events : List FtEvent) (s : FtState) (header : List U8)
    (hb : r.inOne.Built) (hd : r.Does cf mem size acts) (hsafe : FtSafe size (FtState.start acts) events)
    (hs : (FtState.start acts).run size events = .ok s)
    (hheader : writeTraceHeader r.header.names (r.header.types.map TypeRow.desc) = .ok header) (hthere : header <+: s.out) :
    LeftBy cf mem r.inOne (r.May (FtWhole size acts events s)) (FtWhole size acts events s) s.out
  /-- Threads interrupted by signals (C106). -/
  | signals (r : SigRun) (acts : List (List RtAct)) (steps : List (SgEvent (List RtAct))) (header T : List U8) (s : RtState)
    (hb : r.inOne.Built) (hd : r.Does cf mem acts steps)
    (hheader : writeTraceHeader r.header.names (r.header.types.map TypeRow.desc) = .ok header)
    (hs : (RtState.init header acts).sgRun steps = .ok s) (hT : header ++ T <+: s.out) :
    LeftBy cf mem r.inOne (r.May (SgWhole header acts steps T s)) (SgWhole header acts steps T s) (header ++ T)
  /-- One thread, and failures to write for ever (C115). -/
  | full (r : FailRun) (size : Nat) (c0 : U64 × List RtCall) (acts : List FkAct) (events : List FwEvent) (header : List U8)
    (hb : r.inOne.Built) (hd : r.Does cf mem size c0 acts) (hever : FailsForEver size (FwState.start acts) events)
    (hheader : writeTraceHeader r.header.names (r.header.types.map TypeRow.desc) = .ok header)
    (hthere : header <+: ((FwState.start acts).run size events).out) :
    LeftBy cf mem r.inOne
      (r.MayFirst (FwWhole events ((FwState.start acts).run size events)))
      (FwWhole events ((FwState.start acts).run size events)) ((FwState.start acts).run size events).out
  /-- One thread, and failures to write now and then (C115). -/
  | gaps (r : FailRun) (size : Nat) (c0 : U64 × List RtCall) (acts : List FkAct) (before after : List FwEvent) (bs : List U8)
    (hb : r.inOne.Built) (hd : r.Does cf mem size c0 acts) (hbefore : ∀ e ∈ before, ¬ e.IsFail)
    (hafter : ∀ e ∈ after, e.AllOrNothing size)
    (hbs : rtRun cf mem r.header.names (r.header.types.map TypeRow.desc) [c0] = .ok bs)
    (hfirst : bs <+: ((FwState.start acts).run size before).out) :
    LeftBy cf mem r.inOne
      (r.MaySome (FwWhole (before ++ after) ((FwState.start acts).run size (before ++ after))))
      (FwWhole (before ++ after) ((FwState.start acts).run size (before ++ after)))
      ((FwState.start acts).run size (before ++ after)).out
  /-- Threads, and failures to write for ever (C116). -/
  | fullThreads (r : ProjRun) (size : Nat) (calls : List (List (U64 × List RtCall))) (acts : List (List FtAct)) (header : List U8)
    (events : List FmEvent) (s : FmState) (hb : r.Built) (hd : r.DoesThreads cf mem calls acts)
    (hheader : writeTraceHeader r.header.names (r.header.types.map TypeRow.desc) = .ok header)
    (hever : FmFailsForEver size (FmState.start header acts) events)
    (hs : (FmState.start header acts).run size events = .ok s) (hthere : header <+: s.out) :
    LeftBy cf mem r (FirstOfEach r.threads (FmWhole events s)) (FmWhole events s) s.out
  /-- Threads, and failures to write now and then (C116). -/
  | gapsThreads (r : ProjRun) (size : Nat) (calls : List (List (U64 × List RtCall))) (acts : List (List FtAct)) (header : List U8)
    (before after : List FmEvent) (s1 s : FmState) (hb : r.Built) (hd : r.DoesThreads cf mem calls acts)
    (hheader : writeTraceHeader r.header.names (r.header.types.map TypeRow.desc) = .ok header)
    (hfit : PointsFit cf mem size calls) (hbefore : ∀ e ∈ before, ¬ e.IsFail) (hafter : ∀ e ∈ after, e.AllOrNothing size)
    (hs1 : (FmState.start header acts).run size before = .ok s1) (hidle : s1.owner = none) (hon : s1.ended = false)
    (hthere : header <+: s1.out) (hs : (FmState.start header acts).run size (before ++ after) = .ok s) :
    LeftBy cf mem r (SomeOfEach r.threads (FmWhole (before ++ after) s)) (FmWhole (before ++ after) s) s.out

/-- A file left by a run of any kind, as it is given to `add-trace`, with metadata that tells the run. -/
def LispAdd.OfAnyRun {μ : Type} (cf : CFloat) (mem : CMem) (runOf : μ → ProjRun) (may : μ → List ProjVisit → Prop) (whole : μ → Prop)
    (a : LispAdd μ) : Prop :=
  ∃ io bytes m, a = .trace (some ⟨bytes, io, .good⟩) (runOf m).limit m ∧ LeftBy cf mem (runOf m) (may m) (whole m) bytes

/-- A file that is not there, or from which no trace can be read. -/
def LispAdd.Unreadable {μ : Type} (env : Env) (a : LispAdd μ) : Prop :=
  ∃ src limit m, a = .trace src limit m ∧ ∀ s, src = some s → ∀ t, readTrace env limit s ≠ .ok t

/-- What the attempts of a collection read: attempt `j` of test case `k` reads `file (k, j)`, which was
left by a run of any kind, and adds it to the database or not.  Traces carry the number of their
attempt. -/
structure ReadsAnyRuns (env : Env) (cf : CFloat) (mem : CMem) (runOf : Nat × Nat → ProjRun) (may : Nat × Nat → List ProjVisit → Prop)
    (whole : Nat × Nat → Prop) (file : Nat × Nat → IStream) (w : CfWorld (Nat × Trace)) : Prop where
  added : ∀ k j i t, (w.attempts k)[j]? = some (.added (i, t)) →
    i = j ∧ readTrace env (runOf (k, j)).limit (file (k, j)) = .ok t
  refused : ∀ k j t, (w.attempts k)[j]? = some .refused → readTrace env (runOf (k, j)).limit (file (k, j)) ≠ .ok t
  runs : ∀ k j a, (w.attempts k)[j]? = some a → a ≠ .noHandshake → a ≠ .failed →
    ∃ io bytes, file (k, j) = ⟨bytes, io, .good⟩ ∧ LeftBy cf mem (runOf (k, j)) (may (k, j)) (whole (k, j)) bytes

end TraceDB
