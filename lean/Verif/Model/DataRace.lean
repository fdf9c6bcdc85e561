import Verif.Model.ConcurrentQuery
import Verif.Model.Concurrent
/-
Data races.  Two accesses of different threads to the same object that nothing orders are
undefined behaviour in C++ if one of them changes it (C++11, 1.10 [intro.multithread]).  A
program has one exactly if in some interleaving two threads are both about to make such
accesses.

Queries: the maps of Trace.hpp:45 and TracePoint.hpp:72.  The processes are those of
`Verif.Model.ConcurrentQuery` with the map every step uses and whether it changes the map.
`find` does not; `operator[]` does if it inserts (libstdc++; the standard, 23.2.2, would allow
it to change the map always); an assignment or `push_back` through it does.

Additions: the static variable of TracePoint.hpp:294 and the vector of traces
(TraceDB.hpp:26) in the model of `Verif.Model.Concurrent`.
-/
namespace TraceDB

/-- The maps that queries share: the cache of points of a trace (Trace.hpp:45), whose traces
are numbered across all databases, and the cache of answers (TracePoint.hpp:72), of which the
process has one. -/
inductive MapRef where
  | points (trace : Nat)
  | answers
  deriving DecidableEq, Repr

/-- `QProc` with the map a step uses and whether it changes that map.
For cffi-interface/trace-db/Trace.hpp:282-299, 327-362. -/
inductive RProc (α : Type) where
  | done (r : Res α)
  | act (map : MapRef) (writes : QShared → Bool) (change : QShared → QShared) (next : QShared → RProc α)

/-- One piece of work after the other.  For cffi-interface/trace-db/Trace.hpp:282-299, 327-362. -/
def RProc.bind {α β : Type} (p : RProc α) (f : α → RProc β) : RProc β :=
  match p with
  | .done (.ok a) => f a
  | .done (.throw e) => .done (.throw e)
  | .done .abort => .done .abort
  | .done (.ub k) => .done (.ub k)
  | .done .hang => .done .hang
  | .act m w c n => .act m w c fun s => (n s).bind f

instance : Monad RProc where
  pure a := .done (.ok a)
  bind := RProc.bind

/-- The loop of `getPoints` (Trace.hpp:291-295). -/
def fillR (i : Nat) (mask stmt : U64) : List Point → RProc Unit
  | [] => .done (.ok ())
  | p :: ps =>
    if p.statement &&& mask == stmt then
      .act (.points i) (fun _ => true)
        (fun s => s.set i (mask, stmt) (((s.get i (mask, stmt)).getD []) ++ [p]))
        fun _ => fillR i mask stmt ps
    else fillR i mask stmt ps

/-- `return m_getpoints_cache[key]` (Trace.hpp:298) and the copy (Trace.hpp:333). -/
def copyPointsR (i : Nat) (mask stmt : U64) : RProc (List Point) :=
  .act (.points i) (fun s => (s.get i (mask, stmt)).isNone)
    (fun s => match s.get i (mask, stmt) with
      | some _ => s
      | none => s.set i (mask, stmt) [])
    fun s => .done (.ok ((s.get i (mask, stmt)).getD []))

/-- `getPoints(mask, statement)` of trace `i` (Trace.hpp:282-299). -/
def getPointsR (i : Nat) (points : List Point) (mask stmt : U64) : RProc (List Point) :=
  .act (.points i) (fun _ => false) id fun s =>
    match s.get i (mask, stmt) with
    | some _ => copyPointsR i mask stmt
    | none => .act (.points i) (fun _ => true) (fun s => s.set i (mask, stmt) []) fun _ => do
        fillR i mask stmt points
        copyPointsR i mask stmt

/-- `return m_cache[functor]` (TracePoint.hpp:79). -/
def readAnswerR (p : Pred) (vs : List VarInfo) : RProc Bool :=
  .act .answers (fun s => (s.answers.get p vs).isNone)
    (fun s => match s.answers.get p vs with
      | some _ => s
      | none => s.answer p vs false)
    fun s => .done (.ok ((s.answers.get p vs).getD false))

/-- `m_cache[functor] = functor()` (TracePoint.hpp:76) in one of the two orders, as in
`storeAnswerP`. -/
def storeAnswerR (early : Bool) (fs : FloatSys) (p : Pred) (vs : List VarInfo) : RProc Unit :=
  if early then
    .act .answers (fun s => (s.answers.get p vs).isNone)
      (fun s => match s.answers.get p vs with
        | some _ => s
        | none => s.answer p vs false)
      fun _ => do
        let b ← RProc.done (predicateSatisfied fs vs p)
        .act .answers (fun _ => true) (fun s => s.answer p vs b) fun _ => .done (.ok ())
  else do
    let b ← RProc.done (predicateSatisfied fs vs p)
    .act .answers (fun _ => true) (fun s => s.answer p vs b) fun _ => .done (.ok ())

/-- `cachedSatisfiesPredicate` (TracePoint.hpp:69-80). -/
def cachedR (early : Bool) (fs : FloatSys) (p : Pred) (vs : List VarInfo) : RProc Bool :=
  .act .answers (fun _ => false) id fun s =>
    match s.answers.get p vs with
    | some _ => readAnswerR p vs
    | none => do
      storeAnswerR early fs p vs
      readAnswerR p vs

/-- `TracePoint::satisfiesPredicate` (TracePoint.hpp:117-126). -/
def satisfiesR (early : Bool) (fs : FloatSys) (p : Pred) (point : Point) (bindings : List Nat) : RProc Bool := do
  let vs ← RProc.done (lookupVars point.vars bindings)
  cachedR early fs p vs

/-- The loop over all combinations of bindings (Trace.hpp:192-208). -/
def hardLoopR (early : Bool) (fs : FloatSys) (hard : Pred) (point : Point) :
    List (List Nat) → RProc (List Point)
  | [] => .done (.ok [])
  | b :: bs => do
    let sat ← satisfiesR early fs hard point b
    if sat then do
      let vars ← RProc.done (lookupVars point.vars b)
      let rest ← hardLoopR early fs hard point bs
      .done (.ok ({ point with vars := vars } :: rest))
    else hardLoopR early fs hard point bs

/-- Number of soft predicates satisfied by a result (Trace.hpp:223-228). -/
def softCountR (early : Bool) (fs : FloatSys) (r : Point) (bindings : List Nat) : List Pred → RProc Nat
  | [] => .done (.ok 0)
  | p :: ps => do
    let sat ← satisfiesR early fs p r bindings
    let n ← softCountR early fs r bindings ps
    .done (.ok ((if sat then 1 else 0) + n))

/-- Counts of all results (Trace.hpp:222-231). -/
def softCountsR (early : Bool) (fs : FloatSys) (soft : List Pred) (bindings : List Nat) :
    List Point → RProc (List Nat)
  | [] => .done (.ok [])
  | r :: rs => do
    let n ← softCountR early fs r bindings soft
    let ns ← softCountsR early fs soft bindings rs
    .done (.ok (n :: ns))

/-- `Trace::collectResultsAtPoint` (Trace.hpp:161-243). -/
def collectR (early : Bool) (fs : FloatSys) (env : Env) (point : Point) (variables : List FreeVar)
    (hard : Pred) (soft : List Pred) : RProc (List Point) := do
  let first ← RProc.done (firstResults point variables hard)
  if 2 ^ 32 ≤ point.vars.length ∧ ¬ variables.isEmpty then RProc.done .hang else do
  let bindings ← RProc.done (cartesian env (variables.map fun fv => matchingVars fv point.vars))
  let found ← hardLoopR early fs hard point bindings
  let results := first ++ found
  if soft.isEmpty then .done (.ok results)
  else do
    let counts ← softCountsR early fs soft (List.range variables.length) results
    if 2 ^ 32 ≤ results.length then RProc.done .hang
    else .done (.ok (keepMax counts results))

/-- All points in order (Trace.hpp:349-358). -/
def queryAllR (early : Bool) (fs : FloatSys) (env : Env) (variables : List FreeVar)
    (hard : Pred) (soft : List Pred) : List Point → RProc (List Point)
  | [] => .done (.ok [])
  | p :: ps => do
    let r ← collectR early fs env p variables hard soft
    let rs ← queryAllR early fs env variables hard soft ps
    .done (.ok (r ++ rs))

/-- `Trace::query` (Trace.hpp:332-362) on the points that passed the filter. -/
def queryPointsR (early : Bool) (fs : FloatSys) (env : Env) (pick : U32 → Nat → Nat) (q : Query)
    (points : List Point) : RProc (List Point) :=
  if q.seed ≠ 0 then
    if points.isEmpty then .done (.ok [])
    else match points[pick q.seed points.length]? with
      | none => .done (.ub .oobRead)
      | some p => collectR early fs env p q.variables q.hard q.soft
  else queryAllR early fs env q.variables q.hard q.soft points

/-- The result list of `query_trace` (trace-db.cpp:332-344) for the thread. -/
def queryR (early : Bool) (fs : FloatSys) (env : Env) (pick : U32 → Nat → Nat) (traces : Nat → Trace)
    (j : QueryJob) : RProc (List Point) := do
  let points ← getPointsR j.trace (traces j.trace).points j.query.mask j.query.stmt
  let rs ← queryPointsR early fs env pick j.query points
  .done (.ok (if j.keepDuplicates then rs else deduplicate rs))

/-- Threads and what they share.  For cffi-interface/trace-db/Trace.hpp:282-299, 327-362. -/
structure RSys where
  shared : QShared
  threads : List (RProc (List Point))

/-- All threads at the start of their queries.  For cffi-interface/trace-db/Trace.hpp:282-299, 327-362. -/
def RSys.init (early : Bool) (fs : FloatSys) (env : Env) (pick : U32 → Nat → Nat) (traces : Nat → Trace)
    (s : QShared) (jobs : List QueryJob) : RSys :=
  { shared := s, threads := jobs.map (queryR early fs env pick traces) }

/-- A step of thread `i`; nothing if it has finished.  For cffi-interface/trace-db/Trace.hpp:282-299, 327-362. -/
def RSys.step (st : RSys) (i : Nat) : RSys :=
  match st.threads[i]? with
  | some (.act _ _ change next) =>
    { shared := change st.shared, threads := st.threads.set i (next st.shared) }
  | _ => st

/-- Steps of the threads in the given order.  For cffi-interface/trace-db/Trace.hpp:282-299, 327-362. -/
def RSys.run (st : RSys) (schedule : List Nat) : RSys := schedule.foldl RSys.step st

/-- What a thread is about to do: the map it will use and whether it will change it.
For cffi-interface/trace-db/Trace.hpp:282-299, 327-362. -/
def RSys.about (st : RSys) (i : Nat) : Option (MapRef × Bool) :=
  match st.threads[i]? with
  | some (.act m w _ _) => some (m, w st.shared)
  | _ => none

/-- Two threads are about to use the same map and one of them will change it.
For cffi-interface/trace-db/Trace.hpp:282-299, 327-362. -/
def RSys.Race (st : RSys) : Prop :=
  ∃ (i k : Nat) (m : MapRef) (w : Bool), i ≠ k ∧ st.about i = some (m, true) ∧ st.about k = some (m, w)

/-- What the threads of `Verif.Model.Concurrent` share: the static variable
(TracePoint.hpp:294) and the vector of traces (TraceDB.hpp:26). -/
inductive AddRef where
  | value
  | traces
  deriving DecidableEq, Repr

/-- What a thread that adds a trace is about to do: `BINARY_READ` into the static variable
(TracePoint.hpp:295), the copy made of it (TracePoint.hpp:296), and `push_back`
(TraceDB.hpp:51).  The accesses to the mutex itself are synchronised. -/
def Thread.about : Thread → Option (AddRef × Bool)
  | .reading (.store _ _) => some (.value, true)
  | .reading (.load _) => some (.value, false)
  | .pushing _ => some (.traces, false)
  | .writing _ _ => some (.traces, true)
  | _ => none

/-- Two threads are about to use the same object and one of them will change it.
For cffi-interface/trace-db/TracePoint.hpp:291-296 and TraceDB.hpp:46-52. -/
def AddSys.Race (st : AddSys) (r : AddRef) : Prop :=
  ∃ (i k : Nat) (a b : Thread) (w : Bool), i ≠ k ∧ st.threads[i]? = some a ∧ st.threads[k]? = some b ∧
    a.about = some (r, true) ∧ b.about = some (r, w)

end TraceDB
