import Verif.Model.Query
/-
Queries made by several threads at a time.  A query writes to two caches: the
filtered points of the trace (cffi-interface/trace-db/Trace.hpp:45, 282-299) and
the answers of predicates, which all traces of the process share
(cffi-interface/trace-db/TracePoint.hpp:69-80).  Neither is protected by a mutex.

Simplification, in favour of the code: each operation on one of the maps is one
indivisible step (in C++ overlapping ones are a data race), and so is the copy of
the points at Trace.hpp:333.
-/
namespace TraceDB

/-- The cache of answers (TracePoint.hpp:72), newest entry first.
Simplification, in favour of the code: keys are compared by what they referred to
when they were stored (that they dangle is the subject of
`Verif.Model.PredicateCache`). -/
abbrev AnswerCache := List (Pred × List VarInfo × Bool)

/-- `m_cache.find(functor)` (TracePoint.hpp:75). -/
def AnswerCache.get (c : AnswerCache) (p : Pred) (vs : List VarInfo) : Option Bool :=
  (c.find? fun e => p.eqv e.1 && decide (vs = e.2.1)).map fun e => e.2.2

/-- What the threads share: the points cache of each trace and the answers.
For cffi-interface/trace-db/Trace.hpp:45 and TracePoint.hpp:72. -/
structure QShared where
  points : Nat → PointsCache
  answers : AnswerCache

/-- The list of a filter in the cache of trace `i`, if there is one.  For cffi-interface/trace-db/Trace.hpp:282-299, 327-362. -/
def QShared.get (s : QShared) (i : Nat) (key : U64 × U64) : Option (List Point) :=
  (s.points i).lookup key

/-- Storing a list in the cache of trace `i`.  For cffi-interface/trace-db/Trace.hpp:282-299, 327-362. -/
def QShared.set (s : QShared) (i : Nat) (key : U64 × U64) (ps : List Point) : QShared :=
  { s with points := fun j => if j = i then (key, ps) :: s.points j else s.points j }

/-- Storing an answer.  For cffi-interface/trace-db/TracePoint.hpp:69-80. -/
def QShared.answer (s : QShared) (p : Pred) (vs : List VarInfo) (b : Bool) : QShared :=
  { s with answers := (p, vs, b) :: s.answers }

/-- What a thread has still to do: finished with an outcome, or an indivisible
step that changes the shared state and goes on according to what the state was.
For cffi-interface/trace-db/Trace.hpp:282-299, 327-362. -/
inductive QProc (α : Type) where
  | done (r : Res α)
  | act (change : QShared → QShared) (next : QShared → QProc α)

/-- One piece of work after the other.  For cffi-interface/trace-db/Trace.hpp:282-299, 327-362. -/
def QProc.bind {α β : Type} (p : QProc α) (f : α → QProc β) : QProc β :=
  match p with
  | .done (.ok a) => f a
  | .done (.throw e) => .done (.throw e)
  | .done .abort => .done .abort
  | .done (.ub k) => .done (.ub k)
  | .done .hang => .done .hang
  | .act c n => .act c fun s => (n s).bind f

instance : Monad QProc where
  pure a := .done (.ok a)
  bind := QProc.bind

/-- The loop of `getPoints` (Trace.hpp:291-295). -/
def fillP (i : Nat) (mask stmt : U64) : List Point → QProc Unit
  | [] => .done (.ok ())
  | p :: ps =>
    if p.statement &&& mask == stmt then
      .act (fun s => s.set i (mask, stmt) (((s.get i (mask, stmt)).getD []) ++ [p]))
        fun _ => fillP i mask stmt ps
    else fillP i mask stmt ps

/-- `return m_getpoints_cache[key]` (Trace.hpp:298), which inserts an empty list
if there is none, and the copy made of it (Trace.hpp:333). -/
def copyPointsP (i : Nat) (mask stmt : U64) : QProc (List Point) :=
  .act (fun s => match s.get i (mask, stmt) with
      | some _ => s
      | none => s.set i (mask, stmt) [])
    fun s => .done (.ok ((s.get i (mask, stmt)).getD []))

/-- `getPoints(mask, statement)` of trace `i` (Trace.hpp:282-299). -/
def getPointsP (i : Nat) (points : List Point) (mask stmt : U64) : QProc (List Point) :=
  .act id fun s =>
    match s.get i (mask, stmt) with
    | some _ => copyPointsP i mask stmt
    | none => .act (fun s => s.set i (mask, stmt) []) fun _ => do
        fillP i mask stmt points
        copyPointsP i mask stmt

/-- `return m_cache[functor]` (TracePoint.hpp:79), which inserts false if there is
no entry. -/
def readAnswerP (p : Pred) (vs : List VarInfo) : QProc Bool :=
  .act (fun s => match s.answers.get p vs with
      | some _ => s
      | none => s.answer p vs false)
    fun s => .done (.ok ((s.answers.get p vs).getD false))

/-- `m_cache[functor] = functor()` (TracePoint.hpp:76).  The left operand inserts
false; C++11 (Makefile:43) leaves open whether this comes before (`early`) or after
the call on the right. -/
def storeAnswerP (early : Bool) (fs : FloatSys) (p : Pred) (vs : List VarInfo) : QProc Unit :=
  if early then
    .act (fun s => match s.answers.get p vs with
        | some _ => s
        | none => s.answer p vs false)
      fun _ => do
        let b ← QProc.done (predicateSatisfied fs vs p)
        .act (fun s => s.answer p vs b) fun _ => .done (.ok ())
  else do
    let b ← QProc.done (predicateSatisfied fs vs p)
    .act (fun s => s.answer p vs b) fun _ => .done (.ok ())

/-- `cachedSatisfiesPredicate` (TracePoint.hpp:69-80). -/
def cachedP (early : Bool) (fs : FloatSys) (p : Pred) (vs : List VarInfo) : QProc Bool :=
  .act id fun s =>
    match s.answers.get p vs with
    | some _ => readAnswerP p vs
    | none => do
      storeAnswerP early fs p vs
      readAnswerP p vs

/-- `TracePoint::satisfiesPredicate` (TracePoint.hpp:117-126). -/
def satisfiesP (early : Bool) (fs : FloatSys) (p : Pred) (point : Point) (bindings : List Nat) : QProc Bool := do
  let vs ← QProc.done (lookupVars point.vars bindings)
  cachedP early fs p vs

/-- The loop over all combinations of bindings (Trace.hpp:192-208). -/
def hardLoopP (early : Bool) (fs : FloatSys) (hard : Pred) (point : Point) :
    List (List Nat) → QProc (List Point)
  | [] => .done (.ok [])
  | b :: bs => do
    let sat ← satisfiesP early fs hard point b
    if sat then do
      let vars ← QProc.done (lookupVars point.vars b)
      let rest ← hardLoopP early fs hard point bs
      .done (.ok ({ point with vars := vars } :: rest))
    else hardLoopP early fs hard point bs

/-- Number of soft predicates satisfied by a result (Trace.hpp:223-228). -/
def softCountP (early : Bool) (fs : FloatSys) (r : Point) (bindings : List Nat) : List Pred → QProc Nat
  | [] => .done (.ok 0)
  | p :: ps => do
    let sat ← satisfiesP early fs p r bindings
    let n ← softCountP early fs r bindings ps
    .done (.ok ((if sat then 1 else 0) + n))

/-- Counts of all results (Trace.hpp:222-231). -/
def softCountsP (early : Bool) (fs : FloatSys) (soft : List Pred) (bindings : List Nat) :
    List Point → QProc (List Nat)
  | [] => .done (.ok [])
  | r :: rs => do
    let n ← softCountP early fs r bindings soft
    let ns ← softCountsP early fs soft bindings rs
    .done (.ok (n :: ns))

/-- `Trace::collectResultsAtPoint` (Trace.hpp:161-243), as `collectResults`. -/
def collectP (early : Bool) (fs : FloatSys) (env : Env) (point : Point) (variables : List FreeVar)
    (hard : Pred) (soft : List Pred) : QProc (List Point) := do
  let first ← QProc.done (firstResults point variables hard)
  if 2 ^ 32 ≤ point.vars.length ∧ ¬ variables.isEmpty then QProc.done .hang else do
  let bindings ← QProc.done (cartesian env (variables.map fun fv => matchingVars fv point.vars))
  let found ← hardLoopP early fs hard point bindings
  let results := first ++ found
  if soft.isEmpty then .done (.ok results)
  else do
    let counts ← softCountsP early fs soft (List.range variables.length) results
    if 2 ^ 32 ≤ results.length then QProc.done .hang
    else .done (.ok (keepMax counts results))

/-- All points in order (Trace.hpp:349-358). -/
def queryAllP (early : Bool) (fs : FloatSys) (env : Env) (variables : List FreeVar)
    (hard : Pred) (soft : List Pred) : List Point → QProc (List Point)
  | [] => .done (.ok [])
  | p :: ps => do
    let r ← collectP early fs env p variables hard soft
    let rs ← queryAllP early fs env variables hard soft ps
    .done (.ok (r ++ rs))

/-- `Trace::query` (Trace.hpp:332-362) on the points that passed the filter. -/
def queryPointsP (early : Bool) (fs : FloatSys) (env : Env) (pick : U32 → Nat → Nat) (q : Query)
    (points : List Point) : QProc (List Point) :=
  if q.seed ≠ 0 then
    if points.isEmpty then .done (.ok [])
    else match points[pick q.seed points.length]? with
      | none => .done (.ub .oobRead)
      | some p => collectP early fs env p q.variables q.hard q.soft
  else queryAllP early fs env q.variables q.hard q.soft points

/-- What a thread asks: a query of trace number `trace`, with or without removal
of duplicates.  For cffi-interface/trace-db/Trace.hpp:282-299, 327-362. -/
structure QueryJob where
  trace : Nat
  query : Query
  keepDuplicates : Bool

/-- The result list of `query_trace` (trace-db.cpp:332-344) for the thread. -/
def queryP (early : Bool) (fs : FloatSys) (env : Env) (pick : U32 → Nat → Nat) (traces : Nat → Trace)
    (j : QueryJob) : QProc (List Point) := do
  let points ← getPointsP j.trace (traces j.trace).points j.query.mask j.query.stmt
  let rs ← queryPointsP early fs env pick j.query points
  .done (.ok (if j.keepDuplicates then rs else deduplicate rs))

/-- Threads and what they share.  For cffi-interface/trace-db/Trace.hpp:282-299, 327-362. -/
structure QSys where
  shared : QShared
  threads : List (QProc (List Point))

/-- All threads at the start of their queries.  For cffi-interface/trace-db/Trace.hpp:282-299, 327-362. -/
def QSys.init (early : Bool) (fs : FloatSys) (env : Env) (pick : U32 → Nat → Nat) (traces : Nat → Trace)
    (s : QShared) (jobs : List QueryJob) : QSys :=
  { shared := s, threads := jobs.map (queryP early fs env pick traces) }

/-- A step of thread `i`; nothing if it has finished.  For cffi-interface/trace-db/Trace.hpp:282-299, 327-362. -/
def QSys.step (st : QSys) (i : Nat) : QSys :=
  match st.threads[i]? with
  | some (.act change next) =>
    { shared := change st.shared, threads := st.threads.set i (next st.shared) }
  | _ => st

/-- Steps of the threads in the given order.  For cffi-interface/trace-db/Trace.hpp:282-299, 327-362. -/
def QSys.run (st : QSys) (schedule : List Nat) : QSys := schedule.foldl QSys.step st

/-- The outcome of a thread, if it has finished.  For cffi-interface/trace-db/Trace.hpp:282-299, 327-362. -/
def QSys.outcome (st : QSys) (i : Nat) : Option (Res (List Point)) :=
  match st.threads[i]? with
  | some (.done r) => some r
  | _ => none

end TraceDB
