import Verif.Model.ConcurrentQuery
/-
Queries that end with an exception because memory runs out (`std::bad_alloc`), made one after
the other by a C++ program that goes on afterwards.  What such a query has done to the two
caches (cffi-interface/trace-db/Trace.hpp:45, 282-299, TracePoint.hpp:69-80) stays.
-/
namespace TraceDB

/-- At most `n` steps of a query (`Trace::query`, Trace.hpp:326-362). -/
def QProc.advance {α : Type} : Nat → QProc α → QShared → QProc α × QShared
  | 0, p, s => (p, s)
  | _ + 1, .done r, s => (.done r, s)
  | n + 1, .act c k, s => (k s).advance n (c s)

/-- All steps of a query.  For cffi-interface/trace-db/Trace.hpp:282-299, 327-362. -/
def QProc.finish {α : Type} : QProc α → QShared → Res α × QShared
  | .done r, s => (r, s)
  | .act c k, s => (k s).finish (c s)

/-- A query for which memory may run out: `fails = some n` if an allocation fails after `n`
steps.  A step of the model stands for one change of a cache or one look into it.  A change
either happens or, when it is the one that needs the memory, does not: `operator[]` of the
maps (Trace.hpp:290, TracePoint.hpp:76) and `push_back` (Trace.hpp:293) have no effect if they
throw.  Everything else a query allocates is its own and freed by the exception.
Simplification: an allocation may fail before any step, also where the code makes none. -/
structure Attempt where
  job : QueryJob
  fails : Option Nat

/-- The outcome of the query, `none` if it ends with `bad_alloc`, and the caches afterwards.
For cffi-interface/trace-db/Trace.hpp:282-299, 327-362. -/
def Attempt.run (early : Bool) (fs : FloatSys) (env : Env) (pick : U32 → Nat → Nat) (traces : Nat → Trace)
    (a : Attempt) (s : QShared) : Option (Res (List Point)) × QShared :=
  match a.fails with
  | none => let (r, s') := (queryP early fs env pick traces a.job).finish s; (some r, s')
  | some n =>
    match (queryP early fs env pick traces a.job).advance n s with
    | (.done r, s') => (some r, s')
    | (.act _ _, s') => (none, s')

/-- One query after the other (Trace.hpp:326-362). -/
def runAttempts (early : Bool) (fs : FloatSys) (env : Env) (pick : U32 → Nat → Nat) (traces : Nat → Trace) :
    List Attempt → QShared → List (Option (Res (List Point))) × QShared
  | [], s => ([], s)
  | a :: as, s =>
    let (o, s) := a.run early fs env pick traces s
    let (os, s) := runAttempts early fs env pick traces as s
    (o :: os, s)

end TraceDB
