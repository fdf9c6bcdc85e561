import Verif.Model.Archive
import Verif.Model.PredicateCache
/-
A process that uses several databases through the C interface (cffi-interface/trace-db.cpp:23-189,
305-349); all of them share the predicate cache (cffi-interface/trace-db/TracePoint.hpp:69-80).
-/
namespace TraceDB

/-- Calls of the interface.  A database is named by its number in the order of creation.
For cffi-interface/trace-db.cpp:23-189, 305-349. -/
inductive PCall where
  | create
  | free (d : Nat)
  | on (d : Nat) (c : Call)
  | store (d : Nat)
  | load (text : List U8)

/-- What a call returns: a pointer to a new database, nothing, the answer of a call on one
database, or a text.  For cffi-interface/trace-db.cpp:23-189, 305-349. -/
inductive PAnswer where
  | handle (d : Nat)
  | done
  | call (a : Answer)
  | text (t : List U8)
  deriving DecidableEq

/-- All databases ever made, `none` for those that have been freed, and the state of the
predicate cache.  For cffi-interface/trace-db.cpp:23-189, 305-349. -/
structure DbProc (σ : Type) where
  dbs : List (Option Db)
  state : σ

/-- The database behind a pointer.  For cffi-interface/trace-db.cpp:23-189, 305-349. -/
def DbProc.db {σ : Type} (p : DbProc σ) (d : Nat) : Res Db :=
  match p.dbs[d]? with
  | some (some db) => .ok db
  | some none => .ub .dangling
  | none => .ub .misuse

/-- The state of the cache after a call: `next` is applied after every query, when its
predicates have been freed (trace-db.cpp:345-348). -/
def afterCall {σ : Type} (next : σ → σ) (c : Call) (s : σ) : σ :=
  match c with
  | .query .. => next s
  | _ => s

/-- One call: `create_db` (trace-db.cpp:23-26), `free_db` (185-189), the calls on one database,
`serialize_trace_db` (159-171), `deserialize_trace_db` (173-183).  Simplification: an exception of
the archive is not caught by anybody and ends the process. -/
def procCall {σ : Type} (w : World) (ev : Evaluator σ) (next : σ → σ) (version : Nat) (p : DbProc σ) :
    PCall → Res (PAnswer × DbProc σ)
  | .create => .ok (.handle p.dbs.length, { p with dbs := p.dbs ++ [some Db.create] })
  | .free d =>
    match p.dbs[d]? with
    | some (some _) => .ok (.done, { p with dbs := p.dbs.set d none })
    | _ => .ub .badFree
  | .on d c => do
    let db ← p.db d
    let (a, db, s) ← runCall w ev db p.state c
    pure (.call a, ⟨p.dbs.set d (some db), afterCall next c s⟩)
  | .store d => do
    let db ← p.db d
    pure (.text (serializeDb version db), p)
  | .load text =>
    match deserializeDb text with
    | none => .abort
    | some db => .ok (.handle p.dbs.length, { p with dbs := p.dbs ++ [some db] })

/-- A whole run of the process.  For cffi-interface/trace-db.cpp:23-189, 305-349. -/
def runProc {σ : Type} (w : World) (ev : Evaluator σ) (next : σ → σ) (version : Nat) :
    DbProc σ → List PCall → Res (List PAnswer × DbProc σ)
  | p, [] => .ok ([], p)
  | p, c :: cs => do
    let (a, p) ← procCall w ev next version p c
    let (as, p) ← runProc w ev next version p cs
    pure (a :: as, p)

/-- After a query the predicates of its cache entries are gone.  For cffi-interface/trace-db.cpp:23-189, 305-349. -/
def nextQuery (s : CacheState) : CacheState := { s with query := s.query + 1 }

end TraceDB
