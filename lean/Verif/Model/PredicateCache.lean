import Verif.Model.Query
/-
The process-wide predicate cache (cffi-interface/trace-db/TracePoint.hpp:69-80).
-/
namespace TraceDB

/-- An entry of `m_cache` (TracePoint.hpp:72).  The key is an
`EvaluatePredicate`, which holds two *references* and a hash
(QueryObjects.hpp:508-510); `pred`/`vars` are what the references referred to
when the entry was made, `born` is the number of the evaluation that made it and
`query` the number of the query it was made in. -/
structure CacheEntry where
  pred : Pred
  vars : List VarInfo
  hash : U64
  born : Nat
  query : Nat
  answer : Bool

/-- What the C++ source leaves open about the cache.
`hash t p vs`: hash of the key in evaluation number `t` (hashing a flyweight
hashes an address, so the same variables may hash differently at another time).
`dead`: outcome of comparing with a key whose references dangle; `none` is
undefined behaviour, `some f` lets `f t k e` decide the comparison with the entry
`e` in lookup `k` (0, 1, 2) of evaluation `t`.  For cffi-interface/trace-db/TracePoint.hpp:69-80. -/
structure CacheEnv where
  hash : Nat → Pred → List VarInfo → U64
  dead : Option (Nat → Nat → CacheEntry → Bool)

/-- Cache contents, number of the next evaluation, number of the current query.
For cffi-interface/trace-db/TracePoint.hpp:69-80. -/
structure CacheState where
  entries : List CacheEntry
  now : Nat
  query : Nat

/-- `EvaluatePredicate::operator==` (QueryObjects.hpp:711-714) between the key of
evaluation `t` in query `q` and a stored key, in lookup `k`.
The `variables` a stored key refers to are a local of
`TracePointData::satisfiesPredicate` (TracePoint.hpp:119) and dead unless the
entry was made in this very evaluation; the predicate is alive during the query
it was passed to (it is a local of `query_trace`, trace-db.cpp:321-330).
The predicates are compared first and different ones settle the matter. -/
def compareKey (ce : CacheEnv) (t k q : Nat) (p : Pred) (e : CacheEntry) : Res Bool :=
  if e.born = t then .ok true
  else if e.query = q ∧ ¬ (p.eqv e.pred) then .ok false
  else match ce.dead with
    | none => .ub .dangling
    | some f => .ok (f t k e)

/-- `m_cache.find(functor)`: position of the first entry with the same hash whose
key compares equal.  libstdc++ stores the hash codes and compares keys only when
they agree.  Simplification: the order within a bucket is the list order.  For cffi-interface/trace-db/TracePoint.hpp:69-80. -/
def cacheFind (ce : CacheEnv) (t k q : Nat) (p : Pred) (h : U64) :
    List CacheEntry → Res (Option Nat)
  | [] => .ok none
  | e :: es => do
    let hit ← if e.hash = h then compareKey ce t k q p e else Res.ok false
    if hit then pure (some 0)
    else do
      let r ← cacheFind ce t k q p h es
      pure (r.map (· + 1))

/-- The answer stored at a position.  For cffi-interface/trace-db/TracePoint.hpp:69-80. -/
def answerAt (es : List CacheEntry) (i : Nat) : Bool :=
  match es[i]? with
  | some e => e.answer
  | none => false

/-- `TracePointData::cachedSatisfiesPredicate` (TracePoint.hpp:69-80): three
lookups; `operator[]` inserts `false` when it finds nothing. -/
def cachedEval (fs : FloatSys) (ce : CacheEnv) : Evaluator CacheState := fun p vs s => do
  let h := ce.hash s.now p vs
  let new (b : Bool) : CacheEntry := ⟨p, vs, h, s.now, s.query, b⟩
  let r ← cacheFind ce s.now 0 s.query p h s.entries
  let es ← match r with
    | some _ => Res.ok s.entries
    | none => do
      let b ← predicateSatisfied fs vs p
      let r ← cacheFind ce s.now 1 s.query p h s.entries
      match r with
      | some i => pure (s.entries.modify i fun e => { e with answer := b })
      | none => pure (new b :: s.entries)
  let r ← cacheFind ce s.now 2 s.query p h es
  match r with
  | some i => pure (answerAt es i, { s with entries := es, now := s.now + 1 })
  | none => pure (false, { s with entries := new false :: es, now := s.now + 1 })

/-- A session: queries on traces one after the other (each call of `query_trace`,
trace-db.cpp:305-349), all using the one process-wide cache. -/
def runQueries (fs : FloatSys) (ce : CacheEnv) (env : Env) (pick : U32 → Nat → Nat) :
    List (Trace × Query) → CacheState → Res (List (List Point) × CacheState)
  | [], s => .ok ([], s)
  | (t, q) :: rest, s => do
    let (rs, _, s) ← query env pick (cachedEval fs ce) t q [] s
    let (more, s) ← runQueries fs ce env pick rest { s with query := s.query + 1 }
    pure (rs :: more, s)

end TraceDB
