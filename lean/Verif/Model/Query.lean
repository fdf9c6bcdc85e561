import Verif.Model.Predicate
/-
The query engine (cffi-interface/trace-db/Trace.hpp, TracePoint.hpp) and the
query part of the C interface (cffi-interface/trace-db.cpp).
-/
namespace TraceDB

/-- `class FreeVariable` (QueryObjects.hpp:249-253) without the hash: the type
indices a free variable may be bound to. -/
abbrev FreeVar := List U32

/-- A way of deciding predicates with some state (the predicate cache of
TracePoint.hpp:69-80, or nothing): predicate, bound variables, state. -/
abbrev Evaluator (σ : Type) := Pred → List VarInfo → σ → Res (Bool × σ)

/-- Evaluation without a cache.  For cffi-interface/trace-db/TracePoint.hpp:69-80. -/
def plainEval (fs : FloatSys) : Evaluator Unit := fun p vs s => do
  let b ← predicateSatisfied fs vs p
  pure (b, s)

/-- The number of results computed by `cartesian` in a `size_t`
(Trace.hpp:131-133). -/
def cartesianCount (vectors : List (List Nat)) : Nat :=
  vectors.foldl (fun n v => (n * v.length) % 2 ^ 64) 1

/-- One result of `cartesian` (Trace.hpp:139-145). A remainder by zero and an
access out of bounds are undefined. -/
def cartesianPick : List (List Nat) → Nat → Res (List Nat)
  | [], _ => .ok []
  | v :: vs, quotient =>
    match v[quotient % v.length]? with
    | none => .ub .oobRead
    | some x => do
      let rest ← cartesianPick vs (quotient / v.length)
      pure (x :: rest)

/-- The loop of `cartesian` (Trace.hpp:138-147) over the given result numbers. -/
def cartesianLoop (vectors : List (List Nat)) : List Nat → Res (List (List Nat))
  | [] => .ok []
  | i :: is => do
    let r ← cartesianPick vectors i
    let rs ← cartesianLoop vectors is
    pure (r :: rs)

/-- `Trace::cartesian` (Trace.hpp:126-150): `reserve` of 24 bytes per result can
fail. -/
def cartesian (env : Env) (vectors : List (List Nat)) : Res (List (List Nat)) :=
  let n := cartesianCount vectors
  if env.canAlloc (24 * n) then cartesianLoop vectors (List.range n) else .throw .alloc

/-- `Trace::typeCompatible` (Trace.hpp:152-159). -/
def typeCompatible (fv : FreeVar) (v : VarInfo) : Bool := fv.any (· == v.typeIndex)

/-- Candidates of one free variable (Trace.hpp:184-188): positions of the
variables with an allowed type. -/
def matchingVars (fv : FreeVar) (vars : List VarInfo) : List Nat :=
  (List.range vars.length).filter fun i =>
    match vars[i]? with
    | some v => typeCompatible fv v
    | none => false

/-- `m_vars[bindings[i]]` for all `i` (TracePoint.hpp:119-123 and
Trace.hpp:196-199): unchecked vector accesses. -/
def lookupVars (vars : List VarInfo) : List Nat → Res (List VarInfo)
  | [] => .ok []
  | i :: is => do
    let v ← varAt vars i
    let vs ← lookupVars vars is
    pure (v :: vs)

/-- `TracePoint::satisfiesPredicate` (TracePoint.hpp:117-126). -/
def satisfies {σ : Type} (ev : Evaluator σ) (p : Pred) (point : Point) (bindings : List Nat)
    (s : σ) : Res (Bool × σ) := do
  let vs ← lookupVars point.vars bindings
  ev p vs s

/-- The loop over all combinations of bindings (Trace.hpp:192-208). -/
def hardLoop {σ : Type} (ev : Evaluator σ) (hard : Pred) (point : Point) :
    List (List Nat) → σ → Res (List Point × σ)
  | [], s => .ok ([], s)
  | b :: bs, s => do
    let (sat, s) ← satisfies ev hard point b s
    if sat then do
      let vars ← lookupVars point.vars b
      let (rest, s) ← hardLoop ev hard point bs s
      pure ({ point with vars := vars } :: rest, s)
    else hardLoop ev hard point bs s

/-- Number of soft predicates satisfied by a result (Trace.hpp:223-228).
Simplification: the counter is not bounded (`query_trace` passes fewer than
2^32 soft predicates). -/
def softCount {σ : Type} (ev : Evaluator σ) (r : Point) (bindings : List Nat) :
    List Pred → σ → Res (Nat × σ)
  | [], s => .ok (0, s)
  | p :: ps, s => do
    let (sat, s) ← satisfies ev p r bindings s
    let (n, s) ← softCount ev r bindings ps s
    pure ((if sat then 1 else 0) + n, s)

/-- Counts of all results (Trace.hpp:222-231). -/
def softCounts {σ : Type} (ev : Evaluator σ) (soft : List Pred) (bindings : List Nat) :
    List Point → σ → Res (List Nat × σ)
  | [], s => .ok ([], s)
  | r :: rs, s => do
    let (n, s) ← softCount ev r bindings soft s
    let (ns, s) ← softCounts ev soft bindings rs s
    pure (n :: ns, s)

/-- `max_sat` (Trace.hpp:221, 230). -/
def maxSat (counts : List Nat) : Nat := counts.foldl max 0

/-- The results with the maximal count (Trace.hpp:233-236). -/
def keepMax (counts : List Nat) (rs : List Point) : List Point :=
  ((rs.zip counts).filter fun rc => rc.2 == maxSat counts).map (·.1)

/-- The result for a point when there are no free variables
(Trace.hpp:170-179). -/
def emptyResult (point : Point) : Point :=
  { point with sizes := [], vars := [], aux := [] }

/-- The results made before any bindings are looked for (Trace.hpp:167-179): a
query without free variables must not have a hard predicate. -/
def firstResults (point : Point) (variables : List FreeVar) (hard : Pred) : Res (List Point) :=
  if variables.isEmpty then
    if hard.kind = .null then .ok [emptyResult point] else .abort
  else .ok []

/-- `Trace::collectResultsAtPoint` (Trace.hpp:161-243).
The loops of lines 184 and 233 count in 32 bits and never end if there are 2^32
or more variables or results. -/
def collectResults {σ : Type} (env : Env) (ev : Evaluator σ) (point : Point)
    (variables : List FreeVar) (hard : Pred) (soft : List Pred) (s : σ) :
    Res (List Point × σ) := do
  let first ← firstResults point variables hard
  if 2 ^ 32 ≤ point.vars.length ∧ ¬ variables.isEmpty then Res.hang else do
  let bindings ← cartesian env (variables.map fun fv => matchingVars fv point.vars)
  let (found, s) ← hardLoop ev hard point bindings s
  let results := first ++ found
  if soft.isEmpty then pure (results, s)
  else do
    let (counts, s) ← softCounts ev soft (List.range variables.length) results s
    if 2 ^ 32 ≤ results.length then Res.hang
    else pure (keepMax counts results, s)

/-- The filter of `getPoints(mask, statement)` (Trace.hpp:291-295). -/
def filterPoints (points : List Point) (mask stmt : U64) : List Point :=
  points.filter fun p => p.statement &&& mask == stmt

/-- The map `m_getpoints_cache` (Trace.hpp:45) as an association list. -/
abbrev PointsCache := List ((U64 × U64) × List Point)

/-- `getPoints(mask, statement)` (Trace.hpp:282-299): the points and the cache
afterwards. -/
def getPoints (points : List Point) (cache : PointsCache) (mask stmt : U64) :
    List Point × PointsCache :=
  match cache.lookup (mask, stmt) with
  | some ps => (ps, cache)
  | none =>
    let ps := filterPoints points mask stmt
    (ps, ((mask, stmt), ps) :: cache)

/-- All points in order, results appended (Trace.hpp:349-358). -/
def queryAll {σ : Type} (env : Env) (ev : Evaluator σ) (variables : List FreeVar)
    (hard : Pred) (soft : List Pred) : List Point → σ → Res (List Point × σ)
  | [], s => .ok ([], s)
  | p :: ps, s => do
    let (r, s) ← collectResults env ev p variables hard soft s
    let (rs, s) ← queryAll env ev variables hard soft ps s
    pure (r ++ rs, s)

/-- `Trace::query` (Trace.hpp:326-362) on the points that passed the filter.
`pick seed n` is the number drawn by `mt19937(seed)` with
`uniform_int_distribution(0, n - 1)`. -/
def queryPoints {σ : Type} (env : Env) (pick : U32 → Nat → Nat) (ev : Evaluator σ)
    (points : List Point) (variables : List FreeVar) (hard : Pred) (soft : List Pred)
    (seed : U32) (s : σ) : Res (List Point × σ) :=
  if seed ≠ 0 then
    if points.isEmpty then .ok ([], s)
    else match points[pick seed points.length]? with
      | none => .ub .oobRead
      | some p => collectResults env ev p variables hard soft s
  else queryAll env ev variables hard soft points s

/-- A query as passed to `Trace::query` (Trace.hpp:327-331). -/
structure Query where
  variables : List FreeVar
  hard : Pred
  soft : List Pred
  seed : U32
  mask : U64
  stmt : U64

/-- `Trace::query` (Trace.hpp:326-362) with the cache of the trace and the state
of the evaluator. -/
def query {σ : Type} (env : Env) (pick : U32 → Nat → Nat) (ev : Evaluator σ)
    (t : Trace) (q : Query) (cache : PointsCache) (s : σ) :
    Res (List Point × PointsCache × σ) := do
  let (points, cache) := getPoints t.points cache q.mask q.stmt
  let (results, s) ← queryPoints env pick ev points q.variables q.hard q.soft q.seed s
  pure (results, cache, s)

/-- `equalfn` of `deduplicate_results` (trace-db.cpp:276-289). -/
def sameBinding (a b : Point) : Bool :=
  a.statement == b.statement && a.vars.length == b.vars.length &&
  (a.vars.zip b.vars).all fun (x, y) => x.nameIndex == y.nameIndex && x.typeIndex == y.typeIndex

/-- The loop of `deduplicate_results` (trace-db.cpp:295-300) with the contents of
the set.  Simplification: a hash set finds an equal element if there is one
(`hashfn` gives equal hashes to equal elements by construction). -/
def dedupLoop : List Point → List Point → List Point
  | _, [] => []
  | set, p :: ps =>
    if set.any (sameBinding · p) then dedupLoop set ps
    else p :: dedupLoop (p :: set) ps

/-- `deduplicate_results` (trace-db.cpp:264-303). -/
def deduplicate (ps : List Point) : List Point := dedupLoop [] ps

/-- The result list of `query_trace` (trace-db.cpp:332-344) before it is
exported to C. -/
def queryTrace {σ : Type} (env : Env) (pick : U32 → Nat → Nat) (ev : Evaluator σ)
    (t : Trace) (q : Query) (keepDuplicates : Bool) (cache : PointsCache) (s : σ) :
    Res (List Point × PointsCache × σ) := do
  let (rs, cache, s) ← query env pick ev t q cache s
  pure (if keepDuplicates then rs else deduplicate rs, cache, s)

end TraceDB
