import Verif.Model.LispObjects
/-
Lisp programs that use databases: they handle errors, decide what to do by the answers they got, and
the filters of their queries are such programs themselves (binary-trace-db.lisp:166-197, 524-613).
-/
namespace TraceDB

/-- The arguments of `query_trace` (binary-trace-db.lisp:533-551, 573-580), with the
predicates already built and the random number drawn. -/
def lispQueryArgs (t : Trace) (q : LQuery) : Res Query := do
  let types ← getTypes t
  let fvs ← freeVars types q.varTypes
  let (mask, stmt) ← fileArgs q.file
  pure ⟨fvs, q.hard, q.soft, q.seed, mask, stmt⟩

/-- A query up to the return of `query_trace` (binary-trace-db.lisp:524-580): the trace that `trace-ptr`
points to, from which the names are fetched before the first result is converted (lines 185, 531), and
the results.  `none` is an error in Lisp: it comes before the call, which alone changes something. -/
def LispHeap.results {μ : Type} (w : World) (ev : Evaluator Unit) (h : LispHeap μ) (o : LispObj μ) (db : Db)
    (idx : Nat) (q : LQuery) : Res (Option (Trace × List Point) × LispHeap μ) :=
  if idx < (nTracesApi db).toNat then
    match db.traces[idx]?, db.caches[idx]? with
    | some t, some c =>
      match lispQueryArgs t { q with file := fileInForce q.file o } with
      | .ok a => do
        let ptr ← getTraceApi db (BitVec.ofNat 32 idx)
        let (rs, c, _) ← queryTrace w.env w.pick ev t a q.filter.isSome c ()
        let db := { db with caches := db.caches.set idx c }
        let t ← derefTrace db ptr
        pure (some (t, rs), { h with dbs := h.dbs.set o.db db })
      | .throw .lisp => .ok (none, h)
      | .throw e => .throw e
      | .abort => .abort
      | .ub k => .ub k
      | .hang => .hang
    | _, _ => .ub .oobRead
  else .ok (none, h)

/-- `convert-trace-points` (binary-trace-db.lisp:184-197): each result is converted and given to the filter
before the next one; the first error ends it.  The filter may change the heap. -/
def filterResults {H : Type} (t : Trace) (filter : LPoint → H → Res (Option Bool × H)) : List Point → H →
    Res (Option (List LPoint) × H)
  | [], h => .ok (some [], h)
  | p :: ps, h =>
    match lispPoint t p with
    | .ok l => do
      let (b, h) ← filter l h
      match b with
      | none => pure (none, h)
      | some b => do
        let (r, h) ← filterResults t filter ps h
        pure (r.map fun ls => if b then l :: ls else ls, h)
    | .throw .lisp => .ok (none, h)
    | .throw e => .throw e
    | .abort => .abort
    | .ub k => .ub k
    | .hang => .hang

/-- A filter that changes nothing and signals no errors; without one all points pass
(binary-trace-db.lisp:167). -/
def plainFilter {H : Type} (filter : Option (LPoint → Bool)) (l : LPoint) (h : H) : Res (Option Bool × H) :=
  .ok (some (match filter with | some g => g l | none => true), h)

/-- The answer to a query (binary-trace-db.lisp:581-604); `nth` is called after the filter. -/
def LispHeap.answer {μ : Type} (h : LispHeap μ) (i idx : Nat) (filter : Bool) (ls : List LPoint) : LispAnswer μ :=
  .results (if filter then removeDuplicates sameBindings ls else ls) (h.metadata i)[idx]?

/-- One operation whose errors are handled: `none`.  All operations but queries signal errors before they
change anything: `add-trace-points` builds all its arguments first, and metadata is stored last.
For binary-trace-db.lisp:166-197, 524-613. -/
def handledStep {μ : Type} (w : World) (version : Nat) (ev : Evaluator Unit) (op : ObjOp μ) (h : LispHeap μ) :
    Res (Option (LispAnswer μ) × LispHeap μ) :=
  match op with
  | .query i idx q =>
    match h.objs[i]? with
    | none => .ok (none, h)
    | some o =>
      match h.dbs[o.db]? with
      | none => .ub .dangling
      | some db => do
        let (r, h) ← h.results w ev o db idx q
        match r with
        | none => pure (none, h)
        | some (t, rs) => do
          let (ls, h) ← filterResults t (plainFilter q.filter) rs h
          pure (ls.map (h.answer i idx q.filter.isSome), h)
  | op =>
    match lispStep w version ev h () op with
    | .ok (x, h, _) => .ok (some x, h)
    | .throw .lisp => .ok (none, h)
    | .throw e => .throw e
    | .abort => .abort
    | .ub k => .ub k
    | .hang => .hang

/-- A history in which errors are handled.  For binary-trace-db.lisp:166-197, 524-613. -/
def handledRun {μ : Type} (w : World) (version : Nat) (ev : Evaluator Unit) :
    List (ObjOp μ) → LispHeap μ → Res (List (Option (LispAnswer μ)) × LispHeap μ)
  | [], h => .ok ([], h)
  | op :: ops, h => do
    let (x, h) ← handledStep w version ev op h
    let (xs, h) ← handledRun w version ev ops h
    pure (x :: xs, h)

/-- A program: it ends with a generalized boolean or an error (`none`), or it does something and goes on depending
on the answer (`none` if that signalled an error).  The filter of a query is a program.
For binary-trace-db.lisp:166-197, 524-613. -/
inductive Script (μ : Type) where
  | done (r : Option Bool)
  | call (op : ObjOp μ) (k : Option (LispAnswer μ) → Script μ)
  | query (i idx : Nat) (q : LQuery) (filter : LPoint → Script μ) (k : Option (LispAnswer μ) → Script μ)

/-- Running it; also returns all answers in the order in which they came.  The `filter` of `q` itself is not
used in `Script.query`.  For binary-trace-db.lisp:166-197, 524-613. -/
def Script.run {μ : Type} (w : World) (version : Nat) (ev : Evaluator Unit) :
    Script μ → LispHeap μ × List (Option (LispAnswer μ)) → Res (Option Bool × LispHeap μ × List (Option (LispAnswer μ)))
  | .done r, h => .ok (r, h)
  | .call op k, (h, log) => do
    let (x, h) ← handledStep w version ev op h
    Script.run w version ev (k x) (h, log ++ [x])
  | .query i idx q filter k, (h, log) =>
    match h.objs[i]? with
    | none => Script.run w version ev (k none) (h, log ++ [none])
    | some o =>
      match h.dbs[o.db]? with
      | none => .ub .dangling
      | some db => do
        let (r, h) ← h.results w ev o db idx { q with filter := some fun _ => true }
        match r with
        | none => Script.run w version ev (k none) (h, log ++ [none])
        | some (t, rs) => do
          let (ls, h, log) ← filterResults t (fun l => Script.run w version ev (filter l)) rs (h, log)
          let x := ls.map (h.answer i idx true)
          Script.run w version ev (k x) (h, log ++ [x])

end TraceDB
