import Verif.Model.LispDb
import Verif.Model.Export
import Verif.Model.PredicateMemory
/-
The foreign memory that `query-trace` and `get-trace` of the binary database handle
(binary-trace-db.lisp:166-197, 360-386, 447-613): the arrays made by Lisp, the predicates,
and the arrays of results made by C (cffi-interface/trace.cpp, trace-db.cpp).
-/
namespace TraceDB

/-- What an array made by Lisp (`create-foreign-array`, `foreign-alloc`) or by `get_types`
and `get_names` holds: type indices, `c_free_variable` structures (trace-db.h; number of
allowed types and their array, `none` before they are stored), pointers to predicates,
strings.  For binary-trace-db.lisp:447-613. -/
inductive AData where
  | types (l : List U32)
  | vars (l : List (Option (U32 × Nat)))
  | ptrs (l : List (Option Nat))
  | strings (l : List (List U8))
  deriving DecidableEq, Repr

/-- A block with such an array.  For binary-trace-db.lisp:447-613. -/
structure ABlock where
  live : Bool
  data : AData
  deriving DecidableEq, Repr

/-- The blocks with arrays allocated so far; the address of a block is its number.  For binary-trace-db.lisp:447-613. -/
abbrev AHeap := List ABlock

/-- Foreign memory.  Simplifications: the blocks with arrays, with predicates and with
results are numbered separately; allocations by Lisp, `get_types` and `get_names`
succeed, and an array of length 0 is a block.  For binary-trace-db.lisp:447-613. -/
structure FMem where
  arrays : AHeap
  preds : PHeap
  results : Heap
  deriving DecidableEq, Repr

/-- Code that works on foreign memory.  The memory is kept when an error is
signalled.  For binary-trace-db.lisp:447-613. -/
def FM (α : Type) : Type := FMem → Res α × FMem

namespace FM

/-- Sequencing. -/
protected def bind {α β : Type} (x : FM α) (f : α → FM β) : FM β := fun m =>
  match x m with
  | (.ok a, m) => f a m
  | (.throw e, m) => (.throw e, m)
  | (.abort, m) => (.abort, m)
  | (.ub k, m) => (.ub k, m)
  | (.hang, m) => (.hang, m)

instance : Monad FM where
  pure a := fun m => (.ok a, m)
  bind := FM.bind

/-- Code that does not touch the memory.  For binary-trace-db.lisp:447-613. -/
def lift {α : Type} (r : Res α) : FM α := fun m => (r, m)

/-- `foreign-alloc`, filled at once.  For binary-trace-db.lisp:447-453. -/
def alloc (d : AData) : FM Nat := fun m =>
  (.ok m.arrays.length, { m with arrays := m.arrays ++ [⟨true, d⟩] })

/-- Access to an array.  For binary-trace-db.lisp:447-613. -/
def array (b : Nat) : FM AData := fun m =>
  match m.arrays[b]? with
  | some blk => if blk.live then (.ok blk.data, m) else (.ub .dangling, m)
  | none => (.ub .oobRead, m)

/-- `foreign-free`.  For binary-trace-db.lisp:447-613. -/
def free (b : Nat) : FM Unit := fun m =>
  match m.arrays[b]? with
  | some blk =>
    if blk.live then (.ok (), { m with arrays := m.arrays.set b { blk with live := false } })
    else (.ub .badFree, m)
  | none => (.ub .badFree, m)

/-- `(setf (mem-aref var-array ...) ...)` (binary-trace-db.lisp:545-547). -/
def setVar (b i : Nat) (e : U32 × Nat) : FM Unit := fun m =>
  match m.arrays[b]? with
  | some ⟨true, .vars l⟩ =>
    if i < l.length then (.ok (), { m with arrays := m.arrays.set b ⟨true, .vars (l.set i (some e))⟩ })
    else (.ub .oobWrite, m)
  | some _ => (.ub .dangling, m)
  | none => (.ub .oobWrite, m)

/-- Code that works on the predicates.  For binary-trace-db.lisp:447-613. -/
def onPreds {α : Type} (f : PHeap → Res α × PHeap) : FM α := fun m =>
  let (r, h) := f m.preds
  (r, { m with preds := h })

/-- Code that works on the results.  For binary-trace-db.lisp:447-613. -/
def onResults {α : Type} (f : Heap → Res α × Heap) : FM α := fun m =>
  let (r, h) := f m.results
  (r, { m with results := h })

/-- `unwind-protect`: the cleanup runs after a normal return and after a Lisp error.
C++ exceptions are not Lisp errors: nothing catches them, which ends the process.  For binary-trace-db.lisp:447-613. -/
def unwindProtect {α : Type} (body : FM α) (cleanup : FM Unit) : FM α := fun m =>
  match body m with
  | (.ok a, m) => FM.bind cleanup (fun _ => lift (.ok a)) m
  | (.throw .lisp, m) => FM.bind cleanup (fun _ => lift (.throw .lisp)) m
  | r => r

end FM

/-- `C` functions that change a heap: on anything but a normal return the heap is that
before the call (the process is not continued in any of these cases).  For binary-trace-db.lisp:447-613. -/
def keepHeap {α β : Type} (f : β → Res (α × β)) (h : β) : Res α × β :=
  match f h with
  | .ok (a, h) => (.ok a, h)
  | .throw e => (.throw e, h)
  | .abort => (.abort, h)
  | .ub k => (.ub k, h)
  | .hang => (.hang, h)

/-! Types and free variables -/

/-- `trace-types` (binary-trace-db.lisp:360-371): the array made by `get_types` is read
and freed. -/
def traceTypesM (t : Trace) : FM (List (List U8)) := do
  let ts ← FM.lift (getTypes t)
  let b ← FM.alloc (.strings ts)
  match ← FM.array b with
  | .strings l => do
    FM.free b
    pure l
  | _ => FM.lift (.ub .misuse)

/-- `(position type trace-types :test #'string=)` (binary-trace-db.lisp:536). -/
def typePosition (types : List (List U8)) (n : List U8) : Option Nat :=
  if types.findIdx (· == n) < types.length then some (types.findIdx (· == n)) else none

/-- The elements stored by `lisp-array-to-foreign` for `:uint32`, and whether all could be:
`nil` is an error.  For binary-trace-db.lisp:447-453. -/
def storeTypes : List (Option Nat) → List U32 × Bool
  | [] => ([], true)
  | none :: _ => ([], false)
  | some i :: is => (BitVec.ofNat 32 i :: (storeTypes is).1, (storeTypes is).2)

/-- `create-foreign-array` (binary-trace-db.lisp:447-453) for the types of a free
variable: the array is allocated before it is filled. -/
def createTypes (ps : List (Option Nat)) : FM Nat := do
  let b ← FM.alloc (.types (storeTypes ps).1)
  if (storeTypes ps).2 then pure b else FM.lift (.throw .lisp)

/-- The loop over the free variables (binary-trace-db.lisp:542-547). -/
def fillVars (vars : Nat) : Nat → List (List (Option Nat)) → FM Unit
  | _, [] => pure ()
  | i, ts :: tss => do
    let b ← createTypes ts
    FM.setVar vars i (BitVec.ofNat 32 ts.length, b)
    fillVars vars (i + 1) tss

/-- `free-vars` of `query-trace` (binary-trace-db.lisp:535-548). -/
def freeVarsM (types : List (List U8)) (varTypes : List (List (List U8))) : FM Nat := do
  let vars ← FM.alloc (.vars (List.replicate varTypes.length none))
  fillVars vars 0 (varTypes.map fun ts => ts.map (typePosition types))
  pure vars

/-! Predicates with what an error leaves behind -/

/-- The elements stored for an array of predicates before one that does not fit (`none`).  For binary-trace-db.lisp:447-453. -/
def storedCells : List (Option CPred) → List CPred
  | some c :: cs => c :: storedCells cs
  | _ => []

/-- `create-foreign-array` (binary-trace-db.lisp:447-453) for predicates: allocated first,
then filled; an integer that does not fit is an error of the latter. -/
def createPreds (cells : List (Option CPred)) (h : PHeap) : Option Nat × PHeap :=
  let (b, h) := h.alloc (storedCells cells)
  (if cells.all Option.isSome then some b else none, h)

mutual
/-- `helper` of `build-predicate` (binary-trace-db.lisp:457-514) with the memory.  The
result is `none` after an error, `some none` for an integer that does not fit, which is
noticed when it is stored. -/
def buildHelperM (names : List Nat) : SExp → PHeap → Option (Option CPred) × PHeap
  | .int i, h => (some (buildInt i), h)
  | .float bits, h => (some (some ⟨.floatValue, 0, 0, 0, 0, bits, none⟩), h)
  | .sym x, h => ((position x names).map fun i => some ⟨.varReference, 0, BitVec.ofNat 64 i, 0, 0, 0, none⟩, h)
  | .nil, h => (none, h)
  | .call op args, h =>
    match op.kind with
    | none => (none, h)
    | some k =>
      match buildArgsM names args h with
      | (none, h) => (none, h)
      | (some cells, h) =>
        match createPreds cells h with
        | (none, h) => (none, h)
        | (some b, h) => (some (some ⟨k, BitVec.ofNat 64 args.length, 0, 0, 0, 0, some b⟩), h)
/-- `(map 'vector #'helper args)` (binary-trace-db.lisp:510). -/
def buildArgsM (names : List Nat) : List SExp → PHeap → Option (List (Option CPred)) × PHeap
  | [], h => (some [], h)
  | s :: ss, h =>
    match buildHelperM names s h with
    | (none, h) => (none, h)
    | (some c, h) =>
      match buildArgsM names ss h with
      | (none, h) => (none, h)
      | (some cs, h) => (some (c :: cs), h)
end

/-- `build-predicate` (binary-trace-db.lisp:455-522).  Simplification: the block for the
root, which is allocated first, is numbered after those of the children, also after an
error. -/
def buildPredicateM (names : List Nat) (s : SExp) (h : PHeap) : Res (Option Nat) × PHeap :=
  match s with
  | .nil => (.ok none, h)
  | s =>
    match buildHelperM names s h with
    | (some (some c), h) =>
      let (b, h) := h.alloc [c]
      (.ok (some b), h)
    | (_, h) =>
      let (_, h) := h.alloc []
      (.throw .lisp, h)

/-- `(map 'vector {build-predicate var-names} soft-predicates)`
(binary-trace-db.lisp:551-552). -/
def buildSoftsM (names : List Nat) : List SExp → FM (List (Option Nat))
  | [] => pure []
  | s :: ss => do
    let p ← FM.onPreds (buildPredicateM names s)
    let ps ← buildSoftsM names ss
    pure (p :: ps)

/-! The call of `query_trace` -/

/-- `create_free_variable_obj` (trace-db.cpp:191-197) for element `i` of the array: the
allowed types are copied. -/
def readVar (vars i : Nat) : FM FreeVar := do
  match ← FM.array vars with
  | .vars l =>
    match l[i]? with
    | some (some (n, b)) => do
      match ← FM.array b with
      | .types ts => if n.toNat ≤ ts.length then pure (ts.take n.toNat) else FM.lift (.ub .oobRead)
      | _ => FM.lift (.ub .misuse)
    | some none => FM.lift (.ub .uninit)
    | none => FM.lift (.ub .oobRead)
  | _ => FM.lift (.ub .misuse)

/-- The loop over the free variables (trace-db.cpp:324-326). -/
def readVars (vars : Nat) : Nat → Nat → FM (List FreeVar)
  | _, 0 => pure []
  | i, n + 1 => do
    let fv ← readVar vars i
    let fvs ← readVars vars (i + 1) n
    pure (fv :: fvs)

/-- `create_predicate_obj` (trace-db.cpp:199-242). -/
def readPred (p : Option Nat) : FM Pred := FM.onPreds fun h => (createPredicateObj h p, h)

/-- The loop over the soft predicates (trace-db.cpp:328-330). -/
def readSofts (arr : Nat) : Nat → Nat → FM (List Pred)
  | _, 0 => pure []
  | i, n + 1 => do
    match ← FM.array arr with
    | .ptrs l =>
      match l[i]? with
      | some p => do
        let q ← readPred p
        let qs ← readSofts arr (i + 1) n
        pure (q :: qs)
      | none => FM.lift (.ub .oobRead)
    | _ => FM.lift (.ub .misuse)

/-- What the machine and the library leave open.  For binary-trace-db.lisp:447-613. -/
structure QueryWorld (σ : Type) where
  env : Env
  pick : U32 → Nat → Nat
  ev : Evaluator σ
  abi : Abi
  alloc : AllocEnv

/-- `query_trace` (trace-db.cpp:305-349) on a trace: the results as an array in memory and
their number. -/
def queryTraceM {σ : Type} (w : QueryWorld σ) (t : Trace) (vars nVars : Nat) (hard : Option Nat)
    (softs nSofts : Nat) (seed : U32) (keep : Bool) (mask stmt : U64) (cache : PointsCache) (s : σ) :
    FM (Nat × Nat × PointsCache × σ) := do
  let h ← readPred hard
  let fvs ← readVars vars 0 nVars
  let ss ← readSofts softs 0 nSofts
  let (rs, cache, s) ← FM.lift (queryTrace w.env w.pick w.ev t ⟨fvs, h, ss, seed, mask, stmt⟩ keep cache s)
  let p ← FM.onResults (keepHeap (pointsToArray w.abi w.alloc t.types rs))
  pure (p, rs.length, cache, s)

/-! Conversion of the results -/

/-- `get-names` (binary-trace-db.lisp:171-178). -/
def getNamesM (t : Trace) : FM (List (List U8)) := do
  let b ← FM.alloc (.strings (getNames t))
  match ← FM.array b with
  | .strings l => do
    FM.free b
    pure l
  | _ => FM.lift (.ub .misuse)

/-- A variable read from memory (binary-trace-db.lisp:72-101) with its names looked up
(lines 179-182). -/
def lispCell (names : List (List U8)) : Cell → Res LVar
  | .var c =>
    match names[c.nameIndex.toNat]?, names[c.typeNameIndex.toNat]? with
    | some n, some tn => do
      let x ← lispValue ⟨c.value, c.nameIndex, 0, c.format, c.size, c.bufferSize, c.hasBufferSize⟩
      pure ⟨n, tn, x, if c.hasBufferSize then some c.bufferSize.toNat else none⟩
    | _, _ => .throw .lisp
  | _ => .ub .uninit

/-- The variables of a point (binary-trace-db.lisp:118-124, 179-182), `n` of them from
element `i`. -/
def lispScopes (names : List (List U8)) (p : Nat) (h : Heap) : Nat → Nat → Res (List LVar)
  | _, 0 => .ok []
  | i, n + 1 => do
    let c ← loadCell p i h
    let x ← lispCell names c
    let xs ← lispScopes names p h (i + 1) n
    pure (x :: xs)

/-- The auxiliary values of a point (binary-trace-db.lisp:125-128). -/
def lispAux (p : Nat) (h : Heap) : Nat → Nat → Res (List U64)
  | _, 0 => .ok []
  | i, n + 1 => do
    match ← loadCell p i h with
    | .word u => do
      let us ← lispAux p h (i + 1) n
      pure (u :: us)
    | _ => .ub .uninit

/-- `convert-trace-point` of element `i` (binary-trace-db.lisp:102-128, 179-183). -/
def lispPointAt (names : List (List U8)) (points i : Nat) (h : Heap) : Res LPoint := do
  match ← loadCell points i h with
  | .point c => do
    let scopes ← lispScopes names c.vars h 0 c.nVars.toNat
    let aux ← lispAux c.aux h 0 c.nAux.toNat
    pure ⟨unpackC c.statement, unpackF c.statement, scopes, aux⟩
  | _ => .ub .uninit

/-- The loop of `convert-trace-points` (binary-trace-db.lisp:186-197): each point is
converted and passed to the filter, which can signal an error (`none`). -/
def convertLoop (names : List (List U8)) (filter : LPoint → Option Bool) (points : Nat) (h : Heap) :
    Nat → Nat → Res (List LPoint)
  | _, 0 => .ok []
  | i, n + 1 => do
    let p ← lispPointAt names points i h
    match filter p with
    | none => .throw .lisp
    | some keep => do
      let ps ← convertLoop names filter points h (i + 1) n
      pure (if keep then p :: ps else ps)

/-- `convert-trace-points` (binary-trace-db.lisp:166-197): the array is freed after a
normal end of the loop only (`prog1`). -/
def convertM (t : Trace) (filter : LPoint → Option Bool) (points n : Nat) : FM (List LPoint) := do
  let names ← getNamesM t
  let ps ← FM.onResults fun h => (convertLoop names filter points h 0 n, h)
  FM.onResults (keepHeap fun h => (freeTracePoints points n h) >>= fun h => .ok ((), h))
  pure ps

/-! `query-trace` and `get-trace` -/

/-- Arguments of `query-trace` with the random number drawn; a filter can signal an
error (`none`).  For binary-trace-db.lisp:447-613. -/
structure FQuery where
  varNames : List Nat
  varTypes : List (List (List U8))
  predicate : SExp
  softs : List SExp
  seed : U32
  file : Option Nat
  filter : Option (LPoint → Option Bool)

/-- `(when (or predicate soft-predicates) (assert var-names))`
(binary-trace-db.lisp:528-529). -/
def FQuery.hasNames (q : FQuery) : Bool :=
  match q.predicate, q.softs with
  | .nil, [] => true
  | _, _ => !q.varNames.isEmpty

/-- The loop of the cleanup over the soft predicates (binary-trace-db.lisp:605-607). -/
def freeSoftsM : List (Option Nat) → FM Unit
  | [] => pure ()
  | p :: ps => do
    FM.onPreds (keepHeap fun h => (freeCPredicate p h) >>= fun h => .ok ((), h))
    freeSoftsM ps

/-- The loop of the cleanup over the free variables (binary-trace-db.lisp:609-612): the
pointers are read back from the array. -/
def freeVarTypesM (vars : Nat) : Nat → Nat → FM Unit
  | _, 0 => pure ()
  | i, n + 1 => do
    match ← FM.array vars with
    | .vars l =>
      match l[i]? with
      | some (some e) => do
        FM.free e.2
        freeVarTypesM vars (i + 1) n
      | some none => FM.lift (.ub .uninit)
      | none => FM.lift (.ub .oobRead)
    | _ => FM.lift (.ub .misuse)

/-- The cleanup of `query-trace` (binary-trace-db.lisp:604-613). -/
def queryCleanup (pred : Option Nat) (softs : List (Option Nat)) (arr vars nVars : Nat) : FM Unit := do
  freeSoftsM [pred]
  freeSoftsM softs
  FM.free arr
  freeVarTypesM vars 0 nVars
  FM.free vars

/-- `query-trace` of the binary database (binary-trace-db.lisp:524-613) on a trace, with
the memory it handles.  Simplifications: the index is in range, and there are fewer than
2^32 variables and soft predicates. -/
def lispQueryM {σ : Type} (w : QueryWorld σ) (t : Trace) (q : FQuery) (cache : PointsCache) (s : σ) :
    FM (List LPoint × PointsCache × σ) := do
  if q.hasNames then do
    let types ← traceTypesM t
    let vars ← freeVarsM types q.varTypes
    let pred ← FM.onPreds (buildPredicateM q.varNames q.predicate)
    let softs ← buildSoftsM q.varNames q.softs
    let arr ← FM.alloc (.ptrs softs)
    FM.unwindProtect
      (do
        let (mask, stmt) ← FM.lift (fileArgs q.file)
        let (p, n, cache, s) ← queryTraceM w t vars q.varTypes.length pred arr softs.length q.seed
          q.filter.isSome mask stmt cache s
        match q.filter with
        | some g => do
          let ps ← convertM t g p n
          pure (removeDuplicates sameBindings ps, cache, s)
        | none => do
          let ps ← convertM t (fun _ => some true) p n
          pure (ps, cache, s))
      (queryCleanup pred softs arr vars q.varTypes.length)
  else FM.lift (.throw .lisp)

/-- `get-trace` of the binary database (binary-trace-db.lisp:373-386) on a trace: all
points exported by `get_points` (trace.cpp:36-40), converted and filtered by file. -/
def lispGetTraceM {σ : Type} (w : QueryWorld σ) (t : Trace) (file : Option Nat) : FM (List LPoint) := do
  let p ← FM.onResults (keepHeap (pointsToArray w.abi w.alloc t.types t.points))
  let ps ← convertM t (fun _ => some true) p t.points.length
  pure (ofFile file ps)

end TraceDB
