import Verif.Model.ForeignPoints
import Verif.Model.QueryMemory
/-
A query on its way from Lisp to C++ and its results on their way back, byte by byte
(binary-trace-db.lisp:390-613, cffi-interface/trace-db.cpp:191-242, 305-349).
-/
namespace TraceDB

/-- `enum predicate_kind` (QueryObjects.hpp:32-60) in the order of its values. -/
def cPredicateKinds : List PKind :=
  [.null, .varReference, .varSize, .varValue, .distinctVars, .signedValue, .unsignedValue, .floatValue, .and, .or, .not,
    .greaterThan, .greaterThanOrEqual, .lessThan, .lessThanOrEqual, .equal, .add, .subtract, .multiply, .divide]
/-- `predicate-kind` (binary-trace-db.lisp:390-410) in the order of its values. -/
def lispPredicateKinds : List PKind :=
  [.null, .varReference, .varSize, .varValue, .distinctVars, .signedValue, .unsignedValue, .floatValue, .and, .or, .not,
    .greaterThan, .greaterThanOrEqual, .lessThan, .lessThanOrEqual, .equal, .add, .subtract, .multiply, .divide]

/-- `foreign-alloc`: if there is no memory, Lisp signals an error.  For binary-trace-db.lisp:447-453. -/
def lispAlloc (pl : Placing) (n : Nat) (s : FState) : Res (Nat × FState) :=
  let (a, s) := s.alloc pl n false
  if a = 0 then .throw .lisp else .ok (a, s)

/-! Predicates, written by Lisp -/

/-- `(setf (mem-aref ... '(:struct c-predicate)) ...)`: the slots of a `c-predicate`
(binary-trace-db.lisp:411-422, 449-453, 517-519); `children` is an address here, and `none`
the null pointer. -/
def storePredB (a : Nat) (c : CPred) (m : BMem) : BMem :=
  let l := cffiLayout 0 lispPredicate
  let m := m.store l a .kind (lispPredicateKinds.findIdx (· == c.kind))
  let m := m.store l a .nChildren c.nChildren.toNat
  let m := m.store l a .varIndex c.varIndex.toNat
  let m := m.store l a .unsignedValue c.unsignedValue.toNat
  let m := m.store l a .signedValue c.signedValue.toNat
  let m := m.store l a .floatValue c.floatValue.toNat
  m.store l a .children (c.children.getD 0)

/-- `lisp-array-to-foreign` for predicates (binary-trace-db.lisp:451-452), from element `i`
on. -/
def storePredsB (base : Nat) : Nat → List CPred → BMem → BMem
  | _, [], m => m
  | i, c :: cs, m => storePredsB base (i + 1) cs (storePredB (base + i * cffiSizeof lispPredicate) c m)

mutual
/-- `helper` of `build-predicate` (binary-trace-db.lisp:457-514): the values of the slots.
Simplification: an integer that does not fit is an error here already, not when it is
stored. -/
def buildHelperB (pl : Placing) (names : List Nat) : SExp → FState → Res (CPred × FState)
  | .int i, s =>
    match buildInt i with
    | some c => .ok (c, s)
    | none => .throw .lisp
  | .float bits, s => .ok (⟨.floatValue, 0, 0, 0, 0, bits, none⟩, s)
  | .sym x, s =>
    match position x names with
    | some i => .ok (⟨.varReference, 0, BitVec.ofNat 64 i, 0, 0, 0, none⟩, s)
    | none => .throw .lisp
  | .nil, _ => .throw .lisp
  | .call op args, s =>
    match op.kind with
    | none => .throw .lisp
    | some k => do
      let (cells, s) ← buildArgsB pl names args s
      let (a, s) ← lispAlloc pl (args.length * cffiSizeof lispPredicate) s
      pure (⟨k, BitVec.ofNat 64 args.length, 0, 0, 0, 0, some a⟩, ⟨storePredsB a 0 cells s.mem, s.blocks⟩)
/-- `(map 'vector #'helper args)` (binary-trace-db.lisp:508). -/
def buildArgsB (pl : Placing) (names : List Nat) : List SExp → FState → Res (List CPred × FState)
  | [], s => .ok ([], s)
  | e :: es, s => do
    let (c, s) ← buildHelperB pl names e s
    let (cs, s) ← buildArgsB pl names es s
    pure (c :: cs, s)
end

/-- `build-predicate` (binary-trace-db.lisp:455-522): the block for the root is allocated
before the others. -/
def buildPredicateB (pl : Placing) (names : List Nat) (e : SExp) (s : FState) : Res (Nat × FState) :=
  match e with
  | .nil => .ok (0, s)
  | e => do
    let (a, s) ← lispAlloc pl (cffiSizeof lispPredicate) s
    let (c, s) ← buildHelperB pl names e s
    pure (a, ⟨storePredB a c s.mem, s.blocks⟩)

/-- `(map 'vector {build-predicate var-names} soft-predicates)`
(binary-trace-db.lisp:551-552). -/
def buildSoftsB (pl : Placing) (names : List Nat) : List SExp → FState → Res (List Nat × FState)
  | [], s => .ok ([], s)
  | e :: es, s => do
    let (p, s) ← buildPredicateB pl names e s
    let (ps, s) ← buildSoftsB pl names es s
    pure (p :: ps, s)

/-- Numbers of `n` bytes stored one after the other by `lisp-array-to-foreign`.  For binary-trace-db.lisp:447-453. -/
def storeArrayB (n base : Nat) : Nat → List Nat → BMem → BMem
  | _, [], m => m
  | i, v :: vs, m => storeArrayB n base (i + 1) vs (m.putNat (base + i * n) n v)

/-- `create-foreign-array` (binary-trace-db.lisp:447-453) for `:uint32` (`n` = 4) and
`:pointer` (`n` = 8). -/
def createArrayB (pl : Placing) (n : Nat) (vs : List Nat) (s : FState) : Res (Nat × FState) := do
  let (a, s) ← lispAlloc pl (vs.length * n) s
  pure (a, ⟨storeArrayB n a 0 vs s.mem, s.blocks⟩)

/-! Free variables, written by Lisp -/

/-- The loop over the free variables (binary-trace-db.lisp:542-547); a number of types that
does not fit into `n-allowed-types` is an error of CFFI. -/
def buildVarsB (pl : Placing) (vars : Nat) : Nat → List FreeVar → FState → Res FState
  | _, [], s => .ok s
  | i, fv :: fvs, s => do
    let (a, s) ← createArrayB pl FTy.uint32.bytes (fv.map (·.toNat)) s
    if fv.length < 2 ^ 32 then
      let l := cffiLayout 0 lispFreeVariable
      let p := vars + i * cffiSizeof lispFreeVariable
      let m := s.mem.store l p .nAllowedTypes fv.length
      let m := m.store l p .allowedTypes a
      buildVarsB pl vars (i + 1) fvs ⟨m, s.blocks⟩
    else .throw .lisp

/-- `free-vars` of `query-trace` (binary-trace-db.lisp:535-548).  Simplification: the types
are looked up for all variables before memory is allocated. -/
def freeVarsB (pl : Placing) (fvs : List FreeVar) (s : FState) : Res (Nat × FState) := do
  let (vars, s) ← lispAlloc pl (fvs.length * cffiSizeof lispFreeVariable) s
  let s ← buildVarsB pl vars 0 fvs s
  pure (vars, s)

/-! Reading by C -/

/-- The members of a `c_predicate` (trace-db.h:78-91).  A number that is no predicate kind is
reported as `misuse`. -/
def loadPredB (m : BMem) (a : Nat) : Res CPred :=
  let l := cLayout 0 cPredicate
  match cPredicateKinds[m.load l a .kind]? with
  | none => .ub .misuse
  | some k =>
    let p := m.load l a .children
    .ok ⟨k, BitVec.ofNat 64 (m.load l a .nChildren), BitVec.ofNat 64 (m.load l a .varIndex),
      BitVec.ofNat 64 (m.load l a .unsignedValue), BitVec.ofNat 64 (m.load l a .signedValue),
      BitVec.ofNat 64 (m.load l a .floatValue), if p = 0 then none else some p⟩

/-- The loop over the children (trace-db.cpp:209-216): `n` more from element `i`. -/
def createChildrenB (create : Nat → Res Pred) (base : Nat) : Nat → Nat → Res (List Pred)
  | _, 0 => .ok []
  | i, n + 1 => do
    let p ← create (base + i * cSizeof cPredicate)
    let ps ← createChildrenB create base (i + 1) n
    pure (if p.kind = .null then ps else p :: ps)

/-- `create_predicate_obj` (trace-db.cpp:199-242) for a pointer that is not NULL.  The fuel
bounds the depth of recursion. -/
def createPredB (m : BMem) : Nat → Nat → Res Pred
  | 0, _ => .hang
  | fuel + 1, a => do
    let c ← loadPredB m a
    match c.children with
    | none => .ok (.node c.kind c.data [])
    | some b =>
      -- the loop counter has 32 bits, the bound 64 (trace-db.cpp:210)
      if 2 ^ 32 ≤ c.nChildren.toNat then .hang
      else do
        let cs ← createChildrenB (createPredB m fuel) b 0 c.nChildren.toNat
        pure (.node c.kind c.data cs)

/-- `create_predicate_obj` (trace-db.cpp:199-242). -/
def createObjB (m : BMem) (fuel p : Nat) : Res Pred := if p = 0 then .ok .nullPred else createPredB m fuel p

/-- The loop over the soft predicates (trace-db.cpp:328-330). -/
def createSoftsB (m : BMem) (fuel arr : Nat) : Nat → Nat → Res (List Pred)
  | _, 0 => .ok []
  | i, n + 1 => do
    let p ← createObjB m fuel (m.getNat (arr + i * CTy.pointer.bytes) CTy.pointer.bytes)
    let ps ← createSoftsB m fuel arr (i + 1) n
    pure (p :: ps)

/-- `create_free_variable_obj` (trace-db.cpp:191-197). -/
def readFreeVarB (m : BMem) (a : Nat) : FreeVar :=
  let l := cLayout 0 cFreeVariable
  (List.range (m.load l a .nAllowedTypes)).map fun i =>
    BitVec.ofNat 32 (m.getNat (m.load l a .allowedTypes + i * CTy.uint32.bytes) CTy.uint32.bytes)

/-- The loop over the free variables (trace-db.cpp:324-326). -/
def readFreeVarsB (m : BMem) (vars : Nat) : Nat → Nat → List FreeVar
  | _, 0 => []
  | i, n + 1 => readFreeVarB m (vars + i * cSizeof cFreeVariable) :: readFreeVarsB m vars (i + 1) n

/-! The query -/

/-- `query_trace` (trace-db.cpp:305-349) on the trace with the index given.  The fuel for
predicates is the number of blocks, as every level has a block of its own. -/
def queryTraceC {σ : Type} (pl : Placing) (place : TraceAt) (env : Env) (pick : U32 → Nat → Nat) (ev : Evaluator σ)
    (t : Trace) (vars nVars hard softs nSofts : Nat) (seed : U32) (keep : Bool) (mask stmt : U64) (out nOut : Nat)
    (st : FState) (cache : PointsCache) (s : σ) : Res (FState × PointsCache × σ) := do
  let h ← createObjB st.mem (st.blocks.length + 1) hard
  let ss ← createSoftsB st.mem (st.blocks.length + 1) softs 0 nSofts
  let (rs, cache, s) ← queryTrace env pick ev t ⟨readFreeVarsB st.mem vars 0 nVars, h, ss, seed, mask, stmt⟩ keep cache s
  let (a, st) ← pointsToArrayB pl place t.types rs ⟨st.mem.putNat nOut CTy.uint64.bytes rs.length, st.blocks⟩
  pure (⟨st.mem.putNat out CTy.pointer.bytes a, st.blocks⟩, cache, s)

/-- `query_trace` with the arguments it finds.  For cffi-interface/trace-db.cpp:305-349. -/
def queryTraceB {σ : Type} (pl : Placing) (place : TraceAt) (env : Env) (pick : U32 → Nat → Nat) (ev : Evaluator σ)
    (t : Trace) (params : List Int) (st : FState) (cache : PointsCache) (s : σ) : Res (FState × PointsCache × σ) :=
  match params with
  | [_, _, vars, nVars, hard, softs, nSofts, seed, keep, mask, stmt, out, nOut] =>
    queryTraceC pl place env pick ev t vars.toNat nVars.toNat hard.toNat softs.toNat nSofts.toNat (BitVec.ofInt 32 seed)
      (decide (keep ≠ 0)) (BitVec.ofInt 64 mask) (BitVec.ofInt 64 stmt) out.toNat nOut.toNat st cache s
  | _ => .ub .misuse

/-- The filter applied to converted points; `none` is an error of the filter.
Simplification: all points are converted before the first is filtered.  For binary-trace-db.lisp:166-197. -/
def filterConverted (filter : LPoint → Option Bool) : List LPoint → Res (List LPoint)
  | [] => .ok []
  | p :: ps =>
    match filter p with
    | none => .throw .lisp
    | some keep => do
      let qs ← filterConverted filter ps
      pure (if keep then p :: qs else qs)

/-- The arguments of `c-query-trace` (binary-trace-db.lisp:562-580). -/
def queryArgs (db index : U64) (vars nVars pred softs nSofts : Nat) (seed : U32) (filter : Bool) (mask stmt : U64)
    (out nOut : Nat) : List Int :=
  [(db.toNat : Int), (index.toNat : Int), (vars : Int), (nVars : Int), (pred : Int), (softs : Int), (nSofts : Int),
    (seed.toNat : Int), if filter then 1 else 0, (mask.toNat : Int), (stmt.toNat : Int), (out : Int), (nOut : Int)]

/-- What Lisp has in memory when it calls `c-query-trace`.  For binary-trace-db.lisp:524-613. -/
structure Prepared where
  vars : Nat
  pred : Nat
  softs : Nat
  nSofts : Nat
  out : Nat
  nOut : Nat

/-- The two cells for the results, `results-ptr` and `n-results-ptr`
(binary-trace-db.lisp:555-559).  Simplification: they are allocated like everything else, not
on the stack. -/
def outCellsB (pl : Placing) (st : FState) : Res ((Nat × Nat) × FState) := do
  let (out, st) ← lispAlloc pl FTy.pointer.bytes st
  let (nOut, st) ← lispAlloc pl FTy.uint64.bytes ⟨st.mem.putNat out FTy.pointer.bytes 0, st.blocks⟩
  pure ((out, nOut), ⟨st.mem.putNat nOut FTy.uint64.bytes 0, st.blocks⟩)

/-- The first part of `query-trace` (binary-trace-db.lisp:531-559). -/
def prepareB (pl : Placing) (place : TraceAt) (t : Trace) (q : FQuery) (st : FState) : Res (Prepared × FState) := do
  let (types, st) ← lispTypesB pl place t st
  let fvs ← freeVars types q.varTypes
  let (vars, st) ← freeVarsB pl fvs st
  let (pred, st) ← buildPredicateB pl q.varNames q.predicate st
  let (softs, st) ← buildSoftsB pl q.varNames q.softs st
  let (arr, st) ← createArrayB pl FTy.pointer.bytes softs st
  let (cells, st) ← outCellsB pl st
  pure (⟨vars, pred, arr, softs.length, cells.1, cells.2⟩, st)

/-- A call of `query_trace` from Lisp.  For binary-trace-db.lisp:524-613. -/
def callArgsB {σ : Type} (pl : Placing) (place : TraceAt) (env : Env) (pick : U32 → Nat → Nat) (ev : Evaluator σ)
    (junk : List U64) (t : Trace) (args : List Int) (st : FState) (cache : PointsCache) (s : σ) :
    Res (FState × PointsCache × σ) :=
  match lispCall CFun.queryTrace.imported.2 args junk with
  | none => .throw .lisp
  | some slots =>
    match cParams CFun.queryTrace.declared.2 slots with
    | none => .ub .misuse
    | some params => queryTraceB pl place env pick ev t params st cache s

/-- The call of `c-query-trace` (binary-trace-db.lisp:562-580). -/
def callQueryB {σ : Type} (pl : Placing) (place : TraceAt) (env : Env) (pick : U32 → Nat → Nat) (ev : Evaluator σ)
    (db index : U64) (junk : List U64) (t : Trace) (q : FQuery) (p : Prepared) (st : FState) (cache : PointsCache) (s : σ) :
    Res (FState × PointsCache × σ) := do
  let (mask, stmt) ← fileArgs q.file
  callArgsB pl place env pick ev junk t (queryArgs db index p.vars q.varTypes.length p.pred p.softs p.nSofts q.seed
    q.filter.isSome mask stmt p.out p.nOut) st cache s

/-- The rest of `query-trace`: the results are converted (binary-trace-db.lisp:581-602). -/
def resultsB (pl : Placing) (place : TraceAt) (t : Trace) (filter : Option (LPoint → Option Bool)) (out nOut : Nat)
    (st : FState) : Res (List LPoint × FState) := do
  let (names, st') ← lispNamesB pl place t st
  let ps ← convertB names st'.mem (st.mem.getNat out FTy.pointer.bytes) 0 (st.mem.getNat nOut FTy.uint64.bytes)
  match filter with
  | some g => do
    let ps ← filterConverted g ps
    pure (removeDuplicates sameBindings ps, st')
  | none => pure (ps, st')

/-- `query-trace` of the binary database (binary-trace-db.lisp:524-613) on a trace at the
given index of the database at `db`.  `junk` is what is in the unused bytes of the registers
when C is called.  Simplification: the index is in range. -/
def lispQueryB {σ : Type} (pl : Placing) (place : TraceAt) (env : Env) (pick : U32 → Nat → Nat) (ev : Evaluator σ)
    (db index : U64) (junk : List U64) (t : Trace) (q : FQuery) (st : FState) (cache : PointsCache) (s : σ) :
    Res (List LPoint × FState × PointsCache × σ) :=
  if q.hasNames then do
    let (p, st) ← prepareB pl place t q st
    let (st, cache, s) ← callQueryB pl place env pick ev db index junk t q p st cache s
    let (l, st) ← resultsB pl place t q.filter p.out p.nOut st
    pure (l, st, cache, s)
  else .throw .lisp

end TraceDB
