import Verif.Model.Hash
/-
Sharing of variable records and point data: `boost::flyweight` with its default
policies (hashed factory, reference counting).
-/
namespace TraceDB

/-- An element of a factory: the address of the shared object, the object, and the
number of flyweights referring to it.  For cffi-interface/trace-db/TraceVarInfo.hpp:29 and TracePoint.hpp:37. -/
structure Shared (α : Type) where
  addr : Nat
  val : α
  refs : Nat

/-- The content of a factory.  For cffi-interface/trace-db/TraceVarInfo.hpp:29 and TracePoint.hpp:37. -/
abbrev Pool (α : Type) := List (Shared α)

/-- How a factory compares: `same a b` is equality of hash and `operator==`.
`fresh used` is the address of a new object when `used` are taken.
For cffi-interface/trace-db/TraceVarInfo.hpp:29 and TracePoint.hpp:37. -/
structure Factory (α : Type) where
  same : α → α → Bool
  fresh : List Nat → Nat

/-- The addresses in use.  For cffi-interface/trace-db/TraceVarInfo.hpp:29 and TracePoint.hpp:37. -/
def Pool.addrs {α : Type} (pool : Pool α) : List Nat := pool.map (·.addr)

/-- Making a flyweight from a value: an element that compares equal is shared,
otherwise a new one is made.  Returns the address.  For cffi-interface/trace-db/TraceVarInfo.hpp:29 and TracePoint.hpp:37. -/
def Pool.intern {α : Type} (F : Factory α) (v : α) (pool : Pool α) : Nat × Pool α :=
  match pool.find? (fun e => F.same e.val v) with
  | some e => (e.addr, pool.map fun x => if x.addr = e.addr then { x with refs := x.refs + 1 } else x)
  | none => (F.fresh pool.addrs, ⟨F.fresh pool.addrs, v, 1⟩ :: pool)

/-- The object a flyweight refers to.  For cffi-interface/trace-db/TraceVarInfo.hpp:29 and TracePoint.hpp:37. -/
def Pool.get {α : Type} (pool : Pool α) (a : Nat) : Option α := (pool.find? (·.addr == a)).map (·.val)

/-- Destruction of a flyweight: the last one removes the object.
For cffi-interface/trace-db/TraceVarInfo.hpp:29 and TracePoint.hpp:37. -/
def Pool.release {α : Type} (a : Nat) (pool : Pool α) : Pool α :=
  (pool.map fun x => if x.addr = a then { x with refs := x.refs - 1 } else x).filter fun x =>
    !(x.addr == a && x.refs == 0)

/-- The factory of `FlyweightTraceVarInfo` (cffi-interface/trace-db/TraceVarInfo.hpp:29-30). -/
def varFactory (H : HashSys) (fresh : List Nat → Nat) : Factory VarInfo :=
  ⟨fun a b => a.hash H == b.hash H && a.eqv b, fresh⟩

/-- `class TracePointData` (TracePoint.hpp:54-61): the variables are flyweights,
that is, addresses. -/
structure PointData where
  sizes : List BufferSize
  vars : List Nat
  aux : List U64
  deriving DecidableEq, Repr

/-- `TracePointData::operator==` (TracePoint.hpp:137-141); flyweights are equal when
they refer to the same object. -/
def PointData.eqv (a b : PointData) : Bool :=
  vecEqv BufferSize.eqv a.sizes b.sizes && vecEqv (· == ·) a.vars b.vars && vecEqv (· == ·) a.aux b.aux

/-- `hash_value(TracePointData)` (TracePoint.hpp:143-151). -/
def PointData.hash (H : HashSys) (d : PointData) : U64 :=
  H.combine (H.combine (H.combine 0 (H.range (d.sizes.map (BufferSize.hash H))))
    (H.range (d.vars.map fun a => H.int 64 a))) (H.range (d.aux.map fun u => H.int 64 u.toNat))

/-- The factory of `FlyweightTracePointData` (TracePoint.hpp:37-38). -/
def dataFactory (H : HashSys) (fresh : List Nat → Nat) : Factory PointData :=
  ⟨fun a b => a.hash H == b.hash H && a.eqv b, fresh⟩

/-- Both factories.  For cffi-interface/trace-db/TraceVarInfo.hpp:29 and TracePoint.hpp:37. -/
structure Sharing where
  vars : Pool VarInfo
  data : Pool PointData

/-- What is left open: hash functions and addresses.  For cffi-interface/trace-db/TraceVarInfo.hpp:29 and TracePoint.hpp:37. -/
structure ShareEnv where
  H : HashSys
  freshVar : List Nat → Nat
  freshData : List Nat → Nat

/-- Making the flyweights of a list of variables (TracePoint.hpp:288 and
trace-db.cpp:116-123). -/
def internVars (se : ShareEnv) : List VarInfo → Pool VarInfo → List Nat × Pool VarInfo
  | [], pool => ([], pool)
  | v :: vs, pool =>
    let (a, pool) := pool.intern (varFactory se.H se.freshVar) v
    let (as, pool) := internVars se vs pool
    (a :: as, pool)

/-- Destruction of a vector of flyweights.  For cffi-interface/trace-db/TraceVarInfo.hpp:29-32. -/
def releaseVars (as : List Nat) (pool : Pool VarInfo) : Pool VarInfo := as.foldl (fun p a => p.release a) pool

/-- A `TracePoint` (TracePoint.hpp:229-236): `data` is the address of its data. -/
structure PointRef where
  counter : U64
  statement : U64
  data : Nat
  deriving DecidableEq, Repr

/-- Construction of a `TracePoint` from its parts (TracePoint.hpp:308 and 343-351):
the variables become flyweights held by a local vector, the data becomes a
flyweight; a new data object holds copies of the variable flyweights; at the end the
local vector is destroyed.
Simplification: a copy of a flyweight counts as making it again from the object it
refers to. -/
def makePoint (se : ShareEnv) (p : Point) (sh : Sharing) : PointRef × Sharing :=
  let (as, vars) := internVars se p.vars sh.vars
  let d : PointData := ⟨p.sizes, as, p.aux⟩
  let isNew := (sh.data.find? fun e => (dataFactory se.H se.freshData).same e.val d).isNone
  let (a, data) := sh.data.intern (dataFactory se.H se.freshData) d
  -- a new data object keeps the references of the local vector, otherwise they go
  let vars := if isNew then vars else releaseVars as vars
  (⟨p.counter, p.statement, a⟩, ⟨vars, data⟩)

/-- Destruction of a `TracePoint`: the last one with its data destroys the data, and
with it the flyweights of its variables.  For cffi-interface/trace-db/TracePoint.hpp:37-39. -/
def dropPoint (r : PointRef) (sh : Sharing) : Sharing :=
  let data := sh.data.release r.data
  match sh.data.get r.data, data.get r.data with
  | some d, none => ⟨releaseVars d.vars sh.vars, data⟩
  | _, _ => ⟨sh.vars, data⟩

/-- `getStatement`, `getBufferSizes`, `getVars` and `getAux` of a point
(TracePoint.hpp:390-412); `none` if something it refers to does not exist any
more. -/
def readPoint (sh : Sharing) (r : PointRef) : Option Point := do
  let d ← sh.data.get r.data
  let vs ← d.vars.mapM sh.vars.get
  pure ⟨r.counter, r.statement, d.sizes, vs, d.aux⟩

/-- What a program does with points: make one, or destroy the live point with the
given number.  For cffi-interface/trace-db/TraceVarInfo.hpp:29 and TracePoint.hpp:37. -/
inductive ShareOp where
  | make (p : Point)
  | drop (k : Nat)

/-- Running operations; the state are the live points.
For cffi-interface/trace-db/TraceVarInfo.hpp:29 and TracePoint.hpp:37. -/
def runShare (se : ShareEnv) : List ShareOp → List PointRef → Sharing → List PointRef × Sharing
  | [], live, sh => (live, sh)
  | .make p :: ops, live, sh =>
    let (r, sh) := makePoint se p sh
    runShare se ops (live ++ [r]) sh
  | .drop k :: ops, live, sh =>
    match live[k]? with
    | some r => runShare se ops (live.eraseIdx k) (dropPoint r sh)
    | none => runShare se ops live sh

end TraceDB
