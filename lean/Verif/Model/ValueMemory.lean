import Verif.Model.Query
/-
The heap objects behind the values that are computed for predicates: `class PredicateValue`
(cffi-interface/trace-db/QueryObjects.hpp:305-503) holds a pointer to a number that it
allocates, copies and deletes, and `evaluate` returns such objects by value.

Simplification: allocation succeeds.
-/
namespace TraceDB

/-- A number on the heap: `cpp_int` or `cpp_dec_float_50`.  For cffi-interface/trace-db/QueryObjects.hpp:305-503. -/
inductive PvCell (fs : FloatSys) where
  | int (i : Int)
  | flt (x : fs.F)

/-- An object of `class PredicateValue` (QueryObjects.hpp:308-334): `m_is_valid`, whether
`m_kind` is `CPP_INT`, and the pointer in the union. -/
structure PvObj where
  valid : Bool
  isInt : Bool
  ptr : Option Nat
  deriving DecidableEq, Repr

/-- The heap: one entry for each number that was allocated, `none` once it is deleted.
`moves` counts the values that were returned so far.  For cffi-interface/trace-db/QueryObjects.hpp:305-503. -/
structure PvMem (fs : FloatSys) where
  cells : List (Option (PvCell fs))
  moves : Nat

/-- `new cpp_int(...)`, `new cpp_dec_float_50(...)`.  For cffi-interface/trace-db/QueryObjects.hpp:305-503. -/
def PvMem.alloc {fs : FloatSys} (m : PvMem fs) (c : PvCell fs) : Nat × PvMem fs :=
  (m.cells.length, { m with cells := m.cells ++ [some c] })

/-- Access through a pointer.  For cffi-interface/trace-db/QueryObjects.hpp:305-503. -/
def PvMem.deref {fs : FloatSys} (m : PvMem fs) : Option Nat → Res (PvCell fs)
  | none => .ub .nullDeref
  | some a => match m.cells[a]? with
    | some (some c) => .ok c
    | _ => .ub .dangling

/-- `*m_value.cpp_int`.  For cffi-interface/trace-db/QueryObjects.hpp:305-503. -/
def PvMem.readInt {fs : FloatSys} (m : PvMem fs) (p : Option Nat) : Res Int := do
  let c ← m.deref p
  match c with
  | .int i => pure i
  | .flt _ => .ub .misuse

/-- `*m_value.cpp_float`.  For cffi-interface/trace-db/QueryObjects.hpp:305-503. -/
def PvMem.readFloat {fs : FloatSys} (m : PvMem fs) (p : Option Nat) : Res fs.F := do
  let c ← m.deref p
  match c with
  | .int _ => .ub .misuse
  | .flt x => pure x

/-- The constructors: `PredicateValue()` has a null pointer and is called an integer
(QueryObjects.hpp:378-382); those from numbers allocate (402-436). -/
def PvMem.make {fs : FloatSys} (m : PvMem fs) : PVal fs → PvObj × PvMem fs
  | .invalid => (⟨false, true, none⟩, m)
  | .int i => (⟨true, true, some (m.alloc (.int i)).1⟩, (m.alloc (.int i)).2)
  | .flt x => (⟨true, false, some (m.alloc (.flt x)).1⟩, (m.alloc (.flt x)).2)

/-- The copy constructor (QueryObjects.hpp:384-398): the number is copied whether or not
the value is valid. -/
def PvMem.copy {fs : FloatSys} (m : PvMem fs) (o : PvObj) : Res (PvObj × PvMem fs) :=
  if o.isInt then do
    let i ← m.readInt o.ptr
    pure ({ o with ptr := some (m.alloc (.int i)).1 }, (m.alloc (.int i)).2)
  else do
    let x ← m.readFloat o.ptr
    pure ({ o with ptr := some (m.alloc (.flt x)).1 }, (m.alloc (.flt x)).2)

/-- The destructor (QueryObjects.hpp:438-445): `delete` of a null pointer does nothing; what
is not there, or is there as the other kind, must not be deleted. -/
def PvMem.destroy {fs : FloatSys} (m : PvMem fs) (o : PvObj) : Res (PvMem fs) :=
  match o.ptr with
  | none => .ok m
  | some a => match m.cells[a]? with
    | some (some (.int _)) => if o.isInt then .ok { m with cells := m.cells.set a none } else .ub .badFree
    | some (some (.flt _)) => if o.isInt then .ub .badFree else .ok { m with cells := m.cells.set a none }
    | _ => .ub .badFree

/-- A value is copied `n` times, and each time the original is destroyed.
For cffi-interface/trace-db/QueryObjects.hpp:305-503. -/
def PvMem.copies {fs : FloatSys} : Nat → PvObj → PvMem fs → Res (PvObj × PvMem fs)
  | 0, o, m => .ok (o, m)
  | n + 1, o, m => do
    let (o', m) ← m.copy o
    let m ← m.destroy o
    PvMem.copies n o' m

/-- A value is returned.  C++11 (Makefile:43) lets the compiler omit the copies of what is
returned, or make them: `elide k` is the number of copies made of the value that is
returned `k`-th.  Simplification: the copies are made before the local variables of the
function are destroyed, also those on the way to the variables `v0` and `v1` of the caller
(QueryObjects.hpp:527-528). -/
def PvMem.handOver {fs : FloatSys} (elide : Nat → Nat) (o : PvObj) (m : PvMem fs) : Res (PvObj × PvMem fs) :=
  PvMem.copies (elide m.moves) o { m with moves := m.moves + 1 }

/-- An operand of a float operation (QueryObjects.hpp:363-372). -/
def PvMem.asFloat {fs : FloatSys} (m : PvMem fs) (o : PvObj) : Res fs.F :=
  if o.isInt then do
    let i ← m.readInt o.ptr
    pure (fs.ofInt i)
  else m.readFloat o.ptr

/-- `operation<PredicateValue, ...>` (QueryObjects.hpp:336-375). -/
def PvMem.arith {fs : FloatSys} (opI : Int → Int → Int) (opF : fs.F → fs.F → fs.F) (a b : PvObj) (m : PvMem fs) :
    Res (PvObj × PvMem fs) :=
  if !(a.valid && b.valid) then pure (m.make .invalid)
  else if a.isInt && b.isInt then do
    let x ← m.readInt a.ptr
    let y ← m.readInt b.ptr
    pure (m.make (.int (opI x y)))
  else do
    let x ← m.asFloat a
    let y ← m.asFloat b
    pure (m.make (.flt (opF x y)))

/-- `operation<bool, ...>` (QueryObjects.hpp:336-375). -/
def PvMem.compare {fs : FloatSys} (opI : Int → Int → Bool) (opF : fs.F → fs.F → Bool) (a b : PvObj) (m : PvMem fs) :
    Res Bool :=
  if !(a.valid && b.valid) then pure false
  else if a.isInt && b.isInt then do
    let x ← m.readInt a.ptr
    let y ← m.readInt b.ptr
    pure (opI x y)
  else do
    let x ← m.asFloat a
    let y ← m.asFloat b
    pure (opF x y)

/-- The test for a divisor that is zero (QueryObjects.hpp:481-484). -/
def PvMem.isZero {fs : FloatSys} (m : PvMem fs) (o : PvObj) : Res Bool :=
  if o.isInt then do
    let i ← m.readInt o.ptr
    pure (i == 0)
  else do
    let x ← m.readFloat o.ptr
    pure (fs.isZero x)

/-- `operator/` (QueryObjects.hpp:479-502). -/
def PvMem.divide {fs : FloatSys} (a b : PvObj) (m : PvMem fs) : Res (PvObj × PvMem fs) :=
  if !(a.valid && b.valid) then pure (m.make .invalid)
  else do
    let z ← m.isZero b
    if z then pure (m.make .invalid)
    else do
      let x ← m.asFloat a
      let y ← m.asFloat b
      pure (m.make (.flt (fs.div x y)))

/-- `evaluate_binary_op<PredicateValue>` (QueryObjects.hpp:521-531): `v0` and `v1` are
evaluated, the result is returned, `v1` and `v0` are destroyed. -/
def PvMem.binary {fs : FloatSys} (elide : Nat → Nat) (op : PvObj → PvObj → PvMem fs → Res (PvObj × PvMem fs))
    (left right : PvMem fs → Res (PvObj × PvMem fs)) (m : PvMem fs) : Res (PvObj × PvMem fs) := do
  let (v0, m) ← left m
  let (v1, m) ← right m
  let (r, m) ← op v0 v1 m
  let (r, m) ← m.handOver elide r
  let m ← m.destroy v1
  let m ← m.destroy v0
  pure (r, m)

/-- `EvaluatePredicate::evaluate` (QueryObjects.hpp:533-605) with the memory of the
values. -/
def evaluateMem (elide : Nat → Nat) (fs : FloatSys) (vs : List VarInfo) : Pred → PvMem fs → Res (PvObj × PvMem fs)
  | .node .varSize _ [c], m =>
    if c.kind = .varReference then do
      let v ← varAt vs c.data.toNat
      let (o, m) := m.make (sizeOf fs v)
      m.handOver elide o
    else .abort
  | .node .varValue _ [c], m =>
    if c.kind = .varReference then do
      let v ← varAt vs c.data.toNat
      let x ← valueOf fs v
      let (o, m) := m.make x
      m.handOver elide o
    else .abort
  | .node .unsignedValue d _, m => let (o, m) := m.make (.int d.toNat); m.handOver elide o
  | .node .signedValue d _, m => let (o, m) := m.make (.int d.toInt); m.handOver elide o
  | .node .floatValue d _, m => let (o, m) := m.make (.flt (fs.ofF64 d)); m.handOver elide o
  | .node .add _ [a, b], m =>
    PvMem.binary elide (PvMem.arith (· + ·) fs.add) (evaluateMem elide fs vs a) (evaluateMem elide fs vs b) m
  | .node .subtract _ [a, b], m =>
    PvMem.binary elide (PvMem.arith (· - ·) fs.sub) (evaluateMem elide fs vs a) (evaluateMem elide fs vs b) m
  | .node .multiply _ [a, b], m =>
    PvMem.binary elide (PvMem.arith (· * ·) fs.mul) (evaluateMem elide fs vs a) (evaluateMem elide fs vs b) m
  | .node .divide _ [a, b], m =>
    PvMem.binary elide PvMem.divide (evaluateMem elide fs vs a) (evaluateMem elide fs vs b) m
  | _, _ => .abort

/-- A comparison: `evaluate_binary_op<bool>` (QueryObjects.hpp:521-531, 645-674). -/
def evalCompareMem (elide : Nat → Nat) (fs : FloatSys) (vs : List VarInfo) (opI : Int → Int → Bool)
    (opF : fs.F → fs.F → Bool) : List Pred → PvMem fs → Res (Bool × PvMem fs)
  | [a, b], m => do
    let (v0, m) ← evaluateMem elide fs vs a m
    let (v1, m) ← evaluateMem elide fs vs b m
    let r ← m.compare opI opF v0 v1
    let m ← m.destroy v1
    let m ← m.destroy v0
    pure (r, m)
  | _, _ => .abort

mutual
/-- `EvaluatePredicate::predicateSatisfied` (QueryObjects.hpp:607-678) with the memory of
the values. -/
def satisfiedMem (elide : Nat → Nat) (fs : FloatSys) (vs : List VarInfo) : Pred → PvMem fs → Res (Bool × PvMem fs)
  | .node .null _ _, m => .ok (true, m)
  | .node .and _ cs, m => allSatisfiedMem elide fs vs cs m
  | .node .or _ cs, m => anySatisfiedMem elide fs vs cs m
  | .node .not _ cs, m => notSatisfiedMem elide fs vs cs m
  | .node .distinctVars _ cs, m => do
    let b ← evalDistinct vs cs
    pure (b, m)
  | .node .greaterThan _ cs, m => evalCompareMem elide fs vs (fun x y => decide (y < x)) fs.gt cs m
  | .node .greaterThanOrEqual _ cs, m => evalCompareMem elide fs vs (fun x y => decide (y ≤ x)) fs.ge cs m
  | .node .lessThan _ cs, m => evalCompareMem elide fs vs (fun x y => decide (x < y)) fs.lt cs m
  | .node .lessThanOrEqual _ cs, m => evalCompareMem elide fs vs (fun x y => decide (x ≤ y)) fs.le cs m
  | .node .equal _ cs, m => evalCompareMem elide fs vs (fun x y => decide (x = y)) fs.eq cs m
  | .node _ _ _, _ => .abort

/-- The loop of `AND` (QueryObjects.hpp:615-620). -/
def allSatisfiedMem (elide : Nat → Nat) (fs : FloatSys) (vs : List VarInfo) : List Pred → PvMem fs → Res (Bool × PvMem fs)
  | [], m => .ok (true, m)
  | c :: cs, m => do
    let (b, m) ← satisfiedMem elide fs vs c m
    if b then allSatisfiedMem elide fs vs cs m else pure (false, m)

/-- The loop of `OR` (QueryObjects.hpp:622-627). -/
def anySatisfiedMem (elide : Nat → Nat) (fs : FloatSys) (vs : List VarInfo) : List Pred → PvMem fs → Res (Bool × PvMem fs)
  | [], m => .ok (false, m)
  | c :: cs, m => do
    let (b, m) ← satisfiedMem elide fs vs c m
    if b then pure (true, m) else anySatisfiedMem elide fs vs cs m

/-- `NOT` (QueryObjects.hpp:628-632). -/
def notSatisfiedMem (elide : Nat → Nat) (fs : FloatSys) (vs : List VarInfo) : List Pred → PvMem fs → Res (Bool × PvMem fs)
  | [], _ => .abort
  | [c], m => do
    let (b, m) ← satisfiedMem elide fs vs c m
    pure (!b, m)
  | _ :: _ :: _, _ => .abort
end

/-- Deciding predicates in a query (QueryObjects.hpp:694-696, TracePoint.hpp:69-80 without the
cache) with the memory of the values. -/
def memEval (elide : Nat → Nat) (fs : FloatSys) : Evaluator (PvMem fs) := fun p vs m => satisfiedMem elide fs vs p m

end TraceDB
