import Verif.Model.Equality
/-
Predicates and their evaluation (cffi-interface/trace-db/QueryObjects.hpp).
-/
namespace TraceDB

/-- `enum predicate_kind` (QueryObjects.hpp:32-60). -/
inductive PKind where
  | null
  | varReference
  | varSize
  | varValue
  | distinctVars
  | signedValue
  | unsignedValue
  | floatValue
  | and
  | or
  | not
  | greaterThan
  | greaterThanOrEqual
  | lessThan
  | lessThanOrEqual
  | equal
  | add
  | subtract
  | multiply
  | divide
  deriving DecidableEq, Repr

/-- `class Predicate` (QueryObjects.hpp:71-77) without the cached hash.
`data` are the 64 bits of `union predicate_data`. -/
inductive Pred where
  | node (kind : PKind) (data : U64) (children : List Pred)

/-- `Predicate::getKind` (QueryObjects.hpp:115-117). -/
def Pred.kind : Pred → PKind
  | .node k _ _ => k

/-- `Predicate::getData` (QueryObjects.hpp:119-121). -/
def Pred.data : Pred → U64
  | .node _ d _ => d

/-- `Predicate::getChildren` (QueryObjects.hpp:123-125). -/
def Pred.children : Pred → List Pred
  | .node _ _ cs => cs

/-- `Predicate()` (QueryObjects.hpp:90-95). -/
def Pred.nullPred : Pred := .node .null 0 []

mutual
/-- `Predicate::operator==` (QueryObjects.hpp:131-135). -/
def Pred.eqv : Pred → Pred → Bool
  | .node k d cs, .node k' d' cs' => k == k' && d == d' && Pred.eqvList cs cs'
/-- Comparison of the vectors of children.  For cffi-interface/trace-db/QueryObjects.hpp:131-135. -/
def Pred.eqvList : List Pred → List Pred → Bool
  | [], [] => true
  | p :: ps, q :: qs => Pred.eqv p q && Pred.eqvList ps qs
  | _, _ => false
end

/-- The operations of `boost::multiprecision::cpp_dec_float_50` used by the
code, uninterpreted: theorems hold for every choice.
`ofF32`/`ofF64` convert the bit pattern of a `float`/`double`.  For cffi-interface/trace-db/QueryObjects.hpp:305-503. -/
structure FloatSys where
  F : Type
  ofInt : Int → F
  ofF32 : U32 → F
  ofF64 : U64 → F
  add : F → F → F
  sub : F → F → F
  mul : F → F → F
  div : F → F → F
  lt : F → F → Bool
  le : F → F → Bool
  gt : F → F → Bool
  ge : F → F → Bool
  eq : F → F → Bool
  /-- comparison with the integer 0 (QueryObjects.hpp:484) -/
  isZero : F → Bool

/-- `class PredicateValue` (QueryObjects.hpp:305-334): not valid, an arbitrary
precision integer or a decimal float.
Simplification: the two heap representations are values (see `ValueMemory`); copies of values which
are not valid (which would dereference a null pointer, QueryObjects.hpp:384-398)
do not happen because every copy in the code can be elided, and is elided by
default by the compilers the Makefile supports. -/
inductive PVal (fs : FloatSys) where
  | invalid
  | int (i : Int)
  | flt (x : fs.F)

/-- Operand of a float operation (QueryObjects.hpp:363-372): integers are
converted. `none` for a value that is not valid. -/
def PVal.asFloat {fs : FloatSys} : PVal fs → Option fs.F
  | .invalid => none
  | .int i => some (fs.ofInt i)
  | .flt x => some x

/-- `PredicateValue::operation<bool, ...>` (QueryObjects.hpp:336-375): `bool()`
is false. -/
def PVal.compare {fs : FloatSys} (opI : Int → Int → Bool) (opF : fs.F → fs.F → Bool)
    (a b : PVal fs) : Bool :=
  match a, b with
  | .int x, .int y => opI x y
  | a, b =>
    match a.asFloat, b.asFloat with
    | some x, some y => opF x y
    | _, _ => false

/-- `PredicateValue::operation<PredicateValue, ...>` (QueryObjects.hpp:336-375):
`PredicateValue()` is not valid. -/
def PVal.arith {fs : FloatSys} (opI : Int → Int → Int) (opF : fs.F → fs.F → fs.F)
    (a b : PVal fs) : PVal fs :=
  match a, b with
  | .int x, .int y => .int (opI x y)
  | a, b =>
    match a.asFloat, b.asFloat with
    | some x, some y => .flt (opF x y)
    | _, _ => .invalid

/-- The test for a zero divisor (QueryObjects.hpp:481-484). -/
def PVal.isZero {fs : FloatSys} : PVal fs → Bool
  | .invalid => false
  | .int i => i == 0
  | .flt x => fs.isZero x

/-- `PredicateValue::operator/` (QueryObjects.hpp:479-502). -/
def PVal.divide {fs : FloatSys} (a b : PVal fs) : PVal fs :=
  match a.asFloat, b.asFloat with
  | some x, some y => if b.isZero then .invalid else .flt (fs.div x y)
  | _, _ => .invalid

/-- `m_variables[i].get()`: unchecked vector access.  For cffi-interface/trace-db/QueryObjects.hpp:508-711. -/
def varAt (vs : List VarInfo) (i : Nat) : Res VarInfo :=
  match vs[i]? with
  | some v => .ok v
  | none => .ub .oobRead

/-- `VAR_SIZE` (QueryObjects.hpp:543-547). -/
def sizeOf (fs : FloatSys) (v : VarInfo) : PVal fs :=
  if v.hasBufferSize then .int v.bufferSize.toNat else .invalid

/-- `VAR_VALUE` (QueryObjects.hpp:558-570): floats are read through the member
`f` of the union, a 4-byte `float`, whatever the size of the variable.
Simplification: a record whose format is not BLOB but whose value is a blob does
not exist in the code (the union would hold a pointer); it is mapped to an
undefined outcome. -/
def valueOf (fs : FloatSys) (v : VarInfo) : Res (PVal fs) :=
  match v.format, v.value with
  | .unsigned, .word u => .ok (.int u.toNat)
  | .signed, .word u => .ok (.int u.toInt)
  | .pointer, .word u => .ok (.int u.toNat)
  | .float, .word u => .ok (.flt (fs.ofF32 (u.setWidth 32)))
  | .blob, _ => .ok .invalid
  | .invalid, _ => .ok .invalid
  | _, .blob _ => .ub .uninit

/-- `EvaluatePredicate::evaluate` (QueryObjects.hpp:533-605) and
`evaluate_binary_op` (521-531).  Failed assertions abort. -/
def evaluate (fs : FloatSys) (vs : List VarInfo) : Pred → Res (PVal fs)
  | .node .varSize _ [c] =>
    if c.kind = .varReference then do
      let v ← varAt vs c.data.toNat
      pure (sizeOf fs v)
    else .abort
  | .node .varValue _ [c] =>
    if c.kind = .varReference then do
      let v ← varAt vs c.data.toNat
      valueOf fs v
    else .abort
  | .node .unsignedValue d _ => .ok (.int d.toNat)
  | .node .signedValue d _ => .ok (.int d.toInt)
  | .node .floatValue d _ => .ok (.flt (fs.ofF64 d))
  | .node .add _ [a, b] => do
    let x ← evaluate fs vs a
    let y ← evaluate fs vs b
    pure (x.arith (· + ·) fs.add y)
  | .node .subtract _ [a, b] => do
    let x ← evaluate fs vs a
    let y ← evaluate fs vs b
    pure (x.arith (· - ·) fs.sub y)
  | .node .multiply _ [a, b] => do
    let x ← evaluate fs vs a
    let y ← evaluate fs vs b
    pure (x.arith (· * ·) fs.mul y)
  | .node .divide _ [a, b] => do
    let x ← evaluate fs vs a
    let y ← evaluate fs vs b
    pure (x.divide y)
  | _ => .abort

/-- A comparison (QueryObjects.hpp:645-674 with `evaluate_binary_op`, 521-531). -/
def evalCompare (fs : FloatSys) (vs : List VarInfo) (opI : Int → Int → Bool)
    (opF : fs.F → fs.F → Bool) : List Pred → Res Bool
  | [a, b] => do
    let x ← evaluate fs vs a
    let y ← evaluate fs vs b
    pure (x.compare opI opF y)
  | _ => .abort

/-- `DISTINCT_VARS` (QueryObjects.hpp:633-644).  Comparing two flyweights
compares the identity of the interned records, which is the comparison of the
records with `operator==` (interning is modelled in `Verif.Model.Flyweight`). -/
def evalDistinct (vs : List VarInfo) : List Pred → Res Bool
  | [c0, c1] =>
    if c0.kind = .varReference then
      if c1.kind = .varReference then do
        let v0 ← varAt vs c0.data.toNat
        let v1 ← varAt vs c1.data.toNat
        pure (!(v0.eqv v1))
      else .abort
    else .abort
  | _ => .abort

mutual
/-- `EvaluatePredicate::predicateSatisfied` (QueryObjects.hpp:607-678). -/
def predicateSatisfied (fs : FloatSys) (vs : List VarInfo) : Pred → Res Bool
  | .node .null _ _ => .ok true
  | .node .and _ cs => allSatisfied fs vs cs
  | .node .or _ cs => anySatisfied fs vs cs
  | .node .not _ cs => notSatisfied fs vs cs
  | .node .distinctVars _ cs => evalDistinct vs cs
  | .node .greaterThan _ cs => evalCompare fs vs (fun x y => decide (y < x)) fs.gt cs
  | .node .greaterThanOrEqual _ cs => evalCompare fs vs (fun x y => decide (y ≤ x)) fs.ge cs
  | .node .lessThan _ cs => evalCompare fs vs (fun x y => decide (x < y)) fs.lt cs
  | .node .lessThanOrEqual _ cs => evalCompare fs vs (fun x y => decide (x ≤ y)) fs.le cs
  | .node .equal _ cs => evalCompare fs vs (fun x y => decide (x = y)) fs.eq cs
  | .node _ _ _ => .abort

/-- The loop of `AND` (QueryObjects.hpp:615-620). -/
def allSatisfied (fs : FloatSys) (vs : List VarInfo) : List Pred → Res Bool
  | [] => .ok true
  | c :: cs => do
    let b ← predicateSatisfied fs vs c
    if b then allSatisfied fs vs cs else pure false

/-- The loop of `OR` (QueryObjects.hpp:622-627). -/
def anySatisfied (fs : FloatSys) (vs : List VarInfo) : List Pred → Res Bool
  | [] => .ok false
  | c :: cs => do
    let b ← predicateSatisfied fs vs c
    if b then pure true else anySatisfied fs vs cs

/-- `NOT` (QueryObjects.hpp:628-632). -/
def notSatisfied (fs : FloatSys) (vs : List VarInfo) : List Pred → Res Bool
  | [] => .abort
  | [c] => do
    let b ← predicateSatisfied fs vs c
    pure (!b)
  | _ :: _ :: _ => .abort
end

end TraceDB
