import Verif.Spec.Query
/-
Floating point numbers as numbers: what the bits of a `float` or `double` stand for (IEEE
754), what is assumed of the decimal floats the code computes with, and what predicates
mean when they are read over the rational numbers.
-/
namespace TraceDB

/-- What the bits of a `float` or `double` stand for. -/
inductive XNum where
  | nan
  | inf (neg : Bool)
  | fin (q : Rat)
  deriving DecidableEq

/-- IEEE 754: a sign, an exponent of `w` bits and a fraction of `p` bits stand for the number
`± (1.fraction) * 2^(exponent - bias)`, without the leading 1 if the exponent is 0; here over
the denominator `2^(bias + p)`. -/
def ieee (w p bias : Nat) (neg : Bool) (exponent fraction : Nat) : XNum :=
  if exponent = 2 ^ w - 1 then
    if fraction = 0 then .inf neg else .nan
  else
    let m : Nat := if exponent = 0 then fraction * 2 else (2 ^ p + fraction) * 2 ^ exponent
    .fin (((if neg then -(m : Int) else (m : Int)) : Int) / ((2 ^ (bias + p) : Nat) : Rat))

/-- The number of the bits of a `float`. -/
def f32Value (b : U32) : XNum :=
  ieee 8 23 127 (b.toNat / 2 ^ 31 == 1) (b.toNat / 2 ^ 23 % 2 ^ 8) (b.toNat % 2 ^ 23)

/-- The number of the bits of a `double`. -/
def f64Value (b : U64) : XNum :=
  ieee 11 52 1023 (b.toNat / 2 ^ 63 == 1) (b.toNat / 2 ^ 52 % 2 ^ 11) (b.toNat % 2 ^ 52)

/-- Less than; false for `nan`. -/
def XNum.lt : XNum → XNum → Bool
  | .fin x, .fin y => decide (x < y)
  | .inf true, .fin _ => true
  | .fin _, .inf false => true
  | .inf true, .inf false => true
  | _, _ => false

/-- Equality; false for `nan`. -/
def XNum.eq : XNum → XNum → Bool
  | .fin x, .fin y => decide (x = y)
  | .inf a, .inf b => a == b
  | _, _ => false

/-- The comparisons, all from the two above. -/
def Cmp.onNumber : Cmp → XNum → XNum → Bool
  | .lt, x, y => x.lt y
  | .gt, x, y => y.lt x
  | .eq, x, y => x.eq y
  | .le, x, y => x.lt y || x.eq y
  | .ge, x, y => y.lt x || x.eq y

/-- Numbers with at most fifty decimal digits. -/
def FiftyDigits (q : Rat) : Prop :=
  ∃ (m : Int) (k : Nat), -(10 : Int) ^ 50 < m ∧ m < (10 : Int) ^ 50 ∧
    (q = (m : Rat) * (10 : Rat) ^ k ∨ q * (10 : Rat) ^ k = (m : Rat))

/-- What is assumed of `boost::multiprecision::cpp_dec_float_50`: every object stands for a
number (`val`); comparisons compare the numbers; a `float`, `double` or integer is converted
to a number that depends on its number only (`round`), is at most one part in `10^49` away,
and is the number itself if fifty digits are enough; sums, differences and products that need
no more than fifty digits are exact.  Nothing is assumed about division. -/
structure DecimalFloats (fs : FloatSys) (val : fs.F → XNum) (round : Rat → Rat) : Prop where
  cmp : ∀ (op : Cmp) (x y : fs.F), op.onReal x y = op.onNumber (val x) (val y)
  isZero : ∀ x, fs.isZero x = decide (val x = .fin 0)
  ofInt : ∀ i : Int, FiftyDigits i → val (fs.ofInt i) = .fin i
  ofF32 : ∀ b, val (fs.ofF32 b) = match f32Value b with
    | .fin q => .fin (round q)
    | x => x
  ofF64 : ∀ b, val (fs.ofF64 b) = match f64Value b with
    | .fin q => .fin (round q)
    | x => x
  close : ∀ q : Rat, (round q - q) * 10 ^ 49 ≤ q ∧ (q - round q) * 10 ^ 49 ≤ q ∨
    (round q - q) * 10 ^ 49 ≤ -q ∧ (q - round q) * 10 ^ 49 ≤ -q
  exact : ∀ q : Rat, FiftyDigits q → round q = q
  add : ∀ x y a b, val x = .fin a → val y = .fin b → FiftyDigits a → FiftyDigits b →
    FiftyDigits (a + b) → val (fs.add x y) = .fin (a + b)
  sub : ∀ x y a b, val x = .fin a → val y = .fin b → FiftyDigits a → FiftyDigits b →
    FiftyDigits (a - b) → val (fs.sub x y) = .fin (a - b)
  mul : ∀ x y a b, val x = .fin a → val y = .fin b → FiftyDigits a → FiftyDigits b →
    FiftyDigits (a * b) → val (fs.mul x y) = .fin (a * b)

/-- The number recorded for a variable, if it is one. -/
def VarInfo.number (v : VarInfo) : Option XNum :=
  match v.format, v.value with
  | .unsigned, .word u => some (.fin (u.toNat : Int))
  | .pointer, .word u => some (.fin (u.toNat : Int))
  | .signed, .word u => some (.fin u.toInt)
  | .float, .word u => some (if v.size = 8 then f64Value u else f32Value (u.setWidth 32))
  | _, _ => none

/-- An operation on rational numbers; nothing is said about infinities. -/
def ratOp (op : Rat → Rat → Rat) : Option XNum → Option XNum → Option XNum
  | some (.fin x), some (.fin y) => some (.fin (op x y))
  | _, _ => none

/-- The value of a term over the rational numbers. -/
def Term.exact (vs : List VarInfo) : Term → Option XNum
  | .size i => match vs[i]? with
    | some v => if v.hasBufferSize then some (.fin (v.bufferSize.toNat : Int)) else none
    | none => none
  | .value i => match vs[i]? with
    | some v => v.number
    | none => none
  | .nat n => some (.fin (n.toNat : Int))
  | .integer n => some (.fin n.toInt)
  | .float b => some (f64Value b)
  | .add a b => ratOp (· + ·) (a.exact vs) (b.exact vs)
  | .sub a b => ratOp (· - ·) (a.exact vs) (b.exact vs)
  | .mul a b => ratOp (· * ·) (a.exact vs) (b.exact vs)
  | .div a b => ratOp (· / ·) (a.exact vs) (b.exact vs)

/-- Comparison of numbers; false when one is missing. -/
def Cmp.exactly (op : Cmp) : Option XNum → Option XNum → Bool
  | some x, some y => op.onNumber x y
  | _, _ => false

/-- Truth of a formula over the rational numbers. -/
def Form.exactly (vs : List VarInfo) : Form → Bool
  | .tt => true
  | .ff => false
  | .conj f g => f.exactly vs && g.exactly vs
  | .disj f g => f.exactly vs || g.exactly vs
  | .neg f => !(f.exactly vs)
  | .distinct i j => decide (vs[i]? ≠ vs[j]?)
  | .cmp op a b => op.exactly (a.exact vs) (b.exact vs)

/-- A term without arithmetic, except on integers of at most 48 digits. -/
def Term.Simple (vs : List VarInfo) (t : Term) : Prop :=
  (∃ i, t = .size i) ∨ (∃ i, t = .value i) ∨ (∃ b, t = .float b) ∨
    ∃ n : Int, t.intVal vs = some n ∧ -(10 : Int) ^ 48 < n ∧ n < (10 : Int) ^ 48

/-- A term all parts of which are numbers of at most fifty digits, or missing; without
division. -/
def Term.Short (vs : List VarInfo) : Term → Prop
  | .add a b => a.Short vs ∧ b.Short vs ∧ ∀ q, ratOp (· + ·) (a.exact vs) (b.exact vs) = some (.fin q) → FiftyDigits q
  | .sub a b => a.Short vs ∧ b.Short vs ∧ ∀ q, ratOp (· - ·) (a.exact vs) (b.exact vs) = some (.fin q) → FiftyDigits q
  | .mul a b => a.Short vs ∧ b.Short vs ∧ ∀ q, ratOp (· * ·) (a.exact vs) (b.exact vs) = some (.fin q) → FiftyDigits q
  | .div _ _ => False
  | t => ∀ x, t.exact vs = some x → ∃ q, x = .fin q ∧ FiftyDigits q

/-- A formula that compares simple terms with each other and short terms with each other. -/
def Form.Comparable (vs : List VarInfo) : Form → Prop
  | .conj f g => f.Comparable vs ∧ g.Comparable vs
  | .disj f g => f.Comparable vs ∧ g.Comparable vs
  | .neg f => f.Comparable vs
  | .cmp _ a b => (a.Simple vs ∧ b.Simple vs) ∨ (a.Short vs ∧ b.Short vs)
  | _ => True

end TraceDB
