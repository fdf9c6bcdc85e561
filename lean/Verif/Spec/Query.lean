import Verif.Model.Query
/-
Meaning of queries, independent of the evaluator: abstract syntax of predicates,
what they mean, and what the results of a query are.
-/
namespace TraceDB

/-- Numbers of the predicate language: exact integers and floats. -/
inductive Num (fs : FloatSys) where
  | int (i : Int)
  | real (x : fs.F)

/-- A number as a float. -/
def Num.toReal {fs : FloatSys} : Num fs → fs.F
  | .int i => fs.ofInt i
  | .real x => x

/-- Arithmetic expressions over the bound variables `0, 1, ...`. -/
inductive Term where
  | size (i : Nat)
  | value (i : Nat)
  | nat (n : U64)
  | integer (n : U64)
  | float (bits : U64)
  | add (a b : Term)
  | sub (a b : Term)
  | mul (a b : Term)
  | div (a b : Term)
  deriving DecidableEq, Repr

/-- Comparison operators. -/
inductive Cmp where
  | gt | ge | lt | le | eq
  deriving DecidableEq, Repr

/-- Formulas over the bound variables. -/
inductive Form where
  | tt
  | ff
  | conj (f g : Form)
  | disj (f g : Form)
  | neg (f : Form)
  | distinct (i j : Nat)
  | cmp (op : Cmp) (a b : Term)
  deriving DecidableEq, Repr

/-- The number the code takes for a float variable: its low four bytes as a
`float`. -/
def lowFloat (fs : FloatSys) (v : VarInfo) : fs.F :=
  match v.value with
  | .word u => fs.ofF32 (u.setWidth 32)
  | .blob _ => fs.ofF32 0

/-- The number that was recorded for a float variable. -/
def recordedFloat (fs : FloatSys) (v : VarInfo) : fs.F :=
  match v.value with
  | .word u => if v.size = 8 then fs.ofF64 u else fs.ofF32 (u.setWidth 32)
  | .blob _ => fs.ofF32 0

/-- Value of a variable, if it is a number; `fl` reads floats. -/
def varNumber {fs : FloatSys} (fl : VarInfo → fs.F) (v : VarInfo) : Option (Num fs) :=
  match v.format, v.value with
  | .unsigned, .word u => some (.int u.toNat)
  | .pointer, .word u => some (.int u.toNat)
  | .signed, .word u => some (.int u.toInt)
  | .float, _ => some (.real (fl v))
  | _, _ => none

/-- Integer operation on integers, float operation otherwise, nothing when an
operand is missing. -/
def numOp {fs : FloatSys} (opI : Int → Int → Int) (opF : fs.F → fs.F → fs.F) :
    Option (Num fs) → Option (Num fs) → Option (Num fs)
  | some (.int x), some (.int y) => some (.int (opI x y))
  | some x, some y => some (.real (opF x.toReal y.toReal))
  | _, _ => none

/-- Whether a divisor is zero. -/
def Num.isZero {fs : FloatSys} : Num fs → Bool
  | .int i => i == 0
  | .real x => fs.isZero x

/-- Division is always done on floats; dividing by zero has no value. -/
def numDiv {fs : FloatSys} : Option (Num fs) → Option (Num fs) → Option (Num fs)
  | some x, some y => if y.isZero then none else some (.real (fs.div x.toReal y.toReal))
  | _, _ => none

/-- Value of a term for the bound variables `vs`. -/
def Term.val {fs : FloatSys} (fl : VarInfo → fs.F) (vs : List VarInfo) : Term → Option (Num fs)
  | .size i => match vs[i]? with
    | some v => if v.hasBufferSize then some (.int v.bufferSize.toNat) else none
    | none => none
  | .value i => match vs[i]? with
    | some v => varNumber fl v
    | none => none
  | .nat n => some (.int n.toNat)
  | .integer n => some (.int n.toInt)
  | .float b => some (.real (fs.ofF64 b))
  | .add a b => numOp (· + ·) fs.add (a.val fl vs) (b.val fl vs)
  | .sub a b => numOp (· - ·) fs.sub (a.val fl vs) (b.val fl vs)
  | .mul a b => numOp (· * ·) fs.mul (a.val fl vs) (b.val fl vs)
  | .div a b => numDiv (a.val fl vs) (b.val fl vs)

/-- Comparison of integers. -/
def Cmp.onInt : Cmp → Int → Int → Bool
  | .gt, x, y => decide (x > y)
  | .ge, x, y => decide (x ≥ y)
  | .lt, x, y => decide (x < y)
  | .le, x, y => decide (x ≤ y)
  | .eq, x, y => decide (x = y)

/-- Comparison of floats. -/
def Cmp.onReal {fs : FloatSys} : Cmp → fs.F → fs.F → Bool
  | .gt => fs.gt
  | .ge => fs.ge
  | .lt => fs.lt
  | .le => fs.le
  | .eq => fs.eq

/-- Comparison of numbers; false when one is missing. -/
def Cmp.holds {fs : FloatSys} (op : Cmp) : Option (Num fs) → Option (Num fs) → Bool
  | some (.int x), some (.int y) => op.onInt x y
  | some x, some y => op.onReal x.toReal y.toReal
  | _, _ => false

/-- Truth of a formula for the bound variables `vs`. -/
def Form.holds {fs : FloatSys} (fl : VarInfo → fs.F) (vs : List VarInfo) : Form → Bool
  | .tt => true
  | .ff => false
  | .conj f g => f.holds fl vs && g.holds fl vs
  | .disj f g => f.holds fl vs || g.holds fl vs
  | .neg f => !(f.holds fl vs)
  | .distinct i j => decide (vs[i]? ≠ vs[j]?)
  | .cmp op a b => op.holds (a.val fl vs) (b.val fl vs)

/-- The term a predicate object stands for, with variables below `n`.  Fields
that mean nothing for a kind are arbitrary. -/
inductive ReadsTerm (n : Nat) : Pred → Term → Prop
  | size {d i : U64} {cs : List Pred} : i.toNat < n →
      ReadsTerm n (.node .varSize d [.node .varReference i cs]) (.size i.toNat)
  | value {d i : U64} {cs : List Pred} : i.toNat < n →
      ReadsTerm n (.node .varValue d [.node .varReference i cs]) (.value i.toNat)
  | nat {d : U64} {cs : List Pred} : ReadsTerm n (.node .unsignedValue d cs) (.nat d)
  | integer {d : U64} {cs : List Pred} : ReadsTerm n (.node .signedValue d cs) (.integer d)
  | float {d : U64} {cs : List Pred} : ReadsTerm n (.node .floatValue d cs) (.float d)
  | add {d : U64} {p q : Pred} {a b : Term} : ReadsTerm n p a → ReadsTerm n q b →
      ReadsTerm n (.node .add d [p, q]) (.add a b)
  | sub {d : U64} {p q : Pred} {a b : Term} : ReadsTerm n p a → ReadsTerm n q b →
      ReadsTerm n (.node .subtract d [p, q]) (.sub a b)
  | mul {d : U64} {p q : Pred} {a b : Term} : ReadsTerm n p a → ReadsTerm n q b →
      ReadsTerm n (.node .multiply d [p, q]) (.mul a b)
  | div {d : U64} {p q : Pred} {a b : Term} : ReadsTerm n p a → ReadsTerm n q b →
      ReadsTerm n (.node .divide d [p, q]) (.div a b)

/-- The kind of predicate object for a comparison. -/
def Cmp.toKind : Cmp → PKind
  | .gt => .greaterThan
  | .ge => .greaterThanOrEqual
  | .lt => .lessThan
  | .le => .lessThanOrEqual
  | .eq => .equal

mutual
/-- The formula a predicate object stands for, with variables below `n`. -/
inductive ReadsForm (n : Nat) : Pred → Form → Prop
  | null {d : U64} {cs : List Pred} : ReadsForm n (.node .null d cs) .tt
  | and {d : U64} {cs : List Pred} {f : Form} : ReadsConj n cs f → ReadsForm n (.node .and d cs) f
  | or {d : U64} {cs : List Pred} {f : Form} : ReadsDisj n cs f → ReadsForm n (.node .or d cs) f
  | not {d : U64} {c : Pred} {f : Form} : ReadsForm n c f → ReadsForm n (.node .not d [c]) (.neg f)
  | distinct {d i j : U64} {cs cs' : List Pred} : i.toNat < n → j.toNat < n →
      ReadsForm n (.node .distinctVars d [.node .varReference i cs, .node .varReference j cs'])
        (.distinct i.toNat j.toNat)
  | cmp {op : Cmp} {d : U64} {p q : Pred} {a b : Term} : ReadsTerm n p a → ReadsTerm n q b →
      ReadsForm n (.node op.toKind d [p, q]) (.cmp op a b)
/-- The conjunction of the arguments of `and`. -/
inductive ReadsConj (n : Nat) : List Pred → Form → Prop
  | nil : ReadsConj n [] .tt
  | cons {c : Pred} {cs : List Pred} {f g : Form} : ReadsForm n c f → ReadsConj n cs g →
      ReadsConj n (c :: cs) (.conj f g)
/-- The disjunction of the arguments of `or`. -/
inductive ReadsDisj (n : Nat) : List Pred → Form → Prop
  | nil : ReadsDisj n [] .ff
  | cons {c : Pred} {cs : List Pred} {f g : Form} : ReadsForm n c f → ReadsDisj n cs g →
      ReadsDisj n (c :: cs) (.disj f g)
end

mutual
/-- Big-step meaning of arbitrary predicate objects: `p` is decided with outcome
`b`.  Arguments of `and`/`or` are looked at from the left until one decides;
those behind it may be anything. -/
inductive Decides {fs : FloatSys} (fl : VarInfo → fs.F) (vs : List VarInfo) : Pred → Bool → Prop
  | null {d : U64} {cs : List Pred} : Decides fl vs (.node .null d cs) true
  | and {d : U64} {cs : List Pred} {b : Bool} : DecidesAll fl vs cs b → Decides fl vs (.node .and d cs) b
  | or {d : U64} {cs : List Pred} {b : Bool} : DecidesAny fl vs cs b → Decides fl vs (.node .or d cs) b
  | not {d : U64} {c : Pred} {b : Bool} : Decides fl vs c b → Decides fl vs (.node .not d [c]) (!b)
  | distinct {d i j : U64} {cs cs' : List Pred} : i.toNat < vs.length → j.toNat < vs.length →
      Decides fl vs (.node .distinctVars d [.node .varReference i cs, .node .varReference j cs'])
        (decide (vs[i.toNat]? ≠ vs[j.toNat]?))
  | cmp {op : Cmp} {d : U64} {p q : Pred} {a b : Term} :
      ReadsTerm vs.length p a → ReadsTerm vs.length q b →
      Decides fl vs (.node op.toKind d [p, q]) (op.holds (a.val fl vs) (b.val fl vs))
/-- Conjunction from the left. -/
inductive DecidesAll {fs : FloatSys} (fl : VarInfo → fs.F) (vs : List VarInfo) : List Pred → Bool → Prop
  | nil : DecidesAll fl vs [] true
  | stop {c : Pred} {cs : List Pred} : Decides fl vs c false → DecidesAll fl vs (c :: cs) false
  | next {c : Pred} {cs : List Pred} {b : Bool} : Decides fl vs c true → DecidesAll fl vs cs b →
      DecidesAll fl vs (c :: cs) b
/-- Disjunction from the left. -/
inductive DecidesAny {fs : FloatSys} (fl : VarInfo → fs.F) (vs : List VarInfo) : List Pred → Bool → Prop
  | nil : DecidesAny fl vs [] false
  | stop {c : Pred} {cs : List Pred} : Decides fl vs c true → DecidesAny fl vs (c :: cs) true
  | next {c : Pred} {cs : List Pred} {b : Bool} : Decides fl vs c false → DecidesAny fl vs cs b →
      DecidesAny fl vs (c :: cs) b
end

/-- Integer value of a term over the mathematical integers: integer constants,
integer and pointer variables, known buffer sizes, `+`, `-` and `*`. -/
def Term.intVal (vs : List VarInfo) : Term → Option Int
  | .size i => match vs[i]? with
    | some v => if v.hasBufferSize then some v.bufferSize.toNat else none
    | none => none
  | .value i => match vs[i]? with
    | some v => match v.format, v.value with
      | .unsigned, .word u => some u.toNat
      | .pointer, .word u => some u.toNat
      | .signed, .word u => some u.toInt
      | _, _ => none
    | none => none
  | .nat n => some n.toNat
  | .integer n => some n.toInt
  | .float _ => none
  | .add a b => match a.intVal vs, b.intVal vs with
    | some x, some y => some (x + y)
    | _, _ => none
  | .sub a b => match a.intVal vs, b.intVal vs with
    | some x, some y => some (x - y)
    | _, _ => none
  | .mul a b => match a.intVal vs, b.intVal vs with
    | some x, some y => some (x * y)
    | _, _ => none
  | .div _ _ => none

/-- The term involves something that has no value: the size of a variable without
known buffer size, the value of a blob, or a division by zero. -/
def Term.Missing {fs : FloatSys} (fl : VarInfo → fs.F) (vs : List VarInfo) : Term → Prop
  | .size i => ∃ v, vs[i]? = some v ∧ v.hasBufferSize = false
  | .value i => ∃ v, vs[i]? = some v ∧ v.format = .blob
  | .add a b => a.Missing fl vs ∨ b.Missing fl vs
  | .sub a b => a.Missing fl vs ∨ b.Missing fl vs
  | .mul a b => a.Missing fl vs ∨ b.Missing fl vs
  | .div a b => a.Missing fl vs ∨ b.Missing fl vs ∨ ∃ z, b.val fl vs = some z ∧ z.isZero = true
  | _ => False

mutual
/-- The predicate does not use `distinct`. -/
def Pred.noDistinct : Pred → Bool
  | .node k _ cs => decide (k ≠ .distinctVars) && Pred.noDistinctList cs
/-- None of the predicates uses `distinct`. -/
def Pred.noDistinctList : List Pred → Bool
  | [] => true
  | p :: ps => p.noDistinct && Pred.noDistinctList ps
end

/-- Two variables that are the same, or float variables whose values agree in the
low four bytes. -/
def SameLow (v w : VarInfo) : Prop :=
  v = w ∨ (v.format = .float ∧ w.format = .float ∧ v.hasBufferSize = w.hasBufferSize ∧
    v.bufferSize = w.bufferSize ∧
    ∃ x y : U64, v.value = .word x ∧ w.value = .word y ∧ x.setWidth 32 = y.setWidth 32)

/-- Variables as the reader produces them: the kind of value agrees with the
format, blobs are as long as their size says, and values of 1, 2 and 4 bytes are
in the range of their size. -/
def VarInfo.Canonical (v : VarInfo) : Prop :=
  match v.value with
  | .blob bs => v.format = .blob ∧ v.size.toNat = bs.length
  | .word u => v.format ≠ .blob ∧
      (v.size = 1 ∨ v.size = 2 ∨ v.size = 4 →
        if v.format = .signed then
          -(2 : Int) ^ (8 * v.size.toNat - 1) ≤ u.toInt ∧ u.toInt < 2 ^ (8 * v.size.toNat - 1)
        else u.toNat < 2 ^ (8 * v.size.toNat))

instance (v : VarInfo) : Decidable v.Canonical := by
  unfold VarInfo.Canonical; split <;> infer_instance

/-- `b` binds each free variable to a variable (given by its position) of an
allowed type. -/
def IsBinding (variables : List FreeVar) (vars : List VarInfo) (b : List Nat) : Prop :=
  b.length = variables.length ∧
    ∀ (i : Nat) (fv : FreeVar) (k : Nat), variables[i]? = some fv → b[i]? = some k →
      ∃ v, vars[k]? = some v ∧ v.typeIndex ∈ fv

/-- The variables a binding binds. -/
def boundVars (vars : List VarInfo) (b : List Nat) : List VarInfo := b.filterMap (vars[·]?)

/-- The result for a binding: the point with the bound variables only. -/
def resultOf (point : Point) (b : List Nat) : Point := { point with vars := boundVars point.vars b }

/-- Order of bindings in which the first free variable varies fastest: the last
position at which they differ decides. -/
def FirstFastest (b b' : List Nat) : Prop :=
  ∃ i x y : Nat, b[i]? = some x ∧ b'[i]? = some y ∧ x < y ∧ ∀ j : Nat, i < j → b[j]? = b'[j]?

/-- `rs` are the results at a point: exactly the bindings for which the formula
holds, each once, first free variable fastest. -/
def ResultsAt {fs : FloatSys} (fl : VarInfo → fs.F) (variables : List FreeVar) (f : Form)
    (point : Point) (rs : List Point) : Prop :=
  ∃ bs : List (List Nat), rs = bs.map (resultOf point) ∧ bs.Pairwise FirstFastest ∧
    ∀ b, b ∈ bs ↔ IsBinding variables point.vars b ∧ f.holds fl (boundVars point.vars b) = true

/-- Number of candidates of a free variable. -/
def candidates (vars : List VarInfo) (fv : FreeVar) : Nat :=
  vars.countP fun v => decide (v.typeIndex ∈ fv)

/-- Number of combinations of candidates. -/
def combinations (variables : List FreeVar) (vars : List VarInfo) : Nat :=
  (variables.map (candidates vars)).foldr (· * ·) 1

/-- The points a statement filter lets pass. -/
def passing (points : List Point) (mask stmt : U64) : List Point :=
  points.filter fun p => decide (p.statement &&& mask = stmt)

/-- What duplicate removal looks at: statement id and the name and type indices of
the variables. -/
def bindingKey (p : Point) : U64 × List (U32 × U32) :=
  (p.statement, p.vars.map fun v => (v.nameIndex, v.typeIndex))

/-- How many of the formulas hold. -/
def satCount {fs : FloatSys} (fl : VarInfo → fs.F) (soft : List Form) (r : Point) : Nat :=
  soft.countP fun f => f.holds fl r.vars

end TraceDB
