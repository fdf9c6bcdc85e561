import Verif.Spec.Instrument
import Verif.Spec.LispDb
/-
What a query on the trace of an instrumented program should answer, in terms of the
states of the program.
-/
namespace TraceDB

/-- The number that a value shown stands for, if it is one. -/
def LValue.number {fs : FloatSys} : LValue → Option (Num fs)
  | .int i => some (.int i)
  | .single b => some (.real (fs.ofF32 b))
  | .double b => some (.real (fs.ofF64 b))
  | .blob _ => none

/-- Value of a term when the free variables stand for `vs`. -/
def Term.valueFor {fs : FloatSys} (vs : List LVar) : Term → Option (Num fs)
  | .size i => match vs[i]? with
    | some v => v.size.map fun (n : Nat) => .int n
    | none => none
  | .value i => match vs[i]? with
    | some v => v.value.number
    | none => none
  | .nat n => some (.int n.toNat)
  | .integer n => some (.int n.toInt)
  | .float b => some (.real (fs.ofF64 b))
  | .add a b => numOp (· + ·) fs.add (a.valueFor vs) (b.valueFor vs)
  | .sub a b => numOp (· - ·) fs.sub (a.valueFor vs) (b.valueFor vs)
  | .mul a b => numOp (· * ·) fs.mul (a.valueFor vs) (b.valueFor vs)
  | .div a b => numDiv (a.valueFor vs) (b.valueFor vs)

/-- Truth of a formula when the free variables stand for `vs`. -/
def Form.holdsFor (fs : FloatSys) (vs : List LVar) : Form → Bool
  | .tt => true
  | .ff => false
  | .conj f g => f.holdsFor fs vs && g.holdsFor fs vs
  | .disj f g => f.holdsFor fs vs || g.holdsFor fs vs
  | .neg f => !(f.holdsFor fs vs)
  | .distinct i j => decide (vs[i]? ≠ vs[j]?)
  | .cmp op a b => op.holds (a.valueFor (fs := fs) vs) (b.valueFor vs)

/-- The variable is recorded by an instrumentation function that prints strings or not. -/
def ScopeVar.IsRecorded (ps : Bool) (v : ScopeVar) : Prop := v.AsScalar ps ∨ v.AsText ps

/-- At some statement a variable is recorded whose type prints as `n`. -/
def TypeRecorded (sites : List Site) (n : Name) : Prop :=
  ∃ x ∈ sites, ∃ part ∈ x.parts, ∃ v ∈ part.2, v.IsRecorded part.1 ∧ typeTraceString v.type = n

/-- Variables whose types print alike are treated alike: both as strings, with the same
mark, or both not. -/
def OneTypePerName (sites : List Site) : Prop :=
  ∀ x ∈ sites, ∀ part ∈ x.parts, ∀ v ∈ part.2, ∀ y ∈ sites, ∀ part' ∈ y.parts, ∀ w ∈ part'.2,
    v.IsRecorded part.1 → w.IsRecorded part'.1 → typeTraceString v.type = typeTraceString w.type →
    (v.AsText part.1 ↔ w.AsText part'.1) ∧ (v.AsText part.1 → v.mark = w.mark)

/-- Number of ways to bind free variables of the given types. -/
def choices (varTypes : List (List (List U8))) (scopes : List LVar) : Nat :=
  (varTypes.map fun ts => scopes.countP fun v => decide (v.type ∈ ts)).foldr (· * ·) 1

/-- What a query may answer about a run of a program: at a visit, in the file if one is
given, the free variables are bound to variables recorded there whose types are allowed;
the formula is true of their values in that state, and the filter accepts the result. -/
def ProgramAnswers (fs : FloatSys) (sites : List Site) (visits : List Visit) (varTypes : List (List (List U8)))
    (file : Option Nat) (filter : Option (LPoint → Bool)) (f : Form) (r : LPoint) : Prop :=
  ∃ v ∈ visits, ∃ (l : LPoint) (b : List Nat), v.Shown .equal sites l ∧ (∀ i, file = some i → l.f = some i) ∧
    IsNamedBinding varTypes l.scopes b ∧ f.holdsFor fs (namedResult l b).scopes = true ∧
    (∀ g, filter = some g → g (namedResult l b) = true) ∧ r = namedResult l b

/-- The sizes that the engine can handle, and no `double` among the variables asked for
(see C33). -/
def QueryFits (sites : List Site) (visits : List Visit) (varTypes : List (List (List U8))) : Prop :=
  ∀ v ∈ visits, ∀ l, v.Shown .equal sites l → l.scopes.length < 2 ^ 32 ∧ choices varTypes l.scopes < 2 ^ 64 ∧
    ∀ x ∈ l.scopes, ∀ ts ∈ varTypes, x.type ∈ ts → ∀ b, x.value ≠ .double b

end TraceDB
