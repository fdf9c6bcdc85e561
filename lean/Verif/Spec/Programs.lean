import Verif.Model.Programs
import Verif.Spec.Statements
import Verif.Spec.EndToEnd
/-
What an instrumented program of several functions should do, pass and show.
-/
namespace TraceDB

/-- The meanings of the functions with their points. -/
def pointMeans {σ : Type} (after : Bool) (filter : Nat → Nat → Bool) (n : Nat) (funs : List Ast) (f : Nat)
    (w : ActWorld (Life σ)) : Meaning (Life σ) :=
  match funs[f]? with
  | some x => (x.bodyWithPoints after id (filter f)).mean w n
  | none => meanSeq []

/-- A function fresh from the parser that the instrumentation handles (see C64). -/
structure Ast.FunctionOk (filter : Nat → Bool) (x : Ast) : Prop where
  block : x.kind = .block
  plain : x.plain = true
  shaped : x.shaped = true
  labels : x.bodyLabelsSafe filter

/-- All functions are. -/
def FunctionsOk (filter : Nat → Nat → Bool) (funs : List Ast) : Prop :=
  ∀ (f : Nat) (x : Ast), funs[f]? = some x → x.FunctionOk (filter f)

/-- Executing the code that was generated for a point, in the state in which it is
passed; `env` are the variables there. -/
def Passed.RunsAs {σ : Type} (cf : CFloat) (mem : CMem) (pts : List (Nat × PointEvent)) (gens : List GenSite)
    (env : Passed σ → CEnv) (p : Passed σ) (c : U64 × List RtCall) : Prop :=
  ∃ i, pts[i]? = some (p.fn, p.point) ∧ Visit.RunsAs cf mem gens ⟨i, env p⟩ c

/-- What should be shown for a point: statement, file and variables. -/
def Passed.Shown {σ : Type} (te : TableTests) (file : Option Nat) (pos : Nat → Nat → Nat)
    (parts : Nat → PointEvent → List (Bool × List ScopeVar)) (env : Passed σ → CEnv) (p : Passed σ) (l : LPoint) : Prop :=
  l.c = pos p.fn p.point.id ∧ l.f = file ∧ l.aux = [] ∧
    ∃ ls : List (List LVar), l.scopes = ls.flatten ∧ AllRel (PartShown te (env p)) (parts p.fn p.point) ls

/-- The state fits the variables recorded there. -/
def Passed.Fits {σ : Type} (cf : CFloat) (parts : Nat → PointEvent → List (Bool × List ScopeVar))
    (env : Passed σ → CEnv) (p : Passed σ) : Prop :=
  ∀ part ∈ parts p.fn p.point, ∀ y ∈ part.2, y.Fits cf part.1 (env p)

/-- What a query may answer about a run: at a point passed, in the file if one is given,
the free variables are bound to variables recorded there whose types are allowed; the
formula is true of their values in that state, and the filter accepts the result. -/
def RunAnswers {σ : Type} (fs : FloatSys) (file : Option Nat) (pos : Nat → Nat → Nat)
    (parts : Nat → PointEvent → List (Bool × List ScopeVar)) (env : Passed σ → CEnv) (passed : List (Passed σ))
    (varTypes : List (List (List U8))) (qfile : Option Nat) (filter : Option (LPoint → Bool)) (f : Form)
    (r : LPoint) : Prop :=
  ∃ p ∈ passed, ∃ (l : LPoint) (b : List Nat), p.Shown .equal file pos parts env l ∧
    (∀ i, qfile = some i → l.f = some i) ∧ IsNamedBinding varTypes l.scopes b ∧
    f.holdsFor fs (namedResult l b).scopes = true ∧ (∀ g, filter = some g → g (namedResult l b) = true) ∧
    r = namedResult l b

/-- The sizes that the engine can handle, and no `double` among the variables asked for. -/
def RunFits {σ : Type} (file : Option Nat) (pos : Nat → Nat → Nat)
    (parts : Nat → PointEvent → List (Bool × List ScopeVar)) (env : Passed σ → CEnv) (passed : List (Passed σ))
    (varTypes : List (List (List U8))) : Prop :=
  ∀ p ∈ passed, ∀ l, p.Shown .equal file pos parts env l → l.scopes.length < 2 ^ 32 ∧
    choices varTypes l.scopes < 2 ^ 64 ∧ ∀ x ∈ l.scopes, ∀ ts ∈ varTypes, x.type ∈ ts → ∀ b, x.value ≠ .double b

/-- The state after some steps of function `f`. -/
def replay {σ : Type} (call : FnMeaning σ) (pw : ProgWorld σ) (f : Nat) : List Step → Life σ → Life σ
  | [], s => s
  | .point _ :: l, s => replay call pw f l s
  | .did a :: l, s => replay call pw f l (doAct call pw f a s).2.1
  | .asked c :: l, s => replay call pw f l (doEval call pw f c s).2.1

end TraceDB
