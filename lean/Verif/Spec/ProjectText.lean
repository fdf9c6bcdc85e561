import Verif.Model.ProjectText
import Verif.Spec.Programs
import Verif.Spec.Project
/-
What traces of instrumented projects and queries on them should show.
-/
namespace TraceDB

/-- Variables whose types print alike up to case are treated alike. -/
def OneTypePerFoldedName (files : List ProjFile) : Prop :=
  ∀ x ∈ files, ∀ s ∈ x.stmts, ∀ part ∈ s.2, ∀ v ∈ part.2, ∀ y ∈ files, ∀ s' ∈ y.stmts, ∀ part' ∈ s'.2, ∀ w ∈ part'.2,
    v.IsRecorded part.1 → w.IsRecorded part'.1 →
    (typeTraceString v.type).map foldChar = (typeTraceString w.type).map foldChar →
    (v.AsText part.1 ↔ w.AsText part'.1) ∧ (v.AsText part.1 → v.mark = w.mark)

/-- `n` is the name of a type in the tables of a program. -/
def ProjHeader.HasType (h : ProjHeader) (n : Name) : Prop := ∃ r ∈ h.types, h.names[r.name]? = some n

/-- What a query may answer about the points of a trace: at one of them, in the file if one is given,
the free variables are bound to variables whose types are allowed; the formula is true of their
values, and the filter accepts the result. -/
def ShownAnswers (fs : FloatSys) (shown : List LPoint) (varTypes : List (List (List U8))) (file : Option Nat)
    (filter : Option (LPoint → Bool)) (f : Form) (r : LPoint) : Prop :=
  ∃ l ∈ shown, ∃ b : List Nat, (∀ i, file = some i → l.f = some i) ∧
    IsNamedBinding varTypes l.scopes b ∧ f.holdsFor fs (namedResult l b).scopes = true ∧
    (∀ g, filter = some g → g (namedResult l b) = true) ∧ r = namedResult l b

/-- A point that the engine can handle in the query, without a `double` among the variables asked
for (see C33). -/
def LPoint.Manageable (varTypes : List (List (List U8))) (l : LPoint) : Prop :=
  l.scopes.length < 2 ^ 32 ∧ choices varTypes l.scopes < 2 ^ 64 ∧
    ∀ x ∈ l.scopes, ∀ ts ∈ varTypes, x.type ∈ ts → ∀ b, x.value ≠ .double b

/-- The number of evolve file `e` in traces: files without a function `main` come first. -/
def fileNumber (files : List (Name × Bool)) (e : Nat) : Nat :=
  match files[e]? with
  | some (_, true) => (files.countP fun x => !x.2) + (files.take e).countP fun x => x.2
  | _ => (files.take e).countP fun x => !x.2

/-- Executing the code that was generated for a point in its file, in the state in which it is
passed; `env` are the variables there. -/
def Passed.RunsIn {σ : Type} (cf : CFloat) (mem : CMem) (files : List (Name × Bool)) (fileOf : Nat → Nat)
    (pts : List (Nat × PointEvent)) (outs : List ProjOut) (env : Passed σ → CEnv) (p : Passed σ)
    (c : U64 × List RtCall) : Prop :=
  ∃ j, fileOf p.fn < files.length ∧ (pointsInFile fileOf pts (fileOf p.fn))[j]? = some (p.fn, p.point) ∧
    ProjVisit.RunsAs cf mem outs ⟨fileNumber files (fileOf p.fn), j, env p⟩ c

/-- What should be shown for a point passed: statement, file and variables, their names and types up to case. -/
def Passed.ShownIn {σ : Type} (files : List (Name × Bool)) (fileOf : Nat → Nat) (pos : Nat → Nat → Nat)
    (parts : Nat → PointEvent → List (Bool × List ScopeVar)) (env : Passed σ → CEnv) (p : Passed σ) (l : LPoint) : Prop :=
  p.Shown .equalp (some (fileNumber files (fileOf p.fn))) pos parts env l

end TraceDB
