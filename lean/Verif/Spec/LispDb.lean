import Verif.Model.LispDb
import Verif.Spec.Query
/-
What the databases of the Lisp side should do.
-/
namespace TraceDB

/-- The trace an addition stores, if any. -/
def LispAdd.stores {μ : Type} (env : Env) : LispAdd μ → Option Trace
  | .trace (some s) k _ => match readTrace env k s with
    | .ok t => some t
    | _ => none
  | .trace none _ _ => none
  | .points ps names _ => match traceOfPoints ps names with
    | .ok t => some t
    | _ => none

/-- The metadata given with an addition. -/
def LispAdd.meta {μ : Type} : LispAdd μ → μ
  | .trace _ _ m => m
  | .points _ _ m => m

/-- The addition reads a file. -/
def LispAdd.isFile {μ : Type} : LispAdd μ → Bool
  | .trace .. => true
  | .points .. => false

/-- The traces stored by a history, each with the metadata given for it, oldest
first. -/
def storedWith {μ : Type} (env : Env) (as : List (LispAdd μ)) : List (Trace × μ) :=
  as.filterMap fun a => (a.stores env).map fun t => (t, a.meta)

/-- The trace an addition to the list-based database stores, with its metadata. -/
def SexpAdd.stores {μ : Type} : SexpAdd μ → Option (List LPoint × μ)
  | .trace [] _ => none
  | .trace (p :: ps) m => some (p :: ps, m)
  | .points ps m => some (ps, m)

/-- A binding for the list-based view: each free variable is bound to a variable
(given by its position) with one of the allowed type names. -/
def IsNamedBinding (varTypes : List (List (List U8))) (scopes : List LVar) (b : List Nat) : Prop :=
  b.length = varTypes.length ∧
    ∀ (i : Nat) (ts : List (List U8)) (k : Nat), varTypes[i]? = some ts → b[i]? = some k →
      ∃ v, scopes[k]? = some v ∧ v.type ∈ ts

/-- The result for a binding: the point with the bound variables only. -/
def namedResult (p : LPoint) (b : List Nat) : LPoint := { p with scopes := b.filterMap (p.scopes[·]?) }

/-- Statement and bindings up to case. -/
def foldedKey (p : LPoint) : Option Nat × Nat × List (List U8 × List U8) :=
  (p.f, p.c, p.scopes.map fun v => (v.name.map foldChar, v.type.map foldChar))

/-- Statement and bindings. -/
def exactKey (p : LPoint) : Option Nat × Nat × List (List U8 × List U8) :=
  (p.f, p.c, p.scopes.map fun v => (v.name, v.type))

/-- What a query to the binary database may return: the result of a binding by name at
some point for which the formula holds and that the filter accepts. -/
def LispAnswers (fs : FloatSys) (t : Trace) (q : LQuery) (f : Form) (r : LPoint) : Prop :=
  ∃ p ∈ t.points, ∃ (l : LPoint) (b : List Nat), lispPoint t p = .ok l ∧ IsNamedBinding q.varTypes l.scopes b ∧
    f.holds (lowFloat fs) (boundVars p.vars b) = true ∧ (∀ g, q.filter = some g → g r = true) ∧ r = namedResult l b

/-- What a query to the list-based database may return: no variable is bound twice and
there is no formula. -/
def SexpAnswers (trace : List LPoint) (q : LQuery) (r : LPoint) : Prop :=
  ∃ l ∈ trace, ∃ b : List Nat, IsNamedBinding q.varTypes l.scopes b ∧ b.Nodup ∧
    (∀ g, q.filter = some g → g r = true) ∧ r = namedResult l b

end TraceDB
