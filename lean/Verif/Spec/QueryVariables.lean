import Verif.Spec.QueryLaws
/-
Laws about free variables, and about the variables and the points of a trace.
-/
namespace TraceDB

/-- The same free variables, with more types allowed. -/
def Wider : List FreeVar → List FreeVar → Prop
  | [], [] => True
  | fv :: fvs, gv :: gvs => (∀ ty ∈ fv, ty ∈ gv) ∧ Wider fvs gvs
  | _, _ => False

/-- These variables have the types allowed for the free variables, in order. -/
def fitsTypes : List FreeVar → List VarInfo → Bool
  | [], [] => true
  | fv :: fvs, v :: vs => decide (v.typeIndex ∈ fv) && fitsTypes fvs vs
  | _, _ => false

/-- The trace with other variables at its points. -/
def Trace.withVars (t : Trace) (vars : Point → List VarInfo) : Trace :=
  { t with points := t.points.map fun p => { p with vars := vars p } }

/-- The variables that some free variable could be bound to. -/
def usableVars (variables : List FreeVar) (p : Point) : List VarInfo :=
  p.vars.filter fun v => variables.any fun fv => decide (v.typeIndex ∈ fv)

/-- The trace with more points. -/
def Trace.withPoints (t : Trace) (ps : List Point) : Trace := { t with points := t.points ++ ps }

end TraceDB
