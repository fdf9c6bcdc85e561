import Verif.Model.LispPick
import Verif.Spec.LispDb
/-
What is expected of queries with `pick`.
-/
namespace TraceDB

/-- The points a query is about: those of the file, if one is given. -/
def queriedPoints (t : Trace) (file : Option Nat) : List Point :=
  match file with
  | none => t.points
  | some f => t.points.filter fun p => decide (unpackF p.statement = some f)

/-- The points of the trace can be told apart by file: all carry a file id, or the file is
not file 0 and the ids without file are below 2^40. -/
def FilesTold (t : Trace) (file : Option Nat) : Prop :=
  ∀ f, file = some f → f < 2 ^ 23 ∧
    ∀ p ∈ t.points, (unpackF p.statement).isSome ∨ (0 < f ∧ p.statement.toNat < 2 ^ 40)

end TraceDB
