import Verif.Spec.AnyRuns
import Verif.Spec.Scripts
/-
Lisp programs that add files left by runs.
-/
namespace TraceDB

/-- A program that gets these answers and ends with `r` has added only files left by runs, and files from which no
trace can be read; it has added them to databases, not to views of them, and not more than counters can count. -/
def Script.AddsRuns {μ : Type} (env : Env) (cf : CFloat) (mem : CMem) (runOf : μ → ProjRun) (may : μ → List ProjVisit → Prop)
    (whole : μ → Prop) (p : Script μ) (xs : List (Option (LispAnswer μ))) (r : Option Bool) : Prop :=
  ∀ ops, p.Chooses ops xs r →
    (∀ i a, ObjOp.add i a ∈ succeeded ops xs → a.OfAnyRun cf mem runOf may whole ∨ a.Unreadable env) ∧
    (∀ op ∈ succeeded ops xs, op.Direct (SpecHeap.after env ⟨[], []⟩ (succeeded ops xs))) ∧
    (SpecHeap.after env ⟨[], []⟩ (succeeded ops xs)).Small

end TraceDB
