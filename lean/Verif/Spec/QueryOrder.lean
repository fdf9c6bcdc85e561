import Verif.Spec.QueryVariables
/-
Other orders of the free variables of a query.
-/
namespace TraceDB

/-- The elements in another order, given by their old positions. -/
def reorder {α : Type} (order : List Nat) (l : List α) : List α := order.filterMap fun i => l[i]?

mutual
/-- The predicate about the same variables, which now have other numbers. -/
def Pred.renamed (ρ : Nat → Nat) : Pred → Pred
  | .node k d cs => .node k (if k = .varReference then BitVec.ofNat 64 (ρ d.toNat) else d) (Pred.renamedEach ρ cs)
/-- The same for the arguments. -/
def Pred.renamedEach (ρ : Nat → Nat) : List Pred → List Pred
  | [] => []
  | p :: ps => p.renamed ρ :: Pred.renamedEach ρ ps
end

/-- The predicate for free variables in another order. -/
def Pred.reordered (order : List Nat) (p : Pred) : Pred := p.renamed fun i => order.idxOf i

end TraceDB
