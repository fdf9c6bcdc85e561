import Verif.Model.ValueMemory
/-
What is asked of the memory of predicate values.
-/
namespace TraceDB

/-- The number on the heap at an address, if there is one. -/
def PvMem.at {fs : FloatSys} (m : PvMem fs) (a : Nat) : Option (PvCell fs) := m.cells[a]?.join

/-- The same numbers are on the heap at the same addresses: nothing was lost, left behind
or changed. -/
def PvMem.SameHeap {fs : FloatSys} (m m' : PvMem fs) : Prop := ∀ a, m'.at a = m.at a

/-- One predicate occurs in another one. -/
inductive Pred.Within : Pred → Pred → Prop where
  | refl (p : Pred) : Pred.Within p p
  | child {q c : Pred} {k : PKind} {d : U64} {cs : List Pred} (hc : c ∈ cs) (h : Pred.Within q c) :
      Pred.Within q (.node k d cs)

/-- No part of the predicate has a value that is missing. -/
def NeverMissing (fs : FloatSys) (vs : List VarInfo) (p : Pred) : Prop :=
  ∀ q : Pred, q.Within p → evaluate fs vs q ≠ .ok .invalid

/-- The kinds of comparisons. -/
def PKind.Compares (k : PKind) : Prop :=
  k = .greaterThan ∨ k = .greaterThanOrEqual ∨ k = .lessThan ∨ k = .lessThanOrEqual ∨ k = .equal

end TraceDB
