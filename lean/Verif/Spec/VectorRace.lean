import Verif.Model.VectorRace
/-
What the memory of a vector should look like.
-/
namespace TraceDB

/-- The vector holds the list `l`, in a block with `c` slots. -/
structure VMem.Holds {α : Type} (m : VMem α) (l : List α) (c : Nat) : Prop where
  start : m.start.off = 0
  finish : m.finish = ⟨m.start.block, l.length⟩
  cap : m.cap = ⟨m.start.block, c⟩
  room : l.length ≤ c
  known : m.start.block < m.next
  slots : ∃ s : List (Option α), m.block m.start.block = some s ∧ s.length = c ∧
    ∀ i : Nat, i < l.length → s[i]? = some l[i]?

/-- What a reader should get from a list that has grown from `old` to `new` elements in the
meantime. -/
def VReader.good {α : Type} (old : Nat) (new : List α) : VReader → Res (VAnswer α) → Prop
  | .count, r => ∃ n, r = .ok (.number n) ∧ old ≤ n ∧ n ≤ new.length
  | .use idx _, r =>
    (∃ a, new[idx]? = some a ∧ r = .ok (.elem a)) ∨ (r = .abort ∧ old ≤ idx)

/-- How many steps a reader should take at most. -/
def VReader.steps : VReader → Nat
  | .count => 2
  | .use _ k => k + 4

end TraceDB
