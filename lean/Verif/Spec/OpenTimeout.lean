import Verif.Model.OpenTimeout
/-
What opening a file with a timeout should do.
-/
namespace TraceDB

/-- The time at which one should give up. -/
def OftWorld.deadline {σ : Type} (w : OftWorld σ) (seconds : Int) : Nat := w.start + seconds.toNat

/-- A sensible world: a tenth of a second is some time; threads that return a stream have
opened the file before, the others not. -/
structure OftWorld.Sensible {σ : Type} (w : OftWorld σ) : Prop where
  tenth : 0 < w.tenth
  stream : ∀ t s, w.ended = some (t, some s) → ∃ o, w.opened = some o ∧ o ≤ t
  condition : ∀ t, w.ended = some (t, none) → w.opened = none

end TraceDB
