import Verif.Model.ForeignPoints
import Verif.Spec.Archive
/-
What is assumed of memory: blocks do not overlap, and a trace keeps its names and blobs
somewhere in it.
-/
namespace TraceDB

/-- `x` is one of the `n` addresses from `a` on. -/
def InRange (a n x : Nat) : Prop := a ≤ x ∧ x < a + n

/-- The address belongs to one of the blocks. -/
def InUse (bs : List (Nat × Nat)) (x : Nat) : Prop := ∃ b ∈ bs, InRange b.1 b.2 x

/-- Memory is only given out within the address space, not at 0 nor up to its end, and not
while it is in use. -/
def Placing.Sound (pl : Placing) : Prop :=
  ∀ bs n a, pl bs n = some a → 0 < a ∧ a + n < 2 ^ 64 ∧ ∀ x, InRange a n x → ¬ InUse bs x

/-- The bytes are in memory from `a` on, in blocks in use. -/
structure FState.Keeps (s : FState) (a : Nat) (bs : List U8) : Prop where
  pos : 0 < a
  bound : a + bs.length < 2 ^ 64
  used : ∀ x, InRange a bs.length x → InUse s.blocks x
  bytes : s.mem.get a bs.length = bs

/-- The trace keeps its names, with a NUL at the end, and the blobs of the given points. -/
structure TraceAt.Kept (place : TraceAt) (t : Trace) (points : List Point) (s : FState) : Prop where
  name : ∀ (i : Nat) n, t.names[i]? = some n → s.Keeps (place.name i) (n ++ [0])
  blob : ∀ p ∈ points, ∀ v ∈ p.vars, ∀ bs, v.value = .blob bs → s.Keeps (place.blob v) bs

/-- The counts of a trace and of points of it fit the members they are stored in. -/
structure FitForeign (t : Trace) (points : List Point) : Prop where
  count : points.length * 40 < 2 ^ 64
  names : t.names.length < 2 ^ 32
  types : t.types.length < 2 ^ 32
  vars : ∀ p ∈ points, p.vars.length < 2 ^ 32
  aux : ∀ p ∈ points, p.aux.length < 2 ^ 32
  sized : ∀ p ∈ points, ∀ v ∈ p.vars, v.Sized

/-- `s'` has more blocks than `s`, and only bytes of those have changed. -/
structure OnlyNew (s s' : FState) : Prop where
  blocks : ∃ new, s'.blocks = s.blocks ++ new ∧ ∀ b ∈ new, 0 < b.1 ∧ b.1 + b.2 < 2 ^ 64 ∧ ∀ x, InRange b.1 b.2 x → ¬ InUse s.blocks x
  same : ∀ x, InUse s.blocks x → s'.mem x = s.mem x
  free : ∀ x, ¬ InUse s'.blocks x → s'.mem x = s.mem x

end TraceDB
