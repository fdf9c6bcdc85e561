import Verif.Model.AddMemory
/-
What is expected of the foreign memory used to add points and to store databases.
-/
namespace TraceDB

/-- The variable can be stored in a `c_trace_var_info_struct`: its value is an integer from
0 to 2^64 - 1, and so is its size, if it has one. -/
def LVar.Storable (v : LVar) : Prop :=
  (∃ i : Nat, i < 2 ^ 64 ∧ v.value = .int i) ∧ ∀ z, v.size = some z → z < 2 ^ 64

/-- The value of the variable is a number. -/
def LVar.Numeric (v : LVar) : Prop := ∀ bytes, v.value ≠ .blob bytes

/-- What can be counted in 32 bits: the names of the points together and the variables of
each. -/
def ApCounts (trace : List LPoint) : Prop :=
  (lispAddNames trace).length ≤ 2 ^ 32 ∧ ∀ p ∈ trace, p.scopes.length < 2 ^ 32

/-- Bytes of a block. -/
def ApBlock.bytes (abi : Abi) (b : ApBlock) : Nat :=
  match b.data with
  | .vars len _ => len * abi.sizeVar
  | .points len _ => len * abi.sizePoint
  | .strings l => l.length * abi.ptr.1
  | .text t => t.length

/-- Bytes of some blocks. -/
def apBytes (abi : Abi) (bs : List ApBlock) : Nat := (bs.map (ApBlock.bytes abi)).sum

/-- Blocks used to add points: an array of variables for each point, an array of points, an
array of names and the names. -/
def apBlocksOf (trace : List LPoint) : Nat := trace.length + 2 + (lispAddNames trace).length

/-- Bytes used to add points. -/
def apBytesOf (abi : Abi) (trace : List LPoint) : Nat :=
  (trace.map fun p => p.scopes.length * abi.sizeVar + abi.sizePoint).sum +
    ((lispAddNames trace).map fun n => n.length + 1 + abi.ptr.1).sum

/-- The same for the operations of a history, where storing needs the text of the
database. -/
def ApOp.blocks {μ : Type} : ApOp μ → Nat
  | .add trace _ => apBlocksOf trace
  | .store => 1

end TraceDB
