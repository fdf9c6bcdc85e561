import Verif.Model.TraceMemory
/-
What is left in memory after a trace was added.
-/
namespace TraceDB

/-- The bytes of a blob. -/
def TmKind.isBlob : TmKind → Bool
  | .blob _ => true
  | _ => false

/-- The blocks behind variables: one for each blob that is not empty. -/
def tmKinds (vs : List VarInfo) : List TmKind :=
  vs.filterMap fun v => if v.format = .blob ∧ v.size ≠ 0 then some (.blob v.size.toNat) else none

/-- All variables of a trace. -/
def Trace.allVars (t : Trace) : List VarInfo := t.points.flatMap (·.vars)

/-- Blocks are numbered below the number of the next allocation, and there are no nodes. -/
def TmMem.Tidy (m : TmMem) : Prop :=
  (∀ b ∈ m.loose, b.1 < m.count) ∧ ∀ p, p ≠ 0 → m.map.heap p = none

/-- What a call that added the trace `t` leaves: the blobs of its points, and those of a point
that the end of the file cut off. -/
def TmLeftByTrace (maxPoints : U64) (t : Trace) (ks : List TmKind) : Prop :=
  ∃ d, ks = tmKinds t.allVars ++ tmKinds d ∧ (maxPoints ≠ 0 → t.points.length = maxPoints.toNat → d = [])

/-- What a call that failed leaves: blobs; or the buffer of names, if the file ended within
its first number or memory was short; or blobs and a node, if memory was short. -/
def TmLeftByFailure (refuse : Nat → Bool) (s : IStream) (ks : List TmKind) : Prop :=
  (∀ k ∈ ks, k.isBlob) ∨ (ks = [.nameBuf] ∧ ((∃ j, refuse j = true) ∨ s.rest.length < 8)) ∨
    ((∃ j, refuse j = true) ∧ ∃ l, ks = l ++ [.node] ∧ ∀ k ∈ l, k.isBlob)

/-- The memory at the start of a process. -/
def TmMem.start : TmMem := ⟨0, MemMap.construct, []⟩

end TraceDB
