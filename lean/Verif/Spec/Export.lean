import Verif.Model.Export
/-
What a client of the C interface sees: it reads the array it was given.
-/
namespace TraceDB

/-- Reading `n` elements of an array from index `i` on. -/
def readCells (p : Nat) : Nat → Nat → Heap → Res (List Cell)
  | _, 0, _ => .ok []
  | i, n + 1, h => do
    let c ← loadCell p i h
    let cs ← readCells p (i + 1) n h
    pure (c :: cs)

/-- The content of one point as a client sees it. -/
structure Seen where
  statement : U64
  vars : List Cell
  aux : List Cell
  deriving DecidableEq, Repr

/-- Reading a point: as many variables and auxiliary values as it says. -/
def readSeen (c : Cell) (h : Heap) : Res Seen :=
  match c with
  | .point p => do
    let vs ← readCells p.vars 0 p.nVars.toNat h
    let aux ← readCells p.aux 0 p.nAux.toNat h
    pure ⟨p.statement, vs, aux⟩
  | _ => .ub .uninit

/-- Reading all points of an array. -/
def readArray (p : Nat) : Nat → Nat → Heap → Res (List Seen)
  | _, 0, _ => .ok []
  | i, n + 1, h => do
    let c ← loadCell p i h
    let s ← readSeen c h
    let rest ← readArray p (i + 1) n h
    pure (s :: rest)

/-- What should be seen for a variable: everything recorded, with the name index of
its type. -/
def SeenVar (types : List TypeDesc) (v : VarInfo) (c : Cell) : Prop :=
  ∃ ty, types[v.typeIndex.toNat]? = some ty ∧
    c = .var { value := v.value, format := v.format, nameIndex := v.nameIndex,
               typeNameIndex := ty.nameIndex, size := v.size, bufferSize := v.bufferSize,
               hasBufferSize := v.hasBufferSize }

/-- What should be seen for a point. -/
def SeenPoint (types : List TypeDesc) (p : Point) (s : Seen) : Prop :=
  s.statement = p.statement ∧ s.aux = p.aux.map .word ∧ s.vars.length = p.vars.length ∧
    ∀ (i : Nat) (v : VarInfo) (c : Cell), p.vars[i]? = some v → s.vars[i]? = some c → SeenVar types v c

end TraceDB
