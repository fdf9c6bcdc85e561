import Verif.Model.Types
import Verif.Model.Bytes
/-
Export of points to C structures (cffi-interface/trace.cpp:85-145) on a heap of
blocks.
-/
namespace TraceDB

/-- `c_trace_var_info_struct` (cffi-interface/trace.h:24-32).  For blobs the value
is the pointer to the bytes held by the trace; the model keeps the bytes. -/
structure CVar where
  value : VarValue
  format : TypeFormat
  nameIndex : U32
  typeNameIndex : U32
  size : U32
  bufferSize : U64
  hasBufferSize : Bool
  deriving DecidableEq, Repr

/-- `c_trace_point_struct` (trace.h:34-40); `vars` and `aux` are addresses. -/
structure CPoint where
  statement : U64
  vars : Nat
  nVars : U32
  aux : Nat
  nAux : U32
  deriving DecidableEq, Repr

/-- Size of a C structure from the size and alignment of its members: each member
starts at a multiple of its alignment, the end is padded to the largest one.  For cffi-interface/trace.h:24-40. -/
def structSize (members : List (Nat × Nat)) : Nat :=
  let align (n a : Nat) := (n + a - 1) / a * a
  let stop := members.foldl (fun off m => align off m.2 + m.1) 0
  align stop (members.foldl (fun a m => max a m.2) 1)

/-- Sizes and alignments used by an ABI: `uint64_t`, pointers (both are given by
their size and alignment).  For cffi-interface/trace.h:24-40. -/
structure Abi where
  word : Nat × Nat
  ptr : Nat × Nat

/-- x86-64.  For cffi-interface/trace.h:24-40. -/
def Abi.lp64 : Abi := ⟨(8, 8), (8, 8)⟩
/-- i386 (System V): 8-byte integers are aligned to 4 bytes.  For cffi-interface/trace.h:24-40. -/
def Abi.ilp32 : Abi := ⟨(8, 4), (4, 4)⟩

/-- `sizeof(c_trace_var_info_struct)` (trace.h:24-32). -/
def Abi.sizeVar (a : Abi) : Nat :=
  structSize [a.word, (4, 4), (4, 4), (4, 4), (4, 4), a.word, (1, 1)]
/-- `sizeof(c_trace_point_struct)` (trace.h:34-40). -/
def Abi.sizePoint (a : Abi) : Nat :=
  structSize [a.word, a.ptr, (4, 4), a.ptr, (4, 4)]

/-- What an element of a heap block holds.  For cffi-interface/trace.cpp:85-145. -/
inductive Cell where
  | point (p : CPoint)
  | var (v : CVar)
  | word (u : U64)
  deriving DecidableEq, Repr

/-- A heap block used as an array: its elements (`none` is uninitialised) and
whether it is still allocated.  For cffi-interface/trace.cpp:85-145. -/
structure Block where
  cells : List (Option Cell)
  live : Bool
  deriving DecidableEq, Repr

/-- The heap: block number `i` has the address `i + 1`; 0 is `NULL`.  For cffi-interface/trace.cpp:85-145. -/
abbrev Heap := List Block

/-- What `calloc` and `malloc` do: `canAlloc n` says whether a request of `n` bytes
succeeds, `zeroNull` whether a request of 0 bytes returns `NULL`.  For cffi-interface/trace.cpp:85-145. -/
structure AllocEnv where
  canAlloc : Nat → Bool
  zeroNull : Bool

/-- `malloc(bytes)` or `calloc(n, size)` of memory used as an array with elements
of `size` bytes, initially `init`.  For cffi-interface/trace.cpp:85-145. -/
def allocBlock (ae : AllocEnv) (bytes size : Nat) (init : Option Cell) (h : Heap) : Nat × Heap :=
  if bytes = 0 ∧ ae.zeroNull then (0, h)
  else if ae.canAlloc bytes then
    (h.length + 1, h ++ [⟨List.replicate (bytes / size) init, true⟩])
  else (0, h)

/-- `p[i] = c` for a heap array.  For cffi-interface/trace.cpp:85-145. -/
def storeCell (p i : Nat) (c : Cell) (h : Heap) : Res Heap :=
  match p with
  | 0 => .ub .nullDeref
  | k + 1 => match h[k]? with
    | none => .ub .dangling
    | some b =>
      if b.live then
        if i < b.cells.length then .ok (h.set k { b with cells := b.cells.set i (some c) })
        else .ub .oobWrite
      else .ub .dangling

/-- `p[i]` for a heap array.  For cffi-interface/trace.cpp:85-145. -/
def loadCell (p i : Nat) (h : Heap) : Res Cell :=
  match p with
  | 0 => .ub .nullDeref
  | k + 1 => match h[k]? with
    | none => .ub .dangling
    | some b =>
      if b.live then
        match b.cells[i]? with
        | none => .ub .oobRead
        | some none => .ub .uninit
        | some (some c) => .ok c
      else .ub .dangling

/-- `free(p)`.  For cffi-interface/trace.cpp:85-145. -/
def freeBlock (p : Nat) (h : Heap) : Res Heap :=
  match p with
  | 0 => .ok h
  | k + 1 => match h[k]? with
    | none => .ub .badFree
    | some b => if b.live then .ok (h.set k { b with live := false }) else .ub .badFree

/-- Storing one element after the other from index `i` on (`std::copy` in
trace.cpp:124 and the loop of lines 126-138). -/
def storeAll (p : Nat) : Nat → List Cell → Heap → Res Heap
  | _, [], h => .ok h
  | i, c :: cs, h => do
    let h ← storeCell p i c h
    storeAll p (i + 1) cs h

/-- The elements of the `vars` array (trace.cpp:126-138): the type is looked up
without check. -/
def exportVars (types : List TypeDesc) : List VarInfo → Res (List Cell)
  | [] => .ok []
  | v :: vs =>
    match types[v.typeIndex.toNat]? with
    | none => .ub .oobRead
    | some ty => do
      let rest ← exportVars types vs
      pure (.var ⟨v.value, v.format, v.nameIndex, ty.nameIndex, v.size, v.bufferSize, v.hasBufferSize⟩ :: rest)

/-- Contents of memory from `calloc` as a `c_trace_var_info_struct`.  For cffi-interface/trace.cpp:85-145. -/
def zeroVar : CVar := ⟨.word 0, .unsigned, 0, 0, 0, 0, false⟩

/-- One iteration of the loop of `points_to_array` (trace.cpp:108-140).
Simplification: the cells of the `vars` array are computed before they are stored;
an unchecked type lookup is undefined in either order. -/
def exportPoint (abi : Abi) (ae : AllocEnv) (types : List TypeDesc) (results i : Nat) (p : Point)
    (h : Heap) : Res Heap := do
  let (cVars, h) := allocBlock ae (p.vars.length * abi.sizeVar) abi.sizeVar (some (.var zeroVar)) h
  let (cAux, h) := allocBlock ae (p.aux.length * 8) 8 (some (.word 0)) h
  let h ← storeCell results i
    (.point ⟨p.statement, cVars, BitVec.ofNat 32 p.vars.length, cAux, BitVec.ofNat 32 p.aux.length⟩) h
  let h ← storeAll cAux 0 (p.aux.map .word) h
  let cells ← exportVars types p.vars
  storeAll cVars 0 cells h

/-- The loop of `points_to_array` (trace.cpp:107-141). -/
def exportLoop (abi : Abi) (ae : AllocEnv) (types : List TypeDesc) (results : Nat) :
    Nat → List Point → Heap → Res Heap
  | _, [], h => .ok h
  | i, p :: ps, h => do
    let h ← exportPoint abi ae types results i p h
    exportLoop abi ae types results (i + 1) ps h

/-- `points_to_array` (trace.cpp:97-145).  The size is computed with the size of the
*variable* structure (line 101) in a `size_t`, which is as wide as a pointer. -/
def pointsToArray (abi : Abi) (ae : AllocEnv) (types : List TypeDesc) (points : List Point) (h : Heap) :
    Res (Nat × Heap) := do
  let bytes := (points.length * abi.sizeVar) % 2 ^ (8 * abi.ptr.1)
  if bytes > 0 then do
    let (results, h) := allocBlock ae bytes abi.sizePoint none h
    let h ← exportLoop abi ae types results 0 points h
    pure (results, h)
  else pure (0, h)

/-- The loop of `free_trace_points` (trace.cpp:87-92) over `n` points starting at
index `i`.  Simplification: storing `NULL` in the structures afterwards is omitted. -/
def freePointsLoop (points : Nat) : Nat → Nat → Heap → Res Heap
  | _, 0, h => .ok h
  | i, n + 1, h => do
    let c ← loadCell points i h
    match c with
    | .point p => do
      let h ← freeBlock p.vars h
      let h ← freeBlock p.aux h
      freePointsLoop points (i + 1) n h
    | _ => .ub .uninit

/-- `free_trace_points` (trace.cpp:85-95). -/
def freeTracePoints (points n : Nat) (h : Heap) : Res Heap := do
  let h ← freePointsLoop points 0 n h
  freeBlock points h

end TraceDB
