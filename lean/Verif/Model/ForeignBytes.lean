import Verif.Model.Types
import Verif.Model.Bytes
/-
Memory as bytes, and how C and Lisp (CFFI) lay out the structures they share and pass
arguments (cffi-interface/trace.h, cffi-interface/trace-db.h, binary-trace-db.lisp), on
x86-64.
-/
namespace TraceDB

/-! Bytes -/

/-- The memory of a process: a byte at each address.
For cffi-interface/trace.h:24-40 and binary-trace-db.lisp:43-71, 390-428. -/
abbrev BMem := Nat → U8

/-- Storing bytes from address `a` on.  For cffi-interface/trace.h:24-40 and binary-trace-db.lisp:43-71, 390-428. -/
def BMem.put (m : BMem) (a : Nat) (bs : List U8) : BMem := fun x =>
  if a ≤ x ∧ x < a + bs.length then bs.getD (x - a) 0 else m x

/-- The `n` bytes from address `a` on.  For cffi-interface/trace.h:24-40 and binary-trace-db.lisp:43-71, 390-428. -/
def BMem.get (m : BMem) (a n : Nat) : List U8 := (List.range n).map fun i => m (a + i)

/-- Storing an integer of `n` bytes (little-endian, x86-64).
For cffi-interface/trace.h:24-40 and binary-trace-db.lisp:43-71, 390-428. -/
def BMem.putNat (m : BMem) (a n v : Nat) : BMem := m.put a (leBytes n v)

/-- The unsigned integer of `n` bytes at `a`.  For cffi-interface/trace.h:24-40 and binary-trace-db.lisp:43-71, 390-428. -/
def BMem.getNat (m : BMem) (a n : Nat) : Nat := leNat (m.get a n)

/-- The bytes from `a` up to a NUL, at most `fuel` of them are looked at; `none` if there
is no NUL among them.  For cffi-interface/trace.h:24-40 and binary-trace-db.lisp:43-71, 390-428. -/
def BMem.text (m : BMem) (a : Nat) : Nat → Option (List U8)
  | 0 => none
  | fuel + 1 => if m a = 0 then some [] else (m.text (a + 1) fuel).map (m a :: ·)

/-- The end of the address space (x86-64).  For cffi-interface/trace.h:24-40 and binary-trace-db.lisp:43-71, 390-428. -/
def addressLimit : Nat := 2 ^ 64

/-! Structures -/

/-- The members of the shared structures (trace.h:24-40, trace-db.h:78-91, 107-112); in C
with underscores, in Lisp with hyphens (binary-trace-db.lisp:52-69, 411-426). -/
inductive Member where
  | value | format | varNameIndex | typeNameIndex | size | bufferSize | hasBufferSize
  | statement | vars | nVars | aux | nAux
  | kind | nChildren | varIndex | unsignedValue | signedValue | floatValue | children
  | nAllowedTypes | allowedTypes
  deriving DecidableEq, Repr

/-- Types in the C declarations; `union` is `VarValue` (TraceVarInfo.hpp:33-40). -/
inductive CTy where
  | uint8 | uint32 | uint64 | int64 | double | int | enum | pointer | union
  deriving DecidableEq, Repr

/-- Size and alignment of a C type on x86-64.  Simplification: the alignment is the size,
which holds for all of these types.  For cffi-interface/trace.h:24-40 and binary-trace-db.lisp:43-71, 390-428. -/
def CTy.bytes : CTy → Nat
  | .uint8 => 1
  | .uint32 => 4
  | .int => 4
  | .enum => 4
  | .uint64 => 8
  | .int64 => 8
  | .double => 8
  | .pointer => 8
  | .union => 8

/-- CFFI types; an enumeration declared by `defcenum` is an `:int`.
For cffi-interface/trace.h:24-40 and binary-trace-db.lisp:43-71, 390-428. -/
inductive FTy where
  | uint8 | uint32 | uint64 | int64 | double | int | enum | pointer | string
  deriving DecidableEq, Repr

/-- Size and alignment of a CFFI type on x86-64.  For cffi-interface/trace.h:24-40 and binary-trace-db.lisp:43-71, 390-428. -/
def FTy.bytes : FTy → Nat
  | .uint8 => 1
  | .uint32 => 4
  | .int => 4
  | .enum => 4
  | .uint64 => 8
  | .int64 => 8
  | .double => 8
  | .pointer => 8
  | .string => 8

/-- Members with their offsets and sizes.  For cffi-interface/trace.h:24-40 and binary-trace-db.lisp:43-71, 390-428. -/
abbrev Layout := List (Member × Nat × Nat)

/-- The next multiple of an alignment.  For cffi-interface/trace.h:24-40 and binary-trace-db.lisp:43-71, 390-428. -/
def roundUp (n a : Nat) : Nat := (n + a - 1) / a * a

/-- How C lays out members given with their sizes and alignments, from an offset on: each
begins at the next multiple of its alignment.  For cffi-interface/trace.h:24-40 and binary-trace-db.lisp:43-71, 390-428. -/
def cLayout : Nat → List (Member × Nat × Nat) → Layout
  | _, [] => []
  | off, (x, n, a) :: ms => (x, roundUp off a, n) :: cLayout (roundUp off a + n) ms

/-- `sizeof` of such a structure: padded to the largest alignment.
For cffi-interface/trace.h:24-40 and binary-trace-db.lisp:43-71, 390-428. -/
def cSizeof (ms : List (Member × Nat × Nat)) : Nat :=
  roundUp (ms.foldl (fun off m => roundUp off m.2.2 + m.2.1) 0) (ms.foldl (fun a m => max a m.2.2) 1)

/-- `adjust-for-alignment` of CFFI.  For cffi-interface/trace.h:24-40 and binary-trace-db.lisp:43-71, 390-428. -/
def cffiAdjust (off align : Nat) : Nat :=
  if off % align = 0 then off else off + (align - off % align)

/-- How `defcstruct` lays out slots.  For cffi-interface/trace.h:24-40 and binary-trace-db.lisp:43-71, 390-428. -/
def cffiLayout : Nat → List (Member × Nat × Nat) → Layout
  | _, [] => []
  | off, (x, n, a) :: ms => (x, cffiAdjust off a, n) :: cffiLayout (cffiAdjust off a + n) ms

/-- The size `defcstruct` gives to a structure.  For cffi-interface/trace.h:24-40 and binary-trace-db.lisp:43-71, 390-428. -/
def cffiSizeof (ms : List (Member × Nat × Nat)) : Nat :=
  cffiAdjust (ms.foldl (fun off m => cffiAdjust off m.2.2 + m.2.1) 0) (ms.foldl (fun a m => max a m.2.2) 1)

/-- Offset and size of a member.  For cffi-interface/trace.h:24-40 and binary-trace-db.lisp:43-71, 390-428. -/
def Layout.find (l : Layout) (x : Member) : Nat × Nat :=
  match l.find? (·.1 == x) with
  | some m => m.2
  | none => (0, 0)

/-- `p->x = v`, or `(setf (foreign-slot-value p ... 'x) v)`.
For cffi-interface/trace.h:24-40 and binary-trace-db.lisp:43-71, 390-428. -/
def BMem.store (m : BMem) (l : Layout) (p : Nat) (x : Member) (v : Nat) : BMem :=
  m.putNat (p + (l.find x).1) (l.find x).2 v

/-- `p->x`, or `(foreign-slot-value p ... 'x)`, as an unsigned number.
For cffi-interface/trace.h:24-40 and binary-trace-db.lisp:43-71, 390-428. -/
def BMem.load (m : BMem) (l : Layout) (p : Nat) (x : Member) : Nat :=
  m.getNat (p + (l.find x).1) (l.find x).2

/-- Sizes and alignments of C members.  For cffi-interface/trace.h:24-40 and binary-trace-db.lisp:43-71, 390-428. -/
def cMembers (ms : List (Member × CTy)) : List (Member × Nat × Nat) := ms.map fun m => (m.1, m.2.bytes, m.2.bytes)
/-- Sizes and alignments of CFFI slots.  For cffi-interface/trace.h:24-40 and binary-trace-db.lisp:43-71, 390-428. -/
def lispSlots (ms : List (Member × FTy)) : List (Member × Nat × Nat) := ms.map fun m => (m.1, m.2.bytes, m.2.bytes)

/-- `c_trace_var_info_struct` (trace.h:24-32). -/
def cVarInfo : List (Member × Nat × Nat) := cMembers
  [(.value, .union), (.format, .enum), (.varNameIndex, .uint32), (.typeNameIndex, .uint32), (.size, .uint32),
    (.bufferSize, .uint64), (.hasBufferSize, .uint8)]
/-- `var-info` (binary-trace-db.lisp:52-62). -/
def lispVarInfo : List (Member × Nat × Nat) := lispSlots
  [(.value, .uint64), (.format, .enum), (.varNameIndex, .uint32), (.typeNameIndex, .uint32), (.size, .uint32),
    (.bufferSize, .uint64), (.hasBufferSize, .uint8)]

/-- `c_trace_point_struct` (trace.h:34-40). -/
def cTracePoint : List (Member × Nat × Nat) := cMembers
  [(.statement, .uint64), (.vars, .pointer), (.nVars, .uint32), (.aux, .pointer), (.nAux, .uint32)]
/-- `trace-point` (binary-trace-db.lisp:64-69). -/
def lispTracePoint : List (Member × Nat × Nat) := lispSlots
  [(.statement, .uint64), (.vars, .pointer), (.nVars, .uint32), (.aux, .pointer), (.nAux, .uint32)]

/-- `c_predicate` (trace-db.h:78-91). -/
def cPredicate : List (Member × Nat × Nat) := cMembers
  [(.kind, .enum), (.nChildren, .uint64), (.varIndex, .uint64), (.unsignedValue, .uint64), (.signedValue, .int64),
    (.floatValue, .double), (.children, .pointer)]
/-- `c-predicate` (binary-trace-db.lisp:411-422). -/
def lispPredicate : List (Member × Nat × Nat) := lispSlots
  [(.kind, .enum), (.nChildren, .uint64), (.varIndex, .uint64), (.unsignedValue, .uint64), (.signedValue, .int64),
    (.floatValue, .double), (.children, .pointer)]

/-- `c_free_variable` (trace-db.h:107-112). -/
def cFreeVariable : List (Member × Nat × Nat) := cMembers [(.nAllowedTypes, .uint32), (.allowedTypes, .pointer)]
/-- `c-free-variable` (binary-trace-db.lisp:424-426). -/
def lispFreeVariable : List (Member × Nat × Nat) := lispSlots [(.nAllowedTypes, .uint32), (.allowedTypes, .pointer)]

/-! Allocation -/

/-- Memory and the blocks in use in it: where they begin and how long they are.
For cffi-interface/trace.h:24-40 and binary-trace-db.lisp:43-71, 390-428. -/
structure FState where
  mem : BMem
  blocks : List (Nat × Nat)

/-- How memory is allocated: given the blocks in use and the size requested, the address of
a new block, or `none`.  For cffi-interface/trace.h:24-40 and binary-trace-db.lisp:43-71, 390-428. -/
abbrev Placing := List (Nat × Nat) → Nat → Option Nat

/-- `malloc` (`zero` false) and `calloc`: the address, 0 if there is no memory.
For cffi-interface/trace.h:24-40 and binary-trace-db.lisp:43-71, 390-428. -/
def FState.alloc (pl : Placing) (n : Nat) (zero : Bool) (s : FState) : Nat × FState :=
  match pl s.blocks n with
  | none => (0, s)
  | some a => (a, ⟨if zero then s.mem.put a (List.replicate n 0) else s.mem, s.blocks ++ [(a, n)]⟩)

/-! Calls -/

/-- The functions of the C interface that Lisp calls.  For binary-trace-db.lisp:136-164, 218-240, 429-445. -/
inductive CFun where
  | readTrace | traceSize | getPoints | nTypes | getTypes | nNames | getNames | freeTrace | freeTracePoints
  | createDb | addTrace | addTracePoints | getTrace | nTraces | serializeTraceDb | deserializeTraceDb | freeDb
  | queryTrace | freeCPredicate
  deriving DecidableEq, Repr

/-- The declarations in trace.h:42-96 and trace-db.h:12-69, 93-96, 114-152: the type of the
result (`none` is `void`) and of the arguments. -/
def CFun.declared : CFun → Option CTy × List CTy
  | .readTrace => (some .pointer, [.pointer, .uint32, .uint64])
  | .traceSize => (some .uint64, [.pointer])
  | .getPoints => (some .pointer, [.pointer])
  | .nTypes => (some .uint32, [.pointer])
  | .getTypes => (some .pointer, [.pointer])
  | .nNames => (some .uint32, [.pointer])
  | .getNames => (some .pointer, [.pointer])
  | .freeTrace => (none, [.pointer])
  | .freeTracePoints => (none, [.pointer, .uint64])
  | .createDb => (some .pointer, [])
  | .addTrace => (some .int, [.pointer, .pointer, .uint32, .uint64])
  | .addTracePoints => (some .int, [.pointer, .pointer, .uint64, .pointer, .uint32])
  | .getTrace => (some .pointer, [.pointer, .uint32])
  | .nTraces => (some .uint32, [.pointer])
  | .serializeTraceDb => (some .pointer, [.pointer])
  | .deserializeTraceDb => (some .pointer, [.pointer])
  | .freeDb => (none, [.pointer])
  | .queryTrace => (none, [.pointer, .uint64, .pointer, .uint32, .pointer, .pointer, .uint32, .uint32, .uint8, .uint64,
      .uint64, .pointer, .pointer])
  | .freeCPredicate => (none, [.pointer])

/-- The `defcfun` forms (binary-trace-db.lisp:136-165, 218-240, 428-445). -/
def CFun.imported : CFun → Option FTy × List FTy
  | .readTrace => (some .pointer, [.string, .uint32, .uint64])
  | .traceSize => (some .uint64, [.pointer])
  | .getPoints => (some .pointer, [.pointer])
  | .nTypes => (some .uint32, [.pointer])
  | .getTypes => (some .pointer, [.pointer])
  | .nNames => (some .uint32, [.pointer])
  | .getNames => (some .pointer, [.pointer])
  | .freeTrace => (none, [.pointer])
  | .freeTracePoints => (none, [.pointer, .uint64])
  | .createDb => (some .pointer, [])
  | .addTrace => (some .int, [.pointer, .string, .int, .uint64])
  | .addTracePoints => (some .int, [.pointer, .pointer, .uint64, .pointer, .uint32])
  | .getTrace => (some .pointer, [.pointer, .uint32])
  | .nTraces => (some .uint32, [.pointer])
  | .serializeTraceDb => (some .string, [.pointer])
  | .deserializeTraceDb => (some .pointer, [.string])
  | .freeDb => (none, [.pointer])
  | .queryTrace => (none, [.pointer, .uint64, .pointer, .uint32, .pointer, .pointer, .uint32, .uint32, .uint8, .uint64,
      .uint64, .pointer, .pointer])
  | .freeCPredicate => (none, [.pointer])

/-- Whether CFFI takes a number for a type; others are an error.  For binary-trace-db.lisp:136-164, 218-240, 429-445. -/
def FTy.takes (ty : FTy) (v : Int) : Bool :=
  match ty with
  | .int => decide (-2 ^ 31 ≤ v) && decide (v < 2 ^ 31)
  | .int64 => decide (-2 ^ 63 ≤ v) && decide (v < 2 ^ 63)
  | ty => decide (0 ≤ v) && decide (v < 2 ^ (8 * ty.bytes))

/-- The values of a C type.  For binary-trace-db.lisp:136-164, 218-240, 429-445. -/
def CTy.has (ty : CTy) (v : Int) : Bool :=
  match ty with
  | .int => decide (-2 ^ 31 ≤ v) && decide (v < 2 ^ 31)
  | .int64 => decide (-2 ^ 63 ≤ v) && decide (v < 2 ^ 63)
  | ty => decide (0 ≤ v) && decide (v < 2 ^ (8 * ty.bytes))

/-- What is in a register or a slot of the stack after a value of `n` bytes was put there:
the other bytes may be anything (System V ABI for x86-64).  For binary-trace-db.lisp:136-164, 218-240, 429-445. -/
def putSlot (n : Nat) (v : Int) (junk : U64) : U64 :=
  BitVec.ofNat 64 (junk.toNat / 256 ^ n * 256 ^ n + (v % (256 ^ n : Nat)).toNat)

/-- A value of `n` bytes in a slot, signed or not.  For binary-trace-db.lisp:136-164, 218-240, 429-445. -/
def takeSlot (n : Nat) (signed : Bool) (x : U64) : Int :=
  let v := x.toNat % 256 ^ n
  if signed && decide (256 ^ n / 2 ≤ v) then (v : Int) - (256 ^ n : Nat) else v

/-- Whether a C type is signed.  For binary-trace-db.lisp:136-164, 218-240, 429-445. -/
def CTy.signed : CTy → Bool
  | .int => true
  | .int64 => true
  | _ => false

/-- Whether a CFFI type is signed.  For binary-trace-db.lisp:136-164, 218-240, 429-445. -/
def FTy.signed : FTy → Bool
  | .int => true
  | .int64 => true
  | _ => false

/-- The slots when Lisp calls a function with the given arguments; `none` is an error of
CFFI or a wrong number of arguments.  For binary-trace-db.lisp:136-164, 218-240, 429-445. -/
def lispCall : List FTy → List Int → List U64 → Option (List U64)
  | [], [], _ => some []
  | ty :: tys, v :: vs, junk =>
    if ty.takes v then (lispCall tys vs junk.tail).map (putSlot ty.bytes v (junk.headD 0) :: ·) else none
  | _, _, _ => none

/-- The arguments the function finds.  For binary-trace-db.lisp:136-164, 218-240, 429-445. -/
def cParams : List CTy → List U64 → Option (List Int)
  | [], [] => some []
  | ty :: tys, x :: xs => (cParams tys xs).map (takeSlot ty.bytes ty.signed x :: ·)
  | _, _ => none

/-- What Lisp takes for the result `v` of a function.  For binary-trace-db.lisp:136-164, 218-240, 429-445. -/
def lispResult (c : CTy) (f : FTy) (v : Int) (junk : U64) : Int := takeSlot f.bytes f.signed (putSlot c.bytes v junk)

end TraceDB
