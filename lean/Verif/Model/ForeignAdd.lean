import Verif.Model.ForeignQuery
import Verif.Model.LispAdd
import Verif.Model.Archive
/-
Strings, and points given as Lisp data, on their way from Lisp to C++, byte by byte
(binary-trace-db.lisp:218-240, 259-276, 305-358, 447-453, cffi-interface/trace-db.cpp:54-144,
159-183).
-/
namespace TraceDB

/-! Writing by Lisp -/

/-- `lisp-array-to-foreign` (binary-trace-db.lisp:451-452) for structures of the given size,
from element `i` on. -/
def storeEachB {α : Type} (store : Nat → α → BMem → BMem) (size base : Nat) : Nat → List α → BMem → BMem
  | _, [], m => m
  | i, x :: xs, m => storeEachB store size base (i + 1) xs (store (base + i * size) x m)

/-- `create-foreign-array` (binary-trace-db.lisp:447-453) for structures. -/
def createEachB {α : Type} (pl : Placing) (store : Nat → α → BMem → BMem) (size : Nat) (xs : List α) (s : FState) :
    Res (Nat × FState) := do
  let (a, s) ← lispAlloc pl (xs.length * size) s
  pure (a, ⟨storeEachB store size a 0 xs s.mem, s.blocks⟩)

/-- The slots of a `var-info` in the order of the list (binary-trace-db.lisp:325-338).  The
format is that of a value that is not negative, as others are refused. -/
def storeVarB (a : Nat) (v : InVar) (m : BMem) : BMem :=
  let l := cffiLayout 0 lispVarInfo
  let m := m.store l a .value v.value.toNat
  let m := m.store l a .format (lispTypeFormats.findIdx (· == .unsigned))
  let m := m.store l a .varNameIndex v.nameIndex.toNat
  let m := m.store l a .typeNameIndex v.typeNameIndex.toNat
  let m := m.store l a .size 8
  let m := m.store l a .hasBufferSize v.hasBufferSize.toNat
  m.store l a .bufferSize v.bufferSize.toNat

/-- The slots of a `trace-point` (binary-trace-db.lisp:340-351); `aux` is the null pointer. -/
structure PointCell where
  statement : U64
  vars : Nat
  nVars : Nat

/-- Storing them in the order of the list.  For binary-trace-db.lisp:305-358. -/
def storePointB (a : Nat) (c : PointCell) (m : BMem) : BMem :=
  let l := cffiLayout 0 lispTracePoint
  let m := m.store l a .statement c.statement.toNat
  let m := m.store l a .vars c.vars
  let m := m.store l a .nVars c.nVars
  let m := m.store l a .aux 0
  m.store l a .nAux 0

/-- The slots of all points, and the arrays of their variables
(binary-trace-db.lisp:318-352).  Simplifications: numbers that do not fit are an error before
the array of the variables is allocated (but see C92), and when the list for the point is
made. -/
def buildPointsB (pl : Placing) (names : List (List U8)) : List LPoint → FState → Res (List PointCell × FState)
  | [], s => .ok ([], s)
  | p :: ps, s => do
    let vars ← lispInVars names p.scopes
    let (a, s) ← createEachB pl storeVarB (cffiSizeof lispVarInfo) vars s
    if packId p.f p.c < 2 ^ 64 ∧ p.scopes.length < 2 ^ 32 then do
      let (cs, s) ← buildPointsB pl names ps s
      pure (⟨BitVec.ofNat 64 (packId p.f p.c), a, p.scopes.length⟩ :: cs, s)
    else .throw .lisp

/-- `foreign-string-alloc` of CFFI, used for arguments and elements of arrays of type
`:string`: the bytes and a NUL.  A string is its encoding.  For binary-trace-db.lisp:219-228, 447-453. -/
def lispStringAllocB (pl : Placing) (bs : List U8) (s : FState) : Res (Nat × FState) := do
  let (a, s) ← lispAlloc pl (bs.length + 1) s
  pure (a, ⟨s.mem.put a (bs ++ [0]), s.blocks⟩)

/-- `lisp-array-to-foreign` (binary-trace-db.lisp:451-452) for strings, from element `i`
on. -/
def storeStringsB (pl : Placing) (base : Nat) : Nat → List (List U8) → FState → Res FState
  | _, [], s => .ok s
  | i, n :: ns, s => do
    let (a, s) ← lispStringAllocB pl n s
    storeStringsB pl base (i + 1) ns ⟨s.mem.putNat (base + i * FTy.string.bytes) FTy.string.bytes a, s.blocks⟩

/-- `(create-foreign-array :string names)` (binary-trace-db.lisp:355). -/
def createStringsB (pl : Placing) (ns : List (List U8)) (s : FState) : Res (Nat × FState) := do
  let (a, s) ← lispAlloc pl (ns.length * FTy.string.bytes) s
  let s ← storeStringsB pl a 0 ns s
  pure (a, s)

/-! Reading by C -/

/-- `std::string(p)`: the bytes up to the first NUL.  For cffi-interface/trace-db.cpp:54-144, 173-183. -/
def readStringB (m : BMem) (p : Nat) : Res (List U8) :=
  if p = 0 then .ub .nullDeref
  else match m.text p (addressLimit - p) with
    | some bs => .ok bs
    | none => .ub .oobRead

/-- The loop over the names (trace-db.cpp:71-73). -/
def readStringsB (m : BMem) (base : Nat) : Nat → Nat → Res (List Name)
  | _, 0 => .ok []
  | i, n + 1 => do
    let x ← readStringB m (m.getNat (base + i * CTy.pointer.bytes) CTy.pointer.bytes)
    let xs ← readStringsB m base (i + 1) n
    pure (x :: xs)

/-- `c_points[i].vars[j]` (trace-db.cpp:77-85, 104-123): the members that are used. -/
def readInVarB (m : BMem) (a : Nat) : InVar :=
  let l := cLayout 0 cVarInfo
  ⟨BitVec.ofNat 64 (m.load l a .value), BitVec.ofNat 32 (m.load l a .varNameIndex), BitVec.ofNat 32 (m.load l a .typeNameIndex),
    BitVec.ofNat 64 (m.load l a .bufferSize), decide (m.load l a .hasBufferSize ≠ 0)⟩

/-- The variables of a point.  For binary-trace-db.lisp:305-358. -/
def readInVarsB (m : BMem) (base : Nat) : Nat → Nat → List InVar
  | _, 0 => []
  | j, n + 1 => readInVarB m (base + j * cSizeof cVarInfo) :: readInVarsB m base (j + 1) n

/-- `c_points[i]` (trace-db.cpp:76-87, 95-134).  Simplification: it is read once. -/
def readInPointB (m : BMem) (a : Nat) : InPoint :=
  let l := cLayout 0 cTracePoint
  ⟨BitVec.ofNat 64 (m.load l a .statement), readInVarsB m (m.load l a .vars) 0 (m.load l a .nVars),
    (List.range (m.load l a .nAux)).map fun j =>
      BitVec.ofNat 64 (m.getNat (m.load l a .aux + j * CTy.uint64.bytes) CTy.uint64.bytes)⟩

/-- The points.  For binary-trace-db.lisp:305-358. -/
def readInPointsB (m : BMem) (base : Nat) : Nat → Nat → List InPoint
  | _, 0 => []
  | i, n + 1 => readInPointB m (base + i * cSizeof cTracePoint) :: readInPointsB m base (i + 1) n

/-! The calls -/

/-- `add_trace_points` (trace-db.cpp:54-144) with the arguments it finds, and the push of the
metadata (binary-trace-db.lisp:357). -/
def addPointsC {μ : Type} (grow : Nat → Nat) (env : Env) (d : LispDb μ) (m : μ) (params : List Int) (mem : BMem) :
    Res (LispDb μ) :=
  match params with
  | [_, points, nPoints, names, nNames] => do
    let ns ← readStringsB mem names.toNat 0 nNames.toNat
    d.add grow env (.points (readInPointsB mem points.toNat 0 nPoints.toNat) ns m)
  | _ => .ub .misuse

/-- A call of `add_trace_points` from Lisp; `junk` is what is in unused bytes.  For binary-trace-db.lisp:305-358. -/
def callAddPointsB {μ : Type} (grow : Nat → Nat) (env : Env) (junk : List U64) (d : LispDb μ) (m : μ) (args : List Int)
    (mem : BMem) : Res (LispDb μ) :=
  match lispCall CFun.addTracePoints.imported.2 args junk with
  | none => .throw .lisp
  | some slots =>
    match cParams CFun.addTracePoints.declared.2 slots with
    | none => .ub .misuse
    | some params => addPointsC grow env d m params mem

/-- `add-trace-points` (binary-trace-db.lisp:305-358) on the database at `db`. -/
def LispDb.addPointsB {μ : Type} (pl : Placing) (grow : Nat → Nat) (env : Env) (db : U64) (junk : List U64) (d : LispDb μ)
    (trace : List LPoint) (m : μ) (s : FState) : Res (LispDb μ × FState) := do
  let names := lispAddNames trace
  let (cells, s) ← buildPointsB pl names trace s
  let (points, s) ← createEachB pl storePointB (cffiSizeof lispTracePoint) cells s
  let (strings, s) ← createStringsB pl names s
  let d ← callAddPointsB grow env junk d m
    [(db.toNat : Int), (points : Int), (trace.length : Int), (strings : Int), (names.length : Int)] s.mem
  pure (d, s)

/-- `serialize_trace_db` (trace-db.cpp:159-171), and what Lisp makes of its result
(binary-trace-db.lisp:235-236, 259-264). -/
def LispDb.storeB {μ : Type} (pl : Placing) (version : Nat) (d : LispDb μ) (junk : U64) (s : FState) :
    Res ((List U8 × List μ) × FState) :=
  let text := serializeDb version d.db
  let (a, s) := s.alloc pl text.length false
  if a = 0 then .ub .nullDeref
  else do
    let s : FState := ⟨s.mem.put a text, s.blocks⟩
    let p := (lispResult .pointer .string (a : Int) junk).toNat
    let bs ← readStringB s.mem p
    pure ((bs, d.metadata), s)

/-- `deserialize_trace_db` (trace-db.cpp:173-183) with the arguments it finds; an exception of
the archive ends the process. -/
def deserializeC (params : List Int) (mem : BMem) : Res Db :=
  match params with
  | [p] => do
    let text ← readStringB mem p.toNat
    match deserializeDb text with
    | some db => .ok db
    | none => .abort
  | _ => .ub .misuse

/-- A call of it from Lisp.  For binary-trace-db.lisp:237-238. -/
def callDeserializeB (junk : List U64) (args : List Int) (mem : BMem) : Res Db :=
  match lispCall CFun.deserializeTraceDb.imported.2 args junk with
  | none => .throw .lisp
  | some slots =>
    match cParams CFun.deserializeTraceDb.declared.2 slots with
    | none => .ub .misuse
    | some params => deserializeC params mem

/-- Restoring a database (binary-trace-db.lisp:266-276): the string is given to
`deserialize_trace_db`. -/
def LispDb.restoreB {μ : Type} (pl : Placing) (junk : List U64) (stored : List U8 × List μ) (s : FState) :
    Res (LispDb μ × FState) :=
  -- an empty string stands for no database; a new one is made (binary-trace-db.lisp:250-254)
  if stored.1 = [] then .ok (⟨Db.create, stored.2⟩, s)
  else do
    let (a, s) ← lispStringAllocB pl stored.1 s
    let db ← callDeserializeB junk [(a : Int)] s.mem
    pure (⟨db, stored.2⟩, s)

end TraceDB
