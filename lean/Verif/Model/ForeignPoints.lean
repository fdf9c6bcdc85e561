import Verif.Model.ForeignBytes
import Verif.Model.LispDb
/-
Points on their way from C++ to Lisp, byte by byte (cffi-interface/trace.cpp:36-145,
binary-trace-db.lisp:43-128, 167-198, 360-386).
-/
namespace TraceDB

/-- `enum type_format` (TypeDescription.hpp:28-35) in the order of its values. -/
def cTypeFormats : List TypeFormat := [.unsigned, .signed, .float, .pointer, .blob, .invalid]
/-- `type-format` (binary-trace-db.lisp:43-49) in the order of its values. -/
def lispTypeFormats : List TypeFormat := [.unsigned, .signed, .float, .pointer, .blob, .invalid]

/-- Where a trace in memory keeps the bytes of its blobs and its names; equal variable
records are one object.  For cffi-interface/trace.cpp:36-145. -/
structure TraceAt where
  blob : VarInfo → Nat
  name : Nat → Nat

/-- The 64 bits of `VarValue` (TraceVarInfo.hpp:33-40). -/
def TraceAt.bits (place : TraceAt) (v : VarInfo) : Nat :=
  match v.value with
  | .word u => u.toNat
  | .blob _ => place.blob v

/-- The members of one element of the `vars` array (trace.cpp:128-137). -/
def exportVarB (place : TraceAt) (types : List TypeDesc) (a : Nat) (v : VarInfo) (m : BMem) : Res BMem :=
  match types[v.typeIndex.toNat]? with
  | none => .ub .oobRead
  | some ty =>
    let l := cLayout 0 cVarInfo
    let m := m.store l a .varNameIndex v.nameIndex.toNat
    let m := m.store l a .typeNameIndex ty.nameIndex.toNat
    let m := m.store l a .value (place.bits v)
    let m := m.store l a .format (cTypeFormats.findIdx (· == v.format))
    let m := m.store l a .size v.size.toNat
    let m := m.store l a .bufferSize v.bufferSize.toNat
    let m := m.store l a .hasBufferSize v.hasBufferSize.toNat
    .ok m

/-- The loop over the variables (trace.cpp:126-138), from element `j` on. -/
def exportVarsB (place : TraceAt) (types : List TypeDesc) (base : Nat) : Nat → List VarInfo → BMem → Res BMem
  | _, [], m => .ok m
  | j, v :: vs, m =>
    if base = 0 then .ub .nullDeref
    else do
      let m ← exportVarB place types (base + j * cSizeof cVarInfo) v m
      exportVarsB place types base (j + 1) vs m

/-- `std::copy` of the auxiliary values (trace.cpp:124), from element `j` on. -/
def exportAuxB (base : Nat) : Nat → List U64 → BMem → Res BMem
  | _, [], m => .ok m
  | j, u :: us, m =>
    if base = 0 then .ub .nullDeref
    else exportAuxB base (j + 1) us (m.putNat (base + j * 8) 8 u.toNat)

/-- One iteration of the loop of `points_to_array` (trace.cpp:108-140). -/
def exportPointB (pl : Placing) (place : TraceAt) (types : List TypeDesc) (results i : Nat) (p : Point) (s : FState) :
    Res FState :=
  let (cVars, s) := s.alloc pl (p.vars.length * cSizeof cVarInfo) true
  let (cAux, s) := s.alloc pl (p.aux.length * 8) true
  if results = 0 then .ub .nullDeref
  else do
    let l := cLayout 0 cTracePoint
    let a := results + i * cSizeof cTracePoint
    let m := s.mem.store l a .statement p.statement.toNat
    let m := m.store l a .nAux p.aux.length
    let m := m.store l a .nVars p.vars.length
    let m := m.store l a .aux cAux
    let m := m.store l a .vars cVars
    let m ← exportAuxB cAux 0 p.aux m
    let m ← exportVarsB place types cVars 0 p.vars m
    pure ⟨m, s.blocks⟩

/-- The loop of `points_to_array` (trace.cpp:107-141). -/
def exportLoopB (pl : Placing) (place : TraceAt) (types : List TypeDesc) (results : Nat) :
    Nat → List Point → FState → Res FState
  | _, [], s => .ok s
  | i, p :: ps, s => do
    let s ← exportPointB pl place types results i p s
    exportLoopB pl place types results (i + 1) ps s

/-- `points_to_array` (trace.cpp:97-145): the size is computed with the size of the
*variable* structure (line 101). -/
def pointsToArrayB (pl : Placing) (place : TraceAt) (types : List TypeDesc) (points : List Point) (s : FState) :
    Res (Nat × FState) :=
  let bytes := points.length * cSizeof cVarInfo % addressLimit
  if bytes > 0 then do
    let (results, s) := s.alloc pl bytes false
    let s ← exportLoopB pl place types results 0 points s
    pure (results, s)
  else .ok (0, s)

/-- The value (binary-trace-db.lisp:80-99), read from the beginning of the structure by
`mem-ref`. -/
def lispValueB (m : BMem) (a : Nat) (f : TypeFormat) (size : Nat) : Res LValue :=
  match f with
  | .unsigned => .ok (.int (m.getNat a 8))
  | .signed => .ok (.int (BitVec.ofNat 64 (m.getNat a 8)).toInt)
  | .float => .ok (if size = 4 then .single (BitVec.ofNat 32 (m.getNat a 4)) else .double (BitVec.ofNat 64 (m.getNat a 8)))
  | .pointer => .ok (.int (m.getNat a 8))
  | .blob => .ok (.blob (m.get (m.getNat a 8) size))
  | .invalid => .throw .lisp

/-- A variable (binary-trace-db.lisp:72-101) with its names looked up (lines 179-182).  A
number that is no value of `type-format` is an error of CFFI. -/
def lispVarB (names : List (List U8)) (m : BMem) (a : Nat) : Res LVar :=
  let l := cffiLayout 0 lispVarInfo
  match lispTypeFormats[m.load l a .format]? with
  | none => .throw .lisp
  | some f => do
    let x ← lispValueB m a f (m.load l a .size)
    match names[m.load l a .varNameIndex]?, names[m.load l a .typeNameIndex]? with
    | some n, some tn =>
      pure ⟨n, tn, x, if m.load l a .hasBufferSize = 0 then none else some (m.load l a .bufferSize)⟩
    | _, _ => .throw .lisp

/-- The variables of a point (binary-trace-db.lisp:118-124): `n` of them from element
`i`. -/
def lispScopesB (names : List (List U8)) (m : BMem) (base : Nat) : Nat → Nat → Res (List LVar)
  | _, 0 => .ok []
  | i, n + 1 => do
    let x ← lispVarB names m (base + i * cffiSizeof lispVarInfo)
    let xs ← lispScopesB names m base (i + 1) n
    pure (x :: xs)

/-- The auxiliary values (binary-trace-db.lisp:125-128). -/
def lispAuxB (m : BMem) (base : Nat) (n : Nat) : List U64 :=
  (List.range n).map fun i => BitVec.ofNat 64 (m.getNat (base + i * 8) 8)

/-- A point (binary-trace-db.lisp:102-128, 179-183). -/
def lispPointB (names : List (List U8)) (m : BMem) (a : Nat) : Res LPoint := do
  let l := cffiLayout 0 lispTracePoint
  let scopes ← lispScopesB names m (m.load l a .vars) 0 (m.load l a .nVars)
  let s : U64 := BitVec.ofNat 64 (m.load l a .statement)
  pure ⟨unpackC s, unpackF s, scopes, lispAuxB m (m.load l a .aux) (m.load l a .nAux)⟩

/-- The loop of `convert-trace-points` (binary-trace-db.lisp:186-197) without a filter. -/
def convertB (names : List (List U8)) (m : BMem) (points : Nat) : Nat → Nat → Res (List LPoint)
  | _, 0 => .ok []
  | i, n + 1 => do
    let p ← lispPointB names m (points + i * cffiSizeof lispTracePoint)
    let ps ← convertB names m points (i + 1) n
    pure (p :: ps)

/-- The loop of `get_names` (trace.cpp:72-75). -/
def exportNamesB (place : TraceAt) (base : Nat) : Nat → Nat → BMem → Res BMem
  | _, 0, m => .ok m
  | i, n + 1, m =>
    if base = 0 then .ub .nullDeref
    else exportNamesB place base (i + 1) n (m.putNat (base + i * 8) 8 (place.name i))

/-- `(mem-aref ptr :string i)`: the bytes up to the first NUL.  Simplifications: they can be
decoded, and NULL, for which Lisp gets `nil`, is an error.  For binary-trace-db.lisp:167-198. -/
def lispStringB (m : BMem) (a : Nat) : Res (List U8) :=
  let p := m.getNat a 8
  if p = 0 then .throw .lisp
  else match m.text p (addressLimit - p) with
    | some bs => .ok bs
    | none => .ub .oobRead

/-- The loop of `get-names` and of `trace-types` (binary-trace-db.lisp:174-176, 368-370). -/
def lispStringsB (m : BMem) (base : Nat) : Nat → Nat → Res (List (List U8))
  | _, 0 => .ok []
  | i, n + 1 => do
    let x ← lispStringB m (base + i * 8)
    let xs ← lispStringsB m base (i + 1) n
    pure (x :: xs)

/-- `get-names` (binary-trace-db.lisp:171-178) with `get_names` (trace.cpp:67-78).  The
number of names is a `uint32_t` (trace.cpp:62-65).  Simplification, here and below: what is
freed (C36, C71) is not used again in the same operation. -/
def lispNamesB (pl : Placing) (place : TraceAt) (t : Trace) (s : FState) : Res (List (List U8) × FState) := do
  let (base, s) := s.alloc pl (t.names.length * 8) true
  let m ← exportNamesB place base 0 t.names.length s.mem
  let names ← lispStringsB m base 0 (t.names.length % 2 ^ 32)
  pure (names, ⟨m, s.blocks⟩)

/-- The loop of `get_types` (trace.cpp:54-56), from element `i` on. -/
def exportTypesB (place : TraceAt) (names : List Name) (base : Nat) : Nat → List TypeDesc → BMem → Res BMem
  | _, [], m => .ok m
  | i, ty :: tys, m =>
    if base = 0 then .ub .nullDeref
    else if ty.nameIndex.toNat < names.length then
      exportTypesB place names base (i + 1) tys (m.putNat (base + i * 8) 8 (place.name ty.nameIndex.toNat))
    else .ub .oobRead

/-- `trace-types` (binary-trace-db.lisp:360-371) with `get_types` (trace.cpp:47-60). -/
def lispTypesB (pl : Placing) (place : TraceAt) (t : Trace) (s : FState) : Res (List (List U8) × FState) := do
  let (base, s) := s.alloc pl (t.types.length * 8) true
  let m ← exportTypesB place t.names base 0 t.types s.mem
  let names ← lispStringsB m base 0 (t.types.length % 2 ^ 32)
  pure (names, ⟨m, s.blocks⟩)

/-- Points exported and converted (trace.cpp:97-145, binary-trace-db.lisp:167-198). -/
def lispPointsB (pl : Placing) (place : TraceAt) (t : Trace) (points : List Point) (s : FState) :
    Res (List LPoint × FState) := do
  let (a, s) ← pointsToArrayB pl place t.types points s
  let (names, s) ← lispNamesB pl place t s
  let ps ← convertB names s.mem a 0 points.length
  pure (ps, s)

/-- `get-trace` of the binary database (binary-trace-db.lisp:373-386). -/
def lispGetTraceB (pl : Placing) (place : TraceAt) (t : Trace) (file : Option Nat) (s : FState) :
    Res (List LPoint × FState) := do
  let (ps, s) ← lispPointsB pl place t t.points s
  pure (ofFile file ps, s)

end TraceDB
