import Verif.Model.Database
import Verif.Model.Api
/-
The two databases of the Lisp side: binary-trace-db.lisp, which calls the C
interface, and sexp-trace-db.lisp, which keeps lists.
-/
namespace TraceDB

/-! Statement ids -/

/-- The trace id of the AST with index `ast` (instrumentation/c-cpp.lisp:406-412,
and the same expression in binary-trace-db.lisp:340-345): with a file id the flag bit
and both ids.  Lisp integers are unbounded. -/
def packId (file : Option Nat) (ast : Nat) : Nat :=
  match file with
  | some f => (1 <<< 63 ||| f <<< 40) ||| ast
  | none => ast

/-- `:c` of a point (binary-trace-db.lisp:108-112). -/
def unpackC (s : U64) : Nat :=
  if s.toNat &&& 1 <<< 63 > 0 then (1 <<< 40 - 1) &&& s.toNat else s.toNat

/-- `:f` of a point (binary-trace-db.lisp:113-117). -/
def unpackF (s : U64) : Option Nat :=
  if s.toNat &&& 1 <<< 63 > 0 then some ((1 <<< 23 - 1) &&& s.toNat >>> 40) else none

/-- Statement mask and statement passed by `query-trace`
(binary-trace-db.lisp:574-581).  CFFI checks that the arguments are in the range of
`uint64_t`. -/
def fileArgs (file : Option Nat) : Res (U64 × U64) :=
  match file with
  | none => .ok (0, 0)
  | some f =>
    if f <<< 40 < 2 ^ 64 then .ok (BitVec.ofNat 64 ((1 <<< 23 - 1) <<< 40), BitVec.ofNat 64 (f <<< 40))
    else .throw .lisp

/-! Points as Lisp data -/

/-- A value as Lisp data (binary-trace-db.lisp:80-99): numbers, floats by their
bits, blobs by their bytes.  Simplification: decoding a blob to a string is left
out. -/
inductive LValue where
  | int (i : Int)
  | single (bits : BitVec 32)
  | double (bits : U64)
  | blob (bytes : List U8)
  deriving DecidableEq, Repr

/-- A variable as Lisp data (binary-trace-db.lisp:72-101): name, type name, value,
buffer size or `nil`.  Strings are the bytes up to the first NUL.  Simplification:
they can be decoded. -/
structure LVar where
  name : List U8
  type : List U8
  value : LValue
  size : Option Nat
  deriving DecidableEq, Repr

/-- A point as Lisp data (binary-trace-db.lisp:102-128), an association list. -/
structure LPoint where
  c : Nat
  f : Option Nat
  scopes : List LVar
  aux : List U64
  deriving DecidableEq, Repr

/-- The value (binary-trace-db.lisp:80-99): `ecase` on the format. -/
def lispValue (v : VarInfo) : Res LValue :=
  match v.format, v.value with
  | .unsigned, .word u => .ok (.int u.toNat)
  | .signed, .word u => .ok (.int u.toInt)
  | .float, .word u => .ok (if v.size = 4 then .single (u.setWidth 32) else .double u)
  | .pointer, .word u => .ok (.int u.toNat)
  | .blob, .blob bs => .ok (.blob bs)
  | .invalid, _ => .throw .lisp
  | _, _ => .ub .misuse

/-- A variable exported to C (trace.cpp:126-138, where the type is looked up
unchecked) and converted to Lisp with its names looked up in an array
(binary-trace-db.lisp:72-101, 180-184).  Simplification: reading the C structures
gives what was exported (C36). -/
def lispVar (t : Trace) (v : VarInfo) : Res LVar :=
  match t.types[v.typeIndex.toNat]? with
  | none => .ub .oobRead
  | some ty =>
    match t.names[v.nameIndex.toNat]?, t.names[ty.nameIndex.toNat]? with
    | some n, some tn => do
      let x ← lispValue v
      pure ⟨cStr n, cStr tn, x, if v.hasBufferSize then some v.bufferSize.toNat else none⟩
    | _, _ => .throw .lisp

/-- All variables of a point (binary-trace-db.lisp:118-124). -/
def lispVars (t : Trace) : List VarInfo → Res (List LVar)
  | [] => .ok []
  | v :: vs => do
    let x ← lispVar t v
    let xs ← lispVars t vs
    pure (x :: xs)

/-- A point (binary-trace-db.lisp:102-128, 180-184). -/
def lispPoint (t : Trace) (p : Point) : Res LPoint := do
  let scopes ← lispVars t p.vars
  pure ⟨unpackC p.statement, unpackF p.statement, scopes, p.aux⟩

/-- `convert-trace-points` (binary-trace-db.lisp:167-198) without the filter. -/
def lispPoints (t : Trace) : List Point → Res (List LPoint)
  | [] => .ok []
  | p :: ps => do
    let x ← lispPoint t p
    let xs ← lispPoints t ps
    pure (x :: xs)

/-- Selection of the points of a file in `get-trace` (binary-trace-db.lisp:382-385,
sexp-trace-db.lisp:131-134). -/
def ofFile (file : Option Nat) (ps : List LPoint) : List LPoint :=
  match file with
  | none => ps
  | some f => ps.filter fun p => p.f == some f

/-- The points returned by `get-trace` (binary-trace-db.lisp:373-386) for a trace. -/
def lispGetTrace (t : Trace) (file : Option Nat) : Res (List LPoint) := do
  let ps ← lispPoints t t.points
  pure (ofFile file ps)

/-! Queries -/

/-- Case folding of a character as `equalp` does it.  Simplification: ASCII only.  For sexp-trace-db.lisp:172-176. -/
def foldChar (b : U8) : U8 := if 97 ≤ b.toNat ∧ b.toNat ≤ 122 then b - 32 else b

/-- `get-statement-and-bindings` (trace-db.lisp:73-80). -/
def bindingsOf (p : LPoint) : Option Nat × Nat × List (List U8 × List U8) :=
  (p.f, p.c, p.scopes.map fun v => (v.name, v.type))

/-- `equalp` on what `get-statement-and-bindings` returns: strings are compared
without regard to case (binary-trace-db.lisp:597-598, sexp-trace-db.lisp:175-178). -/
def sameBindings (p q : LPoint) : Bool :=
  p.f == q.f && p.c == q.c &&
  (p.scopes.map fun v => (v.name.map foldChar, v.type.map foldChar)) ==
    q.scopes.map fun v => (v.name.map foldChar, v.type.map foldChar)

/-- `remove-duplicates` of Common Lisp: an element is left out if an equal one
follows.  For binary-trace-db.lisp:590-600 and sexp-trace-db.lisp:172-176. -/
def removeDuplicates {α : Type} (same : α → α → Bool) : List α → List α
  | [] => []
  | x :: xs => if xs.any (same x) then removeDuplicates same xs else x :: removeDuplicates same xs

/-- The positions of the allowed types of one free variable
(binary-trace-db.lisp:536-539): `position` is `nil` for a type that the trace does
not have, and `nil` cannot be stored as `uint32_t`. -/
def typePositions (types : List (List U8)) : List (List U8) → Res FreeVar
  | [] => .ok []
  | n :: ns =>
    if types.findIdx (· == n) < types.length then do
      let rest ← typePositions types ns
      pure (BitVec.ofNat 32 (types.findIdx (· == n)) :: rest)
    else .throw .lisp

/-- The free variables (binary-trace-db.lisp:536-551). -/
def freeVars (types : List (List U8)) : List (List (List U8)) → Res (List FreeVar)
  | [] => .ok []
  | ts :: tss => do
    let fv ← typePositions types ts
    let fvs ← freeVars types tss
    pure (fv :: fvs)

/-- A query to a database of the Lisp side.  For binary-trace-db.lisp:524-613. -/
structure LQuery where
  varTypes : List (List (List U8))
  hard : Pred
  soft : List Pred
  seed : U32
  file : Option Nat
  filter : Option (LPoint → Bool)

/-- `query-trace` of the binary database (binary-trace-db.lisp:524-613) on a trace,
with the predicates already built and the random number drawn.  Without a filter
duplicates are removed by `query_trace`, with one by Lisp. -/
def lispQuery {σ : Type} (env : Env) (pick : U32 → Nat → Nat) (ev : Evaluator σ) (t : Trace)
    (q : LQuery) (cache : PointsCache) (s : σ) : Res (List LPoint × PointsCache × σ) := do
  let types ← getTypes t
  let fvs ← freeVars types q.varTypes
  let (mask, stmt) ← fileArgs q.file
  let (rs, cache, s) ← queryTrace env pick ev t ⟨fvs, q.hard, q.soft, q.seed, mask, stmt⟩ q.filter.isSome cache s
  let ps ← lispPoints t rs
  match q.filter with
  | some g => pure (removeDuplicates sameBindings (ps.filter g), cache, s)
  | none => pure (ps, cache, s)

/-- `cartesian-without-duplicates` (of the library `gt`, used in
sexp-trace-db.lisp:166) on positions of variables: all combinations in which no
element occurs twice.  Simplification: two variables of a point are never the same
Lisp object. -/
def cartesianNoDup : List (List Nat) → List (List Nat)
  | [] => [[]]
  | l :: ls => (cartesianNoDup ls).flatMap fun inner => (l.filter fun i => !inner.contains i).map (· :: inner)

/-- Positions of the variables of an allowed type (sexp-trace-db.lisp:167-173). -/
def sexpCandidates (p : LPoint) (types : List (List U8)) : List Nat :=
  (List.range p.scopes.length).filter fun i =>
    match p.scopes[i]? with
    | some v => types.contains v.type
    | none => false

/-- `satisfying-assignments-at-point` (sexp-trace-db.lisp:159-174). -/
def sexpAtPoint (varTypes : List (List (List U8))) (p : LPoint) : List LPoint :=
  (cartesianNoDup (varTypes.map (sexpCandidates p))).map fun b =>
    { p with scopes := b.filterMap (p.scopes[·]?) }

/-- `query-trace` of the list-based database (sexp-trace-db.lisp:154-196) without
`pick` on a trace: predicate and file are ignored, soft predicates are refused.  The
default filter accepts everything. -/
def sexpQuery (trace : List LPoint) (q : LQuery) : Res (List LPoint) :=
  if q.soft.isEmpty then
    let g := q.filter.getD fun _ => true
    .ok (removeDuplicates sameBindings ((trace.flatMap (sexpAtPoint q.varTypes)).filter g))
  else .throw .lisp

/-! Metadata -/

/-- `binary-trace-db` (binary-trace-db.lisp:242-249): the C++ database and the list
of metadata. -/
structure LispDb (μ : Type) where
  db : Db
  metadata : List μ

/-- Additions to a database with their metadata.  For binary-trace-db.lisp:285-358. -/
inductive LispAdd (μ : Type) where
  | trace (src : Source) (maxPoints : U64) (m : μ)
  | points (ps : List InPoint) (names : List Name) (m : μ)

/-- `add-trace` and `add-trace-points` (binary-trace-db.lisp:285-358).  The result of
`add_trace_points` is not looked at.  Simplification: the points are given as they
are passed to C. -/
def LispDb.add {μ : Type} (grow : Nat → Nat) (env : Env) (d : LispDb μ) : LispAdd μ → Res (LispDb μ)
  | .trace src k m => do
    let (success, db) ← addTraceApi grow env d.db src k
    if success = 0 then pure { d with db := db }
    else pure ⟨db, d.metadata ++ [m]⟩
  | .points ps names m => do
    let (_, db) ← addTracePointsApi grow d.db ps names
    pure ⟨db, m :: d.metadata⟩

/-- A history of additions.  For binary-trace-db.lisp:285-358. -/
def LispDb.addAll {μ : Type} (grow : Nat → Nat) (env : Env) : LispDb μ → List (LispAdd μ) → Res (LispDb μ)
  | d, [] => .ok d
  | d, a :: as => do
    let d ← d.add grow env a
    d.addAll grow env as

/-- A database without traces.  For binary-trace-db.lisp:242-254. -/
def LispDb.empty {μ : Type} : LispDb μ := ⟨Db.create, []⟩

/-- The metadata returned by `get-trace` (binary-trace-db.lisp:386) after the check of
the index (lines 375-376). -/
def LispDb.metadataAt {μ : Type} (d : LispDb μ) (i : Nat) : Res μ :=
  if i < (nTracesApi d.db).toNat then
    match d.metadata[i]? with
    | some m => .ok m
    | none => .throw .lisp
  else .throw .lisp

/-- `sexp-trace-db` (sexp-trace-db.lisp:16-24). -/
structure SexpDb (μ : Type) where
  traces : List (List LPoint)
  metadata : List μ

/-- Additions to the list-based database: what was read from a file (an empty list
also stands for a failure), or points.  For sexp-trace-db.lisp:16-63. -/
inductive SexpAdd (μ : Type) where
  | trace (read : List LPoint) (m : μ)
  | points (ps : List LPoint) (m : μ)

/-- `add-trace` and `add-trace-points` (sexp-trace-db.lisp:115-126). -/
def SexpDb.add {μ : Type} (d : SexpDb μ) : SexpAdd μ → SexpDb μ
  | .trace r m => if r.isEmpty then d else ⟨r :: d.traces, m :: d.metadata⟩
  | .points ps m => ⟨ps :: d.traces, m :: d.metadata⟩

/-- `get-trace` (sexp-trace-db.lisp:128-134); `nth` is `nil` (here: nothing) outside
the list. -/
def SexpDb.getTrace {μ : Type} (d : SexpDb μ) (i : Nat) (file : Option Nat) : Option (List LPoint) × Option μ :=
  (d.traces[i]?.map (ofFile file), d.metadata[i]?)

end TraceDB
