import Verif.Model.LispAdd
import Verif.Model.Archive
/-
The foreign memory that `add-trace-points` and the storing of a binary database handle
(binary-trace-db.lisp:259-264, 305-358, 447-453), and how `add_trace_points` and
`serialize_trace_db` use it (cffi-interface/trace-db.cpp:54-144, 159-171).
-/
namespace TraceDB

/-- `c_trace_point_struct` as filled by Lisp (binary-trace-db.lisp:340-351).  `vars` is the
address of an array.  Simplification: `aux` is always `NULL` and `n_aux` 0. -/
structure ApPoint where
  statement : U64
  vars : Nat
  nVars : U32
  deriving DecidableEq, Repr

/-- What a block holds: an array of `c_trace_var_info_struct`, of `c_trace_point_struct`,
of pointers to strings, or text.  Only the elements of an array that were stored are
listed; `len` is the length it was allocated with.  For binary-trace-db.lisp:305-358. -/
inductive ApData where
  | vars (len : Nat) (stored : List InVar)
  | points (len : Nat) (stored : List ApPoint)
  | strings (stored : List Nat)
  | text (bytes : List U8)
  deriving DecidableEq, Repr

/-- A block of foreign memory.  For binary-trace-db.lisp:305-358. -/
structure ApBlock where
  live : Bool
  data : ApData
  deriving DecidableEq, Repr

/-- Foreign memory; the address of a block is its number.  Simplification: allocations by
Lisp succeed.  For binary-trace-db.lisp:305-358. -/
abbrev ApHeap := List ApBlock

/-- The elements stored before the first that does not fit (`none`).  For binary-trace-db.lisp:447-453. -/
def apStored {α : Type} : List (Option α) → List α
  | some a :: as => a :: apStored as
  | _ => []

/-- `create-foreign-array` (binary-trace-db.lisp:447-453): the array is allocated, then
filled; an element that does not fit is an error of the latter. -/
def apCreate {α : Type} (mk : Nat → List α → ApData) (cells : List (Option α)) (h : ApHeap) : Res Nat × ApHeap :=
  (if cells.all Option.isSome then .ok h.length else .throw .lisp,
    h ++ [⟨true, mk cells.length (apStored cells)⟩])

/-- The list made for a variable (binary-trace-db.lisp:321-339): the comparison with 0 is an
error for anything but a number.  Whether the members fit is noticed when they are stored
(`lispInVar`). -/
def apVar (names : List (List U8)) (v : LVar) : Res (Option InVar) :=
  match v.value with
  | .blob _ => .throw .lisp
  | _ =>
    match lispInVar names v with
    | .ok x => .ok (some x)
    | _ => .ok none

/-- The lists made for the variables of a point (binary-trace-db.lisp:320-339). -/
def apVars (names : List (List U8)) : List LVar → Res (List (Option InVar))
  | [] => .ok []
  | v :: vs => do
    let x ← apVar names v
    let xs ← apVars names vs
    pure (x :: xs)

/-- The list made for a point and the array of its variables (binary-trace-db.lisp:319-351).
Whether the members fit is noticed when they are stored. -/
def apPoint (names : List (List U8)) (p : LPoint) (h : ApHeap) : Res (Option ApPoint) × ApHeap :=
  match apVars names p.scopes with
  | .ok cells =>
    match apCreate .vars cells h with
    | (.ok b, h) =>
      (.ok (if packId p.f p.c < 2 ^ 64 ∧ cells.length < 2 ^ 32 then
        some ⟨BitVec.ofNat 64 (packId p.f p.c), b, BitVec.ofNat 32 cells.length⟩ else none), h)
    | (.throw e, h) => (.throw e, h)
    | (.abort, h) => (.abort, h)
    | (.ub k, h) => (.ub k, h)
    | (.hang, h) => (.hang, h)
  | .throw e => (.throw e, h)
  | .abort => (.abort, h)
  | .ub k => (.ub k, h)
  | .hang => (.hang, h)

/-- `mapcar` over the points (binary-trace-db.lisp:318-352). -/
def apPoints (names : List (List U8)) : List LPoint → ApHeap → Res (List (Option ApPoint)) × ApHeap
  | [], h => (.ok [], h)
  | p :: ps, h =>
    match apPoint names p h with
    | (.ok x, h) =>
      match apPoints names ps h with
      | (.ok xs, h) => (.ok (x :: xs), h)
      | r => r
    | (.throw e, h) => (.throw e, h)
    | (.abort, h) => (.abort, h)
    | (.ub k, h) => (.ub k, h)
    | (.hang, h) => (.hang, h)

/-- `(create-foreign-array :string names)` (binary-trace-db.lisp:355): the array, and a
block for each string, with a NUL at its end. -/
def apStrings (names : List (List U8)) (h : ApHeap) : Nat × ApHeap :=
  (h.length, h ++ ⟨true, .strings ((List.range names.length).map fun i => h.length + 1 + i)⟩ ::
    names.map fun n => ⟨true, .text (n ++ [0])⟩)

/-! What C reads -/

/-- Access to a block.  For binary-trace-db.lisp:305-358. -/
def apBlock (b : Nat) (h : ApHeap) : Res ApData :=
  match h[b]? with
  | some blk => if blk.live then .ok blk.data else .ub .dangling
  | none => .ub .oobRead

/-- `std::string(c_names[i])` (trace-db.cpp:72): the bytes up to the first NUL. -/
def apString (b : Nat) (h : ApHeap) : Res Name := do
  match ← apBlock b h with
  | .text bytes => if (0 : U8) ∈ bytes then pure (cStr bytes) else .ub .oobRead
  | _ => .ub .misuse

/-- The loop over the names (trace-db.cpp:71-73): elements `i`, ... of the array, `n` of
them. -/
def apReadNames (b : Nat) (h : ApHeap) : Nat → Nat → Res (List Name)
  | _, 0 => .ok []
  | i, n + 1 => do
    match ← apBlock b h with
    | .strings l =>
      match l[i]? with
      | some c => do
        let s ← apString c h
        let ss ← apReadNames b h (i + 1) n
        pure (s :: ss)
      | none => .ub .oobRead
    | _ => .ub .misuse

/-- `vars[j]` (trace-db.cpp:77-85, 104-126) for elements `j`, ... of the array, `n` of
them. -/
def apReadVars (b : Nat) (h : ApHeap) : Nat → Nat → Res (List InVar)
  | _, 0 => .ok []
  | j, n + 1 => do
    match ← apBlock b h with
    | .vars len l =>
      match l[j]? with
      | some v => do
        let vs ← apReadVars b h (j + 1) n
        pure (v :: vs)
      | none => if j < len then .ub .uninit else .ub .oobRead
    | _ => .ub .misuse

/-- `c_points[i]` with its arrays (trace-db.cpp:76-87, 95-134) for elements `i`, ...,
`n` of them.  Simplification: each is read once. -/
def apReadPoints (b : Nat) (h : ApHeap) : Nat → Nat → Res (List InPoint)
  | _, 0 => .ok []
  | i, n + 1 => do
    match ← apBlock b h with
    | .points len l =>
      match l[i]? with
      | some p => do
        let vs ← apReadVars p.vars h 0 p.nVars.toNat
        let ps ← apReadPoints b h (i + 1) n
        pure (⟨p.statement, vs, []⟩ :: ps)
      | none => if i < len then .ub .uninit else .ub .oobRead
    | _ => .ub .misuse

/-- `add-trace-points` (binary-trace-db.lisp:305-358) with its memory.  Nothing is freed. -/
def LispDb.addPointsM {μ : Type} (grow : Nat → Nat) (env : Env) (d : LispDb μ) (trace : List LPoint) (m : μ)
    (h : ApHeap) : Res (LispDb μ) × ApHeap :=
  let names := lispAddNames trace
  match apPoints names trace h with
  | (.ok cells, h) =>
    match apCreate .points cells h with
    | (.ok b, h) =>
      let (nb, h) := apStrings names h
      (do
        let ps ← apReadPoints b h 0 trace.length
        let ns ← apReadNames nb h 0 names.length
        d.add grow env (.points ps ns m), h)
    | (.throw e, h) => (.throw e, h)
    | (.abort, h) => (.abort, h)
    | (.ub k, h) => (.ub k, h)
    | (.hang, h) => (.hang, h)
  | (.throw e, h) => (.throw e, h)
  | (.abort, h) => (.abort, h)
  | (.ub k, h) => (.ub k, h)
  | (.hang, h) => (.hang, h)

/-- `serialize_trace_db` (trace-db.cpp:159-171) and what Lisp makes of its result
(binary-trace-db.lisp:235-236, 259-264): the string is copied, the block is not freed.
`canAlloc` says whether `malloc` succeeds; its result is not checked.  `version` is that
of the archive. -/
def LispDb.storeM {μ : Type} (canAlloc : Nat → Bool) (version : Nat) (d : LispDb μ) (h : ApHeap) :
    Res (List U8 × List μ) × ApHeap :=
  let text := serializeDb version d.db
  if canAlloc text.length then
    let h := h ++ [⟨true, .text text⟩]
    (do
      let s ← apString (h.length - 1) h
      pure (s, d.metadata), h)
  else (.ub .nullDeref, h)

/-- What a program does with a database: add points, store it.  For binary-trace-db.lisp:259-264, 305-358. -/
inductive ApOp (μ : Type) where
  | add (trace : List LPoint) (m : μ)
  | store

/-- A history of these on one database.  For binary-trace-db.lisp:259-264, 305-358. -/
def apRun {μ : Type} (grow : Nat → Nat) (env : Env) (canAlloc : Nat → Bool) (version : Nat) :
    LispDb μ → ApHeap → List (ApOp μ) → Res (LispDb μ × List (List U8 × List μ)) × ApHeap
  | d, h, [] => (.ok (d, []), h)
  | d, h, .add trace m :: ops =>
    match d.addPointsM grow env trace m h with
    | (.ok d, h) => apRun grow env canAlloc version d h ops
    | (.throw e, h) => (.throw e, h)
    | (.abort, h) => (.abort, h)
    | (.ub k, h) => (.ub k, h)
    | (.hang, h) => (.hang, h)
  | d, h, .store :: ops =>
    match d.storeM canAlloc version h with
    | (.ok x, h) =>
      match apRun grow env canAlloc version d h ops with
      | (.ok (d, xs), h) => (.ok (d, x :: xs), h)
      | r => r
    | (.throw e, h) => (.throw e, h)
    | (.abort, h) => (.abort, h)
    | (.ub k, h) => (.ub k, h)
    | (.hang, h) => (.hang, h)

end TraceDB
