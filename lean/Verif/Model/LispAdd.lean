import Verif.Model.LispDb
/-
Adding points given as Lisp data (binary-trace-db.lisp:305-358).
-/
namespace TraceDB

/-- The table of names (binary-trace-db.lisp:307-313). -/
def lispAddNames (trace : List LPoint) : List (List U8) :=
  removeDuplicates (· == ·) (trace.flatMap fun p => p.scopes.flatMap fun v => [v.name, v.type])

/-- A variable (binary-trace-db.lisp:321-339).  Numbers are stored in members of type
`uint64_t` and `uint32_t`; CFFI is assumed to signal an error if they are out of
range or no integers, also for the negative numbers that the format in lines 327-328
provides for.  The format and size are not used by C. -/
def lispInVar (names : List (List U8)) (v : LVar) : Res InVar :=
  match v.value with
  | .int i =>
    if 0 ≤ i ∧ i < 2 ^ 64 ∧ v.size.getD 0 < 2 ^ 64 ∧ names.length ≤ 2 ^ 32 then
      .ok ⟨BitVec.ofNat 64 i.toNat, BitVec.ofNat 32 (names.findIdx (· == v.name)),
        BitVec.ofNat 32 (names.findIdx (· == v.type)), BitVec.ofNat 64 (v.size.getD 0), v.size.isSome⟩
    else .throw .lisp
  | _ => .throw .lisp

/-- The variables of a point (binary-trace-db.lisp:320-339). -/
def lispInVars (names : List (List U8)) : List LVar → Res (List InVar)
  | [] => .ok []
  | v :: vs => do
    let x ← lispInVar names v
    let xs ← lispInVars names vs
    pure (x :: xs)

/-- A point (binary-trace-db.lisp:319-351): the statement is stored in a `uint64_t`. -/
def lispInPoint (names : List (List U8)) (p : LPoint) : Res InPoint := do
  let vars ← lispInVars names p.scopes
  if packId p.f p.c < 2 ^ 64 then pure ⟨BitVec.ofNat 64 (packId p.f p.c), vars, []⟩
  else .throw .lisp

/-- All points (binary-trace-db.lisp:316-353). -/
def lispInPoints (names : List (List U8)) : List LPoint → Res (List InPoint)
  | [] => .ok []
  | p :: ps => do
    let x ← lispInPoint names p
    let xs ← lispInPoints names ps
    pure (x :: xs)

/-- `add-trace-points` (binary-trace-db.lisp:305-358).  The strings become C strings. -/
def LispDb.addPoints {μ : Type} (grow : Nat → Nat) (env : Env) (d : LispDb μ) (trace : List LPoint) (m : μ) :
    Res (LispDb μ) := do
  let names := lispAddNames trace
  let ps ← lispInPoints names trace
  d.add grow env (.points ps (names.map cStr) m)

end TraceDB
