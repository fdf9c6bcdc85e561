import Verif.Model.OpenFile
import Verif.Model.QueryMemory
/-
Reading a trace without a database: `read_trace` and `free_trace`
(cffi-interface/trace.cpp:7-28, 80-83), `read-binary-trace` (binary-trace-db.lisp:199-214),
and `add-trace` (binary-trace-db.lisp:285-304) for comparison.
-/
namespace TraceDB

/-- A `Trace` object made by `read_trace`.  For cffi-interface/trace.cpp:7-28, 80-83. -/
structure TraceObj where
  live : Bool
  trace : Trace
  deriving DecidableEq, Repr

/-- What the process owns: open descriptors, `Trace` objects made by `read_trace` (the
address of an object is its number), other foreign memory.  For cffi-interface/trace.cpp:7-28, 80-83. -/
structure ReadMem where
  fds : List Nat
  traces : List TraceObj
  mem : FMem
  deriving DecidableEq, Repr

/-- `read_trace` (trace.cpp:7-28): the stream is deleted on both paths, which closes the
descriptor; `none` is the null pointer, returned after an exception.  A constructor that
throws leaves no object.  Simplification: `new` for the object and the streams succeeds. -/
def readTraceC (env : Env) (os : OsEnv) (content : IStream) (timeout : U32) (maxPoints : U64) (m : ReadMem) :
    Res (Option Nat) × ReadMem :=
  match openWithTimeout os timeout.toNat m.fds with
  | .ok (none, fds) => (.ok none, { m with fds := fds })
  | .ok (some n, fds) =>
    match readTrace env maxPoints content with
    | .ok t => (.ok (some m.traces.length), { m with fds := fds.erase n, traces := m.traces ++ [⟨true, t⟩] })
    | .throw _ => (.ok none, { m with fds := fds.erase n })
    | .abort => (.abort, { m with fds := fds })
    | .ub k => (.ub k, { m with fds := fds })
    | .hang => (.hang, { m with fds := fds })
  | .throw e => (.throw e, m)
  | .abort => (.abort, m)
  | .ub k => (.ub k, m)
  | .hang => (.hang, m)

/-- `free_trace` (trace.cpp:80-83). -/
def freeTraceC (p : Nat) (m : ReadMem) : Res Unit × ReadMem :=
  match m.traces[p]? with
  | some o =>
    if o.live then (.ok (), { m with traces := m.traces.set p { o with live := false } }) else (.ub .badFree, m)
  | none => (.ub .badFree, m)

/-- The arguments of a call by CFFI: a number outside the range of the C type is an
error.  For binary-trace-db.lisp:136-140, 219-223. -/
def inCRange (x : Int) (bound : Nat) : Bool := decide (0 ≤ x) && decide (x < bound)

/-- `read-binary-trace` (binary-trace-db.lisp:199-214): the two assertions, the call (with
the types of binary-trace-db.lisp:136-139), and `convert-trace-points` on what
`get_points` and `trace_size` (trace.cpp:30-40) return.  `nil` is the empty list.  No
function of the library calls `c-free-trace` (binary-trace-db.lisp:159-160). -/
def readBinaryTrace {σ : Type} (w : QueryWorld σ) (os : OsEnv) (content : IStream) (timeout maxPoints : Int)
    (m : ReadMem) : Res (List LPoint) × ReadMem :=
  if timeout < 0 then (.throw .lisp, m)
  else if maxPoints < 0 then (.throw .lisp, m)
  else if !(inCRange timeout (2 ^ 32) && inCRange maxPoints (2 ^ 64)) then (.throw .lisp, m)
  else
    match readTraceC w.env os content (BitVec.ofInt 32 timeout) (BitVec.ofInt 64 maxPoints) m with
    | (.ok none, m) => (.ok [], m)
    | (.ok (some p), m) =>
      match m.traces[p]? with
      | some ⟨true, t⟩ =>
        let (r, mem) := lispGetTraceM w t none m.mem
        (r, { m with mem := mem })
      | _ => (.ub .dangling, m)
    | (.throw e, m) => (.throw e, m)
    | (.abort, m) => (.abort, m)
    | (.ub k, m) => (.ub k, m)
    | (.hang, m) => (.hang, m)

/-- `add-trace` (binary-trace-db.lisp:285-304) without the metadata: two assertions and
the call (with the types of binary-trace-db.lisp:219-223, where the timeout is an
`int`). -/
def addTraceLisp (grow : Nat → Nat) (env : Env) (os : OsEnv) (fds : List Nat) (db : Db) (content : IStream)
    (timeout maxPoints : Int) : Res (Bool × Db × List Nat) :=
  if timeout < 0 then .throw .lisp
  else if maxPoints < 0 then .throw .lisp
  else if !(inCRange timeout (2 ^ 31) && inCRange maxPoints (2 ^ 64)) then .throw .lisp
  else do
    let (r, db, fds) ← addTraceFile grow env os fds db content (BitVec.ofInt 32 timeout) (BitVec.ofInt 64 maxPoints)
    .ok (r != 0, db, fds)

/-- A file to be read: what the operating system does, the content, the arguments.  For cffi-interface/trace.cpp:7-28, 80-83. -/
structure ReadJob where
  os : OsEnv
  content : IStream
  timeout : Int
  maxPoints : Int

/-- What follows a call (binary-trace-db.lisp:199-214): a Lisp error does not keep the
program from going on. -/
def goOn {α : Type} (out : Res α × ReadMem) (k : ReadMem → Res Unit × ReadMem) : Res Unit × ReadMem :=
  match out.1 with
  | .ok _ => k out.2
  | .throw .lisp => k out.2
  | .throw e => (.throw e, out.2)
  | .abort => (.abort, out.2)
  | .ub u => (.ub u, out.2)
  | .hang => (.hang, out.2)

/-- Calls of `read-binary-trace` (binary-trace-db.lisp:199-214) one after the other. -/
def readFiles {σ : Type} (w : QueryWorld σ) : List ReadJob → ReadMem → Res Unit × ReadMem
  | [], m => (.ok (), m)
  | j :: js, m => goOn (readBinaryTrace w j.os j.content j.timeout j.maxPoints m) (readFiles w js)

end TraceDB
