import Verif.Model.Database
/-
Opening a trace file with a timeout (cffi-interface/trace-db/Utils.hpp:46-88) and the
whole of `add_trace` (cffi-interface/trace-db.cpp:28-52) with its file descriptors.
-/
namespace TraceDB

/-- What the operating system does during one call.  Times are in seconds after the
call.  Simplification: seconds are whole, and at most one signal arrives.  For cffi-interface/trace-db/Utils.hpp:46-88. -/
structure OsEnv where
  /-- The descriptor returned by `open`; `none` is -1. -/
  fd : Option Nat
  /-- When the file becomes readable (`none`: never). -/
  readableAt : Option Nat
  /-- When a signal interrupts `select` (`none`: never). -/
  signalAt : Option Nat
  /-- Whether `FD_SET(-1, &set)` happens to do no harm on this platform. -/
  lenient : Bool

/-- `FD_SETSIZE`.  For cffi-interface/trace-db/Utils.hpp:46-88. -/
def fdSetSize : Nat := 1024

/-- Comparison of times; `none` is never.  For cffi-interface/trace-db/Utils.hpp:46-88. -/
def noLater : Option Nat → Option Nat → Bool
  | some a, some b => a ≤ b
  | some _, none => true
  | none, _ => false

/-- `select` on at most one descriptor: 1 if it becomes readable in time, -1 if
interrupted before, 0 after the timeout.  For cffi-interface/trace-db/Utils.hpp:46-88. -/
def selectCall (ready signal timeout : Option Nat) : Res Int :=
  if noLater ready signal && noLater ready timeout then .ok 1
  else if noLater signal timeout then .ok (-1)
  else if timeout.isSome then .ok 0
  else .hang

/-- `FD_SET` (Utils.hpp:63): undefined for descriptors that are negative or too large;
on a lenient platform setting -1 has no effect. -/
def fdSet (os : OsEnv) : Res Unit :=
  match os.fd with
  | some n => if n < fdSetSize then .ok () else .ub .oobWrite
  | none => if os.lenient then .ok () else .ub .oobWrite

/-- `openWithTimeout` (Utils.hpp:46-88).  The state are the open descriptors.  `none` in
the result: a `TraceError` is thrown; `some fd`: the stream owns the descriptor.
Simplification: `fcntl` and the allocation of the stream succeed. -/
def openWithTimeout (os : OsEnv) (timeout : Nat) (fds : List Nat) : Res (Option Nat × List Nat) := do
  let fds := match os.fd with
    | some n => n :: fds
    | none => fds
  fdSet os
  let ready := match os.fd with
    | some _ => os.readableAt
    | none => none
  let result ← selectCall ready os.signalAt (if timeout ≠ 0 then some timeout else none)
  match os.fd with
  | some n => if result = 1 then .ok (some n, fds) else .ok (none, fds.erase n)
  | none => .ok (none, fds)

/-- `add_trace` (trace-db.cpp:28-52): the stream is deleted on all paths, which closes
the descriptor. -/
def addTraceFile (grow : Nat → Nat) (env : Env) (os : OsEnv) (fds : List Nat) (db : Db) (content : IStream)
    (timeout : U32) (maxPoints : U64) : Res (Nat × Db × List Nat) := do
  let (fd, fds) ← openWithTimeout os timeout.toNat fds
  match fd with
  | none => do
    let (r, db) ← addTraceApi grow env db none maxPoints
    .ok (r, db, fds)
  | some n => do
    let (r, db) ← addTraceApi grow env db (some content) maxPoints
    .ok (r, db, fds.erase n)

end TraceDB
