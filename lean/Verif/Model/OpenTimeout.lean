import Verif.Model.SexpObjects
/-
Opening a file from Lisp with a timeout (sexp-trace-db.lisp:85-115), and reading a
list-based trace with it (lines 55-63).
-/
namespace TraceDB

/-- What happens during one call of `open-file-timeout`.  Times are numbers of the units of
`get-internal-real-time`.  For sexp-trace-db.lisp:85-115. -/
structure OftWorld (σ : Type) where
  /-- When the call starts (line 89). -/
  start : Nat
  /-- How many units a tenth of a second has. -/
  tenth : Nat
  /-- When `open` has opened the file (`none`: never). -/
  opened : Option Nat
  /-- When the thread ends, and what it returns: the stream, or a condition (`none`). -/
  ended : Option (Nat × Option σ)
  /-- How much longer than asked for the sleep in iteration `k` takes. -/
  extra : Nat → Nat
  /-- Time between looking at the clock for the last time and the end of the thread by `destroy-thread`. -/
  late : Nat

/-- What the thread has returned at a time.  For sexp-trace-db.lisp:85-115. -/
def OftWorld.doneBy {σ : Type} (w : OftWorld σ) (now : Nat) : Option (Option σ) :=
  match w.ended with
  | some (t, r) => if t ≤ now then some r else none
  | none => none

/-- The end (sexp-trace-db.lisp:107-115): conditions are signalled again. -/
def oftFinish {σ : Type} : Option σ → Res (Option σ)
  | some s => .ok (some s)
  | none => .throw .lisp

/-- The loop of `open-file-timeout` (sexp-trace-db.lisp:97-115), with the time at which it
ends; `steps` bounds the iterations.  `seconds` is in units too.  Simplifications: sleeping
takes at least as long as asked for; clocks are exact; a thread that is destroyed opens
nothing any more and does not close anything; the declared type of `seconds` (line 85), which
excludes `nil` although line 99 tests for it, is not enforced. -/
def oftLoop {σ : Type} (w : OftWorld σ) (seconds : Option Int) : (steps k now : Nat) → Res (Option σ) × Nat
  | 0, _, now => (.hang, now)
  | steps + 1, k, now =>
    match w.doneBy now with
    | some r => (oftFinish r, now)
    | none =>
      let remaining : Int := match seconds with
        | none => w.tenth
        | some s => s - (now - w.start : Nat)
      if 0 < remaining then oftLoop w seconds steps (k + 1) (now + min w.tenth remaining.toNat + w.extra k)
      else
        match w.doneBy (now + w.late) with
        | some r => (oftFinish r, now + w.late)
        | none => (.ok none, now + w.late)

/-- `open-file-timeout` (sexp-trace-db.lisp:85-115). -/
def openFileTimeout {σ : Type} (w : OftWorld σ) (seconds : Option Int) (steps : Nat) : Res (Option σ) × Nat :=
  oftLoop w seconds steps 0 w.start

/-- Whether the file is open when `open-file-timeout` returns.  For sexp-trace-db.lisp:85-115. -/
def OftWorld.isOpen {σ : Type} (w : OftWorld σ) (now : Nat) : Bool :=
  match w.opened with
  | some t => decide (t ≤ now)
  | none => false

/-- `read-sexp-trace` (sexp-trace-db.lisp:55-63) with the opening of the file, and whether
the file is still open afterwards: `close` is called on all paths once there is a stream. -/
def readSexpFile (w : OftWorld (List (SForm (Option LPoint)))) (seconds : Option Int) (steps : Nat) (ignoreRest : Bool)
    (max : Option Nat) : Res (List LPoint) × Bool :=
  let r := openFileTimeout w seconds steps
  match r.1 with
  | .ok (some s) => (readSexpTrace ignoreRest (some s) max, false)
  | .ok none => (readSexpTrace ignoreRest none max, w.isOpen r.2)
  | .throw e => (.throw e, w.isOpen r.2)
  | .abort => (.abort, w.isOpen r.2)
  | .ub k => (.ub k, w.isOpen r.2)
  | .hang => (.hang, w.isOpen r.2)

end TraceDB
