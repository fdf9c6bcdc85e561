import Verif.Model.LispDb
/-
The list-based database: reading its files, and databases as Lisp objects with their
restrictions to files and stored copies (sexp-trace-db.lisp).
-/
namespace TraceDB

/-! Reading -/

/-- What `(read in nil :eof)` (sexp-trace-db.lisp:74) finds next in a file: an object, the
symbol `:eof` itself, or text that is not readable. -/
inductive SForm (α : Type) where
  | form (x : α)
  | eofSymbol
  | malformed
  deriving DecidableEq, Repr

/-- `read-trace-stream` (sexp-trace-db.lisp:65-83), with what is left of the file.  An
error of the reader is signalled unless a handler invokes the restart
`ignore-rest-of-stream` (`ignoreRest`), which counts as the end of the file.
Simplification: after such an error the reader stands behind the text in question. -/
def readStream {α : Type} (ignoreRest : Bool) (accept : α → Bool) (max : Option Nat) :
    Nat → List (SForm α) → Res (List α × List (SForm α))
  | _, [] => .ok ([], [])
  | _, .eofSymbol :: s => .ok ([], s)
  | _, .malformed :: s => if ignoreRest then .ok ([], s) else .throw .lisp
  | collected, .form x :: s =>
    if accept x && (match max with
      | none => true
      | some k => decide (collected < k))
    then do
      let (xs, s) ← readStream ignoreRest accept max (collected + 1) s
      pure (x :: xs, s)
    else .ok ([], s)

/-- `read-sexp-trace` (sexp-trace-db.lisp:55-63) on what `open-file-timeout` returned:
`none` is `nil`.  The predicate is `identity`; an object is a point or `nil` (`none`). -/
def readSexpTrace (ignoreRest : Bool) (file : Option (List (SForm (Option LPoint)))) (max : Option Nat) :
    Res (List LPoint) :=
  match file with
  | none => .ok []
  | some s => do
    let (xs, _) ← readStream ignoreRest Option.isSome max 0 s
    pure (xs.filterMap id)

/-! Objects -/

/-- `sexp-trace-db` (sexp-trace-db.lisp:16-24); with parent and file id
`single-file-sexp-trace-db` (lines 26-32). -/
structure SexpObj (μ : Type) where
  traces : List (List LPoint)
  slot : List μ
  view : Option (Nat × Nat)

/-- `trace-metadata` (sexp-trace-db.lisp:21-22, 201-202): a restricted database always asks
its parent.  The first number bounds the parents asked. -/
def sexpMetaFrom {μ : Type} (objs : List (SexpObj μ)) : Nat → Nat → List μ
  | 0, _ => []
  | n + 1, i =>
    match objs[i]? with
    | none => []
    | some o =>
      match o.view with
      | none => o.slot
      | some (p, _) => sexpMetaFrom objs n p

/-- `trace-metadata` of an object.  For sexp-trace-db.lisp:16-63, 125-190. -/
def sexpMeta {μ : Type} (objs : List (SexpObj μ)) (i : Nat) : List μ := sexpMetaFrom objs (i + 1) i

/-- What is done with the objects, which are numbered in the order they were made.
`add` has what `open-file-timeout` returned, `query` the random number for `pick`.  For sexp-trace-db.lisp:16-63, 125-190. -/
inductive SexpOp (μ : Type) where
  | create
  | restrict (i f : Nat)
  | add (i : Nat) (file : Option (List (SForm (Option LPoint)))) (max : Option Nat) (m : μ)
  | addPoints (i : Nat) (ps : List LPoint) (m : μ)
  | get (i idx : Nat) (file : Option Nat)
  | count (i : Nat)
  | size (i idx : Nat)
  | types (i idx : Nat)
  | query (i idx : Nat) (q : LQuery) (pick : Option Nat)
  | copy (i : Nat)

/-- What it returns.  For sexp-trace-db.lisp:16-63, 125-190. -/
inductive SexpAnswer (μ : Type) where
  | object (i : Nat)
  | nil
  | done
  | trace (ps : List LPoint) (m : Option μ)
  | number (n : Nat)
  | names (l : List (List U8))
  deriving DecidableEq, Repr

/-- `trace-types` (sexp-trace-db.lisp:148-152). -/
def sexpTypes (ps : List LPoint) : List (List U8) :=
  removeDuplicates (· == ·) (ps.flatMap fun p => p.scopes.map (·.type))

/-- `query-trace` (sexp-trace-db.lisp:154-196) on a trace, with `pick` one point of it only
(`random-elt`). -/
def sexpQueryAt (trace : List LPoint) (q : LQuery) (pick : Option Nat) : Res (List LPoint) :=
  match pick with
  | none => sexpQuery trace q
  | some n => sexpQuery (trace[n % trace.length]?.toList) q

/-- Storing a trace and its metadata (sexp-trace-db.lisp:122-123, 127-128): `push` on
`trace-metadata` reads it from the object or its parent, and stores into the object. -/
def sexpPush {μ : Type} (objs : List (SexpObj μ)) (i : Nat) (o : SexpObj μ) (ps : List LPoint) (m : μ) : List (SexpObj μ) :=
  objs.set i { o with traces := ps :: o.traces, slot := m :: sexpMeta objs i }

/-- One operation: what it returns (or the error it signals) and the objects afterwards.
Outside of a list `nth` returns `nil`, the empty list.
* `restrict`: `restrict-to-file` (sexp-trace-db.lisp:198-199) and `initialize-instance`
  (lines 47-53), which filters the traces the parent has at that time.
* `add`: lines 117-123; `addPoints`: lines 125-128.
* `get`: lines 130-140; a restricted database ignores the file.
* `count`, `size`: lines 142-146.
* `types`: lines 148-152; `query`: lines 154-196.
* `copy`: storing and restoring (lines 39-45 for restricted ones, of which only `nil` is
  stored; others are stored by `cl-store` as they are). -/
def sexpStep {μ : Type} (ignoreRest : Bool) (objs : List (SexpObj μ)) (op : SexpOp μ) :
    Res (SexpAnswer μ) × List (SexpObj μ) :=
  match op with
  | .create => (.ok (.object objs.length), objs ++ [⟨[], [], none⟩])
  | .restrict i f =>
    match objs[i]? with
    | none => (.throw .lisp, objs)
    | some o => (.ok (.object objs.length), objs ++ [⟨o.traces.map (ofFile (some f)), [], some (i, f)⟩])
  | .add i file max m =>
    match objs[i]? with
    | none => (.throw .lisp, objs)
    | some o =>
      match readSexpTrace ignoreRest file max with
      | .ok ps => if ps.isEmpty then (.ok .nil, objs) else (.ok .done, sexpPush objs i o ps m)
      | _ => (.throw .lisp, objs)
  | .addPoints i ps m =>
    match objs[i]? with
    | none => (.throw .lisp, objs)
    | some o => (.ok .done, sexpPush objs i o ps m)
  | .get i idx file =>
    match objs[i]? with
    | none => (.throw .lisp, objs)
    | some o =>
      let ps := o.traces[idx]?.getD []
      (.ok (.trace (if o.view.isSome then ps else ofFile file ps) (sexpMeta objs i)[idx]?), objs)
  | .count i =>
    match objs[i]? with
    | none => (.throw .lisp, objs)
    | some o => (.ok (.number o.traces.length), objs)
  | .size i idx =>
    match objs[i]? with
    | none => (.throw .lisp, objs)
    | some o => (.ok (.number (o.traces[idx]?.getD []).length), objs)
  | .types i idx =>
    match objs[i]? with
    | none => (.throw .lisp, objs)
    | some o => (.ok (.names (sexpTypes (o.traces[idx]?.getD []))), objs)
  | .query i idx q pick =>
    match objs[i]? with
    | none => (.throw .lisp, objs)
    | some o =>
      (if q.soft.isEmpty then
        if (o.traces[idx]?.getD []).isEmpty then .ok .nil
        else do
          let rs ← sexpQueryAt (o.traces[idx]?.getD []) q pick
          pure (.trace rs (sexpMeta objs i)[idx]?)
      else .throw .lisp, objs)
  | .copy i =>
    match objs[i]? with
    | none => (.throw .lisp, objs)
    | some o => if o.view.isSome then (.ok .nil, objs) else (.ok (.object objs.length), objs ++ [o])

/-- A history; it goes on after errors.  For sexp-trace-db.lisp:16-63, 125-190. -/
def sexpRun {μ : Type} (ignoreRest : Bool) : List (SexpObj μ) → List (SexpOp μ) →
    List (Res (SexpAnswer μ)) × List (SexpObj μ)
  | objs, [] => ([], objs)
  | objs, op :: ops =>
    let r := sexpStep ignoreRest objs op
    let rs := sexpRun ignoreRest r.2 ops
    (r.1 :: rs.1, rs.2)

end TraceDB
