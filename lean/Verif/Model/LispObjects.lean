import Verif.Model.LispDb
import Verif.Model.Archive
/-
Databases as Lisp objects: several of them, wrappers that restrict them to a file, and
copies made by storing and restoring (binary-trace-db.lisp:242-277, 615-663).
-/
namespace TraceDB

/-- `binary-trace-db` (binary-trace-db.lisp:242-249), with parent and file id
`single-file-binary-trace-db` (lines 616-625): the C++ database `db-pointer` points to,
and the slot `trace-metadata`. -/
structure LispObj (μ : Type) where
  db : Nat
  view : Option (Nat × Nat)
  slot : List μ

/-- All C++ databases and all Lisp objects.  Databases stay: the finalizer
(binary-trace-db.lisp:254) refers to the object itself, and wrappers refer to their
parents. -/
structure LispHeap (μ : Type) where
  dbs : List Db
  objs : List (LispObj μ)

/-- `trace-metadata` (binary-trace-db.lisp:246-248, 662-663): a wrapper with an empty
slot asks its parent.  The first number bounds the parents asked. -/
def metadataFrom {μ : Type} (objs : List (LispObj μ)) : Nat → Nat → List μ
  | 0, _ => []
  | n + 1, i =>
    match objs[i]? with
    | none => []
    | some o =>
      match o.view with
      | none => o.slot
      | some (p, _) => if o.slot.isEmpty then metadataFrom objs n p else o.slot

/-- `trace-metadata` of an object.  For binary-trace-db.lisp:242-277, 615-663. -/
def LispHeap.metadata {μ : Type} (h : LispHeap μ) (i : Nat) : List μ := metadataFrom h.objs h.objs.length i

/-- The file in force (binary-trace-db.lisp:655, 660): `(or file-id (file-id db))`. -/
def fileInForce (file : Option Nat) {μ : Type} (o : LispObj μ) : Option Nat := file.or (o.view.map (·.2))

/-- What is done with the objects; objects are numbered in the order they were made.
For binary-trace-db.lisp:242-277, 615-663. -/
inductive ObjOp (μ : Type) where
  | create
  | restrict (i f : Nat)
  | add (i : Nat) (a : LispAdd μ)
  | get (i idx : Nat) (file : Option Nat)
  | query (i idx : Nat) (q : LQuery)
  | copy (i : Nat)

/-- What it returns.  For binary-trace-db.lisp:242-277, 615-663. -/
inductive LispAnswer (μ : Type) where
  | object (i : Nat)
  | nil
  | done
  | trace (ps : List LPoint) (m : μ)
  | results (ps : List LPoint) (m : Option μ)
  deriving DecidableEq

/-- `add-trace` and `add-trace-points` through object `o` with number `i`
(binary-trace-db.lisp:285-358): the metadata is read from the object or its parents and
stored into the object. -/
def LispHeap.add {μ : Type} (w : World) (h : LispHeap μ) (i : Nat) (o : LispObj μ) (db : Db) :
    LispAdd μ → Res (LispAnswer μ × LispHeap μ)
  | .trace src k m => do
    let (success, db) ← addTraceApi w.grow w.env db src k
    let dbs := h.dbs.set o.db db
    if success = 0 then pure (.nil, ⟨dbs, h.objs⟩)
    else pure (.done, ⟨dbs, h.objs.set i { o with slot := h.metadata i ++ [m] }⟩)
  | .points ps names m => do
    let (_, db) ← addTracePointsApi w.grow db ps names
    pure (.done, ⟨h.dbs.set o.db db, h.objs.set i { o with slot := m :: h.metadata i }⟩)

/-- `get-trace` (binary-trace-db.lisp:373-386, 658-660). -/
def LispHeap.get {μ : Type} (h : LispHeap μ) (i : Nat) (o : LispObj μ) (db : Db) (idx : Nat) (file : Option Nat) :
    Res (LispAnswer μ) :=
  if idx < (nTracesApi db).toNat then
    match db.traces[idx]? with
    | none => .ub .oobRead
    | some t => do
      let ps ← lispGetTrace t (fileInForce file o)
      match (h.metadata i)[idx]? with
      | some m => pure (.trace ps m)
      | none => .throw .lisp
  else .throw .lisp

/-- `query-trace` (binary-trace-db.lisp:524-613, 645-656); `nth` outside the list is
`nil`. -/
def LispHeap.query {μ σ : Type} (w : World) (ev : Evaluator σ) (h : LispHeap μ) (s : σ) (i : Nat) (o : LispObj μ) (db : Db)
    (idx : Nat) (q : LQuery) : Res (LispAnswer μ × LispHeap μ × σ) :=
  if idx < (nTracesApi db).toNat then
    match db.traces[idx]?, db.caches[idx]? with
    | some t, some c => do
      let (ps, c, s) ← lispQuery w.env w.pick ev t { q with file := fileInForce q.file o } c s
      pure (.results ps (h.metadata i)[idx]?, { h with dbs := h.dbs.set o.db { db with caches := db.caches.set idx c } }, s)
    | _, _ => .ub .oobRead
  else .throw .lisp

/-- One operation.
* `create`: `make` and `initialize-instance` (binary-trace-db.lisp:250-254).
* `restrict`: `restrict-to-file` (lines 638-643).
* `copy`: storing and restoring (lines 260-277, 632-636); of wrappers only `nil` is stored.
  Simplification: the text of the database can be decoded and encoded again; a text that
  cannot be read ends the program. -/
def lispStep {μ σ : Type} (w : World) (version : Nat) (ev : Evaluator σ) (h : LispHeap μ) (s : σ) (op : ObjOp μ) :
    Res (LispAnswer μ × LispHeap μ × σ) :=
  match op with
  | .create =>
    .ok (.object h.objs.length, ⟨h.dbs ++ [Db.create], h.objs ++ [⟨h.dbs.length, none, []⟩]⟩, s)
  | .restrict i f =>
    match h.objs[i]? with
    | none => .throw .lisp
    | some o => .ok (.object h.objs.length, { h with objs := h.objs ++ [⟨o.db, some (i, f), []⟩] }, s)
  | .add i a =>
    match h.objs[i]? with
    | none => .throw .lisp
    | some o =>
      match h.dbs[o.db]? with
      | none => .ub .dangling
      | some db => do
        let (x, h) ← h.add w i o db a
        pure (x, h, s)
  | .get i idx file =>
    match h.objs[i]? with
    | none => .throw .lisp
    | some o =>
      match h.dbs[o.db]? with
      | none => .ub .dangling
      | some db => do
        let x ← h.get i o db idx file
        pure (x, h, s)
  | .query i idx q =>
    match h.objs[i]? with
    | none => .throw .lisp
    | some o =>
      match h.dbs[o.db]? with
      | none => .ub .dangling
      | some db => h.query w ev s i o db idx q
  | .copy i =>
    match h.objs[i]? with
    | none => .throw .lisp
    | some o =>
      if o.view.isSome then .ok (.nil, h, s)
      else
        match h.dbs[o.db]? with
        | none => .ub .dangling
        | some db =>
          match deserializeDb (serializeDb version db) with
          | none => .abort
          | some db' =>
            .ok (.object h.objs.length, ⟨h.dbs ++ [db'], h.objs ++ [⟨h.dbs.length, none, h.metadata i⟩]⟩, s)

/-- A history.  For binary-trace-db.lisp:242-277, 615-663. -/
def lispRun {μ σ : Type} (w : World) (version : Nat) (ev : Evaluator σ) :
    LispHeap μ → σ → List (ObjOp μ) → Res (List (LispAnswer μ) × LispHeap μ × σ)
  | h, s, [] => .ok ([], h, s)
  | h, s, op :: ops => do
    let (x, h, s) ← lispStep w version ev h s op
    let (xs, h, s) ← lispRun w version ev h s ops
    pure (x :: xs, h, s)

end TraceDB
