import Verif.Model.LispObjects
import Verif.Spec.LispDb
import Verif.Spec.Archive
/-
What databases as Lisp objects should do: a database is a list of traces with their
metadata, an object is a database with a file, and copies are databases of their own.
-/
namespace TraceDB

/-- Databases, and objects: the database and the file. -/
structure SpecHeap (μ : Type) where
  dbs : List (List (Trace × μ))
  objs : List (Nat × Option Nat)
  deriving DecidableEq

/-- What an operation changes. -/
def SpecHeap.step {μ : Type} (env : Env) (S : SpecHeap μ) : ObjOp μ → SpecHeap μ
  | .create => ⟨S.dbs ++ [[]], S.objs ++ [(S.dbs.length, none)]⟩
  | .restrict i f =>
    match S.objs[i]? with
    | some o => { S with objs := S.objs ++ [(o.1, some f)] }
    | none => S
  | .add i a =>
    match S.objs[i]? with
    | some o => { S with dbs := S.dbs.modify o.1 (· ++ storedWith env [a]) }
    | none => S
  | .copy i =>
    match S.objs[i]? with
    | some (d, none) => ⟨S.dbs ++ [S.dbs[d]?.getD []], S.objs ++ [(S.dbs.length, none)]⟩
    | _ => S
  | .get .. | .query .. => S

/-- What a history leaves. -/
def SpecHeap.after {μ : Type} (env : Env) (S : SpecHeap μ) (ops : List (ObjOp μ)) : SpecHeap μ :=
  ops.foldl (SpecHeap.step env) S

/-- The trace with index `idx` of object `i`, with its metadata and the file of the
object. -/
def SpecHeap.find {μ : Type} (S : SpecHeap μ) (i idx : Nat) : Option (Trace × μ × Option Nat) :=
  match S.objs[i]? with
  | none => none
  | some o =>
    match S.dbs[o.1]? with
    | none => none
    | some l => l[idx]?.map fun x => (x.1, x.2, o.2)

/-- What an operation should return. -/
def SpecHeap.answer {μ σ : Type} (w : World) (ev : Evaluator σ) (S : SpecHeap μ) (s : σ) :
    ObjOp μ → Res (LispAnswer μ × σ)
  | .create => .ok (.object S.objs.length, s)
  | .restrict i _ => if i < S.objs.length then .ok (.object S.objs.length, s) else .throw .lisp
  | .add i a =>
    if i < S.objs.length then
      match a with
      | .trace none _ _ => .ok (.nil, s)
      | .trace (some src) k _ =>
        match readTrace w.env k src with
        | .ok _ => .ok (.done, s)
        | .throw _ => .ok (.nil, s)
        | .abort => .abort
        | .ub u => .ub u
        | .hang => .hang
      | .points ps names _ => traceOfPoints ps names >>= fun _ => .ok (.done, s)
    else .throw .lisp
  | .get i idx file =>
    match S.find i idx with
    | none => .throw .lisp
    | some (t, m, f) => lispGetTrace t (file.or f) >>= fun ps => .ok (.trace ps m, s)
  | .query i idx q =>
    match S.find i idx with
    | none => .throw .lisp
    | some (t, m, f) =>
      lispQuery w.env w.pick ev t { q with file := q.file.or f } [] s >>= fun r => .ok (.results r.1 (some m), r.2.2)
  | .copy i =>
    match S.objs[i]? with
    | none => .throw .lisp
    | some (_, none) => .ok (.object S.objs.length, s)
    | some (_, some _) => .ok (.nil, s)

/-- The answers of a history. -/
def SpecHeap.run {μ σ : Type} (w : World) (ev : Evaluator σ) : SpecHeap μ → σ → List (ObjOp μ) →
    Res (List (LispAnswer μ) × σ)
  | _, s, [] => .ok ([], s)
  | S, s, op :: ops =>
    S.answer w ev s op >>= fun (x, s) =>
      SpecHeap.run w ev (S.step w.env op) s ops >>= fun (xs, s) => .ok (x :: xs, s)

/-- The databases are small enough for their counts. -/
structure SpecHeap.Small {μ : Type} (S : SpecHeap μ) : Prop where
  traces : ∀ l ∈ S.dbs, l.length < 2 ^ 32
  points : ∀ l ∈ S.dbs, (l.map fun x => x.1.points.length).sum < 2 ^ 64
  each : ∀ l ∈ S.dbs, ∀ x ∈ l, x.1.Counts

/-- Same answer, apart from metadata. -/
def LispAnswer.SamePoints {μ : Type} : LispAnswer μ → LispAnswer μ → Prop
  | .trace ps _, .trace ps' _ => ps = ps'
  | .results ps _, .results ps' _ => ps = ps'
  | .object i, .object j => i = j
  | .nil, .nil => True
  | .done, .done => True
  | _, _ => False

/-- Names given with points are C strings. -/
def ObjOp.NamesNulFree {μ : Type} : ObjOp μ → Prop
  | .add _ (.points _ names _) => ∀ n ∈ names, (0 : U8) ∉ n
  | _ => True

/-- The operation adds only files, and not through wrappers. -/
def ObjOp.Direct {μ : Type} (S : SpecHeap μ) : ObjOp μ → Prop
  | .add i a => a.isFile = true ∧ ∀ d f, S.objs[i]? ≠ some (d, some f)
  | _ => True

end TraceDB
