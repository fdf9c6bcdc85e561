import Verif.Model.LispObjects
/-
Garbage collection and the databases behind Lisp objects: `initialize-instance`
registers a finalizer that frees the C++ database (binary-trace-db.lisp:250-254).

The collector is the one of SBCL: it may at any time collect any objects that the program
cannot reach; the function of a finalizer is kept, with everything it refers to, until
it has run; the finalizers of collected objects are called.
-/
namespace TraceDB

/-- What the function of a finalizer refers to.  In the code it is the object
(`(lambda () (c-free-db (db-pointer instance)))`, binary-trace-db.lisp:254); a function
that refers to the pointer only is modelled as well, for comparison. -/
inductive FinCapture where
  | object
  | pointer
  deriving DecidableEq, Repr

/-- A Lisp image: all databases and objects ever made, the objects the program refers to,
those that were collected, the objects with a finalizer that has not been called, and the
databases passed to `free_db`.  For binary-trace-db.lisp:250-254. -/
structure GcImage (μ : Type) where
  heap : LispHeap μ
  refs : List Nat
  collected : List Nat
  pending : List Nat
  freed : List Nat

/-- An object and the objects its slots refer to: `parent-db` (binary-trace-db.lisp:621-623)
and further.  The first number bounds the steps. -/
def slotsReach {μ : Type} (objs : List (LispObj μ)) : Nat → Nat → List Nat
  | 0, i => [i]
  | n + 1, i =>
    i :: match objs[i]? with
      | some o => match o.view with
        | some (p, _) => slotsReach objs n p
        | none => []
      | none => []

/-- Everything that must not be collected.  For binary-trace-db.lisp:250-254, 615-663. -/
def GcImage.reach {μ : Type} (cap : FinCapture) (g : GcImage μ) : List Nat :=
  (g.refs ++ match cap with
    | .object => g.pending
    | .pointer => []).flatMap (slotsReach g.heap.objs g.heap.objs.length)

/-- The steps of a program: an operation on objects, forgetting an object, and a
collection; `choice` says which of the unreachable objects are collected.  For binary-trace-db.lisp:250-254. -/
inductive GcOp (μ : Type) where
  | op (o : ObjOp μ)
  | forget (i : Nat)
  | collect (choice : Nat → Bool)

/-- The object an operation is given.  For binary-trace-db.lisp:242-277, 615-663. -/
def ObjOp.given {μ : Type} : ObjOp μ → Option Nat
  | .create => none
  | .restrict i _ | .add i _ | .get i _ _ | .query i _ _ | .copy i => some i

/-- `free_db` (trace-db.cpp:185-189) for the finalizers of the collected objects `dead`;
freeing a database twice is undefined. -/
def finalizeAll {μ : Type} (objs : List (LispObj μ)) (dead : List Nat) : List Nat → List Nat → Res (List Nat)
  | [], freed => .ok freed
  | i :: is, freed =>
    if dead.contains i then
      match objs[i]? with
      | none => .ub .dangling
      | some o => if freed.contains o.db then .ub .badFree else finalizeAll objs dead is (freed ++ [o.db])
    else finalizeAll objs dead is freed

/-- A new object is referred to by the program.  For binary-trace-db.lisp:250-254. -/
def refsAfter {μ : Type} : LispAnswer μ → List Nat → List Nat
  | .object i, refs => refs ++ [i]
  | _, refs => refs

/-- `make` registers a finalizer unless it is given a pointer (binary-trace-db.lisp:252-254),
as `restrict-to-file` and restoring do. -/
def pendingAfter {μ : Type} : ObjOp μ → LispAnswer μ → List Nat → List Nat
  | .create, .object i, pending => pending ++ [i]
  | _, _, pending => pending

/-- One step.  An operation needs a reference to its object (otherwise it is an error
here), and a database that was freed must not be used.  For binary-trace-db.lisp:250-254. -/
def gcStep {μ σ : Type} (cap : FinCapture) (w : World) (version : Nat) (ev : Evaluator σ) (g : GcImage μ) (s : σ) :
    GcOp μ → Res (Option (LispAnswer μ) × GcImage μ × σ)
  | .op o => do
    match o.given with
    | none => pure ()
    | some i =>
      if g.refs.contains i then
        match g.heap.objs[i]? with
        | none => .ub .dangling
        | some x => if g.freed.contains x.db || g.collected.contains i then .ub .dangling else pure ()
      else .throw .lisp
    let (x, h, s) ← lispStep w version ev g.heap s o
    pure (some x, { g with heap := h, refs := refsAfter x g.refs, pending := pendingAfter o x g.pending }, s)
  | .forget i => .ok (none, { g with refs := g.refs.filter (· != i) }, s)
  | .collect choice => do
    let dead := (List.range g.heap.objs.length).filter fun i =>
      choice i && !(g.reach cap).contains i && !g.collected.contains i
    let freed ← finalizeAll g.heap.objs dead g.pending g.freed
    pure (none, { g with collected := g.collected ++ dead, pending := g.pending.filter (!dead.contains ·), freed := freed }, s)

/-- A history; the answers of its operations.  For binary-trace-db.lisp:250-254. -/
def gcRun {μ σ : Type} (cap : FinCapture) (w : World) (version : Nat) (ev : Evaluator σ) :
    GcImage μ → σ → List (GcOp μ) → Res (List (LispAnswer μ) × GcImage μ × σ)
  | g, s, [] => .ok ([], g, s)
  | g, s, op :: ops => do
    let (x, g, s) ← gcStep cap w version ev g s op
    let (xs, g, s) ← gcRun cap w version ev g s ops
    pure (x.toList ++ xs, g, s)

/-- A fresh image.  For binary-trace-db.lisp:250-254. -/
def GcImage.fresh {μ : Type} : GcImage μ := ⟨⟨[], []⟩, [], [], [], []⟩

end TraceDB
