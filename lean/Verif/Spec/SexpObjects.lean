import Verif.Model.SexpObjects
/-
What list-based databases should do: a file gives its points up to the limit, a database is
a list of traces with their metadata, the newest first, and a restriction is the list of what
was in the database when it was made, cut down to the points of the file.
-/
namespace TraceDB

/-- The accepted objects at the beginning of a file. -/
def goodForms {α : Type} (accept : α → Bool) : List (SForm α) → List α
  | .form x :: s => if accept x then x :: goodForms accept s else []
  | _ => []

/-- What comes after them is not readable. -/
def brokenForms {α : Type} (accept : α → Bool) : List (SForm α) → Bool
  | .form x :: s => if accept x then brokenForms accept s else false
  | .malformed :: _ => true
  | _ => false

/-- The points a file holds: its objects up to the first that is not a point, `:eof`, or not
readable. -/
def filePoints : List (SForm (Option LPoint)) → List LPoint
  | .form (some p) :: s => p :: filePoints s
  | _ => []

/-- The file is malformed right after its points. -/
def fileBroken : List (SForm (Option LPoint)) → Bool
  | .form (some _) :: s => fileBroken s
  | .malformed :: _ => true
  | _ => false

/-- The points read with a limit. -/
def readPointsOf (s : List (SForm (Option LPoint))) : Option Nat → List LPoint
  | none => filePoints s
  | some k => (filePoints s).take k

/-- Reading comes upon text that is not readable: all points before it are within the limit,
and it is not to be ignored. -/
def readFails (ignoreRest : Bool) (s : List (SForm (Option LPoint))) (max : Option Nat) : Bool :=
  !ignoreRest && fileBroken s && (match max with
    | none => true
    | some k => decide ((filePoints s).length ≤ k))

/-- Databases: traces with their metadata; restrictions have a parent and a file. -/
structure SpecSexp (μ : Type) where
  items : List (List LPoint × μ)
  view : Option (Nat × Nat)
  deriving DecidableEq

/-- What an addition stores, given what was read. -/
def SexpOp.stored {μ : Type} (ignoreRest : Bool) : SexpOp μ → Option (Nat × List LPoint × μ)
  | .add i (some s) max m =>
    if readFails ignoreRest s max ∨ readPointsOf s max = [] then none else some (i, readPointsOf s max, m)
  | .addPoints i ps m => some (i, ps, m)
  | _ => none

/-- What an operation changes. -/
def specSexpStep {μ : Type} (ignoreRest : Bool) (S : List (SpecSexp μ)) (op : SexpOp μ) : List (SpecSexp μ) :=
  match op with
  | .create => S ++ [⟨[], none⟩]
  | .restrict i f =>
    match S[i]? with
    | some o => S ++ [⟨o.items.map fun x => (ofFile (some f) x.1, x.2), some (i, f)⟩]
    | none => S
  | .copy i =>
    match S[i]? with
    | some ⟨l, none⟩ => S ++ [⟨l, none⟩]
    | _ => S
  | op =>
    match op.stored ignoreRest with
    | some (i, x) => S.modify i fun o => { o with items := x :: o.items }
    | none => S

/-- What a history leaves. -/
def specSexpAfter {μ : Type} (ignoreRest : Bool) (S : List (SpecSexp μ)) (ops : List (SexpOp μ)) : List (SpecSexp μ) :=
  ops.foldl (specSexpStep ignoreRest) S

/-- The trace with an index and its metadata; nothing outside of the list. -/
def SpecSexp.at {μ : Type} (o : SpecSexp μ) (idx : Nat) : List LPoint × Option μ :=
  match o.items[idx]? with
  | some (ps, m) => (ps, some m)
  | none => ([], none)

/-- What should be returned for an object. -/
def specSexpOf {μ : Type} (ignoreRest : Bool) (n : Nat) (o : SpecSexp μ) (op : SexpOp μ) : Res (SexpAnswer μ) :=
  match op with
  | .create => .ok (.object n)
  | .restrict .. => .ok (.object n)
  | .copy _ => .ok (if o.view.isSome then .nil else .object n)
  | .add _ none .. => .ok .nil
  | .add _ (some s) max _ =>
    if readFails ignoreRest s max then .throw .lisp
    else .ok (if readPointsOf s max = [] then .nil else .done)
  | .addPoints .. => .ok .done
  | .get _ idx file => .ok (.trace (ofFile (if o.view.isSome then none else file) (o.at idx).1) (o.at idx).2)
  | .count _ => .ok (.number o.items.length)
  | .size _ idx => .ok (.number (o.at idx).1.length)
  | .types _ idx => .ok (.names (sexpTypes (o.at idx).1))
  | .query _ idx q pick =>
    if q.soft ≠ [] then .throw .lisp
    else if (o.at idx).1 = [] then .ok .nil
    else match sexpQueryAt (o.at idx).1 q pick with
      | .ok rs => .ok (.trace rs (o.at idx).2)
      | .throw e => .throw e
      | .abort => .abort
      | .ub k => .ub k
      | .hang => .hang

/-- The object an operation is done with. -/
def SexpOp.object {μ : Type} : SexpOp μ → Option Nat
  | .create => none
  | .restrict i _ | .add i .. | .addPoints i .. | .get i .. | .count i | .size i _ | .types i _
  | .query i .. | .copy i => some i

/-- What an operation should return. -/
def specSexpAnswer {μ : Type} (ignoreRest : Bool) (S : List (SpecSexp μ)) (op : SexpOp μ) : Res (SexpAnswer μ) :=
  match op.object with
  | none => .ok (.object S.length)
  | some i =>
    match S[i]? with
    | some o => specSexpOf ignoreRest S.length o op
    | none => .throw .lisp

/-- The answers of a history. -/
def specSexpRun {μ : Type} (ignoreRest : Bool) : List (SpecSexp μ) → List (SexpOp μ) → List (Res (SexpAnswer μ))
  | _, [] => []
  | S, op :: ops => specSexpAnswer ignoreRest S op :: specSexpRun ignoreRest (specSexpStep ignoreRest S op) ops

/-- An answer without its metadata. -/
def sexpPoints {μ : Type} : Res (SexpAnswer μ) → Res (SexpAnswer μ)
  | .ok (.trace ps _) => .ok (.trace ps none)
  | a => a

/-- The operation adds nothing, or adds to a database that is no restriction and has none. -/
def SexpOp.Untouched {μ : Type} (ignoreRest : Bool) (S : List (SpecSexp μ)) (op : SexpOp μ) : Prop :=
  ∀ i ps m, op.stored ignoreRest = some (i, ps, m) →
    (∀ o, S[i]? = some o → o.view = none) ∧ ∀ (j : Nat) o f, S[j]? = some o → o.view ≠ some (i, f)

/-- The same for a history. -/
def SexpUntouched {μ : Type} (ignoreRest : Bool) : List (SpecSexp μ) → List (SexpOp μ) → Prop
  | _, [] => True
  | S, op :: ops => op.Untouched ignoreRest S ∧ SexpUntouched ignoreRest (specSexpStep ignoreRest S op) ops

end TraceDB
