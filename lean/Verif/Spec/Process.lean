import Verif.Model.Process
import Verif.Spec.Archive
import Verif.Spec.Database
/-
What a process should see: shelves of traces, without caches, addresses and reallocations.
-/
namespace TraceDB

/-- The traces of each database, `none` for those that have been freed. -/
abbrev Shelf := List (Option (List Trace))

/-- A call on one database, which is a list of traces. -/
def shelfCall (w : World) (fs : FloatSys) (ts : List Trace) : Call → Res (Answer × List Trace)
  | .addTrace none _ => .ok (.int 0, ts)
  | .addTrace (some s) k => match readTrace w.env k s with
    | .ok t => .ok (.int 1, ts ++ [t])
    | .throw _ => .ok (.int 0, ts)
    | .abort => .abort
    | .ub u => .ub u
    | .hang => .hang
  | .addTracePoints ps names => do
    let t ← traceOfPoints ps names
    pure (.int 1, ts ++ [t])
  | .getTrace i => if i.toNat < ts.length then .ok (.ptr ⟨0, i.toNat⟩, ts) else .ub .oobRead
  | .nTraces => .ok (.int (ts.length % 2 ^ 32), ts)
  | .query i q keep => match ts[i.toNat]? with
    | none => .abort
    | some t => do
      let (rs, _, _) ← queryTrace w.env w.pick (plainEval fs) t q keep [] ()
      pure (.points rs, ts)

/-- One call. -/
def shelfStep (w : World) (fs : FloatSys) (version : Nat) (sh : Shelf) : PCall → Res (PAnswer × Shelf)
  | .create => .ok (.handle sh.length, sh ++ [some []])
  | .free d => match sh[d]? with
    | some (some _) => .ok (.done, sh.set d none)
    | _ => .ub .badFree
  | .on d c => match sh[d]? with
    | some (some ts) => do
      let (a, ts) ← shelfCall w fs ts c
      pure (.call a, sh.set d (some ts))
    | some none => .ub .dangling
    | none => .ub .misuse
  | .store d => match sh[d]? with
    | some (some ts) => .ok (.text (archiveText version ts ++ [0]), sh)
    | some none => .ub .dangling
    | none => .ub .misuse
  | .load text => match deserializeDb text with
    | some db => .ok (.handle sh.length, sh ++ [some db.traces])
    | none => .abort

/-- A whole run. -/
def runShelf (w : World) (fs : FloatSys) (version : Nat) : Shelf → List PCall → Res (List PAnswer × Shelf)
  | sh, [] => .ok ([], sh)
  | sh, c :: cs => do
    let (a, sh) ← shelfStep w fs version sh c
    let (as, sh) ← runShelf w fs version sh cs
    pure (a :: as, sh)

/-- The trace and query of a call, if it is one. -/
def askedBy (sh : Shelf) : PCall → List (Trace × Query)
  | .on d (.query i q _) => match sh[d]? with
    | some (some ts) => (ts[i.toNat]?.map fun t => (t, q)).toList
    | _ => []
  | _ => []

/-- All queries of a run, with their traces, up to the first call that does not return. -/
def asked (w : World) (fs : FloatSys) (version : Nat) : Shelf → List PCall → List (Trace × Query)
  | _, [] => []
  | sh, c :: cs => askedBy sh c ++ match shelfStep w fs version sh c with
    | .ok (_, sh) => asked w fs version sh cs
    | _ => []

/-- An answer without the address of a trace. -/
def PAnswer.plain : PAnswer → PAnswer
  | .call (.ptr p) => .call (.ptr ⟨0, p.index⟩)
  | a => a

/-- The shelves of a process. -/
def DbProc.shelf {σ : Type} (p : DbProc σ) : Shelf := p.dbs.map (·.map Db.traces)

/-- The calls on database `d`. -/
def callsOn (d : Nat) (calls : List PCall) : List Call :=
  calls.filterMap fun c => match c with
    | .on e c => if e = d then some c else none
    | _ => none

/-- The databases made, with the traces they had at first. -/
def madeBy (calls : List PCall) : List (List Trace) :=
  calls.filterMap fun c => match c with
    | .create => some []
    | .load text => (deserializeDb text).map Db.traces
    | _ => none

/-- The traces of database `d` after some calls. -/
def tracesOf (env : Env) (d : Nat) (calls : List PCall) : List Trace :=
  ((madeBy calls)[d]?).getD [] ++ added env (callsOn d calls)

end TraceDB
