import Verif.Model.Archive
import Verif.Spec.Query
/-
Which databases can be serialised.
-/
namespace TraceDB

/-- The kind of value agrees with the format and a blob has the bytes its size says. -/
def VarInfo.Sized (v : VarInfo) : Prop :=
  match v.value with
  | .blob bs => v.format = .blob ∧ v.size.toNat = bs.length
  | .word _ => v.format ≠ .blob

/-- Point data whose counts fit 64 bits. -/
structure Body.Fits (d : Body) : Prop where
  sizes : d.sizes.length < 2 ^ 64
  nvars : d.vars.length < 2 ^ 64
  naux : d.aux.length < 2 ^ 64
  sized : ∀ v ∈ d.vars, v.Sized

/-- A trace whose tables fit 32 bits and whose points fit 64 bits. -/
structure Trace.Fits (t : Trace) : Prop where
  points : t.points.length < 2 ^ 64
  names : t.names.length < 2 ^ 32
  types : t.types.length < 2 ^ 32
  name : ∀ n ∈ t.names, n.length < 2 ^ 64
  body : ∀ p ∈ t.points, p.body.Fits

/-- The counts of a trace fit the integers they are stored in. -/
structure Trace.Counts (t : Trace) : Prop where
  points : t.points.length < 2 ^ 64
  names : t.names.length < 2 ^ 32
  types : t.types.length < 2 ^ 32
  name : ∀ n ∈ t.names, n.length < 2 ^ 64
  sizes : ∀ p ∈ t.points, p.sizes.length < 2 ^ 64
  vars : ∀ p ∈ t.points, p.vars.length < 2 ^ 64
  aux : ∀ p ∈ t.points, p.aux.length < 2 ^ 64

/-- Names are C strings. -/
def Trace.NulFree (t : Trace) : Prop := ∀ n ∈ t.names, (0 : U8) ∉ n

/-- The number of points of a database is less than 2^64, and the counts of each of its
traces fit. -/
structure Db.Counts (db : Db) : Prop where
  traces : db.traces.length < 2 ^ 64
  points : (db.traces.map fun t => t.points.length).sum < 2 ^ 64
  each : ∀ t ∈ db.traces, t.Counts

/-- Same answer, up to the place of a trace in memory: pointers to the same index. -/
def Answer.SameAs : Answer → Answer → Prop
  | .ptr p, .ptr q => p.index = q.index
  | .ptr _, _ => False
  | _, .ptr _ => False
  | a, b => a = b

/-- Both calls (or sequences of calls) end in the same way, with the same answers; `σ` is
the state of the predicate cache. -/
def SameEnd {σ : Type} : Res (List Answer × Db × σ) → Res (List Answer × Db × σ) → Prop
  | .ok (as, db, s), .ok (bs, db', s') =>
    as.length = bs.length ∧ (∀ (i : Nat) (a b : Answer), as[i]? = some a → bs[i]? = some b → a.SameAs b) ∧
      db.traces = db'.traces ∧ s = s'
  | .throw e, .throw e' => e = e'
  | .abort, .abort => True
  | .ub k, .ub k' => k = k'
  | .hang, .hang => True
  | _, _ => False

/-- Names given to `add_trace_points` are C strings. -/
def Call.NamesNulFree : Call → Prop
  | .addTracePoints _ names => ∀ n ∈ names, (0 : U8) ∉ n
  | _ => True

end TraceDB
