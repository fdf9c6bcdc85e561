import Verif.Model.ForeignSession
import Verif.Spec.QueryMemory
import Verif.Spec.ForeignQuery
import Verif.Spec.ForeignBytes
/-
What a session with a binary database means: traces in a list, without memory, addresses,
registers and caches of points.
-/
namespace TraceDB

/-- The traces, their metadata and the state of the predicate cache. -/
structure FsMeant (μ σ : Type) where
  traces : List Trace
  metadata : List μ
  s : σ

/-- What else happens leaves the blocks of the database alone; everything else may change. -/
def LeavesAlone (f : List (Nat × Nat) → FState → FState) : Prop :=
  ∀ owned s, (∀ b ∈ owned, b ∈ s.blocks) → (∀ b ∈ owned, b ∈ (f owned s).blocks) ∧ ∀ x, InUse owned x → (f owned s).mem x = s.mem x

/-- What an operation means: the answer and the traces and metadata afterwards. -/
inductive FsMeans {μ σ : Type} (w : FsWorld σ) : FsMeant μ σ → FsOp μ → FsAns μ → FsMeant μ σ → Prop where
  /-- a file is read; the path ends at a NUL -/
  | fileAdded (ts : List Trace) (ms : List μ) (s : σ) (path : List U8) (timeout k : Nat) (m : μ) (st : IStream) (t : Trace)
      (htimeout : timeout < 2 ^ 31) (hk : k < 2 ^ 64) (hfile : w.files (path.takeWhile (· ≠ 0)) timeout = some st)
      (ht : readTrace w.env (BitVec.ofNat 64 k) st = .ok t) :
      FsMeans w ⟨ts, ms, s⟩ (.addFile path timeout k m) (.added true) ⟨ts ++ [t], ms ++ [m], s⟩
  /-- a file that cannot be opened or read changes nothing -/
  | fileNot (x : FsMeant μ σ) (path : List U8) (timeout k : Nat) (m : μ) (htimeout : timeout < 2 ^ 31)
      (hk : k < 2 ^ 64)
      (hfile : w.files (path.takeWhile (· ≠ 0)) timeout = none ∨
        ∃ st e, w.files (path.takeWhile (· ≠ 0)) timeout = some st ∧ readTrace w.env (BitVec.ofNat 64 k) st = .throw e) :
      FsMeans w x (.addFile path timeout k m) (.added false) x
  /-- points from Lisp; their metadata comes first -/
  | points (ts : List Trace) (ms : List μ) (s : σ) (trace : List LPoint) (m : μ) (ps : List InPoint) (t : Trace)
      (hps : lispInPoints (lispAddNames trace) trace = .ok ps)
      (ht : traceOfPoints ps ((lispAddNames trace).map cStr) = .ok t) :
      FsMeans w ⟨ts, ms, s⟩ (.addPoints trace m) .nothing ⟨ts ++ [t], m :: ms, s⟩
  | getTrace (x : FsMeant μ σ) (i : Nat) (file : Option Nat) (t : Trace) (m : μ) (l : List LPoint)
      (hlen : x.traces.length < 2 ^ 32) (hi : x.traces[i]? = some t) (hm : x.metadata[i]? = some m) (hf : FitForeign t t.points)
      (hl : lispGetTrace t file = .ok l) : FsMeans w x (.getTrace i file) (.points l m) x
  | traceTypes (x : FsMeant μ σ) (i : Nat) (t : Trace) (l : List (List U8)) (hlen : x.traces.length < 2 ^ 32)
      (hi : x.traces[i]? = some t) (hf : FitForeign t t.points) (hl : getTypes t = .ok l) :
      FsMeans w x (.traceTypes i) (.types l) x
  /-- queries do not depend on the queries before -/
  | query (ts : List Trace) (ms : List μ) (s s' : σ) (i : Nat) (t : Trace) (q : FQuery) (hard : Pred) (softs : List Pred)
      (filter : Option (LPoint → Bool)) (cache : PointsCache) (l : List LPoint) (hlen : ts.length < 2 ^ 32) (hi : ts[i]? = some t)
      (hf : FitForeign t t.points) (hnames : (q.predicate = .nil ∧ q.softs = []) ∨ q.varNames ≠ [])
      (hh : SexpRoot q.varNames q.predicate hard) (hs : SexpRoots q.varNames q.softs softs)
      (hfilter : q.filter = filter.map fun g p => some (g p)) (hvars : q.varTypes.length < 2 ^ 32)
      (hfit : AnswerFits w.env w.pick w.ev t q hard softs [] s)
      (hl : lispQuery w.env w.pick w.ev t (q.meant hard softs filter) [] s = .ok (l, cache, s')) :
      FsMeans w ⟨ts, ms, s⟩ (.query i q) (.results l) ⟨ts, ms, s'⟩
  | store (x : FsMeant μ σ) (hn : ∀ t ∈ x.traces, t.NulFree) :
      FsMeans w x .store (.stored (archiveText w.version x.traces, x.metadata)) x
  /-- the database is replaced by a stored one -/
  | restore (x : FsMeant μ σ) (text : List U8) (ms : List μ) (db : Db) (hne : text ≠ []) (hd : deserializeDb text = some db) :
      FsMeans w x (.restore (text, ms)) .nothing ⟨db.traces, ms, x.s⟩
  | restoreNone (x : FsMeant μ σ) (ms : List μ) : FsMeans w x (.restore ([], ms)) .nothing ⟨[], ms, x.s⟩
  | other (x : FsMeant μ σ) (f : List (Nat × Nat) → FState → FState) (hf : LeavesAlone f) : FsMeans w x (.other f) .nothing x

/-- What a session means. -/
inductive FsMeansAll {μ σ : Type} (w : FsWorld σ) : FsMeant μ σ → List (List U64 × FsOp μ) → List (FsAns μ) → FsMeant μ σ → Prop where
  | nil (x : FsMeant μ σ) : FsMeansAll w x [] [] x
  | cons (x y z : FsMeant μ σ) (junk : List U64) (op : FsOp μ) (a : FsAns μ) (ops : List (List U64 × FsOp μ)) (as : List (FsAns μ))
      (h : FsMeans w x op a y) (hs : FsMeansAll w y ops as z) : FsMeansAll w x ((junk, op) :: ops) (a :: as) z

/-- Memory was short: an error in Lisp, an exception in C++, or C writes to NULL. -/
def MemoryShort {α : Type} (r : Res α) : Prop := r = .throw .lisp ∨ r = .throw .alloc ∨ r = .ub .nullDeref

/-- The process holds what is meant: the same traces and metadata, every trace with its names
and blobs in blocks of the database. -/
structure FsState.Holds {μ σ : Type} (x : FsState μ σ) (y : FsMeant μ σ) : Prop where
  traces : x.d.db.traces = y.traces
  metadata : x.d.metadata = y.metadata
  s : x.s = y.s
  owned : ∀ b ∈ x.owned, b ∈ x.mem.blocks
  places : x.places.length = x.d.db.traces.length
  caches : x.d.db.caches.length = x.d.db.traces.length
  kept : ∀ (i : Nat) t p, x.d.db.traces[i]? = some t → x.places[i]? = some p → p.Kept t t.points ⟨x.mem.mem, x.owned⟩
  cache : ∀ (i : Nat) t c, x.d.db.traces[i]? = some t → x.d.db.caches[i]? = some c →
    (∀ e ∈ c, e.2 = t.points.filter fun p => p.statement &&& e.1.1 = e.1.2)

end TraceDB
