import Verif.Model.Types
import Verif.Model.LispDb
/-
Tables of names and types built during instrumentation
(instrumentation/c-cpp.lisp:370-384, 942-1000, 1065-1134).
-/
namespace TraceDB

/-- A hash table from keys to values: its entries in order of insertion.  For instrumentation/c-cpp.lisp:370-384. -/
abbrev HTable (κ α : Type) := List (κ × α)

/-- `gethash`; `same` is the test of the table.  For instrumentation/c-cpp.lisp:370-384. -/
def HTable.get {κ α : Type} (same : κ → κ → Bool) (t : HTable κ α) (k : κ) : Option α :=
  (t.find? fun e => same e.1 k).map (·.2)

/-- `(setf (gethash k table) v)`: an existing entry keeps its key.  For instrumentation/c-cpp.lisp:370-384. -/
def HTable.put {κ α : Type} (same : κ → κ → Bool) : HTable κ α → κ → α → HTable κ α
  | [], k, v => [(k, v)]
  | (k', v') :: t, k, v => if same k' k then (k', v) :: t else (k', v') :: HTable.put same t k v

/-- Get the index of a key, or give it the number of entries as index: `get-name-index`
(instrumentation/c-cpp.lisp:973-976) and the end of `get-type-index` (990-992). -/
def indexFor {κ : Type} (same : κ → κ → Bool) (t : HTable κ Nat) (k : κ) : Nat × HTable κ Nat :=
  match t.get same k with
  | some i => (i, t)
  | none => (t.length, t.put same k t.length)

/-- Key of a type (instrumentation/c-cpp.lisp:983-985): what
`(and print-strings (string-type-p type))` returns, and the text of the type.  The
former is `none` for `nil` and otherwise a number that stands for the object returned:
two objects have the same number if they are `equal` (which is the same as `equalp`
for them). -/
abbrev TypeKey := Option Nat × Name

/-- A row of the table of types in the instrumented program: index of the name,
format and size (instrumentation/c-cpp.lisp:977-981). -/
structure TypeRow where
  name : Nat
  format : TypeFormat
  size : Nat
  deriving DecidableEq, Repr

/-- The tables of a `c/cpp-instrumenter` (instrumentation/c-cpp.lisp:370-384). -/
structure Tables where
  names : HTable Name Nat
  types : HTable TypeKey Nat
  rows : HTable TypeKey TypeRow

/-- Tests of the tables: `equal` for single files (instrumentation/c-cpp.lisp:373-381),
`equalp` for projects (552-554). -/
structure TableTests where
  name : Name → Name → Bool
  type : TypeKey → TypeKey → Bool

/-- `equal`.  For instrumentation/c-cpp.lisp:373, 552-554. -/
def TableTests.equal : TableTests := ⟨(· == ·), (· == ·)⟩
/-- `equalp`.  For instrumentation/c-cpp.lisp:373, 552-554. -/
def TableTests.equalp : TableTests :=
  ⟨fun a b => a.map foldChar == b.map foldChar, fun a b => a.1 == b.1 && a.2.map foldChar == b.2.map foldChar⟩

/-- Requests made while instrumenting.  For instrumentation/c-cpp.lisp:942-1000. -/
inductive TabReq where
  | name (n : Name)
  | type (k : TypeKey) (format : TypeFormat) (size : Nat)
  deriving DecidableEq, Repr

/-- `get-name-index` and `get-type-index` (instrumentation/c-cpp.lisp:973-992). -/
def Tables.request (te : TableTests) (s : Tables) : TabReq → Nat × Tables
  | .name n =>
    let r := indexFor te.name s.names n
    (r.1, { s with names := r.2 })
  | .type k format size =>
    match s.types.get te.type k with
    | some i => (i, s)
    | none =>
      let r := indexFor te.name s.names k.2
      let rows := s.rows.put te.type k ⟨r.1, format, size⟩
      (s.types.length, ⟨r.2, s.types.put te.type k s.types.length, rows⟩)

/-- A sequence of requests: the indices handed out and the tables afterwards.  For instrumentation/c-cpp.lisp:942-1000. -/
def Tables.requests (te : TableTests) : Tables → List TabReq → List Nat × Tables
  | s, [] => ([], s)
  | s, r :: rs =>
    let (i, s) := s.request te r
    let (is, s) := Tables.requests te s rs
    (i :: is, s)

/-- The tables of a new instrumenter.  For instrumentation/c-cpp.lisp:370-384. -/
def Tables.empty : Tables := ⟨[], [], []⟩

/-- Insertion into a list sorted by index.  For instrumentation/c-cpp.lisp:1065-1134. -/
def insertByIndex {α : Type} (index : α → Nat) (x : α) : List α → List α
  | [] => [x]
  | y :: ys => if index x ≤ index y then x :: y :: ys else y :: insertByIndex index x ys

/-- `sort` by index.  Simplification: one particular sorting; `hash-table-alist` gives
the entries in order of insertion.  For instrumentation/c-cpp.lisp:1065-1134. -/
def sortByIndex {α : Type} (index : α → Nat) : List α → List α
  | [] => []
  | x :: xs => insertByIndex index x (sortByIndex index xs)

/-- The table of names in the instrumented program (instrumentation/c-cpp.lisp:1086-1103). -/
def Tables.emitNames (s : Tables) : List Name := (sortByIndex (·.2) s.names).map (·.1)

/-- The table of types in the instrumented program (instrumentation/c-cpp.lisp:1088-1112):
descriptions sorted by the index of their key. -/
def Tables.emitTypes (te : TableTests) (s : Tables) : List TypeRow :=
  (sortByIndex (fun e : TypeKey × TypeRow => (s.types.get te.type e.1).getD 0) s.rows).map (·.2)

/-! Several instrumentation threads (instrumentation/c-cpp.lisp:562-574): the tables
are shared, and each access to them is atomic. -/

/-- Where a thread is in `get-name-index` (instrumentation/c-cpp.lisp:973-976). -/
inductive NamePc where
  | start
  /-- `gethash` found nothing -/
  | missed (n : Name)
  /-- the entries have been counted -/
  | counted (n : Name) (i : Nat)
  deriving DecidableEq, Repr

/-- A thread: the names it still asks for, and what it was told so far.  For instrumentation/c-cpp.lisp:942-1000. -/
structure NameThread where
  todo : List Name
  pc : NamePc
  told : List (Name × Nat)
  deriving DecidableEq, Repr

/-- One access of a thread to the shared table.  For instrumentation/c-cpp.lisp:942-1000. -/
def NameThread.step (same : Name → Name → Bool) (t : NameThread) (tab : HTable Name Nat) :
    NameThread × HTable Name Nat :=
  match t.pc with
  | .start => match t.todo with
    | [] => (t, tab)
    | n :: ns => match tab.get same n with
      | some i => (⟨ns, .start, t.told ++ [(n, i)]⟩, tab)
      | none => (⟨ns, .missed n, t.told⟩, tab)
  | .missed n => ({ t with pc := .counted n tab.length }, tab)
  | .counted n i => ({ t with pc := .start, told := t.told ++ [(n, i)] }, tab.put same n i)

/-- Threads run in the order given by a schedule.  For instrumentation/c-cpp.lisp:942-1000. -/
def runNameThreads (same : Name → Name → Bool) :
    List NameThread → HTable Name Nat → List Nat → List NameThread × HTable Name Nat
  | ts, tab, [] => (ts, tab)
  | ts, tab, i :: sched =>
    match ts[i]? with
    | none => runNameThreads same ts tab sched
    | some t =>
      let r := t.step same tab
      runNameThreads same (ts.set i r.1) r.2 sched

end TraceDB
