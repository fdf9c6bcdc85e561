import Verif.Model.Statements
import Verif.Model.Instrument
/-
Programs of several functions: what they do, what they pass on the way, and the trace
points of all their functions (instrumentation/c-cpp.lisp:434-512).

Functions call each other anywhere in a statement, a condition or a value.  One file;
the program is sequential, leaves functions only by returning, and ends by returning from the
function it was started with or by `exit`.  Runs are cut off at bounds on the rounds of loops,
on jumps and on the depth of calls, and theorems are about all bounds.
-/
namespace TraceDB

/-- Evaluating an expression or statement without statements inside: it comes to an end,
ends the program, or calls a function and goes on with the state that leaves.  For instrumentation/c-cpp.lisp:434-512. -/
inductive Code (σ α : Type) where
  | done (s : σ) (x : α)
  | exit (s : σ)
  | call (f : Nat) (s : σ) (k : σ → Code σ α)

/-- The actions of a program and its conditions and values, of each function, arbitrary.
For instrumentation/c-cpp.lisp:434-512. -/
structure ProgWorld (σ : Type) where
  act : Nat → Nat → σ → Code σ Flow
  eval : Nat → Nat → σ → Code σ Nat

/-- The state of a program, and whether it has ended (or was cut off) there.  For instrumentation/c-cpp.lisp:434-512. -/
structure Life (σ : Type) where
  state : σ
  over : Bool
  deriving DecidableEq

/-- A trace point that a program passes: in which function, the point (its `id` is the number of the
statement in the function), and the state.  For instrumentation/c-cpp.lisp:434-512. -/
structure Passed (σ : Type) where
  fn : Nat
  point : PointEvent
  state : σ
  deriving DecidableEq

/-- What a call of a function does: the points passed, and the state it leaves.  For instrumentation/c-cpp.lisp:434-512. -/
abbrev FnMeaning (σ : Type) := Nat → Life σ → List (Passed σ) × Life σ

/-- Running code, given what calls do; without result if the program ends.  For instrumentation/c-cpp.lisp:434-512. -/
def Code.run {σ α : Type} (call : FnMeaning σ) : Code σ α → List (Passed σ) × Life σ × Option α
  | .done s x => ([], ⟨s, false⟩, some x)
  | .exit s => ([], ⟨s, true⟩, none)
  | .call f s k =>
    let r := call f ⟨s, false⟩
    if r.2.over then (r.1, r.2, none)
    else
      let r' := (k r.2.state).run call
      (r.1 ++ r'.1, r'.2)

/-- An action of function `f`; nothing happens any more when the program has ended.  For instrumentation/c-cpp.lisp:434-512. -/
def doAct {σ : Type} (call : FnMeaning σ) (pw : ProgWorld σ) (f a : Nat) (l : Life σ) :
    List (Passed σ) × Life σ × Flow :=
  if l.over then ([], l, .stop)
  else
    let r := (pw.act f a l.state).run call
    (r.1, r.2.1, r.2.2.getD .stop)

/-- The evaluation of a condition or value of function `f`.  For instrumentation/c-cpp.lisp:434-512. -/
def doEval {σ : Type} (call : FnMeaning σ) (pw : ProgWorld σ) (f c : Nat) (l : Life σ) :
    List (Passed σ) × Life σ × Nat :=
  if l.over then ([], l, 0)
  else
    let r := (pw.eval f c l.state).run call
    (r.1, r.2.1, r.2.2.getD 0)

/-- The actions, conditions and values of function `f`, given what calls do.  For instrumentation/c-cpp.lisp:434-512. -/
def fnWorld {σ : Type} (call : FnMeaning σ) (pw : ProgWorld σ) (f : Nat) : ActWorld (Life σ) where
  act a l := (doAct call pw f a l).2
  cond c l := ((doEval call pw f c l).2.1, (doEval call pw f c l).2.2 != 0)
  value c l := (doEval call pw f c l).2

/-- The points passed in the steps of function `f` from a state on: its own, and those in
the functions called.  For instrumentation/c-cpp.lisp:434-512. -/
def passedIn {σ : Type} (call : FnMeaning σ) (pw : ProgWorld σ) (f : Nat) : List Step → Life σ → List (Passed σ)
  | [], _ => []
  | .point e :: l, s => (if s.over then [] else [⟨f, e, s.state⟩]) ++ passedIn call pw f l s
  | .did a :: l, s => (doAct call pw f a s).1 ++ passedIn call pw f l (doAct call pw f a s).2.1
  | .asked c :: l, s => (doEval call pw f c s).1 ++ passedIn call pw f l (doEval call pw f c s).2.1

/-- What a call of a function does, with at most `k` calls inside each other and at most
`m` jumps in each.  `fns` are the meanings of the bodies.  For instrumentation/c-cpp.lisp:434-512. -/
def callFn {σ : Type} (fns : Nat → ActWorld (Life σ) → Meaning (Life σ)) (pw : ProgWorld σ) (m : Nat) :
    Nat → FnMeaning σ
  | 0, _, l => ([], ⟨l.state, true⟩)
  | k + 1, f, l =>
    let call := callFn fns pw m k
    let r := callBody (fns f (fnWorld call pw f)) m none l
    (passedIn call pw f r.1 l, ⟨r.2.1.state, r.2.1.over || r.2.2 == .stop⟩)

/-- The meanings of function bodies as read by the compiler.  For instrumentation/c-cpp.lisp:434-512. -/
def textMeans {σ : Type} (n : Nat) (texts : List (List CStmt)) (f : Nat) (w : ActWorld (Life σ)) :
    Meaning (Life σ) :=
  meanSeq (meanEach w n (texts.getD f []))

/-- All functions of a file instrumented (c-cpp.lisp:434-512).  `filter` is by function
and number of the statement. -/
def instrumentFunctions (after : Bool) (filter : Nat → Nat → Bool) (funs : List Ast) : List Ast :=
  funs.zipIdx.map fun x => instrumentBody after id (filter x.2) x.1

/-- The trace points in the order in which their code is generated (c-cpp.lisp:453-470,
485-493): later functions first, in them as in `sortedSites`; `functions` before
`functions-after`. -/
def programPoints (after : Bool) (filter : Nat → Nat → Bool) (funs : List Ast) : List (Nat × PointEvent) :=
  funs.zipIdx.reverse.flatMap fun x =>
    (sortedSites (tracedSites (filter x.2) x.1)).flatMap fun s =>
      (x.2, ⟨s.2, false⟩) :: if after then [(x.2, ⟨s.2, true⟩)] else []

/-- The places with what is to be recorded at them: `pos` is the position among the ASTs
of the file, `parts` what each instrumentation function is given.  For instrumentation/c-cpp.lisp:434-512. -/
def programSites (file : Option Nat) (pos : Nat → Nat → Nat) (parts : Nat → PointEvent → List (Bool × List ScopeVar))
    (pts : List (Nat × PointEvent)) : List Site :=
  pts.map fun p => ⟨file, pos p.1 p.2.id, parts p.1 p.2⟩

end TraceDB
