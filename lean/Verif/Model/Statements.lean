import Verif.Model.TypeString
/-
Which statements are instrumented and where the calls are put
(instrumentation/c-cpp.lisp:344-361, 399-414, 434-512, 606-710), and what a C compiler makes of
the printed result.

One function body at a time.  `possibly-incomplete-ast-p` is in Model/Groups, here it is
false; functions misnamed by the parser are in Model/FunctionNames.  Not modelled: the
annotations of the added ASTs.
-/
namespace TraceDB

/-- Classes of ASTs as far as the code tells them apart.  Numbers name what the program
does there: an action, the evaluation of a condition or of a value.  For instrumentation/c-cpp.lisp:434-512, 606-710. -/
inductive AstKind where
  /-- no statement: expressions, declarators, labels -/
  | expr
  /-- a statement without statements inside -/
  | simple (a : Nat)
  /-- `compound-ast` -/
  | block
  /-- children: condition, consequence, maybe alternative -/
  | ite (c : Nat)
  /-- children: condition, body -/
  | whileLoop (c : Nat)
  /-- children: body, condition -/
  | doLoop (c : Nat)
  /-- children: initialisation, condition, step, body -/
  | forLoop (i c u : Nat)
  /-- children: value, body -/
  | switch (e : Nat)
  /-- `c/cpp-labeled-statement`; children: maybe the label, statement -/
  | label (l : Nat)
  /-- `c/cpp-case-statement`; children: maybe the value, statements -/
  | case (v : Option Nat)
  /-- `c/cpp-preproc-if` and `c/cpp-preproc-ifdef`; children: condition, statements, maybe
  the alternative -/
  | group (c : Nat)
  /-- `c/cpp-preproc-elif`; children as above -/
  | elifGroup (c : Nat)
  /-- `c/cpp-preproc-else`; children: statements -/
  | elseGroup
  /-- `c/cpp-preproc-def` and `c/cpp-preproc-include` -/
  | directive
  /-- one of `+error-ast-types+` (c-cpp.lisp:362-366) -/
  | fragment
  deriving DecidableEq, Repr

/-- The calls of one trace point for a statement: its id, and whether it is recorded
before or after the statement.  For instrumentation/c-cpp.lisp:434-512, 606-710. -/
structure PointEvent where
  id : Nat
  after : Bool
  deriving DecidableEq, Repr

/-- An AST with its source text, `before-asts` and `after-asts` and children.
For instrumentation/c-cpp.lisp:434-512, 606-710. -/
inductive Ast where
  | mk (kind : AstKind) (text : List U8) (before after : List PointEvent) (children : List Ast)

/-- Its class.  For instrumentation/c-cpp.lisp:434-512, 606-710. -/
def Ast.kind : Ast → AstKind
  | .mk k _ _ _ _ => k

/-- Its source text.  For instrumentation/c-cpp.lisp:434-512, 606-710. -/
def Ast.text : Ast → List U8
  | .mk _ t _ _ _ => t

/-- Its children.  For instrumentation/c-cpp.lisp:434-512, 606-710. -/
def Ast.children : Ast → List Ast
  | .mk _ _ _ _ cs => cs

/-- `+traceable-parent-types+` (c-cpp.lisp:352-360). -/
def AstKind.isTraceableParent : AstKind → Bool
  | .block | .label _ | .case _ | .group _ | .elifGroup _ | .elseGroup => true
  | _ => false

/-- `+traceable-stmt-types+` (c-cpp.lisp:344-350). -/
def AstKind.isStatement : AstKind → Bool
  | .expr | .elifGroup _ | .elseGroup | .fragment => false
  | _ => true

/-- `empty-statement-ast-p` (c-cpp.lisp:707-710): ";" -/
def Ast.isEmptyStatement (x : Ast) : Bool :=
  match x.kind with
  | .simple _ => trimSpaces x.text == [59]
  | _ => false

/-- `misidentified-if-clause-p` (c-cpp.lisp:667-669): the text starts with "else". -/
def Ast.startsWithElse (x : Ast) : Bool := x.text.take 4 == [101, 108, 115, 101]

/-- `traceable-stmt-p` (c-cpp.lisp:635-655), for a child of an AST of kind `pk`; below a
function body some parent is a compound statement. -/
def traceableStmt (pk : AstKind) (x : Ast) : Bool :=
  !x.kind.isTraceableParent && x.kind.isStatement && !x.isEmptyStatement && pk.isTraceableParent &&
  !x.startsWithElse

/-- The children that are bodies of loops or branches of conditionals
(c-cpp.lisp:626-632). -/
def isBranch (pk : AstKind) (i : Nat) : Bool :=
  match pk with
  | .ite _ => i == 1 || i == 2
  | .whileLoop _ => i == 1
  | .doLoop _ => i == 0
  | .forLoop _ _ _ => i == 3
  | _ => false

/-- `can-be-made-traceable-p` (c-cpp.lisp:622-633), for child number `i`. -/
def canBeTraced (pk : AstKind) (i : Nat) (x : Ast) : Bool :=
  traceableStmt pk x || (x.kind != .block && isBranch pk i)

/-- Where an AST is: the numbers of the children on the way from the root.  For instrumentation/c-cpp.lisp:434-512, 606-710. -/
abbrev AstPath := List Nat

/-- An AST of the software object with its place.  For instrumentation/c-cpp.lisp:434-512, 606-710. -/
structure AstSite where
  path : AstPath
  parent : AstKind
  index : Nat
  ast : Ast

mutual
/-- `asts`: all ASTs below an AST at a path, parents before children, in order of the
text (the AST library is not part of the repository).  For instrumentation/c-cpp.lisp:434-512, 606-710. -/
def Ast.sites (path : AstPath) : Ast → List AstSite
  | .mk k _ _ _ cs => sitesList path k 0 cs
/-- The children from number `i` on.  For instrumentation/c-cpp.lisp:434-512, 606-710. -/
def sitesList (path : AstPath) (pk : AstKind) (i : Nat) : List Ast → List AstSite
  | [] => []
  | c :: cs => ⟨path ++ [i], pk, i, c⟩ :: (c.sites (path ++ [i]) ++ sitesList path pk (i + 1) cs)
end

/-- `path-later-p` of the AST library: what comes later in the text, and children after
their parents.  For instrumentation/c-cpp.lisp:434-512, 606-710. -/
def pathLater : AstPath → AstPath → Bool
  | [], _ => false
  | _ :: _, [] => true
  | a :: p, b :: q => b < a || (a == b && pathLater p q)

/-- The change of the AST at a path (`with root path (f (lookup root path))`).
For instrumentation/c-cpp.lisp:434-512, 606-710. -/
def Ast.modifyAt (f : Ast → Ast) : AstPath → Ast → Ast
  | [], x => f x
  | i :: p, .mk k t b a cs => .mk k t b a (cs.modify i (Ast.modifyAt f p))

/-- The instrumentation of one AST (c-cpp.lisp:456-470, 485-502, 1215-1227): the calls before and
after it, in a compound statement of its own if needed. -/
def instrumentAst (functionsAfter : Bool) (id : Nat) (wrap : Bool) : Ast → Ast
  | .mk k t b a cs =>
    let x := Ast.mk k t (b ++ [⟨id, false⟩]) (a ++ if functionsAfter then [⟨id, true⟩] else []) cs
    if wrap then .mk .block [] [] [] [x] else x

/-- The ASTs to be instrumented with their numbers (c-cpp.lisp:399-414, 471-484): the
number is the position among all ASTs. -/
def tracedSites (filter : Nat → Bool) (root : Ast) : List (AstSite × Nat) :=
  ((root.sites []).zipIdx).filter fun s => canBeTraced s.1.parent s.1.index s.1.ast && filter s.2

/-- The order in which they are instrumented (c-cpp.lisp:453-455). -/
def sortedSites (sites : List (AstSite × Nat)) : List (AstSite × Nat) :=
  sites.mergeSort fun a b => !pathLater b.1.path a.1.path

/-- `instrument` (c-cpp.lisp:494-502) as far as it changes the body: all changes in turn.
`ids` gives the ids that are recorded for the numbers. -/
def instrumentBody (functionsAfter : Bool) (ids : Nat → Nat) (filter : Nat → Bool) (root : Ast) : Ast :=
  (sortedSites (tracedSites filter root)).foldl (fun r s =>
    r.modifyAt (instrumentAst functionsAfter (ids s.2) (!traceableStmt s.1.parent s.1.ast)) s.1.path) root

/-! The program text as a C compiler reads it -/

/-- Labels: named, and those of the cases.  For instrumentation/c-cpp.lisp:434-512, 606-710. -/
inductive CLabel where
  | named (l : Nat)
  | case (v : Nat)
  | default
  deriving DecidableEq, Repr

/-- Statements as read by the compiler; labels stand before what they belong to, and
bodies are a statement with its labels.  For instrumentation/c-cpp.lisp:434-512, 606-710. -/
inductive CStmt where
  | act (a : Nat)
  | point (e : PointEvent)
  | lab (l : CLabel)
  | block (ss : List CStmt)
  | ite (c : Nat) (a b : List CStmt)
  | whileLoop (c : Nat) (b : List CStmt)
  | doLoop (c : Nat) (b : List CStmt)
  | forLoop (i c u : Nat) (b : List CStmt)
  | switch (e : Nat) (b : List CStmt)

/-- Is it a label?  For instrumentation/c-cpp.lisp:434-512, 606-710. -/
def CStmt.isLab : CStmt → Bool
  | .lab _ => true
  | _ => false

/-- The first statement of a text with its labels, and what follows.  For instrumentation/c-cpp.lisp:434-512, 606-710. -/
def firstStmt : List CStmt → Option (List CStmt × List CStmt)
  | [] => none
  | s :: ss =>
    if s.isLab then (firstStmt ss).map fun r => (s :: r.1, r.2)
    else some ([s], ss)

/-- The text of an AST of a kind, given the texts of its children, as statements in a row:
only the first statement of a body belongs to it, what follows comes after the loop or
conditional.  `none` if the text does not parse.  Groups have to be resolved before.
For instrumentation/c-cpp.lisp:434-512, 606-710. -/
def stmtText (k : AstKind) (ls : List (List CStmt)) : Option (List CStmt) :=
  match k with
  | .expr => some []
  | .simple a => some [.act a]
  | .block => some [.block ls.flatten]
  | .label l => some (.lab (.named l) :: ls.flatten)
  | .case (some v) => some (.lab (.case v) :: ls.flatten)
  | .case none => some (.lab .default :: ls.flatten)
  | .ite c =>
    match ls with
    | [_, x] =>
      match firstStmt x with
      | some (h, rest) => some (.ite c h [] :: rest)
      | none => none
    | [_, x, y] =>
      match firstStmt x, firstStmt y with
      | some (h, []), some (h', rest) => some (.ite c h h' :: rest)
      | _, _ => none
    | _ => none
  | .whileLoop c =>
    match ls with
    | [_, x] =>
      match firstStmt x with
      | some (h, rest) => some (.whileLoop c h :: rest)
      | none => none
    | _ => none
  | .doLoop c =>
    match ls with
    | [x, _] =>
      match firstStmt x with
      | some (h, []) => some [.doLoop c h]
      | _ => none
    | _ => none
  | .forLoop i c u =>
    match ls with
    | [_, _, _, x] =>
      match firstStmt x with
      | some (h, rest) => some (.forLoop i c u h :: rest)
      | none => none
    | _ => none
  | .switch e =>
    match ls with
    | [_, x] =>
      match firstStmt x with
      | some (h, rest) => some (.switch e h :: rest)
      | none => none
    | _ => none
  | .directive => some []
  | .group _ | .elifGroup _ | .elseGroup | .fragment => none

mutual
/-- The text of an AST with what is before and after it.  For instrumentation/c-cpp.lisp:434-512, 606-710. -/
def Ast.read : Ast → Option (List CStmt)
  | .mk k _ b a cs =>
    match readEach cs with
    | none => none
    | some ls => (stmtText k ls).map fun core => b.map .point ++ core ++ a.map .point
/-- The texts of several ASTs.  For instrumentation/c-cpp.lisp:434-512, 606-710. -/
def readEach : List Ast → Option (List (List CStmt))
  | [] => some []
  | c :: cs =>
    match c.read, readEach cs with
    | some l, some ls => some (l :: ls)
    | _, _ => none
end

/-! Meaning of statements -/

/-- How a statement ends; `stop`: by a bound on the number of rounds of a loop.
For instrumentation/c-cpp.lisp:434-512, 606-710. -/
inductive Flow where
  | normal
  | brk
  | cont
  | ret
  | goto (l : Nat)
  | stop
  deriving DecidableEq, Repr

/-- What happens.  For instrumentation/c-cpp.lisp:434-512, 606-710. -/
inductive Step where
  | did (a : Nat)
  | asked (c : Nat)
  | point (e : PointEvent)
  deriving DecidableEq, Repr

/-- The actions, conditions and values of a program, arbitrary.  For instrumentation/c-cpp.lisp:434-512, 606-710. -/
structure ActWorld (σ : Type) where
  act : Nat → σ → σ × Flow
  cond : Nat → σ → σ × Bool
  value : Nat → σ → σ × Nat

/-- What a piece of program does: steps, state, end.  For instrumentation/c-cpp.lisp:434-512, 606-710. -/
abbrev Ran (σ : Type) := List Step × σ × Flow

/-- The meaning of a piece of program: the labels in it, and what it does when started
at the beginning (`none`) or at a label.  For instrumentation/c-cpp.lisp:434-512, 606-710. -/
structure Meaning (σ : Type) where
  labs : CLabel → Bool
  run : Option CLabel → σ → Ran σ

/-- Nothing.  For instrumentation/c-cpp.lisp:434-512, 606-710. -/
def Ran.nothing {σ : Type} (s : σ) : Ran σ := ([], s, .normal)

/-- One after the other.  For instrumentation/c-cpp.lisp:434-512, 606-710. -/
def Ran.andThen {σ : Type} (r : Ran σ) (k : σ → Ran σ) : Ran σ :=
  match r.2.2 with
  | .normal => (r.1 ++ (k r.2.1).1, (k r.2.1).2)
  | _ => r

/-- Nothing happens when started at a label that is somewhere else.  For instrumentation/c-cpp.lisp:434-512, 606-710. -/
def Meaning.guard {σ : Type} (labs : CLabel → Bool) (run : Option CLabel → σ → Ran σ) : Meaning σ :=
  ⟨labs, fun e s =>
    match e with
    | some l => if labs l then run (some l) s else Ran.nothing s
    | none => run none s⟩

/-- An action.  For instrumentation/c-cpp.lisp:434-512, 606-710. -/
def meanAct {σ : Type} (w : ActWorld σ) (a : Nat) : Meaning σ :=
  .guard (fun _ => false) fun _ s => ([.did a], w.act a s)

/-- A trace point.  For instrumentation/c-cpp.lisp:434-512, 606-710. -/
def meanPoint {σ : Type} (e : PointEvent) : Meaning σ :=
  .guard (fun _ => false) fun _ s => ([.point e], s, .normal)

/-- A label.  For instrumentation/c-cpp.lisp:434-512, 606-710. -/
def meanLab {σ : Type} (l : CLabel) : Meaning σ :=
  .guard (fun l' => l' == l) fun _ s => Ran.nothing s

/-- Statements in a row from the start or from a label.  For instrumentation/c-cpp.lisp:434-512, 606-710. -/
def runSeq {σ : Type} : List (Meaning σ) → Option CLabel → σ → Ran σ
  | [], _, s => Ran.nothing s
  | m :: ms, none, s => (m.run none s).andThen (runSeq ms none)
  | m :: ms, some l, s =>
    if m.labs l then (m.run (some l) s).andThen (runSeq ms none) else runSeq ms (some l) s

/-- Statements in a row.  For instrumentation/c-cpp.lisp:434-512, 606-710. -/
def meanSeq {σ : Type} (ms : List (Meaning σ)) : Meaning σ :=
  ⟨fun l => ms.any fun m => m.labs l, runSeq ms⟩

/-- `if`.  For instrumentation/c-cpp.lisp:434-512, 606-710. -/
def meanIte {σ : Type} (w : ActWorld σ) (c : Nat) (x y : Meaning σ) : Meaning σ :=
  .guard (fun l => x.labs l || y.labs l) fun e s =>
    match e with
    | none =>
      let r := w.cond c s
      Ran.andThen ([.asked c], r.1, .normal) (if r.2 then x.run none else y.run none)
    | some l => if x.labs l then x.run (some l) s else y.run (some l) s

/-- After a round of a loop: go on, or leave the loop.  For instrumentation/c-cpp.lisp:434-512, 606-710. -/
def afterRound {σ : Type} (r : Ran σ) (k : σ → Ran σ) : Ran σ :=
  match r.2.2 with
  | .normal | .cont => Ran.andThen (r.1, r.2.1, .normal) k
  | .brk => (r.1, r.2.1, .normal)
  | _ => r

/-- At most `n` more rounds: condition, body, `step`.  For instrumentation/c-cpp.lisp:434-512, 606-710. -/
def rounds {σ : Type} (w : ActWorld σ) (c : Nat) (x : Meaning σ) (step : σ → Ran σ) : Nat → σ → Ran σ
  | 0, s => ([], s, .stop)
  | n + 1, s =>
    let r := w.cond c s
    Ran.andThen ([.asked c], r.1, .normal) fun s =>
      if r.2 then afterRound (x.run none s) fun s => (step s).andThen (rounds w c x step n)
      else Ran.nothing s

/-- An evaluation that is no statement.  For instrumentation/c-cpp.lisp:434-512, 606-710. -/
def evalStep {σ : Type} (w : ActWorld σ) (c : Nat) (s : σ) : Ran σ := ([.asked c], (w.cond c s).1, .normal)

/-- `while`.  For instrumentation/c-cpp.lisp:434-512, 606-710. -/
def meanWhile {σ : Type} (w : ActWorld σ) (n c : Nat) (x : Meaning σ) : Meaning σ :=
  .guard x.labs fun e s =>
    match e with
    | none => rounds w c x Ran.nothing n s
    | some l => afterRound (x.run (some l) s) (rounds w c x Ran.nothing n)

/-- `do`.  For instrumentation/c-cpp.lisp:434-512, 606-710. -/
def meanDo {σ : Type} (w : ActWorld σ) (n c : Nat) (x : Meaning σ) : Meaning σ :=
  .guard x.labs fun e s => afterRound (x.run e s) (rounds w c x Ran.nothing n)

/-- `for`.  For instrumentation/c-cpp.lisp:434-512, 606-710. -/
def meanFor {σ : Type} (w : ActWorld σ) (n i c u : Nat) (x : Meaning σ) : Meaning σ :=
  .guard x.labs fun e s =>
    match e with
    | none => (evalStep w i s).andThen (rounds w c x (evalStep w u) n)
    | some l => afterRound (x.run (some l) s) fun s => (evalStep w u s).andThen (rounds w c x (evalStep w u) n)

/-- Leaving a `switch`.  For instrumentation/c-cpp.lisp:434-512, 606-710. -/
def afterSwitch {σ : Type} (r : Ran σ) : Ran σ :=
  match r.2.2 with
  | .brk => (r.1, r.2.1, .normal)
  | _ => r

/-- `switch`.  For instrumentation/c-cpp.lisp:434-512, 606-710. -/
def meanSwitch {σ : Type} (w : ActWorld σ) (e : Nat) (x : Meaning σ) : Meaning σ :=
  .guard (fun l => match l with | .named _ => x.labs l | _ => false) fun en s =>
    match en with
    | none =>
      let r := w.value e s
      Ran.andThen ([.asked e], r.1, .normal) fun s =>
        if x.labs (.case r.2) then afterSwitch (x.run (some (.case r.2)) s)
        else if x.labs .default then afterSwitch (x.run (some .default) s)
        else Ran.nothing s
    | some l => afterSwitch (x.run (some l) s)

mutual
/-- The meaning of a statement; `n` bounds the rounds of each loop.  For instrumentation/c-cpp.lisp:434-512, 606-710. -/
def CStmt.mean {σ : Type} (w : ActWorld σ) (n : Nat) : CStmt → Meaning σ
  | .act a => meanAct w a
  | .point e => meanPoint e
  | .lab l => meanLab l
  | .block ss => meanSeq (meanEach w n ss)
  | .ite c a b => meanIte w c (meanSeq (meanEach w n a)) (meanSeq (meanEach w n b))
  | .whileLoop c b => meanWhile w n c (meanSeq (meanEach w n b))
  | .doLoop c b => meanDo w n c (meanSeq (meanEach w n b))
  | .forLoop i c u b => meanFor w n i c u (meanSeq (meanEach w n b))
  | .switch e b => meanSwitch w e (meanSeq (meanEach w n b))
/-- The meanings of several statements.  For instrumentation/c-cpp.lisp:434-512, 606-710. -/
def meanEach {σ : Type} (w : ActWorld σ) (n : Nat) : List CStmt → List (Meaning σ)
  | [] => []
  | s :: ss => s.mean w n :: meanEach w n ss
end

/-- A function body: `goto` starts again at the label, at most `m` times.  For instrumentation/c-cpp.lisp:434-512, 606-710. -/
def callBody {σ : Type} (x : Meaning σ) : Nat → Option CLabel → σ → Ran σ
  | 0, _, s => ([], s, .stop)
  | m + 1, e, s =>
    match x.run e s with
    | (l, s, .goto g) => Ran.andThen (l, s, .normal) (callBody x m (some (.named g)))
    | r => r

end TraceDB
