import Verif.Model.Statements
/-
What an instrumented function is to do: every statement in its own place, with a point
before each full statement (and one after it).
-/
namespace TraceDB

/-- The meaning of an AST of a kind, given those of its children. -/
def astMeans {σ : Type} (w : ActWorld σ) (n : Nat) (k : AstKind) (ms : List (Meaning σ)) : List (Meaning σ) :=
  match k, ms with
  | .expr, _ => []
  | .simple a, _ => [meanAct w a]
  | .block, ms => [meanSeq ms]
  | .label l, ms => meanLab (.named l) :: ms
  | .case (some v), ms => meanLab (.case v) :: ms
  | .case none, ms => meanLab .default :: ms
  | .ite c, [_, x] => [meanIte w c x (meanSeq [])]
  | .ite c, [_, x, y] => [meanIte w c x y]
  | .whileLoop c, [_, x] => [meanWhile w n c x]
  | .doLoop c, [x, _] => [meanDo w n c x]
  | .forLoop i c u, [_, _, _, x] => [meanFor w n i c u x]
  | .switch e, [_, x] => [meanSwitch w e x]
  | _, _ => []

mutual
/-- What an AST does as the tree has it: the points before it, itself, those after it. -/
def Ast.mean {σ : Type} (w : ActWorld σ) (n : Nat) : Ast → Meaning σ
  | .mk k _ b a cs =>
    meanSeq (b.map meanPoint ++ astMeans w n k (Ast.meanEach w n cs) ++ a.map meanPoint)
/-- Several ASTs. -/
def Ast.meanEach {σ : Type} (w : ActWorld σ) (n : Nat) : List Ast → List (Meaning σ)
  | [] => []
  | c :: cs => c.mean w n :: Ast.meanEach w n cs
end

mutual
/-- The number of ASTs of a tree. -/
def Ast.count : Ast → Nat
  | .mk _ _ _ _ cs => Ast.countEach cs + 1
/-- The number of ASTs of several trees. -/
def Ast.countEach : List Ast → Nat
  | [] => 0
  | c :: cs => c.count + Ast.countEach cs
end

/-- A full statement: a statement or a `#define` or `#include` in a row of statements, other
than a block, a labelled or an empty one (or one with a text like "else"); or the branch of a conditional or the
body of a loop that is no block. -/
def isFullStatement (pk : AstKind) (i : Nat) (x : Ast) : Bool :=
  match pk with
  | .block | .label _ | .case _ | .group _ | .elifGroup _ | .elseGroup =>
    (match x.kind with
     | .expr | .block | .label _ | .case _ | .group _ | .elifGroup _ | .elseGroup | .fragment => false
     | .simple _ => trimSpaces x.text != [59]
     | _ => true) && x.text.take 4 != [101, 108, 115, 101]
  | .ite _ => (i == 1 || i == 2) && x.kind != .block
  | .whileLoop _ => i == 1 && x.kind != .block
  | .doLoop _ => i == 0 && x.kind != .block
  | .forLoop _ _ _ => i == 3 && x.kind != .block
  | _ => false

mutual
/-- The tree with points at the full statements that the filter accepts; `num` is the
number of the AST in the order of the text, child `i` of an AST of kind `pk`. -/
def Ast.withPoints (after : Bool) (ids : Nat → Nat) (filter : Nat → Bool) (pk : AstKind) (i num : Nat) :
    Ast → Ast
  | .mk k t b a cs =>
    let cs' := Ast.withPointsEach after ids filter k 0 (num + 1) cs
    if isFullStatement pk i (.mk k t b a cs) && filter num then
      .mk k t (b ++ [⟨ids num, false⟩]) (a ++ if after then [⟨ids num, true⟩] else []) cs'
    else .mk k t b a cs'
/-- The same for the children from number `i` on. -/
def Ast.withPointsEach (after : Bool) (ids : Nat → Nat) (filter : Nat → Bool) (pk : AstKind) (i num : Nat) :
    List Ast → List Ast
  | [] => []
  | c :: cs =>
    c.withPoints after ids filter pk i num ::
      Ast.withPointsEach after ids filter pk (i + 1) (num + c.count) cs
end

/-- The body of a function with its points. -/
def Ast.bodyWithPoints (after : Bool) (ids : Nat → Nat) (filter : Nat → Bool) : Ast → Ast
  | .mk k t b a cs => .mk k t b a (Ast.withPointsEach after ids filter k 0 0 cs)

mutual
/-- One statement, maybe with labels. -/
def Ast.single : Ast → Bool
  | .mk k _ b a cs =>
    b.isEmpty && a.isEmpty &&
    match k with
    | .expr | .group _ | .elifGroup _ | .elseGroup | .directive | .fragment => false
    | .label _ | .case _ => Ast.singleEach cs
    | _ => true
/-- Children of a label: one statement in the end. -/
def Ast.singleEach : List Ast → Bool
  | [] => false
  | [c] => c.single
  | .mk k _ b a _ :: cs => b.isEmpty && a.isEmpty && k == .expr && Ast.singleEach cs
end

/-- Branches and bodies are there and are one statement each, and nothing was left to the
preprocessor. -/
def branchesSingle (k : AstKind) (cs : List Ast) : Bool :=
  match k, cs with
  | .ite _, [_, x] => x.single
  | .ite _, [_, x, y] => x.single && y.single
  | .whileLoop _, [_, x] => x.single
  | .doLoop _, [x, _] => x.single
  | .forLoop _ _ _, [_, _, _, x] => x.single
  | .switch _, [_, x] => x.single
  | .ite _, _ | .whileLoop _, _ | .doLoop _, _ | .forLoop _ _ _, _ | .switch _, _ => false
  | .group _, _ | .elifGroup _, _ | .elseGroup, _ | .fragment, _ => false
  | _, _ => true

mutual
/-- The tree is the tree of its text. -/
def Ast.shaped : Ast → Bool
  | .mk k _ _ _ cs => branchesSingle k cs && Ast.shapedEach cs
/-- All of these are. -/
def Ast.shapedEach : List Ast → Bool
  | [] => true
  | c :: cs => c.shaped && Ast.shapedEach cs
end

mutual
/-- Nothing before or after any AST: a tree fresh from the parser. -/
def Ast.plain : Ast → Bool
  | .mk _ _ b a cs => b.isEmpty && a.isEmpty && Ast.plainEach cs
/-- All of these are. -/
def Ast.plainEach : List Ast → Bool
  | [] => true
  | c :: cs => c.plain && Ast.plainEach cs
end

/-- A labelled statement. -/
def AstKind.isLabelled : AstKind → Bool
  | .label _ | .case _ => true
  | _ => false

mutual
/-- A labelled statement that is a branch or body gets a point of its own, or nothing
inside it gets one; one that is the body of a `switch` has no points inside. -/
def Ast.labelsSafe (filter : Nat → Bool) (pk : AstKind) (i num : Nat) : Ast → Prop
  | .mk k _ _ _ cs =>
    (k.isLabelled = true → (isBranch pk i = true ∨ ∃ e, pk = .switch e) →
      (isBranch pk i = true ∧ filter num = true) ∨
      ∀ m, num ≤ m → m ≤ num + Ast.countEach cs → filter m = false) ∧
    Ast.labelsSafeEach filter k 0 (num + 1) cs
/-- The same for the children from number `i` on. -/
def Ast.labelsSafeEach (filter : Nat → Bool) (pk : AstKind) (i num : Nat) : List Ast → Prop
  | [] => True
  | c :: cs => c.labelsSafe filter pk i num ∧ Ast.labelsSafeEach filter pk (i + 1) (num + c.count) cs
end

/-- The body of a function is so. -/
def Ast.bodyLabelsSafe (filter : Nat → Bool) : Ast → Prop
  | .mk k _ _ _ cs => Ast.labelsSafeEach filter k 0 0 cs

/-- What the program itself does: all steps but the points. -/
def ownSteps (l : List Step) : List Step :=
  l.filter fun s => match s with | .point _ => false | _ => true

mutual
/-- Each statement without statements inside is a full one that the filter accepts, and
the number of its action is its id. -/
def Ast.actionsTraced (ids : Nat → Nat) (filter : Nat → Bool) (pk : AstKind) (i num : Nat) : Ast → Bool
  | .mk k t b a cs =>
    (match k with
     | .simple x => isFullStatement pk i (.mk k t b a cs) && filter num && ids num == x
     | _ => true) && Ast.actionsTracedEach ids filter k 0 (num + 1) cs
/-- The same for the children from number `i` on. -/
def Ast.actionsTracedEach (ids : Nat → Nat) (filter : Nat → Bool) (pk : AstKind) (i num : Nat) :
    List Ast → Bool
  | [] => true
  | c :: cs =>
    c.actionsTraced ids filter pk i num && Ast.actionsTracedEach ids filter pk (i + 1) (num + c.count) cs
end

mutual
/-- No `switch` has a labelled statement for a body. -/
def Ast.switchesBraced : Ast → Bool
  | .mk k _ _ _ cs =>
    (match k, cs with
     | .switch _, cs => cs.all fun c => !c.kind.isLabelled
     | _, _ => true) && Ast.switchesBracedEach cs
/-- All of these are so. -/
def Ast.switchesBracedEach : List Ast → Bool
  | [] => true
  | c :: cs => c.switchesBraced && Ast.switchesBracedEach cs
end

/-- What a run shows besides the points. -/
def ownRan {σ : Type} (r : Ran σ) : Ran σ := (ownSteps r.1, r.2)

/-- Directly before each action its point. -/
def Announced (l : List Step) : Prop :=
  ∀ (pre : List Step) (a : Nat) (post : List Step), l = pre ++ .did a :: post →
    ∃ pre', pre = pre' ++ [.point ⟨a, false⟩]

end TraceDB
