import Verif.Model.Groups
import Verif.Spec.Statements
/-
Function bodies with conditional compilation: groups in rows of statements, and text that
belongs to the statement after it.
-/
namespace TraceDB

/-- A statement without statements inside. -/
def AstKind.isSimple : AstKind → Bool
  | .simple _ => true
  | _ => false

/-- A group or a part of one. -/
def AstKind.isGroupPart : AstKind → Bool
  | .group _ | .elifGroup _ | .elseGroup => true
  | _ => false

/-- The next one is a plain statement. -/
def nextSimple (r : List Ast) : Bool := r.head?.any fun y => y.kind.isSimple

/-- The part of a group ends here. -/
def partEnds (r : List Ast) : Bool := r.head?.all fun y => y.kind.isAlternative

mutual
/-- It may end with text for the next statement. -/
def Ast.opens : Ast → Bool
  | .mk k _ _ _ cs =>
    match k with
    | .fragment => true
    | .group _ | .elifGroup _ => Ast.opensEnd true cs
    | .elseGroup => Ast.opensEnd false cs
    | _ => false
/-- A part of a group does, or one of the next parts. -/
def Ast.opensEnd (condition : Bool) : List Ast → Bool
  | [] => false
  | x :: r => (!condition && (x.kind == .expr || x.opens) && partEnds r) || Ast.opensEnd false r
end

/-- In a row of statements all text that is for the next statement is followed by a plain
one. -/
def placedRow : List Ast → Bool
  | [] => true
  | x :: r => !x.kind.isAlternative && (!x.opens || nextSimple r) && placedRow r

/-- In a part of a group, too, if the text is not at its end; the next part comes last.  What
is no statement is at the end of the part. -/
def placedPart (condition : Bool) : List Ast → Bool
  | [] => true
  | x :: r =>
    (if condition then !x.kind.isAlternative
     else if x.kind.isAlternative then r.isEmpty
     else if x.kind == .expr then partEnds r
     else !x.opens || partEnds r || nextSimple r) && placedPart false r

/-- Where groups and unparsed text may be among the children of an AST of a kind. -/
def placedIn (k : AstKind) (cs : List Ast) : Bool :=
  match k with
  | .block | .label _ | .case _ => placedRow cs
  | .group _ | .elifGroup _ => placedPart true cs
  | .elseGroup => placedPart false cs
  | _ => cs.all fun c => !c.kind.isGroupPart && !c.kind.isFragment

mutual
/-- Groups are in rows of statements, and so is unparsed text. -/
def Ast.placed : Ast → Bool
  | .mk k _ _ _ cs => placedIn k cs && Ast.placedEach cs
/-- All of these are so. -/
def Ast.placedEach : List Ast → Bool
  | [] => true
  | c :: cs => c.placed && Ast.placedEach cs
end

/-- A statement in the sense of the C language. -/
def AstKind.isCStatement : AstKind → Bool
  | .simple _ | .block | .ite _ | .whileLoop _ | .doLoop _ | .forLoop _ _ _ | .switch _ | .label _ | .case _ => true
  | _ => false

/-- All text was parsed, and a group ends with a statement (so it has no `#else`). -/
def finishedHere (k : AstKind) (cs : List Ast) : Bool :=
  match k with
  | .fragment => false
  | .group _ => cs.getLast?.any fun x => x.kind.isCStatement
  | _ => true

mutual
/-- It is so everywhere. -/
def Ast.finished : Ast → Bool
  | .mk k _ _ _ cs => finishedHere k cs && Ast.finishedEach cs
/-- All of these are so. -/
def Ast.finishedEach : List Ast → Bool
  | [] => true
  | c :: cs => c.finished && Ast.finishedEach cs
end

/-- Nothing was put next to an AST, and it was not put into a block. -/
def Ast.untouched : Ast → Bool
  | .mk _ _ b a cs =>
    b.isEmpty && a.isEmpty &&
    match cs with
    | [.mk _ _ b' a' _] => b'.isEmpty && a'.isEmpty
    | _ => true

/-- Unparsed text, or a group that may end with a piece of a statement. -/
def Ast.mayBePiece : Ast → Bool
  | .mk k _ _ _ cs => !finishedHere k cs

/-- Nothing was put next to the neighbours of unparsed text, or to what follows a group that may
end with a piece of a statement. -/
def keptRow : List Ast → Bool
  | [] => true
  | x :: r =>
    (match r.head? with
     | none => true
     | some y => (y.kind != .fragment || x.untouched) && (!x.mayBePiece || y.untouched)) && keptRow r

mutual
/-- It is so everywhere. -/
def Ast.kept : Ast → Bool
  | .mk _ _ _ _ cs => keptRow cs && Ast.keptEach cs
/-- All of these are so. -/
def Ast.keptEach : List Ast → Bool
  | [] => true
  | c :: cs => c.kept && Ast.keptEach cs
end

end TraceDB
