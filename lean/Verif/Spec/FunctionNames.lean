import Verif.Model.FunctionNames
import Verif.Spec.Statements
/-
Which statements get points in functions with names like keywords.
-/
namespace TraceDB

/-- Names that the parser gives to what it takes for functions by mistake. -/
def keywordNames : List (List U8) := ["struct", "enum", "class", "namespace"].map ascii

/-- A branch of a conditional or body of a loop without braces. -/
def isBareBranch (pk : AstKind) (i : Nat) (k : AstKind) : Bool :=
  k != .block &&
  match pk with
  | .ite _ => i == 1 || i == 2
  | .whileLoop _ => i == 1
  | .doLoop _ => i == 0
  | .forLoop _ _ _ => i == 3
  | _ => false

mutual
/-- The numbers of such ASTs in a tree whose root has number `num` and is child `i` of an AST of kind `pk`. -/
def Ast.bareBranches (pk : AstKind) (i num : Nat) : Ast → List Nat
  | .mk k _ _ _ cs => (if isBareBranch pk i k then [num] else []) ++ Ast.bareBranchesEach k 0 (num + 1) cs
/-- The same for the children from number `i` on. -/
def Ast.bareBranchesEach (pk : AstKind) (i num : Nat) : List Ast → List Nat
  | [] => []
  | c :: cs => c.bareBranches pk i num ++ Ast.bareBranchesEach pk (i + 1) (num + c.count) cs
end

/-- What gets points in a function with a name: in one with a name like a keyword only branches and bodies
without braces. -/
def pointsNamed (name : List U8) (filter : Nat → Bool) : Ast → Nat → Bool
  | .mk k _ _ _ cs, num => filter num && (!keywordNames.contains name || (Ast.bareBranchesEach k 0 0 cs).contains num)

end TraceDB
