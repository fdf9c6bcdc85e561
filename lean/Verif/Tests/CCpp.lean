import Verif.Model.Uninstrument
import Verif.Model.TypeString
import Verif.Proofs.StatementEdits
import Verif.Props.Statements
/-
Tests of the instrumentation of C programs (test/c-cpp.lisp), run on the model.

These are tests of the model, not proofs of properties: what a test expects of the code is
computed with the model.  Programs of the tests are written down as ASTs by hand.
-/
namespace TraceDB.CCppTest

/-! The program test/etc/c-cpp/gcd/gcd.c, called with 4 and 8 -/

/-- A statement by its text. -/
def gcdAct (a : Nat) (text : String) : Ast := .mk (.simple a) (ascii text) [] [] []
/-- An AST with some text. -/
def gcdOf (k : AstKind) (cs : List Ast) : Ast := .mk k (ascii "...") [] [] cs

/-- The body of `main` of gcd.c. -/
def gcdBody : Ast :=
  gcdOf .block [gcdAct 0 "double a;", gcdAct 1 "double b;", gcdAct 2 "double c;", gcdAct 3 "double r1;",
    gcdAct 4 "double r2;", gcdAct 5 "a = atoi(argv[1]);", gcdAct 6 "b = atoi(argv[2]);",
    gcdOf (.ite 0) [stExpr, gcdOf .block [gcdAct 7 "printf(\"%g\\n\", b);"], gcdOf .block []],
    gcdOf .block [
      gcdOf (.whileLoop 1) [stExpr, gcdOf .block [
        gcdOf (.ite 2) [stExpr, gcdOf .block [gcdAct 8 "a = a - b;"], gcdOf .block [gcdAct 9 "b = b - a;"]]]],
      gcdAct 10 "printf(\"%g\\n\", a);"],
    gcdAct 11 "return 0;"]

/-- The body of `main` of gcd-wo-curlies.c. -/
def gcdWithoutCurlies : Ast :=
  gcdOf .block [gcdAct 0 "double a,b,c;", gcdAct 1 "double r1, r2;", gcdAct 5 "a = atoi(argv[1]);",
    gcdAct 6 "b = atoi(argv[2]);",
    gcdOf (.ite 0) [stExpr, gcdAct 7 "printf(\"%g\\n\", b);"],
    gcdOf (.whileLoop 1) [stExpr, gcdOf (.ite 2) [stExpr, gcdAct 8 "a = a - b;", gcdAct 9 "b = b - a;"]],
    gcdAct 10 "printf(\"%g\\n\", a);",
    gcdAct 11 "return 0;"]

/-- What the program does with its variables `a` and `b`, and what is printed. -/
def gcdWorld : ActWorld (Nat × Nat × List Nat) where
  act n s :=
    let (a, b, out) := s
    match n with
    | 5 => ((4, b, out), .normal)
    | 6 => ((a, 8, out), .normal)
    | 7 => ((a, b, out ++ [b]), .normal)
    | 8 => ((a - b, b, out), .normal)
    | 9 => ((a, b - a, out), .normal)
    | 10 => ((a, b, out ++ [a]), .normal)
    | 11 => (s, .ret)
    | _ => (s, .normal)
  cond n s :=
    let (a, b, _) := s
    (s, match n with
      | 0 => a == 0
      | 1 => b != 0
      | _ => a > b)
  value _ s := (s, 0)

/-- The steps of the instrumented program, and what it prints. -/
def gcdRun (filter : Nat → Bool) (x : Ast) : Option (List Step × List Nat) :=
  match (instrumentBody false id filter x).read with
  | none => none
  | some l =>
    let r := callBody (meanSeq (meanEach gcdWorld 99 l)) 9 none (0, 0, [])
    some (r.1, r.2.1.2.2)

/-- The ids of the points, in order. -/
def pointIds (l : List Step) : List Nat :=
  l.filterMap fun
    | .point e => some e.id
    | _ => none

/-- Numbers of the ASTs with a text. -/
def numbersOf (text : String) (x : Ast) : List Nat :=
  ((x.sites []).zipIdx.filter fun s => s.1.ast.text == ascii text).map (·.2)

/-- `instrumentation-insertion-test` (test/c-cpp.lisp:196-209): the trace has 15 points; and the
program prints 4. -/
example : (gcdRun (fun _ => true) gcdBody).map (fun r => ((pointIds r.1).length, r.2)) = some (15, [4]) := by
  rw [gcdRun, gcdBody, gcdOf, instrumentBody_edited]; decide +kernel

/-- `instrumentation-insertion-w-filter-test` (test/c-cpp.lisp:211-226): 1 point. -/
example : numbersOf "return 0;" gcdBody = [23] := by decide +kernel
example : (gcdRun (fun n => n == 23) gcdBody).map (fun r => ((pointIds r.1).length, r.2)) = some (1, [4]) := by
  rw [gcdRun, gcdBody, gcdOf, instrumentBody_edited]; decide +kernel

/-- `instrumentation-handles-missing-curlies-test` (test/c-cpp.lisp:243-262): the statement after
the call with the id of the `else` branch is that branch, and the trace is not empty. -/
example : numbersOf "b = b - a;" gcdWithoutCurlies = [12] := by decide +kernel
example : (gcdRun (fun _ => true) gcdWithoutCurlies).map (fun r =>
    (r.1.zip r.1.tail).filter (fun p => p.1 == .point ⟨12, false⟩)) = some [(.point ⟨12, false⟩, .did 9), (.point ⟨12, false⟩, .did 9)] := by
  rw [gcdRun, gcdWithoutCurlies, gcdOf, instrumentBody_edited]; decide +kernel
example : (gcdRun (fun _ => true) gcdWithoutCurlies).map (fun r => ((pointIds r.1).length, r.2)) =
    some (12, [4]) := by
  rw [gcdRun, gcdWithoutCurlies, gcdOf, instrumentBody_edited]; decide +kernel

/-- A file with the function `main`. -/
def gcdFile (body : Ast) : CFile := ⟨gcdOf .expr [gcdOf .expr [stExpr, body]], [], true, [], false⟩

/-- `instrumented-p-test` (test/c-cpp.lisp:191-194). -/
example : (gcdFile gcdBody).instrumentedP = false ∧
    ((gcdFile gcdBody).instrument false id fun _ => true).instrumentedP = true := ⟨rfl, rfl⟩

/-- `uninstrument-instrument-is-identity` (test/c-cpp.lisp:505-531). -/
example : (((gcdFile gcdBody).instrument false id fun _ => true).uninstrument).root = (gcdFile gcdBody).root := by
  simp only [CFile.uninstrument, CFile.instrument, CFile.addSetup, gcdFile]
  rw [gcdOf, instrumentBody_edited]
  rfl
example : (((gcdFile gcdWithoutCurlies).instrument false id fun _ => true).uninstrument).root =
    (gcdFile gcdWithoutCurlies).root := by
  simp only [CFile.uninstrument, CFile.instrument, CFile.addSetup, gcdFile]
  rw [gcdOf, instrumentBody_edited]
  rfl

/-! Type strings -/

/-- A type by its declarator, qualifiers or storage classes, and base type. -/
def testType (d : List Declarator) (ss : List (SpecKind × String)) : CType :=
  ⟨d, ss.map fun s => ⟨s.1, ascii s.2⟩⟩

/-- The types of the tests with their strings: `int a;`, `int *a;`, `int a[];` … -/
def testTypes : List (CType × String) :=
  [(testType [] [(.base, "int")], "int"),
   (testType [.pointer] [(.base, "int")], "*int"),
   (testType [.array none] [(.base, "int")], "[]int"),
   (testType [.array (some (ascii "5"))] [(.base, "int")], "[5]int"),
   (testType [.pointer, .array none] [(.base, "int")], "*[]int"),
   (testType [.pointer, .array (some (ascii "5"))] [(.base, "int")], "*[5]int"),
   (testType [] [(.qualifier, "const"), (.base, "int")], "const int"),
   (testType [] [(.qualifier, "volatile"), (.base, "int")], "volatile int"),
   (testType [.pointer] [(.qualifier, "restrict"), (.base, "int")], "*restrict int"),
   (testType [] [(.storage, "auto"), (.base, "int")], "auto int"),
   (testType [] [(.storage, "static"), (.base, "int")], "static int"),
   (testType [] [(.storage, "extern"), (.base, "int")], "extern int"),
   (testType [] [(.storage, "register"), (.base, "int")], "register int")]

/-- `type-trace-string-test` (test/c-cpp.lisp:665-709). -/
example : (testTypes.all fun t => typeTraceString t.1 == ascii t.2) = true := by decide +kernel

/-- `type-from-trace-string-test` (test/c-cpp.lisp:711-759). -/
example : (testTypes.all fun t => typeFromTraceString (ascii t.2) == t.1) = true := by decide +kernel

end TraceDB.CCppTest
