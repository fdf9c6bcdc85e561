import Verif.Model.Predicate
import Verif.Model.Archive
import Verif.Model.TypeString
/-
Printing of predicates (QueryObjects.hpp).
-/
namespace TraceDB

/-- The names of the operators (QueryObjects.hpp:169-213); none where the code asserts. -/
def operatorName : PKind → Option (List U8)
  | .varSize => some (ascii "v/size")
  | .varValue => some (ascii "v/value")
  | .varReference => some (ascii "reference")
  | .and => some (ascii "and")
  | .or => some (ascii "or")
  | .not => some (ascii "not")
  | .distinctVars => some (ascii "distinct")
  | .lessThan => some (ascii "<")
  | .greaterThan => some (ascii ">")
  | .equal => some (ascii "=")
  | .add => some (ascii "+")
  | .subtract => some (ascii "-")
  | .multiply => some (ascii "*")
  | .divide => some (ascii "/")
  | _ => none

/-- `os << int64_t`.  For cffi-interface/trace-db/QueryObjects.hpp:156-166. -/
def signedDecimal (n : Int) : List U8 :=
  match n with
  | .ofNat n => decimal n
  | .negSucc n => 45 :: decimal (n + 1)

/-- The text of predicates without children (QueryObjects.hpp:155-166).  How a double is
printed is a parameter. -/
def leafText (float : U64 → List U8) (k : PKind) (d : U64) : Option (List U8) :=
  match k with
  | .varReference => some ([60, 118] ++ decimal d.toNat ++ [62])
  | .signedValue => some (signedDecimal d.toInt)
  | .unsignedValue => some (decimal d.toNat)
  | .floatValue => some (float d)
  | _ => none

/-- The newline at the end (QueryObjects.hpp:226-227). -/
def endLine (indent : U32) : List U8 := if indent = 0 then [10] else []

mutual
/-- `writePredicate` (QueryObjects.hpp:141-230).  A failed `assert` ends the process. -/
def writePred (float : U64 → List U8) : Pred → U32 → Bool → Res (List U8)
  | .node k d cs, indent, doIndent =>
    if k = .null then .ok [] else
    let spaces := if doIndent && indent != 0 then List.replicate indent.toNat 32 else []
    match leafText float k d with
    | some t => .ok (spaces ++ t ++ endLine indent)
    | none =>
      match operatorName k with
      | none => .abort
      | some name => do
        let inner := indent + BitVec.ofNat 32 (name.length + 2)
        let body ← writeChildren float cs inner false
        pure (spaces ++ 40 :: name ++ 32 :: body ++ endLine inner)
/-- The loop over the children (QueryObjects.hpp:218-223); the flag says that it is not the
first.  Simplification: fewer than 2^32 children. -/
def writeChildren (float : U64 → List U8) : List Pred → U32 → Bool → Res (List U8)
  | [], _, _ => .ok []
  | c :: cs, indent, later => do
    let t ← writePred float c indent later
    let rest ← writeChildren float cs indent true
    pure (t ++ (if cs.isEmpty then 41 else 10) :: rest)
end

/-- `operator<<` (QueryObjects.hpp:232-236). -/
def printPred (float : U64 → List U8) (p : Pred) : Res (List U8) := writePred float p 0 false

end TraceDB
