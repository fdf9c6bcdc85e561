import Verif.Model.Uninstrument
import Verif.Spec.Statements
/-
Files before instrumentation.
-/
namespace TraceDB

mutual
/-- All blocks below have a text (their braces, at least). -/
def Ast.bracesShown : Ast → Bool
  | .mk k t _ _ cs => (k != .block || !t.isEmpty) && Ast.bracesShownEach cs
def Ast.bracesShownEach : List Ast → Bool
  | [] => true
  | c :: cs => c.bracesShown && Ast.bracesShownEach cs
end

/-- The flag with which programs that use threads are linked. -/
def linkFlag : List U8 := "-lpthread".toList.map fun c => BitVec.ofNat 8 c.toNat

/-- A file as the parser returns it. -/
structure CFile.Fresh (f : CFile) : Prop where
  plain : f.root.plain = true
  braces : f.root.bracesShown = true
  setup : f.setup = []

/-- Instrumenting and removing it `n` times. -/
def instrumentCycles (after : Bool) (ids : Nat → Nat) (filter : Nat → Bool) : Nat → CFile → CFile
  | 0, f => f
  | n + 1, f => instrumentCycles after ids filter n (f.instrument after ids filter).uninstrument

end TraceDB
