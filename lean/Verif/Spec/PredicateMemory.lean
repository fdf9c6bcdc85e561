import Verif.Model.PredicateMemory
import Verif.Spec.Query
/-
What the C structures of a predicate are (which tree they hold and which blocks belong
to them), and what s-expressions mean.
-/
namespace TraceDB

mutual
/-- `c` is the root of a structure in memory that holds the tree `p`; `bs` are the
blocks that belong to it. -/
inductive Shape (h : PHeap) : CPred → Pred → List Nat → Prop
  | leaf {c : CPred} : c.kind ∈ [.varReference, .signedValue, .unsignedValue, .floatValue] → c.children = none →
      Shape h c (.node c.kind
        (if c.kind = .varReference then c.varIndex else if c.kind = .signedValue then c.signedValue
          else if c.kind = .unsignedValue then c.unsignedValue else c.floatValue) []) []
  | node {c : CPred} {b : Nat} {cells : List CPred} {ps : List Pred} {bs : List Nat} :
      c.kind ∉ [.null, .varReference, .signedValue, .unsignedValue, .floatValue] →
      c.children = some b → h[b]? = some ⟨true, cells⟩ → cells.length < 2 ^ 32 → c.nChildren.toNat = cells.length →
      ShapeAll h cells ps bs → Shape h c (.node c.kind c.nChildren ps) (b :: bs)
/-- The same for an array of roots. -/
inductive ShapeAll (h : PHeap) : List CPred → List Pred → List Nat → Prop
  | nil : ShapeAll h [] [] []
  | cons {c : CPred} {cs : List CPred} {p : Pred} {ps : List Pred} {bs bs' : List Nat} :
      Shape h c p bs → ShapeAll h cs ps bs' → ShapeAll h (c :: cs) (p :: ps) (bs ++ bs')
end

/-- `p` points to a predicate that holds the tree and owns the blocks `bs`, each of
which belongs to one place of the tree only. -/
def PredAt (h : PHeap) (ptr : Option Nat) (p : Pred) (bs : List Nat) : Prop :=
  match ptr with
  | none => p = .nullPred ∧ bs = []
  | some b => ∃ c bs', h[b]? = some ⟨true, [c]⟩ ∧ bs = b :: bs' ∧ bs.Nodup ∧ Shape h c p bs'

/-- The variable `x` is the one with number `i`: its first occurrence in the list. -/
def IsVar (names : List Nat) (x i : Nat) : Prop :=
  names[i]? = some x ∧ ∀ j, j < i → names[j]? ≠ some x

/-- Arithmetic expressions of the documented grammar. -/
inductive SexpTerm (names : List Nat) : SExp → Term → Prop
  | size {x i : Nat} : IsVar names x i → SexpTerm names (.call .vSize [.sym x]) (.size i)
  | value {x i : Nat} : IsVar names x i → SexpTerm names (.call .vValue [.sym x]) (.value i)
  | nat {n : U64} : SexpTerm names (.int n.toNat) (.nat n)
  | negative {n : U64} : n.toInt < 0 → SexpTerm names (.int n.toInt) (.integer n)
  | float {bits : U64} : SexpTerm names (.float bits) (.float bits)
  | add {s t : SExp} {a b : Term} : SexpTerm names s a → SexpTerm names t b →
      SexpTerm names (.call .plus [s, t]) (.add a b)
  | sub {s t : SExp} {a b : Term} : SexpTerm names s a → SexpTerm names t b →
      SexpTerm names (.call .minus [s, t]) (.sub a b)
  | mul {s t : SExp} {a b : Term} : SexpTerm names s a → SexpTerm names t b →
      SexpTerm names (.call .times [s, t]) (.mul a b)
  | div {s t : SExp} {a b : Term} : SexpTerm names s a → SexpTerm names t b →
      SexpTerm names (.call .slash [s, t]) (.div a b)

/-- The symbols for a comparison. -/
inductive CmpSymbol : LispOp → Cmp → Prop
  | gt : CmpSymbol .gt .gt
  | ge : CmpSymbol .ge .ge
  | lt : CmpSymbol .lt .lt
  | le : CmpSymbol .le .le
  | equal : CmpSymbol .equal .eq
  | eqSign : CmpSymbol .eqSign .eq

mutual
/-- Predicates of the documented grammar below the root. -/
inductive SexpForm (names : List Nat) : SExp → Form → Prop
  | and {args : List SExp} {f : Form} : args.length < 2 ^ 32 → SexpConj names args f →
      SexpForm names (.call .and args) f
  | or {args : List SExp} {f : Form} : args.length < 2 ^ 32 → SexpDisj names args f →
      SexpForm names (.call .or args) f
  | not {s : SExp} {f : Form} : SexpForm names s f → SexpForm names (.call .not [s]) (.neg f)
  | distinct {x y i j : Nat} : IsVar names x i → IsVar names y j →
      SexpForm names (.call .distinctVars [.sym x, .sym y]) (.distinct i j)
  | cmp {op : LispOp} {c : Cmp} {s t : SExp} {a b : Term} : CmpSymbol op c → SexpTerm names s a →
      SexpTerm names t b → SexpForm names (.call op [s, t]) (.cmp c a b)
/-- Arguments of `and`. -/
inductive SexpConj (names : List Nat) : List SExp → Form → Prop
  | nil : SexpConj names [] .tt
  | cons {s : SExp} {ss : List SExp} {f g : Form} : SexpForm names s f → SexpConj names ss g →
      SexpConj names (s :: ss) (.conj f g)
/-- Arguments of `or`. -/
inductive SexpDisj (names : List Nat) : List SExp → Form → Prop
  | nil : SexpDisj names [] .ff
  | cons {s : SExp} {ss : List SExp} {f g : Form} : SexpForm names s f → SexpDisj names ss g →
      SexpDisj names (s :: ss) (.disj f g)
end

/-- Predicates: `nil` is always true. -/
inductive SexpPredicate (names : List Nat) : SExp → Form → Prop
  | nil : SexpPredicate names .nil .tt
  | form {s : SExp} {f : Form} : SexpForm names s f → SexpPredicate names s f

mutual
/-- No argument list is as long as 2^32. -/
def SExp.Small : SExp → Prop
  | .call _ args => args.length < 2 ^ 32 ∧ SExp.SmallAll args
  | _ => True
/-- The same for a list of expressions. -/
def SExp.SmallAll : List SExp → Prop
  | [] => True
  | s :: ss => s.Small ∧ SExp.SmallAll ss
end

mutual
/-- The expression is accepted: known operators and variables, numbers in range, no
empty list inside. -/
def SExp.Wf (names : List Nat) : SExp → Prop
  | .int i => -2 ^ 63 ≤ i ∧ i < 2 ^ 64
  | .float _ => True
  | .sym x => x ∈ names
  | .nil => False
  | .call op args => (∀ n, op ≠ .other n) ∧ SExp.WfAll names args
/-- The same for a list of expressions. -/
def SExp.WfAll (names : List Nat) : List SExp → Prop
  | [] => True
  | s :: ss => s.Wf names ∧ SExp.WfAll names ss
end

end TraceDB
