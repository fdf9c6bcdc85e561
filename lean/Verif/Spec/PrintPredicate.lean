import Verif.Model.PrintPredicate
/-
What printed predicates mean: a reader of nested lists, and when two predicates are alike.
-/
namespace TraceDB

/-- Nested lists of words. -/
inductive Sx where
  | word (t : List U8)
  | list (l : List Sx)

/-- Tokens. -/
inductive SxTok where
  | lpar
  | rpar
  | word (t : List U8)
  deriving DecidableEq, Repr

/-- Blanks and newlines. -/
def sxBlank (b : U8) : Bool := b == 32 || b == 10

/-- The end of a word. -/
def endWord : List U8 → List SxTok
  | [] => []
  | w => [.word w]

/-- The tokens of a text, with what has been read of a word. -/
def sxTokens : List U8 → List U8 → List SxTok
  | w, [] => endWord w
  | w, b :: bs =>
    if sxBlank b then endWord w ++ sxTokens [] bs
    else if b = 40 then endWord w ++ .lpar :: sxTokens [] bs
    else if b = 41 then endWord w ++ .rpar :: sxTokens [] bs
    else sxTokens (w ++ [b]) bs

/-- The lists in a sequence of tokens; the stack holds the open lists, reversed. -/
def sxParse : List (List Sx) → List SxTok → Option (List Sx)
  | [top], [] => some top.reverse
  | _, [] => none
  | st, .lpar :: ts => sxParse ([] :: st) ts
  | top :: next :: st, .rpar :: ts => sxParse ((.list top.reverse :: next) :: st) ts
  | _, .rpar :: _ => none
  | top :: st, .word w :: ts => sxParse ((.word w :: top) :: st) ts
  | [], .word _ :: _ => none

/-- Reading a text. -/
def readSx (text : List U8) : Option (List Sx) := sxParse [[]] (sxTokens [] text)

/-- A word: not empty, no blanks and no parentheses. -/
def SxWord (w : List U8) : Prop := w ≠ [] ∧ ∀ b ∈ w, sxBlank b = false ∧ b ≠ 40 ∧ b ≠ 41

/-- Leaves of predicates. -/
def PKind.leaf : PKind → Bool
  | .varReference | .signedValue | .unsignedValue | .floatValue => true
  | _ => false

mutual
/-- The list a predicate stands for. -/
def Pred.sx (float : U64 → List U8) : Pred → Sx
  | .node k d cs =>
    match k with
    | .varReference => .word (ascii "<v" ++ decimal d.toNat ++ ascii ">")
    | .signedValue => .word (if d.toInt < 0 then ascii "-" ++ decimal d.toInt.natAbs else decimal d.toInt.natAbs)
    | .unsignedValue => .word (decimal d.toNat)
    | .floatValue => .word (float d)
    | .varSize => .list (.word (ascii "v/size") :: Pred.sxs float cs)
    | .varValue => .list (.word (ascii "v/value") :: Pred.sxs float cs)
    | .distinctVars => .list (.word (ascii "distinct") :: Pred.sxs float cs)
    | .and => .list (.word (ascii "and") :: Pred.sxs float cs)
    | .or => .list (.word (ascii "or") :: Pred.sxs float cs)
    | .not => .list (.word (ascii "not") :: Pred.sxs float cs)
    | .greaterThan => .list (.word (ascii ">") :: Pred.sxs float cs)
    | .lessThan => .list (.word (ascii "<") :: Pred.sxs float cs)
    | .equal => .list (.word (ascii "=") :: Pred.sxs float cs)
    | .add => .list (.word (ascii "+") :: Pred.sxs float cs)
    | .subtract => .list (.word (ascii "-") :: Pred.sxs float cs)
    | .multiply => .list (.word (ascii "*") :: Pred.sxs float cs)
    | .divide => .list (.word (ascii "/") :: Pred.sxs float cs)
    | .greaterThanOrEqual | .lessThanOrEqual | .null => .list []
def Pred.sxs (float : U64 → List U8) : List Pred → List Sx
  | [] => []
  | p :: ps => Pred.sx float p :: Pred.sxs float ps
end

mutual
/-- `>=` or `<=` occurs where it is printed. -/
def Pred.unprintable : Pred → Bool
  | .node k _ cs =>
    if k.leaf || k == .null then false
    else k == .greaterThanOrEqual || k == .lessThanOrEqual || Pred.unprintables cs
def Pred.unprintables : List Pred → Bool
  | [] => false
  | p :: ps => Pred.unprintable p || Pred.unprintables ps
end

mutual
/-- The number of operators without operands. -/
def Pred.bare : Pred → Nat
  | .node k _ cs => if k.leaf || k == .null then 0 else (if cs.isEmpty then 1 else 0) + Pred.bares cs
def Pred.bares : List Pred → Nat
  | [] => 0
  | p :: ps => Pred.bare p + Pred.bares ps
end

mutual
/-- Neither the null predicate nor an operator without operands occurs. -/
def Pred.full : Pred → Bool
  | .node k _ cs => k.leaf || (k != .null && !cs.isEmpty && Pred.fulls cs)
def Pred.fulls : List Pred → Bool
  | [] => true
  | p :: ps => Pred.full p && Pred.fulls ps
end

mutual
/-- No floating point numbers. -/
def Pred.exact : Pred → Bool
  | .node k _ cs => k != .floatValue && (k.leaf || Pred.exacts cs)
def Pred.exacts : List Pred → Bool
  | [] => true
  | p :: ps => Pred.exact p && Pred.exacts ps
end

/-- The number a predicate is. -/
def Pred.number : Pred → Option Int
  | .node .signedValue d _ => some d.toInt
  | .node .unsignedValue d _ => some d.toNat
  | _ => none

mutual
/-- The same variable, the same number, or the same operator with operands that are alike. -/
def Pred.alike : Pred → Pred → Prop
  | .node k d cs, .node k' d' cs' =>
    if k = .varReference ∨ k = .floatValue then k' = k ∧ d = d'
    else if k = .signedValue ∨ k = .unsignedValue then
      (k' = .signedValue ∨ k' = .unsignedValue) ∧ (Pred.node k d []).number = (Pred.node k' d' []).number
    else k' = k ∧ Pred.alikes cs cs'
def Pred.alikes : List Pred → List Pred → Prop
  | [], [] => True
  | p :: ps, q :: qs => Pred.alike p q ∧ Pred.alikes ps qs
  | _, _ => False
end

end TraceDB
