import Verif.Spec.QueryLaws
/-
Rewriting the predicates of a query.
-/
namespace TraceDB

/-- Comparisons of floats that can be read from either side, and `<=` is `<` or `=`. -/
structure Mirrored (fs : FloatSys) : Prop where
  gt : ∀ x y : fs.F, fs.gt x y = fs.lt y x
  ge : ∀ x y : fs.F, fs.ge x y = fs.le y x
  eq : ∀ x y : fs.F, fs.eq x y = fs.eq y x
  le : ∀ x y : fs.F, fs.le x y = (fs.lt x y || fs.eq x y)

/-- The comparison read from the other side. -/
def Cmp.mirror : Cmp → Cmp
  | .gt => .lt
  | .ge => .le
  | .lt => .gt
  | .le => .ge
  | .eq => .eq

/-- Predicates about `n` variables that can be turned into each other by laws of logic, anywhere inside. -/
inductive Equivalent (fs : FloatSys) (n : Nat) : Pred → Pred → Prop
  | refl {p : Pred} : Equivalent fs n p p
  | symm {p q : Pred} : Equivalent fs n p q → Equivalent fs n q p
  | trans {p q r : Pred} : Equivalent fs n p q → Equivalent fs n q r → Equivalent fs n p r
  /-- inside `not`, `and` and `or` -/
  | inNot {d e : U64} {p q : Pred} : Equivalent fs n p q → Equivalent fs n (.node .not d [p]) (.node .not e [q])
  | inAnd {d e : U64} {xs ys : List Pred} {p q : Pred} : Equivalent fs n p q →
      Equivalent fs n (.node .and d (xs ++ p :: ys)) (.node .and e (xs ++ q :: ys))
  | inOr {d e : U64} {xs ys : List Pred} {p q : Pred} : Equivalent fs n p q →
      Equivalent fs n (.node .or d (xs ++ p :: ys)) (.node .or e (xs ++ q :: ys))
  /-- arguments in another order -/
  | permAnd {d e : U64} {xs ys : List Pred} : xs.Perm ys → Equivalent fs n (.node .and d xs) (.node .and e ys)
  | permOr {d e : U64} {xs ys : List Pred} : xs.Perm ys → Equivalent fs n (.node .or d xs) (.node .or e ys)
  /-- the same argument twice -/
  | twiceAnd {d e : U64} {p : Pred} {xs : List Pred} : Equivalent fs n (.node .and d (p :: p :: xs)) (.node .and e (p :: xs))
  | twiceOr {d e : U64} {p : Pred} {xs : List Pred} : Equivalent fs n (.node .or d (p :: p :: xs)) (.node .or e (p :: xs))
  /-- nested `and` and `or` -/
  | nestAnd {d e g : U64} {xs ys : List Pred} :
      Equivalent fs n (.node .and d (.node .and e xs :: ys)) (.node .and g (xs ++ ys))
  | nestOr {d e g : U64} {xs ys : List Pred} :
      Equivalent fs n (.node .or d (.node .or e xs :: ys)) (.node .or g (xs ++ ys))
  | oneAnd {d : U64} {p : Pred} : Equivalent fs n (.node .and d [p]) p
  | oneOr {d : U64} {p : Pred} : Equivalent fs n (.node .or d [p]) p
  | noAnd {d e : U64} {cs : List Pred} : Equivalent fs n (.node .and d []) (.node .null e cs)
  /-- negation -/
  | notNot {d e : U64} {p : Pred} : Equivalent fs n (.node .not d [.node .not e [p]]) p
  | notAnd {d e g k : U64} {xs : List Pred} :
      Equivalent fs n (.node .not d [.node .and e xs]) (.node .or g (xs.map fun x => .node .not k [x]))
  | notOr {d e g k : U64} {xs : List Pred} :
      Equivalent fs n (.node .not d [.node .or e xs]) (.node .and g (xs.map fun x => .node .not k [x]))
  | contradiction {d e g : U64} {p : Pred} : WellFormed n p →
      Equivalent fs n (.node .and d [p, .node .not e [p]]) (.node .or g [])
  /-- distribution and absorption -/
  | distribute {d e g k : U64} {p q : Pred} {xs : List Pred} :
      Equivalent fs n (.node .and d [p, .node .or e (q :: xs)]) (.node .or g ((q :: xs).map fun x => .node .and k [p, x]))
  | distributeOr {d e g k : U64} {p q : Pred} {xs : List Pred} :
      Equivalent fs n (.node .or d [p, .node .and e (q :: xs)]) (.node .and g ((q :: xs).map fun x => .node .or k [p, x]))
  | absorb {d e : U64} {p q : Pred} : WellFormed n q → Equivalent fs n (.node .and d [p, .node .or e [p, q]]) p
  | absorbOr {d e : U64} {p q : Pred} : WellFormed n q → Equivalent fs n (.node .or d [p, .node .and e [p, q]]) p
  /-- comparisons -/
  | mirror {op : Cmp} {d e : U64} {p q : Pred} : Mirrored fs →
      Equivalent fs n (.node op.toKind d [p, q]) (.node op.mirror.toKind e [q, p])
  | atMost {d e g k : U64} {p q : Pred} : Mirrored fs →
      Equivalent fs n (.node .lessThanOrEqual d [p, q]) (.node .or e [.node .lessThan g [p, q], .node .equal k [p, q]])

/-- Pairwise. -/
inductive EquivalentEach (fs : FloatSys) (n : Nat) : List Pred → List Pred → Prop
  | nil : EquivalentEach fs n [] []
  | cons {p q : Pred} {ps qs : List Pred} : Equivalent fs n p q → EquivalentEach fs n ps qs →
      EquivalentEach fs n (p :: ps) (q :: qs)

end TraceDB
