import Verif.Spec.RunDatabase
import Verif.Spec.QueryMemory
/-
What queries with soft predicates and `pick` should answer about points shown.
-/
namespace TraceDB

/-- How many of the formulas are true of the values. -/
def trueOf (fs : FloatSys) (sf : List Form) (vs : List LVar) : Nat := sf.countP fun g => g.holdsFor fs vs

/-- The free variables are bound to variables of the point whose types are allowed, and the formula is
true of their values. -/
def Binds (fs : FloatSys) (varTypes : List (List (List U8))) (f : Form) (l : LPoint) (b : List Nat) : Prop :=
  IsNamedBinding varTypes l.scopes b ∧ f.holdsFor fs (namedResult l b).scopes = true

/-- What a query with soft predicates may answer about points: at one of them, a binding for which
the formula is true, and as many of the soft ones as for any such binding at the same point. -/
def BestAnswers (fs : FloatSys) (pts : List LPoint) (varTypes : List (List (List U8))) (filter : Option (LPoint → Bool))
    (f : Form) (sf : List Form) (r : LPoint) : Prop :=
  ∃ l ∈ pts, ∃ b : List Nat, Binds fs varTypes f l b ∧
    (∀ b', Binds fs varTypes f l b' → trueOf fs sf (namedResult l b').scopes ≤ trueOf fs sf (namedResult l b).scopes) ∧
    (∀ g, filter = some g → g (namedResult l b) = true) ∧ r = namedResult l b

/-- The points a query looks at: all, or one of them if it is to pick one. -/
def LooksAt (seed : U32) (pts chosen : List LPoint) : Prop :=
  if seed = 0 then chosen = pts else (pts = [] ∧ chosen = []) ∨ ∃ l ∈ pts, chosen = [l]

/-- `rs` answers the query: nothing but answers, and all of them up to values, where a filter
makes the comparison ignore case. -/
def AnswersAll (A : LPoint → Prop) (filter : Option (LPoint → Bool)) (rs : List LPoint) : Prop :=
  (∀ r ∈ rs, A r) ∧
  (filter = none → ∀ a, A a → ∃ r ∈ rs, exactKey r = exactKey a) ∧
  (filter ≠ none → (∀ a, A a → ∃ r ∈ rs, foldedKey r = foldedKey a) ∧ rs.Pairwise fun a b => foldedKey a ≠ foldedKey b)

/-- A point that the engine can handle in the query: there are at most `n` bindings, and no `double`
among the variables asked for (see C33). -/
def LPoint.Answerable (varTypes : List (List (List U8))) (n : Nat) (l : LPoint) : Prop :=
  l.scopes.length < 2 ^ 32 ∧ choices varTypes l.scopes ≤ n ∧
    ∀ x ∈ l.scopes, ∀ ts ∈ varTypes, x.type ∈ ts → ∀ b, x.value ≠ .double b

end TraceDB
