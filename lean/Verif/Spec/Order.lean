import Verif.Model.Hash
/-
Strict total orders, agreement of hashing with equality, and when two records should
be equal.
-/
namespace TraceDB

/-- `lt` is a strict total order on the values satisfying `P`, and values neither of
which is smaller are those that `eq` relates. -/
structure StrictTotal {α : Type} (P : α → Prop) (lt eq : α → α → Prop) : Prop where
  irrefl : ∀ a, P a → ¬ lt a a
  trans : ∀ a b c, P a → P b → P c → lt a b → lt b c → lt a c
  total : ∀ a b, P a → P b → lt a b ∨ lt b a ∨ eq a b
  sep : ∀ a b, P a → P b → eq a b → ¬ lt a b ∧ ¬ lt b a

/-- `eq` is an equivalence relation and values it relates have equal hashes. -/
structure HashAgrees {α : Type} (eq : α → α → Prop) (hash : α → U64) : Prop where
  refl : ∀ a, eq a a
  symm : ∀ a b, eq a b → eq b a
  trans : ∀ a b c, eq a b → eq b c → eq a c
  hash : ∀ a b, eq a b → hash a = hash b

/-- The low bytes of a value that its size says are meaningful: 1, 2 or 4 of a word,
otherwise all; of a blob as many as its size. -/
def VarInfo.content (v : VarInfo) : Nat ⊕ List U8 :=
  match v.value with
  | .blob bs => .inr (bs.take v.size.toNat)
  | .word u => .inl (if v.size = 1 ∨ v.size = 2 ∨ v.size = 4 then u.toNat % 2 ^ (8 * v.size.toNat) else u.toNat)

/-- Two records say the same. -/
def SameRecord (a b : VarInfo) : Prop :=
  a.nameIndex = b.nameIndex ∧ a.typeIndex = b.typeIndex ∧ a.format = b.format ∧ a.size = b.size ∧
  a.bufferSize = b.bufferSize ∧ a.hasBufferSize = b.hasBufferSize ∧ a.content = b.content

/-- Not a blob. -/
def VarInfo.IsWord (v : VarInfo) : Prop := ∃ u, v.value = .word u

/-- A blob whose size is the length of its content. -/
def VarInfo.IsBlobOf (n : Nat) (v : VarInfo) : Prop := v.size.toNat = n ∧ ∃ bs, v.value = .blob bs ∧ bs.length = n

end TraceDB
