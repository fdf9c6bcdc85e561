import Verif.Model.NameTable
/-
What the tables of an instrumented program should be.
-/
namespace TraceDB

/-- The tests of the tables are equivalences, and types that count as the same have
names that count as the same. -/
structure TableTests.Lawful (te : TableTests) : Prop where
  name_refl : ∀ a, te.name a a = true
  name_symm : ∀ a b, te.name a b = true → te.name b a = true
  name_trans : ∀ a b c, te.name a b = true → te.name b c = true → te.name a c = true
  type_refl : ∀ a, te.type a a = true
  type_symm : ∀ a b, te.type a b = true → te.type b a = true
  type_trans : ∀ a b c, te.type a b = true → te.type b c = true → te.type a c = true
  type_name : ∀ a b, te.type a b = true → te.name a.2 b.2 = true

/-- `r` is the first request at which a type that counts as `k` is asked for. -/
def FirstTypeRequest (te : TableTests) (rs : List TabReq) (k : TypeKey) (k' : TypeKey) (f : TypeFormat) (z : Nat) :
    Prop :=
  ∃ pre post, rs = pre ++ .type k' f z :: post ∧ te.type k' k = true ∧
    ∀ k'' f' z', TabReq.type k'' f' z' ∈ pre → te.type k'' k = false

/-- The index `i` means what was asked for in the emitted tables. -/
def TabReq.Answered (te : TableTests) (rs : List TabReq) (names : List Name) (types : List TypeRow) (i : Nat) :
    TabReq → Prop
  | .name n => ∃ n', names[i]? = some n' ∧ te.name n' n = true
  | .type k _ _ => ∃ row n' k', types[i]? = some row ∧ names[row.name]? = some n' ∧ te.name n' k.2 = true ∧
      FirstTypeRequest te rs k k' row.format row.size

/-- Requests for the same thing. -/
def TabReq.same (te : TableTests) : TabReq → TabReq → Option Bool
  | .name a, .name b => some (te.name a b)
  | .type a _ _, .type b _ _ => some (te.type a b)
  | _, _ => none

end TraceDB
