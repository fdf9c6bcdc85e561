import Verif.Model.TypeString
/-
Types that can be written as type strings, and what is left of them.
-/
namespace TraceDB

/-- Words that qualify types, and words that tell how objects are stored. -/
def qualifierWords : List (List U8) := ["const", "volatile", "restrict"].map ascii
def storageWords : List (List U8) := ["extern", "static", "auto", "register"].map ascii

/-- A specifier that is a single word of its class. -/
structure Specifier.Plain (s : Specifier) : Prop where
  ne : s.text ≠ []
  chars : ∀ b ∈ s.text, isBlank b = false ∧ b ≠ 42 ∧ b ≠ 91 ∧ b ≠ 93 ∧ b ≠ 123
  qualifier : s.kind = .qualifier ↔ s.text ∈ qualifierWords
  storage : s.kind = .storage ↔ s.text ∈ storageWords

/-- A type made of such specifiers. -/
def CType.Printable (t : CType) : Prop := t.specifier ≠ [] ∧ ∀ s ∈ t.specifier, s.Plain

/-- Array sizes that are no integers are forgotten. -/
def Declarator.known : Declarator → Declarator
  | .array (some s) => .array (if isInteger s then some s else none)
  | d => d

/-- What a type string tells about a type: how many pointers, then the arrays; the
qualifiers, then the storage classes, then the rest, each in order. -/
def CType.normal (t : CType) : CType :=
  ⟨t.declarator.filter (· == .pointer) ++ (t.declarator.filter (· != .pointer)).map Declarator.known,
   t.specifier.filter (·.kind == .qualifier) ++ t.specifier.filter (·.kind == .storage) ++
     t.specifier.filter (·.kind == .base)⟩

end TraceDB
