import Verif.Model.Instrument
import Verif.Spec.TypeString
import Verif.Spec.Runtime
/-
What instrumenting a program, running it and loading its trace should show.
-/
namespace TraceDB

/-- The values of the variables of a program at some moment: a scalar value and, for
strings, the characters. -/
structure CEnv where
  scalar : Name → CValue
  text : Name → List U8

/-- The integer types of C by name, for x86-64. -/
def cSigned (s : String) : Option IntSize :=
  if s = "char" ∨ s = "int8_t" then some .one
  else if s = "short int" ∨ s = "int16_t" then some .two
  else if s = "int" ∨ s = "int32_t" ∨ s = "wchar_t" then some .four
  else if s = "long int" ∨ s = "int64_t" then some .eight
  else none

/-- The unsigned integer types of C by name, for x86-64. -/
def cUnsigned (s : String) : Option IntSize :=
  if s = "unsigned char" ∨ s = "uint8_t" then some .one
  else if s = "unsigned short int" ∨ s = "uint16_t" then some .two
  else if s = "unsigned int" ∨ s = "uint32_t" then some .four
  else if s = "unsigned long int" ∨ s = "uint64_t" ∨ s = "size_t" then some .eight
  else none

/-- The words of a type that are neither qualifiers nor storage classes, as text. -/
def CType.Named (t : CType) (s : String) : Prop :=
  joinSpaces ((t.specifier.filter (·.kind == .base)).map Specifier.text) = ascii s

/-- `v` is a value that a variable of type `t` can have: an address for pointers and
arrays, otherwise a value of the type with that name. -/
inductive CType.Holds (t : CType) : CValue → Prop
  | pointer (a : U64) : t.declarator ≠ [] → t.Holds (.pointer a)
  | signed (s : String) (k : IntSize) (x : Int) : t.declarator = [] → t.Named s → cSigned s = some k →
      t.Holds (.signed k x)
  | unsigned (s : String) (k : IntSize) (x : Nat) : t.declarator = [] → t.Named s → cUnsigned s = some k →
      t.Holds (.unsigned k x)
  | float (b : U32) : t.declarator = [] → t.Named "float" → t.Holds (.float b)
  | double (b : U64) : t.declarator = [] → t.Named "double" → t.Holds (.double b)

/-- A `char` pointer, a `char` array or a C++ string. -/
def CType.Text (t : CType) : Prop :=
  (t.Named "char" ∧ ((.pointer ∈ t.declarator ∧ ∀ d ∈ t.declarator, d = .pointer) ∨
    (t.declarator ≠ [] ∧ .pointer ∉ t.declarator))) ∨
  t.Named "string" ∨ t.Named "std::string"

/-- A variable the instrumentation can describe. -/
structure ScopeVar.Ok (v : ScopeVar) : Prop where
  printable : v.type.Printable
  name : (0 : U8) ∉ v.name
  type : ∀ s ∈ v.type.specifier, (0 : U8) ∉ s.text

/-- A variable printed as a string. -/
def ScopeVar.AsText (ps : Bool) (v : ScopeVar) : Prop := ps = true ∧ v.type.Text

/-- A variable recorded as a number. -/
def ScopeVar.AsScalar (ps : Bool) (v : ScopeVar) : Prop := ¬ v.AsText ps ∧ ∃ x, v.type.Holds x

/-- The program state fits the variable: it has a value of its type, or a text if it is
printed as a string. -/
structure ScopeVar.Fits (cf : CFloat) (ps : Bool) (env : CEnv) (v : ScopeVar) : Prop where
  scalar : v.AsScalar ps →
    v.type.Holds (env.scalar v.name) ∧ (env.scalar v.name).InRange ∧ (env.scalar v.name).FloatOk cf
  text : v.AsText ps → (env.text v.name).length < 2 ^ 32

/-- Evaluating the arguments generated for a variable. -/
def GenVar.Args (cf : CFloat) (env : CEnv) (g : GenVar) (l : List Slot) : Prop :=
  ∃ a b c d e, l = [a, b, c, d, e] ∧ a.Carries32 (BitVec.ofNat 32 g.name) ∧ b.Carries32 (BitVec.ofNat 32 g.type) ∧
    c.Carries32 (BitVec.ofNat 32 g.size) ∧ d.Carries32 (BitVec.ofNat 32 g.format.code) ∧
    (env.scalar g.var.name).PassedAs cf e

/-- Evaluating the arguments generated for a string: `strlen` or `length()`, and the
address of the characters. -/
def GenBlob.Args (mem : CMem) (env : CEnv) (g : GenBlob) (l : List Slot) : Prop :=
  ∃ a b c p, l = [a, b, c, .gp p] ∧ a.Carries32 (BitVec.ofNat 32 g.name) ∧ b.Carries32 (BitVec.ofNat 32 g.type) ∧
    c.Carries32 (BitVec.ofNat 32 (env.text g.var.name).length) ∧
    mem p (env.text g.var.name).length = some (env.text g.var.name)

/-- Executing a generated call. -/
def GenCall.RunsAs (cf : CFloat) (mem : CMem) (env : CEnv) : GenCall → RtCall → Prop
  | .variables l, c => ∃ n args, c = .variables n args ∧ n.toNat = l.length ∧ ArgsAll (GenVar.Args cf env) l args
  | .blobs l, c => ∃ n args, c = .blobs n args ∧ n.toNat = l.length ∧ ArgsAll (GenBlob.Args mem env) l args

/-- The program passes an instrumented statement. -/
structure Visit where
  site : Nat
  env : CEnv

/-- Executing the code at an instrumented statement. -/
def Visit.RunsAs (cf : CFloat) (mem : CMem) (gens : List GenSite) (v : Visit) (c : U64 × List RtCall) : Prop :=
  ∃ g : GenSite, gens[v.site]? = some g ∧ c.1 = BitVec.ofNat 64 g.id ∧ AllRel (GenCall.RunsAs cf mem v.env) g.calls c.2

/-- A value as Lisp data. -/
def CValue.lisp : CValue → LValue
  | .signed _ i => .int i
  | .unsigned _ n => .int n
  | .float b => .single b
  | .double b => .double b
  | .pointer a => .int a.toNat

/-- What should be shown for a variable that is not printed as a string. -/
def ScopeVar.ShownScalar (te : TableTests) (env : CEnv) (v : ScopeVar) (l : LVar) : Prop :=
  te.name l.name v.name = true ∧ te.name l.type (typeTraceString v.type) = true ∧
    l.value = (env.scalar v.name).lisp ∧ l.size = none

/-- What should be shown for a string. -/
def ScopeVar.ShownText (te : TableTests) (env : CEnv) (v : ScopeVar) (l : LVar) : Prop :=
  te.name l.name v.name = true ∧ te.name l.type (typeTraceString v.type) = true ∧
    l.value = .blob (env.text v.name) ∧ l.size = none

/-- The second list consists of the elements of the first one that satisfy `P`. -/
inductive Selected {α : Type} (P : α → Prop) : List α → List α → Prop
  | nil : Selected P [] []
  | keep {x xs ys} : P x → Selected P xs ys → Selected P (x :: xs) (x :: ys)
  | skip {x xs ys} : ¬ P x → Selected P xs ys → Selected P (x :: xs) ys

/-- What should be shown for the variables given to one instrumentation function: those
with a type that can be recorded, first the scalars, then the strings. -/
def PartShown (te : TableTests) (env : CEnv) (part : Bool × List ScopeVar) (l : List LVar) : Prop :=
  ∃ scalars texts ls lt, l = ls ++ lt ∧
    Selected (ScopeVar.AsScalar part.1) part.2 scalars ∧ Selected (ScopeVar.AsText part.1) part.2 texts ∧
    AllRel (ScopeVar.ShownScalar te env) scalars ls ∧ AllRel (ScopeVar.ShownText te env) texts lt

/-- What should be shown for a visit: statement, file and variables. -/
def Visit.Shown (te : TableTests) (sites : List Site) (v : Visit) (p : LPoint) : Prop :=
  ∃ x : Site, sites[v.site]? = some x ∧ p.c = x.ast ∧ p.f = x.file ∧ p.aux = [] ∧
    ∃ ls : List (List LVar), p.scopes = ls.flatten ∧ AllRel (PartShown te v.env) x.parts ls

/-- Statements the instrumentation can handle. -/
structure Site.Ok (x : Site) : Prop where
  vars : ∀ part ∈ x.parts, ∀ v ∈ part.2, v.Ok
  count : ∀ part ∈ x.parts, part.2.length < 2 ^ 32
  id : match x.file with
    | some f => f < 2 ^ 23 ∧ x.ast < 2 ^ 40
    | none => x.ast < 2 ^ 63

/-- Visits in states that fit the variables. -/
def Visit.Fits (cf : CFloat) (sites : List Site) (v : Visit) : Prop :=
  ∀ x : Site, sites[v.site]? = some x → ∀ part ∈ x.parts, ∀ y ∈ part.2, y.Fits cf part.1 v.env

end TraceDB
