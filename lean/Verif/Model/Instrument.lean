import Verif.Model.NameTable
import Verif.Model.TypeString
import Verif.Model.Runtime
/-
The calls that the instrumentation generates for the variables at a statement
(instrumentation/c-cpp.lisp:456-484, 907-1036).

Not modelled here: which variables and statements are selected (see `VarSelect`, `Statements`;
`var-instrument-p`, `can-be-made-traceable-p`), and the rewriting of ASTs.
-/
namespace TraceDB

/-- A variable to be recorded: its name and type, and a number that stands for what
`string-type-p` returns for the type if that is not `nil` (an element of the
declarator or `t`; see `TypeKey`).  For instrumentation/c-cpp.lisp:456-484, 907-1036. -/
structure ScopeVar where
  name : Name
  type : CType
  mark : Nat
  deriving DecidableEq, Repr

/-- `base-typename` (instrumentation/c-cpp.lisp:916-923). -/
def baseTypename (t : CType) : List U8 :=
  joinSpaces ((t.specifier.filter fun s => !(s.kind == .storage || s.kind == .qualifier)).map Specifier.text)

/-- `array-type-p` (instrumentation/c-cpp.lisp:924-925). -/
def CType.isArray (t : CType) : Bool := t.declarator.any (· != .pointer)

/-- `pointer-type-p` (instrumentation/c-cpp.lisp:926-927). -/
def CType.isPointer (t : CType) : Bool := t.declarator.any (· == .pointer)

/-- `c-string-type-p` (instrumentation/c-cpp.lisp:928-932), as a truth value: "char". -/
def CType.isCString (t : CType) : Bool :=
  baseTypename t == [99, 104, 97, 114] && (t.isArray != t.isPointer)

/-- `cpp-string-type-p` (instrumentation/c-cpp.lisp:933-937): "string", "std::string". -/
def CType.isCppString (t : CType) : Bool :=
  baseTypename t == [115, 116, 114, 105, 110, 103] ||
  baseTypename t == [115, 116, 100, 58, 58, 115, 116, 114, 105, 110, 103]

/-- `string-type-p` (instrumentation/c-cpp.lisp:938-941). -/
def CType.isString (t : CType) : Bool := t.isCString || t.isCppString

/-- The signed integer types (instrumentation/c-cpp.lisp:952-957) with `sizeof` on
x86-64: char, int8_t, wchar_t, short int, int16_t, int, int32_t, long int, int64_t. -/
def signedNames : List (List U8 × Nat) :=
  [([99, 104, 97, 114], 1), ([105, 110, 116, 56, 95, 116], 1), ([119, 99, 104, 97, 114, 95, 116], 4),
   ([115, 104, 111, 114, 116, 32, 105, 110, 116], 2), ([105, 110, 116, 49, 54, 95, 116], 2),
   ([105, 110, 116], 4), ([105, 110, 116, 51, 50, 95, 116], 4), ([108, 111, 110, 103, 32, 105, 110, 116], 8),
   ([105, 110, 116, 54, 52, 95, 116], 8)]

/-- The unsigned integer types (instrumentation/c-cpp.lisp:958-965) with `sizeof` on
x86-64: unsigned char, uint8_t, unsigned short int, uint16_t, unsigned int, uint32_t,
unsigned long int, uint64_t, size_t. -/
def unsignedNames : List (List U8 × Nat) :=
  [([117, 110, 115, 105, 103, 110, 101, 100, 32, 99, 104, 97, 114], 1), ([117, 105, 110, 116, 56, 95, 116], 1),
   ([117, 110, 115, 105, 103, 110, 101, 100, 32, 115, 104, 111, 114, 116, 32, 105, 110, 116], 2),
   ([117, 105, 110, 116, 49, 54, 95, 116], 2),
   ([117, 110, 115, 105, 103, 110, 101, 100, 32, 105, 110, 116], 4), ([117, 105, 110, 116, 51, 50, 95, 116], 4),
   ([117, 110, 115, 105, 103, 110, 101, 100, 32, 108, 111, 110, 103, 32, 105, 110, 116], 8),
   ([117, 105, 110, 116, 54, 52, 95, 116], 8), ([115, 105, 122, 101, 95, 116], 8)]

example : signedNames = [("char", 1), ("int8_t", 1), ("wchar_t", 4), ("short int", 2), ("int16_t", 2), ("int", 4),
    ("int32_t", 4), ("long int", 8), ("int64_t", 8)].map (fun p => (ascii p.1, p.2)) ∧
  unsignedNames = [("unsigned char", 1), ("uint8_t", 1), ("unsigned short int", 2), ("uint16_t", 2),
    ("unsigned int", 4), ("uint32_t", 4), ("unsigned long int", 8), ("uint64_t", 8), ("size_t", 8)].map
    (fun p => (ascii p.1, p.2)) := by decide +kernel

/-- `type-format-and-size` (instrumentation/c-cpp.lisp:942-972): `none` if the variable
is not recorded. -/
def formatAndSize (t : CType) (ps : Bool) : Option (TypeFormat × Nat) :=
  if ps && t.isString then some (.blob, 0)
  else if t.isPointer || t.isArray then some (.pointer, 8)
  else
    match signedNames.lookup (baseTypename t) with
    | some z => some (.signed, z)
    | none =>
      match unsignedNames.lookup (baseTypename t) with
      | some z => some (.unsigned, z)
      | none =>
        if baseTypename t == [102, 108, 111, 97, 116] then some (.float, 4)
        else if baseTypename t == [100, 111, 117, 98, 108, 101] then some (.float, 8)
        else none

/-- The arguments generated for one variable (instrumentation/c-cpp.lisp:1021-1025): name
index, type index, size, format, and the expression for the value. -/
structure GenVar where
  name : Nat
  type : Nat
  size : Nat
  format : TypeFormat
  var : ScopeVar
  deriving DecidableEq, Repr

/-- The arguments generated for one string (instrumentation/c-cpp.lisp:1009-1019): name
index, type index, and the expressions for length and address. -/
structure GenBlob where
  name : Nat
  type : Nat
  var : ScopeVar
  deriving DecidableEq, Repr

/-- A generated call (instrumentation/c-cpp.lisp:993-1000, 1026-1036); its count is the
length of the list. -/
inductive GenCall where
  | variables (l : List GenVar)
  | blobs (l : List GenBlob)
  deriving DecidableEq, Repr

/-- The key of a type (instrumentation/c-cpp.lisp:982-985). -/
def ScopeVar.key (v : ScopeVar) (ps : Bool) : TypeKey :=
  (if ps && v.type.isString then some v.mark else none, typeTraceString v.type)

/-- The loop of `instrument-c-exprs` (instrumentation/c-cpp.lisp:1002-1025). -/
def genExprs (te : TableTests) (ps : Bool) : List ScopeVar → Tables → (List GenVar × List GenBlob) × Tables
  | [], s => (([], []), s)
  | v :: vs, s =>
    match formatAndSize v.type ps with
    | none => genExprs te ps vs s
    | some (format, size) =>
      let (ti, s) := s.request te (.type (v.key ps) format size)
      let (ni, s) := s.request te (.name v.name)
      let ((vars, blobs), s) := genExprs te ps vs s
      if ps && v.type.isCString then ((vars, ⟨ni, ti, v⟩ :: blobs), s)
      else if ps && v.type.isCppString then ((vars, ⟨ni, ti, v⟩ :: blobs), s)
      else ((⟨ni, ti, size, format, v⟩ :: vars, blobs), s)

/-- `instrument-c-exprs` (instrumentation/c-cpp.lisp:907-1036): the calls that have
arguments. -/
def instrumentExprs (te : TableTests) (ps : Bool) (vs : List ScopeVar) (s : Tables) : List GenCall × Tables :=
  let ((vars, blobs), s) := genExprs te ps vs s
  ((if vars.isEmpty then [] else [.variables vars]) ++ (if blobs.isEmpty then [] else [.blobs blobs]), s)

/-- A statement to be instrumented: the id of its file in a project, its index, and for
each function that computes instrumentation whether it prints strings and the
variables.  For instrumentation/c-cpp.lisp:456-484, 907-1036. -/
structure Site where
  file : Option Nat
  ast : Nat
  parts : List (Bool × List ScopeVar)
  deriving DecidableEq, Repr

/-- An instrumented statement: the constant passed to `__write_trace_id`
(instrumentation/c-cpp.lisp:1038-1048) and the calls up to the end marker. -/
structure GenSite where
  id : Nat
  calls : List GenCall
  deriving DecidableEq, Repr

/-- `mappend` of the instrumentation functions (instrumentation/c-cpp.lisp:471-480). -/
def instrumentParts (te : TableTests) : List (Bool × List ScopeVar) → Tables → List GenCall × Tables
  | [], s => ([], s)
  | p :: ps, s =>
    let (c, s) := instrumentExprs te p.1 p.2 s
    let (cs, s) := instrumentParts te ps s
    (c ++ cs, s)

/-- `instrument-ast` (instrumentation/c-cpp.lisp:456-470) for all statements in turn. -/
def instrumentSites (te : TableTests) : List Site → Tables → List GenSite × Tables
  | [], s => ([], s)
  | x :: xs, s =>
    let (c, s) := instrumentParts te x.parts s
    let (cs, s) := instrumentSites te xs s
    (⟨packId x.file x.ast, c⟩ :: cs, s)

/-- The table of types as compiled: C converts the initialisers to the types of the
members (instrumentation/c-cpp.lisp:111-118). -/
def TypeRow.desc (r : TypeRow) : TypeDesc := ⟨BitVec.ofNat 32 r.name, r.format, BitVec.ofNat 32 r.size⟩

end TraceDB
