import Verif.Model.Types
/-
Type strings of the instrumentation: printing and parsing of C types
(instrumentation/c-cpp.lisp:712-843).

Characters are bytes.  Not modelled: the cache of `type-from-trace-string`, whose
values are the results of the same computation, and the ASTs other than by class and
text.
-/
namespace TraceDB

/-- Classes of specifier ASTs that the code tells apart.  For instrumentation/c-cpp.lisp:712-843. -/
inductive SpecKind where
  | qualifier
  | storage
  | base
  deriving DecidableEq, Repr

/-- A specifier AST: its class and source text.  For instrumentation/c-cpp.lisp:712-843. -/
structure Specifier where
  kind : SpecKind
  text : List U8
  deriving DecidableEq, Repr

/-- An element of the declarator of a canonical type: `(:pointer)`, `(:array)` or
`(:array size)`, the size by its source text.  For instrumentation/c-cpp.lisp:712-843. -/
inductive Declarator where
  | pointer
  | array (size : Option (List U8))
  deriving DecidableEq, Repr

/-- A `c/cpp-canonical-type`.  Simplification: other declarator elements (functions)
are left out.  For instrumentation/c-cpp.lisp:712-843. -/
structure CType where
  declarator : List Declarator
  specifier : List Specifier
  deriving DecidableEq, Repr

/-- `+integer-regex+` (c-cpp.lisp:732-733). -/
def isInteger (s : List U8) : Bool := !s.isEmpty && s.all fun b => 48 ≤ b.toNat && b.toNat ≤ 57

/-- `pointer-str` (c-cpp.lisp:739-743). -/
def pointerStr (t : CType) : List U8 := (t.declarator.filter (· == .pointer)).map fun _ => 42

/-- One element of `array-str` (c-cpp.lisp:744-753); the source text of a missing size is
no integer. -/
def arrayStr1 : Declarator → List U8
  | .pointer => []
  | .array (some s) => if isInteger s then 91 :: (s ++ [93]) else [91, 93]
  | .array none => [91, 93]

/-- `array-str` (c-cpp.lisp:744-753). -/
def arrayStr (t : CType) : List U8 := t.declarator.flatMap arrayStr1

/-- `(fmt "~{~a~^ ~}" …)`.  For instrumentation/c-cpp.lisp:712-843. -/
def joinSpaces : List (List U8) → List U8
  | [] => []
  | [s] => s
  | s :: ss => s ++ 32 :: joinSpaces ss

/-- Whitespace characters.  For instrumentation/c-cpp.lisp:712-843. -/
def isBlank (b : U8) : Bool := b.toNat == 32 || (9 ≤ b.toNat && b.toNat ≤ 13)

/-- `trim-whitespace`.  For instrumentation/c-cpp.lisp:712-843. -/
def trimSpaces (s : List U8) : List U8 :=
  ((s.dropWhile isBlank).reverse.dropWhile isBlank).reverse

/-- `(drop-suffix "{" …)`.  For instrumentation/c-cpp.lisp:712-843. -/
def dropBrace (s : List U8) : List U8 := if s.getLast? = some 123 then s.dropLast else s

/-- `trim-to-single-line` (c-cpp.lisp:759-764). -/
def trimToLine (s : List U8) : List U8 := trimSpaces (dropBrace (trimSpaces (s.takeWhile (· != 10))))

/-- `type-trace-string` (c-cpp.lisp:738-771).  The source text of a missing specifier is
taken to be empty. -/
def typeTraceString (t : CType) : List U8 :=
  let first := match t.specifier with
    | [] => []
    | s :: _ => s.text
  trimToLine (joinSpaces ((pointerStr t ++ arrayStr t ++ first) :: (t.specifier.drop 1).map Specifier.text))

/-- `(split-sequence #\Space …)` (c-cpp.lisp:784). -/
def splitSpaces : List U8 → List (List U8)
  | [] => [[]]
  | b :: s =>
    if b = 32 then [] :: splitSpaces s
    else match splitSpaces s with
      | [] => [[b]]
      | w :: ws => (b :: w) :: ws

/-- The rest after the next closing bracket, if no other bracket is before it.  For instrumentation/c-cpp.lisp:712-843. -/
def afterBracket : List U8 → Option (List U8)
  | [] => none
  | b :: s => if b = 93 then some s else if b = 91 then none else afterBracket s

/-- `strip-array-or-pointer` (c-cpp.lisp:790-791) with `+c/cpp-array-or-pointer-regex+`
(729-730).  The fuel bounds the number of elements. -/
def stripLoop : Nat → List U8 → List U8
  | 0, s => s
  | fuel + 1, s =>
    match s with
    | [] => []
    | b :: r =>
      if b = 42 then stripLoop fuel r
      else if b = 91 then
        match afterBracket r with
        | some r' => stripLoop fuel r'
        | none => s
      else s

/-- `strip-array-or-pointer` (c-cpp.lisp:790-791). -/
def stripDeclarator (s : List U8) : List U8 := stripLoop s.length s

/-- `all-matches-as-strings` for `+c/cpp-array-regex+` (c-cpp.lisp:726-727, 804): what is
between the brackets of each match.  `acc` is what follows the last opening bracket. -/
def arrayMatches : Option (List U8) → List U8 → List (List U8)
  | _, [] => []
  | acc, b :: s =>
    if b = 91 then arrayMatches (some []) s
    else match acc with
      | none => arrayMatches none s
      | some a => if b = 93 then a :: arrayMatches none s else arrayMatches (some (a ++ [b])) s

/-- The size of an array (c-cpp.lisp:796-803). -/
def arrayDecl (size : List U8) : Declarator := .array (if size.isEmpty then none else some size)

/-- ASCII text.  For instrumentation/c-cpp.lisp:712-843. -/
def ascii (s : String) : List U8 := s.toList.map fun c => BitVec.ofNat 8 c.toNat

/-- `+c/cpp-type-qualifiers+` (c-cpp.lisp:714-715): const, volatile, restrict. -/
def typeQualifiers : List (List U8) :=
  [[99, 111, 110, 115, 116], [118, 111, 108, 97, 116, 105, 108, 101], [114, 101, 115, 116, 114, 105, 99, 116]]

/-- `+c/cpp-type-storage-classes+` (c-cpp.lisp:717-718): extern, static, auto,
register. -/
def storageClasses : List (List U8) :=
  [[101, 120, 116, 101, 114, 110], [115, 116, 97, 116, 105, 99], [97, 117, 116, 111],
   [114, 101, 103, 105, 115, 116, 101, 114]]

example : typeQualifiers = ["const", "volatile", "restrict"].map ascii ∧
    storageClasses = ["extern", "static", "auto", "register"].map ascii := by decide

/-- `type-from-trace-string-common` (c-cpp.lisp:781-843). -/
def typeFromTraceString (s : List U8) : CType :=
  let words := (splitSpaces s).map stripDeclarator
  ⟨(s.filter (· == 42)).map (fun _ => .pointer) ++ (arrayMatches none s).map arrayDecl,
   (words.filter typeQualifiers.contains).map (⟨.qualifier, ·⟩) ++
   (words.filter storageClasses.contains).map (⟨.storage, ·⟩) ++
   (words.filter fun w => !(typeQualifiers.contains w || storageClasses.contains w)).map (⟨.base, ·⟩)⟩

end TraceDB
