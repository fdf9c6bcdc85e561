import Verif.Spec.Format
/-
The binary trace format as the manual describes it
(doc/trace-database-component.texi:30-77).  The manual gives 16 bits to the
number of characters, to the number of types and to the size of a value of
variable size, and 32 bits to a statement id; the reader takes 64, 32, 32 and 64.
-/
namespace TraceDB

/-- The name dictionary: "a character count (a 16-bit integer), followed by a
series of null-terminated strings" (doc/trace-database-component.texi:34-36). -/
def docNameTable (names : List Name) : List U8 :=
  leBytes 2 ((names.map fun n => n.length + 1).sum) ++ names.flatMap fun n => n ++ [0]

/-- The name dictionary as the reader takes it (Trace.hpp:58-73). -/
def codeNameTable (names : List Name) : List U8 :=
  leBytes 8 ((names.map fun n => n.length + 1).sum) ++ names.flatMap fun n => n ++ [0]

/-- The type dictionary: "a record count (16 bits), followed by a series of
`TypeDescription` objects" (doc/trace-database-component.texi:36-37). -/
def docTypeTable (types : List TypeDesc) : List U8 :=
  leBytes 2 types.length ++ types.flatMap fun t =>
    leBytes 4 t.nameIndex.toNat ++ (leBytes 4 t.format.code ++ leBytes 4 t.size.toNat)

/-- A statement entry: the tag "is followed by a single 32-bit field"
(doc/trace-database-component.texi:48-49). -/
def docStatement (id : U32) : List U8 := 1 :: leBytes 4 id.toNat

/-- A variable of variable size: "a 16-bit field indicating the size of this
particular value, followed by that many bytes of data"
(doc/trace-database-component.texi:63-71). -/
def docBlob (name type : U32) (value : List U8) : List U8 :=
  2 :: (leBytes 4 name.toNat ++ (leBytes 4 type.toNat ++ (leBytes 2 value.length ++ value)))

end TraceDB
