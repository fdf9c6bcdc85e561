import Verif.Model.Instrument
import Verif.Model.Archive
/-
The C text that is generated for tables, calls and setup
(instrumentation/c-cpp.lisp:302-342, 942-1059, 1065-1134).

Text is a list of bytes; numbers are printed in base ten (the default of `*print-base*`).
-/
namespace TraceDB

/-- `~s` for a string: in double quotes (34), a backslash (92) before quotes and backslashes.
For instrumentation/c-cpp.lisp:302-342, 942-1059. -/
def prin1 (s : List U8) : List U8 :=
  [34] ++ (s.flatMap fun c => if c = 34 ∨ c = 92 then [92, c] else [c]) ++ [34]

/-- The keyword of a format as printed by `~a` (instrumentation/c-cpp.lisp:942-972).  The last one is not
generated. -/
def formatText : TypeFormat → List U8
  | .unsigned => ascii "__GT_TRACEDB_UNSIGNED"
  | .signed => ascii "__GT_TRACEDB_SIGNED"
  | .float => ascii "__GT_TRACEDB_FLOAT"
  | .pointer => ascii "__GT_TRACEDB_POINTER"
  | .blob => ascii "__GT_TRACEDB_BLOB"
  | .invalid => ascii "__GT_TRACEDB_INVALID_FORMAT"

/-- The text for the size (instrumentation/c-cpp.lisp:942-972): "0", "sizeof(void*)", or
"sizeof(~a)" with the name of a type. -/
inductive SizeText where
  | zero
  | pointer
  | named (n : List U8)
  deriving DecidableEq, Repr

/-- Its C text.  For instrumentation/c-cpp.lisp:302-342, 942-1059. -/
def SizeText.text : SizeText → List U8
  | .zero => ascii "0"
  | .pointer => ascii "sizeof(void*)"
  | .named n => ascii "sizeof(" ++ n ++ ascii ")"

/-- `type-format-and-size` (instrumentation/c-cpp.lisp:942-972), with the text for the size. -/
def formatAndSizeText (t : CType) (ps : Bool) : Option (TypeFormat × SizeText) :=
  if ps && t.isString then some (.blob, .zero)
  else if t.isPointer || t.isArray then some (.pointer, .pointer)
  else if (signedNames.map (·.1)).elem (baseTypename t) then some (.signed, .named (baseTypename t))
  else if (unsignedNames.map (·.1)).elem (baseTypename t) then some (.unsigned, .named (baseTypename t))
  else if baseTypename t == ascii "float" then some (.float, .named (ascii "float"))
  else if baseTypename t == ascii "double" then some (.float, .named (ascii "double"))
  else none

/-- `type-description-struct` (instrumentation/c-cpp.lisp:977-981). -/
def rowText (name : Nat) (format : TypeFormat) (size : SizeText) : List U8 :=
  ascii "{" ++ decimal name ++ ascii ", " ++ formatText format ++ ascii ", " ++ size.text ++ ascii "}"

/-- Texts with ", " after each: `~{~a, ~}`.  For instrumentation/c-cpp.lisp:302-342, 942-1059. -/
def commaAfter : List (List U8) → List U8
  | [] => []
  | x :: xs => x ++ ascii ", " ++ commaAfter xs

/-- Texts with ", " between: `~{~a~^, ~}`.  For instrumentation/c-cpp.lisp:302-342, 942-1059. -/
def commaBetween : List (List U8) → List U8
  | [] => []
  | [x] => x
  | x :: y :: xs => x ++ ascii ", " ++ commaBetween (y :: xs)

/-- `names-initialization-str` (instrumentation/c-cpp.lisp:1090-1099). -/
def namesText (names : List Name) : List U8 :=
  if names.isEmpty then ascii "const char **names = NULL"
  else ascii "const char *names[] = {" ++ commaAfter (names.map prin1) ++ ascii "}"

/-- `types-initialization-str` (instrumentation/c-cpp.lisp:1100-1109). -/
def typesText (rows : List (Nat × TypeFormat × SizeText)) : List U8 :=
  if rows.isEmpty then ascii "const __trace_type_description *types = NULL"
  else ascii "const __trace_type_description types[] = {" ++ commaAfter (rows.map fun r => rowText r.1 r.2.1 r.2.2) ++
    ascii "}"

/-- The log variables (traceable.lisp:46-47, instrumentation/c-cpp.lisp:25-26). -/
def logVariable : List U8 := ascii "__sel_trace_file"
/-- `+instrument-log-lock-variable-name+`.  For instrumentation/c-cpp.lisp:25-27. -/
def lockVariable : List U8 := ascii "__sel_trace_file_lock"

/-- The arguments for one variable with the text for its size (instrumentation/c-cpp.lisp:1021-1025). -/
structure VarArgs where
  name : Nat
  type : Nat
  size : SizeText
  format : TypeFormat
  expr : Name
  deriving DecidableEq, Repr

/-- The arguments for one variable as C text.  For instrumentation/c-cpp.lisp:302-342, 942-1059. -/
def VarArgs.text (v : VarArgs) : List U8 :=
  decimal v.name ++ ascii ", " ++ decimal v.type ++ ascii ", " ++ v.size.text ++ ascii ", " ++ formatText v.format ++
    ascii ", " ++ v.expr

/-- The arguments for one string of C or C++ (instrumentation/c-cpp.lisp:1009-1019). -/
structure BlobArgs where
  name : Nat
  type : Nat
  cpp : Bool
  expr : Name
  deriving DecidableEq, Repr

/-- The arguments for one blob as C text.  For instrumentation/c-cpp.lisp:302-342, 942-1059. -/
def BlobArgs.text (b : BlobArgs) : List U8 :=
  if b.cpp then
    decimal b.name ++ ascii ", " ++ decimal b.type ++ ascii ", (" ++ b.expr ++ ascii ").length(), (" ++ b.expr ++
      ascii ").c_str()"
  else
    decimal b.name ++ ascii ", " ++ decimal b.type ++ ascii ", strlen(" ++ b.expr ++ ascii "), " ++ b.expr

/-- `make-instrumentation-function-call` (instrumentation/c-cpp.lisp:993-1000), for at least one
variable. -/
def callText (function : List U8) (args : List (List U8)) : List U8 :=
  function ++ ascii "(" ++ logVariable ++ ascii ", " ++ decimal args.length ++ ascii ", " ++ commaBetween args ++ ascii ");"

/-- The call that writes variables.  For instrumentation/c-cpp.lisp:302-342, 942-1059. -/
def variablesText (vs : List VarArgs) : List U8 := callText (ascii "__write_trace_variables") (vs.map VarArgs.text)
/-- The call that writes blobs.  For instrumentation/c-cpp.lisp:302-342, 942-1059. -/
def blobsText (bs : List BlobArgs) : List U8 := callText (ascii "__write_trace_blobs") (bs.map BlobArgs.text)

/-- `write-trace-id` (instrumentation/c-cpp.lisp:1038-1048): 10 is a newline. -/
def traceIdText (id : Nat) : List U8 :=
  [10] ++ ascii "__write_trace_id(" ++ logVariable ++ ascii ", " ++ lockVariable ++ ascii ", " ++ decimal id ++ ascii "u);"

/-- `write-end-entry` (instrumentation/c-cpp.lisp:1050-1059). -/
def endEntryText : List U8 :=
  ascii "__write_end_entry(" ++ logVariable ++ ascii ", " ++ lockVariable ++ ascii ");" ++ [10]

/-- The argument `:trace-file`.  For instrumentation/c-cpp.lisp:302-342, 942-1059. -/
inductive TraceFileArg where
  | absent
  | stderr
  | stdout
  | file (name : List U8)
  deriving DecidableEq, Repr

/-- `file-open-str` (instrumentation/c-cpp.lisp:1073-1084).  Simplification: `namestring` gives the
name itself. -/
def fileOpenText (file : TraceFileArg) (env : Option (List U8)) : List U8 :=
  match file with
  | .stderr => ascii "stderr"
  | .stdout => ascii "stdout"
  | .file n => ascii "fopen(" ++ prin1 n ++ ascii ", \"w\")"
  | .absent =>
    match env with
    | some e => ascii "fopen(getenv(" ++ e ++ ascii "), \"w\")"
    | none => ascii "fopen(buffer, \"w\")"

/-- The end of `__bi_setup` (instrumentation/c-cpp.lisp:327-338, 1125-1132). -/
def setupText (file : TraceFileArg) (env : Option (List U8)) (names : List Name) (rows : List (Nat × TypeFormat × SizeText)) :
    List U8 :=
  logVariable ++ ascii " = " ++ fileOpenText file env ++ ascii ";" ++ [10] ++ ascii "  " ++
  lockVariable ++ ascii " = &__static_lock;" ++ [10] ++ ascii "  " ++
  namesText names ++ ascii ";" ++ [10] ++ ascii "  " ++
  typesText rows ++ ascii ";" ++ [10, 10] ++ ascii "  pthread_mutex_init( (pthread_mutex_t *) " ++ lockVariable ++
  ascii ", NULL);" ++ [10] ++ ascii "  __write_trace_header(" ++ logVariable ++ ascii "," ++ [10] ++
  ascii "                       " ++ lockVariable ++ ascii "," ++ [10] ++
  ascii "                       names, " ++ decimal names.length ++ ascii "," ++ [10] ++
  ascii "                       types, " ++ decimal rows.length ++ ascii ");" ++ [10] ++ ascii "}"

/-- The arguments for a variable as generated, with its size as text.  For instrumentation/c-cpp.lisp:302-342, 942-1059. -/
def GenVar.args (ps : Bool) (g : GenVar) : VarArgs :=
  let z := match formatAndSizeText g.var.type ps with
    | some (_, z) => z
    | none => .zero
  ⟨g.name, g.type, z, g.format, g.var.name⟩

/-- The arguments for a string as generated; the test for C strings comes first.
For instrumentation/c-cpp.lisp:302-342, 942-1059. -/
def GenBlob.args (g : GenBlob) : BlobArgs := ⟨g.name, g.type, !g.var.type.isCString, g.var.name⟩

/-- The text of a generated call (instrumentation/c-cpp.lisp:1026-1036). -/
def GenCall.text (ps : Bool) : GenCall → List U8
  | .variables l => variablesText (l.map (GenVar.args ps))
  | .blobs l => blobsText (l.map GenBlob.args)

end TraceDB
