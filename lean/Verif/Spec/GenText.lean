import Verif.Model.GenText
/-
What C text means, as far as it is needed: tokens, and how declarations and calls made of
them are read.  Comments, trigraphs, line splicing and preprocessor directives are left out;
numbers are decimal.  Everything else is not accepted.
-/
namespace TraceDB

/-- A token of C. -/
inductive CTok where
  | ident (s : List U8)
  | num (n : Nat) (unsigned : Bool)
  | str (s : List U8)
  | punct (c : U8)
  deriving DecidableEq, Repr

/-- Inside of what the next byte is. -/
inductive LexMode where
  | between
  | ident (s : List U8)
  | num (ds : List U8) (unsigned : Bool)
  | str (s : List U8)
  | escape (s : List U8)
  deriving DecidableEq, Repr

structure LexState where
  toks : List CTok
  mode : LexMode
  deriving DecidableEq, Repr

/-- Digits 0 to 9. -/
def cDigit (c : U8) : Bool := 48 ≤ c.toNat && c.toNat ≤ 57

/-- Letters and the underscore. -/
def cLetter (c : U8) : Bool := (65 ≤ c.toNat && c.toNat ≤ 90) || (97 ≤ c.toNat && c.toNat ≤ 122) || c.toNat == 95

/-- Space, tab, newline. -/
def cBlank (c : U8) : Bool := c.toNat == 32 || c.toNat == 9 || c.toNat == 10

/-- An identifier. -/
def CIdent (s : List U8) : Prop := ∃ c cs, s = c :: cs ∧ cLetter c = true ∧ ∀ d ∈ cs, (cLetter d || cDigit d) = true

/-- The byte after a backslash. -/
def cEscape (c : U8) : Option U8 :=
  [(34, 34), (39, 39), (63, 63), (92, 92), (97, 7), (98, 8), (102, 12), (110, 10), (114, 13), (116, 9), (118, 11)].lookup c

/-- A number that is not octal. -/
def cNumber (ds : List U8) (unsigned : Bool) : Option CTok :=
  if ds.head? = some 48 ∧ ds.length ≠ 1 then none
  else some (.num (ds.foldl (fun n d => 10 * n + (d.toNat - 48)) 0) unsigned)

/-- A byte between tokens. -/
def lexStart (toks : List CTok) (c : U8) : LexState :=
  if cBlank c then ⟨toks, .between⟩
  else if c = 34 then ⟨toks, .str []⟩
  else if cLetter c then ⟨toks, .ident [c]⟩
  else if cDigit c then ⟨toks, .num [c] false⟩
  else ⟨toks ++ [.punct c], .between⟩

/-- One byte. -/
def lexStep (s : LexState) (c : U8) : Option LexState :=
  match s.mode with
  | .between => some (lexStart s.toks c)
  | .ident a => if cLetter c || cDigit c then some ⟨s.toks, .ident (a ++ [c])⟩ else some (lexStart (s.toks ++ [.ident a]) c)
  | .num ds u =>
    if cDigit c && !u then some ⟨s.toks, .num (ds ++ [c]) false⟩
    else if c = 117 ∧ u = false then some ⟨s.toks, .num ds true⟩
    else if cLetter c || cDigit c then none
    else (cNumber ds u).map fun t => lexStart (s.toks ++ [t]) c
  | .str a =>
    if c = 34 then some ⟨s.toks ++ [.str a], .between⟩
    else if c = 10 then none
    else if c = 92 then some ⟨s.toks, .escape a⟩
    else some ⟨s.toks, .str (a ++ [c])⟩
  | .escape a => (cEscape c).map fun d => ⟨s.toks, .str (a ++ [d])⟩

/-- All bytes. -/
def lexRun (s : LexState) (t : List U8) : Option LexState := t.foldlM lexStep s

/-- The tokens of a text. -/
def cTokens (t : List U8) : Option (List CTok) :=
  match lexRun ⟨[], .between⟩ t with
  | some ⟨toks, .between⟩ => some toks
  | some ⟨toks, .ident a⟩ => some (toks ++ [.ident a])
  | some ⟨toks, .num ds u⟩ => (cNumber ds u).map fun t => toks ++ [t]
  | _ => none

/-- A word as token; and a punctuation mark. -/
def tokW (s : String) : CTok := .ident (ascii s)
def tokP (s : String) : CTok := .punct ((ascii s).headD 0)

/-- The sizes of the types on x86-64, by the words of their names. -/
def cSizes : List (List CTok × Nat) :=
  [([tokW "void", tokP "*"], 8), ([tokW "char"], 1), ([tokW "int8_t"], 1), ([tokW "wchar_t"], 4), ([tokW "short", tokW "int"], 2), ([tokW "int16_t"], 2),
   ([tokW "int"], 4), ([tokW "int32_t"], 4), ([tokW "long", tokW "int"], 8), ([tokW "int64_t"], 8), ([tokW "unsigned", tokW "char"], 1),
   ([tokW "uint8_t"], 1), ([tokW "unsigned", tokW "short", tokW "int"], 2), ([tokW "uint16_t"], 2), ([tokW "unsigned", tokW "int"], 4),
   ([tokW "uint32_t"], 4), ([tokW "unsigned", tokW "long", tokW "int"], 8), ([tokW "uint64_t"], 8), ([tokW "size_t"], 8), ([tokW "float"], 4),
   ([tokW "double"], 8)]

/-- The enumerators of `__type_format` in their order. -/
def cFormats : List (CTok × TypeFormat) :=
  [(tokW "__GT_TRACEDB_UNSIGNED", .unsigned), (tokW "__GT_TRACEDB_SIGNED", .signed), (tokW "__GT_TRACEDB_FLOAT", .float),
   (tokW "__GT_TRACEDB_POINTER", .pointer), (tokW "__GT_TRACEDB_BLOB", .blob), (tokW "__GT_TRACEDB_INVALID_FORMAT", .invalid)]

/-- Something at the beginning of a list of tokens. -/
abbrev CRead (α : Type) := List CTok → Option (α × List CTok)

/-- One given token. -/
def takeTok (t : CTok) : CRead Unit
  | [] => none
  | x :: r => if x = t then some ((), r) else none

/-- Given tokens. -/
def takeToks : List CTok → CRead Unit
  | [], r => some ((), r)
  | t :: ts, r => (takeTok t r).bind fun x => takeToks ts x.2

def takeNum : CRead Nat
  | .num n _ :: r => some (n, r)
  | _ => none

def takeIdent : CRead Name
  | .ident s :: r => some (s, r)
  | _ => none

def takeFormat : CRead TypeFormat
  | t :: r => (cFormats.lookup t).map fun f => (f, r)
  | [] => none

/-- A number or `sizeof` of a type. -/
def takeSize : CRead Nat
  | .num n _ :: r => some (n, r)
  | t :: u :: r =>
    if t = tokW "sizeof" ∧ u = tokP "(" then
      match cSizes.lookup (r.takeWhile (· != tokP ")")), r.dropWhile (· != tokP ")") with
      | some z, _ :: r' => some (z, r')
      | _, _ => none
    else none
  | _ => none

/-- The initialisers of the table of names up to the closing brace. -/
def takeNameList : List CTok → Option (List Name × List CTok)
  | .str s :: t :: r => if t = tokP "," then (takeNameList r).map fun x => (s :: x.1, x.2) else none
  | t :: r => if t = tokP "}" then some ([], r) else none
  | [] => none

/-- The declaration of the table of names. -/
def takeNames (ts : List CTok) : Option (List Name × List CTok) :=
  match takeToks [tokW "const", tokW "char", tokP "*", tokP "*", tokW "names", tokP "=", tokW "NULL"] ts with
  | some x => some ([], x.2)
  | none =>
    (takeToks [tokW "const", tokW "char", tokP "*", tokW "names", tokP "[", tokP "]", tokP "=", tokP "{"] ts).bind fun x => takeNameList x.2

/-- An initialiser of the table of types. -/
def takeRow (ts : List CTok) : Option (TypeRow × List CTok) := do
  let (_, ts) ← takeTok (tokP "{") ts
  let (n, ts) ← takeNum ts
  let (_, ts) ← takeTok (tokP ",") ts
  let (f, ts) ← takeFormat ts
  let (_, ts) ← takeTok (tokP ",") ts
  let (z, ts) ← takeSize ts
  let (_, ts) ← takeToks [tokP "}", tokP ","] ts
  pure (⟨n, f, z⟩, ts)

/-- The initialisers up to the closing brace; at most `fuel` of them. -/
def takeRowList : Nat → List CTok → Option (List TypeRow × List CTok)
  | 0, _ => none
  | fuel + 1, ts =>
    match takeTok (tokP "}") ts with
    | some x => some ([], x.2)
    | none => (takeRow ts).bind fun x => (takeRowList fuel x.2).map fun y => (x.1 :: y.1, y.2)

/-- The declaration of the table of types. -/
def takeTypes (ts : List CTok) : Option (List TypeRow × List CTok) :=
  match takeToks [tokW "const", tokW "__trace_type_description", tokP "*", tokW "types", tokP "=", tokW "NULL"] ts with
  | some x => some ([], x.2)
  | none =>
    (takeToks [tokW "const", tokW "__trace_type_description", tokW "types", tokP "[", tokP "]", tokP "=", tokP "{"] ts).bind fun x =>
      takeRowList ts.length x.2

/-- What a variable is passed as: indices, size, format, and the variable itself. -/
structure ReadVar where
  name : Nat
  type : Nat
  size : Nat
  format : TypeFormat
  expr : Name
  deriving DecidableEq, Repr

/-- A string: indices, whether length and contents are asked of an object of C++, and the
variable. -/
structure ReadBlob where
  name : Nat
  type : Nat
  cpp : Bool
  expr : Name
  deriving DecidableEq, Repr

def takeVar (ts : List CTok) : Option (ReadVar × List CTok) := do
  let (_, ts) ← takeTok (tokP ",") ts
  let (n, ts) ← takeNum ts
  let (_, ts) ← takeTok (tokP ",") ts
  let (t, ts) ← takeNum ts
  let (_, ts) ← takeTok (tokP ",") ts
  let (z, ts) ← takeSize ts
  let (_, ts) ← takeTok (tokP ",") ts
  let (f, ts) ← takeFormat ts
  let (_, ts) ← takeTok (tokP ",") ts
  let (e, ts) ← takeIdent ts
  pure (⟨n, t, z, f, e⟩, ts)

/-- `strlen(x), x` or `(x).length(), (x).c_str()`. -/
def takeLengthAndStart (ts : List CTok) : Option ((Bool × Name) × List CTok) :=
  match takeToks [tokW "strlen", tokP "("] ts with
  | some (_, ts) => do
    let (x, ts) ← takeIdent ts
    let (_, ts) ← takeToks [tokP ")", tokP ",", .ident x] ts
    pure ((false, x), ts)
  | none => do
    let (_, ts) ← takeTok (tokP "(") ts
    let (x, ts) ← takeIdent ts
    let (_, ts) ← takeToks [tokP ")", tokP ".", tokW "length", tokP "(", tokP ")", tokP ",", tokP "(", .ident x, tokP ")", tokP ".", tokW "c_str", tokP "(",
      tokP ")"] ts
    pure ((true, x), ts)

def takeBlob (ts : List CTok) : Option (ReadBlob × List CTok) := do
  let (_, ts) ← takeTok (tokP ",") ts
  let (n, ts) ← takeNum ts
  let (_, ts) ← takeTok (tokP ",") ts
  let (t, ts) ← takeNum ts
  let (_, ts) ← takeTok (tokP ",") ts
  let (e, ts) ← takeLengthAndStart ts
  pure (⟨n, t, e.1, e.2⟩, ts)

/-- As many times as the functions with variable arguments do. -/
def takeTimes {α : Type} (f : List CTok → Option (α × List CTok)) : Nat → List CTok → Option (List α × List CTok)
  | 0, ts => some ([], ts)
  | n + 1, ts => (f ts).bind fun x => (takeTimes f n x.2).map fun y => (x.1 :: y.1, y.2)

/-- What a statement of the instrumentation does. -/
inductive ReadCall where
  | id (n : Nat)
  | variables (l : List ReadVar)
  | blobs (l : List ReadBlob)
  | endEntry
  deriving DecidableEq, Repr

/-- A call with variable arguments. -/
def takeCounted {α : Type} (f : List CTok → Option (α × List CTok)) (ts : List CTok) : Option (List α) := do
  let (n, ts) ← takeNum ts
  let (l, ts) ← takeTimes f n ts
  let (_, ts) ← takeToks [tokP ")", tokP ";"] ts
  if ts.isEmpty then pure l else none

/-- A statement of the instrumentation. -/
def takeCall (ts : List CTok) : Option ReadCall := do
  let (f, ts) ← takeIdent ts
  let (_, ts) ← takeToks [tokP "(", tokW "__sel_trace_file", tokP ","] ts
  if f = ascii "__write_trace_variables" then (takeCounted takeVar ts).map .variables
  else if f = ascii "__write_trace_blobs" then (takeCounted takeBlob ts).map .blobs
  else
    let (_, ts) ← takeTok (tokW "__sel_trace_file_lock") ts
    if f = ascii "__write_end_entry" then
      if ts = [tokP ")", tokP ";"] then pure .endEntry else none
    else if f = ascii "__write_trace_id" then
      match ts with
      | [c, .num n true, d, e] => if c = tokP "," ∧ d = tokP ")" ∧ e = tokP ";" then pure (.id n) else none
      | _ => none
    else none

/-- Where the trace goes. -/
inductive ReadOpen where
  | stderr
  | stdout
  /-- the file of this name -/
  | file (name : List U8)
  /-- the file named by this variable of the environment -/
  | env (name : List U8)
  /-- the file named by the handshake -/
  | buffer
  deriving DecidableEq, Repr

/-- An expression for an open file. -/
def takeOpen : List CTok → Option (ReadOpen × List CTok)
  | .ident f :: r =>
    if f = ascii "stderr" then some (.stderr, r)
    else if f = ascii "stdout" then some (.stdout, r)
    else if f = ascii "fopen" then
      match takeTok (tokP "(") r with
      | none => none
      | some (_, .str n :: r) => (takeToks [tokP ",", .str (ascii "w"), tokP ")"] r).map fun x => (.file n, x.2)
      | some (_, r) =>
        match takeToks [tokW "buffer", tokP ",", .str (ascii "w"), tokP ")"] r with
        | some x => some (.buffer, x.2)
        | none =>
          match takeToks [tokW "getenv", tokP "("] r with
          | some (_, .str n :: r) => (takeToks [tokP ")", tokP ",", .str (ascii "w"), tokP ")"] r).map fun x => (.env n, x.2)
          | _ => none
    else none
  | _ => none

/-- What the setup code does: where the trace goes, and the tables that are written. -/
structure ReadSetup where
  opens : ReadOpen
  names : List Name
  types : List TypeRow
  deriving DecidableEq, Repr

/-- The setup code; the counts passed are the lengths of the tables. -/
def takeSetup (ts : List CTok) : Option ReadSetup := do
  let (_, ts) ← takeToks [tokW "__sel_trace_file", tokP "="] ts
  let (o, ts) ← takeOpen ts
  let (_, ts) ← takeToks [tokP ";", tokW "__sel_trace_file_lock", tokP "=", tokP "&", tokW "__static_lock", tokP ";"] ts
  let (names, ts) ← takeNames ts
  let (_, ts) ← takeTok (tokP ";") ts
  let (types, ts) ← takeTypes ts
  let (_, ts) ← takeToks [tokP ";", tokW "pthread_mutex_init", tokP "(", tokP "(", tokW "pthread_mutex_t", tokP "*", tokP ")",
    tokW "__sel_trace_file_lock", tokP ",", tokW "NULL", tokP ")", tokP ";", tokW "__write_trace_header", tokP "(", tokW "__sel_trace_file", tokP ",",
    tokW "__sel_trace_file_lock", tokP ",", tokW "names", tokP ","] ts
  let (n, ts) ← takeNum ts
  let (_, ts) ← takeToks [tokP ",", tokW "types", tokP ","] ts
  let (m, ts) ← takeNum ts
  let (_, ts) ← takeToks [tokP ")", tokP ";", tokP "}"] ts
  if ts.isEmpty ∧ n = names.length ∧ m = types.length then pure ⟨o, names, types⟩ else none

/-- What a call for these variables is to be read as. -/
def GenVar.read (g : GenVar) : ReadVar := ⟨g.name, g.type, g.size, g.format, g.var.name⟩
def GenBlob.read (g : GenBlob) : ReadBlob := ⟨g.name, g.type, g.var.type.isCppString, g.var.name⟩
def GenCall.read : GenCall → ReadCall
  | .variables l => .variables (l.map GenVar.read)
  | .blobs l => .blobs (l.map GenBlob.read)

/-- A row of the table of types as text and as values: both are for the same type. -/
def RowFor (x : Nat × TypeFormat × SizeText) (r : TypeRow) : Prop :=
  x.1 = r.name ∧ ∃ t ps, formatAndSizeText t ps = some (x.2.1, x.2.2) ∧ formatAndSize t ps = some (r.format, r.size)

end TraceDB
