import Verif.Proofs.GenTextTables
import Verif.Props.Instrument
/-
C69: the C text that the instrumentation generates.
-/
namespace TraceDB

/-- Where the trace goes for arguments that give a file or none. -/
def TraceFileArg.read : TraceFileArg → ReadOpen
  | .absent => .buffer
  | .stderr => .stderr
  | .stdout => .stdout
  | .file n => .file n

/-- **C69, calls.**  The text of each call that is generated for any variables with
identifiers as names reads as a call of the right function with exactly the arguments that
belong to the variables, and as many as it says. -/
theorem C69_calls (te : TableTests) (ps : Bool) (vs : List ScopeVar) (s : Tables) (hi : ∀ v ∈ vs, CIdent v.name) :
    ∀ c ∈ (instrumentExprs te ps vs s).1, (cTokens (c.text ps)).bind takeCall = some c.read := by
  intro c hc
  obtain ⟨h1, h2⟩ := genExprs_vars te ps vs s
  simp only [instrumentExprs, List.mem_append] at hc
  rcases hc with hc | hc
  · split at hc
    · cases hc
    · rename_i he
      cases List.mem_singleton.mp hc
      exact variables_read (by simpa using he) (fun g hg => hi _ (h1 g hg).1) fun g hg => (h1 g hg).2
  · split at hc
    · cases hc
    · rename_i he
      cases List.mem_singleton.mp hc
      exact blobs_read (by simpa using he) (fun g hg => hi _ (h2 g hg).1) fun g hg => (h2 g hg).2

/-- **C69, statement ids.** -/
theorem C69_id (n : Nat) : (cTokens (traceIdText n)).bind takeCall = some (.id n) := by
  have h1 : Lexes ([10] ++ ascii "__write_trace_id(" ++ logVariable ++ ascii ", " ++ lockVariable ++ ascii ", ")
    [tokW "__write_trace_id", tokP "(", tokW "__sel_trace_file", tokP ",", tokW "__sel_trace_file_lock", tokP ","] := Lexes.of (by decide +kernel)
  have h2 : Lexes (ascii ");") [tokP ")", tokP ";"] := Lexes.of (by decide +kernel)
  have h3 := (h1.appendP (pending_decimal_u n)).append h2 (by decide +kernel)
  have e : traceIdText n = [10] ++ ascii "__write_trace_id(" ++ logVariable ++ ascii ", " ++ lockVariable ++ ascii ", " ++
      (decimal n ++ [117]) ++ ascii ");" := by
    have : ascii "u);" = [117] ++ ascii ");" := by decide +kernel
    simp [traceIdText, this]
  rw [e, h3.tokens, Option.bind_some]
  have n1 : ascii "__write_trace_id" ≠ ascii "__write_trace_variables" := by decide +kernel
  have n2 : ascii "__write_trace_id" ≠ ascii "__write_trace_blobs" := by decide +kernel
  have n3 : ascii "__write_trace_id" ≠ ascii "__write_end_entry" := by decide +kernel
  have e1 : ∀ r, takeToks [tokP "(", tokW "__sel_trace_file", tokP ","] (tokP "(" :: tokW "__sel_trace_file" :: tokP "," :: r) = some ((), r) :=
    takeToks_self [tokP "(", tokW "__sel_trace_file", tokP ","]
  show takeCall (.ident (ascii "__write_trace_id") :: tokP "(" :: tokW "__sel_trace_file" :: tokP "," :: tokW "__sel_trace_file_lock" ::
    [tokP ",", .num n true, tokP ")", tokP ";"]) = _
  unfold takeCall
  simp only [takeIdent, Option.bind_eq_bind, Option.bind_some, e1, n1, n2, n3, if_false, takeTok_self, if_true, and_self]
  rfl

/-- **C69, ends of entries.** -/
theorem C69_end : (cTokens endEntryText).bind takeCall = some .endEntry := by decide +kernel

/-- **C69, setup.**  For any statements whose variables have identifiers as names there is
text for the rows of the table of types such that the setup code reads as: open the place
asked for, declare exactly the names and types of the tables, and write the header with
them and their numbers. -/
theorem C69_setup (te : TableTests) (sites : List Site) (file : TraceFileArg) (hi : ∀ x ∈ sites, ∀ p ∈ x.parts, ∀ v ∈ p.2, CIdent v.name)
    (hf : ∀ n, file = .file n → (10 : U8) ∉ n) :
    let tabs := (instrumentSites te sites Tables.empty).2
    (∃ rows, AllRel RowFor rows (tabs.emitTypes te)) ∧
    ∀ rows, AllRel RowFor rows (tabs.emitTypes te) →
      (cTokens (setupText file none tabs.emitNames rows)).bind takeSetup = some ⟨file.read, tabs.emitNames, tabs.emitTypes te⟩ := by
  intro tabs
  have hw := instrumentSites_writable te sites Tables.empty hi Tables.writable_empty
  refine ⟨hw.emitTypes te, fun rows hr => ?_⟩
  have hr' := hr.imp fun _ _ h => RowFor.reads h
  cases file with
  | absent => exact setup_read open_buffer hw.emitNames hr'
  | stderr => exact setup_read (open_stderr none) hw.emitNames hr'
  | stdout => exact setup_read (open_stdout none) hw.emitNames hr'
  | file n => exact setup_read (open_file (hf n rfl) none) hw.emitNames hr'

/-- **C69, a file comes first.**  If a file is given, the variable of the environment does
not matter. -/
theorem C69_file_first (file : TraceFileArg) (env : List U8) (names : List Name) (rows : List (Nat × TypeFormat × SizeText))
    (hf : file ≠ .absent) : setupText file (some env) names rows = setupText file none names rows := by
  cases file with
  | absent => exact absurd rfl hf
  | _ => rfl

/-- **C69, variable of the environment.**  With the name of a variable as the argument
`:trace-env` (and no file) the generated code is never one that opens the file named by
that variable: the name is a word in it, not a string. -/
theorem C69_env_not_read (env : List U8) (he : CIdent env) (names : List Name) (hn : ∀ n ∈ names, (10 : U8) ∉ n)
    (rows : List (Nat × TypeFormat × SizeText)) (types : List TypeRow) (hr : AllRel RowFor rows types) :
    cTokens (fileOpenText .absent (some env)) =
      some [tokW "fopen", tokP "(", tokW "getenv", tokP "(", .ident env, tokP ")", tokP ",", .str (ascii "w"), tokP ")"] ∧
    (cTokens (setupText .absent (some env) names rows)).bind takeSetup = none := by
  refine ⟨?_, env_word he hn (hr.imp fun _ _ h => RowFor.reads h)⟩
  have h1 : Lexes (ascii "fopen(getenv(") [tokW "fopen", tokP "(", tokW "getenv", tokP "("] := Lexes.of (by decide +kernel)
  have h2 : Lexes (ascii "), \"w\")") [tokP ")", tokP ",", .str (ascii "w"), tokP ")"] := Lexes.of (by decide +kernel)
  exact ((h1.appendP (pending_ident he)).append h2 (by decide +kernel)).tokens

/-- **C69, quoted variable.**  It is such code if the argument is the name with quotes
around it. -/
theorem C69_env_quoted (env : List U8) (he : (10 : U8) ∉ env) (names : List Name) (hn : ∀ n ∈ names, (10 : U8) ∉ n)
    (rows : List (Nat × TypeFormat × SizeText)) (types : List TypeRow) (hr : AllRel RowFor rows types) :
    (cTokens (setupText .absent (some (prin1 env)) names rows)).bind takeSetup = some ⟨.env env, names, types⟩ :=
  setup_read (open_env he) hn (hr.imp fun _ _ h => RowFor.reads h)

/-- **C69, names of files.**  A name with a newline in it gives no C text at all; without,
the name is opened as it is, whatever quotes and backslashes are in it (`C69_setup`). -/
theorem C69_file_newline (n : List U8) (h : (10 : U8) ∈ n) (env : Option (List U8)) (names : List Name)
    (rows : List (Nat × TypeFormat × SizeText)) : cTokens (setupText (.file n) env names rows) = none := by
  have h1 : Lexes (logVariable ++ ascii " = " ++ ascii "fopen(") [tokW "__sel_trace_file", tokP "=", tokW "fopen", tokP "("] :=
    Lexes.of (by decide +kernel)
  have e : ∃ r, setupText (.file n) env names rows = (logVariable ++ ascii " = " ++ ascii "fopen(") ++ (prin1 n ++ r) := by
    unfold setupText fileOpenText
    generalize ascii "fopen(" = a, ascii " = " = b, logVariable = c
    simp only [List.append_assoc, List.append_cancel_left_eq, exists_eq']
  obtain ⟨r, e⟩ := e
  rw [cTokens, e, h1, prin1_newline h]

/-! The program of C61. -/

theorem insSites_idents : ∀ x ∈ insSites, ∀ p ∈ x.parts, ∀ v ∈ p.2, CIdent v.name := by
  have hx : CIdent insX.name := ⟨120, [], by decide +kernel, by decide, by simp⟩
  have hs : CIdent insS.name := ⟨115, [], by decide +kernel, by decide, by simp⟩
  have hy : CIdent insY.name := ⟨121, [], by decide +kernel, by decide, by simp⟩
  intro x hx' p hp v hv
  simp only [insSites, List.mem_cons, List.not_mem_nil, or_false] at hx'
  rcases hx' with rfl | rfl
  · simp only [List.mem_cons, List.not_mem_nil, or_false] at hp
    rcases hp with rfl | rfl <;> simp only [List.mem_cons, List.not_mem_nil, or_false] at hv
    · rcases hv with rfl | rfl | rfl <;> assumption
    · rw [hv]; exact hs
  · cases hp

/-- Its setup code. -/
example : setupText (.file (ascii "a\"b\\c")) none insNames [(0, .signed, .named (ascii "int")), (2, .blob, .zero), (2, .pointer, .pointer)] =
    ascii "__sel_trace_file = fopen(\"a\\\"b\\\\c\", \"w\");
  __sel_trace_file_lock = &__static_lock;
  const char *names[] = {\"int\", \"x\", \"*const char\", \"s\", };
  const __trace_type_description types[] = {{0, __GT_TRACEDB_SIGNED, sizeof(int)}, {2, __GT_TRACEDB_BLOB, 0}, {2, __GT_TRACEDB_POINTER, sizeof(void*)}, };

  pthread_mutex_init( (pthread_mutex_t *) __sel_trace_file_lock, NULL);
  __write_trace_header(__sel_trace_file,
                       __sel_trace_file_lock,
                       names, 4,
                       types, 3);
}" := by decide +kernel

/-- It is read as the tables and the name of the file. -/
example : ∃ rows, (cTokens (setupText (.file (ascii "a\"b\\c")) none insNames rows)).bind takeSetup =
    some ⟨.file (ascii "a\"b\\c"), insNames, insRows⟩ := by
  have h := C69_setup .equal insSites (.file (ascii "a\"b\\c")) insSites_idents (fun n hn => by cases hn; decide +kernel)
  simp only [insSites_code.2.1, insSites_code.2.2] at h
  obtain ⟨⟨rows, hr⟩, h2⟩ := h
  exact ⟨rows, h2 rows hr⟩

/-- Its calls. -/
example : (GenCall.variables [⟨1, 0, 4, .signed, insX⟩]).text true =
      ascii "__write_trace_variables(__sel_trace_file, 1, 1, 0, sizeof(int), __GT_TRACEDB_SIGNED, x);" ∧
    (GenCall.blobs [⟨3, 1, insS⟩]).text true = ascii "__write_trace_blobs(__sel_trace_file, 1, 3, 1, strlen(s), s);" ∧
    (GenCall.variables [⟨3, 2, 8, .pointer, insS⟩]).text false =
      ascii "__write_trace_variables(__sel_trace_file, 1, 3, 2, sizeof(void*), __GT_TRACEDB_POINTER, s);" ∧
    traceIdText 9007199254740993 = [10] ++ ascii "__write_trace_id(__sel_trace_file, __sel_trace_file_lock, 9007199254740993u);" := by
  decide +kernel

/-- The hypotheses of `C69_calls` hold for it, and there are two calls. -/
example : (instrumentExprs .equal true [insX, insS, insY] Tables.empty).1.length = 2 ∧
    (∀ v ∈ [insX, insS, insY], CIdent v.name) := by
  refine ⟨by decide +kernel, fun v hv => insSites_idents _ List.mem_cons_self _ List.mem_cons_self v hv⟩

/-- `:trace-env "TRACE"`. -/
example : fileOpenText .absent (some (ascii "TRACE")) = ascii "fopen(getenv(TRACE), \"w\")" ∧ CIdent (ascii "TRACE") ∧
    fileOpenText .absent (some (prin1 (ascii "TRACE"))) = ascii "fopen(getenv(\"TRACE\"), \"w\")" :=
  ⟨by decide +kernel, ⟨84, (ascii "TRACE").tail, by decide +kernel, by decide +kernel, by decide +kernel⟩, by decide +kernel⟩

end TraceDB
