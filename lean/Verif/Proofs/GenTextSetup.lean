import Verif.Proofs.GenTextRead
import Verif.Proofs.Instrument
/-
Helper lemmas: the text of generated calls and of the setup code.
-/
namespace TraceDB

/-! Calls -/

theorem genExprs_vars (te : TableTests) (ps : Bool) : ∀ (vs : List ScopeVar) (s : Tables),
    (∀ g ∈ (genExprs te ps vs s).1.1, g.var ∈ vs ∧ formatAndSize g.var.type ps = some (g.format, g.size)) ∧
    (∀ g ∈ (genExprs te ps vs s).1.2, g.var ∈ vs ∧ (g.var.type.isCString = true ∨ g.var.type.isCppString = true))
  | [], s => by simp [genExprs]
  | v :: vs, s => by
    cases hf : formatAndSize v.type ps with
    | none =>
      obtain ⟨h1, h2⟩ := genExprs_vars te ps vs s
      rw [genExprs, hf]
      exact ⟨fun g hg => ⟨List.mem_cons_of_mem _ (h1 g hg).1, (h1 g hg).2⟩, fun g hg => ⟨List.mem_cons_of_mem _ (h2 g hg).1, (h2 g hg).2⟩⟩
    | some fz =>
      obtain ⟨f, z⟩ := fz
      rw [genExprs, hf]
      simp only []
      generalize s.request te (.type (v.key ps) f z) = r1
      generalize r1.2.request te (.name v.name) = r2
      obtain ⟨h1, h2⟩ := genExprs_vars te ps vs r2.2
      have h1 : ∀ g ∈ (genExprs te ps vs r2.2).1.1, g.var ∈ v :: vs ∧ formatAndSize g.var.type ps = some (g.format, g.size) :=
        fun g hg => ⟨List.mem_cons_of_mem _ (h1 g hg).1, (h1 g hg).2⟩
      have h2 : ∀ g ∈ (genExprs te ps vs r2.2).1.2, g.var ∈ v :: vs ∧ (g.var.type.isCString = true ∨ g.var.type.isCppString = true) :=
        fun g hg => ⟨List.mem_cons_of_mem _ (h2 g hg).1, (h2 g hg).2⟩
      split
      · rename_i hc
        rw [Bool.and_eq_true] at hc
        refine ⟨h1, fun g hg => ?_⟩
        rcases List.mem_cons.mp hg with rfl | hg
        · exact ⟨List.mem_cons_self, .inl hc.2⟩
        · exact h2 g hg
      · split
        · rename_i hc
          rw [Bool.and_eq_true] at hc
          refine ⟨h1, fun g hg => ?_⟩
          rcases List.mem_cons.mp hg with rfl | hg
          · exact ⟨List.mem_cons_self, .inr hc.2⟩
          · exact h2 g hg
        · refine ⟨fun g hg => ?_, h2⟩
          rcases List.mem_cons.mp hg with rfl | hg
          · exact ⟨List.mem_cons_self, hf⟩
          · exact h1 g hg

theorem args_reads {g : GenVar} {ps : Bool} (h : formatAndSize g.var.type ps = some (g.format, g.size)) :
    (g.args ps).size.Reads g.size := by
  obtain ⟨s, h1, h2⟩ := sizeText_reads h
  unfold GenVar.args
  rw [h1]
  exact h2

theorem not_cpp_of_c {t : CType} (h : t.isCString = true) : t.isCppString = false := by
  unfold CType.isCString at h
  rw [Bool.and_eq_true, beq_iff_eq] at h
  unfold CType.isCppString
  rw [h.1]
  decide

theorem variables_read {ps : Bool} {l : List GenVar} (hn : l ≠ []) (hi : ∀ g ∈ l, CIdent g.var.name)
    (hz : ∀ g ∈ l, formatAndSize g.var.type ps = some (g.format, g.size)) :
    (cTokens ((GenCall.variables l).text ps)).bind takeCall = some (GenCall.variables l).read := by
  have hf : CIdent (ascii "__write_trace_variables") := ⟨95, (ascii "__write_trace_variables").tail, by decide +kernel, by decide +kernel,
    by decide +kernel⟩
  have h1 := lexes_call hf (l := l.map fun g => ((g.args ps).text, (g.args ps).toks)) (by
    intro p hp
    obtain ⟨g, hg, rfl⟩ := List.mem_map.mp hp
    exact pending_var (args_reads (hz g hg)) (hi g hg)) (by simpa using hn)
  have h2 := takeCounted_text (f := takeVar) (l := l.map fun g => ((g.args ps).toks, g.read)) (by
    intro p hp r
    obtain ⟨g, hg, rfl⟩ := List.mem_map.mp hp
    exact takeVar_text (args_reads (hz g hg)) r)
  have e : (GenCall.variables l).text ps = callText (ascii "__write_trace_variables") ((l.map fun g => ((g.args ps).text, (g.args ps).toks)).map (·.1)) := by
    simp [GenCall.text, variablesText, Function.comp_def]
  rw [e, h1.tokens, Option.bind_some]
  simp only [List.map_map, List.length_map, Function.comp_def] at h2 ⊢
  have e2 := takeToks_self [tokP "(", tokW "__sel_trace_file", tokP ","]
    (CTok.num l.length false :: (commaToks (List.map (fun x => (GenVar.args ps x).toks) l) ++ [tokP ")", tokP ";"]))
  simp only [List.cons_append, List.nil_append] at e2
  unfold takeCall
  simp only [takeIdent, Option.bind_eq_bind, Option.bind_some, e2, if_true, h2, Option.map_some, GenCall.read]

theorem blobs_read {ps : Bool} {l : List GenBlob} (hn : l ≠ []) (hi : ∀ g ∈ l, CIdent g.var.name)
    (hz : ∀ g ∈ l, g.var.type.isCString = true ∨ g.var.type.isCppString = true) :
    (cTokens ((GenCall.blobs l).text ps)).bind takeCall = some (GenCall.blobs l).read := by
  have hf : CIdent (ascii "__write_trace_blobs") := ⟨95, (ascii "__write_trace_blobs").tail, by decide +kernel, by decide +kernel,
    by decide +kernel⟩
  have h1 := lexes_call hf (l := l.map fun g => (g.args.text, g.args.toks)) (by
    intro p hp
    obtain ⟨g, hg, rfl⟩ := List.mem_map.mp hp
    exact pending_blob (hi g hg)) (by simpa using hn)
  have h2 := takeCounted_text (f := takeBlob) (l := l.map fun g => (g.args.toks, g.read)) (by
    intro p hp r
    obtain ⟨g, hg, rfl⟩ := List.mem_map.mp hp
    have hc : (!g.var.type.isCString) = g.var.type.isCppString := by
      rcases hz g hg with h | h
      · rw [h, not_cpp_of_c h]; rfl
      · cases hcs : g.var.type.isCString with
        | false => rw [h]; rfl
        | true => rw [not_cpp_of_c hcs] at h; cases h
    have := takeBlob_text g.args r
    rw [this]
    show some ((⟨g.name, g.type, !g.var.type.isCString, g.var.name⟩ : ReadBlob), r) = _
    rw [hc]
    rfl)
  have e : (GenCall.blobs l).text ps = callText (ascii "__write_trace_blobs") ((l.map fun g => (g.args.text, g.args.toks)).map (·.1)) := by
    simp [GenCall.text, blobsText, Function.comp_def]
  rw [e, h1.tokens, Option.bind_some]
  simp only [List.map_map, List.length_map, Function.comp_def] at h2 ⊢
  have e2 := takeToks_self [tokP "(", tokW "__sel_trace_file", tokP ","]
    (CTok.num l.length false :: (commaToks (List.map (fun x => (GenBlob.args x).toks) l) ++ [tokP ")", tokP ";"]))
  simp only [List.cons_append, List.nil_append] at e2
  unfold takeCall
  have hne : ascii "__write_trace_blobs" ≠ ascii "__write_trace_variables" := by decide +kernel
  simp only [takeIdent, Option.bind_eq_bind, Option.bind_some, e2, hne, if_false, if_true, h2, Option.map_some, GenCall.read]

/-! Tables -/

def nameToks : List Name → List CTok
  | [] => []
  | n :: ns => .str n :: tokP "," :: nameToks ns

theorem lexes_names {l : List Name} (h : ∀ n ∈ l, (10 : U8) ∉ n) : Lexes (commaAfter (l.map prin1)) (nameToks l) := by
  induction l with
  | nil => exact Lexes.nil
  | cons n l ih =>
    have := ((lexes_prin1 (h n List.mem_cons_self)).append lexes_comma).append (ih fun m hm => h m (List.mem_cons_of_mem _ hm))
    exact this

theorem takeNameList_text (l : List Name) (r : List CTok) : takeNameList (nameToks l ++ tokP "}" :: r) = some (l, r) := by
  induction l with
  | nil =>
    show takeNameList (.punct _ :: r) = _
    simp only [takeNameList]
    exact if_pos rfl
  | cons n l ih =>
    show (if tokP "," = tokP "," then _ else none) = _
    rw [if_pos rfl]
    show Option.map (fun x => (n :: x.1, x.2)) (takeNameList (nameToks l ++ tokP "}" :: r)) = _
    rw [ih]
    rfl

/-- The tokens of the declaration of the names. -/
def namesToks (l : List Name) : List CTok :=
  if l.isEmpty then [tokW "const", tokW "char", tokP "*", tokP "*", tokW "names", tokP "=", tokW "NULL"]
  else [tokW "const", tokW "char", tokP "*", tokW "names", tokP "[", tokP "]", tokP "=", tokP "{"] ++ nameToks l ++ [tokP "}"]

theorem pending_names {l : List Name} (h : ∀ n ∈ l, (10 : U8) ∉ n) : Pending (namesText l) (namesToks l) := by
  unfold namesText namesToks
  split
  · exact Pending.of (t := [tokW "const", tokW "char", tokP "*", tokP "*", tokW "names", tokP "="]) (by decide +kernel)
  · have h1 : Lexes (ascii "const char *names[] = {") [tokW "const", tokW "char", tokP "*", tokW "names", tokP "[", tokP "]", tokP "=", tokP "{"] :=
      Lexes.of (by decide +kernel)
    have h2 : Lexes (ascii "}") [tokP "}"] := Lexes.of (by decide +kernel)
    exact ((h1.append (lexes_names h)).append h2).pending

theorem takeNames_text (l : List Name) (r : List CTok) : takeNames (namesToks l ++ r) = some (l, r) := by
  unfold takeNames namesToks
  cases l with
  | nil =>
    simp only [List.isEmpty_nil, if_true, takeToks_self]
  | cons n l =>
    simp only [List.isEmpty_cons, Bool.false_eq_true, if_false]
    have hn : takeToks [tokW "const", tokW "char", tokP "*", tokP "*", tokW "names", tokP "=", tokW "NULL"]
        ([tokW "const", tokW "char", tokP "*", tokW "names", tokP "[", tokP "]", tokP "=", tokP "{"] ++ nameToks (n :: l) ++ [tokP "}"] ++ r) = none := by
      have : tokW "names" ≠ tokP "*" := by decide +kernel
      simp [takeToks, takeTok, this]
    rw [hn]
    simp only [List.append_assoc]
    rw [takeToks_self, Option.bind_some]
    exact takeNameList_text (n :: l) r

def rowToks (x : Nat × TypeFormat × SizeText) : List CTok :=
  [tokP "{"] ++ [.num x.1 false] ++ [tokP ","] ++ [.ident (formatText x.2.1)] ++ [tokP ","] ++ x.2.2.toks ++ [tokP "}"]

theorem lexes_row {x : Nat × TypeFormat × SizeText} {z : Nat} (h : x.2.2.Reads z) : Lexes (rowText x.1 x.2.1 x.2.2) (rowToks x) := by
  have h1 : Lexes (ascii "{") [tokP "{"] := Lexes.of (by decide +kernel)
  have h2 : Lexes (ascii "}") [tokP "}"] := Lexes.of (by decide +kernel)
  exact (((((h1.appendP (pending_decimal x.1)).append lexes_comma sep_comma).appendP (pending_format x.2.1)).append lexes_comma sep_comma).appendP
    h.1).append h2 (by decide +kernel)

theorem takeRow_text {x : Nat × TypeFormat × SizeText} {z : Nat} (h : x.2.2.Reads z) (r : List CTok) :
    takeRow (rowToks x ++ tokP "," :: r) = some (⟨x.1, x.2.1, z⟩, r) := by
  have e : rowToks x ++ tokP "," :: r = tokP "{" :: .num x.1 false :: tokP "," :: .ident (formatText x.2.1) :: tokP "," :: (x.2.2.toks ++
      ([tokP "}", tokP ","] ++ r)) := by simp [rowToks]
  rw [e]
  unfold takeRow
  simp only [takeTok_self, Option.bind_eq_bind, Option.bind_some, takeNum, h.2, takeFormat_text, takeToks_self]
  rfl

def rowsToks : List (Nat × TypeFormat × SizeText) → List CTok
  | [] => []
  | x :: xs => rowToks x ++ tokP "," :: rowsToks xs

/-- Text and value of a row. -/
def RowReads (x : Nat × TypeFormat × SizeText) (r : TypeRow) : Prop := x.1 = r.name ∧ x.2.1 = r.format ∧ x.2.2.Reads r.size

theorem RowFor.reads {x : Nat × TypeFormat × SizeText} {r : TypeRow} (h : RowFor x r) : RowReads x r := by
  obtain ⟨h1, t, ps, h2, h3⟩ := h
  obtain ⟨s, h4, h5⟩ := sizeText_reads h3
  rw [h2] at h4
  simp only [Option.some.injEq, Prod.mk.injEq] at h4
  exact ⟨h1, h4.1, h4.2 ▸ h5⟩

theorem lexes_rows {l : List (Nat × TypeFormat × SizeText)} {rs : List TypeRow} (h : AllRel RowReads l rs) :
    Lexes (commaAfter (l.map fun r => rowText r.1 r.2.1 r.2.2)) (rowsToks l) := by
  induction h with
  | nil => exact Lexes.nil
  | @cons x r l rs hx _ ih =>
    have := ((lexes_row hx.2.2).append lexes_comma).append ih
    simpa [commaAfter, rowsToks] using this

theorem takeRowList_text {l : List (Nat × TypeFormat × SizeText)} {rs : List TypeRow} (h : AllRel RowReads l rs) (r : List CTok) :
    ∀ fuel, l.length < fuel → takeRowList fuel (rowsToks l ++ tokP "}" :: r) = some (rs, r) := by
  induction h with
  | nil =>
    intro fuel hf
    obtain ⟨n, rfl⟩ : ∃ n, fuel = n + 1 := ⟨fuel - 1, by simp at hf; omega⟩
    simp only [rowsToks, List.nil_append, takeRowList, takeTok_self]
  | @cons x y l rs hx _ ih =>
    intro fuel hf
    obtain ⟨n, rfl⟩ : ∃ n, fuel = n + 1 := ⟨fuel - 1, by simp at hf; omega⟩
    have h1 : takeTok (tokP "}") (rowsToks (x :: l) ++ tokP "}" :: r) = none := by
      have : tokP "{" ≠ tokP "}" := by decide +kernel
      simp [rowsToks, rowToks, takeTok, this]
    have h2 : rowsToks (x :: l) ++ tokP "}" :: r = rowToks x ++ tokP "," :: (rowsToks l ++ tokP "}" :: r) := by simp [rowsToks]
    rw [takeRowList, h1]
    simp only []
    rw [h2, takeRow_text hx.2.2, Option.bind_some, ih n (by simp at hf; omega), Option.map_some, hx.1, hx.2.1]

def typesToks (l : List (Nat × TypeFormat × SizeText)) : List CTok :=
  if l.isEmpty then [tokW "const", tokW "__trace_type_description", tokP "*", tokW "types", tokP "=", tokW "NULL"]
  else [tokW "const", tokW "__trace_type_description", tokW "types", tokP "[", tokP "]", tokP "=", tokP "{"] ++ rowsToks l ++ [tokP "}"]

theorem pending_types {l : List (Nat × TypeFormat × SizeText)} {rs : List TypeRow} (h : AllRel RowReads l rs) :
    Pending (typesText l) (typesToks l) := by
  unfold typesText typesToks
  split
  · exact Pending.of (t := [tokW "const", tokW "__trace_type_description", tokP "*", tokW "types", tokP "="]) (by decide +kernel)
  · have h1 : Lexes (ascii "const __trace_type_description types[] = {")
        [tokW "const", tokW "__trace_type_description", tokW "types", tokP "[", tokP "]", tokP "=", tokP "{"] := Lexes.of (by decide +kernel)
    have h2 : Lexes (ascii "}") [tokP "}"] := Lexes.of (by decide +kernel)
    exact ((h1.append (lexes_rows h)).append h2).pending

theorem rowsToks_length (l : List (Nat × TypeFormat × SizeText)) : l.length ≤ (rowsToks l).length := by
  induction l with
  | nil => simp
  | cons x l ih =>
    simp only [rowsToks, List.length_append, List.length_cons]
    omega

theorem takeTypes_text {l : List (Nat × TypeFormat × SizeText)} {rs : List TypeRow} (h : AllRel RowReads l rs) (r : List CTok) :
    takeTypes (typesToks l ++ r) = some (rs, r) := by
  unfold takeTypes typesToks
  cases h with
  | nil => simp only [List.isEmpty_nil, if_true, takeToks_self]
  | @cons x y l rs hx hl =>
    have h := AllRel.cons hx hl
    simp only [List.isEmpty_cons, Bool.false_eq_true, if_false]
    have hn : takeToks [tokW "const", tokW "__trace_type_description", tokP "*", tokW "types", tokP "=", tokW "NULL"]
        ([tokW "const", tokW "__trace_type_description", tokW "types", tokP "[", tokP "]", tokP "=", tokP "{"] ++ rowsToks (x :: l) ++ [tokP "}"] ++ r) =
        none := by
      have : tokW "types" ≠ tokP "*" := by decide +kernel
      simp [takeToks, takeTok, this]
    rw [hn]
    simp only [List.append_assoc]
    rw [takeToks_self, Option.bind_some]
    refine takeRowList_text h r _ ?_
    have := rowsToks_length (x :: l)
    simp only [List.length_append, List.length_cons, List.length_nil] at this ⊢
    omega

/-! Setup -/

/-- The tokens for the file. -/
def OpenReads (text : List U8) (toks : List CTok) (o : ReadOpen) : Prop :=
  Pending text toks ∧ ∀ r, takeOpen (toks ++ r) = some (o, r)

/-- All tokens of the setup code. -/
def setupToks (o : List CTok) (names : List Name) (rows : List (Nat × TypeFormat × SizeText)) : List CTok :=
  [tokW "__sel_trace_file", tokP "="] ++ (o ++ ([tokP ";", tokW "__sel_trace_file_lock", tokP "=", tokP "&", tokW "__static_lock", tokP ";"] ++
    (namesToks names ++ (tokP ";" :: (typesToks rows ++ ([tokP ";", tokW "pthread_mutex_init", tokP "(", tokP "(", tokW "pthread_mutex_t", tokP "*",
    tokP ")", tokW "__sel_trace_file_lock", tokP ",", tokW "NULL", tokP ")", tokP ";", tokW "__write_trace_header", tokP "(", tokW "__sel_trace_file",
    tokP ",", tokW "__sel_trace_file_lock", tokP ",", tokW "names", tokP ","] ++ (.num names.length false :: ([tokP ",", tokW "types", tokP ","] ++
    (.num rows.length false :: ([tokP ")", tokP ";", tokP "}"] ++ []))))))))))

theorem lexes_setup {file : TraceFileArg} {env : Option (List U8)} {o : List CTok} {names : List Name}
    {rows : List (Nat × TypeFormat × SizeText)} {rs : List TypeRow}
    (ho : Pending (fileOpenText file env) o) (hn : ∀ n ∈ names, (10 : U8) ∉ n) (hr : AllRel RowReads rows rs) :
    Lexes (setupText file env names rows) (setupToks o names rows) := by
  have c1 : Lexes (logVariable ++ ascii " = ") [tokW "__sel_trace_file", tokP "="] := Lexes.of (by decide +kernel)
  have c2 : Lexes (ascii ";" ++ [10] ++ ascii "  " ++ lockVariable ++ ascii " = &__static_lock;" ++ [10] ++ ascii "  ")
    [tokP ";", tokW "__sel_trace_file_lock", tokP "=", tokP "&", tokW "__static_lock", tokP ";"] := Lexes.of (by decide +kernel)
  have c3 : Lexes (ascii ";" ++ [10] ++ ascii "  ") [tokP ";"] := Lexes.of (by decide +kernel)
  have c4 : Lexes (ascii ";" ++ [10, 10] ++ ascii "  pthread_mutex_init( (pthread_mutex_t *) " ++ lockVariable ++
      ascii ", NULL);" ++ [10] ++ ascii "  __write_trace_header(" ++ logVariable ++ ascii "," ++ [10] ++
      ascii "                       " ++ lockVariable ++ ascii "," ++ [10] ++
      ascii "                       names, ") [tokP ";", tokW "pthread_mutex_init", tokP "(", tokP "(", tokW "pthread_mutex_t", tokP "*",
    tokP ")", tokW "__sel_trace_file_lock", tokP ",", tokW "NULL", tokP ")", tokP ";", tokW "__write_trace_header", tokP "(", tokW "__sel_trace_file",
    tokP ",", tokW "__sel_trace_file_lock", tokP ",", tokW "names", tokP ","] := Lexes.of (by decide +kernel)
  have c5 : Lexes (ascii "," ++ [10] ++ ascii "                       types, ") [tokP ",", tokW "types", tokP ","] := Lexes.of (by decide +kernel)
  have c6 : Lexes (ascii ");" ++ [10] ++ ascii "}") [tokP ")", tokP ";", tokP "}"] := Lexes.of (by decide +kernel)
  have h := (((((((((c1.appendP ho).append c2 (by decide +kernel)).appendP (pending_names hn)).append c3 (by decide +kernel)).appendP
    (pending_types hr)).append c4 (by decide +kernel)).appendP (pending_decimal names.length)).append c5 (by decide +kernel)).appendP
    (pending_decimal rows.length)).append c6 (by decide +kernel)
  unfold setupText setupToks
  simp only [List.append_assoc, List.append_nil, List.cons_append, List.nil_append] at h ⊢
  exact h

theorem AllRel.length_eq' {α β : Type} {R : α → β → Prop} {l : List α} {m : List β} (h : AllRel R l m) : l.length = m.length := by
  induction h with
  | nil => rfl
  | cons _ _ ih => simp [ih]

theorem setup_read {file : TraceFileArg} {env : Option (List U8)} {o : List CTok} {ro : ReadOpen} {names : List Name}
    {rows : List (Nat × TypeFormat × SizeText)} {rs : List TypeRow}
    (ho : OpenReads (fileOpenText file env) o ro) (hn : ∀ n ∈ names, (10 : U8) ∉ n) (hr : AllRel RowReads rows rs) :
    (cTokens (setupText file env names rows)).bind takeSetup = some ⟨ro, names, rs⟩ := by
  rw [(lexes_setup ho.1 hn hr).tokens, Option.bind_some]
  unfold takeSetup setupToks
  simp only [Option.bind_eq_bind, takeToks_self, Option.bind_some, ho.2, takeNames_text, takeTok_self, takeTypes_text hr, takeNum]
  have := hr.length_eq'
  simp [this]

theorem open_stderr (env : Option (List U8)) : OpenReads (fileOpenText .stderr env) [tokW "stderr"] .stderr :=
  ⟨Pending.of (t := []) (by show lexRun _ (ascii "stderr") = _; decide +kernel), fun r => by
    simp [takeOpen, tokW]⟩

theorem open_stdout (env : Option (List U8)) : OpenReads (fileOpenText .stdout env) [tokW "stdout"] .stdout :=
  ⟨Pending.of (t := []) (by show lexRun _ (ascii "stdout") = _; decide +kernel), fun r => by
    have : ascii "stdout" ≠ ascii "stderr" := by decide +kernel
    simp [takeOpen, tokW, this]⟩

theorem lexes_w : Lexes (ascii ", \"w\")") [tokP ",", .str (ascii "w"), tokP ")"] := Lexes.of (by decide +kernel)
theorem lexes_fopen : Lexes (ascii "fopen(") [tokW "fopen", tokP "("] := Lexes.of (by decide +kernel)

theorem fopen_ne : ascii "fopen" ≠ ascii "stderr" ∧ ascii "fopen" ≠ ascii "stdout" := by decide +kernel

theorem takeOpen_str (n : List U8) (r : List CTok) : takeOpen (tokW "fopen" :: tokP "(" :: .str n :: r) =
    (takeToks [tokP ",", .str (ascii "w"), tokP ")"] r).map fun x => (.file n, x.2) := by
  unfold takeOpen
  simp only [tokW, fopen_ne.1, fopen_ne.2, if_false, if_true, takeTok_self]

theorem takeOpen_word (w : List U8) (r : List CTok) : takeOpen (tokW "fopen" :: tokP "(" :: .ident w :: r) =
      match takeToks [tokW "buffer", tokP ",", .str (ascii "w"), tokP ")"] (.ident w :: r) with
      | some x => some (.buffer, x.2)
      | none =>
        match takeToks [tokW "getenv", tokP "("] (.ident w :: r) with
        | some (_, .str n :: r) => (takeToks [tokP ")", tokP ",", .str (ascii "w"), tokP ")"] r).map fun x => (.env n, x.2)
        | _ => none := by
  unfold takeOpen
  simp only [tokW, fopen_ne.1, fopen_ne.2, if_false, if_true, takeTok_self]
  rfl

theorem open_file {n : List U8} (h : (10 : U8) ∉ n) (env : Option (List U8)) :
    OpenReads (fileOpenText (.file n) env) [tokW "fopen", tokP "(", .str n, tokP ",", .str (ascii "w"), tokP ")"] (.file n) := by
  refine ⟨((lexes_fopen.append (lexes_prin1 h)).append lexes_w).pending, fun r => ?_⟩
  have := takeToks_self [tokP ",", .str (ascii "w"), tokP ")"] r
  simp only [List.cons_append, List.nil_append] at this ⊢
  rw [takeOpen_str]
  simp only [this, Option.map_some]

theorem open_buffer : OpenReads (fileOpenText .absent none) [tokW "fopen", tokP "(", tokW "buffer", tokP ",", .str (ascii "w"), tokP ")"] .buffer := by
  refine ⟨(Lexes.of (by decide +kernel)).pending, fun r => ?_⟩
  have := takeToks_self [tokW "buffer", tokP ",", .str (ascii "w"), tokP ")"] r
  simp only [List.cons_append, List.nil_append] at this ⊢
  show takeOpen (tokW "fopen" :: tokP "(" :: .ident (ascii "buffer") :: _) = _
  rw [takeOpen_word]
  unfold tokW at this ⊢
  simp only [this]

theorem no_buffer (r : List CTok) : takeToks [tokW "buffer", tokP ",", .str (ascii "w"), tokP ")"] (tokW "getenv" :: r) = none := by
  have : tokW "getenv" ≠ tokW "buffer" := by decide +kernel
  simp [takeToks, takeTok, this]

theorem open_env {n : List U8} (h : (10 : U8) ∉ n) : OpenReads (fileOpenText .absent (some (prin1 n)))
    ([tokW "fopen", tokP "(", tokW "getenv", tokP "("] ++ [.str n] ++ [tokP ")", tokP ",", .str (ascii "w"), tokP ")"]) (.env n) := by
  have h1 : Lexes (ascii "fopen(getenv(") [tokW "fopen", tokP "(", tokW "getenv", tokP "("] := Lexes.of (by decide +kernel)
  have h2 : Lexes (ascii "), \"w\")") [tokP ")", tokP ",", .str (ascii "w"), tokP ")"] := Lexes.of (by decide +kernel)
  refine ⟨((h1.append (lexes_prin1 h)).append h2).pending, fun r => ?_⟩
  have e1 := takeToks_self [tokW "getenv", tokP "("] (.str n :: tokP ")" :: tokP "," :: .str (ascii "w") :: tokP ")" :: r)
  have e2 := takeToks_self [tokP ")", tokP ",", .str (ascii "w"), tokP ")"] r
  simp only [List.cons_append, List.nil_append] at e1 e2 ⊢
  show takeOpen (tokW "fopen" :: tokP "(" :: .ident (ascii "getenv") :: _) = _
  rw [takeOpen_word]
  have e0 := no_buffer (tokP "(" :: .str n :: tokP ")" :: tokP "," :: .str (ascii "w") :: tokP ")" :: r)
  unfold tokW at e0 e1 ⊢
  simp only [e0, e1, e2, Option.map_some]

/-- A word as name of the variable is no text. -/
theorem env_word {e : List U8} (h : CIdent e) {names : List Name} {rows : List (Nat × TypeFormat × SizeText)} {rs : List TypeRow}
    (hn : ∀ n ∈ names, (10 : U8) ∉ n) (hr : AllRel RowReads rows rs) :
    (cTokens (setupText .absent (some e) names rows)).bind takeSetup = none := by
  have h1 : Lexes (ascii "fopen(getenv(") [tokW "fopen", tokP "(", tokW "getenv", tokP "("] := Lexes.of (by decide +kernel)
  have h2 : Lexes (ascii "), \"w\")") [tokP ")", tokP ",", .str (ascii "w"), tokP ")"] := Lexes.of (by decide +kernel)
  have h3 := ((h1.appendP (pending_ident h)).append h2 (by decide +kernel)).pending
  rw [(lexes_setup (file := .absent) (env := some e) h3 hn hr).tokens, Option.bind_some]
  unfold takeSetup setupToks
  simp only [Option.bind_eq_bind, takeToks_self, Option.bind_some]
  simp only [List.cons_append, List.nil_append]
  have e0 := no_buffer
  have e1 : ∀ r, takeToks [tokW "getenv", tokP "("] (tokW "getenv" :: tokP "(" :: r) = some ((), r) := takeToks_self [tokW "getenv", tokP "("]
  unfold tokW at e0 e1
  have e2 : ∀ r, takeOpen (tokW "fopen" :: tokP "(" :: tokW "getenv" :: tokP "(" :: .ident e :: r) = none := by
    intro r
    show takeOpen (tokW "fopen" :: tokP "(" :: .ident (ascii "getenv") :: _) = _
    rw [takeOpen_word]
    unfold tokW
    simp only [e0, e1]
  rw [e2]
  rfl

end TraceDB
