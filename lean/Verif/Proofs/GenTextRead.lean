import Verif.Proofs.GenText
/-
Helper lemmas: reading the tokens of generated text.
-/
namespace TraceDB

/-- The tokens of the text for a size. -/
def SizeText.toks : SizeText → List CTok
  | .zero => [.num 0 false]
  | .pointer => [tokW "sizeof", tokP "(", tokW "void", tokP "*", tokP ")"]
  | .named n => [tokW "sizeof", tokP "("] ++ (cTokens n).getD [] ++ [tokP ")"]

/-- The text is read as this number. -/
def SizeText.Reads (s : SizeText) (z : Nat) : Prop :=
  Pending s.text s.toks ∧ ∀ r, takeSize (s.toks ++ r) = some (z, r)

/-- The text for a number (48 is the digit 0). -/
theorem reads_zero : SizeText.Reads .zero 0 := by
  refine ⟨?_, fun r => rfl⟩
  have h := pending_decimal 0
  have e : decimal 0 = SizeText.zero.text := by decide +kernel
  rw [e] at h
  exact h

theorem takeSize_sizeof {ts : List CTok} {z : Nat} (h : cSizes.lookup ts = some z) (hn : tokP ")" ∉ ts) (r : List CTok) :
    takeSize ([tokW "sizeof", tokP "("] ++ ts ++ [tokP ")"] ++ r) = some (z, r) := by
  have h1 : ∀ t ∈ ts, (t != tokP ")") = true := by
    intro t ht
    simp only [bne_iff_ne, ne_eq]
    rintro rfl
    exact hn ht
  have hw : (ts ++ tokP ")" :: r).takeWhile (· != tokP ")") = ts := by
    rw [List.takeWhile_append_of_pos h1]
    simp
  have hd : (ts ++ tokP ")" :: r).dropWhile (· != tokP ")") = tokP ")" :: r := by
    rw [List.dropWhile_append_of_pos h1]
    simp
  have e : [tokW "sizeof", tokP "("] ++ ts ++ [tokP ")"] ++ r = tokW "sizeof" :: tokP "(" :: (ts ++ tokP ")" :: r) := by simp
  rw [e]
  show (if tokW "sizeof" = tokW "sizeof" ∧ tokP "(" = tokP "(" then _ else none) = _
  rw [hw, hd, h]
  exact if_pos ⟨rfl, rfl⟩

theorem reads_pointer : SizeText.Reads .pointer 8 :=
  ⟨(Lexes.of (by decide +kernel)).pending, fun r => takeSize_sizeof (ts := [tokW "void", tokP "*"]) (by decide +kernel) (by decide +kernel) r⟩

/-- What has to be checked for a name. -/
def nameReads (n : List U8) (z : Nat) : Bool :=
  match lexRun ⟨[], .between⟩ (SizeText.named n).text with
  | some ⟨ts, .between⟩ =>
    decide (ts = (SizeText.named n).toks) && (cSizes.lookup ((cTokens n).getD []) == some z) && !((cTokens n).getD []).contains (tokP ")")
  | _ => false

theorem reads_named {n : List U8} {z : Nat} (h : nameReads n z = true) : SizeText.Reads (.named n) z := by
  unfold nameReads at h
  split at h
  · rename_i ts hl
    simp only [Bool.and_eq_true, decide_eq_true_eq, beq_iff_eq, Bool.not_eq_true', List.contains_eq_mem, decide_eq_false_iff_not] at h
    obtain ⟨⟨h1, h2⟩, h3⟩ := h
    rw [h1] at hl
    exact ⟨(Lexes.of hl).pending, fun r => takeSize_sizeof h2 h3 r⟩
  · cases h

theorem lookup_mem {β : Type} {l : List (List U8 × β)} {k : List U8} {v : β} (h : l.lookup k = some v) : (k, v) ∈ l := by
  induction l with
  | nil => cases h
  | cons p l ih =>
    obtain ⟨k', v'⟩ := p
    rw [List.lookup_cons] at h
    split at h
    · rename_i e
      rw [beq_iff_eq] at e
      cases h
      rw [e]
      exact List.mem_cons_self
    · exact List.mem_cons_of_mem _ (ih h)

theorem lookup_none_elem {β : Type} {l : List (List U8 × β)} {k : List U8} (h : l.lookup k = none) :
    (l.map (·.1)).elem k = false := by
  induction l with
  | nil => rfl
  | cons p l ih =>
    obtain ⟨k', v'⟩ := p
    rw [List.lookup_cons] at h
    split at h
    · cases h
    · rename_i e
      rw [List.map_cons, List.elem_cons, e]
      exact ih h

theorem mem_elem {β : Type} {l : List (List U8 × β)} {k : List U8} {v : β} (h : (k, v) ∈ l) : (l.map (·.1)).elem k = true := by
  rw [List.elem_eq_mem, decide_eq_true_eq]
  exact List.mem_map_of_mem (f := (·.1)) h

/-- The text for format and size is read as what `formatAndSize` gives. -/
theorem sizeText_reads {t : CType} {ps : Bool} {f : TypeFormat} {z : Nat} (h : formatAndSize t ps = some (f, z)) :
    ∃ s, formatAndSizeText t ps = some (f, s) ∧ s.Reads z := by
  have hs : ∀ p ∈ signedNames, nameReads p.1 p.2 = true := by decide +kernel
  have hu : ∀ p ∈ unsignedNames, nameReads p.1 p.2 = true := by decide +kernel
  have ef : ascii "float" = [102, 108, 111, 97, 116] := by decide +kernel
  have ed : ascii "double" = [100, 111, 117, 98, 108, 101] := by decide +kernel
  have hf : nameReads (ascii "float") 4 = true := by decide +kernel
  have hd : nameReads (ascii "double") 8 = true := by decide +kernel
  unfold formatAndSize at h
  unfold formatAndSizeText
  split at h
  · rename_i hc
    cases h
    exact ⟨_, if_pos hc, reads_zero⟩
  · rename_i hc
    rw [if_neg hc]
    split at h
    · rename_i hp
      cases h
      exact ⟨_, if_pos hp, reads_pointer⟩
    · rename_i hp
      rw [if_neg hp]
      split at h
      · rename_i z' hl
        cases h
        have hm := lookup_mem hl
        have hr := reads_named (hs (baseTypename t, z) hm)
        exact ⟨.named (baseTypename t), if_pos (mem_elem hm), hr⟩
      · rename_i hl
        rw [lookup_none_elem hl]
        split at h
        · rename_i z' hl'
          cases h
          have hm := lookup_mem hl'
          have hr := reads_named (hu (baseTypename t, z) hm)
          refine ⟨.named (baseTypename t), ?_, hr⟩
          rw [if_neg (by simp), if_pos (mem_elem hm)]
        · rename_i hl'
          rw [lookup_none_elem hl', ef, ed]
          split at h
          · rename_i he
            cases h
            refine ⟨_, ?_, reads_named hf⟩
            rw [if_neg (by simp), if_neg (by simp), if_pos he, ef]
          · rename_i he
            split at h
            · rename_i he'
              cases h
              refine ⟨_, ?_, reads_named hd⟩
              rw [if_neg (by simp), if_neg (by simp), if_neg he, if_pos he', ed]
            · cases h

/-- And there is no text if there is none. -/
theorem sizeText_none {t : CType} {ps : Bool} (h : formatAndSize t ps = none) : formatAndSizeText t ps = none := by
  have ef : ascii "float" = [102, 108, 111, 97, 116] := by decide +kernel
  have ed : ascii "double" = [100, 111, 117, 98, 108, 101] := by decide +kernel
  unfold formatAndSize at h
  unfold formatAndSizeText
  split at h
  · cases h
  · rename_i hc
    rw [if_neg hc]
    split at h
    · cases h
    · rename_i hp
      rw [if_neg hp]
      split at h
      · cases h
      · rename_i hl
        rw [lookup_none_elem hl]
        split at h
        · cases h
        · rename_i hl'
          rw [lookup_none_elem hl', ef, ed]
          split at h
          · cases h
          · rename_i he
            split at h
            · cases h
            · rename_i he'
              rw [if_neg (by simp), if_neg (by simp), if_neg he, if_neg he']

/-! Formats -/

theorem pending_format (f : TypeFormat) : Pending (formatText f) [.ident (formatText f)] := by
  cases f <;> exact Pending.of (t := []) (by decide +kernel)

theorem takeFormat_text (f : TypeFormat) (r : List CTok) : takeFormat (.ident (formatText f) :: r) = some (f, r) := by
  have h : cFormats.lookup (.ident (formatText f)) = some f := by cases f <;> decide +kernel
  simp [takeFormat, h]

/-! Given tokens -/

theorem takeTok_self (t : CTok) (r : List CTok) : takeTok t (t :: r) = some ((), r) := by simp [takeTok]

theorem takeToks_self (ts r : List CTok) : takeToks ts (ts ++ r) = some ((), r) := by
  induction ts with
  | nil => rfl
  | cons t ts ih => simp [takeToks, takeTok_self, ih]

/-- The constant text between arguments. -/
theorem lexes_comma : Lexes (ascii ", ") [tokP ","] := Lexes.of (by decide +kernel)
theorem sep_comma : SepStart (ascii ", ") := by decide +kernel

/-! Variables and strings -/

def VarArgs.toks (v : VarArgs) : List CTok :=
  [.num v.name false] ++ [tokP ","] ++ [.num v.type false] ++ [tokP ","] ++ v.size.toks ++ [tokP ","] ++ [.ident (formatText v.format)] ++ [tokP ","] ++
    [.ident v.expr]

theorem pending_var {v : VarArgs} {z : Nat} (hz : v.size.Reads z) (hi : CIdent v.expr) : Pending v.text v.toks :=
  ((((((((pending_decimal v.name).append lexes_comma sep_comma).appendP (pending_decimal v.type)).append lexes_comma sep_comma).appendP hz.1).append
    lexes_comma sep_comma).appendP (pending_format v.format)).append lexes_comma sep_comma).appendP (pending_ident hi)

theorem takeVar_text {v : VarArgs} {z : Nat} (hz : v.size.Reads z) (r : List CTok) :
    takeVar (tokP "," :: (v.toks ++ r)) = some (⟨v.name, v.type, z, v.format, v.expr⟩, r) := by
  have e : v.toks ++ r = .num v.name false :: tokP "," :: .num v.type false :: tokP "," :: (v.size.toks ++
      (tokP "," :: .ident (formatText v.format) :: tokP "," :: .ident v.expr :: r)) := by simp [VarArgs.toks]
  rw [e]
  unfold takeVar
  simp only [takeTok_self, Option.bind_eq_bind, Option.bind_some, takeNum, hz.2, takeFormat_text, takeIdent]
  rfl

def BlobArgs.toks (b : BlobArgs) : List CTok :=
  if b.cpp then
    [.num b.name false] ++ [tokP ","] ++ [.num b.type false] ++ [tokP ",", tokP "("] ++ [.ident b.expr] ++
      [tokP ")", tokP ".", tokW "length", tokP "(", tokP ")", tokP ",", tokP "("] ++ [.ident b.expr] ++
      [tokP ")", tokP ".", tokW "c_str", tokP "(", tokP ")"]
  else
    [.num b.name false] ++ [tokP ","] ++ [.num b.type false] ++ [tokP ",", tokW "strlen", tokP "("] ++ [.ident b.expr] ++
      [tokP ")", tokP ","] ++ [.ident b.expr]

theorem pending_blob {b : BlobArgs} (hi : CIdent b.expr) : Pending b.text b.toks := by
  unfold BlobArgs.text BlobArgs.toks
  have h0 := ((pending_decimal b.name).append lexes_comma sep_comma).appendP (pending_decimal b.type)
  split
  · have h1 : Lexes (ascii ", (") [tokP ",", tokP "("] := Lexes.of (by decide +kernel)
    have h2 : Lexes (ascii ").length(), (") [tokP ")", tokP ".", tokW "length", tokP "(", tokP ")", tokP ",", tokP "("] := Lexes.of (by decide +kernel)
    have h3 : Lexes (ascii ").c_str()") [tokP ")", tokP ".", tokW "c_str", tokP "(", tokP ")"] := Lexes.of (by decide +kernel)
    exact (((((h0.append h1 (by decide +kernel)).appendP (pending_ident hi)).append h2 (by decide +kernel)).appendP (pending_ident hi)).append h3
      (by decide +kernel)).pending
  · have h1 : Lexes (ascii ", strlen(") [tokP ",", tokW "strlen", tokP "("] := Lexes.of (by decide +kernel)
    have h2 : Lexes (ascii "), ") [tokP ")", tokP ","] := Lexes.of (by decide +kernel)
    exact (((h0.append h1 (by decide +kernel)).appendP (pending_ident hi)).append h2 (by decide +kernel)).appendP (pending_ident hi)

theorem takeBlob_text (b : BlobArgs) (r : List CTok) : takeBlob (tokP "," :: (b.toks ++ r)) = some (⟨b.name, b.type, b.cpp, b.expr⟩, r) := by
  unfold takeBlob
  by_cases hc : b.cpp = true
  · have e : b.toks ++ r = .num b.name false :: tokP "," :: .num b.type false :: tokP "," :: tokP "(" :: .ident b.expr ::
        ([tokP ")", tokP ".", tokW "length", tokP "(", tokP ")", tokP ",", tokP "(", .ident b.expr, tokP ")", tokP ".", tokW "c_str", tokP "(",
          tokP ")"] ++ r) := by simp [BlobArgs.toks, hc]
    rw [e]
    have hn : ∀ ts, takeToks [tokW "strlen", tokP "("] (tokP "(" :: ts) = none := by
      intro ts
      have : tokP "(" ≠ tokW "strlen" := by decide +kernel
      simp [takeToks, takeTok, this]
    simp only [takeTok_self, Option.bind_eq_bind, Option.bind_some, takeNum, takeLengthAndStart, hn, takeIdent, takeToks_self, hc]
    rfl
  · have e : b.toks ++ r = .num b.name false :: tokP "," :: .num b.type false :: tokP "," :: ([tokW "strlen", tokP "("] ++ (.ident b.expr ::
        ([tokP ")", tokP ",", .ident b.expr] ++ r))) := by simp [BlobArgs.toks, hc]
    rw [e]
    have hc : b.cpp = false := by simpa using hc
    simp only [takeTok_self, Option.bind_eq_bind, Option.bind_some, takeNum, takeLengthAndStart, takeIdent, takeToks_self, hc]
    rfl

/-! Lists -/

/-- Tokens with a comma before each. -/
def commaToks : List (List CTok) → List CTok
  | [] => []
  | x :: xs => tokP "," :: (x ++ commaToks xs)

/-- A comma before the first, and between. -/
theorem pending_commas {l : List (List U8 × List CTok)} (h : ∀ p ∈ l, Pending p.1 p.2) (hn : l ≠ []) :
    Pending (ascii ", " ++ commaBetween (l.map (·.1))) (commaToks (l.map (·.2))) := by
  induction l with
  | nil => exact absurd rfl hn
  | cons p l ih =>
    cases l with
    | nil =>
      have := lexes_comma.appendP (h p List.mem_cons_self)
      simpa [commaBetween, commaToks] using this
    | cons q l =>
      have h1 := lexes_comma.appendP (h p List.mem_cons_self)
      have h2 := ih (fun p hp => h p (List.mem_cons_of_mem _ hp)) (by simp)
      have h3 := h1.appendP h2 (SepStart.append sep_comma _)
      simpa [commaBetween, commaToks, List.append_assoc] using h3

theorem takeTimes_commas {α : Type} {f : List CTok → Option (α × List CTok)} {l : List (List CTok × α)}
    (h : ∀ p ∈ l, ∀ r, f (tokP "," :: (p.1 ++ r)) = some (p.2, r)) (r : List CTok) :
    takeTimes f l.length (commaToks (l.map (·.1)) ++ r) = some (l.map (·.2), r) := by
  induction l with
  | nil => rfl
  | cons p l ih =>
    simp only [List.map_cons, List.length_cons, commaToks, takeTimes, List.cons_append, List.append_assoc]
    rw [h p List.mem_cons_self, Option.bind_some, ih fun q hq => h q (List.mem_cons_of_mem _ hq)]
    rfl

/-- The tokens of a call. -/
theorem lexes_call {fn : List U8} (hf : CIdent fn) {l : List (List U8 × List CTok)} (h : ∀ p ∈ l, Pending p.1 p.2) (hn : l ≠ []) :
    Lexes (callText fn (l.map (·.1)))
      (.ident fn :: tokP "(" :: tokW "__sel_trace_file" :: tokP "," :: .num l.length false :: (commaToks (l.map (·.2)) ++ [tokP ")", tokP ";"])) := by
  have h1 : Lexes (ascii "(") [tokP "("] := Lexes.of (by decide +kernel)
  have h2 : Pending logVariable [tokW "__sel_trace_file"] := Pending.of (t := []) (by decide +kernel)
  have h3 : Lexes (ascii ");") [tokP ")", tokP ";"] := Lexes.of (by decide +kernel)
  have h4 := ((((((pending_ident hf).append h1 (by decide +kernel)).appendP h2).append lexes_comma sep_comma).appendP
    (pending_decimal l.length)).appendP (pending_commas h hn) (SepStart.append sep_comma _)).append h3 (by decide +kernel)
  simpa [callText, List.append_assoc] using h4

theorem Lexes.tokens {a : List U8} {t : List CTok} (h : Lexes a t) : cTokens a = some t := by
  have := h [] []
  simp only [List.append_nil, List.nil_append] at this
  rw [cTokens, this]
  rfl

theorem takeCounted_text {α : Type} {f : List CTok → Option (α × List CTok)} {l : List (List CTok × α)}
    (h : ∀ p ∈ l, ∀ r, f (tokP "," :: (p.1 ++ r)) = some (p.2, r)) :
    takeCounted f (.num l.length false :: (commaToks (l.map (·.1)) ++ [tokP ")", tokP ";"])) = some (l.map (·.2)) := by
  unfold takeCounted
  simp only [takeNum, Option.bind_eq_bind, Option.bind_some, takeTimes_commas h]
  have := takeToks_self [tokP ")", tokP ";"] []
  rw [List.append_nil] at this
  rw [this]
  rfl

end TraceDB
