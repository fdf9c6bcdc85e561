import Verif.Spec.GenText
import Verif.Proofs.Archive
/-
Helper lemmas: tokens of generated text.
-/
namespace TraceDB

theorem lexStart_frame (acc ts : List CTok) (c : U8) :
    lexStart (acc ++ ts) c = ⟨acc ++ (lexStart ts c).toks, (lexStart ts c).mode⟩ := by
  unfold lexStart
  repeat' split
  all_goals simp

theorem lexStep_frame (acc : List CTok) (s : LexState) (c : U8) :
    lexStep ⟨acc ++ s.toks, s.mode⟩ c = (lexStep s c).map fun t => ⟨acc ++ t.toks, t.mode⟩ := by
  obtain ⟨ts, m⟩ := s
  cases m with
  | between => simp only [lexStep, Option.map_some, lexStart_frame]
  | ident a =>
    simp only [lexStep]
    split
    · rfl
    · rw [List.append_assoc, lexStart_frame]; rfl
  | num ds u =>
    simp only [lexStep]
    repeat' split
    · rfl
    · rfl
    · rfl
    · cases cNumber ds u with
      | none => rfl
      | some t => simp only [Option.map_some]; rw [List.append_assoc, lexStart_frame]
  | str a =>
    simp only [lexStep]
    repeat' split
    all_goals simp
  | escape a =>
    simp only [lexStep]
    cases cEscape c <;> rfl

theorem lexRun_frame (acc : List CTok) (t : List U8) : ∀ s : LexState,
    lexRun ⟨acc ++ s.toks, s.mode⟩ t = (lexRun s t).map fun t => ⟨acc ++ t.toks, t.mode⟩ := by
  induction t with
  | nil => intro s; rfl
  | cons c t ih =>
    intro s
    simp only [lexRun, List.foldlM_cons] at ih ⊢
    rw [lexStep_frame]
    cases lexStep s c with
    | none => rfl
    | some s' => exact ih s'

theorem lexRun_append (s : LexState) (a b : List U8) : lexRun s (a ++ b) = (lexRun s a).bind fun t => lexRun t b := by
  simp only [lexRun, List.foldlM_append]
  rfl

theorem lexRun_cons (s : LexState) (c : U8) (t : List U8) : lexRun s (c :: t) = (lexStep s c).bind fun s => lexRun s t := by
  simp only [lexRun, List.foldlM_cons]
  rfl

/-- A byte that ends a word or a number. -/
def sepByte (c : U8) : Bool := !(cLetter c || cDigit c)

/-- The text begins with such a byte. -/
def SepStart (a : List U8) : Prop := a.head?.any sepByte = true

instance (a : List U8) : Decidable (SepStart a) := inferInstanceAs (Decidable (_ = true))

/-- The text is these tokens, whatever follows. -/
def Lexes (a : List U8) (toks : List CTok) : Prop :=
  ∀ acc r, lexRun ⟨acc, .between⟩ (a ++ r) = lexRun ⟨acc ++ toks, .between⟩ r

/-- The text is these tokens, if something follows that ends a word. -/
def Pending (a : List U8) (toks : List CTok) : Prop :=
  ∀ acc r, SepStart r → lexRun ⟨acc, .between⟩ (a ++ r) = lexRun ⟨acc ++ toks, .between⟩ r

theorem SepStart.append {a : List U8} (h : SepStart a) (b : List U8) : SepStart (a ++ b) := by
  cases a with
  | nil => cases h
  | cons c a => exact h

theorem Lexes.pending {a : List U8} {t : List CTok} (h : Lexes a t) : Pending a t := fun acc r _ => h acc r

theorem Lexes.nil : Lexes [] [] := fun acc r => by simp

theorem Lexes.append {a b : List U8} {t u : List CTok} (h : Lexes a t) (h' : Lexes b u) : Lexes (a ++ b) (t ++ u) := by
  intro acc r
  rw [List.append_assoc, h, h', List.append_assoc]

theorem Lexes.appendP {a b : List U8} {t u : List CTok} (h : Lexes a t) (h' : Pending b u) : Pending (a ++ b) (t ++ u) := by
  intro acc r hr
  rw [List.append_assoc, h, h' _ _ hr, List.append_assoc]

theorem Pending.append {a b : List U8} {t u : List CTok} (h : Pending a t) (h' : Lexes b u) (hb : SepStart b) :
    Lexes (a ++ b) (t ++ u) := by
  intro acc r
  rw [List.append_assoc, h _ _ (hb.append r), h', List.append_assoc]

theorem Pending.appendP {a b : List U8} {t u : List CTok} (h : Pending a t) (h' : Pending b u) (hb : SepStart b) :
    Pending (a ++ b) (t ++ u) := by
  intro acc r hr
  rw [List.append_assoc, h _ _ (hb.append r), h' _ _ hr, List.append_assoc]

/-- Text that ends between tokens. -/
theorem Lexes.of {a : List U8} {t : List CTok} (h : lexRun ⟨[], .between⟩ a = some ⟨t, .between⟩) : Lexes a t := by
  intro acc r
  have := lexRun_frame acc a ⟨[], .between⟩
  simp only [List.append_nil, h, Option.map_some] at this
  rw [lexRun_append, this]
  rfl

/-- After a word. -/
theorem lexStep_ident {ts : List CTok} {a : List U8} {c : U8} (h : sepByte c = true) :
    lexStep ⟨ts, .ident a⟩ c = lexStep ⟨ts ++ [.ident a], .between⟩ c := by
  simp only [sepByte, Bool.not_eq_true'] at h
  simp only [lexStep, h]
  rfl

/-- Text that ends in a word. -/
theorem Pending.of {a x : List U8} {t : List CTok} (h : lexRun ⟨[], .between⟩ a = some ⟨t, .ident x⟩) :
    Pending a (t ++ [.ident x]) := by
  intro acc r hr
  have := lexRun_frame acc a ⟨[], .between⟩
  simp only [List.append_nil, h, Option.map_some] at this
  rw [lexRun_append, this, Option.bind_some]
  cases r with
  | nil => cases hr
  | cons c r =>
    rw [lexRun_cons, lexRun_cons, lexStep_ident hr, List.append_assoc]

/-- After a number. -/
theorem lexStep_num {ts : List CTok} {ds : List U8} {n : Nat} {u : Bool} (hn : cNumber ds u = some (.num n u)) {c : U8}
    (h : sepByte c = true) : lexStep ⟨ts, .num ds u⟩ c = lexStep ⟨ts ++ [.num n u], .between⟩ c := by
  simp only [sepByte, Bool.not_eq_true', Bool.or_eq_false_iff] at h
  have hc : ¬ (c = 117 ∧ u = false) := by
    rintro ⟨rfl, _⟩
    exact absurd h.1 (by decide)
  simp only [lexStep, h.1, h.2, hn, Bool.false_and, Bool.false_eq_true, if_false, Option.map_some]
  rw [if_neg]
  · simp
  · simpa using hc

/-- Text that ends in a number. -/
theorem Pending.ofNum {a : List U8} {t : List CTok} {ds : List U8} {n : Nat} {u : Bool}
    (hn : cNumber ds u = some (.num n u)) (h : lexRun ⟨[], .between⟩ a = some ⟨t, .num ds u⟩) : Pending a (t ++ [.num n u]) := by
  intro acc r hr
  have := lexRun_frame acc a ⟨[], .between⟩
  simp only [List.append_nil, h, Option.map_some] at this
  rw [lexRun_append, this, Option.bind_some]
  cases r with
  | nil => cases hr
  | cons c r =>
    rw [lexRun_cons, lexRun_cons, lexStep_num hn hr, List.append_assoc]

/-! Words -/

theorem lexRun_ident (cs : List U8) (h : ∀ d ∈ cs, (cLetter d || cDigit d) = true) : ∀ (ts : List CTok) (a : List U8),
    lexRun ⟨ts, .ident a⟩ cs = some ⟨ts, .ident (a ++ cs)⟩ := by
  induction cs with
  | nil => intro ts a; simp [lexRun]
  | cons c cs ih =>
    intro ts a
    rw [lexRun_cons]
    simp only [lexStep, h c List.mem_cons_self, if_true, Option.bind_some]
    rw [ih (fun d hd => h d (List.mem_cons_of_mem _ hd)), List.append_assoc]
    rfl

theorem letter_facts {c : U8} (h : cLetter c = true) : cBlank c = false ∧ c ≠ 34 := by
  simp only [cLetter, Bool.or_eq_true, Bool.and_eq_true, decide_eq_true_eq, beq_iff_eq] at h
  constructor
  · simp only [cBlank, Bool.or_eq_false_iff, beq_eq_false_iff_ne]
    omega
  · rintro rfl
    simp at h

theorem pending_ident {s : List U8} (h : CIdent s) : Pending s [.ident s] := by
  obtain ⟨c, cs, rfl, h1, h2⟩ := h
  obtain ⟨h3, h4⟩ := letter_facts h1
  have := Pending.of (a := c :: cs) (x := c :: cs) (t := []) (by
    rw [lexRun_cons]
    simp only [lexStep, lexStart, h1, h3, h4, Bool.false_eq_true, if_false, if_true, Option.bind_some]
    rw [lexRun_ident cs h2]
    rfl)
  exact this

/-! Numbers -/

theorem cDigit_of_isDigit {b : U8} (h : isDigit b = true) : cDigit b = true := by
  simpa [isDigit, cDigit] using h

theorem digit_facts {c : U8} (h : cDigit c = true) : cBlank c = false ∧ c ≠ 34 ∧ cLetter c = false := by
  simp only [cDigit, Bool.and_eq_true, decide_eq_true_eq] at h
  refine ⟨?_, ?_, ?_⟩
  · simp only [cBlank, Bool.or_eq_false_iff, beq_eq_false_iff_ne]
    omega
  · rintro rfl
    simp at h
  · simp only [cLetter, Bool.or_eq_false_iff, Bool.and_eq_false_imp, decide_eq_true_eq, decide_eq_false_iff_not,
      beq_eq_false_iff_ne]
    omega

theorem lexRun_num (cs : List U8) (h : ∀ d ∈ cs, cDigit d = true) : ∀ (ts : List CTok) (a : List U8),
    lexRun ⟨ts, .num a false⟩ cs = some ⟨ts, .num (a ++ cs) false⟩ := by
  induction cs with
  | nil => intro ts a; simp [lexRun]
  | cons c cs ih =>
    intro ts a
    rw [lexRun_cons]
    simp only [lexStep, h c List.mem_cons_self, Bool.not_false, Bool.and_self, if_true, Option.bind_some]
    rw [ih (fun d hd => h d (List.mem_cons_of_mem _ hd)), List.append_assoc]
    rfl

theorem lexRun_decimal (n : Nat) : lexRun ⟨[], .between⟩ (decimal n) = some ⟨[], .num (decimal n) false⟩ := by
  have hd : ∀ b ∈ decimal n, cDigit b = true := fun b hb => cDigit_of_isDigit (decimal_digits n b hb)
  obtain ⟨c, cs, hcs⟩ := List.exists_cons_of_ne_nil (decimal_ne_nil n)
  rw [hcs] at hd ⊢
  obtain ⟨h1, h2, h3⟩ := digit_facts (hd c List.mem_cons_self)
  rw [lexRun_cons]
  simp only [lexStep, lexStart, h1, h2, h3, hd c List.mem_cons_self, Bool.false_eq_true, if_false, if_true, Option.bind_some]
  rw [lexRun_num cs (fun d hd' => hd d (List.mem_cons_of_mem _ hd'))]
  rfl

theorem decimalAux_head (fuel n : Nat) (acc : List U8) (h : n < fuel) (hn : 0 < n) :
    (decimalAux fuel n acc).head? ≠ some 48 := by
  induction fuel generalizing n acc with
  | zero => omega
  | succ fuel ih =>
    simp only [decimalAux]
    split
    · rename_i h10
      simp only [List.head?_cons, ne_eq, Option.some.injEq, digitChar]
      intro e
      have := congrArg BitVec.toNat e
      simp at this
      omega
    · exact ih _ _ (by omega) (by omega)

theorem cNumber_decimal (n : Nat) (u : Bool) : cNumber (decimal n) u = some (.num n u) := by
  have hv : (decimal n).foldl (fun n d => 10 * n + (d.toNat - 48)) 0 = n := digitsValue_decimal n
  unfold cNumber
  rw [hv]
  have : ¬ ((decimal n).head? = some 48 ∧ (decimal n).length ≠ 1) := by
    rintro ⟨h1, h2⟩
    by_cases hn : n = 0
    · subst hn
      exact h2 (by decide +kernel)
    · exact decimalAux_head (n + 1) n [] (by omega) (by omega) h1
  rw [if_neg this]

theorem pending_decimal (n : Nat) : Pending (decimal n) [.num n false] :=
  Pending.ofNum (t := []) (cNumber_decimal n false) (lexRun_decimal n)

theorem pending_decimal_u (n : Nat) : Pending (decimal n ++ [117]) [.num n true] := by
  refine Pending.ofNum (t := []) (cNumber_decimal n true) ?_
  rw [lexRun_append, lexRun_decimal, Option.bind_some, lexRun_cons]
  rfl

/-! Strings -/

theorem lexRun_quoted (s : List U8) (h : (10 : U8) ∉ s) : ∀ (ts : List CTok) (a r : List U8),
    lexRun ⟨ts, .str a⟩ ((s.flatMap fun c => if c = 34 ∨ c = 92 then [92, c] else [c]) ++ r) = lexRun ⟨ts, .str (a ++ s)⟩ r := by
  induction s with
  | nil => intro ts a r; simp
  | cons c s ih =>
    intro ts a r
    have ih' := ih (fun h' => h (List.mem_cons_of_mem _ h'))
    have hc : c ≠ 10 := fun e => h (e ▸ List.mem_cons_self)
    rw [List.flatMap_cons, List.append_assoc]
    by_cases hq : c = 34 ∨ c = 92
    · rw [if_pos hq]
      simp only [List.cons_append, List.nil_append]
      rw [lexRun_cons]
      have he : cEscape c = some c := by
        rcases hq with rfl | rfl <;> rfl
      have h1 : lexStep ⟨ts, .str a⟩ 92 = some ⟨ts, .escape a⟩ := rfl
      have h2 : lexStep ⟨ts, .escape a⟩ c = some ⟨ts, .str (a ++ [c])⟩ := by
        simp [lexStep, he]
      rw [h1, Option.bind_some, lexRun_cons, h2, Option.bind_some]
      rw [ih', List.append_assoc]
      rfl
    · rw [if_neg hq]
      simp only [not_or] at hq
      simp only [List.cons_append, List.nil_append]
      rw [lexRun_cons]
      simp only [lexStep, hq.1, hq.2, hc, if_false, Option.bind_some]
      rw [ih', List.append_assoc]
      rfl

theorem lexes_prin1 {s : List U8} (h : (10 : U8) ∉ s) : Lexes (prin1 s) [.str s] := by
  intro acc r
  unfold prin1
  rw [List.append_assoc, List.append_assoc, List.singleton_append, lexRun_cons]
  have h1 : lexStep ⟨acc, .between⟩ 34 = some ⟨acc, .str []⟩ := rfl
  rw [h1, Option.bind_some, lexRun_quoted s h, List.singleton_append, lexRun_cons]
  rfl

/-- A newline in a string. -/
theorem lexRun_newline (s : List U8) (h : (10 : U8) ∈ s) : ∀ (ts : List CTok) (a r : List U8),
    lexRun ⟨ts, .str a⟩ ((s.flatMap fun c => if c = 34 ∨ c = 92 then [92, c] else [c]) ++ r) = none := by
  induction s with
  | nil => cases h
  | cons c s ih =>
    intro ts a r
    rw [List.flatMap_cons, List.append_assoc]
    by_cases hq : c = 34 ∨ c = 92
    · have hs : (10 : U8) ∈ s := by
        rcases List.mem_cons.mp h with e | h'
        · subst e
          exact absurd hq (by decide)
        · exact h'
      rw [if_pos hq]
      simp only [List.cons_append, List.nil_append]
      rw [lexRun_cons]
      have he : cEscape c = some c := by
        rcases hq with rfl | rfl <;> rfl
      have h1 : lexStep ⟨ts, .str a⟩ 92 = some ⟨ts, .escape a⟩ := rfl
      have h2 : lexStep ⟨ts, .escape a⟩ c = some ⟨ts, .str (a ++ [c])⟩ := by
        simp [lexStep, he]
      rw [h1, Option.bind_some, lexRun_cons, h2, Option.bind_some]
      exact ih hs _ _ _
    · rw [if_neg hq]
      simp only [not_or] at hq
      simp only [List.cons_append, List.nil_append]
      rw [lexRun_cons]
      by_cases hc : c = 10
      · subst hc
        rfl
      · have hs : (10 : U8) ∈ s := by
          rcases List.mem_cons.mp h with e | h'
          · exact absurd e.symm hc
          · exact h'
        simp only [lexStep, hq.1, hq.2, hc, if_false, Option.bind_some]
        exact ih hs _ _ _

theorem prin1_newline {s : List U8} (h : (10 : U8) ∈ s) (acc : List CTok) (r : List U8) :
    lexRun ⟨acc, .between⟩ (prin1 s ++ r) = none := by
  unfold prin1
  rw [List.append_assoc, List.append_assoc, List.singleton_append, lexRun_cons]
  have h1 : lexStep ⟨acc, .between⟩ 34 = some ⟨acc, .str []⟩ := rfl
  rw [h1, Option.bind_some, lexRun_newline s h]

end TraceDB
