import Verif.Spec.TypeString
/-
Printing and parsing of type strings.
-/
namespace TraceDB

/-! Trimming -/

theorem dropWhile_head {p : U8 → Bool} {s : List U8} (h : ∀ b, s.head? = some b → p b = false) :
    s.dropWhile p = s := by
  cases s with
  | nil => rfl
  | cons b s => rw [List.dropWhile_cons, h b rfl]; rfl

theorem trimSpaces_eq {s : List U8} (h1 : ∀ b, s.head? = some b → isBlank b = false)
    (h2 : ∀ b, s.getLast? = some b → isBlank b = false) : trimSpaces s = s := by
  unfold trimSpaces
  rw [dropWhile_head h1, dropWhile_head (s := s.reverse), List.reverse_reverse]
  intro b hb
  rw [List.head?_reverse] at hb
  exact h2 b hb

theorem takeWhile_all {p : U8 → Bool} : ∀ {s : List U8}, (∀ b ∈ s, p b = true) → s.takeWhile p = s
  | [], _ => rfl
  | b :: s, h => by
    rw [List.takeWhile_cons, h b (by simp), if_pos rfl, takeWhile_all (fun x hx => h x (List.mem_cons_of_mem _ hx))]

theorem trimToLine_eq {s : List U8} (h0 : ∀ b ∈ s, b ≠ 10) (h1 : ∀ b, s.head? = some b → isBlank b = false)
    (h2 : ∀ b, s.getLast? = some b → isBlank b = false ∧ b ≠ 123) : trimToLine s = s := by
  unfold trimToLine
  rw [takeWhile_all (fun b hb => by simpa using h0 b hb), trimSpaces_eq h1 (fun b hb => (h2 b hb).1)]
  have : dropBrace s = s := by
    unfold dropBrace
    rw [if_neg]
    intro h
    exact (h2 _ h).2 rfl
  rw [this, trimSpaces_eq h1 (fun b hb => (h2 b hb).1)]

/-! Joining and splitting -/

theorem joinSpaces_cons (w : List U8) {ws : List (List U8)} (h : ws ≠ []) :
    joinSpaces (w :: ws) = w ++ 32 :: joinSpaces ws := by
  cases ws with
  | nil => exact absurd rfl h
  | cons v vs => rfl

theorem joinSpaces_append (p w : List U8) (ws : List (List U8)) :
    joinSpaces ((p ++ w) :: ws) = p ++ joinSpaces (w :: ws) := by
  cases ws with
  | nil => rfl
  | cons v vs =>
    rw [joinSpaces_cons (p ++ w) (List.cons_ne_nil v vs), joinSpaces_cons w (List.cons_ne_nil v vs), List.append_assoc]

theorem mem_joinSpaces : ∀ {ws : List (List U8)} {b : U8}, b ∈ joinSpaces ws → b = 32 ∨ ∃ w ∈ ws, b ∈ w
  | [], b, h => by cases h
  | [w], b, h => .inr ⟨w, by simp, h⟩
  | w :: v :: ws, b, h => by
    rw [joinSpaces_cons _ (by simp)] at h
    rcases List.mem_append.mp h with h | h
    · exact .inr ⟨w, by simp, h⟩
    · rcases List.mem_cons.mp h with h | h
      · exact .inl h
      · rcases mem_joinSpaces h with h | ⟨u, hu, hb⟩
        · exact .inl h
        · exact .inr ⟨u, List.mem_cons_of_mem _ hu, hb⟩

theorem getLast_joinSpaces : ∀ {ws : List (List U8)}, ws ≠ [] → (∀ w ∈ ws, w ≠ []) → ∀ {b : U8},
    (joinSpaces ws).getLast? = some b → ∃ w ∈ ws, b ∈ w
  | [], h, _, _, _ => absurd rfl h
  | [w], _, _, b, h => ⟨w, by simp, List.mem_of_getLast? h⟩
  | w :: v :: ws, _, hne, b, h => by
    rw [joinSpaces_cons _ (by simp)] at h
    have hj : joinSpaces (v :: ws) ≠ [] := by
      have hv := hne v (by simp)
      intro e
      cases ws with
      | nil => exact hv e
      | cons u us => rw [joinSpaces_cons _ (by simp)] at e; simp at e
    have : (w ++ 32 :: joinSpaces (v :: ws)).getLast? = (joinSpaces (v :: ws)).getLast? := by
      rw [List.getLast?_append]
      cases hj' : joinSpaces (v :: ws) with
      | nil => exact absurd hj' hj
      | cons x xs => simp [List.getLast?_cons]
    rw [this] at h
    obtain ⟨u, hu, hb⟩ := getLast_joinSpaces (by simp) (fun x hx => hne x (List.mem_cons_of_mem _ hx)) h
    exact ⟨u, List.mem_cons_of_mem _ hu, hb⟩

theorem splitSpaces_ne (s : List U8) : splitSpaces s ≠ [] := by
  cases s with
  | nil => simp [splitSpaces]
  | cons b s =>
    unfold splitSpaces
    split
    · simp
    · split <;> simp

theorem splitSpaces_word : ∀ {w : List U8}, (∀ b ∈ w, b ≠ 32) → splitSpaces w = [w]
  | [], _ => rfl
  | b :: w, h => by
    rw [splitSpaces, if_neg (h b (by simp)), splitSpaces_word (fun x hx => h x (List.mem_cons_of_mem _ hx))]

theorem splitSpaces_word_append : ∀ {w : List U8} (s : List U8), (∀ b ∈ w, b ≠ 32) →
    splitSpaces (w ++ 32 :: s) = w :: splitSpaces s
  | [], s, _ => by rw [List.nil_append, splitSpaces, if_pos rfl]
  | b :: w, s, h => by
    rw [List.cons_append, splitSpaces, if_neg (h b (by simp)),
      splitSpaces_word_append s (fun x hx => h x (List.mem_cons_of_mem _ hx))]

theorem splitSpaces_join : ∀ {ws : List (List U8)}, ws ≠ [] → (∀ w ∈ ws, ∀ b ∈ w, b ≠ 32) →
    splitSpaces (joinSpaces ws) = ws
  | [], h, _ => absurd rfl h
  | [w], _, h => splitSpaces_word (h w (by simp))
  | w :: v :: ws, _, h => by
    rw [joinSpaces_cons _ (by simp), splitSpaces_word_append _ (h w (by simp)),
      splitSpaces_join (by simp) (fun x hx => h x (List.mem_cons_of_mem _ hx))]

/-! Declarators -/

/-- Printed array declarators: what is between the brackets. -/
def sizeText : Declarator → Option (List U8)
  | .pointer => none
  | .array (some s) => some (if isInteger s then s else [])
  | .array none => some []

theorem arrayStr1_eq (d : Declarator) :
    arrayStr1 d = match sizeText d with
      | none => []
      | some s => 91 :: (s ++ [93]) := by
  rcases d with _ | _ | s
  · rfl
  · rfl
  · simp only [arrayStr1, sizeText]
    split <;> rfl

theorem sizeText_digits {d : Declarator} {s : List U8} (h : sizeText d = some s) : ∀ b ∈ s, 48 ≤ b.toNat ∧ b.toNat ≤ 57 := by
  intro b hb
  rcases d with _ | _ | s'
  · cases h
  · cases h; cases hb
  · simp only [sizeText, Option.some.injEq] at h
    split at h
    · rename_i hi
      subst h
      unfold isInteger at hi
      have := (List.all_eq_true.mp (Bool.and_eq_true_iff.mp hi).2) b hb
      simpa using this
    · subst h; cases hb

theorem afterBracket_digits : ∀ {s : List U8} (r : List U8), (∀ b ∈ s, 48 ≤ b.toNat ∧ b.toNat ≤ 57) →
    afterBracket (s ++ 93 :: r) = some r
  | [], r, _ => by rw [List.nil_append, afterBracket, if_pos rfl]
  | b :: s, r, h => by
    have hb := h b (by simp)
    rw [List.cons_append, afterBracket, if_neg (by rintro rfl; simp at hb), if_neg (by rintro rfl; simp at hb),
      afterBracket_digits r (fun x hx => h x (List.mem_cons_of_mem _ hx))]

theorem stripLoop_plain {s : List U8} (h : ∀ b, s.head? = some b → b ≠ 42 ∧ b ≠ 91) : ∀ fuel, stripLoop fuel s = s
  | 0 => by rw [stripLoop]
  | fuel + 1 => by
    cases s with
    | nil => rw [stripLoop]
    | cons b s =>
      have hb := h b rfl
      rw [stripLoop]
      simp only [if_neg hb.1, if_neg hb.2]

theorem stripLoop_pointers (n : Nat) (s : List U8) (fuel : Nat) :
    stripLoop (n + fuel) (List.replicate n 42 ++ s) = stripLoop fuel s := by
  induction n with
  | zero => simp
  | succ n ih =>
    rw [show n + 1 + fuel = n + fuel + 1 by omega, List.replicate_succ, List.cons_append, stripLoop]
    simp only [if_true, ih]

theorem stripLoop_arrays (s : List U8) (hs : ∀ b, s.head? = some b → b ≠ 42 ∧ b ≠ 91) : ∀ (ds : List Declarator) (fuel : Nat),
    ds.length ≤ fuel → stripLoop fuel (ds.flatMap arrayStr1 ++ s) = s
  | [], fuel, _ => stripLoop_plain hs fuel
  | d :: ds, fuel, hf => by
    cases hd : sizeText d with
    | none =>
      rw [List.flatMap_cons, arrayStr1_eq, hd]
      exact stripLoop_arrays s hs ds fuel (by simp at hf; omega)
    | some z =>
      cases fuel with
      | zero => simp at hf
      | succ fuel =>
        rw [List.flatMap_cons, arrayStr1_eq, hd]
        simp only [List.cons_append, List.append_assoc, List.nil_append]
        rw [stripLoop]
        simp only [show ¬ (91 : U8) = 42 by decide, if_false, if_true, afterBracket_digits _ (sizeText_digits hd)]
        exact stripLoop_arrays s hs ds fuel (by simp at hf; omega)

theorem pointerStr_eq (t : CType) : pointerStr t = List.replicate (t.declarator.filter (· == .pointer)).length 42 := by
  unfold pointerStr
  rw [List.map_const']

theorem arrays_length (ds : List Declarator) :
    (ds.filter (· == .pointer)).length + (ds.filter (· != .pointer)).length = ds.length := by
  induction ds with
  | nil => rfl
  | cons d ds ih =>
    cases d with
    | pointer => simp only [List.filter_cons, beq_self_eq_true, if_true, bne_self_eq_false, Bool.false_eq_true,
        if_false, List.length_cons]; omega
    | array s =>
      have e1 : (Declarator.array s == Declarator.pointer) = false := by cases s <;> rfl
      simp only [List.filter_cons, bne, e1, Bool.false_eq_true, if_false, Bool.not_false, if_true, List.length_cons] at ih ⊢
      omega

theorem arrayStr_filter (ds : List Declarator) :
    ds.flatMap arrayStr1 = (ds.filter (· != .pointer)).flatMap arrayStr1 := by
  induction ds with
  | nil => rfl
  | cons d ds ih =>
    cases d with
    | pointer => simp [arrayStr1, ih]
    | array s =>
      have e1 : (Declarator.array s != Declarator.pointer) = true := by cases s <;> rfl
      rw [List.filter_cons, if_pos e1, List.flatMap_cons, List.flatMap_cons, ih]

theorem arrayStr_length (ds : List Declarator) : (ds.filter (· != .pointer)).length ≤ (ds.flatMap arrayStr1).length := by
  induction ds with
  | nil => simp
  | cons d ds ih =>
    cases d with
    | pointer =>
      simp only [List.filter_cons, bne_self_eq_false, Bool.false_eq_true, if_false, List.flatMap_cons, List.length_append]
      omega
    | array s =>
      have e1 : (Declarator.array s != Declarator.pointer) = true := by cases s <;> rfl
      have e2 : 1 ≤ (arrayStr1 (.array s)).length := by
        rw [arrayStr1_eq]
        cases s <;> simp [sizeText]
      rw [List.filter_cons, if_pos e1, List.flatMap_cons, List.length_append, List.length_cons]
      omega

/-- Stripping the printed declarators from a word. -/
theorem stripDeclarator_printed (t : CType) (w : List U8) (hw : ∀ b, w.head? = some b → b ≠ 42 ∧ b ≠ 91) :
    stripDeclarator (pointerStr t ++ arrayStr t ++ w) = w := by
  unfold stripDeclarator
  rw [List.append_assoc, pointerStr_eq]
  generalize hn : (t.declarator.filter (· == .pointer)).length = n
  have hlen : (List.replicate n (42 : U8) ++ (arrayStr t ++ w)).length = n + ((arrayStr t).length + w.length) := by simp
  rw [hlen, stripLoop_pointers]
  unfold arrayStr
  rw [arrayStr_filter]
  apply stripLoop_arrays w hw
  have := arrayStr_length t.declarator
  rw [← arrayStr_filter]
  omega

theorem stripDeclarator_word {w : List U8} (hw : ∀ b ∈ w, b ≠ 42 ∧ b ≠ 91) : stripDeclarator w = w :=
  stripLoop_plain (fun b hb => hw b (List.mem_of_head? hb)) _

/-! Counting pointers and finding arrays -/

theorem arrayMatches_digits : ∀ {s : List U8} (r a : List U8), (∀ b ∈ s, 48 ≤ b.toNat ∧ b.toNat ≤ 57) →
    arrayMatches (some a) (s ++ 93 :: r) = (a ++ s) :: arrayMatches none r
  | [], r, a, _ => by
    rw [List.nil_append, arrayMatches, if_neg (by decide)]
    simp
  | b :: s, r, a, h => by
    have hb := h b (by simp)
    rw [List.cons_append, arrayMatches, if_neg (by rintro rfl; simp at hb)]
    rw [if_neg (by rintro rfl; simp at hb), arrayMatches_digits r (a ++ [b]) (fun x hx => h x (List.mem_cons_of_mem _ hx)),
      List.append_assoc]
    rfl

theorem arrayMatches_plain : ∀ {s : List U8}, (∀ b ∈ s, b ≠ 91) → arrayMatches none s = []
  | [], _ => rfl
  | b :: s, h => by
    rw [arrayMatches, if_neg (h b (by simp))]
    exact arrayMatches_plain (fun x hx => h x (List.mem_cons_of_mem _ hx))

theorem arrayMatches_pointers (n : Nat) (s : List U8) :
    arrayMatches none (List.replicate n 42 ++ s) = arrayMatches none s := by
  induction n with
  | zero => rfl
  | succ n ih => rw [List.replicate_succ, List.cons_append, arrayMatches, if_neg (by decide)]; exact ih

theorem arrayMatches_arrays {s : List U8} (hs : ∀ b ∈ s, b ≠ 91) : ∀ ds : List Declarator,
    arrayMatches none (ds.flatMap arrayStr1 ++ s) = ds.filterMap sizeText
  | [] => arrayMatches_plain hs
  | d :: ds => by
    cases hd : sizeText d with
    | none =>
      rw [List.flatMap_cons, arrayStr1_eq, hd, List.filterMap_cons, hd]
      exact arrayMatches_arrays hs ds
    | some z =>
      rw [List.flatMap_cons, arrayStr1_eq, hd, List.filterMap_cons, hd]
      simp only [List.cons_append, List.append_assoc, List.nil_append]
      rw [arrayMatches, if_pos rfl, arrayMatches_digits _ _ (sizeText_digits hd), arrayMatches_arrays hs ds]
      rfl

theorem arrayDecl_sizeText (ds : List Declarator) :
    (ds.filterMap sizeText).map arrayDecl = (ds.filter (· != .pointer)).map Declarator.known := by
  induction ds with
  | nil => rfl
  | cons d ds ih =>
    rcases d with _ | _ | s
    · simp [List.filterMap_cons, sizeText, ih]
    · simp only [List.filterMap_cons, sizeText, List.map_cons, ih]
      rfl
    · simp only [List.filterMap_cons, sizeText, List.map_cons, ih]
      rw [List.filter_cons, if_pos (show (Declarator.array (some s) != .pointer) = true from rfl), List.map_cons]
      congr 1
      simp only [Declarator.known, arrayDecl]
      split
      · rename_i hi
        have : s.isEmpty = false := by
          unfold isInteger at hi
          simpa using (Bool.and_eq_true_iff.mp hi).1
        rw [this]
        rfl
      · rfl

theorem stars_arrays (ds : List Declarator) : (ds.flatMap arrayStr1).filter (· == 42) = [] := by
  rw [List.filter_eq_nil_iff]
  intro b hb
  obtain ⟨d, _, hb⟩ := List.mem_flatMap.mp hb
  rw [arrayStr1_eq] at hb
  cases hd : sizeText d with
  | none => rw [hd] at hb; cases hb
  | some z =>
    rw [hd] at hb
    simp only [List.mem_cons, List.mem_append, List.not_mem_nil, or_false] at hb
    rcases hb with rfl | hb | rfl
    · decide
    · have := sizeText_digits hd b hb
      intro he
      rw [beq_iff_eq] at he
      subst he
      simp at this
    · decide

theorem arrayStr_chars {t : CType} {b : U8} (h : b ∈ pointerStr t ++ arrayStr t) : isBlank b = false := by
  rcases List.mem_append.mp h with h | h
  · obtain ⟨_, _, rfl⟩ := List.mem_map.mp h
    rfl
  · obtain ⟨d, _, hb⟩ := List.mem_flatMap.mp h
    rw [arrayStr1_eq] at hb
    cases hd : sizeText d with
    | none => rw [hd] at hb; cases hb
    | some z =>
      rw [hd] at hb
      simp only [List.mem_cons, List.mem_append, List.not_mem_nil, or_false] at hb
      rcases hb with rfl | hb | rfl
      · rfl
      · have := sizeText_digits hd b hb
        unfold isBlank
        simp only [Bool.or_eq_false_iff, Bool.and_eq_false_iff, beq_eq_false_iff_ne, ne_eq, decide_eq_false_iff_not]
        omega
      · rfl

/-! Whole strings -/

theorem isBlank_ten {b : U8} (h : isBlank b = false) : b ≠ 10 ∧ b ≠ 32 := by
  constructor <;> (rintro rfl; revert h; decide)

/-- A printable type is printed without trimming anything. -/
theorem typeTraceString_eq {t : CType} (h : t.Printable) :
    typeTraceString t = pointerStr t ++ arrayStr t ++ joinSpaces (t.specifier.map Specifier.text) := by
  obtain ⟨hne, hp⟩ := h
  cases hs : t.specifier with
  | nil => exact absurd hs hne
  | cons s ss =>
    rw [hs] at hp
    unfold typeTraceString
    simp only [hs, List.drop_succ_cons, List.drop_zero, List.map_cons]
    rw [joinSpaces_append]
    have hch : ∀ w ∈ s.text :: ss.map Specifier.text, w ≠ [] ∧ ∀ b ∈ w, isBlank b = false ∧ b ≠ 123 := by
      intro w hw
      obtain ⟨x, hx, rfl⟩ := List.mem_map.mp (show w ∈ (s :: ss).map Specifier.text from hw)
      exact ⟨(hp x hx).ne, fun b hb => ⟨((hp x hx).chars b hb).1, ((hp x hx).chars b hb).2.2.2.2⟩⟩
    refine trimToLine_eq (fun b hb => ?_) (fun b hb => ?_) (fun b hb => ?_)
    · rcases List.mem_append.mp hb with hb | hb
      · exact (isBlank_ten (arrayStr_chars hb)).1
      · rcases mem_joinSpaces hb with rfl | ⟨w, hw, hb⟩
        · decide
        · exact (isBlank_ten ((hch w hw).2 b hb).1).1
    · have hj : ∃ c r, joinSpaces (s.text :: ss.map Specifier.text) = c :: r ∧ isBlank c = false := by
        have hsne := (hp s (by simp)).ne
        cases hx : s.text with
        | nil => exact absurd hx hsne
        | cons c r =>
          have hc := ((hp s (by simp)).chars c (by rw [hx]; simp)).1
          cases ss with
          | nil => exact ⟨c, r, rfl, hc⟩
          | cons u us => exact ⟨c, _, by rw [joinSpaces_cons _ (by simp)]; rfl, hc⟩
      obtain ⟨c, r, e, hc⟩ := hj
      rw [e] at hb
      cases hpa : pointerStr t ++ arrayStr t with
      | nil => rw [hpa] at hb; cases hb; exact hc
      | cons x xs =>
        rw [hpa] at hb
        cases hb
        exact arrayStr_chars (t := t) (by rw [hpa]; simp)
    · have hjne : joinSpaces (s.text :: ss.map Specifier.text) ≠ [] := by
        have hsne := (hp s (by simp)).ne
        intro e
        cases ss with
        | nil => exact hsne e
        | cons u us => rw [List.map_cons, joinSpaces_cons _ (by simp)] at e; simp at e
      rw [List.getLast?_append, Option.or_of_isSome (by simp [hjne])] at hb
      obtain ⟨w, hw, hb⟩ := getLast_joinSpaces (by simp) (fun w hw => (hch w hw).1) hb
      exact (hch w hw).2 b hb

/-- The words of the printed type. -/
theorem words_printed {t : CType} (h : t.Printable) :
    (splitSpaces (typeTraceString t)).map stripDeclarator = t.specifier.map Specifier.text := by
  rw [typeTraceString_eq h]
  obtain ⟨hne, hp⟩ := h
  cases hs : t.specifier with
  | nil => exact absurd hs hne
  | cons s ss =>
    rw [hs] at hp
    rw [List.map_cons, ← joinSpaces_append, splitSpaces_join (by simp), List.map_cons, stripDeclarator_printed]
    · congr 1
      rw [List.map_map]
      apply List.map_congr_left
      intro x hx
      exact stripDeclarator_word fun b hb =>
        ⟨((hp x (List.mem_cons_of_mem _ hx)).chars b hb).2.1, ((hp x (List.mem_cons_of_mem _ hx)).chars b hb).2.2.1⟩
    · intro b hb
      have := (hp s (by simp)).chars b (List.mem_of_head? hb)
      exact ⟨this.2.1, this.2.2.1⟩
    · intro w hw b hb
      rcases List.mem_cons.mp hw with rfl | hw
      · rcases List.mem_append.mp hb with hb | hb
        · exact (isBlank_ten (arrayStr_chars hb)).2
        · exact (isBlank_ten ((hp s (by simp)).chars b hb).1).2
      · obtain ⟨x, hx, rfl⟩ := List.mem_map.mp hw
        exact (isBlank_ten ((hp x (List.mem_cons_of_mem _ hx)).chars b hb).1).2

theorem classify_words (k : SpecKind) (p : List U8 → Bool) (ss : List Specifier)
    (h : ∀ s ∈ ss, p s.text = (s.kind == k)) :
    ((ss.map Specifier.text).filter p).map (Specifier.mk k) = ss.filter (·.kind == k) := by
  induction ss with
  | nil => rfl
  | cons s ss ih =>
    have hs := h s (by simp)
    have ih := ih fun x hx => h x (List.mem_cons_of_mem _ hx)
    rw [List.map_cons, List.filter_cons, List.filter_cons, hs]
    split
    · rename_i hk
      rw [List.map_cons, ih]
      congr 1
      rw [← beq_iff_eq.mp hk]
    · exact ih

theorem qualifierWords_eq : qualifierWords = typeQualifiers := by decide
theorem storageWords_eq : storageWords = storageClasses := by decide

/-- Whether a specifier is plain can be computed. -/
theorem Specifier.plain_of {s : Specifier}
    (h : (!s.text.isEmpty && s.text.all (fun b => !isBlank b && b != 42 && b != 91 && b != 93 && b != 123) &&
      (decide (s.kind = .qualifier) == typeQualifiers.contains s.text) &&
      (decide (s.kind = .storage) == storageClasses.contains s.text)) = true) : s.Plain := by
  simp only [Bool.and_eq_true, List.all_eq_true, Bool.not_eq_true', bne_iff_ne, beq_iff_eq] at h
  obtain ⟨⟨⟨h1, h2⟩, h3⟩, h4⟩ := h
  refine ⟨by simpa using h1, fun b hb => ?_, ?_, ?_⟩
  · obtain ⟨⟨⟨⟨a, b⟩, c⟩, d⟩, e⟩ := h2 b hb
    exact ⟨a, b, c, d, e⟩
  · rw [qualifierWords_eq, ← List.contains_iff_mem, ← h3, decide_eq_true_iff]
  · rw [storageWords_eq, ← List.contains_iff_mem, ← h4, decide_eq_true_iff]

theorem filter_filter_ne {α : Type} (p q : α → Bool) (l : List α) (h : ∀ x, q x = true → p x = false) :
    (l.filter q).filter p = [] := by
  rw [List.filter_eq_nil_iff]
  intro x hx
  rw [h x (List.mem_filter.mp hx).2]
  simp

theorem Declarator.known_known (d : Declarator) : d.known.known = d.known := by
  rcases d with _ | _ | s
  · rfl
  · rfl
  · cases h : isInteger s <;> simp [Declarator.known, h]

theorem known_filter_pointer (l : List Declarator) :
    (((l.filter (· != .pointer)).map Declarator.known).filter (· == .pointer)) = [] ∧
    (((l.filter (· != .pointer)).map Declarator.known).filter (· != .pointer)) =
      (l.filter (· != .pointer)).map Declarator.known := by
  constructor
  · rw [List.filter_eq_nil_iff]
    intro x hx
    obtain ⟨d, hd, rfl⟩ := List.mem_map.mp hx
    have := (List.mem_filter.mp hd).2
    rcases d with _ | _ | s
    · exact absurd this (by decide)
    · decide
    · simp only [Declarator.known]
      split <;> simp
  · rw [List.filter_eq_self]
    intro x hx
    obtain ⟨d, hd, rfl⟩ := List.mem_map.mp hx
    have := (List.mem_filter.mp hd).2
    rcases d with _ | _ | s
    · exact absurd this (by decide)
    · decide
    · simp only [Declarator.known]
      split <;> simp

/-- Normalising again changes nothing. -/
theorem CType.normal_normal (t : CType) : t.normal.normal = t.normal := by
  unfold CType.normal
  have e := known_filter_pointer t.declarator
  congr 1
  · simp only [List.filter_append, List.filter_filter, e.1, e.2, List.append_nil]
    have h1 : (t.declarator.filter fun a => (a == .pointer) && (a == .pointer)) = t.declarator.filter (· == .pointer) := by
      simp
    have h2 : (t.declarator.filter fun a => (a != .pointer) && (a == .pointer)) = [] := by
      rw [List.filter_eq_nil_iff]
      intro x _
      unfold bne
      cases (x == Declarator.pointer) <;> simp
    rw [h1, h2, List.nil_append, List.map_map]
    congr 1
    apply List.map_congr_left
    intro d _
    exact d.known_known
  · have hne : ∀ a b : SpecKind, a ≠ b → (t.specifier.filter (·.kind == a)).filter (·.kind == b) = [] := by
      intro a b hab
      apply filter_filter_ne
      intro x hx
      rw [beq_iff_eq] at hx
      rw [beq_eq_false_iff_ne, hx]
      exact hab
    have hsame : ∀ a : SpecKind, (t.specifier.filter (·.kind == a)).filter (·.kind == a) = t.specifier.filter (·.kind == a) := by
      intro a
      rw [List.filter_filter]
      simp
    simp only [List.filter_append, hsame, hne .qualifier .storage (by decide), hne .qualifier .base (by decide),
      hne .storage .qualifier (by decide), hne .storage .base (by decide), hne .base .qualifier (by decide),
      hne .base .storage (by decide), List.append_nil, List.nil_append]

theorem CType.Printable.normal {t : CType} (h : t.Printable) : t.normal.Printable := by
  constructor
  · intro e
    obtain ⟨s, hs⟩ := List.exists_mem_of_ne_nil _ h.1
    have : s ∈ t.normal.specifier := by
      unfold CType.normal
      simp only [List.mem_append, List.mem_filter, beq_iff_eq, hs, true_and]
      cases s.kind <;> simp
    rw [e] at this
    cases this
  · intro s hs
    refine h.2 s ?_
    unfold CType.normal at hs
    simp only [List.mem_append, List.mem_filter] at hs
    rcases hs with (hs | hs) | hs <;> exact hs.1

/-- The rest of the words of a printed type. -/
theorem typeFromTraceString_base {t : CType} (h : t.Printable) :
    (typeFromTraceString (typeTraceString t)).specifier.filter (·.kind == .base) = t.specifier.filter (·.kind == .base) := by
  unfold typeFromTraceString
  simp only [words_printed h]
  have hsp := h.2
  have hq : ∀ s ∈ t.specifier, typeQualifiers.contains s.text = (s.kind == .qualifier) := by
    intro s hs
    rw [Bool.eq_iff_iff, List.contains_iff_mem, beq_iff_eq]
    exact qualifierWords_eq ▸ (hsp s hs).qualifier.symm
  have hst : ∀ s ∈ t.specifier, storageClasses.contains s.text = (s.kind == .storage) := by
    intro s hs
    rw [Bool.eq_iff_iff, List.contains_iff_mem, beq_iff_eq]
    exact storageWords_eq ▸ (hsp s hs).storage.symm
  rw [classify_words .qualifier _ _ hq, classify_words .storage _ _ hst, classify_words .base]
  · simp only [List.filter_append, List.filter_filter]
    have e1 : ∀ k : SpecKind, k ≠ .base → t.specifier.filter (fun a => (a.kind == .base) && (a.kind == k)) = [] := by
      intro k hk
      rw [List.filter_eq_nil_iff]
      intro x _ hc
      rw [Bool.and_eq_true, beq_iff_eq, beq_iff_eq] at hc
      exact hk (hc.2.symm.trans hc.1)
    rw [e1 _ (by decide), e1 _ (by decide)]
    simp
  · intro s hs
    rw [hq s hs, hst s hs]
    cases s.kind <;> rfl

end TraceDB
