import Verif.Proofs.TypeString
/-
C60: type strings.
-/
namespace TraceDB

/-- Parsing a printed type gives the type in normal form. -/
theorem C60_round_trip (t : CType) (h : t.Printable) :
    typeFromTraceString (typeTraceString t) = t.normal := by
  unfold typeFromTraceString CType.normal
  simp only [words_printed h]
  have hsp := h.2
  have hq : ∀ s ∈ t.specifier, typeQualifiers.contains s.text = (s.kind == .qualifier) := by
    intro s hs
    rw [Bool.eq_iff_iff, List.contains_iff_mem, beq_iff_eq]
    exact qualifierWords_eq ▸ (hsp s hs).qualifier.symm
  have hst : ∀ s ∈ t.specifier, storageClasses.contains s.text = (s.kind == .storage) := by
    intro s hs
    rw [Bool.eq_iff_iff, List.contains_iff_mem, beq_iff_eq]
    exact storageWords_eq ▸ (hsp s hs).storage.symm
  rw [classify_words .qualifier _ _ hq, classify_words .storage _ _ hst, classify_words .base]
  · have hplain : ∀ b ∈ joinSpaces (t.specifier.map Specifier.text), b ≠ 42 ∧ b ≠ 91 := by
      intro b hb
      rcases mem_joinSpaces hb with rfl | ⟨w, hw, hb⟩
      · decide
      · obtain ⟨s, hs, rfl⟩ := List.mem_map.mp hw
        exact ⟨((hsp s hs).chars b hb).2.1, ((hsp s hs).chars b hb).2.2.1⟩
    have e1 : (typeTraceString t).filter (· == 42) = pointerStr t := by
      rw [typeTraceString_eq h, List.filter_append, List.filter_append]
      have : (joinSpaces (t.specifier.map Specifier.text)).filter (· == 42) = [] := by
        rw [List.filter_eq_nil_iff]
        intro b hb
        simpa using (hplain b hb).1
      rw [this, show (arrayStr t).filter (· == 42) = [] from stars_arrays _, pointerStr_eq]
      simp
    have e2 : arrayMatches none (typeTraceString t) = t.declarator.filterMap sizeText := by
      rw [typeTraceString_eq h, List.append_assoc, pointerStr_eq, arrayMatches_pointers]
      exact arrayMatches_arrays (fun b hb => (hplain b hb).2) _
    rw [e1, e2, arrayDecl_sizeText]
    congr 2
    unfold pointerStr
    rw [List.map_map]
    conv => rhs; rw [← List.map_id (t.declarator.filter (· == .pointer))]
    apply List.map_congr_left
    intro d hd
    exact (beq_iff_eq.mp (List.mem_filter.mp hd).2).symm
  · intro s hs
    rw [hq s hs, hst s hs]
    cases s.kind <;> rfl

/-- `char const *name[5]`. -/
def arrayOfPointers : CType := ⟨[.array (some (ascii "5")), .pointer], [⟨.base, ascii "char"⟩, ⟨.qualifier, ascii "const"⟩]⟩
/-- `const char (*name)[5]`. -/
def pointerToArray : CType := ⟨[.pointer, .array (some (ascii "5"))], [⟨.qualifier, ascii "const"⟩, ⟨.base, ascii "char"⟩]⟩
/-- `static unsigned int name[N]`. -/
def namedSize : CType :=
  ⟨[.array (some (ascii "N"))], [⟨.storage, ascii "static"⟩, ⟨.base, ascii "unsigned"⟩, ⟨.base, ascii "int"⟩]⟩

theorem arrayOfPointers_printable : arrayOfPointers.Printable := by
  refine ⟨by simp [arrayOfPointers], fun s hs => Specifier.plain_of ?_⟩
  revert s
  decide +kernel

theorem pointerToArray_printable : pointerToArray.Printable := by
  refine ⟨by simp [pointerToArray], fun s hs => Specifier.plain_of ?_⟩
  revert s
  decide +kernel

theorem namedSize_printable : namedSize.Printable := by
  refine ⟨by simp [namedSize], fun s hs => Specifier.plain_of ?_⟩
  revert s
  decide +kernel

example : typeTraceString pointerToArray = ascii "*[5]const char" ∧
    typeFromTraceString (ascii "*[5]const char") = pointerToArray := by decide +kernel
example : typeFromTraceString (typeTraceString namedSize) = namedSize.normal := C60_round_trip _ namedSize_printable

/-- Strings of types in normal form are kept exactly, so what is parsed from a string
prints and parses to itself. -/
theorem C60_stable (t : CType) (h : t.Printable) :
    typeFromTraceString (typeTraceString (typeFromTraceString (typeTraceString t))) =
      typeFromTraceString (typeTraceString t) ∧
    (t.normal = t → typeTraceString (typeFromTraceString (typeTraceString t)) = typeTraceString t) := by
  rw [C60_round_trip t h]
  refine ⟨?_, fun e => by rw [e]⟩
  rw [C60_round_trip _ h.normal, t.normal_normal]

example : typeTraceString (typeFromTraceString (typeTraceString pointerToArray)) = typeTraceString pointerToArray :=
  (C60_stable _ pointerToArray_printable).2 (by decide +kernel)

/-- Two printable types have the same string exactly if their declarators have the same
normal form and their specifiers the same texts in the same order. -/
theorem C60_injective (t u : CType) (ht : t.Printable) (hu : u.Printable) :
    typeTraceString t = typeTraceString u ↔
      t.normal.declarator = u.normal.declarator ∧ t.specifier = u.specifier := by
  constructor
  · intro h
    refine ⟨?_, ?_⟩
    · rw [← C60_round_trip t ht, ← C60_round_trip u hu, h]
    · have hw := words_printed ht
      rw [h, words_printed hu] at hw
      have hkind : ∀ s s' : Specifier, s.Plain → s'.Plain → s.text = s'.text → s = s' := by
        intro s s' hs hs' e
        have h1 := hs.qualifier
        have h2 := hs.storage
        rw [e, ← hs'.qualifier] at h1
        rw [e, ← hs'.storage] at h2
        cases s with
        | mk k x =>
          cases s' with
          | mk k' x' =>
            simp only at e h1 h2
            subst e
            congr 1
            cases k <;> cases k' <;> simp_all
      have key : ∀ l l' : List Specifier, (∀ s ∈ l, s.Plain) → (∀ s ∈ l', s.Plain) →
          l'.map Specifier.text = l.map Specifier.text → l = l' := by
        intro l
        induction l with
        | nil => intro l' _ _ e; exact (List.map_eq_nil_iff.mp e).symm
        | cons s l ih =>
          intro l' hl hl' e
          cases l' with
          | nil => cases e
          | cons s' l' =>
            rw [List.map_cons, List.map_cons, List.cons.injEq] at e
            rw [hkind s s' (hl s (by simp)) (hl' s' (by simp)) e.1.symm,
              ih l' (fun x hx => hl x (List.mem_cons_of_mem _ hx)) (fun x hx => hl' x (List.mem_cons_of_mem _ hx)) e.2]
      exact key _ _ ht.2 hu.2 hw
  · rintro ⟨h1, h2⟩
    rw [typeTraceString_eq ht, typeTraceString_eq hu, h2]
    congr 1
    have hp : ∀ v : CType, pointerStr v = (v.normal.declarator.filter (· == .pointer)).map fun _ => 42 := by
      intro v
      unfold pointerStr CType.normal
      rw [List.filter_append, (known_filter_pointer _).1, List.append_nil, List.filter_filter]
      simp
    have ha : ∀ v : CType, arrayStr v = v.normal.declarator.flatMap arrayStr1 := by
      intro v
      unfold arrayStr CType.normal
      rw [List.flatMap_append, arrayStr_filter]
      have e1 : (v.declarator.filter (· == .pointer)).flatMap arrayStr1 = [] := by
        rw [List.flatMap_eq_nil_iff]
        intro d hd
        rw [beq_iff_eq.mp (List.mem_filter.mp hd).2]
        rfl
      rw [e1, List.nil_append, List.flatMap_map]
      congr 1
      funext d
      rcases d with _ | _ | s
      · rfl
      · rfl
      · simp only [Declarator.known, arrayStr1]
        split
        · rename_i hi
          simp only [hi, if_true]
        · rfl
    rw [hp t, hp u, ha t, ha u, h1]

example : typeTraceString arrayOfPointers ≠ typeTraceString pointerToArray :=
  fun h => absurd ((C60_injective _ _ arrayOfPointers_printable pointerToArray_printable).mp h).2 (by decide +kernel)

/-- The code loses the order of declarators: an array of pointers and a pointer to an
array have the same string, and parsing takes both for the latter. -/
theorem C60_declarators_conflated : ∃ t u : CType, t.Printable ∧ u.Printable ∧ t ≠ u ∧
    typeTraceString t = typeTraceString u ∧ typeFromTraceString (typeTraceString t) ≠ t :=
  ⟨⟨[.array (some (ascii "5")), .pointer], pointerToArray.specifier⟩, pointerToArray,
    ⟨pointerToArray_printable.1, pointerToArray_printable.2⟩, pointerToArray_printable, by decide +kernel,
    by decide +kernel, by decide +kernel⟩

/-- A size that is a name is lost. -/
theorem C60_named_size_lost : namedSize.Printable ∧
    typeTraceString namedSize = ascii "[]static unsigned int" ∧
    (typeFromTraceString (typeTraceString namedSize)).declarator = [.array none] :=
  ⟨namedSize_printable, by decide +kernel, by decide +kernel⟩

/-- A type written with the qualifier last is not written so again. -/
theorem C60_order_changed : arrayOfPointers.Printable ∧
    typeTraceString arrayOfPointers = ascii "*[5]char const" ∧
    typeTraceString (typeFromTraceString (typeTraceString arrayOfPointers)) = ascii "*[5]const char" :=
  ⟨arrayOfPointers_printable, by decide +kernel, by decide +kernel⟩

end TraceDB
