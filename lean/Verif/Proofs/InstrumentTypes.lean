import Verif.Spec.Instrument
import Verif.Proofs.TypeString
/-
How the instrumentation classifies types.
-/
namespace TraceDB

theorem baseTypename_eq (t : CType) :
    baseTypename t = joinSpaces ((t.specifier.filter (·.kind == .base)).map Specifier.text) := by
  unfold baseTypename
  congr 3
  funext s
  cases s.kind <;> rfl

theorem named_iff {t : CType} {s : String} : t.Named s ↔ baseTypename t = ascii s := by
  rw [baseTypename_eq]
  rfl

theorem isPointer_iff {t : CType} : t.isPointer = true ↔ .pointer ∈ t.declarator := by
  unfold CType.isPointer
  rw [List.any_eq_true]
  constructor
  · rintro ⟨d, hd, e⟩
    rwa [← beq_iff_eq.mp e]
  · exact fun h => ⟨_, h, by simp⟩

theorem isArray_iff {t : CType} : t.isArray = true ↔ ∃ d ∈ t.declarator, d ≠ .pointer := by
  unfold CType.isArray
  rw [List.any_eq_true]
  simp

theorem pointerOrArray_iff {t : CType} : (t.isPointer || t.isArray) = true ↔ t.declarator ≠ [] := by
  rw [Bool.or_eq_true, isPointer_iff, isArray_iff]
  constructor
  · rintro (h | ⟨d, h, _⟩) <;> exact List.ne_nil_of_mem h
  · intro h
    obtain ⟨d, hd⟩ := List.exists_mem_of_ne_nil _ h
    by_cases e : d = .pointer
    · exact .inl (e ▸ hd)
    · exact .inr ⟨d, hd, e⟩

theorem isString_iff {t : CType} : t.isString = true ↔ t.Text := by
  have h1 : ascii "char" = [99, 104, 97, 114] := by decide
  have h2 : ascii "string" = [115, 116, 114, 105, 110, 103] := by decide
  have h3 : ascii "std::string" = [115, 116, 100, 58, 58, 115, 116, 114, 105, 110, 103] := by decide
  unfold CType.isString CType.isCString CType.isCppString CType.Text
  rw [named_iff, named_iff, named_iff, h1, h2, h3, Bool.or_eq_true, Bool.or_eq_true, Bool.and_eq_true, beq_iff_eq,
    beq_iff_eq, beq_iff_eq]
  have key : (t.isArray != t.isPointer) = true ↔
      (.pointer ∈ t.declarator ∧ ∀ d ∈ t.declarator, d = .pointer) ∨ (t.declarator ≠ [] ∧ .pointer ∉ t.declarator) := by
    have hp := @isPointer_iff t
    have ha := @isArray_iff t
    have hpa := @pointerOrArray_iff t
    cases e1 : t.isPointer <;> cases e2 : t.isArray <;> simp only [e1, e2, Bool.false_eq_true, false_iff, true_iff, Bool.or_false,
      Bool.or_true, bne_self_eq_false, ne_eq, Decidable.not_not] at hp ha hpa ⊢
    · simp [hpa]
    · simp [hpa, hp]
    · rw [not_exists] at ha
      refine (iff_of_true (by decide) (.inl ⟨hp, fun d hd => ?_⟩))
      exact Decidable.byContradiction fun hc => ha d ⟨hd, hc⟩
    · rintro (⟨_, h⟩ | ⟨_, h⟩)
      · obtain ⟨d, hd, hne⟩ := ha
        exact hne (h d hd)
      · exact h hp
  rw [key]

theorem lookup_signed {s : String} {k : IntSize} (h : cSigned s = some k) :
    signedNames.lookup (ascii s) = some k.bytes := by
  unfold cSigned at h
  split at h
  · rename_i e
    cases h
    rcases e with rfl | rfl <;> decide +kernel
  · split at h
    · rename_i e
      cases h
      rcases e with rfl | rfl <;> decide +kernel
    · split at h
      · rename_i e
        cases h
        rcases e with rfl | rfl | rfl <;> decide +kernel
      · split at h
        · rename_i e
          cases h
          rcases e with rfl | rfl <;> decide +kernel
        · cases h

theorem lookup_unsigned {s : String} {k : IntSize} (h : cUnsigned s = some k) :
    signedNames.lookup (ascii s) = none ∧ unsignedNames.lookup (ascii s) = some k.bytes := by
  unfold cUnsigned at h
  split at h
  · rename_i e
    cases h
    rcases e with rfl | rfl <;> decide +kernel
  · split at h
    · rename_i e
      cases h
      rcases e with rfl | rfl <;> decide +kernel
    · split at h
      · rename_i e
        cases h
        rcases e with rfl | rfl <;> decide +kernel
      · split at h
        · rename_i e
          cases h
          rcases e with rfl | rfl | rfl <;> decide +kernel
        · cases h

theorem mem_of_lookup {b : List U8} {z : Nat} : ∀ {l : List (List U8 × Nat)}, l.lookup b = some z → (b, z) ∈ l
  | [], h => by cases h
  | (a, y) :: l, h => by
    rw [List.lookup_cons] at h
    split at h
    · rename_i e
      cases h
      rw [beq_iff_eq.mp e]
      simp
    · exact List.mem_cons_of_mem _ (mem_of_lookup h)

/-- The signed types by name. -/
def signedTable : List (String × IntSize) :=
  [("char", .one), ("int8_t", .one), ("wchar_t", .four), ("short int", .two), ("int16_t", .two), ("int", .four),
    ("int32_t", .four), ("long int", .eight), ("int64_t", .eight)]
/-- The unsigned types by name. -/
def unsignedTable : List (String × IntSize) :=
  [("unsigned char", .one), ("uint8_t", .one), ("unsigned short int", .two), ("uint16_t", .two),
    ("unsigned int", .four), ("uint32_t", .four), ("unsigned long int", .eight), ("uint64_t", .eight), ("size_t", .eight)]

theorem signedNames_eq : signedNames = signedTable.map fun p => (ascii p.1, p.2.bytes) := by decide +kernel
theorem unsignedNames_eq : unsignedNames = unsignedTable.map fun p => (ascii p.1, p.2.bytes) := by decide +kernel

theorem signed_of_lookup {b : List U8} {z : Nat} (h : signedNames.lookup b = some z) :
    ∃ s k, b = ascii s ∧ cSigned s = some k ∧ k.bytes = z := by
  have := mem_of_lookup h
  rw [signedNames_eq] at this
  obtain ⟨p, hp, e⟩ := List.mem_map.mp this
  cases e
  refine ⟨p.1, p.2, rfl, ?_, rfl⟩
  revert p
  decide +kernel

theorem unsigned_of_lookup {b : List U8} {z : Nat} (h : unsignedNames.lookup b = some z) :
    ∃ s k, b = ascii s ∧ cUnsigned s = some k ∧ k.bytes = z := by
  have := mem_of_lookup h
  rw [unsignedNames_eq] at this
  obtain ⟨p, hp, e⟩ := List.mem_map.mp this
  cases e
  refine ⟨p.1, p.2, rfl, ?_, rfl⟩
  revert p
  decide +kernel

/-- Strings are recorded as blobs. -/
theorem formatAndSize_text {v : ScopeVar} {ps : Bool} (h : v.AsText ps) : formatAndSize v.type ps = some (.blob, 0) := by
  obtain ⟨rfl, h⟩ := h
  unfold formatAndSize
  rw [isString_iff.mpr h]
  rfl

theorem asText_iff {v : ScopeVar} {ps : Bool} : v.AsText ps ↔ (ps && v.type.isString) = true := by
  rw [Bool.and_eq_true, isString_iff]
  rfl

/-- The format and size of a type are those of its values. -/
theorem formatAndSize_holds {v : ScopeVar} {ps : Bool} (h : ¬ v.AsText ps) {x : CValue} (hx : v.type.Holds x) :
    formatAndSize v.type ps = some (x.format, x.size) := by
  unfold formatAndSize
  rw [asText_iff] at h
  rw [if_neg h]
  have nil : ∀ {t : CType}, t.declarator = [] → ¬ (t.isPointer || t.isArray) = true := by
    intro t ht h'
    exact pointerOrArray_iff.mp h' ht
  cases hx with
  | pointer a hd => rw [if_pos (pointerOrArray_iff.mpr hd)]; rfl
  | signed s k x hd hn hk =>
    rw [if_neg (nil hd), named_iff.mp hn, lookup_signed hk]
    rfl
  | unsigned s k x hd hn hk =>
    rw [if_neg (nil hd), named_iff.mp hn, (lookup_unsigned hk).1, (lookup_unsigned hk).2]
    rfl
  | float b hd hn =>
    rw [if_neg (nil hd), named_iff.mp hn, show signedNames.lookup (ascii "float") = none by decide +kernel,
      show unsignedNames.lookup (ascii "float") = none by decide +kernel]
    rfl
  | double b hd hn =>
    rw [if_neg (nil hd), named_iff.mp hn, show signedNames.lookup (ascii "double") = none by decide +kernel,
      show unsignedNames.lookup (ascii "double") = none by decide +kernel]
    rfl

/-- Only types with values are recorded. -/
theorem holds_of_formatAndSize {v : ScopeVar} {ps : Bool} (h : ¬ v.AsText ps) {f : TypeFormat} {z : Nat}
    (hf : formatAndSize v.type ps = some (f, z)) : ∃ x, v.type.Holds x := by
  unfold formatAndSize at hf
  rw [asText_iff] at h
  rw [if_neg h] at hf
  split at hf
  · rename_i hd
    exact ⟨.pointer 0, .pointer 0 (pointerOrArray_iff.mp hd)⟩
  · rename_i hd
    have hd : v.type.declarator = [] := Decidable.byContradiction fun hc => hd (pointerOrArray_iff.mpr hc)
    split at hf
    · rename_i z' hl
      obtain ⟨s, k, e, hk, _⟩ := signed_of_lookup hl
      exact ⟨.signed k 0, .signed s k 0 hd (named_iff.mpr e) hk⟩
    · split at hf
      · rename_i z' hl
        obtain ⟨s, k, e, hk, _⟩ := unsigned_of_lookup hl
        exact ⟨.unsigned k 0, .unsigned s k 0 hd (named_iff.mpr e) hk⟩
      · split at hf
        · rename_i e
          exact ⟨.float 0, .float 0 hd (named_iff.mpr ((beq_iff_eq.mp e).trans (by decide)))⟩
        · split at hf
          · rename_i e
            exact ⟨.double 0, .double 0 hd (named_iff.mpr ((beq_iff_eq.mp e).trans (by decide)))⟩
          · cases hf

theorem asScalar_of {v : ScopeVar} {ps : Bool} (h : ¬ v.AsText ps) {f : TypeFormat} {z : Nat}
    (hf : formatAndSize v.type ps = some (f, z)) : v.AsScalar ps := ⟨h, holds_of_formatAndSize h hf⟩

theorem not_asScalar_of {v : ScopeVar} {ps : Bool} (hf : formatAndSize v.type ps = none) : ¬ v.AsScalar ps ∧ ¬ v.AsText ps := by
  have ht : ¬ v.AsText ps := fun h => by rw [formatAndSize_text h] at hf; cases hf
  refine ⟨?_, ht⟩
  rintro ⟨_, x, hx⟩
  rw [formatAndSize_holds ht hx] at hf
  cases hf

theorem formatAndSize_valid {t : CType} {ps : Bool} {f : TypeFormat} {z : Nat} (hf : formatAndSize t ps = some (f, z)) :
    f ≠ .invalid ∧ z ≤ 8 := by
  unfold formatAndSize at hf
  split at hf
  · cases hf; decide
  · split at hf
    · cases hf; decide
    · split at hf
      · rename_i z' hl
        obtain ⟨s, k, _, _, e⟩ := signed_of_lookup hl
        cases hf
        exact ⟨by decide, by rw [← e]; cases k <;> decide⟩
      · split at hf
        · rename_i z' hl
          obtain ⟨s, k, _, _, e⟩ := unsigned_of_lookup hl
          cases hf
          exact ⟨by decide, by rw [← e]; cases k <;> decide⟩
        · split at hf
          · cases hf; decide
          · split at hf
            · cases hf; decide
            · cases hf

/-! Same key, same format -/

/-- No upper-case letter. -/
def lower (b : U8) : Prop := ¬ (65 ≤ b.toNat ∧ b.toNat ≤ 90)

theorem foldChar_inj {a b : U8} (ha : lower a) (hb : lower b) (h : foldChar a = foldChar b) : a = b := by
  have key : ∀ a b : U8, ¬ (65 ≤ a.toNat ∧ a.toNat ≤ 90) → ¬ (65 ≤ b.toNat ∧ b.toNat ≤ 90) → foldChar a = foldChar b → a = b := by
    intro a b ha hb h
    unfold foldChar at h
    apply BitVec.eq_of_toNat_eq
    have ha' := a.isLt
    have hb' := b.isLt
    have e : ∀ x : U8, 97 ≤ x.toNat → x.toNat ≤ 122 → (x - 32).toNat = x.toNat - 32 := by
      intro x h1 h2
      rw [BitVec.toNat_sub, show (32 : U8).toNat = 32 from rfl]
      omega
    split at h <;> split at h <;> have h := congrArg BitVec.toNat h
    · rw [e _ (by omega) (by omega), e _ (by omega) (by omega)] at h; omega
    · rw [e _ (by omega) (by omega)] at h; omega
    · rw [e _ (by omega) (by omega)] at h; omega
    · exact h
  exact key a b ha hb h

theorem map_foldChar_inj : ∀ {s s' : List U8}, (∀ b ∈ s, lower b) → (∀ b ∈ s', lower b) →
    s.map foldChar = s'.map foldChar → s = s'
  | [], [], _, _, _ => rfl
  | [], _ :: _, _, _, h => by cases h
  | _ :: _, [], _, _, h => by cases h
  | a :: s, b :: s', ha, hb, h => by
    rw [List.map_cons, List.map_cons, List.cons.injEq] at h
    rw [foldChar_inj (ha a (by simp)) (hb b (by simp)) h.1,
      map_foldChar_inj (fun x hx => ha x (List.mem_cons_of_mem _ hx)) (fun x hx => hb x (List.mem_cons_of_mem _ hx)) h.2]

theorem mem_joinSpaces_of : ∀ {ws : List (List U8)} {w : List U8} {b : U8}, w ∈ ws → b ∈ w → b ∈ joinSpaces ws
  | [], _, _, h, _ => by cases h
  | [w'], w, b, h, hb => by
    rw [List.mem_singleton.mp h] at hb
    exact hb
  | w' :: v :: ws, w, b, h, hb => by
    rw [joinSpaces_cons _ (by simp), List.mem_append]
    rcases List.mem_cons.mp h with rfl | h
    · exact .inl hb
    · exact .inr (List.mem_cons_of_mem _ (mem_joinSpaces_of h hb))

theorem lower_baseTypename {t : CType} (hd : t.declarator = []) {f : TypeFormat} {z : Nat} {ps : Bool}
    (hps : ¬ (ps && t.isString) = true) (hf : formatAndSize t ps = some (f, z)) : ∀ b ∈ baseTypename t, lower b := by
  unfold formatAndSize at hf
  rw [if_neg hps, if_neg (fun h => pointerOrArray_iff.mp h hd)] at hf
  generalize baseTypename t = n at hf
  split at hf
  · rename_i z' hl
    have := mem_of_lookup hl
    have key : ∀ p ∈ signedNames, ∀ b ∈ p.1, ¬ (65 ≤ b.toNat ∧ b.toNat ≤ 90) := by decide +kernel
    exact fun b hb => key _ this b hb
  · split at hf
    · rename_i z' hl
      have := mem_of_lookup hl
      have key : ∀ p ∈ unsignedNames, ∀ b ∈ p.1, ¬ (65 ≤ b.toNat ∧ b.toNat ≤ 90) := by decide +kernel
      exact fun b hb => key _ this b hb
    · split at hf
      · rename_i e
        rw [beq_iff_eq.mp e]
        show ∀ b ∈ [(102 : U8), 108, 111, 97, 116], ¬ (65 ≤ b.toNat ∧ b.toNat ≤ 90)
        decide
      · split at hf
        · rename_i e
          rw [beq_iff_eq.mp e]
          show ∀ b ∈ [(100 : U8), 111, 117, 98, 108, 101], ¬ (65 ≤ b.toNat ∧ b.toNat ≤ 90)
          decide
        · cases hf

theorem lower_string {t : CType} (ht : t.Printable) (hd : t.declarator = []) {f : TypeFormat} {z : Nat} {ps : Bool}
    (hps : ¬ (ps && t.isString) = true) (hf : formatAndSize t ps = some (f, z)) : ∀ b ∈ typeTraceString t, lower b := by
  have hb := lower_baseTypename hd hps hf
  rw [baseTypename_eq] at hb
  intro b h
  rw [typeTraceString_eq ht, pointerStr_eq] at h
  simp only [arrayStr, hd, List.filter_nil, List.length_nil, List.replicate_zero, List.flatMap_nil, List.nil_append] at h
  rcases mem_joinSpaces h with rfl | ⟨w, hw, hbw⟩
  · show ¬ (65 ≤ (32 : U8).toNat ∧ (32 : U8).toNat ≤ 90)
    decide
  · obtain ⟨s, hs, rfl⟩ := List.mem_map.mp hw
    cases hk : s.kind with
    | base =>
      exact hb b (mem_joinSpaces_of (List.mem_map.mpr ⟨s, List.mem_filter.mpr ⟨hs, by rw [hk]; rfl⟩, rfl⟩) hbw)
    | qualifier =>
      have := qualifierWords_eq ▸ (ht.2 s hs).qualifier.mp hk
      have key : ∀ w ∈ typeQualifiers, ∀ b ∈ w, ¬ (65 ≤ b.toNat ∧ b.toNat ≤ 90) := by decide +kernel
      exact key _ this b hbw
    | storage =>
      have := storageWords_eq ▸ (ht.2 s hs).storage.mp hk
      have key : ∀ w ∈ storageClasses, ∀ b ∈ w, ¬ (65 ≤ b.toNat ∧ b.toNat ≤ 90) := by decide +kernel
      exact key _ this b hbw

theorem declarator_nil_iff {t : CType} (ht : t.Printable) :
    t.declarator = [] ↔ ∀ b ∈ typeTraceString t, b ≠ 42 ∧ b ≠ 91 := by
  rw [typeTraceString_eq ht]
  constructor
  · intro hd b h
    rw [pointerStr_eq] at h
    simp only [arrayStr, hd, List.filter_nil, List.length_nil, List.replicate_zero, List.flatMap_nil, List.nil_append] at h
    rcases mem_joinSpaces h with rfl | ⟨w, hw, hbw⟩
    · decide
    · obtain ⟨s, hs, rfl⟩ := List.mem_map.mp hw
      exact ⟨((ht.2 s hs).chars b hbw).2.1, ((ht.2 s hs).chars b hbw).2.2.1⟩
  · intro h
    cases hd : t.declarator with
    | nil => rfl
    | cons d ds =>
      exfalso
      cases d with
      | pointer =>
        refine (h 42 ?_).1 rfl
        rw [pointerStr_eq, hd]
        simp
      | array s =>
        refine (h 91 ?_).2 rfl
        simp only [List.mem_append]
        refine .inl (.inr ?_)
        unfold arrayStr
        rw [hd, List.flatMap_cons, List.mem_append]
        refine .inl ?_
        rw [arrayStr1_eq]
        cases s <;> simp [sizeText]

theorem fold_plain {b b' : U8} (h : foldChar b = foldChar b') : (b = 42 ↔ b' = 42) ∧ (b = 91 ↔ b' = 91) := by
  have key : ∀ b : U8, (foldChar b = 42 ↔ b = 42) ∧ (foldChar b = 91 ↔ b = 91) := by decide +kernel
  rw [← (key b).1, ← (key b').1, ← (key b).2, ← (key b').2, h]
  exact ⟨Iff.rfl, Iff.rfl⟩

theorem fold_no_declarator {s s' : List U8} (h : s.map foldChar = s'.map foldChar)
    (hs : ∀ b ∈ s, b ≠ 42 ∧ b ≠ 91) : ∀ b ∈ s', b ≠ 42 ∧ b ≠ 91 := by
  intro b' hb'
  have : foldChar b' ∈ s.map foldChar := by rw [h]; exact List.mem_map.mpr ⟨b', hb', rfl⟩
  obtain ⟨b, hb, e⟩ := List.mem_map.mp this
  have := fold_plain e
  exact ⟨fun hc => (hs b hb).1 (this.1.mpr hc), fun hc => (hs b hb).2 (this.2.mpr hc)⟩

/-- Types recorded under keys that count as the same have the same format and size, in
tables that do and that do not distinguish case. -/
theorem sameKey_format {v v' : ScopeVar} {ps ps' : Bool} (hv : v.type.Printable) (hv' : v'.type.Printable)
    {f f' : TypeFormat} {z z' : Nat} (hf : formatAndSize v.type ps = some (f, z))
    (hf' : formatAndSize v'.type ps' = some (f', z')) (hk : TableTests.equalp.type (v.key ps) (v'.key ps') = true) :
    f = f' ∧ z = z' := by
  have hk := Bool.and_eq_true_iff.mp hk
  have h1 : (if ps && v.type.isString then some v.mark else none) = if ps' && v'.type.isString then some v'.mark else none :=
    beq_iff_eq.mp hk.1
  have h2 : (typeTraceString v.type).map foldChar = (typeTraceString v'.type).map foldChar := beq_iff_eq.mp hk.2
  by_cases hs : (ps && v.type.isString) = true
  · rw [if_pos hs] at h1
    have hs' : (ps' && v'.type.isString) = true := by
      by_cases e : (ps' && v'.type.isString) = true
      · exact e
      · rw [if_neg e] at h1; cases h1
    rw [formatAndSize_text (asText_iff.mpr hs)] at hf
    rw [formatAndSize_text (asText_iff.mpr hs')] at hf'
    cases hf
    cases hf'
    exact ⟨rfl, rfl⟩
  · have hs' : ¬ (ps' && v'.type.isString) = true := by
      intro e
      rw [if_neg hs, if_pos e] at h1
      cases h1
    by_cases hd : v.type.declarator = []
    · have hd' := (declarator_nil_iff hv').mpr (fold_no_declarator h2 ((declarator_nil_iff hv).mp hd))
      have e := map_foldChar_inj (lower_string hv hd hs hf) (lower_string hv' hd' hs' hf') h2
      have hw := words_printed hv
      rw [e, words_printed hv'] at hw
      have hspec : baseTypename v.type = baseTypename v'.type := by
        have h3 := typeFromTraceString_base hv
        rw [e, typeFromTraceString_base hv'] at h3
        rw [baseTypename_eq, baseTypename_eq, h3]
      unfold formatAndSize at hf hf'
      rw [if_neg hs, if_neg (fun h => pointerOrArray_iff.mp h hd)] at hf
      rw [if_neg hs', if_neg (fun h => pointerOrArray_iff.mp h hd'), ← hspec] at hf'
      rw [hf] at hf'
      cases hf'
      exact ⟨rfl, rfl⟩
    · have hd' : v'.type.declarator ≠ [] := by
        intro e
        exact hd ((declarator_nil_iff hv).mpr (fold_no_declarator h2.symm ((declarator_nil_iff hv').mp e)))
      unfold formatAndSize at hf hf'
      rw [if_neg hs, if_pos (pointerOrArray_iff.mpr hd)] at hf
      rw [if_neg hs', if_pos (pointerOrArray_iff.mpr hd')] at hf'
      cases hf
      cases hf'
      exact ⟨rfl, rfl⟩

end TraceDB
