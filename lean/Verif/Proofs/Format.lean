import Verif.Proofs.ReaderPoints
/-
Unique decodability of the trace format.
-/
namespace TraceDB

variable {env : Env} {names : List Name} {types : List TypeDesc} {io : Bool}

theorem leBytes_append_inj {n v w : Nat} {R R' : List U8} (hv : v < 256 ^ n) (hw : w < 256 ^ n)
    (h : leBytes n v ++ R = leBytes n w ++ R') : v = w ∧ R = R' := by
  have h1 := List.append_inj h (by rw [leBytes_length, leBytes_length])
  exact ⟨leBytes_inj hv hw h1.1, h1.2⟩

/-- No encoding of an entry is a proper prefix of another one. -/
theorem encode_append_inj {e e' : Entry} {R R' : List U8} (he : e.WF names types)
    (he' : e'.WF names types) (h : e.encode types ++ R = e'.encode types ++ R') : e = e' ∧ R = R' := by
  cases e with
  | stmt v =>
    cases e' with
    | stmt v' =>
      simp only [Entry.encode, List.cons_append, List.cons.injEq, true_and] at h
      obtain ⟨h1, h2⟩ := leBytes_append_inj (u64_lt v) (u64_lt v') h
      exact ⟨by rw [BitVec.eq_of_toNat_eq h1], h2⟩
    | var n t p => simp [Entry.encode] at h
    | size r => simp [Entry.encode] at h
    | aux v' => simp [Entry.encode] at h
  | aux v =>
    cases e' with
    | aux v' =>
      simp only [Entry.encode, List.cons_append, List.cons.injEq, true_and] at h
      obtain ⟨h1, h2⟩ := leBytes_append_inj (u64_lt v) (u64_lt v') h
      exact ⟨by rw [BitVec.eq_of_toNat_eq h1], h2⟩
    | var n t p => simp [Entry.encode] at h
    | size r => simp [Entry.encode] at h
    | stmt v' => simp [Entry.encode] at h
  | size r =>
    cases e' with
    | size r' =>
      simp only [Entry.encode, List.cons_append, List.cons.injEq, true_and, List.append_assoc] at h
      obtain ⟨h1, h2⟩ := leBytes_append_inj (u64_lt r.address) (u64_lt r'.address) h
      obtain ⟨h3, h4⟩ := leBytes_append_inj (u64_lt r.size) (u64_lt r'.size) h2
      obtain ⟨a, b⟩ := r
      obtain ⟨a', b'⟩ := r'
      simp only at h1 h3
      rw [BitVec.eq_of_toNat_eq h1, BitVec.eq_of_toNat_eq h3]
      exact ⟨rfl, h4⟩
    | var n t p => simp [Entry.encode] at h
    | aux r => simp [Entry.encode] at h
    | stmt v' => simp [Entry.encode] at h
  | var n t p =>
    cases e' with
    | var n' t' p' =>
      simp only [Entry.encode, List.cons_append, List.cons.injEq, true_and, List.append_assoc] at h
      obtain ⟨h1, h2⟩ := leBytes_append_inj (u32_lt n) (u32_lt n') h
      obtain ⟨h3, h4⟩ := leBytes_append_inj (u32_lt t) (u32_lt t') h2
      have hn := BitVec.eq_of_toNat_eq h1
      have ht := BitVec.eq_of_toNat_eq h3
      subst hn; subst ht
      obtain ⟨_, ty, hty, hp⟩ := he
      obtain ⟨_, ty', hty', hp'⟩ := he'
      rw [hty] at hty'
      cases hty'
      simp only [hty] at h4
      unfold encodePayload at h4
      split at h4
      · rename_i hb
        simp only [PayloadOk, hb.1, hb.2, if_true] at hp hp'
        simp only [List.append_assoc] at h4
        obtain ⟨h5, h6⟩ := leBytes_append_inj hp hp' h4
        obtain ⟨h7, h8⟩ := List.append_inj h6 h5
        exact ⟨by rw [h7], h8⟩
      · rename_i hb
        have hl : p.length = p'.length := by
          unfold PayloadOk at hp hp'
          cases hf : ty.format <;> simp only [hf] at hp hp'
          · omega
          · omega
          · omega
          · omega
          · by_cases hz : ty.size = 0
            · exact absurd ⟨hf, hz⟩ hb
            · simp only [if_neg hz] at hp hp'; omega
        obtain ⟨h7, h8⟩ := List.append_inj h4 hl
        exact ⟨by rw [h7], h8⟩
    | size r => simp [Entry.encode] at h
    | aux r => simp [Entry.encode] at h
    | stmt v' => simp [Entry.encode] at h

/-- An entry does not start with the end marker. -/
theorem encode_ne_zero (e : Entry) (R R' : List U8) : e.encode types ++ R ≠ 0 :: R' := by
  cases e <;> simp [Entry.encode]

/-- A proper part of an entry is no complete entry. -/
theorem stuck_of_cut {e : Entry} {A B : List U8} (he : e.WF names types) (h : e.encode types = A ++ B)
    (hA : A ≠ []) (hB : B ≠ []) : Stuck names types A := by
  constructor
  · intro R hR
    rw [hR] at h
    exact encode_ne_zero (types := types) e [] (R ++ B) (by simpa using h)
  · intro e' R he' hA'
    rw [hA'] at h
    obtain ⟨_, h2⟩ := encode_append_inj (R := []) (R' := R ++ B) he he' (by simpa using h)
    have := List.append_eq_nil_iff.mp h2.symm
    exact hB this.2

/-- A prefix of a sequence of entries: complete entries and a part of the next
one. -/
theorem entries_cut : ∀ (es : List Entry) (T rest : List U8), T ++ rest = encodeEntries types es →
    T = encodeEntries types es ∧ rest = [] ∨
    ∃ es₁ e es₂ A B, es = es₁ ++ e :: es₂ ∧ T = encodeEntries types es₁ ++ A ∧
      e.encode types = A ++ B ∧ B ≠ []
  | [], T, rest, h => by
    left
    have h' : T ++ rest = [] := h
    rw [List.append_eq_nil_iff] at h'
    rw [h'.1, h'.2]; exact ⟨rfl, rfl⟩
  | e :: es, T, rest, h => by
    have h' : T ++ rest = e.encode types ++ encodeEntries types es := by
      rw [h]; simp [encodeEntries]
    rcases List.append_eq_append_iff.mp h' with ⟨a, ha1, ha2⟩ | ⟨a, ha1, ha2⟩
    · -- T is a prefix of the first entry
      by_cases hne : a = []
      · subst hne
        simp only [List.append_nil, List.nil_append] at ha1 ha2
        cases es with
        | nil =>
          left
          refine ⟨by simp [encodeEntries, ha1], ?_⟩
          rw [ha2]; rfl
        | cons e' es' =>
          right
          refine ⟨[e], e', es', [], e'.encode types, rfl, ?_, rfl, ?_⟩
          · simp [encodeEntries, ha1]
          · intro h0
            have := encode_length_pos (types := types) e'
            rw [h0] at this
            simp at this
      · right
        exact ⟨[], e, es, T, a, rfl, by simp [encodeEntries], ha1, hne⟩
    · rcases entries_cut es a rest ha2.symm with ⟨h1, h2⟩ | ⟨es₁, e', es₂, A, B, h1, h2, h3, h4⟩
      · left
        refine ⟨?_, h2⟩
        rw [ha1, h1]
        simp [encodeEntries]
      · right
        refine ⟨e :: es₁, e', es₂, A, B, by rw [h1]; rfl, ?_, h3, h4⟩
        rw [ha1, h2]
        simp [encodeEntries]

/-- A prefix of a sequence of points: complete points, complete entries of the
next point and a part of the next entry. -/
theorem points_cut : ∀ (ps : List (List Entry)) (T rest : List U8), T ++ rest = encodePoints types ps →
    T = encodePoints types ps ∧ rest = [] ∨
    ∃ ps₁ p ps₂, ps = ps₁ ++ p :: ps₂ ∧
      (T = encodePoints types ps₁ ++ encodeEntries types p ∨
       ∃ es₁ e es₂ A B, p = es₁ ++ e :: es₂ ∧
        T = encodePoints types ps₁ ++ (encodeEntries types es₁ ++ A) ∧ e.encode types = A ++ B ∧ B ≠ [])
  | [], T, rest, h => by
    left
    have h' : T ++ rest = [] := h
    rw [List.append_eq_nil_iff] at h'
    rw [h'.1, h'.2]; exact ⟨rfl, rfl⟩
  | p :: ps, T, rest, h => by
    have h' : T ++ rest = encodePoint types p ++ encodePoints types ps := by
      rw [h]; simp [encodePoints]
    rcases List.append_eq_append_iff.mp h' with ⟨a, ha1, ha2⟩ | ⟨a, ha1, ha2⟩
    · by_cases hne : a = []
      · subst hne
        simp only [List.append_nil, List.nil_append] at ha1 ha2
        cases ps with
        | nil =>
          left
          refine ⟨by simp [encodePoints, ha1], ?_⟩
          rw [ha2]; rfl
        | cons p' ps' =>
          right
          refine ⟨[p], p', ps', rfl, ?_⟩
          cases p' with
          | nil => left; simp [encodePoints, encodeEntries, ha1]
          | cons e es =>
            right
            refine ⟨[], e, es, [], e.encode types, rfl, ?_, rfl, ?_⟩
            · simp [encodePoints, encodeEntries, ha1]
            · intro h0
              have := encode_length_pos (types := types) e
              rw [h0] at this
              simp at this
      · right
        refine ⟨[], p, ps, rfl, ?_⟩
        -- T is a proper prefix of the point
        have hT : ∃ a', T ++ a' = encodeEntries types p := by
          have hlast : a = a.dropLast ++ [a.getLast hne] := (List.dropLast_concat_getLast hne).symm
          have : encodeEntries types p ++ [0] = (T ++ a.dropLast) ++ [a.getLast hne] := by
            rw [List.append_assoc, ← hlast, ← ha1]; rfl
          have := (List.append_inj' this rfl).1
          exact ⟨_, this.symm⟩
        obtain ⟨a', ha'⟩ := hT
        rcases entries_cut p T a' ha' with ⟨h1, _⟩ | ⟨es₁, e, es₂, A, B, h1, h2, h3, h4⟩
        · left; simp [encodePoints, h1]
        · right
          exact ⟨es₁, e, es₂, A, B, h1, by simp [encodePoints, h2], h3, h4⟩
    · rcases points_cut ps a rest ha2.symm with ⟨h1, h2⟩ | ⟨ps₁, q, ps₂, h1, h2⟩
      · left
        refine ⟨?_, h2⟩
        rw [ha1, h1]
        simp [encodePoints]
      · right
        refine ⟨p :: ps₁, q, ps₂, by rw [h1]; rfl, ?_⟩
        rcases h2 with h2 | ⟨es₁, e, es₂, A, B, h2, h3, h4, h5⟩
        · left; rw [ha1, h2]; simp [encodePoints]
        · right
          refine ⟨es₁, e, es₂, A, B, h2, ?_, h4, h5⟩
          rw [ha1, h3]; simp [encodePoints]

/-- The decomposition of a body is unique. -/
theorem entries_unique : ∀ (p p' : List Entry) (R R' : List U8), (∀ e ∈ p, e.WF names types) →
    (∀ e ∈ p', e.WF names types) → (∀ (e : Entry) S, e.WF names types → R ≠ e.encode types ++ S) →
    (∀ (e : Entry) S, e.WF names types → R' ≠ e.encode types ++ S) →
    encodeEntries types p ++ R = encodeEntries types p' ++ R' → p = p' ∧ R = R'
  | [], [], R, R', _, _, _, _, h => ⟨rfl, h⟩
  | [], e :: p', R, R', _, h2, h3, _, h => by
    exfalso
    apply h3 e (encodeEntries types p' ++ R') (h2 e (by simp))
    have h' : R = (e.encode types ++ encodeEntries types p') ++ R' := by
      simpa [encodeEntries] using h
    rw [h', List.append_assoc]
  | e :: p, [], R, R', h1, _, _, h4, h => by
    exfalso
    apply h4 e (encodeEntries types p ++ R) (h1 e (by simp))
    have h' : (e.encode types ++ encodeEntries types p) ++ R = R' := by
      simpa [encodeEntries] using h
    rw [← h', List.append_assoc]
  | e :: p, e' :: p', R, R', h1, h2, h3, h4, h => by
    have h' : e.encode types ++ (encodeEntries types p ++ R) =
        e'.encode types ++ (encodeEntries types p' ++ R') := by
      simpa [encodeEntries] using h
    obtain ⟨he, hr⟩ := encode_append_inj (h1 e (by simp)) (h2 e' (by simp)) h'
    obtain ⟨hp, hR⟩ := entries_unique p p' R R' (fun x hx => h1 x (by simp [hx]))
      (fun x hx => h2 x (by simp [hx])) h3 h4 hr
    exact ⟨by rw [he, hp], hR⟩

theorem decomposed_unique : ∀ (ps : List (List Entry)) {bs : List U8} {ps' : List (List Entry)} {p p' : List Entry}
    {left left' : List U8}, Decomposed names types bs ps p left →
    Decomposed names types bs ps' p' left' → ps = ps' ∧ p = p' ∧ left = left'
  | [], bs, [], p, p', left, left', h, h' => by
    have := h.eq.symm.trans h'.eq
    simp only [encodePoints, List.flatMap_nil, List.nil_append] at this
    obtain ⟨h1, h2⟩ := entries_unique p p' left left' h.entries h'.entries
      (fun e S he => h.stuck.2 e S he) (fun e S he => h'.stuck.2 e S he) this
    exact ⟨rfl, h1, h2⟩
  | [], bs, q :: ps', p, p', left, left', h, h' => by
    exfalso
    have := h.eq.symm.trans h'.eq
    simp only [encodePoints, List.flatMap_nil, List.nil_append, List.flatMap_cons, encodePoint,
      List.append_assoc] at this
    obtain ⟨_, h2⟩ := entries_unique p q left _ h.entries (h'.points q (by simp))
      (fun e S he => h.stuck.2 e S he)
      (fun e S he hh => encode_ne_zero (types := types) e S _ hh.symm) this
    exact h.stuck.1 _ h2
  | q :: ps, bs, [], p, p', left, left', h, h' => by
    exfalso
    have := h'.eq.symm.trans h.eq
    simp only [encodePoints, List.flatMap_nil, List.nil_append, List.flatMap_cons, encodePoint,
      List.append_assoc] at this
    obtain ⟨_, h2⟩ := entries_unique p' q left' _ h'.entries (h.points q (by simp))
      (fun e S he => h'.stuck.2 e S he)
      (fun e S he hh => encode_ne_zero (types := types) e S _ hh.symm) this
    exact h'.stuck.1 _ h2
  | q :: ps, bs, q' :: ps', p, p', left, left', h, h' => by
    have := h.eq.symm.trans h'.eq
    simp only [encodePoints, List.flatMap_cons, encodePoint, List.append_assoc] at this
    obtain ⟨h1, h2⟩ := entries_unique q q' _ _ (h.points q (by simp)) (h'.points q' (by simp))
      (fun e S he hh => encode_ne_zero (types := types) e S _ hh.symm)
      (fun e S he hh => encode_ne_zero (types := types) e S _ hh.symm) this
    have h3 := (List.cons.inj h2).2
    obtain ⟨h4, h5, h6⟩ := decomposed_unique ps
      (bs := encodePoints types ps ++ (encodeEntries types p ++ left))
      ⟨rfl, fun x hx => h.points x (by simp [hx]), h.entries, h.stuck⟩
      (ps' := ps') ⟨h3, fun x hx => h'.points x (by simp [hx]), h'.entries, h'.stuck⟩
    exact ⟨by rw [h1, h4], h5, h6⟩

end TraceDB
