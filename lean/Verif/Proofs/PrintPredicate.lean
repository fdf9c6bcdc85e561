import Verif.Spec.PrintPredicate
import Verif.Proofs.Archive
namespace TraceDB

theorem decimal_word (n : Nat) : SxWord (decimal n) := by
  refine ⟨decimal_ne_nil n, fun b hb => ?_⟩
  have key : ∀ b : U8, isDigit b = true → sxBlank b = false ∧ b ≠ 40 ∧ b ≠ 41 := by decide +kernel
  exact key b (decimal_digits n b hb)

theorem SxWord.append {u v : List U8} (hu : SxWord u) (hv : ∀ b ∈ v, sxBlank b = false ∧ b ≠ 40 ∧ b ≠ 41) : SxWord (u ++ v) := by
  refine ⟨by simp [hu.1], fun b hb => ?_⟩
  rcases List.mem_append.1 hb with h | h
  · exact hu.2 b h
  · exact hv b h

theorem sxWord_of_decide {w : List U8} (h : (!w.isEmpty && w.all fun b => !sxBlank b && b != 40 && b != 41) = true) : SxWord w := by
  simp only [Bool.and_eq_true, Bool.not_eq_true', List.isEmpty_eq_false_iff, List.all_eq_true, bne_iff_ne, ne_eq] at h
  exact ⟨h.1, fun b hb => ⟨(h.2 b hb).1.1, (h.2 b hb).1.2, (h.2 b hb).2⟩⟩

theorem signedDecimal_eq (n : Int) :
    signedDecimal n = if n < 0 then ascii "-" ++ decimal n.natAbs else decimal n.natAbs := by
  cases n with
  | ofNat n =>
    have : ¬ (Int.ofNat n < 0) := by simp
    simp only [signedDecimal, if_neg this]
    rfl
  | negSucc n =>
    have : Int.negSucc n < 0 := Int.negSucc_lt_zero n
    simp only [signedDecimal, if_pos this]
    rfl

theorem signedDecimal_word (n : Int) : SxWord (signedDecimal n) := by
  cases n with
  | ofNat n => exact decimal_word n
  | negSucc n =>
    refine SxWord.append (u := [45]) (sxWord_of_decide (by decide)) (decimal_word (n + 1)).2

/-! Aborts -/

theorem leafText_none (float : U64 → List U8) (k : PKind) (d : U64) : leafText float k d = none ↔ k.leaf = false := by
  cases k <;> simp [leafText, PKind.leaf]

theorem operatorName_none (k : PKind) (hl : k.leaf = false) :
    operatorName k = none ↔ k = .null ∨ k = .greaterThanOrEqual ∨ k = .lessThanOrEqual := by
  cases k <;> simp [operatorName, PKind.leaf] at *

mutual
theorem writePred_abort (float : U64 → List U8) : ∀ (p : Pred) (i : U32) (b : Bool),
    if p.unprintable then writePred float p i b = .abort else ∃ t, writePred float p i b = .ok t
  | .node k d cs, i, b => by
    rw [Pred.unprintable, writePred]
    by_cases hn : k = .null
    · simp [hn]
    · have hn' : (k == PKind.null) = false := by simp [hn]
      rw [if_neg hn, hn', Bool.or_false]
      rcases hl : leafText float k d with _ | t
      · have hk := (leafText_none float k d).1 hl
        rw [hk]
        simp only [Bool.false_eq_true, if_false]
        rcases ho : operatorName k with _ | name
        · rcases (operatorName_none k hk).1 ho with h | h | h
          · exact absurd h hn
          · simp [h]
          · simp [h]
        · have h1 : k ≠ .greaterThanOrEqual := by rintro rfl; simp [operatorName] at ho
          have h2 : k ≠ .lessThanOrEqual := by rintro rfl; simp [operatorName] at ho
          have h1' : (k == PKind.greaterThanOrEqual) = false := by simp [h1]
          have h2' : (k == PKind.lessThanOrEqual) = false := by simp [h2]
          rw [h1', h2']
          simp only [Bool.false_or]
          have := writeChildren_abort float cs (i + BitVec.ofNat 32 (name.length + 2)) false
          cases hu : Pred.unprintables cs
          · simp only [hu, Bool.false_eq_true, if_false] at this ⊢
            obtain ⟨t, ht⟩ := this
            simp [ht, bind, Res.bind, pure]
          · simp only [hu, if_true] at this ⊢
            simp [this, bind, Res.bind]
      · have hk : k.leaf = true := by
          cases h : k.leaf
          · rw [(leafText_none float k d).2 h] at hl
            cases hl
          · rfl
        rw [hk]
        simp
theorem writeChildren_abort (float : U64 → List U8) : ∀ (ps : List Pred) (i : U32) (b : Bool),
    if Pred.unprintables ps then writeChildren float ps i b = .abort else ∃ t, writeChildren float ps i b = .ok t
  | [], i, b => by simp [Pred.unprintables, writeChildren]
  | p :: ps, i, b => by
    have h1 := writePred_abort float p i b
    have h2 := writeChildren_abort float ps i true
    rw [Pred.unprintables, writeChildren]
    cases hp : p.unprintable
    · simp only [hp, Bool.false_eq_true, if_false, Bool.false_or] at h1 ⊢
      obtain ⟨t, ht⟩ := h1
      cases hu : Pred.unprintables ps
      · simp only [hu, Bool.false_eq_true, if_false] at h2 ⊢
        obtain ⟨t', ht'⟩ := h2
        simp [ht, ht', bind, Res.bind, pure]
      · simp only [hu, if_true] at h2 ⊢
        simp [ht, h2, bind, Res.bind]
    · simp only [hp, if_true, Bool.true_or] at h1 ⊢
      simp [h1, bind, Res.bind]
end

/-! The shape of what is printed -/

theorem writePred_leaf (float : U64 → List U8) (k : PKind) (d : U64) (cs : List Pred) (i : U32) (b : Bool) (t : List U8)
    (hl : leafText float k d = some t) :
    ∃ sp, (∀ x ∈ sp, x = 32) ∧ writePred float (.node k d cs) i b = .ok (sp ++ t ++ endLine i) := by
  have hn : k ≠ .null := by rintro rfl; simp [leafText] at hl
  rw [writePred, if_neg hn, hl]
  refine ⟨if b && i != 0 then List.replicate i.toNat 32 else [], ?_, rfl⟩
  intro x hx
  split at hx
  · exact List.eq_of_mem_replicate hx
  · cases hx

theorem writePred_op (float : U64 → List U8) (k : PKind) (d : U64) (cs : List Pred) (i : U32) (b : Bool) (t : List U8)
    (hk : k.leaf = false) (hn : k ≠ .null) (h : writePred float (.node k d cs) i b = .ok t) :
    ∃ sp name body, (∀ x ∈ sp, x = 32) ∧ operatorName k = some name ∧
      writeChildren float cs (i + BitVec.ofNat 32 (name.length + 2)) false = .ok body ∧
      t = sp ++ 40 :: name ++ 32 :: body ++ endLine (i + BitVec.ofNat 32 (name.length + 2)) := by
  rw [writePred, if_neg hn, (leafText_none float k d).2 hk] at h
  simp only at h
  rcases ho : operatorName k with _ | name
  · rw [ho] at h
    cases h
  · rw [ho] at h
    simp only at h
    rcases hc : writeChildren float cs (i + BitVec.ofNat 32 (name.length + 2)) false with body | e | _ | e | _
    · rw [hc] at h
      simp only [bind, Res.bind, pure, Res.ok.injEq] at h
      refine ⟨if b && i != 0 then List.replicate i.toNat 32 else [], name, body, ?_, rfl, hc, h.symm⟩
      intro x hx
      split at hx
      · exact List.eq_of_mem_replicate hx
      · cases hx
    all_goals
      rw [hc] at h
      simp [bind, Res.bind] at h

theorem writeChildren_cons (float : U64 → List U8) (c : Pred) (cs : List Pred) (i : U32) (b : Bool) (t : List U8)
    (h : writeChildren float (c :: cs) i b = .ok t) :
    ∃ t1 t2, writePred float c i b = .ok t1 ∧ writeChildren float cs i true = .ok t2 ∧
      t = t1 ++ (if cs.isEmpty then 41 else 10) :: t2 := by
  rw [writeChildren] at h
  rcases h1 : writePred float c i b with t1 | e | _ | e | _
  · rcases h2 : writeChildren float cs i true with t2 | e | _ | e | _
    · rw [h1, h2] at h
      simp only [bind, Res.bind, pure, Res.ok.injEq] at h
      exact ⟨t1, t2, rfl, rfl, h.symm⟩
    all_goals
      rw [h1, h2] at h
      simp [bind, Res.bind] at h
  all_goals
    rw [h1] at h
    simp [bind, Res.bind] at h

theorem leafText_word (float : U64 → List U8) (hf : ∀ d, SxWord (float d)) (k : PKind) (d : U64) (t : List U8)
    (h : leafText float k d = some t) : SxWord t := by
  cases k <;> simp only [leafText, Option.some.injEq, reduceCtorEq] at h <;> subst h
  · refine SxWord.append (SxWord.append (sxWord_of_decide (by decide)) (decimal_word _).2) ?_
    simp [sxBlank]
  · exact signedDecimal_word _
  · exact decimal_word _
  · exact hf d

theorem operatorName_word (k : PKind) (name : List U8) (h : operatorName k = some name) : SxWord name := by
  cases k <;> simp only [operatorName, Option.some.injEq, reduceCtorEq] at h <;> subst h <;>
    exact sxWord_of_decide (by decide +kernel)

/-! Parentheses -/

theorem count_blank (l : List U8) (x : U8) (hx : x ≠ 32) (h : ∀ y ∈ l, y = 32) : l.count x = 0 := by
  rw [List.count_eq_zero]
  intro hm
  exact hx (h x hm)

theorem count_word {w : List U8} (h : SxWord w) : w.count 40 = 0 ∧ w.count 41 = 0 := by
  constructor <;> rw [List.count_eq_zero] <;> intro hm
  · exact (h.2 _ hm).2.1 rfl
  · exact (h.2 _ hm).2.2 rfl

theorem count_endLine (i : U32) : (endLine i).count 40 = 0 ∧ (endLine i).count 41 = 0 := by
  unfold endLine
  split <;> decide

mutual
theorem writePred_count (float : U64 → List U8) (hf : ∀ d, SxWord (float d)) :
    ∀ (p : Pred) (i : U32) (b : Bool) (t : List U8), writePred float p i b = .ok t → t.count 40 = t.count 41 + p.bare
  | .node k d cs, i, b, t, h => by
    rw [Pred.bare]
    by_cases hn : k = .null
    · rw [writePred, if_pos hn] at h
      cases h
      simp [hn]
    · rcases hl : leafText float k d with _ | u
      · have hk := (leafText_none float k d).1 hl
        obtain ⟨sp, name, body, hsp, hname, hbody, rfl⟩ := writePred_op float k d cs i b t hk hn h
        have hc := writeChildren_count float hf cs _ _ _ hbody
        have hw := count_word (operatorName_word k name hname)
        have he := count_endLine (i + BitVec.ofNat 32 (name.length + 2))
        have hs1 := count_blank sp 40 (by decide) hsp
        have hs2 := count_blank sp 41 (by decide) hsp
        have hn' : (k == PKind.null) = false := by simp [hn]
        rw [hk, hn']
        simp only [List.count_append, List.count_cons, hw.1, hw.2, he.1, he.2, hs1, hs2, Bool.false_or,
          Bool.false_eq_true, if_false]
        simp only [show ((40 : U8) == 40) = true by decide, show ((40 : U8) == 41) = false by decide,
          show ((32 : U8) == 40) = false by decide, show ((32 : U8) == 41) = false by decide, if_true,
          Bool.false_eq_true, if_false]
        cases hcs : cs.isEmpty <;> simp only [hcs, Bool.false_eq_true, if_true, if_false] at hc ⊢ <;> omega
      · have hk : k.leaf = true := by
          cases h : k.leaf
          · rw [(leafText_none float k d).2 h] at hl
            cases hl
          · rfl
        obtain ⟨sp, hsp, e⟩ := writePred_leaf float k d cs i b u hl
        rw [e] at h
        cases h
        have hw := count_word (leafText_word float hf k d u hl)
        have he := count_endLine i
        simp only [List.count_append, hw.1, hw.2, he.1, he.2, count_blank sp 40 (by decide) hsp,
          count_blank sp 41 (by decide) hsp, hk, Bool.true_or, if_true]
theorem writeChildren_count (float : U64 → List U8) (hf : ∀ d, SxWord (float d)) :
    ∀ (ps : List Pred) (i : U32) (b : Bool) (t : List U8), writeChildren float ps i b = .ok t →
      t.count 40 + (if ps.isEmpty then 0 else 1) = t.count 41 + Pred.bares ps
  | [], i, b, t, h => by
    rw [writeChildren] at h
    cases h
    rfl
  | p :: ps, i, b, t, h => by
    obtain ⟨t1, t2, h1, h2, rfl⟩ := writeChildren_cons float p ps i b t h
    have e1 := writePred_count float hf p i b t1 h1
    have e2 := writeChildren_count float hf ps i true t2 h2
    rw [Pred.bares]
    simp only [List.count_append, List.count_cons, List.isEmpty_cons, Bool.false_eq_true, if_false]
    cases hps : ps.isEmpty <;> simp only [hps, Bool.false_eq_true, if_true, if_false] at e2 ⊢
    · simp only [show ((10 : U8) == 40) = false by decide, show ((10 : U8) == 41) = false by decide,
        Bool.false_eq_true, if_false]
      omega
    · simp only [show ((41 : U8) == 40) = false by decide, show ((41 : U8) == 41) = true by decide,
        Bool.false_eq_true, if_false, if_true]
      omega
end

/-! Reading back -/

mutual
/-- The tokens of a list. -/
def Sx.toks : Sx → List SxTok
  | .word w => [.word w]
  | .list l => .lpar :: (Sx.toksList l ++ [.rpar])
def Sx.toksList : List Sx → List SxTok
  | [] => []
  | x :: xs => Sx.toks x ++ Sx.toksList xs
end

/-- Nothing, or something that ends a word. -/
def Delimited (rest : List U8) : Prop := ∀ b bs, rest = b :: bs → sxBlank b = true ∨ b = 40 ∨ b = 41

theorem sxTokens_blank (sp rest : List U8) (h : ∀ x ∈ sp, sxBlank x = true) : sxTokens [] (sp ++ rest) = sxTokens [] rest := by
  induction sp with
  | nil => rfl
  | cons b sp ih =>
    simp only [List.cons_append, sxTokens, h b (by simp), if_true, endWord, List.nil_append]
    exact ih fun x hx => h x (by simp [hx])

theorem sxTokens_run (v u rest : List U8) (hu : ∀ b ∈ u, sxBlank b = false ∧ b ≠ 40 ∧ b ≠ 41) :
    sxTokens v (u ++ rest) = sxTokens (v ++ u) rest := by
  induction u generalizing v with
  | nil => simp
  | cons b u ih =>
    obtain ⟨h1, h2, h3⟩ := hu b (by simp)
    simp only [List.cons_append, sxTokens, h1, Bool.false_eq_true, if_false, h2, h3]
    rw [ih (v ++ [b]) fun x hx => hu x (by simp [hx])]
    simp

theorem endWord_word {w : List U8} (h : w ≠ []) : endWord w = [.word w] := by
  cases w with
  | nil => exact absurd rfl h
  | cons b w => rfl

theorem sxTokens_flush (w rest : List U8) (hr : Delimited rest) : sxTokens w rest = endWord w ++ sxTokens [] rest := by
  cases rest with
  | nil => simp [sxTokens, endWord]
  | cons b bs =>
    simp only [sxTokens]
    rcases hr b bs rfl with h | h | h
    · simp [h, endWord]
    · subst h
      simp [sxBlank, endWord]
    · subst h
      simp [sxBlank, endWord]

theorem sxTokens_word (w rest : List U8) (hw : SxWord w) (hr : Delimited rest) :
    sxTokens [] (w ++ rest) = .word w :: sxTokens [] rest := by
  rw [sxTokens_run [] w rest hw.2, List.nil_append, sxTokens_flush w rest hr, endWord_word hw.1]
  rfl

theorem endLine_blank (i : U32) : ∀ x ∈ endLine i, sxBlank x = true := by
  unfold endLine
  split <;> simp [sxBlank]

theorem delimited_endLine (i : U32) (rest : List U8) (h : Delimited rest) : Delimited (endLine i ++ rest) := by
  unfold endLine
  split
  · intro b bs e
    simp only [List.cons_append, List.nil_append, List.cons.injEq] at e
    rw [← e.1]
    simp [sxBlank]
  · exact h

theorem sx_leaf (float : U64 → List U8) (k : PKind) (d : U64) (cs : List Pred) (t : List U8)
    (h : leafText float k d = some t) : (Pred.node k d cs).sx float = .word t := by
  cases k <;> simp only [leafText, Option.some.injEq, reduceCtorEq] at h <;> subst h <;> rw [Pred.sx]
  · rfl
  · rw [signedDecimal_eq]

theorem sx_op (float : U64 → List U8) (k : PKind) (d : U64) (cs : List Pred) (name : List U8) (hk : k.leaf = false)
    (h : operatorName k = some name) : (Pred.node k d cs).sx float = .list (.word name :: Pred.sxs float cs) := by
  cases k <;> simp only [operatorName, Option.some.injEq, reduceCtorEq, PKind.leaf] at h hk <;> subst h <;> rw [Pred.sx]

mutual
theorem writePred_tokens (float : U64 → List U8) (hf : ∀ d, SxWord (float d)) :
    ∀ (p : Pred) (i : U32) (b : Bool) (t rest : List U8), p.full = true → writePred float p i b = .ok t → Delimited rest →
      sxTokens [] (t ++ rest) = (p.sx float).toks ++ sxTokens [] rest
  | .node k d cs, i, b, t, rest, hfull, h, hr => by
    rcases hl : leafText float k d with _ | u
    · have hk := (leafText_none float k d).1 hl
      rw [Pred.full, hk] at hfull
      simp only [Bool.false_or, Bool.and_eq_true, bne_iff_ne, ne_eq, Bool.not_eq_true', List.isEmpty_eq_false_iff] at hfull
      obtain ⟨⟨hn, hne⟩, hcs⟩ := hfull
      obtain ⟨sp, name, body, hsp, hname, hbody, rfl⟩ := writePred_op float k d cs i b t hk hn h
      have hc := writeChildren_tokens float hf cs _ false body (endLine (i + BitVec.ofNat 32 (name.length + 2)) ++ rest) hcs hne hbody
      rw [sx_op float k d cs name hk hname]
      have hw := operatorName_word k name hname
      have e : sp ++ 40 :: name ++ 32 :: body ++ endLine (i + BitVec.ofNat 32 (name.length + 2)) ++ rest =
          sp ++ (40 :: (name ++ (32 :: (body ++ (endLine (i + BitVec.ofNat 32 (name.length + 2)) ++ rest))))) := by simp
      rw [e, sxTokens_blank sp _ (fun x hx => by rw [hsp x hx]; rfl)]
      simp only [sxTokens, show sxBlank 40 = false by decide, Bool.false_eq_true, if_false, if_true, endWord, List.nil_append]
      rw [sxTokens_word name _ hw (by
        intro x xs e
        simp only [List.cons.injEq] at e
        rw [← e.1]
        exact .inl rfl)]
      simp only [sxTokens, show sxBlank 32 = true by decide, if_true, endWord, List.nil_append]
      rw [hc, sxTokens_blank _ _ (endLine_blank _)]
      simp [Sx.toks, Sx.toksList]
    · obtain ⟨sp, hsp, e⟩ := writePred_leaf float k d cs i b u hl
      rw [e] at h
      cases h
      rw [sx_leaf float k d cs u hl, List.append_assoc, List.append_assoc, sxTokens_blank sp _ (fun x hx => by rw [hsp x hx]; rfl),
        sxTokens_word u _ (leafText_word float hf k d u hl) (delimited_endLine i rest hr), sxTokens_blank _ _ (endLine_blank i)]
      rfl
theorem writeChildren_tokens (float : U64 → List U8) (hf : ∀ d, SxWord (float d)) :
    ∀ (ps : List Pred) (i : U32) (b : Bool) (t rest : List U8), Pred.fulls ps = true → ps ≠ [] →
      writeChildren float ps i b = .ok t →
      sxTokens [] (t ++ rest) = Sx.toksList (Pred.sxs float ps) ++ .rpar :: sxTokens [] rest
  | [], i, b, t, rest, hfull, hne, h => absurd rfl hne
  | p :: ps, i, b, t, rest, hfull, hne, h => by
    rw [Pred.fulls, Bool.and_eq_true] at hfull
    obtain ⟨t1, t2, h1, h2, rfl⟩ := writeChildren_cons float p ps i b t h
    rw [List.append_assoc, writePred_tokens float hf p i b t1 _ hfull.1 h1 (by
      intro x xs e
      simp only [List.cons_append, List.cons.injEq] at e
      rw [← e.1]
      split
      · exact .inr (.inr rfl)
      · exact .inl rfl)]
    cases ps with
    | nil =>
      rw [writeChildren] at h2
      cases h2
      simp [sxTokens, sxBlank, endWord, Pred.sxs, Sx.toksList]
    | cons q qs =>
      have := writeChildren_tokens float hf (q :: qs) i true t2 rest hfull.2 (by simp) h2
      simp only [List.isEmpty_cons, Bool.false_eq_true, if_false, List.cons_append, sxTokens,
        show sxBlank 10 = true by decide, if_true, endWord, List.nil_append]
      rw [this]
      simp [Pred.sxs, Sx.toksList]
end

mutual
theorem sxParse_toks : ∀ (x : Sx) (top : List Sx) (st : List (List Sx)) (ts : List SxTok),
    sxParse (top :: st) (x.toks ++ ts) = sxParse ((x :: top) :: st) ts
  | .word w, top, st, ts => by simp [Sx.toks, sxParse]
  | .list l, top, st, ts => by
    have := sxParse_toksList l [] (top :: st) (.rpar :: ts)
    simp only [Sx.toks, List.cons_append, sxParse, List.append_assoc, List.nil_append, this, List.append_nil,
      List.reverse_reverse]
theorem sxParse_toksList : ∀ (l : List Sx) (top : List Sx) (st : List (List Sx)) (ts : List SxTok),
    sxParse (top :: st) (Sx.toksList l ++ ts) = sxParse ((l.reverse ++ top) :: st) ts
  | [], top, st, ts => by simp [Sx.toksList]
  | x :: xs, top, st, ts => by
    rw [Sx.toksList, List.append_assoc, sxParse_toks x, sxParse_toksList xs]
    simp
end

/-! What is alike -/

theorem decimal_inj {m n : Nat} (h : decimal m = decimal n) : m = n := by
  rw [← digitsValue_decimal m, ← digitsValue_decimal n, h]

theorem signedDecimal_inj {m n : Int} (h : signedDecimal m = signedDecimal n) : m = n := by
  have hneg : ∀ (k : Nat) (l : List U8), decimal k ≠ 45 :: l := by
    intro k l e
    have := decimal_digits k 45 (by rw [e]; simp)
    exact absurd this (by decide)
  cases m with
  | ofNat m =>
    cases n with
    | ofNat n => rw [decimal_inj (m := m) (n := n) h]
    | negSucc n => exact absurd h (hneg m _)
  | negSucc m =>
    cases n with
    | ofNat n => exact absurd h.symm (hneg n _)
    | negSucc n =>
      simp only [signedDecimal, List.cons.injEq, true_and] at h
      have := decimal_inj h
      have : m = n := by omega
      rw [this]

theorem operatorName_inj (k k' : PKind) (name : List U8) (h : operatorName k = some name) (h' : operatorName k' = some name) :
    k = k' := by
  have : ∀ k k' : PKind, operatorName k = operatorName k' → (operatorName k).isSome = true → k = k' := by
    intro k k'
    cases k <;> cases k' <;> decide +kernel
  exact this k k' (h.trans h'.symm) (by simp [h])

/-- The text of a number. -/
theorem number_text (float : U64 → List U8) (k : PKind) (d : U64) (n : Int) (h : (Pred.node k d []).number = some n) :
    leafText float k d = some (signedDecimal n) := by
  cases k <;> simp only [Pred.number, Option.some.injEq, reduceCtorEq] at h <;> subst h <;> rfl

theorem signedDecimal_head (n : Int) (l : List U8) : signedDecimal n ≠ 60 :: l := by
  cases n with
  | ofNat n =>
    intro e
    have := decimal_digits n 60 (by rw [show decimal n = 60 :: l from e]; simp)
    exact absurd this (by decide)
  | negSucc n => simp [signedDecimal]

theorem leaf_number (k : PKind) (d : U64) (hk : k.leaf = true) (h1 : k ≠ .varReference) (h2 : k ≠ .floatValue) :
    (k = .signedValue ∨ k = .unsignedValue) ∧ ∃ n, (Pred.node k d []).number = some n := by
  cases k <;> simp [PKind.leaf, Pred.number] at *

mutual
theorem sx_alike (float : U64 → List U8) : ∀ (p q : Pred), p.full = true → q.full = true → p.exact = true → q.exact = true →
    p.unprintable = false → q.unprintable = false → p.sx float = q.sx float → p.alike q
  | .node k d cs, .node k' d' cs', hp, hq, ep, eq, up, uq, h => by
    rw [Pred.full] at hp hq
    rw [Pred.exact] at ep eq
    rw [Pred.unprintable] at up uq
    rw [Pred.alike]
    have named : ∀ k : PKind, k.leaf = false → k ≠ .null →
        (k == .greaterThanOrEqual || k == .lessThanOrEqual) = false → ∃ name, operatorName k = some name := by
      intro k h1 h2 h3
      cases ho : operatorName k with
      | some name => exact ⟨name, rfl⟩
      | none =>
        rcases (operatorName_none k h1).1 ho with h | h | h
        · exact absurd h h2
        · simp [h] at h3
        · simp [h] at h3
    simp only [Bool.and_eq_true, bne_iff_ne, ne_eq] at ep eq
    cases hk : k.leaf with
    | true =>
      obtain ⟨t, ht⟩ : ∃ t, leafText float k d = some t := by
        cases ht : leafText float k d with
        | some t => exact ⟨t, rfl⟩
        | none => rw [(leafText_none float k d).1 ht] at hk; cases hk
      rw [sx_leaf float k d cs t ht] at h
      cases hk' : k'.leaf with
      | false =>
        simp only [hk', Bool.false_or, Bool.and_eq_true, bne_iff_ne, ne_eq] at hq
        have hn' : (k' == PKind.null) = false := by simp [hq.1.1]
        simp only [hk', hn', Bool.or_self, Bool.false_eq_true, if_false, Bool.or_eq_false_iff] at uq
        obtain ⟨name, hname⟩ := named k' hk' hq.1.1 (by simp [uq.1.1, uq.1.2])
        rw [sx_op float k' d' cs' name hk' hname] at h
        cases h
      | true =>
        obtain ⟨t', ht'⟩ : ∃ t, leafText float k' d' = some t := by
          cases ht : leafText float k' d' with
          | some t => exact ⟨t, rfl⟩
          | none => rw [(leafText_none float k' d').1 ht] at hk'; cases hk'
        rw [sx_leaf float k' d' cs' t' ht'] at h
        simp only [Sx.word.injEq] at h
        subst h
        by_cases hv : k = .varReference
        · subst hv
          simp only [leafText, Option.some.injEq] at ht
          by_cases hv' : k' = .varReference
          · subst hv'
            simp only [leafText, Option.some.injEq] at ht'
            have e : decimal d.toNat = decimal d'.toNat := by
              have := ht.trans ht'.symm
              simpa using this
            simp only [true_or, if_true, true_and]
            exact BitVec.eq_of_toNat_eq (decimal_inj e)
          · obtain ⟨_, n, hn⟩ := leaf_number k' d' hk' hv' eq.1
            rw [number_text float k' d' n hn] at ht'
            simp only [Option.some.injEq] at ht'
            exact absurd (ht'.trans ht.symm) (signedDecimal_head n _)
        · obtain ⟨hk2, n, hn⟩ := leaf_number k d hk hv ep.1
          rw [if_neg (fun h => h.elim hv ep.1), if_pos hk2]
          have ht2 := number_text float k d n hn
          rw [ht] at ht2
          simp only [Option.some.injEq] at ht2
          by_cases hv' : k' = .varReference
          · subst hv'
            simp only [leafText, Option.some.injEq] at ht'
            exact absurd (ht2.symm.trans ht'.symm) (signedDecimal_head n _)
          · obtain ⟨hk2', n', hn'⟩ := leaf_number k' d' hk' hv' eq.1
            have ht2' := number_text float k' d' n' hn'
            rw [ht'] at ht2'
            simp only [Option.some.injEq] at ht2'
            refine ⟨hk2', ?_⟩
            rw [hn, hn', signedDecimal_inj (ht2.symm.trans ht2')]
    | false =>
      simp only [hk, Bool.false_or, Bool.and_eq_true, bne_iff_ne, ne_eq] at hp
      have hn : (k == PKind.null) = false := by simp [hp.1.1]
      simp only [hk, hn, Bool.or_self, Bool.false_eq_true, if_false, Bool.or_eq_false_iff] at up
      obtain ⟨name, hname⟩ := named k hk hp.1.1 (by simp [up.1.1, up.1.2])
      rw [sx_op float k d cs name hk hname] at h
      cases hk' : k'.leaf with
      | true =>
        obtain ⟨t', ht'⟩ : ∃ t, leafText float k' d' = some t := by
          cases ht : leafText float k' d' with
          | some t => exact ⟨t, rfl⟩
          | none => rw [(leafText_none float k' d').1 ht] at hk'; cases hk'
        rw [sx_leaf float k' d' cs' t' ht'] at h
        cases h
      | false =>
        simp only [hk', Bool.false_or, Bool.and_eq_true, bne_iff_ne, ne_eq] at hq
        have hn' : (k' == PKind.null) = false := by simp [hq.1.1]
        simp only [hk', hn', Bool.or_self, Bool.false_eq_true, if_false, Bool.or_eq_false_iff] at uq
        obtain ⟨name', hname'⟩ := named k' hk' hq.1.1 (by simp [uq.1.1, uq.1.2])
        rw [sx_op float k' d' cs' name' hk' hname'] at h
        simp only [Sx.list.injEq, List.cons.injEq, Sx.word.injEq] at h
        obtain ⟨e, hc⟩ := h
        subst e
        have ek := operatorName_inj k k' name hname hname'
        have h1 : ¬ (k = .varReference ∨ k = .floatValue) := by rintro (rfl | rfl) <;> simp [PKind.leaf] at hk
        have h2 : ¬ (k = .signedValue ∨ k = .unsignedValue) := by
          rintro (rfl | rfl) <;> simp [PKind.leaf] at hk
        rw [if_neg h1, if_neg h2]
        simp only [hk, Bool.false_or] at ep
        simp only [hk', Bool.false_or] at eq
        exact ⟨ek.symm, sxs_alike float cs cs' hp.2 hq.2 ep.2 eq.2 up.2 uq.2 hc⟩
theorem sxs_alike (float : U64 → List U8) : ∀ (ps qs : List Pred), Pred.fulls ps = true → Pred.fulls qs = true →
    Pred.exacts ps = true → Pred.exacts qs = true → Pred.unprintables ps = false → Pred.unprintables qs = false →
    Pred.sxs float ps = Pred.sxs float qs → Pred.alikes ps qs
  | [], [], _, _, _, _, _, _, _ => by rw [Pred.alikes]; trivial
  | [], q :: qs, _, _, _, _, _, _, h => by simp [Pred.sxs] at h
  | p :: ps, [], _, _, _, _, _, _, h => by simp [Pred.sxs] at h
  | p :: ps, q :: qs, hp, hq, ep, eq, up, uq, h => by
    rw [Pred.fulls, Bool.and_eq_true] at hp hq
    rw [Pred.exacts, Bool.and_eq_true] at ep eq
    rw [Pred.unprintables, Bool.or_eq_false_iff] at up uq
    simp only [Pred.sxs, List.cons.injEq] at h
    rw [Pred.alikes]
    exact ⟨sx_alike float p q hp.1 hq.1 ep.1 eq.1 up.1 uq.1 h.1, sxs_alike float ps qs hp.2 hq.2 ep.2 eq.2 up.2 uq.2 h.2⟩
end

mutual
theorem alike_text (float : U64 → List U8) : ∀ (p q : Pred) (i : U32) (b : Bool), p.alike q →
    writePred float p i b = writePred float q i b
  | .node k d cs, .node k' d' cs', i, b, h => by
    rw [Pred.alike] at h
    by_cases h1 : k = .varReference ∨ k = .floatValue
    · rw [if_pos h1] at h
      obtain ⟨rfl, rfl⟩ := h
      rcases h1 with rfl | rfl <;> simp only [writePred, leafText]
    · rw [if_neg h1] at h
      by_cases h2 : k = .signedValue ∨ k = .unsignedValue
      · rw [if_pos h2] at h
        obtain ⟨h3, h4⟩ := h
        obtain ⟨n, hn⟩ : ∃ n, (Pred.node k d []).number = some n := by
          rcases h2 with rfl | rfl <;> simp [Pred.number]
        have e := number_text float k d n hn
        have e' := number_text float k' d' n (h4 ▸ hn)
        have n1 : k ≠ .null := by rcases h2 with rfl | rfl <;> simp
        have n2 : k' ≠ .null := by rcases h3 with rfl | rfl <;> simp
        rw [writePred, writePred, if_neg n1, if_neg n2, e, e']
      · rw [if_neg h2] at h
        obtain ⟨rfl, h⟩ := h
        have hk : k'.leaf = false := by
          cases k' <;> simp [PKind.leaf] at *
        rw [writePred, writePred, (leafText_none float k' d).2 hk, (leafText_none float k' d').2 hk]
        simp only [fun i => alikes_text float cs cs' i false h]
theorem alikes_text (float : U64 → List U8) : ∀ (ps qs : List Pred) (i : U32) (b : Bool), Pred.alikes ps qs →
    writeChildren float ps i b = writeChildren float qs i b
  | [], [], _, _, _ => rfl
  | [], q :: qs, _, _, h => by simp [Pred.alikes] at h
  | p :: ps, [], _, _, h => by simp [Pred.alikes] at h
  | p :: ps, q :: qs, i, b, h => by
    rw [Pred.alikes] at h
    have e : ps.isEmpty = qs.isEmpty := by
      cases ps <;> cases qs <;> simp [Pred.alikes] at h ⊢
    rw [writeChildren, writeChildren, alike_text float p q i b h.1, alikes_text float ps qs i true h.2, e]
end

end TraceDB
