import Verif.Proofs.PrintPredicate
/-
C73: printing of predicates.
-/
namespace TraceDB

/-- Printing ends the process exactly if `>=` or `<=` is printed; otherwise it always gives a
text. -/
theorem C73_aborts (float : U64 → List U8) (p : Pred) :
    (p.unprintable = true → printPred float p = .abort) ∧ (p.unprintable = false → ∃ t, printPred float p = .ok t) := by
  have h := writePred_abort float p 0 false
  constructor
  · intro hu
    rw [hu] at h
    exact h
  · intro hu
    rw [hu] at h
    exact h

/-- What is printed reads back as the list the predicate stands for, if every operator has
operands and none is the null predicate. -/
theorem C73_reads_back (float : U64 → List U8) (hf : ∀ d, SxWord (float d)) (p : Pred) (hp : p.full = true)
    (hu : p.unprintable = false) : ∃ t, printPred float p = .ok t ∧ (readSx t = some [p.sx float]) := by
  obtain ⟨t, ht⟩ := (C73_aborts float p).2 hu
  refine ⟨t, ht, ?_⟩
  have h := writePred_tokens float hf p 0 false t [] hp ht (by intro b bs h; cases h)
  rw [List.append_nil] at h
  rw [readSx, h, sxParse_toks]
  simp [sxTokens, endWord, sxParse]

/-- Two such predicates without floating point numbers are printed alike exactly if they are
the same up to the type of their numbers. -/
theorem C73_unambiguous (float : U64 → List U8) (hf : ∀ d, SxWord (float d)) (p q : Pred) (hp : p.full = true)
    (hq : q.full = true) (ep : p.exact = true) (eq : q.exact = true) (up : p.unprintable = false)
    (uq : q.unprintable = false) : printPred float p = printPred float q ↔ p.alike q := by
  constructor
  · intro h
    obtain ⟨t, ht, hr⟩ := C73_reads_back float hf p hp up
    obtain ⟨t', ht', hr'⟩ := C73_reads_back float hf q hq uq
    have e : t = t' := by
      rw [ht, ht'] at h
      cases h
      rfl
    subst e
    rw [hr] at hr'
    simp only [Option.some.injEq, List.cons.injEq, and_true] at hr'
    exact sx_alike float p q hp hq ep eq up uq hr'
  · exact alike_text float p q 0 false

/-- There are as many parentheses missing as operators without operands. -/
theorem C73_parentheses (float : U64 → List U8) (hf : ∀ d, SxWord (float d)) (p : Pred) (t : List U8)
    (h : printPred float p = .ok t) : t.count 40 = t.count 41 + p.bare :=
  writePred_count float hf p 0 false t h

/-- The newline at the end is printed after variables and numbers only, nothing at all for the
null predicate. -/
theorem C73_newline (float : U64 → List U8) (hf : ∀ d, SxWord (float d)) (k : PKind) (d : U64) (cs : List Pred) (t : List U8)
    (h : printPred float (.node k d cs) = .ok t) :
    (k.leaf = true → ∃ w, SxWord w ∧ t = w ++ [10]) ∧ (k = .null → t = []) ∧
    (k.leaf = false → k ≠ .null → t.head? = some 40 ∧ (cs = [] → t.getLast? = some 32) ∧ (cs ≠ [] → t.getLast? = some 41)) := by
  refine ⟨?_, ?_, ?_⟩
  · intro hk
    obtain ⟨u, hu⟩ : ∃ u, leafText float k d = some u := by
      cases hu : leafText float k d with
      | some u => exact ⟨u, rfl⟩
      | none => rw [(leafText_none float k d).1 hu] at hk; cases hk
    have hn : k ≠ .null := by rintro rfl; simp [leafText] at hu
    rw [printPred, writePred, if_neg hn, hu] at h
    cases h
    exact ⟨u, leafText_word float hf k d u hu, by simp [endLine]⟩
  · rintro rfl
    rw [printPred, writePred] at h
    cases h
    rfl
  · intro hk hn
    rw [printPred, writePred, if_neg hn, (leafText_none float k d).2 hk] at h
    simp only at h
    rcases ho : operatorName k with _ | name
    · rw [ho] at h
      cases h
    · rw [ho] at h
      simp only at h
      have hlen : name.length ≤ 20 := by
        cases k <;> simp only [operatorName, Option.some.injEq, reduceCtorEq] at ho <;> subst ho <;> decide +kernel
      have hz : (0 : U32) + BitVec.ofNat 32 (name.length + 2) ≠ 0 := by
        intro e
        have := congrArg BitVec.toNat e
        simp only [BitVec.toNat_add, BitVec.toNat_ofNat, Nat.reducePow] at this
        omega
      rcases hc : writeChildren float cs (0 + BitVec.ofNat 32 (name.length + 2)) false with body | e | _ | e | _
      · rw [hc] at h
        simp only [bind, Res.bind, pure, Res.ok.injEq, endLine, if_neg hz, Bool.false_and, Bool.false_eq_true, if_false,
          List.nil_append, List.append_nil] at h
        subst h
        refine ⟨rfl, ?_, ?_⟩
        · rintro rfl
          rw [writeChildren] at hc
          cases hc
          rw [List.getLast?_append]
          rfl
        · intro hne
          have last : ∀ (ps : List Pred) (b : Bool) (i : U32) (t : List U8), ps ≠ [] → writeChildren float ps i b = .ok t →
              t.getLast? = some 41 := by
            intro ps
            induction ps with
            | nil => intro _ _ _ h; exact absurd rfl h
            | cons p ps ih =>
              intro b i t _ h
              obtain ⟨t1, t2, h1, h2, rfl⟩ := writeChildren_cons float p ps i b t h
              cases ps with
              | nil =>
                rw [writeChildren] at h2
                cases h2
                simp
              | cons q qs =>
                have := ih true i t2 (by simp) h2
                rw [List.getLast?_append, List.getLast?_cons, this]
                rfl
          have := last cs false _ body hne hc
          rw [List.getLast?_append, List.getLast?_cons, this]
          rfl
      all_goals
        rw [hc] at h
        simp [bind, Res.bind] at h

/-! Examples -/

/-- `(and (> (v/value <v0>) 3) (distinct <v0> <v1>))`. -/
def prPred : Pred :=
  .node .and 2 [.node .greaterThan 2 [.node .varValue 1 [.node .varReference 0 []], .node .unsignedValue 3 []],
    .node .distinctVars 2 [.node .varReference 0 [], .node .varReference 1 []]]

/-- Some way to print doubles. -/
def prFloat (d : U64) : List U8 := ascii "f" ++ decimal d.toNat

example : prPred.full = true ∧ prPred.exact = true ∧ prPred.unprintable = false ∧
    printPred prFloat prPred = .ok (ascii "(and (> (v/value <v0>)\n        3)\n     (distinct <v0>\n               <v1>))") := by
  refine ⟨by decide +kernel, by decide +kernel, by decide +kernel, by decide +kernel⟩

example : ∀ d, SxWord (prFloat d) := fun d =>
  SxWord.append (sxWord_of_decide (by decide +kernel)) (decimal_word _).2

/-- The same with the signed number 3 is printed alike; a double may be printed like a
number. -/
example : printPred prFloat (.node .not 1 [.node .unsignedValue 3 []]) = printPred prFloat (.node .not 0 [.node .signedValue 3 []]) ∧
    printPred prFloat (.node .signedValue 0xffffffffffffffff []) = .ok (ascii "-1\n") ∧
    printPred (fun _ => ascii "3") (.node .floatValue 7 []) = printPred prFloat (.node .unsignedValue 3 []) := by
  refine ⟨by decide +kernel, by decide +kernel, by decide +kernel⟩

/-- `>=` ends the process; an operator without operands is not closed. -/
example : printPred prFloat (.node .not 1 [.node .lessThanOrEqual 2 [.node .varReference 0 [], .node .unsignedValue 3 []]]) = .abort ∧
    printPred prFloat (.node .and 0 []) = .ok (ascii "(and ") ∧ readSx (ascii "(and ") matches none := by
  refine ⟨by decide +kernel, by decide +kernel, by decide +kernel⟩

end TraceDB
