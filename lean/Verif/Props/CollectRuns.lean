import Verif.Proofs.CollectRuns
/-
C103: from a project and a test suite to answers.
-/
namespace TraceDB

/-- **C103.**  Whatever happens in a collection whose attempts read files left by runs of programs:
its traces are in the order of their test cases and attempts, not more than asked for, and calling
`add-trace` for them gives a database in which, for each of them, reading shows statements passed in
its run and a query returns exactly the answers among the values shown. -/
theorem C103_queries (fs : FloatSys) (wd : World) (cf : CFloat) (mem : CMem) (version : Nat) (hv : version < 2 ^ 32)
    (runOf : Nat × Nat → ProjRun) (complete : Nat × Nat → Prop) (file : Nat × Nat → IStream)
    (w : CfWorld (Nat × Trace)) (hw : ReadsRuns wd.env cf mem runOf complete file w)
    (hal : ∀ n, wd.env.canAlloc n = true) (henv : wd.env.junk.isSome = true)
    (b : Budget) (n : Nat) (s : CfState (Nat × Trace)) (hbin : s.bin = true ∨ (w.compile s.compiles).error = false) :
    ∃ l, (cfCollect false w b n s).2.db = some l ∧
      l.Pairwise (fun x y => AttemptBefore (x.1, x.2.1) (y.1, y.2.1)) ∧ (∀ m, b = some m → l.length ≤ m) ∧
      (∀ i a, ObjOp.add i a ∈ collectedOps runOf file l → a.OfRun cf mem runOf complete) ∧
      ((SpecHeap.after wd.env ⟨[], []⟩ (collectedOps runOf file l)).Small →
        ∃ xs h, lispRun wd version (plainEval fs) ⟨[], []⟩ () (collectedOps runOf file l) = .ok (xs, h, ()) ∧
        ∀ idx e, l[idx]? = some e →
        ∀ (names : List Nat) (sx : SExp) (f : Form) (ph : PHeap) (varTypes : List (List (List U8))) (filter : Option (LPoint → Bool)),
          SexpPredicate names sx f → names.length = varTypes.length → names.length < 2 ^ 64 → varTypes ≠ [] →
          (∀ ts ∈ varTypes, ∀ n ∈ ts, (runOf (e.1, e.2.1)).header.HasType n) →
          (∀ l ∈ (runOf (e.1, e.2.1)).threads, ∀ v ∈ l, ∀ l, v.Shown (instrumentationFiles (runOf (e.1, e.2.1)).evolve) l →
            l.Manageable varTypes) →
          ∃ shown ps ptr ph' p rs h₁ h₂,
            (runOf (e.1, e.2.1)).Passed (complete (e.1, e.2.1)) shown ∧
            AllRel (ProjVisit.Shown (instrumentationFiles (runOf (e.1, e.2.1)).evolve)) shown ps ∧
            lispStep wd version (plainEval fs) h () (.get 0 idx none) = .ok (.trace ps (e.1, e.2.1), h₁, ()) ∧
            buildPredicate names sx ph = some (ptr, ph') ∧ createPredicateObj ph' ptr = .ok p ∧
            lispStep wd version (plainEval fs) h () (.query 0 idx ⟨varTypes, p, [], 0, none, filter⟩) =
              .ok (.results rs (some (e.1, e.2.1)), h₂, ()) ∧
            (∀ r ∈ rs, ShownAnswers fs ps varTypes none filter f r) ∧
            (filter = none → ∀ a, ShownAnswers fs ps varTypes none filter f a → ∃ r ∈ rs, exactKey r = exactKey a) ∧
            (filter ≠ none → (∀ a, ShownAnswers fs ps varTypes none filter f a → ∃ r ∈ rs, foldedKey r = foldedKey a) ∧
              rs.Pairwise fun a b => foldedKey a ≠ foldedKey b)) := by
  obtain ⟨l, hdb, hsub, hlen⟩ := C96_traces_any false w b n s hbin
  have hmem : ∀ e ∈ l, _ := fun e he => hw.entry (hsub.subset he)
  have hadds : ∀ i a, ObjOp.add i a ∈ collectedOps runOf file l → a.OfRun cf mem runOf complete := by
    intro i a ha
    unfold collectedOps at ha
    rcases List.mem_cons.mp ha with ha | ha
    · cases ha
    · obtain ⟨a', ha', e⟩ := List.mem_map.mp ha
      cases e
      obtain ⟨x, hx, rfl⟩ := List.mem_map.mp ha'
      obtain ⟨_, io, bytes, h1, h2, h3⟩ := hmem x hx
      exact ⟨io, bytes, _, by rw [h1], h2, h3⟩
  refine ⟨l, hdb, (hw.ordered n).sublist hsub, fun m hm => hlen m hm rfl, hadds, fun hsmall => ?_⟩
  have hafter := collected_stored (runOf := runOf) (file := file) fun e he => (hmem e he).1
  have hd : ∀ op ∈ collectedOps runOf file l, op.Direct (SpecHeap.after wd.env ⟨[], []⟩ (collectedOps runOf file l)) := by
    intro op hop
    rw [hafter]
    unfold collectedOps at hop
    rcases List.mem_cons.mp hop with rfl | hop
    · trivial
    · obtain ⟨a, ha, rfl⟩ := List.mem_map.mp hop
      obtain ⟨x, _, rfl⟩ := List.mem_map.mp ha
      exact ⟨rfl, fun d f => by simp⟩
  have hex := C66_exact wd version hv (plainEval fs) () _ hd hsmall
  obtain ⟨xs, hxs⟩ : ∃ xs, SpecHeap.run wd (plainEval fs) ⟨[], []⟩ () (collectedOps runOf file l) = .ok (xs, ()) := by
    obtain ⟨xs, hxs⟩ := specRun_adds wd (plainEval fs) ()
      (l.map fun x => LispAdd.trace (some (file (x.1, x.2.1))) (runOf (x.1, x.2.1)).limit (x.1, x.2.1))
      (SpecHeap.step wd.env ⟨[], []⟩ .create) (by simp [SpecHeap.step]) (fun a ha => by
        obtain ⟨x, hx, rfl⟩ := List.mem_map.mp ha
        exact ⟨_, _, _, _, rfl, (hmem x hx).1⟩)
    refine ⟨.object 0 :: xs, ?_⟩
    simp only [collectedOps, SpecHeap.run, SpecHeap.answer, Res.ok_bind, hxs, List.length_nil]
  rw [hxs] at hex
  cases hrun : lispRun wd version (plainEval fs) ⟨[], []⟩ () (collectedOps runOf file l) with
  | ok r =>
    obtain ⟨xs', h, u⟩ := r
    refine ⟨xs', h, rfl, ?_⟩
    intro idx e he names sx f ph varTypes filter hf hvl hl hne hknown hq
    have hfind : (SpecHeap.after wd.env ⟨[], []⟩ (collectedOps runOf file l)).find 0 idx =
        some (e.2.2, (e.1, e.2.1), none) := by
      rw [hafter]
      simp only [SpecHeap.find, List.getElem?_cons_zero, List.getElem?_map, he, Option.map_some]
    obtain ⟨shown, ps, ptr, ph', p, rs, h₁, h₂, q1, q2, q3, q4⟩ := C102_queries fs wd cf mem version hv runOf complete _ hadds hd
      hsmall hal henv xs' h hrun 0 idx e.2.2 (e.1, e.2.1) none hfind names sx f ph hf varTypes hvl hl hne hknown none
      (by intro i hi; cases hi) filter hq
    refine ⟨shown, ps, ptr, ph', p, rs, h₁, h₂, q1, q2, ?_, q4⟩
    simpa [ofFile] using q3
  | _ => rw [hrun] at hex; cases hex

/-- **C103, complete collections.**  The binary can be used, each test case starts, runs the program
`count k` times, always to the end and without loss, and at least once unless this is ignored.  Then a
collection without limit ends normally, with one trace for each run, and one with a limit has the first
ones of the test cases it has run. -/
theorem C103_all (env : Env) (cf : CFloat) (mem : CMem) (runOf : Nat × Nat → ProjRun) (complete : Nat × Nat → Prop)
    (file : Nat × Nat → IStream) (w : CfWorld (Nat × Trace)) (hw : ReadsRuns env cf mem runOf complete file w)
    (hal : ∀ n, env.canAlloc n = true) (henv : env.junk.isSome = true)
    (b : Budget) (n : Nat) (s : CfState (Nat × Trace)) (hbin : Compiled w s) (count : Nat → Nat)
    (hcount : ∀ k, k < n → (w.attempts k).length = count k)
    (hruns : ∀ k, k < n → ∀ a ∈ w.attempts k, a ≠ .noHandshake ∧ a ≠ .failed)
    (hcomplete : ∀ k j, k < n → j < count k → complete (k, j)) :
    ∃ l, (cfCollect false w b n s).2.db = some l ∧
      l.map (fun x => (x.1, x.2.1)) = b.firsts ((List.range ((cfCollect false w b n s).1.reached n)).flatMap fun k =>
        (List.range (count k)).map fun j => (k, j)) ∧
      ((∀ k, k < n → w.starts k = true) → (∀ k, k < n → count k = 0 → w.ignoreEmpty k = true) → b = none →
        (cfCollect false w b n s).1 = .value ()) := by
  have hadded : ∀ k, k < n → ∀ a ∈ w.attempts k, ∃ t, a = .added t := fun k hk =>
    hw.all_added hal henv (hruns k hk) fun j hj => hcomplete k j hk (by rw [← hcount k hk]; exact hj)
  have hlen : ∀ k, k < n → (provided (w.attempts k)).length = count k := fun k hk => by
    rw [provided_all (hadded k hk), hcount k hk]
  have hdb := C96_traces false w b n s hbin
  have hcauses := C96_causes false w b n s
  have hreached : (cfCollect false w b n s).1.reached n ≤ n := by
    cases he : (cfCollect false w b n s).1 with
    | value _ => exact Nat.le_refl _
    | returned => exact Nat.zero_le _
    | error c =>
      cases c with
      | compile => exact Nat.zero_le _
      | start k => exact Nat.le_of_lt ((hcauses k).1 he).1
      | add k => exact ((hcauses k).2.1 he).1
      | empty k => exact ((hcauses k).2.2 he).1
  refine ⟨_, hdb, ?_, ?_⟩
  · rw [Budget.firsts_map]
    show b.firsts _ = _
    congr 1
    unfold providedBy
    rw [List.map_flatMap]
    rw [List.flatMap_def, List.flatMap_def]
    congr 1
    apply List.map_congr_left
    intro k hk
    have hk : k < n := by have := List.mem_range.mp hk; omega
    rw [← hlen k hk, ← hw.numbers k]
    simp [tagged, gives]
  · rintro hst hig rfl
    cases he : (cfCollect false w none n s).1 with
    | value _ => rfl
    | returned => exact absurd he (collect_compiled hbin).1
    | error c =>
      exfalso
      cases c with
      | compile => exact (collect_compiled hbin).2 he
      | start k =>
        obtain ⟨hk, h⟩ := (hcauses k).1 he
        rw [hst k hk] at h
        cases h
      | add k =>
        obtain ⟨hk, _, h, _⟩ := (hcauses k).2.1 he
        exact (hruns k hk _ h).2 rfl
      | empty k =>
        obtain ⟨hk, _, h, l, hl, hlt⟩ := (hcauses k).2.2 he
        have hpos : 0 < count k := by
          rcases Nat.eq_zero_or_pos (count k) with h0 | h0
          · rw [hig k hk h0] at h
            cases h
          · exact h0
        rw [hdb] at hl
        cases hl
        rw [← hlen k hk] at hpos
        have hin : (k, (provided (w.attempts k))[0]) ∈ (obeyed false none : Budget).firsts
            (providedBy (gives false w) ((cfCollect false w none n s).1.reached n)) := by
          rw [he]
          exact List.mem_flatMap.mpr ⟨k, List.mem_range.mpr (Nat.lt_succ_self k),
            List.mem_map.mpr ⟨_, List.getElem_mem hpos, rfl⟩⟩
        exact Nat.lt_irrefl k (hlt _ hin)

/-! Test case 0 runs the program of C101 twice, and the second file lacks two bytes; test case 1
runs it once. -/

attribute [local irreducible] rdTrace

def crNumber (m : Nat × Nat) : Nat := if m.2 = 0 then 0 else 2
def crRun (m : Nat × Nat) : ProjRun := rdRun (crNumber m)
def crComplete (m : Nat × Nat) : Prop := rdComplete (crNumber m)
def crFile (m : Nat × Nat) : IStream := gs false (rdBytes (crNumber m))
def crWorld : CfWorld (Nat × Trace) :=
  ⟨fun _ => ⟨true, false, true⟩, fun _ => .unwind, fun _ => true,
   fun k => if k = 0 then [.added (0, rdTrace 0), .refused] else [.added (0, rdTrace 0)], fun _ => false⟩
def crState : CfState (Nat × Trace) := ⟨false, 0, false, [], 0, none⟩

theorem cr_reads : ReadsRuns exEnv exFloat exMem crRun crComplete crFile crWorld := by
  have h0 : readTrace exEnv (rdRun 0).limit (gs false (rdBytes 0)) = .ok (rdTrace 0) := by decide +kernel
  have h2 : (readTrace exEnv (rdRun 2).limit (gs false (rdBytes 2))).isOk = false := by decide +kernel
  have key : ∀ k j a, (crWorld.attempts k)[j]? = some a → (j = 0 ∧ a = .added (0, rdTrace 0)) ∨ (j = 1 ∧ a = .refused) := by
    intro k j a h
    by_cases hk : k = 0
    · simp only [crWorld, hk, if_true] at h
      match j, h with
      | 0, h => cases h; exact .inl ⟨rfl, rfl⟩
      | 1, h => cases h; exact .inr ⟨rfl, rfl⟩
    · simp only [crWorld, hk, if_false] at h
      match j, h with
      | 0, h => cases h; exact .inl ⟨rfl, rfl⟩
  refine ⟨?_, ?_, ?_⟩
  · intro k j i t h
    rcases key k j _ h with ⟨rfl, e⟩ | ⟨_, e⟩
    · injection e with e
      injection e with e1 e2
      subst e1 e2
      exact ⟨rfl, h0⟩
    · cases e
  · intro k j t h
    rcases key k j _ h with ⟨_, e⟩ | ⟨rfl, _⟩
    · cases e
    · intro ht
      have h2' : (readTrace exEnv (crRun (k, 1)).limit (crFile (k, 1))).isOk = false := h2
      rw [ht] at h2'
      cases h2'
  · intro k j _ _ _ _
    exact ⟨false, _, rfl, rd_built _, rd_leaves _⟩

example : ReadsRuns exEnv exFloat exMem crRun crComplete crFile crWorld ∧
    (crWorld.compile crState.compiles).error = false ∧ Compiled crWorld crState :=
  ⟨cr_reads, rfl, .inr ⟨rfl, rfl⟩⟩

example : (cfCollect false crWorld none 2 crState).1 = .value () ∧
    (cfCollect false crWorld none 2 crState).2.db.map (·.map fun x => (x.1, x.2.1)) = some [(0, 0), (1, 0)] ∧
    (cfCollect false crWorld (some 1) 2 crState).2.db.map (·.map fun x => (x.1, x.2.1)) = some [(0, 0)] := by decide +kernel

/-- The collected traces make a database that is small enough. -/
example : (SpecHeap.after exEnv ⟨[], []⟩ (collectedOps crRun crFile [(0, 0, rdTrace 0), (1, 0, rdTrace 0)])).Small := by
  have h0 : readTrace exEnv (rdRun 0).limit (gs false (rdBytes 0)) = .ok (rdTrace 0) := by decide +kernel
  have hc : (rdTrace 0).Counts := by
    refine ⟨by decide +kernel, by decide +kernel, by decide +kernel, by decide +kernel, by decide +kernel,
      by decide +kernel, by decide +kernel⟩
  have hp : (rdTrace 0).points.length = 3 := by decide +kernel
  rw [collected_stored]
  · generalize rdTrace 0 = t at hc hp
    refine ⟨by simp, by simp [hp], ?_⟩
    intro l hl x hx
    rw [List.mem_singleton.mp hl] at hx
    simp only [List.map_cons, List.map_nil, List.mem_cons, List.not_mem_nil, or_false] at hx
    rcases hx with rfl | rfl <;> exact hc
  · intro e he
    simp only [List.mem_cons, List.not_mem_nil, or_false] at he
    rcases he with rfl | rfl <;> exact h0

/-- The hypotheses of `C103_all` hold for test case 1 alone. -/
example : let w : CfWorld (Nat × Trace) := { crWorld with attempts := fun _ => [.added (0, rdTrace 0)] }
    (∀ k, k < 2 → (w.attempts k).length = 1) ∧ (∀ k, k < 2 → ∀ a ∈ w.attempts k, a ≠ .noHandshake ∧ a ≠ .failed) ∧
    (∀ k j, k < 2 → j < 1 → crComplete (k, j)) ∧ (∀ k, k < 2 → w.starts k = true) := by
  refine ⟨fun _ _ => rfl, ?_, ?_, fun _ _ => rfl⟩
  · intro k _ a ha
    rw [List.mem_singleton.mp ha]
    simp
  · intro k j _ hj
    have : j = 0 := by omega
    subst this
    rfl

end TraceDB
