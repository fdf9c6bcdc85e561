import Verif.Proofs.AnyRuns
import Verif.Props.RunQuery
/-
C118: databases and collections of traces left by runs of every kind.
-/
namespace TraceDB

/-- **C118.**  Files left by runs of every kind — threads (C101), threads with child processes (C105)
or signals (C106), writes that fail for ever or now and then, with one thread (C115) or more (C116) —
are given to `add-trace` of databases, in any history of operations, and also files from which
nothing can be read.  Reading a trace then shows
statements passed by its run as its kind allows, and a query with soft predicates, `pick` and a
filter returns exactly the best answers among them. -/
theorem C118_queries {μ : Type} (fs : FloatSys) (w : World) (cf : CFloat) (mem : CMem) (version : Nat) (hv : version < 2 ^ 32)
    (runOf : μ → ProjRun) (may : μ → List ProjVisit → Prop) (whole : μ → Prop) (ops : List (ObjOp μ))
    (hadds : ∀ i a, ObjOp.add i a ∈ ops → a.OfAnyRun cf mem runOf may whole ∨ a.Unreadable w.env)
    (hd : ∀ op ∈ ops, op.Direct (SpecHeap.after w.env ⟨[], []⟩ ops)) (hs : (SpecHeap.after w.env ⟨[], []⟩ ops).Small)
    (hal : ∀ n, w.env.canAlloc n = true) (henv : w.env.junk.isSome = true)
    (xs : List (LispAnswer μ)) (h : LispHeap μ)
    (hrun : lispRun w version (plainEval fs) ⟨[], []⟩ () ops = .ok (xs, h, ()))
    (i idx : Nat) (t : Trace) (m : μ) (only : Option Nat)
    (hfind : (SpecHeap.after w.env ⟨[], []⟩ ops).find i idx = some (t, m, only))
    (names : List Nat) (s : SExp) (f : Form) (hf : SexpPredicate names s f) (ss : List SExp) (sf : List Form)
    (hsf : AllRel (SexpPredicate names) ss sf)
    (varTypes : List (List (List U8))) (hvl : names.length = varTypes.length) (hl : names.length < 2 ^ 64)
    (hne : varTypes ≠ []) (hknown : ∀ ts ∈ varTypes, ∀ n ∈ ts, (runOf m).header.HasType n) (seed : U32)
    (hpick : ∀ n, 0 < n → w.pick seed n < n) (file : Option Nat)
    (hfile : ∀ i, file.or only = some i → i < 2 ^ 23) (filter : Option (LPoint → Bool)) (n : Nat) (hn : n < 2 ^ 32)
    (hq : ∀ l ∈ (runOf m).threads, ∀ v ∈ l, ∀ l, v.Shown (instrumentationFiles (runOf m).evolve) l → l.Answerable varTypes n) :
    ∃ all ps hard softs chosen rs h₁ h₂,
      may m all ∧
      AllRel (ProjVisit.Shown (instrumentationFiles (runOf m).evolve)) (limited (runOf m).limit all) ps ∧
      lispStep w version (plainEval fs) h () (.get i idx file) = .ok (.trace (ofFile (file.or only) ps) m, h₁, ()) ∧
      SexpRoot names s hard ∧ SexpRoots names ss softs ∧
      lispStep w version (plainEval fs) h () (.query i idx ⟨varTypes, hard, softs, seed, file, filter⟩) =
        .ok (.results rs (some m), h₂, ()) ∧
      LooksAt seed (ofFile (file.or only) ps) chosen ∧ AnswersAll (BestAnswers fs chosen varTypes filter f sf) filter rs := by
  obtain ⟨l, hl', hx⟩ : ∃ l ∈ (SpecHeap.after w.env ⟨[], []⟩ ops).dbs, (t, m) ∈ l := by
    have hfind := hfind
    unfold SpecHeap.find at hfind
    split at hfind
    · cases hfind
    · split at hfind
      · cases hfind
      · rename_i l hl'
        obtain ⟨x, hx, e⟩ := Option.map_eq_some_iff.mp hfind
        cases e
        exact ⟨l, List.mem_of_getElem? hl', List.mem_of_getElem? hx⟩
  rcases stored_from w.env ops ⟨[], []⟩ l hl' (t, m) hx with ⟨_, h0, _⟩ | ⟨j, a, ha, hst⟩
  · cases h0
  · obtain ⟨a', ha', e⟩ := List.mem_filterMap.mp hst
    rw [List.mem_singleton.mp ha'] at e
    obtain ⟨t', ht', e⟩ := Option.map_eq_some_iff.mp e
    rcases hadds j a ha with ⟨io, bytes, m', rfl, hleft⟩ | ⟨src, limit, m', rfl, hbad⟩
    case inr =>
      cases src with
      | none => cases ht'
      | some s =>
        simp only [LispAdd.stores] at ht'
        cases hr : readTrace w.env limit s with
        | ok t2 => exact absurd hr (hbad s rfl t2)
        | _ => rw [hr] at ht'; cases ht'
    have e1 : t' = t := congrArg Prod.fst e
    have e2 : m' = m := congrArg Prod.snd e
    subst e1 e2
    have hread : readTrace w.env (runOf m').limit ⟨bytes, io, .good⟩ = .ok t' := by
      revert ht'
      simp only [LispAdd.stores]
      cases readTrace w.env (runOf m').limit ⟨bytes, io, .good⟩ with
      | ok x => intro h; cases h; rfl
      | _ => intro h; cases h
    rcases left_reads w.env io hleft hal henv with
      ⟨bad, _⟩ | ⟨t2, all, ps, types, k1, k2, k3, k4, k5, k6⟩
    · rw [hread] at bad
      cases bad
    · rw [hread] at k1
      cases k1
      obtain ⟨hard, s1, s2⟩ := sexpPredicate_root hl hf
      obtain ⟨softs, s3, s4⟩ := sexpPredicate_roots hl hsf
      rw [hvl] at s2 s4
      obtain ⟨chosen, rs, c, q1, q2, q3, _⟩ := query_best fs w.env w.pick k4
        (q := ⟨varTypes, hard, softs, seed, file.or only, filter⟩) (f := f) (sf := sf) hne
        (fun ts hts n hn => k5 n (hknown ts hts n hn)) hpick hfile s2 s4 hal hn (fun l hl => by
          obtain ⟨v, hv, hs⟩ := k3.mem_right l hl
          obtain ⟨th, hth, hv⟩ := k6 v hv
          exact hq th hth v hv l hs)
      obtain ⟨h₁, g1⟩ := step_after hv hd hs hrun (.get i idx file) (fun _ => rfl) (fun _ => trivial)
        (x := .trace (ofFile (file.or only) ps) m') (s'' := ()) (by
          simp only [SpecHeap.answer, hfind]
          rw [k4.get]
          rfl)
      obtain ⟨h₂, g2⟩ := step_after hv hd hs hrun (.query i idx ⟨varTypes, hard, softs, seed, file, filter⟩) (fun _ => rfl)
        (fun _ => trivial) (x := .results rs (some m')) (s'' := ()) (by
          simp only [SpecHeap.answer, hfind]
          rw [q2]
          rfl)
      exact ⟨all, ps, hard, softs, chosen, rs, h₁, h₂, k2, k3, g1, s1, s3, g2, by rw [← ofFile_eq]; exact q1, q3⟩

/-- **C118, nothing is missing.**  If nothing has kept the programs from writing all of their traces,
all files are stored, in the order they were added in. -/
theorem C118_kept {μ : Type} (env : Env) (cf : CFloat) (mem : CMem) (runOf : μ → ProjRun) (may : μ → List ProjVisit → Prop) (whole : μ → Prop)
    (hal : ∀ n, env.canAlloc n = true) (henv : env.junk.isSome = true) (adds : List (LispAdd μ))
    (hadds : ∀ a ∈ adds, a.OfAnyRun cf mem runOf may whole) (hc : ∀ a ∈ adds, whole a.meta) (idx : Nat) :
    ((SpecHeap.after env ⟨[], []⟩ (.create :: adds.map (.add 0))).find 0 idx).map (fun x => (x.2.1, x.2.2)) =
      adds[idx]?.map fun a => (a.meta, none) := by
  rw [after_adds]
  simp only [SpecHeap.find, List.getElem?_cons_zero, Option.map_map]
  have hkeep : (storedWith env adds).map (·.2) = adds.map LispAdd.meta := by
    refine storedWith_all fun a ha => ?_
    obtain ⟨io, bytes, m, rfl, hleft⟩ := hadds a ha
    rcases left_reads env io hleft hal henv with ⟨_, hbad⟩ | ⟨t, _, _, _, ht, _⟩
    · exact absurd (hc _ ha) hbad
    · exact ⟨t, by simp only [LispAdd.stores, ht]⟩
  have h1 : (storedWith env adds)[idx]?.map (·.2) = adds[idx]?.map LispAdd.meta := by
    rw [← List.getElem?_map, ← List.getElem?_map, hkeep]
  have h2 := congrArg (Option.map fun m => (m, (none : Option Nat))) h1
  rw [Option.map_map, Option.map_map] at h2
  exact h2

/-- **C118, collections.**  Whatever happens in a collection whose attempts read files left by runs of
every kind: its traces are in the order of their test cases and attempts, not more than asked for,
and calling `add-trace` for them gives a database in which each of them is answered as above. -/
theorem C118_collections (fs : FloatSys) (wd : World) (cf : CFloat) (mem : CMem) (version : Nat) (hv : version < 2 ^ 32)
    (runOf : Nat × Nat → ProjRun) (may : Nat × Nat → List ProjVisit → Prop) (whole : Nat × Nat → Prop) (file : Nat × Nat → IStream)
    (w : CfWorld (Nat × Trace)) (hw : ReadsAnyRuns wd.env cf mem runOf may whole file w)
    (hal : ∀ n, wd.env.canAlloc n = true) (henv : wd.env.junk.isSome = true)
    (b : Budget) (n : Nat) (s : CfState (Nat × Trace)) (hbin : s.bin = true ∨ (w.compile s.compiles).error = false) :
    ∃ l, (cfCollect false w b n s).2.db = some l ∧
      l.Pairwise (fun x y => AttemptBefore (x.1, x.2.1) (y.1, y.2.1)) ∧ (∀ m, b = some m → l.length ≤ m) ∧
      (∀ i a, ObjOp.add i a ∈ collectedOps runOf file l → a.OfAnyRun cf mem runOf may whole) ∧
      ((SpecHeap.after wd.env ⟨[], []⟩ (collectedOps runOf file l)).Small →
        ∃ xs h, lispRun wd version (plainEval fs) ⟨[], []⟩ () (collectedOps runOf file l) = .ok (xs, h, ()) ∧
        ∀ idx e, l[idx]? = some e →
        ∀ (names : List Nat) (sx : SExp) (f : Form) (ss : List SExp) (sf : List Form) (varTypes : List (List (List U8))) (seed : U32)
          (only : Option Nat) (filter : Option (LPoint → Bool)) (m : Nat),
          SexpPredicate names sx f → AllRel (SexpPredicate names) ss sf → names.length = varTypes.length → names.length < 2 ^ 64 →
          varTypes ≠ [] → (∀ ts ∈ varTypes, ∀ n ∈ ts, (runOf (e.1, e.2.1)).header.HasType n) →
          (∀ n, 0 < n → wd.pick seed n < n) → (∀ i, only = some i → i < 2 ^ 23) → m < 2 ^ 32 →
          (∀ l ∈ (runOf (e.1, e.2.1)).threads, ∀ v ∈ l, ∀ l, v.Shown (instrumentationFiles (runOf (e.1, e.2.1)).evolve) l →
            l.Answerable varTypes m) →
          ∃ all ps hard softs chosen rs h₁ h₂,
            may (e.1, e.2.1) all ∧
            AllRel (ProjVisit.Shown (instrumentationFiles (runOf (e.1, e.2.1)).evolve))
              (limited (runOf (e.1, e.2.1)).limit all) ps ∧
            lispStep wd version (plainEval fs) h () (.get 0 idx only) = .ok (.trace (ofFile only ps) (e.1, e.2.1), h₁, ()) ∧
            SexpRoot names sx hard ∧ SexpRoots names ss softs ∧
            lispStep wd version (plainEval fs) h () (.query 0 idx ⟨varTypes, hard, softs, seed, only, filter⟩) =
              .ok (.results rs (some (e.1, e.2.1)), h₂, ()) ∧
            LooksAt seed (ofFile only ps) chosen ∧ AnswersAll (BestAnswers fs chosen varTypes filter f sf) filter rs) := by
  obtain ⟨l, hdb, hsub, hlen⟩ := C96_traces_any false w b n s hbin
  have hmem : ∀ e ∈ l, _ := fun e he => hw.entry (hsub.subset he)
  have hadds : ∀ i a, ObjOp.add i a ∈ collectedOps runOf file l → a.OfAnyRun cf mem runOf may whole := by
    intro i a ha
    unfold collectedOps at ha
    rcases List.mem_cons.mp ha with ha | ha
    · cases ha
    · obtain ⟨a', ha', e⟩ := List.mem_map.mp ha
      cases e
      obtain ⟨x, hx, rfl⟩ := List.mem_map.mp ha'
      obtain ⟨_, io, bytes, h1, h2⟩ := hmem x hx
      exact ⟨io, bytes, _, by rw [h1], h2⟩
  refine ⟨l, hdb, (hw.ordered n).sublist hsub, fun m hm => hlen m hm rfl, hadds, fun hsmall => ?_⟩
  have hafter := collected_stored (runOf := runOf) (file := file) fun e he => (hmem e he).1
  have hd : ∀ op ∈ collectedOps runOf file l, op.Direct (SpecHeap.after wd.env ⟨[], []⟩ (collectedOps runOf file l)) := by
    intro op hop
    rw [hafter]
    unfold collectedOps at hop
    rcases List.mem_cons.mp hop with rfl | hop
    · trivial
    · obtain ⟨a, ha, rfl⟩ := List.mem_map.mp hop
      obtain ⟨x, _, rfl⟩ := List.mem_map.mp ha
      exact ⟨rfl, fun d f => by simp⟩
  have hex := C66_exact wd version hv (plainEval fs) () _ hd hsmall
  obtain ⟨xs, hxs⟩ : ∃ xs, SpecHeap.run wd (plainEval fs) ⟨[], []⟩ () (collectedOps runOf file l) = .ok (xs, ()) := by
    obtain ⟨xs, hxs⟩ := specRun_adds wd (plainEval fs) ()
      (l.map fun x => LispAdd.trace (some (file (x.1, x.2.1))) (runOf (x.1, x.2.1)).limit (x.1, x.2.1))
      (SpecHeap.step wd.env ⟨[], []⟩ .create) (by simp [SpecHeap.step]) (fun a ha => by
        obtain ⟨x, hx, rfl⟩ := List.mem_map.mp ha
        exact ⟨_, _, _, _, rfl, (hmem x hx).1⟩)
    refine ⟨.object 0 :: xs, ?_⟩
    simp only [collectedOps, SpecHeap.run, SpecHeap.answer, Res.ok_bind, hxs, List.length_nil]
  rw [hxs] at hex
  cases hrun : lispRun wd version (plainEval fs) ⟨[], []⟩ () (collectedOps runOf file l) with
  | ok r =>
    obtain ⟨xs', h, u⟩ := r
    refine ⟨xs', h, rfl, ?_⟩
    intro idx e he names sx f ss sf varTypes seed only filter m hf hsf hvl hl hne hknown hpick honly hm hq
    have hfind : (SpecHeap.after wd.env ⟨[], []⟩ (collectedOps runOf file l)).find 0 idx =
        some (e.2.2, (e.1, e.2.1), none) := by
      rw [hafter]
      simp only [SpecHeap.find, List.getElem?_cons_zero, List.getElem?_map, he, Option.map_some]
    have h := C118_queries fs wd cf mem version hv runOf may whole _ (fun i a ha => .inl (hadds i a ha)) hd hsmall hal henv xs' h hrun 0 idx e.2.2 (e.1, e.2.1)
      none hfind names sx f hf ss sf hsf varTypes hvl hl hne hknown seed hpick only (by rw [Option.or_none]; exact honly) filter m hm hq
    rw [Option.or_none] at h
    exact h
  | _ => rw [hrun] at hex; cases hex

/-- **C118, complete collections.**  Each test case runs its program `count k` times, and nothing keeps
these runs from writing all of their traces.  Then there is one trace for each run. -/
theorem C118_all (env : Env) (cf : CFloat) (mem : CMem) (runOf : Nat × Nat → ProjRun) (may : Nat × Nat → List ProjVisit → Prop)
    (whole : Nat × Nat → Prop)
    (file : Nat × Nat → IStream) (w : CfWorld (Nat × Trace)) (hw : ReadsAnyRuns env cf mem runOf may whole file w)
    (hal : ∀ n, env.canAlloc n = true) (henv : env.junk.isSome = true)
    (b : Budget) (n : Nat) (s : CfState (Nat × Trace)) (hbin : Compiled w s) (count : Nat → Nat)
    (hcount : ∀ k, k < n → (w.attempts k).length = count k)
    (hruns : ∀ k, k < n → ∀ a ∈ w.attempts k, a ≠ .noHandshake ∧ a ≠ .failed)
    (hcomplete : ∀ k j, k < n → j < count k → whole (k, j)) :
    ∃ l, (cfCollect false w b n s).2.db = some l ∧
      l.map (fun x => (x.1, x.2.1)) = b.firsts ((List.range ((cfCollect false w b n s).1.reached n)).flatMap fun k =>
        (List.range (count k)).map fun j => (k, j)) ∧
      ((∀ k, k < n → w.starts k = true) → (∀ k, k < n → count k = 0 → w.ignoreEmpty k = true) → b = none →
        (cfCollect false w b n s).1 = .value ()) := by
  have hadded : ∀ k, k < n → ∀ a ∈ w.attempts k, ∃ t, a = .added t := fun k hk =>
    hw.all_added hal henv (hruns k hk) fun j hj => hcomplete k j hk (by rw [← hcount k hk]; exact hj)
  have hlen : ∀ k, k < n → (provided (w.attempts k)).length = count k := fun k hk => by
    rw [provided_all (hadded k hk), hcount k hk]
  have hdb := C96_traces false w b n s hbin
  have hcauses := C96_causes false w b n s
  have hreached : (cfCollect false w b n s).1.reached n ≤ n := by
    cases he : (cfCollect false w b n s).1 with
    | value _ => exact Nat.le_refl _
    | returned => exact Nat.zero_le _
    | error c =>
      cases c with
      | compile => exact Nat.zero_le _
      | start k => exact Nat.le_of_lt ((hcauses k).1 he).1
      | add k => exact ((hcauses k).2.1 he).1
      | empty k => exact ((hcauses k).2.2 he).1
  refine ⟨_, hdb, ?_, ?_⟩
  · rw [Budget.firsts_map]
    show b.firsts _ = _
    congr 1
    unfold providedBy
    rw [List.map_flatMap]
    rw [List.flatMap_def, List.flatMap_def]
    congr 1
    apply List.map_congr_left
    intro k hk
    have hk : k < n := by have := List.mem_range.mp hk; omega
    rw [← hlen k hk, ← hw.numbers k]
    simp [tagged, gives]
  · rintro hst hig rfl
    cases he : (cfCollect false w none n s).1 with
    | value _ => rfl
    | returned => exact absurd he (collect_compiled hbin).1
    | error c =>
      exfalso
      cases c with
      | compile => exact (collect_compiled hbin).2 he
      | start k =>
        obtain ⟨hk, h⟩ := (hcauses k).1 he
        rw [hst k hk] at h
        cases h
      | add k =>
        obtain ⟨hk, _, h, _⟩ := (hcauses k).2.1 he
        exact (hruns k hk _ h).2 rfl
      | empty k =>
        obtain ⟨hk, _, h, l, hl, hlt⟩ := (hcauses k).2.2 he
        have hpos : 0 < count k := by
          rcases Nat.eq_zero_or_pos (count k) with h0 | h0
          · rw [hig k hk h0] at h
            cases h
          · exact h0
        rw [hdb] at hl
        cases hl
        rw [← hlen k hk] at hpos
        have hin : (k, (provided (w.attempts k))[0]) ∈ (obeyed false none : Budget).firsts
            (providedBy (gives false w) ((cfCollect false w none n s).1.reached n)) := by
          rw [he]
          exact List.mem_flatMap.mpr ⟨k, List.mem_range.mpr (Nat.lt_succ_self k),
            List.mem_map.mpr ⟨_, List.getElem_mem hpos, rfl⟩⟩
        exact Nat.lt_irrefl k (hlt _ hin)


/-! Seven files of the project of C101, with metadata that tell how they came about.
0: threads (C102).  1: child processes (C105).  2: a signal comes within a point (C106).
3: the disk is full within the second point (C115).  4: the second point is lost (C115).
5: the disk is full within the second point, with threads (C116).  6: a point of the first thread is
lost (C116).  Files 2, 3 and 5 are read with a limit of one point. -/

def arSecond : List FwEvent := List.replicate 3 .run ++ .fail 0 4096 :: List.replicate 5 .run
def arSignals : RtState :=
  match (RtState.init rdHeader tpActs).sgRun (spAll false 60 spHandler) with
  | .ok s => s
  | _ => RtState.init [] []
def arFull : FmState :=
  match (FmState.start rdHeader fmActs).run 4096 (fmGo 1 26 ++ fmGo 0 24 ++ [.fail 0 12 4096]) with
  | .ok s => s
  | _ => FmState.start [] []
def arLost : List FmEvent := fmGo 0 24 ++ .fail 0 0 4096 :: (fmGo 0 9 ++ fmGo 1 60)
def arGaps : FmState :=
  match (FmState.start rdHeader fmActs).run 4096 (fmGo 1 26 ++ arLost) with
  | .ok s => s
  | _ => FmState.start [] []

def arRun : Nat → ProjRun
  | 0 => rdRun 0
  | 1 => fpRun.inOne
  | 2 => (spRun false 60 1).inOne
  | 3 => (flRun 1).inOne
  | 4 => (flRun 0).inOne
  | 5 => fmRun 1
  | _ => fmRun 0
def arBytes : Nat → List U8
  | 0 => rdBytes 0
  | 1 => (ftFinal 4096 fpActs fpEvents).out
  | 2 => rdHeader ++ arSignals.out.drop rdHeader.length
  | 3 => ((FwState.start flActs).run 4096 (List.replicate 8 .run ++ [.fail 12 4096])).out
  | 4 => ((FwState.start flActs).run 4096 (List.replicate 5 .run ++ arSecond)).out
  | 5 => arFull.out
  | _ => arGaps.out
def arWhole : Nat → Prop
  | 0 => rdComplete 0
  | 1 => FtWhole 4096 fpActs fpEvents (ftFinal 4096 fpActs fpEvents)
  | 2 => SgWhole rdHeader tpActs (spAll false 60 spHandler) (arSignals.out.drop rdHeader.length) arSignals
  | 3 => FwWhole (List.replicate 8 .run ++ [.fail 12 4096]) ((FwState.start flActs).run 4096 (List.replicate 8 .run ++ [.fail 12 4096]))
  | 4 => FwWhole (List.replicate 5 .run ++ arSecond) ((FwState.start flActs).run 4096 (List.replicate 5 .run ++ arSecond))
  | 5 => FmWhole (fmGo 1 26 ++ fmGo 0 24 ++ [.fail 0 12 4096]) arFull
  | _ => FmWhole (fmGo 1 26 ++ arLost) arGaps
def arMay (m : Nat) : List ProjVisit → Prop :=
  match m with
  | 0 => FirstOfEach (rdRun 0).threads (arWhole 0)
  | 1 => fpRun.May (arWhole 1)
  | 2 => (spRun false 60 1).May (arWhole 2)
  | 3 => (flRun 1).MayFirst (arWhole 3)
  | 4 => (flRun 0).MaySome (arWhole 4)
  | 5 => FirstOfEach (fmRun 1).threads (arWhole 5)
  | m + 6 => SomeOfEach (fmRun 0).threads (arWhole (m + 6))

theorem ar_fork : (FtState.start fpActs).run 4096 fpEvents = .ok (ftFinal 4096 fpActs fpEvents) := by
  have h : ((FtState.start fpActs).run 4096 fpEvents).isOk = true := by decide +kernel
  unfold ftFinal
  cases hr : (FtState.start fpActs).run 4096 fpEvents with
  | ok s => rfl
  | _ => rw [hr] at h; cases h

theorem ar_signals : (RtState.init rdHeader tpActs).sgRun (spAll false 60 spHandler) = .ok arSignals := by
  have h : ((RtState.init rdHeader tpActs).sgRun (spAll false 60 spHandler)).isOk = true := by decide +kernel
  unfold arSignals
  cases hr : (RtState.init rdHeader tpActs).sgRun (spAll false 60 spHandler) with
  | ok s => rfl
  | _ => rw [hr] at h; cases h

theorem ar_full : (FmState.start rdHeader fmActs).run 4096 (fmGo 1 26 ++ fmGo 0 24 ++ [.fail 0 12 4096]) = .ok arFull := by
  have h : ((FmState.start rdHeader fmActs).run 4096 (fmGo 1 26 ++ fmGo 0 24 ++ [.fail 0 12 4096])).isOk = true := by decide +kernel
  unfold arFull
  cases hr : (FmState.start rdHeader fmActs).run 4096 (fmGo 1 26 ++ fmGo 0 24 ++ [.fail 0 12 4096]) with
  | ok s => rfl
  | _ => rw [hr] at h; cases h

theorem ar_gaps : (FmState.start rdHeader fmActs).run 4096 (fmGo 1 26 ++ arLost) = .ok arGaps := by
  have h : ((FmState.start rdHeader fmActs).run 4096 (fmGo 1 26 ++ arLost)).isOk = true := by decide +kernel
  unfold arGaps
  cases hr : (FmState.start rdHeader fmActs).run 4096 (fmGo 1 26 ++ arLost) with
  | ok s => rfl
  | _ => rw [hr] at h; cases h

theorem ar_there : rdHeader <+: (ftFinal 4096 fpActs fpEvents).out ∧
    rdHeader ++ arSignals.out.drop rdHeader.length <+: arSignals.out ∧
    rdHeader <+: ((FwState.start flActs).run 4096 (List.replicate 8 .run ++ [.fail 12 4096])).out ∧ rdHeader <+: arFull.out := by
  simp only [← List.isPrefixOf_iff_prefix]
  decide +kernel

theorem ar_left1 : LeftBy exFloat exMem (arRun 1) (arMay 1) (arWhole 1) (arBytes 1) :=
  LeftBy.forks fpRun 4096 fpActs fpEvents _ rdHeader fp_built fp_does (ftCheck_safe (by decide +kernel)) ar_fork rd_run.1 ar_there.1

theorem ar_left2 : LeftBy exFloat exMem (arRun 2) (arMay 2) (arWhole 2) (arBytes 2) :=
  LeftBy.signals (spRun false 60 1) tpActs (spAll false 60 spHandler) rdHeader _ arSignals (sp_built false 60 1) (sp_does false 60 1)
    rd_run.1 ar_signals ar_there.2.1

theorem ar_left3 : LeftBy exFloat exMem (arRun 3) (arMay 3) (arWhole 3) (arBytes 3) :=
  LeftBy.full (flRun 1) 4096 piCallY' flActs _ rdHeader (fl_built 1) (fl_does 1) fl_full rd_run.1 ar_there.2.2.1

theorem ar_left4 : LeftBy exFloat exMem (arRun 4) (arMay 4) (arWhole 4) (arBytes 4) :=
  LeftBy.gaps (flRun 0) 4096 piCallY' flActs (List.replicate 5 .run) arSecond
    flFirstBytes (fl_built 0) (fl_does 0) (by simp [FwEvent.IsFail]) (by simp [arSecond, FwEvent.AllOrNothing]) rfl (by decide +kernel)

theorem ar_left5 : LeftBy exFloat exMem (arRun 5) (arMay 5) (arWhole 5) (arBytes 5) :=
  LeftBy.fullThreads (fmRun 1) 4096 tpCalls fmActs rdHeader _ arFull (fm_built 1) (fm_does 1) rd_run.1 fm_full ar_full ar_there.2.2.2

theorem ar_left6 (m : Nat) : LeftBy exFloat exMem (arRun (m + 6)) (arMay (m + 6)) (arWhole (m + 6)) (arBytes (m + 6)) :=
  LeftBy.gapsThreads (fmRun 0) 4096 tpCalls fmActs rdHeader (fmGo 1 26) arLost fmFirst arGaps (fm_built 0) (fm_does 0) rd_run.1 fm_fit
    (by simp [fmGo, FmEvent.IsFail]) (by simp [arLost, fmGo, FmEvent.AllOrNothing]) fm_first.1 fm_first.2.1 fm_first.2.2.1
    fm_first.2.2.2 ar_gaps

theorem ar_left (m : Nat) : LeftBy exFloat exMem (arRun m) (arMay m) (arWhole m) (arBytes m) :=
  match m with
  | 0 => .threads (rdRun 0) _ _ (rd_built 0) (rd_leaves 0)
  | 1 => ar_left1
  | 2 => ar_left2
  | 3 => ar_left3
  | 4 => ar_left4
  | 5 => ar_left5
  | m + 6 => ar_left6 m

def arAdd (m : Nat) : LispAdd Nat := .trace (some ⟨arBytes m, false, .good⟩) (arRun m).limit m
/-- The files are added, the database copied, the copy restricted to file 1. -/
def arOps : List (ObjOp Nat) := .create :: (List.range 7).map (fun m => .add 0 (arAdd m)) ++ [.copy 0, .restrict 1 1]
def arTrace (m : Nat) : Trace :=
  match readTrace exEnv (arRun m).limit ⟨arBytes m, false, .good⟩ with
  | .ok t => t
  | _ => ⟨[], [], []⟩

theorem ar_read : ∀ m ∈ List.range 7, readTrace exEnv (arRun m).limit ⟨arBytes m, false, .good⟩ = .ok (arTrace m) := by
  have h : ∀ m ∈ List.range 7, (readTrace exEnv (arRun m).limit ⟨arBytes m, false, .good⟩).isOk = true := by decide +kernel
  intro m hm
  have h := h m hm
  unfold arTrace
  cases hr : readTrace exEnv (arRun m).limit ⟨arBytes m, false, .good⟩ with
  | ok s => rfl
  | _ => rw [hr] at h; cases h

/-- What the traces show: all four statements passed by the processes (1), the first (2, 3, 5), all but the
lost one (4, 6). -/
example : (List.range 7).map (fun m => lispGetTrace (arTrace m) none) =
    [.ok [tpPointY, tpPointX, tpPointX], .ok [tpPointY, tpPointX, tpPointX, tpPointY], .ok [tpPointY], .ok [tpPointY],
     .ok [tpPointY, tpPointY], .ok [tpPointY], .ok [tpPointY, tpPointX]] := by decide +kernel

theorem ar_counts : ∀ m ∈ List.range 7, (arTrace m).Counts := by
  intro m hm
  have hm : m = 0 ∨ m = 1 ∨ m = 2 ∨ m = 3 ∨ m = 4 ∨ m = 5 ∨ m = 6 := by simp at hm; omega
  rcases hm with rfl | rfl | rfl | rfl | rfl | rfl | rfl <;>
  exact ⟨by decide +kernel, by decide +kernel, by decide +kernel, by decide +kernel, by decide +kernel, by decide +kernel,
    by decide +kernel⟩

theorem ar_stored : ∀ l : List Nat, (∀ m ∈ l, m ∈ List.range 7) → storedWith exEnv (l.map arAdd) = l.map fun m => (arTrace m, m)
  | [], _ => rfl
  | m :: l, h => by
    have ih := ar_stored l fun m hm => h m (List.mem_cons_of_mem _ hm)
    have h1 : (arAdd m).stores exEnv = some (arTrace m) := by
      simp only [arAdd, LispAdd.stores, ar_read m (h m List.mem_cons_self)]
    unfold storedWith at ih ⊢
    rw [List.map_cons, List.filterMap_cons, h1]
    exact congrArg (List.cons _) ih

theorem ar_points : ((List.range 7).map fun m => (arTrace m).points.length).sum < 2 ^ 64 := by decide +kernel

attribute [local irreducible] arTrace

theorem ar_after : SpecHeap.after rdWorld.env ⟨[], []⟩ arOps =
    ⟨[(List.range 7).map fun m => (arTrace m, m), (List.range 7).map fun m => (arTrace m, m)],
     [(0, none), (1, none), (1, some 1)]⟩ := by
  have h := after_adds exEnv ((List.range 7).map arAdd)
  rw [ar_stored _ fun _ h => h] at h
  have e : arOps = (.create :: ((List.range 7).map arAdd).map (.add 0)) ++ [.copy 0, .restrict 1 1] := by
    unfold arOps
    rw [List.map_map]
    rfl
  unfold SpecHeap.after at h ⊢
  rw [show rdWorld.env = exEnv from rfl, e, List.foldl_append, h]
  rfl

/-- The hypotheses of `C118_queries` hold for it. -/
theorem ar_case : (∀ i a, ObjOp.add i a ∈ arOps → a.OfAnyRun exFloat exMem arRun arMay arWhole) ∧
    (∀ op ∈ arOps, op.Direct (SpecHeap.after rdWorld.env ⟨[], []⟩ arOps)) ∧
    (SpecHeap.after rdWorld.env ⟨[], []⟩ arOps).Small ∧
    ∀ m < 7, (SpecHeap.after rdWorld.env ⟨[], []⟩ arOps).find 2 m = some (arTrace m, m, some 1) := by
  have hin : ∀ op ∈ arOps, (∃ m, op = .add 0 (arAdd m)) ∨ op = .create ∨ op = .copy 0 ∨ op = .restrict 1 1 := by
    intro op hop
    simp only [arOps, List.cons_append, List.mem_cons, List.mem_append, List.mem_map, List.not_mem_nil, or_false] at hop
    rcases hop with rfl | ⟨m, _, rfl⟩ | rfl | rfl
    · exact .inr (.inl rfl)
    · exact .inl ⟨m, rfl⟩
    · exact .inr (.inr (.inl rfl))
    · exact .inr (.inr (.inr rfl))
  refine ⟨?_, ?_, ?_, ?_⟩
  · intro i a ha
    rcases hin _ ha with ⟨m, e⟩ | e | e | e <;> cases e
    exact ⟨false, _, m, rfl, ar_left m⟩
  · rw [ar_after]
    intro op hop
    rcases hin op hop with ⟨m, rfl⟩ | rfl | rfl | rfl
    · exact ⟨rfl, fun d f => by simp⟩
    · trivial
    · trivial
    · trivial
  · rw [ar_after]
    refine ⟨?_, ?_, ?_⟩
    · intro l hl
      simp only [List.mem_cons, List.not_mem_nil, or_false, or_self] at hl
      subst hl
      simp
    · intro l hl
      simp only [List.mem_cons, List.not_mem_nil, or_false, or_self] at hl
      subst hl
      rw [List.map_map]
      exact ar_points
    · intro l hl x hx
      simp only [List.mem_cons, List.not_mem_nil, or_false, or_self] at hl
      subst hl
      obtain ⟨m, hm, rfl⟩ := List.mem_map.mp hx
      exact ar_counts m hm
  · rw [ar_after]
    intro m hm
    simp only [SpecHeap.find, List.getElem?_cons_succ, List.getElem?_cons_zero, List.getElem?_map, List.getElem?_range hm,
      Option.map_some]

theorem ar_types (m : Nat) : ∀ ts ∈ pgTypes, ∀ n ∈ ts, (arRun m).header.HasType n := by
  have h := pi_case.2.2.2.2.2.2.2.2.1
  match m with
  | 0 | 1 | 2 | 3 | 4 | 5 | _ + 6 => exact h

theorem ar_shown (m : Nat) : ∀ l ∈ (arRun m).threads, ∀ v ∈ l, ∀ l, v.Shown (instrumentationFiles (arRun m).evolve) l →
    l.Answerable pgTypes 1 := by
  have h := rq_shown 0 [tpY, tpX] (by simp [rdRun, tpThreads])
  match m with
  | 0 | 5 | _ + 6 => exact rq_shown 0
  | 1 => intro l hl v hv; rw [List.mem_singleton.mp hl] at hv; exact h v (fp_in v hv)
  | 2 => intro l hl v hv; rw [List.mem_singleton.mp hl] at hv; exact h v (sp_in _ _ _ v hv)
  | 3 => intro l hl v hv; rw [List.mem_singleton.mp hl] at hv; exact h v (fl_in _ v hv)
  | 4 => intro l hl v hv; rw [List.mem_singleton.mp hl] at hv; exact h v (fl_in _ v hv)

/-- The query of C104 to any trace of the restricted copy. -/
example (m : Nat) (hm : m < 7) (seed : U32) (version : Nat) (hv : version < 2 ^ 32)
    (xs : List (LispAnswer Nat)) (h : LispHeap Nat)
    (hrun : lispRun rdWorld version (plainEval exFloats) ⟨[], []⟩ () arOps = .ok (xs, h, ())) :
    ∃ all ps hard softs chosen rs h₁ h₂,
      arMay m all ∧ AllRel (ProjVisit.Shown (instrumentationFiles (arRun m).evolve)) (limited (arRun m).limit all) ps ∧
      lispStep rdWorld version (plainEval exFloats) h () (.get 2 m none) = .ok (.trace (ofFile (some 1) ps) m, h₁, ()) ∧
      SexpRoot [0] pgSexp hard ∧ SexpRoots [0] [pgSexp, .nil] softs ∧
      lispStep rdWorld version (plainEval exFloats) h () (.query 2 m ⟨pgTypes, hard, softs, seed, none, none⟩) =
        .ok (.results rs (some m), h₂, ()) ∧
      LooksAt seed (ofFile (some 1) ps) chosen ∧
      AnswersAll (BestAnswers exFloats chosen pgTypes none pgForm [pgForm, .tt]) none rs := by
  obtain ⟨c1, c2, c3, c4⟩ := ar_case
  exact C118_queries exFloats rdWorld exFloat exMem version hv arRun arMay arWhole arOps (fun i a ha => .inl (c1 i a ha)) c2 c3 (fun _ => rfl) rfl xs h hrun
    2 m _ m (some 1) (c4 m hm) [0] pgSexp pgForm rq_pred [pgSexp, .nil] [pgForm, .tt] (.cons rq_pred (.cons .nil .nil)) pgTypes rfl
    (by decide) (by decide) (ar_types m) seed (fun n hn => hn) none (by intro i hi; cases hi; decide) none 1 (by decide) (ar_shown m)

theorem ar_whole1 : arWhole 1 := by
  refine ⟨?_, ftCheck_joined (fork := false) (by decide +kernel), FtState.ended_of (by decide +kernel)⟩
  intro e he
  simp only [fpEvents, ftRuns, List.mem_append, List.mem_replicate] at he
  rcases he with ((((⟨_, rfl⟩ | ⟨_, rfl⟩) | ⟨_, rfl⟩) | ⟨_, rfl⟩) | ⟨_, rfl⟩) | ⟨_, rfl⟩ <;> exact id

/-- The hypotheses of `C118_kept` hold for files 0 and 1. -/
example : (∀ x ∈ [arAdd 0, arAdd 1, arAdd 0], x.OfAnyRun exFloat exMem arRun arMay arWhole) ∧
    ∀ x ∈ [arAdd 0, arAdd 1, arAdd 0], arWhole x.meta := by
  have h1 := ar_whole1
  constructor <;> intro x hx <;> simp only [List.mem_cons, List.not_mem_nil, or_false] at hx <;> rcases hx with rfl | rfl | rfl
  · exact ⟨false, _, 0, rfl, ar_left 0⟩
  · exact ⟨false, _, 1, rfl, ar_left 1⟩
  · exact ⟨false, _, 0, rfl, ar_left 0⟩
  · exact rfl
  · exact h1
  · exact rfl

/-! Test case 0 runs the program three times (files 0, 1 and 2), test case 1 twice (1 and 2). -/

def acNumber (m : Nat × Nat) : Nat := if m.1 = 0 then m.2 else m.2 + 1
def acRun (m : Nat × Nat) : ProjRun := arRun (acNumber m)
def acMay (m : Nat × Nat) : List ProjVisit → Prop := arMay (acNumber m)
def acWhole (m : Nat × Nat) : Prop := arWhole (acNumber m)
def acFile (m : Nat × Nat) : IStream := ⟨arBytes (acNumber m), false, .good⟩
def acWorld : CfWorld (Nat × Trace) :=
  ⟨fun _ => ⟨true, false, true⟩, fun _ => .unwind, fun _ => true,
   fun k => (List.range (if k = 0 then 3 else 2)).map fun j => .added (j, arTrace (acNumber (k, j))), fun _ => false⟩

theorem ac_reads : ReadsAnyRuns exEnv exFloat exMem acRun acMay acWhole acFile acWorld := by
  have key : ∀ k j a, (acWorld.attempts k)[j]? = some a → j < 3 ∧ a = .added (j, arTrace (acNumber (k, j))) := by
    intro k j a h
    simp only [acWorld, List.getElem?_map] at h
    obtain ⟨j', h1, h2⟩ := Option.map_eq_some_iff.mp h
    obtain ⟨hj, e⟩ := List.getElem?_eq_some_iff.mp h1
    rw [List.getElem_range] at e
    subst e
    rw [List.length_range] at hj
    exact ⟨by split at hj <;> omega, h2.symm⟩
  refine ⟨?_, ?_, ?_⟩
  · intro k j i t h
    obtain ⟨hj, e⟩ := key k j _ h
    injection e with e
    injection e with e1 e2
    subst e1 e2
    exact ⟨rfl, ar_read _ (List.mem_range.mpr (by unfold acNumber; split <;> dsimp only <;> omega))⟩
  · intro k j t h
    cases (key k j _ h).2
  · intro k j _ _ _ _
    exact ⟨false, _, rfl, ar_left _⟩

example : ReadsAnyRuns exEnv exFloat exMem acRun acMay acWhole acFile acWorld ∧
    (acWorld.compile crState.compiles).error = false ∧ Compiled acWorld crState :=
  ⟨ac_reads, rfl, .inr ⟨rfl, rfl⟩⟩

example : (cfCollect false acWorld none 2 crState).1 = .value () ∧
    (cfCollect false acWorld none 2 crState).2.db.map (·.map fun x => (x.1, x.2.1)) = some [(0, 0), (0, 1), (0, 2), (1, 0), (1, 1)] ∧
    (cfCollect false acWorld (some 4) 2 crState).2.db.map (·.map fun x => (x.1, x.2.1)) = some [(0, 0), (0, 1), (0, 2), (1, 0)] := by
  decide +kernel

/-- The collected traces make a database that is small enough. -/
example : (SpecHeap.after exEnv ⟨[], []⟩ (collectedOps acRun acFile
    ((List.range 3).map fun j => (0, j, arTrace (acNumber (0, j)))))).Small := by
  have hr : ∀ m ∈ List.range 3, m ∈ List.range 7 := by decide
  have hc : ∀ j, acNumber (0, j) = j := fun _ => rfl
  rw [collected_stored]
  · refine ⟨?_, ?_, ?_⟩
    · intro l hl
      rw [List.mem_singleton.mp hl]
      simp
    · intro l hl
      rw [List.mem_singleton.mp hl, List.map_map, List.map_map]
      refine Nat.lt_of_le_of_lt ?_ ar_points
      show ((List.range 3).map fun m => (arTrace m).points.length).sum ≤ ((List.range 7).map fun m => (arTrace m).points.length).sum
      simp only [show List.range 7 = List.range 3 ++ [3, 4, 5, 6] from rfl, List.map_append, List.sum_append]
      omega
    · intro l hl x hx
      rw [List.mem_singleton.mp hl, List.map_map] at hx
      obtain ⟨m, hm, rfl⟩ := List.mem_map.mp hx
      exact ar_counts m (hr m hm)
  · intro e he
    obtain ⟨m, hm, rfl⟩ := List.mem_map.mp he
    exact ar_read m (hr m hm)

/-- The hypotheses of `C118_all` hold if only the runs 0 and 1 are made. -/
example : let w : CfWorld (Nat × Trace) := { acWorld with attempts := fun k => (acWorld.attempts k).take (if k = 0 then 2 else 1) }
    (∀ k, k < 2 → (w.attempts k).length = if k = 0 then 2 else 1) ∧
    (∀ k, k < 2 → ∀ a ∈ w.attempts k, a ≠ .noHandshake ∧ a ≠ .failed) ∧
    (∀ k j, k < 2 → (j < if k = 0 then 2 else 1) → acWhole (k, j)) ∧ (∀ k, k < 2 → w.starts k = true) ∧ Compiled w crState := by
  refine ⟨?_, ?_, ?_, fun _ _ => rfl, .inr ⟨rfl, rfl⟩⟩
  · intro k _
    by_cases hk : k = 0 <;> simp [acWorld, hk]
  · intro k _ a ha
    obtain ⟨j, _, rfl⟩ := List.mem_map.mp (List.mem_of_mem_take ha)
    simp
  · intro k j hk hj
    match k, j, hk, hj with
    | 0, 0, _, _ => exact rfl
    | 0, 1, _, _ => exact ar_whole1
    | 1, 0, _, _ => exact ar_whole1
    | 0, n + 2, _, hj => exact absurd (show n + 2 < 2 from hj) (by omega)
    | 1, _ + 1, _, hj => simp at hj

end TraceDB
