import Verif.Proofs.RunDatabase
/-
C102: databases with the traces of programs.
-/
namespace TraceDB

/-- **C102.**  Databases are created, files left by runs of programs, of any projects, are added to
them with metadata that tells the run, and databases are restricted to files, stored and restored,
read and queried, in any order.  Afterwards, for every trace of every object: reading it gives the
statements passed in the run told by its metadata (those of the file, if the object is restricted),
and a query returns exactly the answers among the values shown. -/
theorem C102_queries {μ : Type} (fs : FloatSys) (w : World) (cf : CFloat) (mem : CMem) (version : Nat) (hv : version < 2 ^ 32)
    (runOf : μ → ProjRun) (complete : μ → Prop) (ops : List (ObjOp μ))
    (hadds : ∀ i a, ObjOp.add i a ∈ ops → a.OfRun cf mem runOf complete)
    (hd : ∀ op ∈ ops, op.Direct (SpecHeap.after w.env ⟨[], []⟩ ops)) (hs : (SpecHeap.after w.env ⟨[], []⟩ ops).Small)
    (hal : ∀ n, w.env.canAlloc n = true) (henv : w.env.junk.isSome = true)
    (xs : List (LispAnswer μ)) (h : LispHeap μ)
    (hrun : lispRun w version (plainEval fs) ⟨[], []⟩ () ops = .ok (xs, h, ()))
    (i idx : Nat) (t : Trace) (m : μ) (only : Option Nat)
    (hfind : (SpecHeap.after w.env ⟨[], []⟩ ops).find i idx = some (t, m, only))
    (names : List Nat) (s : SExp) (f : Form) (ph : PHeap) (hf : SexpPredicate names s f)
    (varTypes : List (List (List U8))) (hvl : names.length = varTypes.length) (hl : names.length < 2 ^ 64)
    (hne : varTypes ≠ []) (hknown : ∀ ts ∈ varTypes, ∀ n ∈ ts, (runOf m).header.HasType n) (file : Option Nat)
    (hfile : ∀ i, file.or only = some i → i < 2 ^ 23) (filter : Option (LPoint → Bool))
    (hq : ∀ l ∈ (runOf m).threads, ∀ v ∈ l, ∀ l, v.Shown (instrumentationFiles (runOf m).evolve) l → l.Manageable varTypes) :
    ∃ shown ps ptr ph' p rs h₁ h₂,
      (runOf m).Passed (complete m) shown ∧
      AllRel (ProjVisit.Shown (instrumentationFiles (runOf m).evolve)) shown ps ∧
      lispStep w version (plainEval fs) h () (.get i idx file) = .ok (.trace (ofFile (file.or only) ps) m, h₁, ()) ∧
      buildPredicate names s ph = some (ptr, ph') ∧ createPredicateObj ph' ptr = .ok p ∧
      lispStep w version (plainEval fs) h () (.query i idx ⟨varTypes, p, [], 0, file, filter⟩) =
        .ok (.results rs (some m), h₂, ()) ∧
      (∀ r ∈ rs, ShownAnswers fs ps varTypes (file.or only) filter f r) ∧
      (filter = none → ∀ a, ShownAnswers fs ps varTypes (file.or only) filter f a → ∃ r ∈ rs, exactKey r = exactKey a) ∧
      (filter ≠ none → (∀ a, ShownAnswers fs ps varTypes (file.or only) filter f a → ∃ r ∈ rs, foldedKey r = foldedKey a) ∧
        rs.Pairwise fun a b => foldedKey a ≠ foldedKey b) := by
  obtain ⟨l, hl', hx⟩ : ∃ l ∈ (SpecHeap.after w.env ⟨[], []⟩ ops).dbs, (t, m) ∈ l := by
    have hfind := hfind
    unfold SpecHeap.find at hfind
    split at hfind
    · cases hfind
    · split at hfind
      · cases hfind
      · rename_i l hl'
        obtain ⟨x, hx, e⟩ := Option.map_eq_some_iff.mp hfind
        cases e
        exact ⟨l, List.mem_of_getElem? hl', List.mem_of_getElem? hx⟩
  rcases stored_from w.env ops ⟨[], []⟩ l hl' (t, m) hx with ⟨_, h0, _⟩ | ⟨j, a, ha, hst⟩
  · cases h0
  · obtain ⟨io, bytes, m', rfl, hb, hleaves⟩ := hadds j a ha
    obtain ⟨a', ha', e⟩ := List.mem_filterMap.mp hst
    rw [List.mem_singleton.mp ha'] at e
    obtain ⟨t', ht', e⟩ := Option.map_eq_some_iff.mp e
    have e1 : t' = t := congrArg Prod.fst e
    have e2 : m' = m := congrArg Prod.snd e
    subst e1 e2
    have hread : readTrace w.env (runOf m').limit ⟨bytes, io, .good⟩ = .ok t' := by
      revert ht'
      simp only [LispAdd.stores]
      cases readTrace w.env (runOf m').limit ⟨bytes, io, .good⟩ with
      | ok x => intro h; cases h; rfl
      | _ => intro h; cases h
    rcases run_read fs w.env w.pick io cf mem (runOf m') (complete m') bytes hb hleaves hal henv names s f ph hf varTypes hvl hl
      hne hknown (file.or only) hfile filter hq with ⟨bad, _⟩ | ⟨t2, shown, ps, ptr, ph', p, rs, c, r1, r2, r3, r4, r5, r6, r7, r8⟩
    · rw [hread] at bad
      cases bad
    · rw [hread] at r1
      cases r1
      obtain ⟨h₁, g1⟩ := step_after hv hd hs hrun (.get i idx file) (fun _ => rfl) (fun _ => trivial)
        (x := .trace (ofFile (file.or only) ps) m') (s'' := ()) (by
          simp only [SpecHeap.answer, hfind]
          have : lispGetTrace t' (file.or only) = .ok (ofFile (file.or only) ps) := by
            unfold lispGetTrace at r3 ⊢
            cases hps : lispPoints t' t'.points with
            | ok qs =>
              rw [hps] at r3
              simp only [Res.ok_bind, Res.pure_eq, ofFile] at r3
              cases r3
              rfl
            | _ => rw [hps] at r3; cases r3
          rw [this]
          rfl)
      obtain ⟨h₂, g2⟩ := step_after hv hd hs hrun (.query i idx ⟨varTypes, p, [], 0, file, filter⟩) (fun _ => rfl) (fun _ => trivial)
        (x := .results rs (some m')) (s'' := ()) (by
          simp only [SpecHeap.answer, hfind]
          rw [r7]
          rfl)
      exact ⟨shown, ps, ptr, ph', p, rs, h₁, h₂, r2, r4, g1, r5, r6, g2, r8⟩

/-- **C102, complete runs.**  All files left by runs that ended without loss are kept: after adding
them to a new database, it has one trace for each of them, in this order. -/
theorem C102_kept {μ : Type} (env : Env) (cf : CFloat) (mem : CMem) (runOf : μ → ProjRun) (complete : μ → Prop)
    (hal : ∀ n, env.canAlloc n = true) (henv : env.junk.isSome = true) (adds : List (LispAdd μ))
    (hadds : ∀ a ∈ adds, a.OfRun cf mem runOf complete) (hc : ∀ a ∈ adds, complete a.meta) (idx : Nat) :
    ((SpecHeap.after env ⟨[], []⟩ (.create :: adds.map (.add 0))).find 0 idx).map (fun x => (x.2.1, x.2.2)) =
      adds[idx]?.map fun a => (a.meta, none) := by
  rw [after_adds]
  simp only [SpecHeap.find, List.getElem?_cons_zero, Option.map_map]
  have hkeep : (storedWith env adds).map (·.2) = adds.map LispAdd.meta := by
    refine storedWith_all fun a ha => ?_
    obtain ⟨io, bytes, m, rfl, hb, hleaves⟩ := hadds a ha
    rcases run_whole env io cf mem (runOf m) (complete m) bytes hb hleaves hal henv (hc _ ha) with ⟨t, ht⟩
    exact ⟨t, by simp only [LispAdd.stores, ht]⟩
  have h1 : (storedWith env adds)[idx]?.map (·.2) = adds[idx]?.map LispAdd.meta := by
    rw [← List.getElem?_map, ← List.getElem?_map, hkeep]
  have h2 := congrArg (Option.map fun m => (m, (none : Option Nat))) h1
  rw [Option.map_map, Option.map_map] at h2
  exact h2

/-! Three files left by the program of C101: a complete one (metadata 0), one whose last two bytes
are lost, read with a limit of two points (1) and without a limit (2).  The last cannot be read.  The
database is copied, the copy restricted to file 1. -/

def rdWorld : World := ⟨(2 * ·), exEnv, fun _ _ => 0⟩
def rdRun (m : Nat) : ProjRun := ⟨[piMain, piX, piYs], [], piOuts, piHeaderY, tpThreads, if m = 1 then 2 else 0⟩
def rdComplete (m : Nat) : Prop := m = 0
def rdHeader : List U8 :=
  match writeTraceHeader piHeaderY.names (piHeaderY.types.map TypeRow.desc) with
  | .ok b => b
  | _ => []
def rdEnd : RtState :=
  match (RtState.init rdHeader tpActs).run tpSched with
  | .ok s => s
  | _ => RtState.init [] []
def rdBytes (m : Nat) : List U8 := rdEnd.out.take (rdEnd.out.length - if m = 0 then 0 else 2)
def rdAdd (m : Nat) : ObjOp Nat := .add 0 (.trace (some (gs false (rdBytes m))) (rdRun m).limit m)
def rdOps : List (ObjOp Nat) := [.create, rdAdd 0, rdAdd 1, rdAdd 2, .copy 0, .restrict 1 1]
def rdTrace (m : Nat) : Trace :=
  match readTrace exEnv (rdRun m).limit (gs false (rdBytes m)) with
  | .ok t => t
  | _ => ⟨[], [], []⟩

theorem rd_run : writeTraceHeader piHeaderY.names (piHeaderY.types.map TypeRow.desc) = .ok rdHeader ∧
    (RtState.init rdHeader tpActs).run tpSched = .ok rdEnd ∧ rdEnd.threads = [[], []] := by decide +kernel

theorem rd_after : SpecHeap.after rdWorld.env ⟨[], []⟩ rdOps =
    ⟨[[(rdTrace 0, 0), (rdTrace 1, 1)], [(rdTrace 0, 0), (rdTrace 1, 1)]], [(0, none), (1, none), (1, some 1)]⟩ := by
  decide +kernel

theorem rd_built (m : Nat) : (rdRun m).Built := by
  obtain ⟨h1, h2, h3, h4, _, _, h5, _⟩ := pi_case
  obtain ⟨_, _, h6, _⟩ := tp_case
  exact ⟨h1, show [piMain, piX, piYs].length ≤ 2 ^ 23 by decide, ⟨_, h3, h4⟩, h5, .inl h6, h2⟩

theorem rd_leaves (m : Nat) : (rdRun m).Leaves exFloat exMem (rdComplete m) (rdBytes m) := by
  obtain ⟨h1, h2, _, h3, _⟩ := tp_case
  obtain ⟨r1, r2, r3⟩ := rd_run
  refine ⟨h1, tpCalls, tpActs, tpSched, rdHeader, (rdBytes m).drop rdHeader.length, rdEnd, h2, h3, r1, r2, ?_,
    List.take_prefix .., ?_⟩
  · have : ∀ m, m = 0 ∨ m = 1 → rdBytes m = rdHeader ++ (rdBytes m).drop rdHeader.length := by
      rintro m (rfl | rfl) <;> decide +kernel
    by_cases hm : m = 0
    · exact this m (.inl hm)
    · have e : rdBytes m = rdBytes 1 := by simp [rdBytes, hm]
      rw [e]
      exact this 1 (.inr rfl)
  · rintro rfl
    refine ⟨fun l hl => ?_, by simp [rdBytes]⟩
    rw [r3] at hl
    simpa using hl

/-- The hypotheses of `C102_queries` hold for it. -/
theorem rd_case : (∀ i a, ObjOp.add i a ∈ rdOps → a.OfRun exFloat exMem rdRun rdComplete) ∧
    (∀ op ∈ rdOps, op.Direct (SpecHeap.after rdWorld.env ⟨[], []⟩ rdOps)) ∧
    (SpecHeap.after rdWorld.env ⟨[], []⟩ rdOps).Small ∧
    (SpecHeap.after rdWorld.env ⟨[], []⟩ rdOps).find 2 1 = some (rdTrace 1, 1, some 1) := by
  refine ⟨?_, ?_, ?_, ?_⟩
  · intro i a ha
    simp only [rdOps, List.mem_cons, List.not_mem_nil, or_false, rdAdd] at ha
    rcases ha with ha | ha | ha | ha | ha | ha <;> cases ha <;>
      exact ⟨false, _, _, rfl, rd_built _, rd_leaves _⟩
  · rw [rd_after]
    intro op hop
    simp only [rdOps, List.mem_cons, List.not_mem_nil, or_false] at hop
    rcases hop with rfl | rfl | rfl | rfl | rfl | rfl <;> simp [ObjOp.Direct, LispAdd.isFile, rdAdd]
  · rw [rd_after]
    have h0 : (rdTrace 0).Counts := by
      refine ⟨by decide +kernel, by decide +kernel, by decide +kernel, by decide +kernel, by decide +kernel,
        by decide +kernel, by decide +kernel⟩
    have h1 : (rdTrace 1).Counts := by
      refine ⟨by decide +kernel, by decide +kernel, by decide +kernel, by decide +kernel, by decide +kernel,
        by decide +kernel, by decide +kernel⟩
    refine ⟨by decide +kernel, by decide +kernel, ?_⟩
    generalize rdTrace 0 = t₀ at h0 ⊢
    generalize rdTrace 1 = t₁ at h1 ⊢
    intro l hl x hx
    simp only [List.mem_cons, List.not_mem_nil, or_false] at hl
    rcases hl with rfl | rfl <;>
    · simp only [List.mem_cons, List.not_mem_nil, or_false] at hx
      rcases hx with rfl | rfl
      · exact h0
      · exact h1
  · rw [rd_after]
    simp only [SpecHeap.find, List.getElem?_cons_succ, List.getElem?_cons_zero, Option.map_some]

/-- The second trace through the restriction: the statement of file 1 is shown, the first of the two
points read; through the first object, both are. -/
example : (lispRun rdWorld 17 (plainEval exFloats) ⟨[], []⟩ ()
      (rdOps ++ [.get 2 1 none, .get 0 1 none, .get 1 0 none]) >>= fun r => .ok ((r.1.drop 6).map fun x =>
        match x with | .trace ps m => (ps, m) | _ => ([], 9))) =
    .ok [([tpPointY], 1), ([tpPointY, tpPointX], 1), ([tpPointY, tpPointX, tpPointX], 0)] := by decide +kernel

/-- The hypotheses of `C102_kept` hold for two complete files. -/
example : let a : LispAdd Nat := .trace (some (gs false (rdBytes 0))) 0 0
    (∀ x ∈ [a, a], x.OfRun exFloat exMem rdRun rdComplete) ∧ ∀ x ∈ [a, a], rdComplete x.meta := by
  refine ⟨?_, by simp [rdComplete, LispAdd.meta]⟩
  intro x hx
  simp only [List.mem_cons, List.not_mem_nil, or_false, or_self] at hx
  subst hx
  exact ⟨false, _, 0, rfl, rd_built _, rd_leaves _⟩

end TraceDB
