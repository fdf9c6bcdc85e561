import Verif.Proofs.Uninstrument
import Verif.Props.Statements
/-
C67: removing the instrumentation.
-/
namespace TraceDB

theorem pthreadFlag_eq : pthreadFlag = linkFlag := by decide +kernel

/-- **C67, files.**  Removing the instrumentation of a file gives back the file as it was
before, whatever filter, ids and functions were used: the same tree, also where blocks
had been put around branches and bodies, one inside the other, and no setup code.
Only the compiler flag stays. -/
theorem C67_restored (after : Bool) (ids : Nat → Nat) (filter : Nat → Bool) (f : CFile) (h : f.Fresh) :
    (f.instrument after ids filter).uninstrument = { f with flags := f.flags ++ [linkFlag] } := by
  obtain ⟨root, setup, main, flags, mentions⟩ := f
  have hs : setup = [] := h.setup
  subst hs
  simp only [CFile.uninstrument, CFile.instrument, CFile.addSetup]
  rw [root_restored after ids filter root h.plain h.braces, pthreadFlag_eq]

/-- **C67, nothing to remove.**  A file that was not instrumented is not changed. -/
theorem C67_unchanged (f : CFile) (h : f.Fresh) : f.uninstrument = f := by
  have hr : instrumentBody false id (fun _ => false) f.root = f.root := by
    have : tracedSites (fun _ => false) f.root = [] := by
      rw [tracedSites, List.filter_eq_nil_iff]
      simp
    rw [instrumentBody, this, sortedSites, List.mergeSort_nil, List.foldl_nil]
  have := root_restored false id (fun _ => false) f.root h.plain h.braces
  rw [hr] at this
  obtain ⟨root, setup, main, flags, mentions⟩ := f
  have hs : setup = [] := h.setup
  subst hs
  simp only [CFile.uninstrument]
  rw [this]

/-- **C67, test.**  `instrumented-p` holds after instrumenting and not after removing the
instrumentation, unless the source itself has the name of the log variable in it. -/
theorem C67_instrumented_p (after : Bool) (ids : Nat → Nat) (filter : Nat → Bool) (f : CFile) (h : f.Fresh) :
    (f.instrument after ids filter).instrumentedP = true ∧
    (f.instrument after ids filter).uninstrument.instrumentedP = f.mentions ∧ f.instrumentedP = f.mentions := by
  refine ⟨?_, ?_, ?_⟩
  · simp [CFile.instrument, CFile.addSetup, CFile.instrumentedP]
  · simp [CFile.uninstrument, CFile.instrument, CFile.addSetup, CFile.instrumentedP]
  · simp [CFile.instrumentedP, h.setup]

/-- **C67, flags.**  The flag is left each time: after `n` rounds there are `n` of them. -/
theorem C67_flags_left (after : Bool) (ids : Nat → Nat) (filter : Nat → Bool) (n : Nat) (f : CFile) (h : f.Fresh) :
    instrumentCycles after ids filter n f = { f with flags := f.flags ++ List.replicate n linkFlag } := by
  induction n generalizing f with
  | zero => simp [instrumentCycles]
  | succ n ih =>
    rw [instrumentCycles, C67_restored after ids filter f h,
      ih { f with flags := f.flags ++ [linkFlag] } ⟨h.plain, h.braces, h.setup⟩, List.replicate_succ]
    simp

/-- **C67, projects.**  All evolve files of a project are restored, but for the flag; of the
other files, those with a `main` keep their setup code. -/
theorem C67_project (after : Bool) (ids : CFile → Nat → Nat) (filter : CFile → Nat → Bool) (p : CProject)
    (h : ∀ f ∈ p.evolve, f.Fresh) :
    (p.instrument after ids filter).uninstrument =
      ⟨p.evolve.map fun f => { f with flags := f.flags ++ [linkFlag] },
       p.other.map fun f => if f.main then f.addSetup else f⟩ := by
  simp only [CProject.instrument, CProject.uninstrument, List.map_map]
  congr 1
  apply List.map_congr_left
  intro f hf
  exact C67_restored after (ids f) (filter f) f (h f hf)

/-- **C67, other files.**  So a project whose `main` is in no evolve file still has the code
that waits for the handshake and writes the header, although `instrumented-p` does not
hold for it. -/
theorem C67_other_files_left (after : Bool) (ids : CFile → Nat → Nat) (filter : CFile → Nat → Bool) (p : CProject)
    (h : ∀ f ∈ p.evolve, f.Fresh) (hm : ∀ f ∈ p.evolve, f.mentions = false) (f : CFile) (hf : f ∈ p.other)
    (hmain : f.main = true) :
    (p.instrument after ids filter).uninstrument.instrumentedP = false ∧
    ∃ g ∈ (p.instrument after ids filter).uninstrument.other, .initialization ∈ g.setup := by
  rw [C67_project after ids filter p h]
  refine ⟨?_, f.addSetup, ?_, ?_⟩
  · simp only [CProject.instrumentedP, List.any_map, List.any_eq_false, Function.comp_apply]
    intro g hg
    simp [CFile.instrumentedP, hm g hg, (h g hg).setup]
  · exact List.mem_map.mpr ⟨f, hf, by simp [hmain]⟩
  · simp [CFile.addSetup, hmain]

/-! An example -/

/-- `{ while (c0) if (c1) f(); else do f(); while (c2); }` in a function in a file. -/
def unBody : Ast :=
  .mk .block [123] [] [] [stOf (.whileLoop 0) [stExpr, stOf (.ite 1) [stExpr, stAct 5,
    stOf (.doLoop 2) [stAct 7, stExpr]]]]
def unFile : CFile := ⟨stOf .expr [stOf .expr [stExpr, unBody]], [], true, [], false⟩

/-- It is as parsed; it is instrumented with four blocks, one inside the other. -/
example : unFile.root.plain = true ∧ unFile.root.bracesShown = true ∧ unFile.setup = [] := by decide +kernel

example : wrapperPaths (instrumentBody true id (fun _ => true) unFile.root) =
    [[0, 1, 0, 1], [0, 1, 0, 1, 0, 1], [0, 1, 0, 1, 0, 2], [0, 1, 0, 1, 0, 2, 0, 0]] := by
  rw [unFile, stOf, instrumentBody_edited]
  decide +kernel

/-- A project with a library as evolve file and another file with `main`. -/
example : (∀ f ∈ ([{ unFile with main := false }] : List CFile), f.Fresh ∧ f.mentions = false) := by
  intro f hf
  simp only [List.mem_singleton] at hf
  subst hf
  exact ⟨⟨by decide +kernel, by decide +kernel, rfl⟩, rfl⟩

end TraceDB
