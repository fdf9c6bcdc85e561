import Verif.Proofs.ParallelInstrument
import Verif.Props.ProjectText
import Verif.Props.Programs
/-
C100: projects instrumented by several threads.
-/
namespace TraceDB

/-- **C100.**  Instrument a project with any threads in any order in which they finish and at
most one of them at a time is between finding that a name or type is missing and storing it.
Then C99 holds for the result: the trace of a program shows the statements passed with the
values of their variables, and queries answer about them. -/
theorem C100_queries (fs : FloatSys) (env : Env) (pick : U32 → Nat → Nat) (io : Bool) (cf : CFloat) (mem : CMem)
    (evolve other : List ProjFile) (hok : ∀ f ∈ evolve, f.Ok) (hlen : evolve.length ≤ 2 ^ 23)
    (sched : List Nat) (project : ProjResult) (hp : instrumentParallel evolve other sched = some project)
    (hstore : OneStoring .equalp (projectThreads evolve) Tables.empty sched)
    (visits : List ProjVisit)
    (calls : List (U64 × List RtCall)) (hal : ∀ n, env.canAlloc n = true)
    (hfit : ∀ v ∈ visits, v.Fits cf (instrumentationFiles evolve))
    (hruns : AllRel (ProjVisit.RunsAs cf mem (project.plain ++ project.mains)) visits calls)
    (h : ProjHeader) (hs : h.Small)
    (hmain : (∃ (p : Nat) (o : ProjOut), (project.plain ++ project.mains)[p]? = some o ∧
        o.header = some h ∧ ∀ v ∈ visits, v.file ≤ p) ∨ some h ∈ project.others)
    (hone : OneTypePerFoldedName evolve)
    (names : List Nat) (s : SExp) (f : Form) (ph : PHeap) (hf : SexpPredicate names s f)
    (varTypes : List (List (List U8))) (hvl : names.length = varTypes.length) (hl : names.length < 2 ^ 64)
    (hne : varTypes ≠ []) (hknown : ∀ ts ∈ varTypes, ∀ n ∈ ts, h.HasType n) (file : Option Nat)
    (hfile : ∀ i, file = some i → i < 2 ^ 23) (filter : Option (LPoint → Bool))
    (hq : ∀ v ∈ visits, ∀ l, v.Shown (instrumentationFiles evolve) l → l.Manageable varTypes) :
    ∃ bs t ps ptr ph' p rs c,
      rtRun cf mem h.names (h.types.map TypeRow.desc) calls = .ok bs ∧ readTrace env 0 (gs io bs) = .ok t ∧
      lispGetTrace t none = .ok ps ∧ AllRel (ProjVisit.Shown (instrumentationFiles evolve)) visits ps ∧
      buildPredicate names s ph = some (ptr, ph') ∧ createPredicateObj ph' ptr = .ok p ∧
      lispQuery env pick (plainEval fs) t ⟨varTypes, p, [], 0, file, filter⟩ [] () = .ok (rs, c, ()) ∧
      (∀ r ∈ rs, ShownAnswers fs ps varTypes file filter f r) ∧
      (filter = none → ∀ a, ShownAnswers fs ps varTypes file filter f a → ∃ r ∈ rs, exactKey r = exactKey a) ∧
      (filter ≠ none → (∀ a, ShownAnswers fs ps varTypes file filter f a → ∃ r ∈ rs, foldedKey r = foldedKey a) ∧
        rs.Pairwise fun a b => foldedKey a ≠ foldedKey b) := by
  have hperm := (C65_files evolve).1
  have hone' : OneTypePerFoldedName (instrumentationFiles evolve) := fun x hx s hs part hp v hv y hy =>
    hone x (hperm.mem_iff.mp hx) s hs part hp v hv y (hperm.mem_iff.mp hy)
  have hok' : ∀ f ∈ instrumentationFiles evolve, f.Ok := fun f hf => hok f (hperm.mem_iff.mp hf)
  have hlen' : (instrumentationFiles evolve).length ≤ 2 ^ 23 := by rw [hperm.length_eq]; exact hlen
  obtain ⟨k, rs, told, hmv⟩ := parallel_main hok hlen hp hstore h visits (fun v hv => by
    obtain ⟨c, _, o, g, ho, _⟩ := hruns.mem_left v hv
    exact (List.getElem?_eq_some_iff.mp ho).1) hmain
  exact told_queries fs env pick io cf mem told hok' hlen' hs visits calls hruns hmv hfit hal hone' names s f ph hf
    varTypes hvl hl hne hknown file hfile filter hq

theorem projectThreads_eq (evolve : List ProjFile) : projectThreads evolve =
    ((evolve.filter fun f => !f.main).zipIdx.map fun f => sitesReq (f.1.sites f.2)).map fun p => ⟨p, .start⟩ := by
  unfold projectThreads
  rw [List.map_map]
  rfl

theorem instrumentParallel_eq (evolve other : List ProjFile) (sched : List Nat) :
    instrumentParallel evolve other sched =
      match threadResults (runTabThreads .equalp (projectThreads evolve) Tables.empty sched).1 with
      | none => none
      | some gens =>
        let m := instrumentFiles .equalp ((instrumentationFiles evolve).zipIdx.filter fun f => f.1.main)
          (runTabThreads .equalp (projectThreads evolve) Tables.empty sched).2
        some ⟨gens.map fun g => ⟨g, none⟩, m.1, other.map fun f => initTracing .equalp f.main m.2⟩ := by
  unfold instrumentParallel projectThreads
  simp only [(instrumentationFiles_filter evolve).1]
  generalize runTabThreads .equalp _ _ _ = r
  cases threadResults r.1 <;> rfl

/-- **C100, in turn.**  Every project can be instrumented so, and one file after the other is
such a way: the result is that without threads (C65). -/
theorem C100_in_turn (evolve other : List ProjFile) :
    ∃ sched, OneStoring .equalp (projectThreads evolve) Tables.empty sched ∧
      instrumentParallel evolve other sched = some (instrumentProject evolve other) := by
  obtain ⟨sched, h1, h2⟩ := run_in_turn .equalp
    ((evolve.filter fun f => !f.main).zipIdx.map fun f => sitesReq (f.1.sites f.2)) [] Tables.empty (by simp)
  rw [List.nil_append, ← projectThreads_eq] at h1 h2
  refine ⟨sched, h2, ?_⟩
  obtain ⟨g1, g2⟩ := runEach_files .equalp (evolve.filter fun f => !f.main).zipIdx Tables.empty (by
    intro f hf
    have := (List.mem_filter.mp (List.fst_mem_of_mem_zipIdx hf)).2
    simpa using this)
  rw [instrumentParallel_eq, h1, List.nil_append, threadResults_done]
  simp only [g1, g2]
  unfold instrumentProject
  simp only [(instrumentationFiles_filter evolve).1]

/-- **C100, one file.**  If there is at most one file without `main`, all orders are such. -/
theorem C100_one_file (evolve : List ProjFile) (h : (evolve.filter fun f => !f.main).length ≤ 1) (sched : List Nat) :
    OneStoring .equalp (projectThreads evolve) Tables.empty sched := by
  have key : ∀ (sched : List Nat) (ts : List (TabThread (List GenSite))) (s : Tables),
      (runTabThreads .equalp ts s sched).1.length = ts.length := by
    intro sched
    induction sched with
    | nil => intro ts s; rfl
    | cons i sched ih =>
      intro ts s
      rw [runTabThreads]
      split
      · exact ih _ _
      · rw [ih, List.length_set]
  intro n i j a b ha hb _ _
  have h1 := (List.getElem?_eq_some_iff.mp ha).1
  have h2 := (List.getElem?_eq_some_iff.mp hb).1
  have h3 : (projectThreads evolve).length ≤ 1 := by
    unfold projectThreads
    rw [List.length_map, List.length_zipIdx]
    exact h
  rw [key] at h1 h2
  omega

/-- **C100, any order.**  In any order in which all threads finish, the code generated for files
without `main` is that without threads except for the indices of names and types: the same
statements and files, and the same variables with the same formats and sizes in the same order. -/
theorem C100_up_to_indices (evolve other : List ProjFile) (sched : List Nat) (project : ProjResult)
    (hp : instrumentParallel evolve other sched = some project) :
    project.plain.map ProjOut.unnumbered = (instrumentProject evolve other).plain.map ProjOut.unnumbered := by
  have hpaths : AllRel (fun p (t : TabThread (List GenSite)) => ReqProg.Path (fun _ _ => True) p t.prog)
      ((evolve.filter fun f => !f.main).zipIdx.map fun f => sitesReq (f.1.sites f.2)) (projectThreads evolve) := by
    rw [projectThreads_eq]
    exact AllRel.map_right (AllRel.self fun p _ => .refl _)
  replace hpaths := run_paths (te := .equalp) sched _ Tables.empty hpaths
  rw [instrumentParallel_eq] at hp
  generalize (runTabThreads .equalp (projectThreads evolve) Tables.empty sched) = R at hp hpaths
  cases hres : threadResults R.1 with
  | none => rw [hres] at hp; cases hp
  | some gens =>
  rw [hres] at hp
  simp only [Option.some.injEq] at hp
  subst hp
  have htold : AllRel (ReqProg.Told fun _ _ => True)
      ((evolve.filter fun f => !f.main).zipIdx.map fun f => sitesReq (f.1.sites f.2)) gens := by
    exact AllRel.comp hpaths (threadResults_rel hres) fun p t a h e => by rw [e] at h; exact h.told
  have hseq : (instrumentProject evolve other).plain =
      (instrumentFiles .equalp (evolve.filter fun f => !f.main).zipIdx Tables.empty).1 := by
    unfold instrumentProject
    simp only [(instrumentationFiles_filter evolve).1]
  rw [hseq, ← (runEach_files .equalp _ Tables.empty (by
    intro f hf
    have := (List.mem_filter.mp (List.fst_mem_of_mem_zipIdx hf)).2
    simpa using this)).1]
  have := AllRel.of_map_left htold
  clear htold hres hpaths hseq
  generalize (evolve.filter fun f => !f.main).zipIdx = zs at *
  generalize Tables.empty = s
  induction this generalizing s with
  | nil => rfl
  | cons h1 h2 ih =>
    simp only [List.map_cons, runEach, List.map_map] at ih ⊢
    rw [ih]
    rw [sitesReq_shape _ _ _ h1 (ReqProg.run_told .equalp _ s)]

/-! Two files without `main`. -/

def piY : ScopeVar := { insX with name := ascii "y" }
def piL : ScopeVar := ⟨ascii "l", ⟨[], [⟨.base, ascii "long"⟩, ⟨.base, ascii "int"⟩]⟩, 0⟩
def piMain : ProjFile := ⟨ascii "a.c", true, []⟩
def piX : ProjFile := ⟨ascii "b.c", false, [(1, [(false, [insX])])]⟩
def piYs : ProjFile := ⟨ascii "c.c", false, [(2, [(false, [piY])])]⟩
def piLs : ProjFile := ⟨ascii "c.c", false, [(2, [(false, [piL])])]⟩
def piEnv : CEnv := ⟨fun n => if n = ascii "l" then .signed .eight 5 else .signed .four 5, fun _ => []⟩
def piCallY : U64 × List RtCall := (BitVec.ofNat 64 (packId (some 1) 2), [.variables 1 [.gp 1, .gp 0, .gp 4, .gp 1, .gp 5]])
def piCallL : U64 × List RtCall := (BitVec.ofNat 64 (packId (some 1) 2), [.variables 1 [.gp 3, .gp 0, .gp 8, .gp 1, .gp 5]])
def piHeaderY : ProjHeader := ⟨[ascii "int", ascii "x", ascii "y"], endRows⟩
def piHeaderL : ProjHeader := ⟨[ascii "int", ascii "long int", ascii "x", ascii "l"], [⟨0, .signed, 4⟩, ⟨0, .signed, 8⟩]⟩

theorem piX_ok : insX.Ok := ⟨⟨by simp [insX], fun s hs => Specifier.plain_of (by revert s; decide +kernel)⟩, by decide +kernel,
  by decide +kernel⟩
theorem piY_ok : piY.Ok := ⟨⟨by simp [piY, insX], fun s hs => Specifier.plain_of (by revert s; decide +kernel)⟩, by decide +kernel,
  by decide +kernel⟩
theorem piL_ok : piL.Ok := ⟨⟨by simp [piL], fun s hs => Specifier.plain_of (by revert s; decide +kernel)⟩, by decide +kernel,
  by decide +kernel⟩

theorem pi_oks {f : ProjFile} (hf : f = piYs ∨ f = piLs) : ∀ x ∈ [piMain, piX, f], x.Ok := by
  intro x hx
  simp only [List.mem_cons, List.not_mem_nil, or_false] at hx
  rcases hx with rfl | rfl | rfl
  · exact ⟨by simp [piMain], by simp [piMain], by simp [piMain]⟩
  · exact ⟨by simp [piX, piX_ok], by simp [piX], by simp [piX]⟩
  · rcases hf with rfl | rfl
    · exact ⟨by simp [piYs, piY_ok], by simp [piYs], by simp [piYs]⟩
    · exact ⟨by simp [piLs, piL_ok], by simp [piLs], by simp [piLs]⟩

theorem pi_one {f : ProjFile} (hf : f = piYs ∨ f = piLs) : OneTypePerFoldedName [piMain, piX, f] := by
  have hall : ∀ x ∈ [piMain, piX, f], ∀ s ∈ x.stmts, ∀ part ∈ s.2, part.1 = false := by
    intro x hx s hs part hp
    simp only [List.mem_cons, List.not_mem_nil, or_false] at hx
    rcases hx with rfl | rfl | rfl
    · simp [piMain] at hs
    · rw [List.mem_singleton.mp hs] at hp
      rw [List.mem_singleton.mp hp]
    · rcases hf with rfl | rfl <;> rw [List.mem_singleton.mp hs] at hp <;> rw [List.mem_singleton.mp hp]
  have hno : ∀ v : ScopeVar, ¬ v.AsText false := by
    rintro v ⟨h, _⟩
    exact absurd h (by simp)
  intro x hx s hs part hp v hv y hy s' hs' part' hp' w hw _ _ _
  rw [hall x hx s hs part hp, hall y hy s' hs' part' hp']
  exact ⟨⟨fun h => absurd h (hno v), fun h => absurd h (hno w)⟩, fun h => absurd h (hno v)⟩

/-- **C100, the race on names.**  In some order, two files without `main` get the same index for
different variables: a run through the statement of `c.c` with `y = 5` is shown as `x = 5`. -/
theorem C100_wrong_name : ∃ (sched : List Nat) (project : ProjResult) (h : ProjHeader),
    (∀ f ∈ [piMain, piX, piYs], f.Ok) ∧ OneTypePerFoldedName [piMain, piX, piYs] ∧
    instrumentParallel [piMain, piX, piYs] [] sched = some project ∧ project.mains.map (·.header) = [some h] ∧
    piY.name = ascii "y" ∧ ProjVisit.RunsAs exFloat exMem (project.plain ++ project.mains) ⟨1, 0, piEnv⟩ piCallY ∧
    ∃ bs t, rtRun exFloat exMem h.names (h.types.map TypeRow.desc) [piCallY] = .ok bs ∧ readTrace exEnv 0 (gs false bs) = .ok t ∧
      lispGetTrace t none = .ok [⟨2, some 1, [⟨ascii "x", ascii "int", .int 5, none⟩], []⟩] := by
  have c : ∀ (w : U64) (v : U32), w.setWidth 32 = v → (Slot.gp w).Carries32 v := fun _ _ h => Slot.carries h
  refine ⟨List.replicate 7 0 ++ [1] ++ [0, 1, 0, 1, 0, 1],
    ⟨[⟨[⟨packId (some 0) 1, [.variables [⟨1, 0, 4, .signed, insX⟩]]⟩], none⟩,
      ⟨[⟨packId (some 1) 2, [.variables [⟨1, 0, 4, .signed, piY⟩]]⟩], none⟩], [⟨[], some piHeaderY⟩], []⟩, piHeaderY,
    pi_oks (.inl rfl), pi_one (.inl rfl), by decide +kernel, rfl, rfl,
    ⟨_, _, rfl, rfl, rfl, .cons ⟨_, _, rfl, rfl, ?_⟩ .nil⟩, ?_⟩
  · exact .cons (l := [_, _, _, _, _]) ⟨_, _, _, _, _, rfl, c _ _ (by decide), c _ _ (by decide), c _ _ (by decide),
      c _ _ (by decide), c _ _ (by decide)⟩ .nil
  · have h : (rtRun exFloat exMem piHeaderY.names (piHeaderY.types.map TypeRow.desc) [piCallY] >>= fun bs =>
        readTrace exEnv 0 (gs false bs) >>= fun t => lispGetTrace t none) =
        .ok [⟨2, some 1, [⟨ascii "x", ascii "int", .int 5, none⟩], []⟩] := by decide +kernel
    obtain ⟨bs, h1, h⟩ := Res.bind_eq_ok.mp h
    obtain ⟨t, h2, h⟩ := Res.bind_eq_ok.mp h
    exact ⟨bs, t, h1, h2, h⟩

/-- **C100, the race on types.**  In some order, two files without `main` get the same index for
different types: a run through one statement of `c.c`, with `l = 5` of type `long int`, leaves a
trace of five points, with `l` of type `int` and four points of a statement that does not exist. -/
theorem C100_invented_points : ∃ (sched : List Nat) (project : ProjResult) (h : ProjHeader),
    (∀ f ∈ [piMain, piX, piLs], f.Ok) ∧ OneTypePerFoldedName [piMain, piX, piLs] ∧
    instrumentParallel [piMain, piX, piLs] [] sched = some project ∧ project.mains.map (·.header) = [some h] ∧
    typeTraceString piL.type = ascii "long int" ∧
    ProjVisit.RunsAs exFloat exMem (project.plain ++ project.mains) ⟨1, 0, piEnv⟩ piCallL ∧
    ∃ bs t, rtRun exFloat exMem h.names (h.types.map TypeRow.desc) [piCallL] = .ok bs ∧ readTrace exEnv 0 (gs false bs) = .ok t ∧
      lispGetTrace t none = .ok (⟨2, some 1, [⟨ascii "l", ascii "int", .int 5, none⟩], []⟩ :: List.replicate 4 ⟨0, none, [], []⟩) := by
  have c : ∀ (w : U64) (v : U32), w.setWidth 32 = v → (Slot.gp w).Carries32 v := fun _ _ h => Slot.carries h
  refine ⟨(List.replicate 8 [0, 1]).flatten ++ [0, 0, 0, 0, 0, 0, 0, 0, 1, 1, 1, 1, 1, 1, 1],
    ⟨[⟨[⟨packId (some 0) 1, [.variables [⟨2, 0, 4, .signed, insX⟩]]⟩], none⟩,
      ⟨[⟨packId (some 1) 2, [.variables [⟨3, 0, 8, .signed, piL⟩]]⟩], none⟩], [⟨[], some piHeaderL⟩], []⟩, piHeaderL,
    pi_oks (.inr rfl), pi_one (.inr rfl), by decide +kernel, rfl, by decide +kernel,
    ⟨_, _, rfl, rfl, rfl, .cons ⟨_, _, rfl, rfl, ?_⟩ .nil⟩, ?_⟩
  · exact .cons (l := [_, _, _, _, _]) ⟨_, _, _, _, _, rfl, c _ _ (by decide), c _ _ (by decide), c _ _ (by decide),
      c _ _ (by decide), rfl⟩ .nil
  · have h : (rtRun exFloat exMem piHeaderL.names (piHeaderL.types.map TypeRow.desc) [piCallL] >>= fun bs =>
        readTrace exEnv 0 (gs false bs) >>= fun t => lispGetTrace t none) =
        .ok (⟨2, some 1, [⟨ascii "l", ascii "int", .int 5, none⟩], []⟩ :: List.replicate 4 ⟨0, none, [], []⟩) := by
      decide +kernel
    obtain ⟨bs, h1, h⟩ := Res.bind_eq_ok.mp h
    obtain ⟨t, h2, h⟩ := Res.bind_eq_ok.mp h
    exact ⟨bs, t, h1, h2, h⟩

/-- An order in which the threads take turns, one looking up its type while the other is about to
store its variable. -/
def piSched : List Nat := List.replicate 7 0 ++ [0, 1, 0, 0, 1, 1, 1]
def piOuts : ProjResult :=
  ⟨[⟨[⟨packId (some 0) 1, [.variables [⟨1, 0, 4, .signed, insX⟩]]⟩], none⟩,
    ⟨[⟨packId (some 1) 2, [.variables [⟨2, 0, 4, .signed, piY⟩]]⟩], none⟩], [⟨[], some piHeaderY⟩], []⟩
def piCallX : U64 × List RtCall := (BitVec.ofNat 64 (packId (some 0) 1), [.variables 1 [.gp 1, .gp 0, .gp 4, .gp 1, .gp 5]])
def piCallY' : U64 × List RtCall := (BitVec.ofNat 64 (packId (some 1) 2), [.variables 1 [.gp 2, .gp 0, .gp 4, .gp 1, .gp 5]])

/-- What is shown for the two statements. -/
theorem pi_shown : ∀ v ∈ [(⟨1, 0, piEnv⟩ : ProjVisit), ⟨0, 0, piEnv⟩], ∀ l : LPoint,
    v.Shown (instrumentationFiles [piMain, piX, piYs]) l → ∃ y : LVar, l.scopes = [y] ∧ y.value = .int 5 := by
  intro v hv l ⟨f, s, hf, hs, _, _, _, ls, hl, hsh⟩
  have key : ∀ (x : ScopeVar), x.AsScalar false → piEnv.scalar x.name = .signed .four 5 →
      AllRel (PartShown .equalp piEnv) [(false, [x])] ls → ∃ y : LVar, ls.flatten = [y] ∧ y.value = .int 5 := by
    intro x hx he hsh
    cases hsh with
    | cons h1 h2 =>
      cases h2
      obtain ⟨sc, tx, l1, l2, rfl, hsc, htx, r1, r2⟩ := h1
      have hno : ¬ x.AsText false := fun h => absurd h.1 (by simp)
      cases htx with
      | keep h _ => exact absurd h hno
      | skip _ h => cases h; cases r2; cases hsc with
        | skip h _ => exact absurd hx h
        | keep _ h =>
          cases h
          cases r1 with
          | cons r1 r =>
            cases r
            exact ⟨_, rfl, by rw [r1.2.2.1, he]; rfl⟩
  rw [hl]
  simp only [List.mem_cons, List.not_mem_nil, or_false] at hv
  rcases hv with rfl | rfl <;> cases hf <;> cases hs
  · exact key _ end_scalar.2 rfl hsh
  · exact key _ end_scalar.1 rfl hsh

/-- The hypotheses of `C100_queries` hold for it, with a run through both statements. -/
theorem pi_case : (∀ f ∈ [piMain, piX, piYs], f.Ok) ∧ OneTypePerFoldedName [piMain, piX, piYs] ∧
    instrumentParallel [piMain, piX, piYs] [] piSched = some piOuts ∧
    OneStoring .equalp (projectThreads [piMain, piX, piYs]) Tables.empty piSched ∧
    (∀ v ∈ [(⟨1, 0, piEnv⟩ : ProjVisit), ⟨0, 0, piEnv⟩], v.Fits exFloat (instrumentationFiles [piMain, piX, piYs])) ∧
    AllRel (ProjVisit.RunsAs exFloat exMem (piOuts.plain ++ piOuts.mains)) [⟨1, 0, piEnv⟩, ⟨0, 0, piEnv⟩] [piCallY', piCallX] ∧
    piHeaderY.Small ∧
    (∃ (p : Nat) (o : ProjOut), (piOuts.plain ++ piOuts.mains)[p]? = some o ∧ o.header = some piHeaderY ∧
      ∀ v ∈ [(⟨1, 0, piEnv⟩ : ProjVisit), ⟨0, 0, piEnv⟩], v.file ≤ p) ∧
    (∀ ts ∈ pgTypes, ∀ n ∈ ts, piHeaderY.HasType n) ∧
    (∀ v ∈ [(⟨1, 0, piEnv⟩ : ProjVisit), ⟨0, 0, piEnv⟩], ∀ l,
      v.Shown (instrumentationFiles [piMain, piX, piYs]) l → l.Manageable pgTypes) := by
  have c : ∀ (w : U64) (v : U32), w.setWidth 32 = v → (Slot.gp w).Carries32 v := fun _ _ h => Slot.carries h
  refine ⟨pi_oks (.inl rfl), pi_one (.inl rfl), by decide +kernel, oneStoringOk_spec (by decide +kernel), ?_,
    .cons ⟨_, _, rfl, rfl, rfl, .cons ⟨_, _, rfl, rfl, ?_⟩ .nil⟩ (.cons ⟨_, _, rfl, rfl, rfl, .cons ⟨_, _, rfl, rfl, ?_⟩ .nil⟩ .nil),
    ⟨by decide +kernel, by decide +kernel, by decide +kernel⟩, ⟨2, _, rfl, rfl, by simp⟩, ?_, ?_⟩
  · intro v hv f s hf hs part hp y hy
    have hfit : ∀ y, y = insX ∨ y = piY → y.Fits exFloat false piEnv := by
      rintro y (rfl | rfl)
      · exact ⟨fun _ => ⟨.signed "int" .four _ rfl (by unfold CType.Named; decide +kernel) (by decide +kernel), by
          show CValue.InRange (.signed .four 5)
          simp [CValue.InRange, IntSize.bytes], trivial⟩, fun _ => by simp [piEnv]⟩
      · exact ⟨fun _ => ⟨.signed "int" .four _ rfl (by unfold CType.Named; decide +kernel) (by decide +kernel), by
          show CValue.InRange (.signed .four 5)
          simp [CValue.InRange, IntSize.bytes], trivial⟩, fun _ => by simp [piEnv]⟩
    simp only [List.mem_cons, List.not_mem_nil, or_false] at hv
    rcases hv with rfl | rfl <;> cases hf <;> cases hs <;> rw [List.mem_singleton.mp hp] at hy ⊢ <;>
      rw [List.mem_singleton.mp hy]
    · exact hfit _ (.inr rfl)
    · exact hfit _ (.inl rfl)
  · exact .cons (l := [_, _, _, _, _]) ⟨_, _, _, _, _, rfl, c _ _ (by decide), c _ _ (by decide), c _ _ (by decide),
      c _ _ (by decide), c _ _ (by decide)⟩ .nil
  · exact .cons (l := [_, _, _, _, _]) ⟨_, _, _, _, _, rfl, c _ _ (by decide), c _ _ (by decide), c _ _ (by decide),
      c _ _ (by decide), c _ _ (by decide)⟩ .nil
  · intro ts hts n hn
    rw [List.mem_singleton.mp hts, List.mem_singleton] at hn
    subst hn
    exact ⟨⟨0, .signed, 4⟩, by decide +kernel, rfl⟩
  · intro v hv l hs
    obtain ⟨y, hy, hv⟩ := pi_shown v hv l hs
    unfold LPoint.Manageable
    rw [hy]
    refine ⟨by simp, ?_, ?_⟩
    · simp only [choices, pgTypes, List.map_cons, List.map_nil]
      generalize ascii "int" = t
      by_cases h : y.type = t <;> simp [h]
    · intro z hz _ _ _ b
      rw [List.mem_singleton.mp hz, hv]
      simp

example : instrumentParallel [piMain, piX, piYs] [] piSched = some piOuts ∧
    OneStoring .equalp (projectThreads [piMain, piX, piYs]) Tables.empty piSched ∧ piHeaderY.Small :=
  ⟨pi_case.2.2.1, pi_case.2.2.2.1, pi_case.2.2.2.2.2.2.1⟩
/-- What a query for values above 1 returns. -/
example : endAnswers piHeaderY.names piHeaderY.types [piCallY', piCallX] [0] pgSexp pgTypes =
    some (.ok [[(ascii "y", .int 5)], [(ascii "x", .int 5)]]) := by decide +kernel

end TraceDB
