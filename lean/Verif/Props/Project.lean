import Verif.Proofs.Project
import Verif.Props.Instrument
import Verif.Props.LispDb
/-
C65: projects.
-/
namespace TraceDB

/-- **C65, files.**  The instrumentation goes through exactly the evolve files, each as
often as it is there, first those without and then those with a function `main`, each
group in its order. -/
theorem C65_files (evolve : List ProjFile) :
    (instrumentationFiles evolve).Perm evolve ∧
    ∃ a b, instrumentationFiles evolve = a ++ b ∧ (∀ f ∈ a, f.main = false) ∧ (∀ f ∈ b, f.main = true) ∧
      a.Sublist evolve ∧ b.Sublist evolve := by
  refine ⟨?_, _, _, rfl, ?_, ?_, List.filter_sublist, List.filter_sublist⟩
  · unfold instrumentationFiles
    have h := List.filter_append_perm (fun f : ProjFile => !f.main) evolve
    simp only [Bool.not_not] at h
    exact h
  · intro f hf
    simpa using (List.mem_filter.mp hf).2
  · intro f hf
    exact (List.mem_filter.mp hf).2

/-- **C65, numbers.**  Both loops together give every file its position as number: what
is generated for the file at position `q` are points with that number and the numbers of
its statements, in order.  The tables are written into a file if and only if it has a
function `main`. -/
theorem C65_file_numbers (evolve other : List ProjFile) :
    let files := instrumentationFiles evolve
    let outs := (instrumentProject evolve other).plain ++ (instrumentProject evolve other).mains
    outs.length = files.length ∧
    (∀ (q : Nat) (f : ProjFile) (o : ProjOut), files[q]? = some f → outs[q]? = some o →
      o.gens.map (·.id) = f.stmts.map (fun s => packId (some q) s.1) ∧ o.header.isSome = f.main) ∧
    (instrumentProject evolve other).others.map Option.isSome = other.map (·.main) := by
  intro files outs
  obtain ⟨h1, h2⟩ := instrumentProject_outs evolve other
  have hh : ∀ (te : TableTests) (b : Bool) (s : Tables), (initTracing te b s).isSome = b := by
    intro te b s; cases b <;> rfl
  refine ⟨?_, ?_, ?_⟩
  · simp only [outs]
    rw [h1, instrumentFiles_length, List.length_zipIdx]
  · intro q f o hf ho
    simp only [outs] at ho
    rw [h1, instrumentFiles_get .equalp _ Tables.empty q f q (by
      rw [List.getElem?_zipIdx, show (instrumentationFiles evolve)[q]? = some f from hf]
      simp)] at ho
    cases ho
    refine ⟨?_, hh ..⟩
    simp only [instrumentSites_ids, ProjFile.sites, List.map_map]
    rfl
  · rw [h2, List.map_map]
    exact List.map_congr_left fun f _ => hh ..

/-- **C65, different statements.**  With fewer than 2^23 files of fewer than 2^40 ASTs,
two statements of a project have the same number in the generated code only if they are
in the same file and have the same number there. -/
theorem C65_distinct (evolve other : List ProjFile) (hok : ∀ f ∈ evolve, f.Ok) (hlen : evolve.length ≤ 2 ^ 23)
    (q q' j j' : Nat) (o o' : ProjOut) (g g' : GenSite) :
    let outs := (instrumentProject evolve other).plain ++ (instrumentProject evolve other).mains
    outs[q]? = some o → outs[q']? = some o' → o.gens[j]? = some g → o'.gens[j']? = some g' → g.id = g'.id →
    q = q' ∧ ∃ (f : ProjFile) (s s' : Nat × List (Bool × List ScopeVar)), (instrumentationFiles evolve)[q]? = some f ∧
      f.stmts[j]? = some s ∧ f.stmts[j']? = some s' ∧ s.1 = s'.1 := by
  intro outs ho ho' hg hg' hid
  obtain ⟨h1, h2, _⟩ := C65_file_numbers evolve other
  have hperm := (C65_files evolve).1
  have one : ∀ {q j : Nat} {o : ProjOut} {g : GenSite}, outs[q]? = some o → o.gens[j]? = some g →
      q < 2 ^ 23 ∧ ∃ (f : ProjFile) (s : Nat × List (Bool × List ScopeVar)), (instrumentationFiles evolve)[q]? = some f ∧
        f.stmts[j]? = some s ∧ g.id = packId (some q) s.1 ∧ s.1 < 2 ^ 40 := by
    intro q j o g ho hg
    have hq : q < (instrumentationFiles evolve).length := by
      rw [← h1]; exact (List.getElem?_eq_some_iff.mp ho).1
    have hf := List.getElem?_eq_getElem hq
    have hids := congrArg (fun l => l[j]?) (h2 q _ o hf ho).1
    simp only [List.getElem?_map, hg, Option.map_some] at hids
    obtain ⟨s, hs, hse⟩ := Option.map_eq_some_iff.mp hids.symm
    have hlq := hperm.length_eq
    exact ⟨by omega, _, s, hf, hs, hse.symm,
      (hok _ (hperm.mem_iff.mp (List.getElem_mem hq))).number s (List.mem_of_getElem? hs)⟩
  obtain ⟨hq, f, s, hf, hs, hi, hn⟩ := one ho hg
  obtain ⟨hq', f', s', hf', hs', hi', hn'⟩ := one ho' hg'
  rw [hi, hi'] at hid
  obtain ⟨e1, e2⟩ := C48_injective (some q) (some q') s.1 s'.1 (fun x hx => by cases hx; exact hq)
    (fun x hx => by cases hx; exact hq') hn hn' hid
  cases e1
  rw [hf, Option.some.injEq] at hf'
  subst hf'
  exact ⟨rfl, f, s, s', hf, hs, hs', e2⟩

/-- **C65, traces.**  Take any project, instrument it, and run a program whose `main` is
in the file at position `p` through any statements of files that were instrumented no
later than that one -- all files without `main` among them.  Loading what it wrote shows
one point per statement passed, with its number, the number of its file, and its
variables. -/
theorem C65_project_trace (env : Env) (io : Bool) (cf : CFloat) (mem : CMem) (evolve other : List ProjFile)
    (hok : ∀ f ∈ evolve, f.Ok) (hlen : evolve.length ≤ 2 ^ 23) (visits : List ProjVisit)
    (calls : List (U64 × List RtCall)) (hal : ∀ n, env.canAlloc n = true)
    (hfit : ∀ v ∈ visits, v.Fits cf (instrumentationFiles evolve)) :
    let outs := (instrumentProject evolve other).plain ++ (instrumentProject evolve other).mains
    AllRel (ProjVisit.RunsAs cf mem outs) visits calls →
    ∀ (p : Nat) (o : ProjOut) (h : ProjHeader), outs[p]? = some o → o.header = some h → h.Small →
      (∀ v ∈ visits, v.file ≤ p) →
    ∃ bs t ps, rtRun cf mem h.names (h.types.map TypeRow.desc) calls = .ok bs ∧
      readTrace env 0 (gs io bs) = .ok t ∧ lispGetTrace t none = .ok ps ∧
      AllRel (ProjVisit.Shown (instrumentationFiles evolve)) visits ps := by
  intro outs hruns p o h ho hh hs hv
  obtain ⟨h1, -⟩ := instrumentProject_outs evolve other
  have hperm := (C65_files evolve).1
  simp only [outs] at ho hruns
  rw [h1] at ho hruns
  have hp : p < (instrumentationFiles evolve).length := by
    have := (List.getElem?_eq_some_iff.mp ho).1
    rwa [instrumentFiles_length, List.length_zipIdx] at this
  rw [instrumentFiles_get .equalp _ Tables.empty p (instrumentationFiles evolve)[p] p (by
    rw [List.getElem?_zipIdx, List.getElem?_eq_getElem hp]; simp)] at ho
  cases ho
  simp only at hh
  have hm : (instrumentationFiles evolve)[p].main = true := by
    cases hb : (instrumentationFiles evolve)[p].main with
    | true => rfl
    | false => rw [hb] at hh; cases hh
  rw [hm] at hh
  exact project_run env io cf mem (instrumentationFiles evolve) (p + 1)
    (fun f hf => hok f (hperm.mem_iff.mp hf)) (by rw [hperm.length_eq]; exact hlen) h hh hs visits calls hruns
    (fun v hv' => Nat.lt_succ_of_le (hv v hv')) hfit hal

/-- **C65, `main` elsewhere.**  The same holds for programs whose `main` is in a file of
the project that is not instrumented otherwise, whatever statements they pass. -/
theorem C65_other_main (env : Env) (io : Bool) (cf : CFloat) (mem : CMem) (evolve other : List ProjFile)
    (hok : ∀ f ∈ evolve, f.Ok) (hlen : evolve.length ≤ 2 ^ 23) (visits : List ProjVisit)
    (calls : List (U64 × List RtCall)) (hal : ∀ n, env.canAlloc n = true)
    (hfit : ∀ v ∈ visits, v.Fits cf (instrumentationFiles evolve))
    (hruns : AllRel (ProjVisit.RunsAs cf mem
      ((instrumentProject evolve other).plain ++ (instrumentProject evolve other).mains)) visits calls)
    (h : ProjHeader) (hm : some h ∈ (instrumentProject evolve other).others) (hs : h.Small) :
    ∃ bs t ps, rtRun cf mem h.names (h.types.map TypeRow.desc) calls = .ok bs ∧
      readTrace env 0 (gs io bs) = .ok t ∧ lispGetTrace t none = .ok ps ∧
      AllRel (ProjVisit.Shown (instrumentationFiles evolve)) visits ps := by
  obtain ⟨h1, h2⟩ := instrumentProject_outs evolve other
  have hperm := (C65_files evolve).1
  rw [h1] at hruns
  rw [h2] at hm
  obtain ⟨f, _, hf⟩ := List.mem_map.mp hm
  have hfm : f.main = true := by
    cases hb : f.main with
    | true => rfl
    | false => rw [hb] at hf; cases hf
  rw [hfm] at hf
  refine project_run env io cf mem (instrumentationFiles evolve) (instrumentationFiles evolve).length
    (fun f hf => hok f (hperm.mem_iff.mp hf)) (by rw [hperm.length_eq]; exact hlen) h ?_ hs visits calls hruns
    (fun v hv => ?_) hfit hal
  · rw [List.take_of_length_le (by rw [List.length_zipIdx]; exact Nat.le_refl _)]
    exact hf
  · obtain ⟨c, _, o, g, ho, _⟩ := hruns.mem_left v hv
    have := (List.getElem?_eq_some_iff.mp ho).1
    rwa [instrumentFiles_length, List.length_zipIdx] at this

/-! A project: `main` in the first evolve file with `int x`, a second file with `s`, and
a third one with another `main` and `x` as a pointer to `char`. -/

def projA : ProjFile := ⟨ascii "a.c", true, [(3, [(true, [insX])])]⟩
def projB : ProjFile := ⟨ascii "b.c", false, [(5, [(false, [insS])]), (7, [])]⟩
def projC : ProjFile := ⟨ascii "c.c", true, [(3, [(true, [insS])])]⟩
def projD : ProjFile := ⟨ascii "d.c", true, []⟩

/-- `b.c` gets number 0 although it is second in the project.  The tables of the program
`a.c` lack the type that only `c.c` uses. -/
theorem proj_code : instrumentProject [projA, projB, projC] [projD, projB] =
    ⟨[⟨[⟨packId (some 0) 5, [.variables [⟨1, 0, 8, .pointer, insS⟩]]⟩, ⟨packId (some 0) 7, []⟩], none⟩],
     [⟨[⟨packId (some 1) 3, [.variables [⟨3, 1, 4, .signed, insX⟩]]⟩],
        some ⟨[ascii "*const char", ascii "s", ascii "int", ascii "x"], [⟨0, .pointer, 8⟩, ⟨2, .signed, 4⟩]⟩⟩,
      ⟨[⟨packId (some 2) 3, [.blobs [⟨1, 2, insS⟩]]⟩],
        some ⟨[ascii "*const char", ascii "s", ascii "int", ascii "x"],
          [⟨0, .pointer, 8⟩, ⟨2, .signed, 4⟩, ⟨0, .blob, 0⟩]⟩⟩],
     [some ⟨[ascii "*const char", ascii "s", ascii "int", ascii "x"],
          [⟨0, .pointer, 8⟩, ⟨2, .signed, 4⟩, ⟨0, .blob, 0⟩]⟩, none]⟩ := by decide +kernel

theorem proj_ok : ∀ f ∈ [projA, projB, projC], f.Ok := by
  have hx : insX.Ok := ⟨⟨by simp [insX], fun s hs => Specifier.plain_of (by revert s; decide +kernel)⟩, by decide +kernel,
    by decide +kernel⟩
  have hs : insS.Ok := ⟨⟨by simp [insS], fun s hs => Specifier.plain_of (by revert s; decide +kernel)⟩, by decide +kernel,
    by decide +kernel⟩
  intro f hf
  simp only [List.mem_cons, List.not_mem_nil, or_false] at hf
  rcases hf with rfl | rfl | rfl
  · exact ⟨by simp [projA, hx], by simp [projA], by simp [projA]⟩
  · exact ⟨by simp [projB, hs], by simp [projB], by simp [projB]⟩
  · exact ⟨by simp [projC, hs], by simp [projC], by simp [projC]⟩

def projVisits : List ProjVisit := [⟨1, 0, insState⟩, ⟨0, 1, insState⟩, ⟨0, 0, insState⟩]
def projCalls : List (U64 × List RtCall) :=
  [(BitVec.ofNat 64 (packId (some 1) 3), [.variables 1 [.gp 3, .gp 1, .gp 4, .gp 1, .gp 0xdeadbeeffffffffe]]),
   (BitVec.ofNat 64 (packId (some 0) 7), []),
   (BitVec.ofNat 64 (packId (some 0) 5), [.variables 1 [.gp 1, .gp 0, .gp 8, .gp 3, .gp 0x2000]])]

theorem projVisits_fit : ∀ v ∈ projVisits, v.Fits exFloat (instrumentationFiles [projA, projB, projC]) := by
  have hx : insX.Fits exFloat true insState :=
    ⟨fun _ => ⟨.signed "int" .four (-2) rfl (by unfold CType.Named; decide +kernel) (by decide +kernel),
      by simp [insState, insX, CValue.InRange, IntSize.bytes], trivial⟩, fun _ => by simp [insState]⟩
  have hs : ∀ ps, insS.Fits exFloat ps insState := fun ps => by
    have e : insState.scalar insS.name = .pointer 0x2000 := by decide +kernel
    refine ⟨fun _ => ?_, fun _ => by simp [insState]⟩
    rw [e]
    exact ⟨.pointer _ (by simp [insS]), trivial, trivial⟩
  intro v hv f s hf hs'
  simp only [projVisits, List.mem_cons, List.not_mem_nil, or_false] at hv
  rcases hv with rfl | rfl | rfl
  · cases hf; cases hs'
    intro part hp y hy
    simp only [List.mem_cons, List.not_mem_nil, or_false] at hp
    subst hp
    simp only [List.mem_cons, List.not_mem_nil, or_false] at hy
    subst hy
    exact hx
  · cases hf; cases hs'
    intro part hp
    simp at hp
  · cases hf; cases hs'
    intro part hp y hy
    simp only [List.mem_cons, List.not_mem_nil, or_false] at hp
    subst hp
    simp only [List.mem_cons, List.not_mem_nil, or_false] at hy
    subst hy
    exact hs false

theorem projCalls_ok : AllRel (ProjVisit.RunsAs exFloat exMem
    ((instrumentProject [projA, projB, projC] [projD, projB]).plain ++
      (instrumentProject [projA, projB, projC] [projD, projB]).mains)) projVisits projCalls := by
  have c : ∀ (w : U64) (v : U32), w.setWidth 32 = v → (Slot.gp w).Carries32 v := fun _ _ h => Slot.carries h
  rw [proj_code]
  refine .cons ⟨_, _, rfl, rfl, rfl, .cons ⟨_, _, rfl, rfl, ?_⟩ .nil⟩ (.cons ⟨_, _, rfl, rfl, rfl, .nil⟩
    (.cons ⟨_, _, rfl, rfl, rfl, .cons ⟨_, _, rfl, rfl, ?_⟩ .nil⟩ .nil))
  · exact .cons (l := [_, _, _, _, _]) ⟨_, _, _, _, _, rfl, c _ _ (by decide), c _ _ (by decide), c _ _ (by decide),
        c _ _ (by decide), c _ _ (by decide)⟩ .nil
  · exact .cons (l := [_, _, _, _, _]) ⟨_, _, _, _, _, rfl, c _ _ (by decide), c _ _ (by decide), c _ _ (by decide),
        c _ _ (by decide), rfl⟩ .nil

/-- The hypotheses hold for the program `a.c` (at position 1) and this run of it. -/
example : ∃ (o : ProjOut) (h : ProjHeader),
    ((instrumentProject [projA, projB, projC] [projD, projB]).plain ++
      (instrumentProject [projA, projB, projC] [projD, projB]).mains)[1]? = some o ∧ o.header = some h ∧ h.Small ∧
    (∀ v ∈ projVisits, v.file ≤ 1) ∧ [projA, projB, projC].length ≤ 2 ^ 23 := by
  rw [proj_code]
  exact ⟨_, _, rfl, rfl, ⟨by decide +kernel, by decide +kernel, by decide +kernel⟩, by simp [projVisits], by decide⟩

example : ∃ h : ProjHeader, some h ∈ (instrumentProject [projA, projB, projC] [projD, projB]).others ∧ h.Small := by
  rw [proj_code]
  exact ⟨_, List.mem_cons_self, by decide +kernel, by decide +kernel, by decide +kernel⟩

/-- What is shown for the run of the program `a.c`. -/
example : (rtRun exFloat exMem [ascii "*const char", ascii "s", ascii "int", ascii "x"]
      ([⟨0, .pointer, 8⟩, ⟨2, .signed, 4⟩].map TypeRow.desc) projCalls >>= fun bs =>
      readTrace exEnv 0 (gs false bs) >>= fun t => lispGetTrace t none) =
    .ok [⟨3, some 1, [⟨ascii "x", ascii "int", .int (-2), none⟩], []⟩, ⟨7, some 0, [], []⟩,
      ⟨5, some 0, [⟨ascii "s", ascii "*const char", .int 0x2000, none⟩], []⟩] := by decide +kernel

/-- A program whose `main` is in one file but which passes statements of a file
instrumented later (two files with `main`, built with conditional compilation, say) can
write indices that are not in its tables: here the program `a.c` at the statement of
`c.c` writes type 2 of 2, and the trace cannot be read. -/
theorem C65_later_files_not_covered :
    let outs := (instrumentProject [projA, projB, projC] []).plain ++ (instrumentProject [projA, projB, projC] []).mains
    let calls : List (U64 × List RtCall) :=
      [(BitVec.ofNat 64 (packId (some 2) 3), [.blobs 1 [.gp 1, .gp 2, .gp 2, .gp 0x2000]])]
    ∃ (o : ProjOut) (h : ProjHeader), outs[1]? = some o ∧ o.header = some h ∧ h.types.length = 2 ∧
      AllRel (ProjVisit.RunsAs exFloat exMem outs) [⟨2, 0, insState⟩] calls ∧
      ∃ bs, rtRun exFloat exMem h.names (h.types.map TypeRow.desc) calls = .ok bs ∧
        readTrace exEnv 0 (gs false bs) = .throw .trace := by
  have c : ∀ (w : U64) (v : U32), w.setWidth 32 = v → (Slot.gp w).Carries32 v := fun _ _ h => Slot.carries h
  have hcode : (instrumentProject [projA, projB, projC] []).plain ++ (instrumentProject [projA, projB, projC] []).mains =
      (instrumentProject [projA, projB, projC] [projD, projB]).plain ++
        (instrumentProject [projA, projB, projC] [projD, projB]).mains := by decide +kernel
  intro outs calls
  have ho : outs = _ := hcode
  rw [ho, proj_code]
  refine ⟨_, _, rfl, rfl, rfl, .cons ⟨_, _, rfl, rfl, rfl, .cons ⟨_, _, rfl, rfl, ?_⟩ .nil⟩ .nil, ?_⟩
  · exact .cons (l := [_, _, _, _]) ⟨_, _, _, _, rfl, c _ _ (by decide), c _ _ (by decide), c _ _ (by decide), rfl⟩ .nil
  · refine ⟨_, rfl, ?_⟩
    decide +kernel

end TraceDB
