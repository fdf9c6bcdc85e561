import Verif.Proofs.ProjectText
import Verif.Props.Programs
import Verif.Props.Project
/-
C99: projects of several files, from their text to their trace and queries.
-/
namespace TraceDB

/-- **C99.**  Take any project, instrument it, and run a program whose `main` is in the file at
position `p` through any statements of files that were instrumented no later than that one,
or one whose `main` is in a file that is not instrumented otherwise through any statements, in any states
that fit the types.  Load the trace and query it with any predicate of the documented
grammar, any free variables with types in its tables, with or without file and filter.  If
types that print alike up to case are treated alike, the query succeeds; each result is a
point of the trace, with variables recorded there of the types asked for, such that the
predicate is true of their values; for each such choice there is a result with the same
statement and names (up to case if there is a filter); and the points of the trace show the
statements passed with the values of their variables. -/
theorem C99_queries (fs : FloatSys) (env : Env) (pick : U32 → Nat → Nat) (io : Bool) (cf : CFloat) (mem : CMem)
    (evolve other : List ProjFile) (hok : ∀ f ∈ evolve, f.Ok) (hlen : evolve.length ≤ 2 ^ 23) (visits : List ProjVisit)
    (calls : List (U64 × List RtCall)) (hal : ∀ n, env.canAlloc n = true)
    (hfit : ∀ v ∈ visits, v.Fits cf (instrumentationFiles evolve))
    (hruns : AllRel (ProjVisit.RunsAs cf mem
      ((instrumentProject evolve other).plain ++ (instrumentProject evolve other).mains)) visits calls)
    (h : ProjHeader) (hs : h.Small)
    (hmain : (∃ (p : Nat) (o : ProjOut),
        ((instrumentProject evolve other).plain ++ (instrumentProject evolve other).mains)[p]? = some o ∧
        o.header = some h ∧ ∀ v ∈ visits, v.file ≤ p) ∨
      some h ∈ (instrumentProject evolve other).others)
    (hone : OneTypePerFoldedName evolve)
    (names : List Nat) (s : SExp) (f : Form) (ph : PHeap) (hf : SexpPredicate names s f)
    (varTypes : List (List (List U8))) (hvl : names.length = varTypes.length) (hl : names.length < 2 ^ 64)
    (hne : varTypes ≠ []) (hknown : ∀ ts ∈ varTypes, ∀ n ∈ ts, h.HasType n) (file : Option Nat)
    (hfile : ∀ i, file = some i → i < 2 ^ 23) (filter : Option (LPoint → Bool))
    (hq : ∀ v ∈ visits, ∀ l, v.Shown (instrumentationFiles evolve) l → l.Manageable varTypes) :
    ∃ bs t ps ptr ph' p rs c,
      rtRun cf mem h.names (h.types.map TypeRow.desc) calls = .ok bs ∧ readTrace env 0 (gs io bs) = .ok t ∧
      lispGetTrace t none = .ok ps ∧ AllRel (ProjVisit.Shown (instrumentationFiles evolve)) visits ps ∧
      buildPredicate names s ph = some (ptr, ph') ∧ createPredicateObj ph' ptr = .ok p ∧
      lispQuery env pick (plainEval fs) t ⟨varTypes, p, [], 0, file, filter⟩ [] () = .ok (rs, c, ()) ∧
      (∀ r ∈ rs, ShownAnswers fs ps varTypes file filter f r) ∧
      (filter = none → ∀ a, ShownAnswers fs ps varTypes file filter f a → ∃ r ∈ rs, exactKey r = exactKey a) ∧
      (filter ≠ none → (∀ a, ShownAnswers fs ps varTypes file filter f a → ∃ r ∈ rs, foldedKey r = foldedKey a) ∧
        rs.Pairwise fun a b => foldedKey a ≠ foldedKey b) := by
  obtain ⟨h1, h2⟩ := instrumentProject_outs evolve other
  have hperm := (C65_files evolve).1
  have hone' : OneTypePerFoldedName (instrumentationFiles evolve) := fun x hx s hs part hp v hv y hy =>
    hone x (hperm.mem_iff.mp hx) s hs part hp v hv y (hperm.mem_iff.mp hy)
  have hok' : ∀ f ∈ instrumentationFiles evolve, f.Ok := fun f hf => hok f (hperm.mem_iff.mp hf)
  have hlen' : (instrumentationFiles evolve).length ≤ 2 ^ 23 := by rw [hperm.length_eq]; exact hlen
  rw [h1] at hruns hmain
  rw [h2] at hmain
  have key : ∃ k, initTracing .equalp true
      (instrumentFiles .equalp ((instrumentationFiles evolve).zipIdx.take k) Tables.empty).2 = some h ∧
      ∀ v ∈ visits, v.file < k := by
    rcases hmain with ⟨p, o, ho, hh, hv⟩ | hm
    · have hp : p < (instrumentationFiles evolve).length := by
        have := (List.getElem?_eq_some_iff.mp ho).1
        rwa [instrumentFiles_length, List.length_zipIdx] at this
      rw [instrumentFiles_get .equalp _ Tables.empty p (instrumentationFiles evolve)[p] p (by
        rw [List.getElem?_zipIdx, List.getElem?_eq_getElem hp]; simp)] at ho
      cases ho
      simp only at hh
      have hm : (instrumentationFiles evolve)[p].main = true := by
        cases hb : (instrumentationFiles evolve)[p].main with
        | true => rfl
        | false => rw [hb] at hh; cases hh
      rw [hm] at hh
      exact ⟨p + 1, hh, fun v hv' => Nat.lt_succ_of_le (hv v hv')⟩
    · obtain ⟨f, _, hf⟩ := List.mem_map.mp hm
      have hfm : f.main = true := by
        cases hb : f.main with
        | true => rfl
        | false => rw [hb] at hf; cases hf
      rw [hfm] at hf
      refine ⟨(instrumentationFiles evolve).length, ?_, fun v hv => ?_⟩
      · rw [List.take_of_length_le (by rw [List.length_zipIdx]; exact Nat.le_refl _)]
        exact hf
      · obtain ⟨c, _, o, g, ho, _⟩ := hruns.mem_left v hv
        have := (List.getElem?_eq_some_iff.mp ho).1
        rwa [instrumentFiles_length, List.length_zipIdx] at this
  obtain ⟨k, hk, hkv⟩ := key
  exact project_queries fs env pick io cf mem _ k hok' hlen' h hk hs visits calls hruns hkv hfit hal hone' names s f ph hf
    varTypes hvl hl hne hknown file hfile filter hq

/-- **C99, programs.**  The same from the text of the project: instrument all functions in all
its files; the program that results passes the points of the functions with their points
(C98), and the points of the trace show them in order: statement, number of the file, and
variables in the state passed.  Queries answer about them. -/
theorem C99_program (fs : FloatSys) (env : Env) (pick : U32 → Nat → Nat) (io : Bool) (cf : CFloat) (mem : CMem)
    (after : Bool) (filter : Nat → Nat → Bool) (funs : List Ast)
    (hfuns : FunctionsOk filter funs) (texts : List (List CStmt))
    (ht : readEach (instrumentFunctions after filter funs) = some texts)
    (files : List (Name × Bool)) (fileOf : Nat → Nat) (pos : Nat → Nat → Nat)
    (parts : Nat → PointEvent → List (Bool × List ScopeVar)) (evolve other : List ProjFile)
    (hevolve : evolve = projectFiles files fileOf pos parts (programPoints after filter funs))
    (hok : ∀ f ∈ evolve, f.Ok) (hlen : files.length ≤ 2 ^ 23)
    {σ : Type} (pw : ProgWorld σ) (n m k f : Nat) (l : Life σ) (vars : Passed σ → CEnv) (calls : List (U64 × List RtCall))
    (hal : ∀ n, env.canAlloc n = true)
    (hfit : ∀ p ∈ (callFn (textMeans n texts) pw m k f l).1, p.Fits cf parts vars)
    (hruns : AllRel (Passed.RunsIn cf mem files fileOf (programPoints after filter funs)
      ((instrumentProject evolve other).plain ++ (instrumentProject evolve other).mains) vars)
      (callFn (textMeans n texts) pw m k f l).1 calls)
    (h : ProjHeader) (hs : h.Small)
    (hmain : (∃ (e : Nat) (o : ProjOut),
        ((instrumentProject evolve other).plain ++ (instrumentProject evolve other).mains)[fileNumber files e]? = some o ∧
        o.header = some h ∧
        ∀ p ∈ (callFn (textMeans n texts) pw m k f l).1, fileNumber files (fileOf p.fn) ≤ fileNumber files e) ∨
      some h ∈ (instrumentProject evolve other).others)
    (hone : OneTypePerFoldedName evolve)
    (names : List Nat) (s : SExp) (fm : Form) (ph : PHeap) (hf : SexpPredicate names s fm)
    (varTypes : List (List (List U8))) (hvl : names.length = varTypes.length) (hl : names.length < 2 ^ 64)
    (hne : varTypes ≠ []) (hknown : ∀ ts ∈ varTypes, ∀ n ∈ ts, h.HasType n) (qfile : Option Nat)
    (hfile : ∀ i, qfile = some i → i < 2 ^ 23) (qfilter : Option (LPoint → Bool))
    (hq : ∀ p ∈ (callFn (textMeans n texts) pw m k f l).1, ∀ l, p.ShownIn files fileOf pos parts vars l → l.Manageable varTypes) :
    ∃ bs t ps ptr ph' p rs c,
      rtRun cf mem h.names (h.types.map TypeRow.desc) calls = .ok bs ∧ readTrace env 0 (gs io bs) = .ok t ∧
      lispGetTrace t none = .ok ps ∧
      AllRel (Passed.ShownIn files fileOf pos parts vars) (callFn (pointMeans after filter n funs) pw m k f l).1 ps ∧
      buildPredicate names s ph = some (ptr, ph') ∧ createPredicateObj ph' ptr = .ok p ∧
      lispQuery env pick (plainEval fs) t ⟨varTypes, p, [], 0, qfile, qfilter⟩ [] () = .ok (rs, c, ()) ∧
      (∀ r ∈ rs, ShownAnswers fs ps varTypes qfile qfilter fm r) ∧
      (qfilter = none → ∀ a, ShownAnswers fs ps varTypes qfile qfilter fm a → ∃ r ∈ rs, exactKey r = exactKey a) ∧
      (qfilter ≠ none → (∀ a, ShownAnswers fs ps varTypes qfile qfilter fm a → ∃ r ∈ rs, foldedKey r = foldedKey a) ∧
        rs.Pairwise fun a b => foldedKey a ≠ foldedKey b) := by
  subst hevolve
  rw [callFn_congr pw m (fun f w s => textMeans_points hfuns ht n f m w s) k] at hruns hfit hq hmain
  obtain ⟨visits, hv, hvr⟩ := passed_projVisits hruns
  obtain ⟨bs, t, ps, ptr, ph', p, rs, c, h1, h2, h3, h4, rest⟩ := C99_queries fs env pick io cf mem _ other hok
    (by rw [projectFiles, List.length_map, List.length_zipIdx]; exact hlen) visits calls hal (fun v hv' => by
      obtain ⟨p, hp, hpv⟩ := hv.mem_right v hv'
      exact isProjVisit_fits hpv (hfit p hp)) hvr h hs (by
      rcases hmain with ⟨e, o, ho, hh, hp⟩ | hm
      · refine .inl ⟨_, o, ho, hh, fun v hv' => ?_⟩
        obtain ⟨p, hp', hpv⟩ := hv.mem_right v hv'
        rw [hpv.2.1]
        exact hp p hp'
      · exact .inr hm) hone names s fm ph hf varTypes hvl hl hne hknown qfile hfile qfilter (fun v hv' l hs => by
        obtain ⟨p, hp, hpv⟩ := hv.mem_right v hv'
        exact hq p hp l ((isProjVisit_shown hpv l).mp hs))
  exact ⟨bs, t, ps, ptr, ph', p, rs, c, h1, h2, h3, AllRel.comp hv h4 fun p v l hpv => (isProjVisit_shown hpv l).mp, rest⟩

/-- **C99, code.**  For each point passed in a file of the project there is exactly one place in
the code generated for the file. -/
theorem C99_code_at_points (after : Bool) (filter : Nat → Nat → Bool) (funs : List Ast) (hok : FunctionsOk filter funs)
    (texts : List (List CStmt)) (ht : readEach (instrumentFunctions after filter funs) = some texts)
    (files : List (Name × Bool)) (fileOf : Nat → Nat) (pos : Nat → Nat → Nat)
    (parts : Nat → PointEvent → List (Bool × List ScopeVar)) (other : List ProjFile) {σ : Type}
    (pw : ProgWorld σ) (n m k f : Nat) (l : Life σ) :
    let project := instrumentProject (projectFiles files fileOf pos parts (programPoints after filter funs)) other
    ∀ p ∈ (callFn (textMeans n texts) pw m k f l).1, fileOf p.fn < files.length →
      ∃ (o : ProjOut) (g : GenSite) (j : Nat), (project.plain ++ project.mains)[fileNumber files (fileOf p.fn)]? = some o ∧
        o.gens[j]? = some g ∧ g.id = packId (some (fileNumber files (fileOf p.fn))) (pos p.fn p.point.id) ∧
        ∀ j' : Nat, (pointsInFile fileOf (programPoints after filter funs) (fileOf p.fn))[j']? = some (p.fn, p.point) ↔ j' = j := by
  rw [callFn_congr pw m (fun f w s => textMeans_points hok ht n f m w s) k]
  intro project p hp hlt
  have hmem : (p.fn, p.point) ∈ pointsInFile fileOf (programPoints after filter funs) (fileOf p.fn) :=
    List.mem_filter.mpr ⟨passed_programPoints hok pw n m k f l p hp, by simp⟩
  obtain ⟨j, hj⟩ := List.getElem?_of_mem hmem
  have hnd : (pointsInFile fileOf (programPoints after filter funs) (fileOf p.fn)).Nodup :=
    (programPoints_nodup after filter funs).sublist List.filter_sublist
  have hfile := fileNumber_get files fileOf pos parts (programPoints after filter funs) (fileOf p.fn) _
    (List.getElem?_eq_getElem hlt)
  obtain ⟨h1, h2, _⟩ := C65_file_numbers (projectFiles files fileOf pos parts (programPoints after filter funs)) other
  have hq : fileNumber files (fileOf p.fn) < (project.plain ++ project.mains).length := by
    rw [h1]
    exact (List.getElem?_eq_some_iff.mp hfile).1
  have ho := List.getElem?_eq_getElem hq
  have hids := congrArg (fun l => l[j]?) (h2 _ _ _ hfile ho).1
  simp only [List.getElem?_map, hj, Option.map_some] at hids
  obtain ⟨g, hg, hgid⟩ := Option.map_eq_some_iff.mp hids
  exact ⟨_, g, j, ho, hg, hgid, fun j' => ⟨nodup_index hnd hj, fun e => e ▸ hj⟩⟩

/-! The program of C98 in two files: `main` in `a.c` and `g` in `b.c`. -/

def ptFiles : List (Name × Bool) := [(ascii "a.c", true), (ascii "b.c", false)]
def ptProject : List ProjFile :=
  [⟨ascii "a.c", true, [13, 11, 10].map fun i => (i, [(false, [insX])])⟩, ⟨ascii "b.c", false, [(20, [(false, [insX])])]⟩]
def ptHeader : ProjHeader := ⟨[ascii "int", ascii "x"], endRows⟩
def ptGen (f i : Nat) : GenSite := ⟨packId (some f) i, [.variables [⟨1, 0, 4, .signed, insX⟩]]⟩
def ptOuts : List ProjOut := [⟨[ptGen 0 20], none⟩, ⟨[ptGen 1 13, ptGen 1 11, ptGen 1 10], some ptHeader⟩]
def ptCall (f i : Nat) (x : U64) : U64 × List RtCall := pgCall (BitVec.ofNat 64 (packId (some f) i)) x
def ptCalls : List (U64 × List RtCall) :=
  [ptCall 1 10 0, ptCall 1 11 1, ptCall 1 13 1, ptCall 0 20 1, ptCall 1 13 2, ptCall 0 20 2]

theorem ptProject_eq : projectFiles ptFiles id pgPos pgParts pgPoints = ptProject := by rfl

theorem ptOuts_eq : (instrumentProject ptProject []).plain ++ (instrumentProject ptProject []).mains = ptOuts := by
  decide +kernel

theorem ptProject_ok : ∀ f ∈ ptProject, f.Ok := by
  have hx : insX.Ok := ⟨⟨by simp [insX], fun s hs => Specifier.plain_of (by revert s; decide +kernel)⟩, by decide +kernel,
    by decide +kernel⟩
  intro f hf
  simp only [ptProject, List.mem_cons, List.not_mem_nil, or_false] at hf
  rcases hf with rfl | rfl
  · exact ⟨by simp [hx], by simp, by simp⟩
  · exact ⟨by simp [hx], by simp, by simp⟩

theorem ptCalls_ok : AllRel (Passed.RunsIn exFloat exMem ptFiles id pgPoints ptOuts pgVars) pgPassed ptCalls := by
  have c : ∀ (w : U64) (v : U32), w.setWidth 32 = v → (Slot.gp w).Carries32 v := fun _ _ h => Slot.carries h
  have key : ∀ (f num x j i : Nat) (o : ProjOut), x < 9 → f < 2 → (pointsInFile id pgPoints f)[j]? = some (f, ⟨num, false⟩) →
      ptOuts[fileNumber ptFiles f]? = some o → o.gens[j]? = some (ptGen (fileNumber ptFiles f) i) →
      Passed.RunsIn exFloat exMem ptFiles id pgPoints ptOuts pgVars ⟨f, ⟨num, false⟩, x⟩
        (ptCall (fileNumber ptFiles f) i (BitVec.ofNat 64 x)) := by
    intro f num x j i o hx hf hp ho hg
    refine ⟨j, hf, hp, o, _, ho, hg, rfl, .cons ⟨_, _, rfl, rfl, ?_⟩ .nil⟩
    refine .cons (l := [_, _, _, _, _]) ⟨_, _, _, _, _, rfl, c _ _ (by decide), c _ _ (by decide), c _ _ (by decide),
      c _ _ (by decide), c _ _ ?_⟩ .nil
    have : x = 0 ∨ x = 1 ∨ x = 2 ∨ x = 3 ∨ x = 4 ∨ x = 5 ∨ x = 6 ∨ x = 7 ∨ x = 8 := by omega
    rcases this with rfl | rfl | rfl | rfl | rfl | rfl | rfl | rfl | rfl <;> rfl
  exact .cons (key 0 0 0 2 10 _ (by decide) (by decide) rfl rfl rfl) (.cons (key 0 1 1 1 11 _ (by decide) (by decide) rfl rfl rfl)
    (.cons (key 0 3 1 0 13 _ (by decide) (by decide) rfl rfl rfl) (.cons (key 1 0 1 0 20 _ (by decide) (by decide) rfl rfl rfl)
    (.cons (key 0 3 2 0 13 _ (by decide) (by decide) rfl rfl rfl) (.cons (key 1 0 2 0 20 _ (by decide) (by decide) rfl rfl rfl) .nil)))))

theorem pt_shown (p : Passed Nat) (l : LPoint) (h : p.ShownIn ptFiles id pgPos pgParts pgVars l) :
    ∃ y : LVar, l.scopes = [y] ∧ y.value = .int p.state := by
  obtain ⟨_, _, _, ls, hl, hs⟩ := h
  cases hs with
  | cons h1 h2 =>
    cases h2
    obtain ⟨sc, tx, l1, l2, rfl, hsc, htx, r1, r2⟩ := h1
    cases htx with
    | keep h _ => exact absurd h no_text
    | skip _ h => cases h; cases r2; cases hsc with
      | skip h _ => exact absurd end_scalar.1 h
      | keep _ h =>
        cases h
        cases r1 with
        | cons r1 r =>
          cases r
          exact ⟨_, hl, r1.2.2.1⟩

/-- The hypotheses of `C99_program` hold for this project, its program `a.c` and the query of C98. -/
example : ∃ evolve, evolve = projectFiles ptFiles id pgPos pgParts (programPoints false pgFilter pgFuns) ∧
    (∀ f ∈ evolve, f.Ok) ∧
    (∀ p ∈ (callFn (textMeans 9 pgTexts) pgWorld 9 9 0 ⟨0, false⟩).1, p.Fits exFloat pgParts pgVars) ∧
    AllRel (Passed.RunsIn exFloat exMem ptFiles id (programPoints false pgFilter pgFuns)
      ((instrumentProject evolve []).plain ++ (instrumentProject evolve []).mains) pgVars)
      (callFn (textMeans 9 pgTexts) pgWorld 9 9 0 ⟨0, false⟩).1 ptCalls ∧
    ptHeader.Small ∧
    (∃ (e : Nat) (o : ProjOut),
      ((instrumentProject evolve []).plain ++ (instrumentProject evolve []).mains)[fileNumber ptFiles e]? = some o ∧
      o.header = some ptHeader ∧ ∀ p ∈ (callFn (textMeans 9 pgTexts) pgWorld 9 9 0 ⟨0, false⟩).1,
        fileNumber ptFiles (id p.fn) ≤ fileNumber ptFiles e) ∧
    OneTypePerFoldedName evolve ∧ (∀ ts ∈ pgTypes, ∀ n ∈ ts, ptHeader.HasType n) ∧
    (∀ p ∈ (callFn (textMeans 9 pgTexts) pgWorld 9 9 0 ⟨0, false⟩).1, ∀ l,
      p.ShownIn ptFiles id pgPos pgParts pgVars l → l.Manageable pgTypes) := by
  rw [pgPoints_eq, pgRun, ptProject_eq]
  refine ⟨_, rfl, ptProject_ok, pgPassed_fit, by rw [ptOuts_eq]; exact ptCalls_ok,
    ⟨by decide +kernel, by decide +kernel, by decide +kernel⟩, ?_, ?_, ?_, ?_⟩
  · rw [ptOuts_eq]
    exact ⟨0, _, rfl, rfl, by decide +kernel⟩
  · have hall : ∀ x ∈ ptProject, ∀ s ∈ x.stmts, ∀ part ∈ s.2, part = (false, [insX]) := by
      intro x hx s hs part hp
      simp only [ptProject, List.mem_cons, List.not_mem_nil, or_false] at hx
      rcases hx with rfl | rfl
      · simp only [List.map_cons, List.map_nil, List.mem_cons, List.not_mem_nil, or_false] at hs
        rcases hs with rfl | rfl | rfl <;> exact List.mem_singleton.mp hp
      · rw [List.mem_singleton.mp hs] at hp
        exact List.mem_singleton.mp hp
    intro x hx s hs part hp v hv y hy s' hs' part' hp' w hw _ _ _
    rw [hall x hx s hs part hp, hall y hy s' hs' part' hp']
    exact ⟨⟨fun h => absurd h no_text, fun h => absurd h no_text⟩, fun h => absurd h no_text⟩
  · intro ts hts n hn
    rw [List.mem_singleton.mp hts, List.mem_singleton] at hn
    subst hn
    exact ⟨⟨0, .signed, 4⟩, by decide +kernel, rfl⟩
  · intro p _ l hl
    obtain ⟨y, hy, hv⟩ := pt_shown p l hl
    unfold LPoint.Manageable
    rw [hy]
    refine ⟨by simp, ?_, ?_⟩
    · simp only [choices, pgTypes, List.map_cons, List.map_nil]
      generalize ascii "int" = t
      by_cases h : y.type = t <;> simp [h]
    · intro z hz _ _ _ b
      rw [List.mem_singleton.mp hz, hv]
      simp

/-- What the query returns: the call of `g` with 2 in `a.c` and the statement of `g` in `b.c`. -/
example : endAnswers ptHeader.names ptHeader.types ptCalls [0] pgSexp pgTypes =
    some (.ok [[(ascii "x", .int 2)], [(ascii "x", .int 2)]]) := by decide +kernel

/-! What the hypotheses exclude. -/

def ptNode (s : String) : ScopeVar := ⟨ascii "p", ⟨[.pointer], [⟨.base, ascii s⟩]⟩, 0⟩
def ptCases : List ProjFile :=
  [⟨ascii "a.c", true, [(1, [(false, [ptNode "node"])])]⟩, ⟨ascii "b.c", false, [(1, [(false, [ptNode "Node"])])]⟩]

/-- A type need not be in the tables under its own name: where another file has variables of type
`Node *`, those of type `node *` are recorded under that name too, and a query for `*node` is
an error although a variable of that type is recorded. -/
theorem C99_type_lost : (∀ f ∈ ptCases, f.Ok) ∧ OneTypePerFoldedName ptCases ∧
    typeTraceString (ptNode "node").type = ascii "*node" ∧
    ∃ (o o' : ProjOut) (h : ProjHeader), instrumentProject ptCases [] = ⟨[o'], [o], []⟩ ∧ o.header = some h ∧
      h.names = [ascii "*Node", ascii "p"] ∧ ¬ h.HasType (ascii "*node") ∧
      o.gens = [⟨packId (some 1) 1, [.variables [⟨1, 0, 8, .pointer, ptNode "node"⟩]]⟩] ∧
      endAnswers h.names h.types [(BitVec.ofNat 64 (packId (some 1) 1), [.variables 1 [.gp 1, .gp 0, .gp 8, .gp 3, .gp 0x2000]])]
        [0] .nil [[ascii "*Node"]] = some (.ok [[(ascii "p", .int 0x2000)]]) ∧
      endAnswers h.names h.types [(BitVec.ofNat 64 (packId (some 1) 1), [.variables 1 [.gp 1, .gp 0, .gp 8, .gp 3, .gp 0x2000]])]
        [0] .nil [[ascii "*node"]] = some (.throw .lisp) := by
  have hno : ∀ s, ¬ (ptNode s).AsText false := by
    rintro s ⟨h, _⟩
    exact absurd h (by simp)
  refine ⟨?_, ?_, by decide +kernel, ⟨[⟨packId (some 1) 1, [.variables [⟨1, 0, 8, .pointer, ptNode "node"⟩]]⟩],
      some ⟨[ascii "*Node", ascii "p"], [⟨0, .pointer, 8⟩]⟩⟩,
    ⟨[⟨packId (some 0) 1, [.variables [⟨1, 0, 8, .pointer, ptNode "Node"⟩]]⟩], none⟩, _, by decide +kernel, rfl, rfl,
    ?_, rfl, by decide +kernel, by decide +kernel⟩
  · have h1 : (ptNode "node").Ok := ⟨⟨by simp [ptNode], fun s hs => Specifier.plain_of (by revert s; decide +kernel)⟩,
      by decide +kernel, by decide +kernel⟩
    have h2 : (ptNode "Node").Ok := ⟨⟨by simp [ptNode], fun s hs => Specifier.plain_of (by revert s; decide +kernel)⟩,
      by decide +kernel, by decide +kernel⟩
    intro f hf
    simp only [ptCases, List.mem_cons, List.not_mem_nil, or_false] at hf
    rcases hf with rfl | rfl
    · exact ⟨by simp [h1], by simp, by simp⟩
    · exact ⟨by simp [h2], by simp, by simp⟩
  · have hall : ∀ x ∈ ptCases, ∀ s ∈ x.stmts, ∀ part ∈ s.2, ∃ s, part = (false, [ptNode s]) := by
      intro x hx s hs part hp
      simp only [ptCases, List.mem_cons, List.not_mem_nil, or_false] at hx
      rcases hx with rfl | rfl <;> rw [List.mem_singleton.mp hs] at hp <;> rw [List.mem_singleton.mp hp] <;> exact ⟨_, rfl⟩
    intro x hx s hs part hp v hv y hy s' hs' part' hp' w hw _ _ _
    obtain ⟨a, rfl⟩ := hall x hx s hs part hp
    obtain ⟨b, rfl⟩ := hall y hy s' hs' part' hp'
    rw [List.mem_singleton.mp hv, List.mem_singleton.mp hw]
    exact ⟨⟨fun h => absurd h (hno a), fun h => absurd h (hno b)⟩, fun h => absurd h (hno a)⟩
  · rintro ⟨r, hr, hn⟩
    rw [List.mem_singleton.mp hr] at hn
    revert hn
    decide +kernel

end TraceDB
