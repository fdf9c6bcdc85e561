import Verif.Proofs.Programs
/-
C98: programs of several functions, from their text to their trace and queries.
-/
namespace TraceDB

/-- **C98.**  Instrument all functions of a program.  What the compiler reads then
passes, in every run, exactly the points of the functions with their points, in the
same states, and leaves the same states; the original program leaves these states, too,
and passes no points.  So it is whatever actions, conditions and values do and wherever
they call functions, for all runs, those that end and those that are cut off (all bounds
`n` on rounds, `m` on jumps and `k` on calls inside each other). -/
theorem C98_program_runs (after : Bool) (filter : Nat → Nat → Bool) (funs : List Ast) (hok : FunctionsOk filter funs) :
    ∃ texts₀ texts, readEach funs = some texts₀ ∧ readEach (instrumentFunctions after filter funs) = some texts ∧
      ∀ (σ : Type) (pw : ProgWorld σ) (n m k f : Nat) (l : Life σ),
        callFn (textMeans n texts) pw m k f l = callFn (pointMeans after filter n funs) pw m k f l ∧
        callFn (textMeans n texts₀) pw m k f l = ([], (callFn (textMeans n texts) pw m k f l).2) := by
  obtain ⟨texts₀, h₀⟩ := readEach_some (xs := funs) fun x hx => by
    obtain ⟨f, hf⟩ := List.getElem?_of_mem hx
    obtain ⟨l₀, _, hl₀, _⟩ := C64_same_behaviour after id (filter f) x (hok f x hf).block (hok f x hf).plain
      (hok f x hf).shaped (hok f x hf).labels
    exact ⟨l₀, hl₀⟩
  obtain ⟨texts, ht⟩ := readEach_some (xs := instrumentFunctions after filter funs) fun x hx => by
    obtain ⟨f, hf⟩ := List.getElem?_of_mem hx
    rw [instrumentFunctions_get] at hf
    cases hy : funs[f]? with
    | none => rw [hy] at hf; cases hf
    | some y =>
      rw [hy] at hf
      cases hf
      obtain ⟨_, l, _, hl, _⟩ := C64_same_behaviour after id (filter f) y (hok f y hy).block (hok f y hy).plain
        (hok f y hy).shaped (hok f y hy).labels
      exact ⟨l, hl⟩
  refine ⟨texts₀, texts, h₀, ht, fun σ pw n m k f l => ⟨?_, ?_⟩⟩
  · rw [callFn_congr pw m (fun f w s => textMeans_points hok ht n f m w s) k]
  · have hown := fun f (w : ActWorld (Life σ)) s => textMeans_own hok h₀ ht n f m w s
    exact Prod.ext (callFn_silent pw m (fun f w s => by rw [hown]; exact ownSteps_silent _) k f l)
      (callFn_own pw m hown k f l)

/-- **C98.**  The states in which points are passed are those of the run: going through
the steps of a function leads to the state it leaves. -/
theorem C98_states {σ : Type} (call : FnMeaning σ) (pw : ProgWorld σ) (after : Bool) (filter : Nat → Nat → Bool)
    (funs : List Ast) (n m f : Nat) (l : Life σ) :
    let r := callBody (pointMeans after filter n funs f (fnWorld call pw f)) m none l
    replay call pw f r.1 l = r.2.1 := by
  have h : StepRel (fnWorld call pw f) (fun _ => True) fun s l s' => replay call pw f l s = s' :=
    ⟨fun _ => rfl, fun h1 h2 => by rw [replay_append, h1, h2], fun _ _ => rfl, fun _ _ => rfl, fun _ _ => rfl,
      fun _ _ _ => rfl⟩
  refine h.callBody ?_ m none l
  rw [pointMeans]
  cases funs[f]? with
  | none => exact h.seq (by simp)
  | some x => exact h.mean n _ (allPoints_true _)

/-- **C98.**  For each point passed there is exactly one place in the generated code. -/
theorem C98_code_at_points (after : Bool) (filter : Nat → Nat → Bool) (funs : List Ast) (hok : FunctionsOk filter funs)
    (texts : List (List CStmt)) (ht : readEach (instrumentFunctions after filter funs) = some texts) {σ : Type}
    (pw : ProgWorld σ) (n m k f : Nat) (l : Life σ) :
    ∀ p ∈ (callFn (textMeans n texts) pw m k f l).1, ∃ i : Nat, (programPoints after filter funs)[i]? = some (p.fn, p.point) ∧
      ∀ j : Nat, (programPoints after filter funs)[j]? = some (p.fn, p.point) → j = i := by
  rw [callFn_congr pw m (fun f w s => textMeans_points hok ht n f m w s) k]
  intro p hp
  obtain ⟨i, hi⟩ := List.getElem?_of_mem (passed_programPoints hok pw n m k f l p hp)
  exact ⟨i, hi, fun j hj => nodup_index (programPoints_nodup after filter funs) hi hj⟩

/-- **C98.**  If at each point passed the code generated for it is executed, the trace
can be loaded and shows one trace point for each point that the functions with their
points pass, in order, with the statement and the variables in that state. -/
theorem C98_trace (env : Env) (io : Bool) (cf : CFloat) (mem : CMem) (te : TableTests)
    (hte : te = .equal ∨ te = .equalp) (after : Bool) (filter : Nat → Nat → Bool) (funs : List Ast)
    (hok : FunctionsOk filter funs) (texts : List (List CStmt))
    (ht : readEach (instrumentFunctions after filter funs) = some texts)
    (file : Option Nat) (pos : Nat → Nat → Nat) (parts : Nat → PointEvent → List (Bool × List ScopeVar))
    (hsites : ∀ x ∈ programSites file pos parts (programPoints after filter funs), x.Ok)
    (gens : List GenSite) (tabs : Tables)
    (hins : instrumentSites te (programSites file pos parts (programPoints after filter funs)) Tables.empty = (gens, tabs))
    (hn : tabs.emitNames.length < 2 ^ 32) (hch : (tabs.emitNames.map fun n => n.length + 1).sum < 2 ^ 63)
    (hr : (tabs.emitTypes te).length < 2 ^ 32)
    {σ : Type} (pw : ProgWorld σ) (n m k f : Nat) (l : Life σ) (vars : Passed σ → CEnv) (calls : List (U64 × List RtCall))
    (hruns : AllRel (Passed.RunsAs cf mem (programPoints after filter funs) gens vars)
      (callFn (textMeans n texts) pw m k f l).1 calls)
    (hfit : ∀ p ∈ (callFn (textMeans n texts) pw m k f l).1, p.Fits cf parts vars) (hal : ∀ n, env.canAlloc n = true) :
    ∃ bs t ps, rtRun cf mem tabs.emitNames ((tabs.emitTypes te).map TypeRow.desc) calls = .ok bs ∧
      readTrace env 0 (gs io bs) = .ok t ∧ lispGetTrace t none = .ok ps ∧
      AllRel (Passed.Shown te file pos parts vars) (callFn (pointMeans after filter n funs) pw m k f l).1 ps := by
  rw [callFn_congr pw m (fun f w s => textMeans_points hok ht n f m w s) k] at hruns hfit
  obtain ⟨visits, hv, hvr⟩ := passed_visits hruns
  obtain ⟨bs, t, ps, h1, h2, h3, h4⟩ := C61_trace_shows_visits env io cf mem te hte _ gens tabs hsites hins hn hch hr
    visits calls hvr (fun v hv' => by
      obtain ⟨p, hp, hpv⟩ := hv.mem_right v hv'
      exact isVisit_fits hpv (hfit p hp)) hal
  exact ⟨bs, t, ps, h1, h2, h3, AllRel.comp hv h4 fun p v l hpv => (isVisit_shown hpv l).mp⟩

/-- **C98.**  And queries on it answer about the states in which the points are passed. -/
theorem C98_queries (fs : FloatSys) (env : Env) (pick : U32 → Nat → Nat) (io : Bool) (cf : CFloat) (mem : CMem)
    (after : Bool) (filter : Nat → Nat → Bool) (funs : List Ast)
    (hok : FunctionsOk filter funs) (texts : List (List CStmt))
    (ht : readEach (instrumentFunctions after filter funs) = some texts)
    (file : Option Nat) (pos : Nat → Nat → Nat) (parts : Nat → PointEvent → List (Bool × List ScopeVar))
    (hsites : ∀ x ∈ programSites file pos parts (programPoints after filter funs), x.Ok)
    (gens : List GenSite) (tabs : Tables)
    (hins : instrumentSites .equal (programSites file pos parts (programPoints after filter funs)) Tables.empty = (gens, tabs))
    (hn : tabs.emitNames.length < 2 ^ 32) (hch : (tabs.emitNames.map fun n => n.length + 1).sum < 2 ^ 63)
    (hr : (tabs.emitTypes .equal).length < 2 ^ 32)
    {σ : Type} (pw : ProgWorld σ) (n m k f : Nat) (l : Life σ) (vars : Passed σ → CEnv) (calls : List (U64 × List RtCall))
    (hruns : AllRel (Passed.RunsAs cf mem (programPoints after filter funs) gens vars)
      (callFn (textMeans n texts) pw m k f l).1 calls)
    (hfit : ∀ p ∈ (callFn (textMeans n texts) pw m k f l).1, p.Fits cf parts vars) (hal : ∀ n, env.canAlloc n = true)
    (hone : OneTypePerName (programSites file pos parts (programPoints after filter funs)))
    (names : List Nat) (s : SExp) (fm : Form) (h : PHeap) (hf : SexpPredicate names s fm)
    (varTypes : List (List (List U8))) (hlen : names.length = varTypes.length) (hl : names.length < 2 ^ 64)
    (hne : varTypes ≠ [])
    (hknown : ∀ ts ∈ varTypes, ∀ n ∈ ts, TypeRecorded (programSites file pos parts (programPoints after filter funs)) n)
    (qfile : Option Nat)
    (hfile : ∀ i, qfile = some i → i < 2 ^ 23 ∧
      ∀ x ∈ programSites file pos parts (programPoints after filter funs), x.file ≠ none ∨ (0 < i ∧ x.ast < 2 ^ 40))
    (qfilter : Option (LPoint → Bool))
    (hq : RunFits file pos parts vars (callFn (textMeans n texts) pw m k f l).1 varTypes) :
    let passed := (callFn (pointMeans after filter n funs) pw m k f l).1
    ∃ bs t ptr h' p rs c,
      rtRun cf mem tabs.emitNames ((tabs.emitTypes .equal).map TypeRow.desc) calls = .ok bs ∧
      readTrace env 0 (gs io bs) = .ok t ∧
      buildPredicate names s h = some (ptr, h') ∧ createPredicateObj h' ptr = .ok p ∧
      lispQuery env pick (plainEval fs) t ⟨varTypes, p, [], 0, qfile, qfilter⟩ [] () = .ok (rs, c, ()) ∧
      (∀ r ∈ rs, RunAnswers fs file pos parts vars passed varTypes qfile qfilter fm r) ∧
      (qfilter = none → ∀ a, RunAnswers fs file pos parts vars passed varTypes qfile qfilter fm a →
        ∃ r ∈ rs, exactKey r = exactKey a) ∧
      (qfilter ≠ none →
        (∀ a, RunAnswers fs file pos parts vars passed varTypes qfile qfilter fm a → ∃ r ∈ rs, foldedKey r = foldedKey a) ∧
        rs.Pairwise fun a b => foldedKey a ≠ foldedKey b) := by
  rw [callFn_congr pw m (fun f w s => textMeans_points hok ht n f m w s) k] at hruns hfit hq
  obtain ⟨visits, hv, hvr⟩ := passed_visits hruns
  have hans : ∀ r, RunAnswers fs file pos parts vars (callFn (pointMeans after filter n funs) pw m k f l).1 varTypes qfile
      qfilter fm r ↔ ProgramAnswers fs (programSites file pos parts (programPoints after filter funs)) visits varTypes
      qfile qfilter fm r := by
    intro r
    constructor
    · rintro ⟨p, hp, l, b, hs, rest⟩
      obtain ⟨v, hv', hpv⟩ := hv.mem_left p hp
      exact ⟨v, hv', l, b, (isVisit_shown hpv l).mpr hs, rest⟩
    · rintro ⟨v, hv', l, b, hs, rest⟩
      obtain ⟨p, hp, hpv⟩ := hv.mem_right v hv'
      exact ⟨p, hp, l, b, (isVisit_shown hpv l).mp hs, rest⟩
  obtain ⟨bs, t, ptr, h', p, rs, c, h1, h2, h3, h4, h5, h6, h7, h8⟩ :=
    C77_queries fs env pick io cf mem _ gens tabs hsites hins hn hch hr visits calls hvr (fun v hv' => by
      obtain ⟨p, hp, hpv⟩ := hv.mem_right v hv'
      exact isVisit_fits hpv (hfit p hp)) hal hone names s fm h hf varTypes hlen hl hne hknown qfile hfile qfilter
      (fun v hv' l hs => by
        obtain ⟨p, hp, hpv⟩ := hv.mem_right v hv'
        exact hq p hp l ((isVisit_shown hpv l).mp hs))
  exact ⟨bs, t, ptr, h', p, rs, c, h1, h2, h3, h4, h5, fun r hr => (hans r).mpr (h6 r hr),
    fun hf a ha => h7 hf a ((hans a).mp ha), fun hf => ⟨fun a ha => (h8 hf).1 a ((hans a).mp ha), (h8 hf).2⟩⟩

/-! A program: `int x; g() { x = x + 1; }  main() { x = 1; while (x < 3) g(); }`, with
`x` recorded everywhere, and the query for variables of type `int` greater than 1. -/

def pgMain : Ast := stOf .block [stAct 0, stOf (.whileLoop 0) [stExpr, stAct 3]]
def pgG : Ast := stOf .block [stAct 0]
def pgFuns : List Ast := [pgMain, pgG]
def pgFilter : Nat → Nat → Bool := fun _ _ => true
/-- The state is the value of `x`. -/
def pgWorld : ProgWorld Nat where
  act
    | 0, 0, _ => .done 1 .normal
    | 0, _, s => .call 1 s fun s => .done s .normal
    | _, _, s => .done (s + 1) .normal
  eval _ _ s := .done s (if s < 3 then 1 else 0)
def pgPoints : List (Nat × PointEvent) := [(1, ⟨0, false⟩), (0, ⟨3, false⟩), (0, ⟨1, false⟩), (0, ⟨0, false⟩)]
/-- The text as read by the compiler: `{ P0 x = 1; P1 while (x < 3) { P3 g(); } }` and
`{ P0 x = x + 1; }`. -/
def pgTexts : List (List CStmt) :=
  [[.block [.point ⟨0, false⟩, .act 0, .point ⟨1, false⟩, .whileLoop 0 [.block [.point ⟨3, false⟩, .act 3]]]],
   [.block [.point ⟨0, false⟩, .act 0]]]
def pgPassed : List (Passed Nat) :=
  [⟨0, ⟨0, false⟩, 0⟩, ⟨0, ⟨1, false⟩, 1⟩, ⟨0, ⟨3, false⟩, 1⟩, ⟨1, ⟨0, false⟩, 1⟩, ⟨0, ⟨3, false⟩, 2⟩, ⟨1, ⟨0, false⟩, 2⟩]
def pgPos (f num : Nat) : Nat := 10 * (f + 1) + num
def pgParts : Nat → PointEvent → List (Bool × List ScopeVar) := fun _ _ => [(false, [insX])]
def pgVars (p : Passed Nat) : CEnv := ⟨fun _ => .signed .four p.state, fun _ => []⟩
def pgGens : List GenSite := [20, 13, 11, 10].map fun i => ⟨i, [.variables [⟨1, 0, 4, .signed, insX⟩]]⟩
def pgCall (id x : U64) : U64 × List RtCall := (id, [.variables 1 [.gp 1, .gp 0, .gp 4, .gp 1, .gp x]])
def pgCalls : List (U64 × List RtCall) :=
  [pgCall 10 0, pgCall 11 1, pgCall 13 1, pgCall 20 1, pgCall 13 2, pgCall 20 2]
def pgSexp : SExp := .call .lt [.int 1, .call .vValue [.sym 0]]
def pgForm : Form := .cmp .lt (.nat 1) (.value 0)
def pgTypes : List (List (List U8)) := [[ascii "int"]]
def pgSites : List Site := programSites none pgPos pgParts pgPoints

theorem pgFuns_ok : FunctionsOk pgFilter pgFuns := by
  intro f x hx
  have key : ∀ y : Ast, y.kind = .block → y.plain = true → y.shaped = true → y.switchesBraced = true → y.FunctionOk (pgFilter f) := by
    rintro ⟨k, t, b, a, cs⟩ rfl hp hs hb
    unfold Ast.switchesBraced at hb
    rw [Bool.and_eq_true] at hb
    exact ⟨rfl, hp, hs, labelsSafeEach_all cs .block 0 0 hb.2 (by intro e he; cases he)⟩
  match f, hx with
  | 0, hx => cases hx; exact key _ (by decide +kernel) (by decide +kernel) (by decide +kernel) (by decide +kernel)
  | 1, hx => cases hx; exact key _ (by decide +kernel) (by decide +kernel) (by decide +kernel) (by decide +kernel)

theorem pgTexts_read : readEach (instrumentFunctions false pgFilter pgFuns) = some pgTexts := by
  show readEach [instrumentBody false id (fun _ => true) pgMain, instrumentBody false id (fun _ => true) pgG] = _
  simp only [pgMain, pgG, stOf, instrumentBody_edited]
  rfl

theorem pgPoints_eq : programPoints false pgFilter pgFuns = pgPoints := by
  have h1 : tracedSites (fun _ => true) pgMain = [(⟨[0], .block, 0, stAct 0⟩, 0),
      (⟨[1], .block, 1, stOf (.whileLoop 0) [stExpr, stAct 3]⟩, 1), (⟨[1, 1], .whileLoop 0, 1, stAct 3⟩, 3)] := rfl
  have h2 : tracedSites (fun _ => true) pgG = [(⟨[0], .block, 0, stAct 0⟩, 0)] := rfl
  show ([(pgG, 1), (pgMain, 0)] : List (Ast × Nat)).flatMap _ = _
  have h1 : tracedSites (pgFilter 0) pgMain = _ := h1
  have h2 : tracedSites (pgFilter 1) pgG = _ := h2
  simp only [List.flatMap_cons, List.flatMap_nil, h1, h2]
  simp [sortedSites, List.mergeSort, List.MergeSort.Internal.splitInTwo, pathLater, pgPoints]

/-- The run: both functions pass their points in the states given. -/
theorem pgRun : callFn (textMeans 9 pgTexts) pgWorld 9 9 0 ⟨0, false⟩ = (pgPassed, ⟨3, false⟩) := by decide +kernel

/-- The same where `g` ends the program. -/
example : callFn (textMeans 9 pgTexts) { pgWorld with act := fun f a s => if f = 1 then .exit s else pgWorld.act f a s }
    9 9 0 ⟨0, false⟩ = (pgPassed.take 4, ⟨1, true⟩) := by decide +kernel

theorem pgSites_ok : ∀ x ∈ pgSites, x.Ok := by
  have hx : insX.Ok := ⟨⟨by simp [insX], fun s hs => Specifier.plain_of (by revert s; decide +kernel)⟩,
    by decide +kernel, by decide +kernel⟩
  intro x hx'
  obtain ⟨⟨f, e⟩, he, rfl⟩ := List.mem_map.mp hx'
  refine ⟨?_, by simp [pgParts], ?_⟩
  · intro part hp v hv
    rw [List.mem_singleton.mp hp] at hv
    rw [List.mem_singleton.mp hv]
    exact hx
  · simp only [pgPoints, List.mem_cons, List.not_mem_nil, or_false, Prod.mk.injEq] at he
    rcases he with ⟨rfl, rfl⟩ | ⟨rfl, rfl⟩ | ⟨rfl, rfl⟩ | ⟨rfl, rfl⟩ <;> simp [pgPos]

theorem pgSites_code : (instrumentSites .equal pgSites Tables.empty).1 = pgGens ∧
    (instrumentSites .equal pgSites Tables.empty).2.emitNames = [ascii "int", ascii "x"] ∧
    (instrumentSites .equal pgSites Tables.empty).2.emitTypes .equal = endRows := by
  refine ⟨by decide +kernel, by decide +kernel, by decide +kernel⟩

theorem pgCalls_ok : AllRel (Passed.RunsAs exFloat exMem pgPoints pgGens pgVars) pgPassed pgCalls := by
  have c : ∀ (w : U64) (v : U32), w.setWidth 32 = v → (Slot.gp w).Carries32 v := fun _ _ h => Slot.carries h
  have key : ∀ (f num x i id : Nat), x < 9 → pgPoints[i]? = some (f, ⟨num, false⟩) →
      pgGens[i]? = some ⟨id, [.variables [⟨1, 0, 4, .signed, insX⟩]]⟩ →
      Passed.RunsAs exFloat exMem pgPoints pgGens pgVars ⟨f, ⟨num, false⟩, x⟩ (pgCall (BitVec.ofNat 64 id) (BitVec.ofNat 64 x)) := by
    intro f num x i id hx hp hg
    refine ⟨i, hp, _, hg, rfl, .cons ⟨_, _, rfl, rfl, ?_⟩ .nil⟩
    refine .cons (l := [_, _, _, _, _]) ⟨_, _, _, _, _, rfl, c _ _ (by decide), c _ _ (by decide), c _ _ (by decide),
      c _ _ (by decide), c _ _ ?_⟩ .nil
    have : x = 0 ∨ x = 1 ∨ x = 2 ∨ x = 3 ∨ x = 4 ∨ x = 5 ∨ x = 6 ∨ x = 7 ∨ x = 8 := by omega
    rcases this with rfl | rfl | rfl | rfl | rfl | rfl | rfl | rfl | rfl <;> rfl
  exact .cons (key 0 0 0 3 10 (by decide) rfl rfl) (.cons (key 0 1 1 2 11 (by decide) rfl rfl)
    (.cons (key 0 3 1 1 13 (by decide) rfl rfl) (.cons (key 1 0 1 0 20 (by decide) rfl rfl)
    (.cons (key 0 3 2 1 13 (by decide) rfl rfl) (.cons (key 1 0 2 0 20 (by decide) rfl rfl) .nil)))))

theorem pgPassed_fit : ∀ p ∈ pgPassed, p.Fits exFloat pgParts pgVars := by
  have hx : ∀ p ∈ pgPassed, p.state < 9 := by decide
  intro p hp part hpart v hv
  have hx := hx p hp
  rw [List.mem_singleton.mp hpart] at hv ⊢
  rw [List.mem_singleton.mp hv]
  refine ⟨fun _ => ⟨.signed "int" .four _ rfl (by unfold CType.Named; decide +kernel) (by decide +kernel), ?_, trivial⟩,
    fun _ => by simp [pgVars]⟩
  simp only [pgVars, CValue.InRange, IntSize.bytes]
  omega

theorem pg_shown (p : Passed Nat) (l : LPoint) (h : p.Shown .equal none pgPos pgParts pgVars l) :
    l.scopes = [⟨ascii "x", ascii "int", .int p.state, none⟩] := by
  obtain ⟨_, _, _, ls, hl, hs⟩ := h
  cases hs with
  | cons h1 h2 =>
    cases h2
    obtain ⟨sc, tx, l1, l2, rfl, hsc, htx, r1, r2⟩ := h1
    cases htx with
    | keep h _ => exact absurd h no_text
    | skip _ h => cases h; cases r2; cases hsc with
      | skip h _ => exact absurd end_scalar.1 h
      | keep _ h =>
        cases h
        cases r1 with
        | cons r1 r => 
          cases r
          obtain ⟨nm, ty, v, z⟩ := r1
          rename_i y
          obtain ⟨yn, yt, yv, yz⟩ := y
          simp only at nm ty v z
          subst v; subst z
          rw [hl, beq_iff_eq.mp nm, beq_iff_eq.mp ty]
          have et : typeTraceString insX.type = ascii "int" := by decide +kernel
          rw [et]
          rfl

/-- The hypotheses of `C98_trace` and `C98_queries` hold for this program and query. -/
example : ∃ gens tabs,
    instrumentSites .equal (programSites none pgPos pgParts (programPoints false pgFilter pgFuns)) Tables.empty = (gens, tabs) ∧
    FunctionsOk pgFilter pgFuns ∧ readEach (instrumentFunctions false pgFilter pgFuns) = some pgTexts ∧
    (∀ x ∈ programSites none pgPos pgParts (programPoints false pgFilter pgFuns), x.Ok) ∧
    tabs.emitNames.length < 2 ^ 32 ∧ (tabs.emitNames.map fun n => n.length + 1).sum < 2 ^ 63 ∧
    (tabs.emitTypes .equal).length < 2 ^ 32 ∧
    AllRel (Passed.RunsAs exFloat exMem (programPoints false pgFilter pgFuns) gens pgVars)
      (callFn (textMeans 9 pgTexts) pgWorld 9 9 0 ⟨0, false⟩).1 pgCalls ∧
    (∀ p ∈ (callFn (textMeans 9 pgTexts) pgWorld 9 9 0 ⟨0, false⟩).1, p.Fits exFloat pgParts pgVars) ∧
    OneTypePerName (programSites none pgPos pgParts (programPoints false pgFilter pgFuns)) ∧
    SexpPredicate [0] pgSexp pgForm ∧
    (∀ ts ∈ pgTypes, ∀ n ∈ ts, TypeRecorded (programSites none pgPos pgParts (programPoints false pgFilter pgFuns)) n) ∧
    RunFits none pgPos pgParts pgVars (callFn (textMeans 9 pgTexts) pgWorld 9 9 0 ⟨0, false⟩).1 pgTypes := by
  rw [pgPoints_eq, pgRun]
  refine ⟨(instrumentSites .equal pgSites Tables.empty).1, (instrumentSites .equal pgSites Tables.empty).2, rfl,
    pgFuns_ok, pgTexts_read, pgSites_ok, by rw [pgSites_code.2.1]; decide +kernel, by rw [pgSites_code.2.1]; decide +kernel,
    by rw [pgSites_code.2.2]; decide +kernel, by rw [pgSites_code.1]; exact pgCalls_ok, pgPassed_fit, ?_, ?_, ?_, ?_⟩
  · intro x hx part hp v hv y hy part' hp' w hw _ _ _
    obtain ⟨_, _, rfl⟩ := List.mem_map.mp hx
    obtain ⟨_, _, rfl⟩ := List.mem_map.mp hy
    rw [List.mem_singleton.mp hp, List.mem_singleton.mp hp']
    exact ⟨⟨fun h => absurd h no_text, fun h => absurd h no_text⟩, fun h => absurd h no_text⟩
  · have hx : IsVar [0] 0 0 := ⟨rfl, fun j hj => absurd hj (by omega)⟩
    exact .form (.cmp .lt (.nat (n := 1)) (.value hx))
  · intro ts hts n hn
    rw [List.mem_singleton.mp hts, List.mem_singleton] at hn
    subst hn
    exact ⟨_, List.mem_cons_self, _, List.mem_singleton.mpr rfl, insX, by simp, .inl end_scalar.1, by decide +kernel⟩
  · intro p _ l hl
    rw [pg_shown p l hl]
    refine ⟨by simp, ?_, ?_⟩
    · simp only [choices, pgTypes]
      generalize ascii "int" = t
      simp
    · intro z hz _ _ _ b
      rw [List.mem_singleton.mp hz]
      simp

/-- What the query returns: the call of `g` with 2 and the statement in it. -/
example : endAnswers [ascii "int", ascii "x"] endRows pgCalls [0] pgSexp pgTypes =
    some (.ok [[(ascii "x", .int 2)], [(ascii "x", .int 2)]]) := by decide +kernel

end TraceDB
