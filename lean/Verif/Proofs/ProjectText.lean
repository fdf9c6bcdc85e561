import Verif.Proofs.ProjectTold
/-
Helper lemmas about traces of projects and queries on them.
-/
namespace TraceDB

theorem SiteGen.left {te : TableTests} {s : Tables} {rs : List TabReq} {x : Site} {g : GenSite} (h : SiteGen te s rs x g)
    (rs' : List TabReq) : SiteGen te s (rs ++ rs') x g := by
  obtain ⟨h1, cs, h2, h3⟩ := h
  exact ⟨h1, cs, h2, h3.imp fun _ _ h => h.left rs'⟩

theorem SiteGen.right {te : TableTests} {s : Tables} {rs : List TabReq} {x : Site} {g : GenSite} (rs0 : List TabReq)
    (h : SiteGen te (s.requests te rs0).2 rs x g) : SiteGen te s (rs0 ++ rs) x g := by
  obtain ⟨h1, cs, h2, h3⟩ := h
  exact ⟨h1, cs, h2, h3.imp fun _ _ h => h.right rs0⟩

/-- Files instrumented in turn. -/
theorem instrumentFiles_spec (te : TableTests) : ∀ (fs : List (ProjFile × Nat)) (s : Tables),
    (∀ f ∈ fs, ∀ x ∈ f.1.sites f.2, x.Ok) →
    ∃ rs, (instrumentFiles te fs s).2 = (s.requests te rs).2 ∧ (∀ r ∈ rs, r.Ok) ∧
      AllRel (fun f o => AllRel (SiteGen te s rs) (f.1.sites f.2) o.gens) fs (instrumentFiles te fs s).1
  | [], s, _ => ⟨[], rfl, by simp, .nil⟩
  | f :: fs, s, hok => by
    obtain ⟨rs1, h1, h2, h3⟩ := instrumentSites_spec te (f.1.sites f.2) s (hok f (by simp))
    obtain ⟨rs2, i1, i2, i3⟩ := instrumentFiles_spec te fs (s.requests te rs1).2
      fun q hq => hok q (List.mem_cons_of_mem _ hq)
    refine ⟨rs1 ++ rs2, ?_, ?_, ?_⟩
    · rw [instrumentFiles]
      simp only [h1, i1, requests_append]
    · intro r hr
      rcases List.mem_append.mp hr with hr | hr
      · exact h2 r hr
      · exact i2 r hr
    · rw [instrumentFiles]
      simp only [h1]
      exact .cons (h3.imp fun _ _ h => h.left rs2) (i3.imp fun _ _ h => h.imp fun _ _ h => h.right rs1)

/-- The types in the tables come from variables of the files. -/
theorem instrumentFiles_keys (te : TableTests) : ∀ (fs : List (ProjFile × Nat)) (s : Tables),
    ∀ k ∈ (instrumentFiles te fs s).2.rows.map (·.1), k ∈ s.rows.map (·.1) ∨
      ∃ f ∈ fs, ∃ x ∈ f.1.stmts, ∃ part ∈ x.2, ∃ v ∈ part.2, v.IsRecorded part.1 ∧ k = v.key part.1
  | [], s, k, hk => .inl hk
  | f :: fs, s, k, hk => by
    rcases instrumentFiles_keys te fs _ k hk with h | ⟨y, hy, h⟩
    · rcases instrumentSites_keys te (f.1.sites f.2) s k h with h | ⟨x, hx, h⟩
      · exact .inl h
      · obtain ⟨s, hs, rfl⟩ := List.mem_map.mp hx
        exact .inr ⟨f, by simp, s, hs, h⟩
    · exact .inr ⟨y, List.mem_cons_of_mem _ hy, h⟩

theorem ProjFile.Ok.sites {f : ProjFile} (h : f.Ok) {q : Nat} (hq : q < 2 ^ 23) : ∀ x ∈ f.sites q, x.Ok := by
  intro x hx
  obtain ⟨s, hs, rfl⟩ := List.mem_map.mp hx
  exact ⟨h.vars s hs, h.count s hs, by simp only; exact ⟨hq, h.number s hs⟩⟩

theorem zipIdx_mem {α : Type} {l : List α} {x : α × Nat} (h : x ∈ l.zipIdx) : l[x.2]? = some x.1 ∧ x.2 < l.length := by
  obtain ⟨q, hq⟩ := List.getElem?_of_mem h
  rw [List.getElem?_zipIdx, Option.map_eq_some_iff] at hq
  obtain ⟨y, hy, rfl⟩ := hq
  simp only [Nat.zero_add]
  exact ⟨hy, (List.getElem?_eq_some_iff.mp hy).1⟩

theorem projTold_files {files : List ProjFile} {k : Nat} (hok : ∀ f ∈ files, f.Ok) (hlen : files.length ≤ 2 ^ 23)
    {h : ProjHeader}
    (hh : initTracing .equalp true (instrumentFiles .equalp (files.zipIdx.take k) Tables.empty).2 = some h) :
    ∃ rs, ProjTold files (instrumentFiles .equalp files.zipIdx Tables.empty).1 k h rs := by
  simp only [initTracing, if_true, Option.some.injEq] at hh
  obtain ⟨rs, h1, h2, h3⟩ := instrumentFiles_spec .equalp (files.zipIdx.take k) Tables.empty fun f hf x hx => by
    obtain ⟨g1, g2⟩ := zipIdx_mem (List.mem_of_mem_take hf)
    exact (hok _ (List.mem_of_getElem? g1)).sites (by omega) x hx
  refine ⟨rs, h2, ?_, by rw [← hh, h1], by rw [instrumentFiles_length, List.length_zipIdx], ?_⟩
  · intro e he
    rw [← h1] at he
    rcases instrumentFiles_keys .equalp _ _ _ (List.mem_map_of_mem he) with h | ⟨f, hf, h⟩
    · simp [Tables.empty] at h
    · exact ⟨f.1, List.mem_of_getElem? (zipIdx_mem (List.mem_of_mem_take hf)).1, h⟩
  · intro q f o hq hf ho
    have hz : files.zipIdx = files.zipIdx.take k ++ files.zipIdx.drop k := (List.take_append_drop k _).symm
    have hql := (List.getElem?_eq_some_iff.mp hf).1
    rw [hz, instrumentFiles_append, List.getElem?_append_left (by
      rw [instrumentFiles_length, List.length_take, List.length_zipIdx]; omega)] at ho
    obtain ⟨x, hx, hr⟩ := h3.get _ _ ho
    simp only [List.getElem?_take, hq, if_true, List.getElem?_zipIdx, hf, Option.map_some, Option.some.injEq] at hx
    subst hx
    simpa using hr

/-- Queries on the trace of a program built from the first `k` files. -/
theorem project_queries (fs : FloatSys) (env : Env) (pick : U32 → Nat → Nat) (io : Bool) (cf : CFloat) (mem : CMem)
    (files : List ProjFile) (k : Nat)
    (hok : ∀ f ∈ files, f.Ok) (hlen : files.length ≤ 2 ^ 23) (h : ProjHeader)
    (hh : initTracing .equalp true (instrumentFiles .equalp (files.zipIdx.take k) Tables.empty).2 = some h)
    (hsmall : h.Small) (visits : List ProjVisit) (calls : List (U64 × List RtCall))
    (hruns : AllRel (ProjVisit.RunsAs cf mem (instrumentFiles .equalp files.zipIdx Tables.empty).1) visits calls)
    (hk : ∀ v ∈ visits, v.file < k) (hfit : ∀ v ∈ visits, v.Fits cf files) (hal : ∀ n, env.canAlloc n = true)
    (hone : OneTypePerFoldedName files)
    (names : List Nat) (s : SExp) (f : Form) (ph : PHeap) (hf : SexpPredicate names s f)
    (varTypes : List (List (List U8))) (hvl : names.length = varTypes.length) (hl : names.length < 2 ^ 64)
    (hne : varTypes ≠ []) (hknown : ∀ ts ∈ varTypes, ∀ n ∈ ts, h.HasType n) (file : Option Nat)
    (hfile : ∀ i, file = some i → i < 2 ^ 23) (filter : Option (LPoint → Bool))
    (hq : ∀ v ∈ visits, ∀ l, v.Shown files l → l.Manageable varTypes) :
    ∃ bs t ps ptr ph' p rs c,
      rtRun cf mem h.names (h.types.map TypeRow.desc) calls = .ok bs ∧ readTrace env 0 (gs io bs) = .ok t ∧
      lispGetTrace t none = .ok ps ∧ AllRel (ProjVisit.Shown files) visits ps ∧
      buildPredicate names s ph = some (ptr, ph') ∧ createPredicateObj ph' ptr = .ok p ∧
      lispQuery env pick (plainEval fs) t ⟨varTypes, p, [], 0, file, filter⟩ [] () = .ok (rs, c, ()) ∧
      (∀ r ∈ rs, ShownAnswers fs ps varTypes file filter f r) ∧
      (filter = none → ∀ a, ShownAnswers fs ps varTypes file filter f a → ∃ r ∈ rs, exactKey r = exactKey a) ∧
      (filter ≠ none → (∀ a, ShownAnswers fs ps varTypes file filter f a → ∃ r ∈ rs, foldedKey r = foldedKey a) ∧
        rs.Pairwise fun a b => foldedKey a ≠ foldedKey b) := by
  obtain ⟨reqs, told⟩ := projTold_files hok hlen hh
  exact told_queries fs env pick io cf mem told hok hlen hsmall visits calls hruns hk hfit hal hone names s f ph hf
    varTypes hvl hl hne hknown file hfile filter hq

/-! Files and their numbers -/

theorem filter_get {α : Type} {p : α → Bool} {x : α} (hp : p x = true) : ∀ (l : List α) (e : Nat), l[e]? = some x →
    (l.filter p)[(l.take e).countP p]? = some x
  | [], _, h => by simp at h
  | y :: l, 0, h => by
    simp only [List.getElem?_cons_zero, Option.some.injEq] at h
    subst h
    simp [hp]
  | y :: l, e + 1, h => by
    have ih := filter_get hp l e (by simpa using h)
    rw [List.take_succ_cons, List.countP_cons, List.filter_cons]
    by_cases hy : p y = true
    · simp only [hy, if_true, List.getElem?_cons_succ]
      exact ih
    · simp only [hy, if_false, Bool.false_eq_true, Nat.add_zero]
      exact ih

theorem projectFiles_get (files : List (Name × Bool)) (fileOf : Nat → Nat) (pos : Nat → Nat → Nat)
    (parts : Nat → PointEvent → List (Bool × List ScopeVar)) (pts : List (Nat × PointEvent)) (e : Nat) :
    (projectFiles files fileOf pos parts pts)[e]? = files[e]?.map fun x =>
      ⟨x.1, x.2, (pointsInFile fileOf pts e).map fun p => (pos p.1 p.2.id, parts p.1 p.2)⟩ := by
  rw [projectFiles, List.getElem?_map, List.getElem?_zipIdx]
  cases files[e]? with
  | none => rfl
  | some x => simp

theorem projectFiles_mains (files : List (Name × Bool)) (fileOf : Nat → Nat) (pos : Nat → Nat → Nat)
    (parts : Nat → PointEvent → List (Bool × List ScopeVar)) (pts : List (Nat × PointEvent)) :
    (projectFiles files fileOf pos parts pts).map (·.main) = files.map (·.2) := by
  apply List.ext_getElem?
  intro e
  rw [List.getElem?_map, projectFiles_get, List.getElem?_map]
  cases files[e]? <;> rfl

/-- The file with a number is the file that has it. -/
theorem fileNumber_get (files : List (Name × Bool)) (fileOf : Nat → Nat) (pos : Nat → Nat → Nat)
    (parts : Nat → PointEvent → List (Bool × List ScopeVar)) (pts : List (Nat × PointEvent)) (e : Nat) (x : Name × Bool)
    (hx : files[e]? = some x) :
    (instrumentationFiles (projectFiles files fileOf pos parts pts))[fileNumber files e]? =
      some ⟨x.1, x.2, (pointsInFile fileOf pts e).map fun p => (pos p.1 p.2.id, parts p.1 p.2)⟩ := by
  have hget := projectFiles_get files fileOf pos parts pts e
  rw [hx] at hget
  simp only [Option.map_some] at hget
  have hm := projectFiles_mains files fileOf pos parts pts
  generalize projectFiles files fileOf pos parts pts = evolve at hget hm
  have hc : ∀ (q : Bool → Bool) (n : Nat), (evolve.take n).countP (fun f => q f.main) = (files.take n).countP fun f => q f.2 := by
    intro q n
    have : ((evolve.map (·.main)).take n).countP q = ((files.map (·.2)).take n).countP q := by rw [hm]
    rw [← List.map_take, ← List.map_take, List.countP_map, List.countP_map] at this
    exact this
  have hall : (evolve.filter fun f => !f.main).length = files.countP fun f => !f.2 := by
    rw [← List.countP_eq_length_filter]
    have := congrArg (List.countP fun b : Bool => !b) hm
    rw [List.countP_map, List.countP_map] at this
    exact this
  obtain ⟨path, main⟩ := x
  unfold instrumentationFiles fileNumber
  rw [hx]
  cases main with
  | true =>
    have := filter_get (p := fun f : ProjFile => f.main) rfl evolve e hget
    rw [List.getElem?_append_right (by rw [hall]; simp)]
    rw [hall, Nat.add_sub_cancel_left, ← hc fun b => b]
    exact this
  | false =>
    have := filter_get (p := fun f : ProjFile => !f.main) rfl evolve e hget
    have e1 := hc (fun b => !b) e
    simp only at e1 ⊢
    rw [e1] at this
    rw [List.getElem?_append_left (List.getElem?_eq_some_iff.mp this).1]
    exact this

/-! Points passed in a project -/

/-- The visit that passing a point is. -/
def Passed.IsProjVisit {σ : Type} (files : List (Name × Bool)) (fileOf : Nat → Nat) (pts : List (Nat × PointEvent))
    (env : Passed σ → CEnv) (p : Passed σ) (v : ProjVisit) : Prop :=
  fileOf p.fn < files.length ∧ v.file = fileNumber files (fileOf p.fn) ∧
    (pointsInFile fileOf pts (fileOf p.fn))[v.stmt]? = some (p.fn, p.point) ∧ v.env = env p

theorem passed_projVisits {σ : Type} {cf : CFloat} {mem : CMem} {files : List (Name × Bool)} {fileOf : Nat → Nat}
    {pts : List (Nat × PointEvent)} {outs : List ProjOut} {env : Passed σ → CEnv} {ps : List (Passed σ)}
    {calls : List (U64 × List RtCall)} (h : AllRel (Passed.RunsIn cf mem files fileOf pts outs env) ps calls) :
    ∃ visits, AllRel (Passed.IsProjVisit files fileOf pts env) ps visits ∧
      AllRel (ProjVisit.RunsAs cf mem outs) visits calls := by
  induction h with
  | nil => exact ⟨[], .nil, .nil⟩
  | cons h _ ih =>
    obtain ⟨visits, h1, h2⟩ := ih
    obtain ⟨j, hl, hj, hr⟩ := h
    exact ⟨_ :: visits, .cons ⟨hl, rfl, hj, rfl⟩ h1, .cons hr h2⟩

theorem isProjVisit_get {σ : Type} {files : List (Name × Bool)} {fileOf : Nat → Nat} {pts : List (Nat × PointEvent)}
    {env : Passed σ → CEnv} {p : Passed σ} {v : ProjVisit} (h : p.IsProjVisit files fileOf pts env v)
    (pos : Nat → Nat → Nat) (parts : Nat → PointEvent → List (Bool × List ScopeVar)) :
    ∃ f : ProjFile, (instrumentationFiles (projectFiles files fileOf pos parts pts))[v.file]? = some f ∧
      f.stmts[v.stmt]? = some (pos p.fn p.point.id, parts p.fn p.point) := by
  obtain ⟨h1, h2, h3, h4⟩ := h
  rw [h2]
  refine ⟨_, fileNumber_get files fileOf pos parts pts _ _ (List.getElem?_eq_getElem h1), ?_⟩
  rw [List.getElem?_map, h3]
  rfl

theorem isProjVisit_shown {σ : Type} {files : List (Name × Bool)} {fileOf : Nat → Nat} {pts : List (Nat × PointEvent)}
    {env : Passed σ → CEnv} {p : Passed σ} {v : ProjVisit} (h : p.IsProjVisit files fileOf pts env v)
    {pos : Nat → Nat → Nat} {parts : Nat → PointEvent → List (Bool × List ScopeVar)} (l : LPoint) :
    v.Shown (instrumentationFiles (projectFiles files fileOf pos parts pts)) l ↔ p.ShownIn files fileOf pos parts env l := by
  obtain ⟨f, hf, hs⟩ := isProjVisit_get h pos parts
  constructor
  · rintro ⟨f', s, hf', hs', hc, hff, ha, hsc⟩
    rw [hf] at hf'
    cases hf'
    rw [hs] at hs'
    cases hs'
    rw [h.2.2.2] at hsc
    rw [h.2.1] at hff
    exact ⟨hc, hff, ha, hsc⟩
  · rintro ⟨hc, hff, ha, hsc⟩
    refine ⟨f, _, hf, hs, hc, ?_, ha, ?_⟩
    · rw [h.2.1]
      exact hff
    · rw [h.2.2.2]
      exact hsc

theorem isProjVisit_fits {σ : Type} {cf : CFloat} {files : List (Name × Bool)} {fileOf : Nat → Nat}
    {pts : List (Nat × PointEvent)} {env : Passed σ → CEnv} {p : Passed σ} {v : ProjVisit}
    (h : p.IsProjVisit files fileOf pts env v) {pos : Nat → Nat → Nat}
    {parts : Nat → PointEvent → List (Bool × List ScopeVar)} (hp : p.Fits cf parts env) :
    v.Fits cf (instrumentationFiles (projectFiles files fileOf pos parts pts)) := by
  obtain ⟨f, hf, hs⟩ := isProjVisit_get h pos parts
  intro f' s hf' hs'
  rw [hf] at hf'
  cases hf'
  rw [hs] at hs'
  cases hs'
  rw [h.2.2.2]
  exact hp

end TraceDB
