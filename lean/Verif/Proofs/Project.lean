import Verif.Spec.Project
import Verif.Proofs.InstrumentRun
import Verif.Proofs.RuntimeThreads
/-
Helper lemmas about the instrumentation of projects.
-/
namespace TraceDB

theorem instrumentSites_append (te : TableTests) (xs ys : List Site) (s : Tables) :
    instrumentSites te (xs ++ ys) s =
      ((instrumentSites te xs s).1 ++ (instrumentSites te ys (instrumentSites te xs s).2).1,
        (instrumentSites te ys (instrumentSites te xs s).2).2) := by
  induction xs generalizing s with
  | nil => rfl
  | cons x xs ih => simp only [List.cons_append, instrumentSites, ih]

theorem instrumentSites_ids (te : TableTests) (xs : List Site) (s : Tables) :
    (instrumentSites te xs s).1.map (·.id) = xs.map fun x => packId x.file x.ast := by
  induction xs generalizing s with
  | nil => rfl
  | cons x xs ih => simp only [instrumentSites, List.map_cons, ih]

theorem instrumentFiles_append (te : TableTests) (xs ys : List (ProjFile × Nat)) (s : Tables) :
    instrumentFiles te (xs ++ ys) s =
      ((instrumentFiles te xs s).1 ++ (instrumentFiles te ys (instrumentFiles te xs s).2).1,
        (instrumentFiles te ys (instrumentFiles te xs s).2).2) := by
  induction xs generalizing s with
  | nil => rfl
  | cons x xs ih => simp only [List.cons_append, instrumentFiles, ih]

theorem instrumentFiles_length (te : TableTests) (xs : List (ProjFile × Nat)) (s : Tables) :
    (instrumentFiles te xs s).1.length = xs.length := by
  induction xs generalizing s with
  | nil => rfl
  | cons x xs ih => simp only [instrumentFiles, List.length_cons, ih]

theorem instrumentFiles_flat (te : TableTests) (xs : List (ProjFile × Nat)) (s : Tables) :
    instrumentSites te (xs.map fun f => f.1.sites f.2).flatten s =
      (((instrumentFiles te xs s).1.map (·.gens)).flatten, (instrumentFiles te xs s).2) := by
  induction xs generalizing s with
  | nil => rfl
  | cons x xs ih =>
    rw [List.map_cons, List.flatten_cons, instrumentSites_append, ih]
    rfl

/-- What is done for the file at a position. -/
theorem instrumentFiles_get (te : TableTests) (xs : List (ProjFile × Nat)) :
    ∀ (s : Tables) (p : Nat) (f : ProjFile) (id : Nat), xs[p]? = some (f, id) →
      (instrumentFiles te xs s).1[p]? =
        some ⟨(instrumentSites te (f.sites id) (instrumentFiles te (xs.take p) s).2).1,
          initTracing te f.main (instrumentFiles te (xs.take (p + 1)) s).2⟩ := by
  induction xs with
  | nil => intro s p f id h; simp at h
  | cons x xs ih =>
    intro s p f id h
    cases p with
    | zero =>
      simp only [List.getElem?_cons_zero, Option.some.injEq] at h
      subst h
      rfl
    | succ p =>
      have := ih (instrumentSites te (x.1.sites x.2) s).2 p f id (by simpa using h)
      simpa [instrumentFiles] using this

/-- All evolve files in one list. -/
theorem instrumentationFiles_filter (evolve : List ProjFile) :
    (instrumentationFiles evolve).filter (fun f => !f.main) = evolve.filter (fun f => !f.main) ∧
    (instrumentationFiles evolve).zipIdx.filter (fun f => f.1.main) =
      (evolve.filter (fun f => f.main)).zipIdx (evolve.filter (fun f => !f.main)).length := by
  unfold instrumentationFiles
  constructor
  · rw [List.filter_append, List.filter_filter, List.filter_filter]
    have h : (evolve.filter fun f => (!f.main) && f.main) = [] := by
      rw [List.filter_eq_nil_iff]; intro f _; cases f.main <;> simp
    simp only [Bool.and_self, h, List.append_nil]
  · rw [List.zipIdx_append, List.filter_append]
    have h1 : ((evolve.filter fun f => !f.main).zipIdx.filter fun f => f.1.main) = [] := by
      rw [List.filter_eq_nil_iff]
      intro x hx
      have := List.fst_mem_of_mem_zipIdx hx
      have := (List.mem_filter.mp this).2
      simpa using this
    have h2 : ∀ n, ((evolve.filter fun f => f.main).zipIdx n).filter (fun f => f.1.main) =
        (evolve.filter fun f => f.main).zipIdx n := by
      intro n
      rw [List.filter_eq_self]
      intro x hx
      exact (List.mem_filter.mp (List.fst_mem_of_mem_zipIdx hx)).2
    rw [h1, List.nil_append, Nat.zero_add, h2]

/-- Both loops together go through the files in the order of `instrumentation-files`. -/
theorem instrumentProject_outs (evolve other : List ProjFile) :
    (instrumentProject evolve other).plain ++ (instrumentProject evolve other).mains =
      (instrumentFiles .equalp (instrumentationFiles evolve).zipIdx Tables.empty).1 ∧
    (instrumentProject evolve other).others = other.map fun f => initTracing .equalp f.main
      (instrumentFiles .equalp (instrumentationFiles evolve).zipIdx Tables.empty).2 := by
  obtain ⟨h1, h2⟩ := instrumentationFiles_filter evolve
  have hz : (instrumentationFiles evolve).zipIdx =
      (evolve.filter (fun f => !f.main)).zipIdx ++
        (evolve.filter (fun f => f.main)).zipIdx (evolve.filter (fun f => !f.main)).length := by
    unfold instrumentationFiles
    rw [List.zipIdx_append, Nat.zero_add]
  rw [hz, instrumentFiles_append]
  unfold instrumentProject
  simp only [h1, h2]
  exact ⟨trivial, trivial⟩

theorem flatten_getElem? {α : Type} (L : List (List α)) :
    ∀ (q j : Nat) (l : List α) (x : α), L[q]? = some l → l[j]? = some x →
      L.flatten[((L.map List.length).take q).sum + j]? = some x := by
  induction L with
  | nil => intro q j l x h; simp at h
  | cons y L ih =>
    intro q j l x h hx
    cases q with
    | zero =>
      simp only [List.getElem?_cons_zero, Option.some.injEq] at h
      subst h
      have hj := (List.getElem?_eq_some_iff.mp hx).1
      simp only [List.take_zero, List.sum_nil, Nat.zero_add, List.flatten_cons]
      rw [List.getElem?_append_left hj, hx]
    | succ q =>
      have := ih q j l x (by simpa using h) hx
      simp only [List.map_cons, List.take_succ_cons, List.sum_cons, List.flatten_cons]
      rw [List.getElem?_append_right (by omega), ← this]
      congr 1
      omega

theorem AllRel.of_map_left {α β γ : Type} {R : γ → β → Prop} {f : α → γ} :
    ∀ {l : List α} {m : List β}, AllRel R (l.map f) m → AllRel (fun x y => R (f x) y) l m
  | [], _, h => by cases h; exact .nil
  | x :: l, _, h => by
    cases h with
    | cons h hs => exact .cons h (AllRel.of_map_left hs)

theorem AllRel.mem_left {α β : Type} {R : α → β → Prop} {l : List α} {m : List β} (h : AllRel R l m) :
    ∀ x ∈ l, ∃ y ∈ m, R x y := by
  induction h with
  | nil => simp
  | cons hx _ ih =>
    intro x hm
    rcases List.mem_cons.mp hm with rfl | hm
    · exact ⟨_, by simp, hx⟩
    · obtain ⟨y, hy, hr⟩ := ih x hm
      exact ⟨y, by simp [hy], hr⟩

/-- Runs of programs that were built from the first `k` files, with the tables as they are
after these. -/
theorem project_run (env : Env) (io : Bool) (cf : CFloat) (mem : CMem) (files : List ProjFile) (k : Nat)
    (hok : ∀ f ∈ files, f.Ok) (hlen : files.length ≤ 2 ^ 23) (h : ProjHeader)
    (hh : initTracing .equalp true (instrumentFiles .equalp (files.zipIdx.take k) Tables.empty).2 = some h)
    (hsmall : h.Small) (visits : List ProjVisit) (calls : List (U64 × List RtCall))
    (hruns : AllRel (ProjVisit.RunsAs cf mem (instrumentFiles .equalp files.zipIdx Tables.empty).1) visits calls)
    (hk : ∀ v ∈ visits, v.file < k) (hfit : ∀ v ∈ visits, v.Fits cf files) (hal : ∀ n, env.canAlloc n = true) :
    ∃ bs t ps, rtRun cf mem h.names (h.types.map TypeRow.desc) calls = .ok bs ∧
      readTrace env 0 (gs io bs) = .ok t ∧ lispGetTrace t none = .ok ps ∧
      AllRel (ProjVisit.Shown files) visits ps := by
  simp only [initTracing, if_true, Option.some.injEq] at hh
  subst hh
  obtain ⟨hn, hch, hr⟩ := hsmall
  simp only at hn hch hr
  -- the numbered files and their statements
  let fs := files.zipIdx.take k
  let L := fs.map fun f => f.1.sites f.2
  let G := (instrumentFiles .equalp fs Tables.empty).1.map (·.gens)
  have hflat := instrumentFiles_flat .equalp fs Tables.empty
  -- the outputs of the first files
  have houts : ∀ q, q < k → (instrumentFiles .equalp files.zipIdx Tables.empty).1[q]? =
      (instrumentFiles .equalp fs Tables.empty).1[q]? := by
    intro q hq
    have : files.zipIdx = fs ++ files.zipIdx.drop k := (List.take_append_drop k _).symm
    rw [this, instrumentFiles_append]
    by_cases hql : q < (instrumentFiles .equalp fs Tables.empty).1.length
    · exact List.getElem?_append_left hql
    · rw [instrumentFiles_length] at hql
      have hlk : files.zipIdx.length ≤ k := by
        rcases Nat.lt_or_ge k files.zipIdx.length with h' | h'
        · have : fs.length = k := by simp only [fs, List.length_take]; omega
          omega
        · exact h'
      have hd : files.zipIdx.drop k = [] := List.drop_eq_nil_iff.mpr hlk
      rw [hd]
      simp [instrumentFiles]
  have hlens : L.map List.length = G.map List.length := by
    apply List.ext_getElem?
    intro q
    simp only [L, G, List.getElem?_map]
    cases hq : fs[q]? with
    | none =>
      have : (instrumentFiles .equalp fs Tables.empty).1[q]? = none := by
        rw [List.getElem?_eq_none_iff, instrumentFiles_length]
        exact List.getElem?_eq_none_iff.mp hq
      simp [this]
    | some f =>
      obtain ⟨f, id⟩ := f
      rw [instrumentFiles_get .equalp fs Tables.empty q f id hq]
      have := congrArg List.length (instrumentSites_ids .equalp (f.sites id)
        (instrumentFiles .equalp (fs.take q) Tables.empty).2)
      simp only [List.length_map] at this
      simp [this]
  have hfs : ∀ (q : Nat) (f : ProjFile × Nat), fs[q]? = some f → files[q]? = some f.1 ∧ f.2 = q := by
    intro q f hq
    simp only [fs, List.getElem?_take] at hq
    split at hq
    · rw [List.getElem?_zipIdx] at hq
      cases hf : files[q]? with
      | none => simp [hf] at hq
      | some f' => simp [hf] at hq; subst hq; simp
    · cases hq
  -- the place of a visit in the list of all statements
  let flat : ProjVisit → Visit := fun v => ⟨((L.map List.length).take v.file).sum + v.stmt, v.env⟩
  have hplace : ∀ v ∈ visits, ∃ (f : ProjFile) (s : Nat × List (Bool × List ScopeVar)),
      files[v.file]? = some f ∧ f.stmts[v.stmt]? = some s ∧
      L.flatten[(flat v).site]? = some ⟨some v.file, s.1, s.2⟩ := by
    intro v hv
    obtain ⟨c, _, o, g, ho, hg, _⟩ := hruns.mem_left v hv
    rw [houts v.file (hk v hv)] at ho
    have hq : v.file < fs.length := by
      have := (List.getElem?_eq_some_iff.mp ho).1
      rwa [instrumentFiles_length] at this
    obtain ⟨⟨f, id⟩, hf⟩ : ∃ f, fs[v.file]? = some f := ⟨_, List.getElem?_eq_getElem hq⟩
    obtain ⟨hf1, hf2⟩ := hfs _ _ hf
    simp only at hf1 hf2
    subst hf2
    rw [instrumentFiles_get .equalp fs Tables.empty v.file f v.file hf] at ho
    cases ho
    have hlg := (List.getElem?_eq_some_iff.mp hg).1
    have hids := congrArg List.length (instrumentSites_ids .equalp (f.sites v.file)
      (instrumentFiles .equalp (fs.take v.file) Tables.empty).2)
    simp only [List.length_map, ProjFile.sites] at hids
    simp only [ProjFile.sites] at hlg
    have hj : v.stmt < f.stmts.length := by omega
    refine ⟨f, f.stmts[v.stmt], hf1, List.getElem?_eq_getElem hj, ?_⟩
    refine flatten_getElem? L v.file v.stmt (f.sites v.file) _ ?_ ?_
    · simp only [L, List.getElem?_map, hf, Option.map_some]
    · simp only [ProjFile.sites, List.getElem?_map, List.getElem?_eq_getElem hj, Option.map_some]
  have hsites : ∀ x ∈ L.flatten, x.Ok := by
    intro x hx
    obtain ⟨l, hl, hx⟩ := List.mem_flatten.mp hx
    obtain ⟨⟨f, id⟩, hf, rfl⟩ := List.mem_map.mp hl
    obtain ⟨q, hq⟩ := List.getElem?_of_mem hf
    obtain ⟨h1, h2⟩ := hfs q _ hq
    simp only at h1 h2
    have hql := (List.getElem?_eq_some_iff.mp h1).1
    have fok := hok f (List.mem_of_getElem? h1)
    simp only [ProjFile.sites, List.mem_map] at hx
    obtain ⟨s, hs, rfl⟩ := hx
    exact ⟨fok.vars s hs, fok.count s hs, by simp only; exact ⟨by omega, fok.number s hs⟩⟩
  have hruns' : AllRel (Visit.RunsAs cf mem G.flatten) (visits.map flat) calls := by
    refine AllRel.map_left (hruns.mono fun v hv c hc => ?_)
    obtain ⟨o, g, ho, hg, hid, hcs⟩ := hc
    rw [houts v.file (hk v hv)] at ho
    refine ⟨g, ?_, hid, hcs⟩
    simp only [flat, hlens]
    exact flatten_getElem? G v.file v.stmt o.gens g (by simp only [G, List.getElem?_map, ho, Option.map_some]) hg
  have hfit' : ∀ v ∈ visits.map flat, v.Fits cf L.flatten := by
    intro v hv x hx
    obtain ⟨v, hv', rfl⟩ := List.mem_map.mp hv
    obtain ⟨f, s, hf, hs, hp⟩ := hplace v hv'
    rw [hp, Option.some.injEq] at hx
    subst hx
    exact hfit v hv' f s hf hs
  obtain ⟨bs, t, ps, h1, h2, h3, h4⟩ := instrumented TableTests.equalp_lawful (fun _ _ h => h) env io cf mem hsites
    hflat hn hch hr hruns' hfit' hal
  refine ⟨bs, t, ps, h1, h2, h3, ?_⟩
  refine (AllRel.of_map_left h4).mono fun v hv p hp => ?_
  obtain ⟨x, hx, hc, hf, ha, hs⟩ := hp
  obtain ⟨f, s, hf', hs', hpl⟩ := hplace v hv
  rw [hpl, Option.some.injEq] at hx
  subst hx
  exact ⟨f, s, hf', hs', hc, hf, ha, hs⟩

end TraceDB
