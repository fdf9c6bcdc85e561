import Verif.Spec.ProjectText
import Verif.Proofs.EndToEndTables
import Verif.Proofs.Programs
import Verif.Props.Project
import Verif.Props.PredicateMemory
/-
Traces of projects and queries on them, from the answers with which the code was generated.
-/
namespace TraceDB

/-! Tables compared with `equalp` -/

theorem getTypes_names {names : List Name} (hn : names.length < 2 ^ 32) (hnul : ∀ n ∈ names, (0 : U8) ∉ n) :
    ∀ rows : List TypeRow, (∀ r ∈ rows, r.name < names.length) →
      ∃ types, getTypesLoop names (rows.map TypeRow.desc) = .ok types ∧
        AllRel (fun r n => names[r.name]? = some n) rows types
  | [], _ => ⟨[], rfl, .nil⟩
  | r :: rows, h => by
    obtain ⟨types, h1, h2⟩ := getTypes_names hn hnul rows fun r hr => h r (List.mem_cons_of_mem _ hr)
    have hr := h r (by simp)
    have e := List.getElem?_eq_getElem hr
    have e1 : names[r.desc.nameIndex.toNat]? = some names[r.name] := by
      show names[(BitVec.ofNat 32 r.name).toNat]? = _
      rw [(ofNat_index hn e).1, e]
    refine ⟨names[r.name] :: types, ?_, .cons e h2⟩
    simp only [List.map_cons, getTypesLoop, e1, h1, Res.ok_bind, cStr_nulFree (hnul _ (List.mem_of_getElem? e))]
    rfl

theorem AllRel.pairwise {α β : Type} {R : α → β → Prop} {S : α → α → Prop} {T : β → β → Prop} {l : List α} {m : List β}
    (h : AllRel R l m) (hl : l.Pairwise S) (hst : ∀ a a' b b', R a b → R a' b' → S a a' → T b b') : m.Pairwise T := by
  induction h with
  | nil => exact .nil
  | @cons x y l m hx hlm ih =>
    rw [List.pairwise_cons] at hl ⊢
    refine ⟨fun b hb => ?_, ih hl.2⟩
    obtain ⟨a, ha, hab⟩ := hlm.mem_right b hb
    exact hst _ _ _ _ hx hab (hl.1 a ha)

/-- The tables of a project. -/
theorem tablesTold {rs : List TabReq} (hok : ∀ r ∈ rs, r.Ok) {tabs : Tables} (h1 : tabs = (Tables.empty.requests .equalp rs).2)
    (hn : tabs.emitNames.length < 2 ^ 32)
    (hone : ∀ a ∈ tabs.rows, ∀ b ∈ tabs.rows, a.1.2.map foldChar = b.1.2.map foldChar → a.1.1 = b.1.1) :
    (tabs.emitNames.map cStr).Nodup ∧
    ∃ types, getTypesLoop tabs.emitNames ((tabs.emitTypes .equalp).map TypeRow.desc) = .ok types ∧ types.Nodup ∧
      types.length = (tabs.emitTypes .equalp).length ∧
      ∀ r ∈ tabs.emitTypes .equalp, ∀ n, tabs.emitNames[r.name]? = some n → n ∈ types := by
  have law := TableTests.equalp_lawful
  have he : EmittedFor .equalp rs tabs.emitNames (tabs.emitTypes .equalp) := by
    rw [h1]
    exact emittedFor law (fun _ _ h => h) hok
  have hinv : tabs.Inv .equalp := by rw [h1]; exact (Tables.requests_spec law rs _ (Tables.inv_empty _)).1
  have hnames := Tables.emitNames_eq hinv
  have hrows := Tables.emitTypes_eq law hinv
  have hrow : ∀ e ∈ tabs.rows, ∃ n, tabs.emitNames[e.2.name]? = some n ∧ n.map foldChar = e.1.2.map foldChar := by
    intro e hm
    obtain ⟨n, g1, g2⟩ := hinv.rowName e hm
    refine ⟨n, ?_, beq_iff_eq.mp g2⟩
    rw [hnames, List.getElem?_map, g1]
    rfl
  constructor
  · have : tabs.emitNames.map cStr = tabs.emitNames := by
      have : tabs.emitNames.map cStr = tabs.emitNames.map id :=
        List.map_congr_left fun n hm => cStr_nulFree (he.nulFree n hm)
      rw [this, List.map_id]
    rw [this, hnames, List.nodup_iff_pairwise_ne, List.pairwise_map]
    refine hinv.names.sep.imp fun {a b} h e => ?_
    rw [e] at h
    simp [TableTests.equalp] at h
  obtain ⟨types, t1, t2⟩ := getTypes_names hn he.nulFree (tabs.emitTypes .equalp) (by
    intro r hr
    rw [hrows] at hr
    obtain ⟨e, he', rfl⟩ := List.mem_map.mp hr
    obtain ⟨n, hn', _⟩ := hrow e he'
    exact (List.getElem?_eq_some_iff.mp hn').1)
  refine ⟨types, t1, ?_, t2.length.symm, ?_⟩
  · rw [List.nodup_iff_pairwise_ne]
    have hsep : tabs.rows.Pairwise fun a b => TableTests.equalp.type a.1 b.1 = false := by
      have := hinv.types.sep
      have h' : (tabs.types.map (·.1)).Pairwise fun a b => TableTests.equalp.type a b = false := by
        rw [List.pairwise_map]
        exact this.imp fun h => by simpa using h
      rw [← hinv.keys, List.pairwise_map] at h'
      exact h'
    rw [hrows] at t2
    refine (AllRel.of_map_left t2).pairwise (S := fun a b => a ∈ tabs.rows ∧ b ∈ tabs.rows ∧
      TableTests.equalp.type a.1 b.1 = false) (hsep.imp_of_mem fun ha hb h => ⟨ha, hb, h⟩) ?_
    rintro a b n n' hn1 hn2 ⟨ha, hb, hab⟩ rfl
    obtain ⟨m, m1, m2⟩ := hrow a ha
    obtain ⟨m', m1', m2'⟩ := hrow b hb
    rw [hn1] at m1
    rw [hn2] at m1'
    cases m1
    cases m1'
    have e := hone a ha b hb (m2.symm.trans m2')
    simp [TableTests.equalp, e, m2.symm.trans m2'] at hab
  · intro r hr n hn'
    obtain ⟨m, hm, e⟩ := t2.mem_left r hr
    rw [hn'] at e
    cases e
    exact hm

theorem AllRel.self {α : Type} {R : α → α → Prop} : ∀ {l : List α}, (∀ x ∈ l, R x x) → AllRel R l l
  | [], _ => .nil
  | x :: _, h => .cons (h x (by simp)) (AllRel.self fun y hy => h y (List.mem_cons_of_mem _ hy))

/-- The first `k` files of a project had their code generated with the answers to `rs`, and the header `h` has
the tables as they are after these. -/
structure ProjTold (files : List ProjFile) (outs : List ProjOut) (k : Nat) (h : ProjHeader) (rs : List TabReq) : Prop where
  ok : ∀ r ∈ rs, r.Ok
  source : ∀ e ∈ (Tables.empty.requests .equalp rs).2.rows, ∃ f ∈ files, ∃ s ∈ f.stmts, ∃ part ∈ s.2, ∃ v ∈ part.2,
    v.IsRecorded part.1 ∧ e.1 = v.key part.1
  header : h = ⟨(Tables.empty.requests .equalp rs).2.emitNames, (Tables.empty.requests .equalp rs).2.emitTypes .equalp⟩
  length : outs.length = files.length
  gens : ∀ q f o, q < k → files[q]? = some f → outs[q]? = some o →
    AllRel (SiteGen .equalp Tables.empty rs) (f.sites q) o.gens

theorem AllRel.flatten {α β : Type} {R : α → β → Prop} {L : List (List α)} {M : List (List β)}
    (h : AllRel (AllRel R) L M) : AllRel R L.flatten M.flatten := by
  induction h with
  | nil => exact .nil
  | cons hx _ ih =>
    rw [List.flatten_cons, List.flatten_cons]
    revert ih
    generalize List.flatten _ = a
    generalize List.flatten _ = b
    intro ih
    induction hx with
    | nil => exact ih
    | cons h _ ih' => exact .cons h ih'

theorem AllRel.lengths {α β : Type} {R : α → β → Prop} {L : List (List α)} {M : List (List β)}
    (h : AllRel (AllRel R) L M) : L.map List.length = M.map List.length := by
  induction h with
  | nil => rfl
  | cons hx _ ih => rw [List.map_cons, List.map_cons, ih, hx.length]

/-- The first `k` files of a project as one file. -/
theorem told_flat (cf : CFloat) (mem : CMem) {files : List ProjFile} {outs : List ProjOut} {k : Nat} {h : ProjHeader}
    {rs : List TabReq} (told : ProjTold files outs k h rs)
    (hok : ∀ f ∈ files, f.Ok) (hlen : files.length ≤ 2 ^ 23)
    (visits : List ProjVisit) (calls : List (U64 × List RtCall))
    (hruns : AllRel (ProjVisit.RunsAs cf mem outs) visits calls)
    (hk : ∀ v ∈ visits, v.file < k) (hfit : ∀ v ∈ visits, v.Fits cf files) :
    ∃ (sites : List Site) (gens : List GenSite) (visits' : List Visit),
      AllRel (SiteGen .equalp Tables.empty rs) sites gens ∧ (∀ x ∈ sites, x.Ok) ∧
      AllRel (Visit.RunsAs cf mem gens) visits' calls ∧ (∀ v ∈ visits', v.Fits cf sites) ∧
      AllRel (fun v v' => ∀ p, v'.Shown .equalp sites p ↔ v.Shown files p) visits visits' := by
  -- the numbered files and their statements
  let L := (files.zipIdx.take k).map fun f => f.1.sites f.2
  let G := (outs.take k).map (·.gens)
  have hL : ∀ q f, q < k → files[q]? = some f → L[q]? = some (f.sites q) := by
    intro q f hq hf
    simp [L, hq, hf]
  have hG : ∀ q o, q < k → outs[q]? = some o → G[q]? = some o.gens := by
    intro q o hq ho
    simp [G, hq, ho]
  have hrel : AllRel (AllRel (SiteGen .equalp Tables.empty rs)) L G := by
    refine AllRel.of_get L G (by simp [L, G, told.length]) fun q a b ha hb => ?_
    have hq : q < k := by
      have := (List.getElem?_eq_some_iff.mp ha).1
      simp only [L, List.length_map, List.length_take] at this
      omega
    simp only [L, G, List.getElem?_map, List.getElem?_take, hq, if_true, List.getElem?_zipIdx, Option.map_eq_some_iff] at ha hb
    obtain ⟨_, ⟨f, hf, rfl⟩, rfl⟩ := ha
    obtain ⟨o, ho, rfl⟩ := hb
    simpa using told.gens q f o hq hf ho
  -- the place of a visit in the list of all statements
  let flat : ProjVisit → Visit := fun v => ⟨((L.map List.length).take v.file).sum + v.stmt, v.env⟩
  have hplace : ∀ v ∈ visits, ∃ (f : ProjFile) (s : Nat × List (Bool × List ScopeVar)),
      files[v.file]? = some f ∧ f.stmts[v.stmt]? = some s ∧
      L.flatten[(flat v).site]? = some ⟨some v.file, s.1, s.2⟩ := by
    intro v hv
    obtain ⟨c, _, o, g, ho, hg, _⟩ := hruns.mem_left v hv
    have hq : v.file < files.length := by
      have := (List.getElem?_eq_some_iff.mp ho).1
      rwa [told.length] at this
    have hf := List.getElem?_eq_getElem hq
    have hlg := (List.getElem?_eq_some_iff.mp hg).1
    have hids := (told.gens v.file _ o (hk v hv) hf ho).length
    simp only [ProjFile.sites, List.length_map] at hids
    have hj : v.stmt < (files[v.file]).stmts.length := by omega
    refine ⟨_, _, hf, List.getElem?_eq_getElem hj, ?_⟩
    refine flatten_getElem? L v.file v.stmt _ _ (hL _ _ (hk v hv) hf) ?_
    simp only [ProjFile.sites, List.getElem?_map, List.getElem?_eq_getElem hj, Option.map_some]
  have hsites : ∀ x ∈ L.flatten, x.Ok := by
    intro x hx
    obtain ⟨l, hl, hx⟩ := List.mem_flatten.mp hx
    obtain ⟨⟨f, id⟩, hf, rfl⟩ := List.mem_map.mp hl
    obtain ⟨q, hq⟩ := List.getElem?_of_mem hf
    simp only [List.getElem?_take] at hq
    split at hq
    · rw [List.getElem?_zipIdx, Option.map_eq_some_iff] at hq
      obtain ⟨f', h1, h2⟩ := hq
      simp only [Nat.zero_add, Prod.mk.injEq] at h2
      obtain ⟨rfl, rfl⟩ := h2
      have hql := (List.getElem?_eq_some_iff.mp h1).1
      have fok := hok f' (List.mem_of_getElem? h1)
      simp only [ProjFile.sites, List.mem_map] at hx
      obtain ⟨s, hs, rfl⟩ := hx
      exact ⟨fok.vars s hs, fok.count s hs, by simp only; exact ⟨by omega, fok.number s hs⟩⟩
    · cases hq
  have hruns' : AllRel (Visit.RunsAs cf mem G.flatten) (visits.map flat) calls := by
    refine AllRel.map_left (hruns.mono fun v hv c hc => ?_)
    obtain ⟨o, g, ho, hg, hid, hcs⟩ := hc
    refine ⟨g, ?_, hid, hcs⟩
    simp only [flat, hrel.lengths]
    exact flatten_getElem? G v.file v.stmt o.gens g (hG _ _ (hk v hv) ho) hg
  have hfit' : ∀ v ∈ visits.map flat, v.Fits cf L.flatten := by
    intro v hv x hx
    obtain ⟨v, hv', rfl⟩ := List.mem_map.mp hv
    obtain ⟨f, s, hf, hs, hp⟩ := hplace v hv'
    rw [hp, Option.some.injEq] at hx
    subst hx
    exact hfit v hv' f s hf hs
  refine ⟨L.flatten, G.flatten, visits.map flat, hrel.flatten, hsites, hruns', hfit', ?_⟩
  refine AllRel.map_right (AllRel.self fun v hv p => ?_)
  obtain ⟨f, s, hf', hs', hpl⟩ := hplace v hv
  constructor
  · rintro ⟨x, hx, hc, hf, ha, hs⟩
    rw [hpl, Option.some.injEq] at hx
    subst hx
    exact ⟨f, s, hf', hs', hc, hf, ha, hs⟩
  · rintro ⟨f₁, s₁, hf₁, hs₁, hc, hf, ha, hs⟩
    rw [hf'] at hf₁
    cases hf₁
    rw [hs'] at hs₁
    cases hs₁
    exact ⟨_, hpl, hc, hf, ha, hs⟩

/-- The trace of an instrumented program whose code was generated with the answers to `rs`. -/
theorem told_trace {te : TableTests} (law : te.Lawful)
    (hte : ∀ a b, te.type a b = true → TableTests.equalp.type a b = true)
    (env : Env) (io : Bool) (cf : CFloat) (mem : CMem) {sites : List Site} {gens : List GenSite} {rs : List TabReq}
    {tabs : Tables} (hok : ∀ x ∈ sites, x.Ok) (h1 : tabs = (Tables.empty.requests te rs).2) (h2 : ∀ r ∈ rs, r.Ok)
    (h3 : AllRel (SiteGen te Tables.empty rs) sites gens)
    (hn : tabs.emitNames.length < 2 ^ 32) (hch : (tabs.emitNames.map fun n => n.length + 1).sum < 2 ^ 63)
    (hr : (tabs.emitTypes te).length < 2 ^ 32)
    {visits : List Visit} {calls : List (U64 × List RtCall)} (hruns : AllRel (Visit.RunsAs cf mem gens) visits calls)
    (hfit : ∀ v ∈ visits, v.Fits cf sites) (hal : ∀ n, env.canAlloc n = true) :
    ∃ bs t ls, rtRun cf mem tabs.emitNames ((tabs.emitTypes te).map TypeRow.desc) calls = .ok bs ∧
      readTrace env 0 (gs io bs) = .ok t ∧ t.names = tabs.emitNames ∧ t.types = (tabs.emitTypes te).map TypeRow.desc ∧
      AllRel (fun p l => lispPoint t p = .ok l) t.points ls ∧ AllRel (Visit.Shown te sites) visits ls ∧
      ∀ p ∈ t.points, ∀ v ∈ p.vars, Described t.names t.types v := by
  have he : EmittedFor te rs tabs.emitNames (tabs.emitTypes te) := by
    rw [h1]
    exact emittedFor law hte h2
  obtain ⟨recs, r1, r2, r3, r4⟩ := visits_recorded he hn hr hok h3 hruns hfit
  have hdr : HeaderOk tabs.emitNames ((tabs.emitTypes te).map TypeRow.desc) := by
    refine ⟨he.nulFree, hch, by rw [List.length_map]; exact hr, fun t ht => ?_⟩
    obtain ⟨r, hr, rfl⟩ := List.mem_map.mp ht
    exact he.formats r hr
  have hres : ReservedOk (recs.flatMap fun p => recSizes p.items) := by
    have : (recs.flatMap fun p => recSizes p.items) = [] := by
      rw [List.flatMap_eq_nil_iff]
      exact r3
    rw [this]
    exact reservedOk_of_unused (by simp)
  obtain ⟨bs, b1, b2⟩ := C02_recorded_is_read env io cf mem _ _ recs calls hdr hn r1 r2 hres hal
  obtain ⟨ls, l1, l2⟩ := r4 (recPoints 0 [] recs) 0
  exact ⟨bs, _, ls, b1, b2, rfl, rfl, l1, l2, described_points recs 0 r2 r3⟩

/-- Queries on the trace of a program built from the first `k` files. -/
theorem told_queries (fs : FloatSys) (env : Env) (pick : U32 → Nat → Nat) (io : Bool) (cf : CFloat) (mem : CMem)
    {files : List ProjFile} {outs : List ProjOut} {k : Nat} {h : ProjHeader} {reqs : List TabReq}
    (told : ProjTold files outs k h reqs)
    (hok : ∀ f ∈ files, f.Ok) (hlen : files.length ≤ 2 ^ 23)
    (hsmall : h.Small) (visits : List ProjVisit) (calls : List (U64 × List RtCall))
    (hruns : AllRel (ProjVisit.RunsAs cf mem outs) visits calls)
    (hk : ∀ v ∈ visits, v.file < k) (hfit : ∀ v ∈ visits, v.Fits cf files) (hal : ∀ n, env.canAlloc n = true)
    (hone : OneTypePerFoldedName files)
    (names : List Nat) (s : SExp) (f : Form) (ph : PHeap) (hf : SexpPredicate names s f)
    (varTypes : List (List (List U8))) (hvl : names.length = varTypes.length) (hl : names.length < 2 ^ 64)
    (hne : varTypes ≠ []) (hknown : ∀ ts ∈ varTypes, ∀ n ∈ ts, h.HasType n) (file : Option Nat)
    (hfile : ∀ i, file = some i → i < 2 ^ 23) (filter : Option (LPoint → Bool))
    (hq : ∀ v ∈ visits, ∀ l, v.Shown files l → l.Manageable varTypes) :
    ∃ bs t ps ptr ph' p rs c,
      rtRun cf mem h.names (h.types.map TypeRow.desc) calls = .ok bs ∧ readTrace env 0 (gs io bs) = .ok t ∧
      lispGetTrace t none = .ok ps ∧ AllRel (ProjVisit.Shown files) visits ps ∧
      buildPredicate names s ph = some (ptr, ph') ∧ createPredicateObj ph' ptr = .ok p ∧
      lispQuery env pick (plainEval fs) t ⟨varTypes, p, [], 0, file, filter⟩ [] () = .ok (rs, c, ()) ∧
      (∀ r ∈ rs, ShownAnswers fs ps varTypes file filter f r) ∧
      (filter = none → ∀ a, ShownAnswers fs ps varTypes file filter f a → ∃ r ∈ rs, exactKey r = exactKey a) ∧
      (filter ≠ none → (∀ a, ShownAnswers fs ps varTypes file filter f a → ∃ r ∈ rs, foldedKey r = foldedKey a) ∧
        rs.Pairwise fun a b => foldedKey a ≠ foldedKey b) := by
  obtain ⟨sites, gens, visits', hgen, hsites, hruns', hfit', hvis⟩ :=
    told_flat cf mem told hok hlen visits calls hruns hk hfit
  obtain ⟨tok, tsource, rfl, _, _⟩ := told
  obtain ⟨hn, hch, hr⟩ := hsmall
  simp only at hn hch hr
  obtain ⟨bs, t, ls, b1, b2, n1, t1, l1, l2, d1⟩ := told_trace TableTests.equalp_lawful (fun _ _ h => h) env io
    cf mem hsites rfl tok hgen hn hch hr hruns' hfit' hal
  obtain ⟨tn, types, ty1, ty2, ty3, ty4⟩ := tablesTold tok rfl hn (by
    intro a ha b hb e
    obtain ⟨fx, hfx, s, hs, part, hp, v, hv, r1, k1⟩ := tsource a ha
    obtain ⟨fy, hfy, s', hs', part', hp', w, hw, r2, k2⟩ := tsource b hb
    rw [k1, k2] at e
    obtain ⟨g1, g2⟩ := hone fx hfx s hs part hp v hv fy hfy s' hs' part' hp' w hw r1 r2 e
    rw [k1, k2]
    unfold ScopeVar.key
    by_cases ht : v.AsText part.1
    · rw [if_pos (asText_iff.mp ht), if_pos (asText_iff.mp (g1.mp ht)), g2 ht]
    · have ht' : ¬ w.AsText part'.1 := fun h => ht (g1.mpr h)
      rw [if_neg (fun h => ht (asText_iff.mpr h)), if_neg (fun h => ht' (asText_iff.mpr h))])
  obtain ⟨ptr, new, _, e, hp, _, hread⟩ := sexpPredicate_built names s f ph hf hl
  rw [hvl] at hread
  have hshown : AllRel (ProjVisit.Shown files) visits ls :=
    AllRel.comp hvis l2 fun v v' l h1 h2 => (h1 l).mp h2
  have hids : ∀ i, file = some i → i < 2 ^ 23 ∧
      ∀ p ∈ t.points, (unpackF p.statement).isSome ∨ (0 < i ∧ p.statement.toNat < 2 ^ 40) := by
    intro i hi
    refine ⟨hfile i hi, fun p hp => ?_⟩
    obtain ⟨l, hl, hpl⟩ := l1.mem_left p hp
    obtain ⟨v, _, _, _, _, _, _, hlf, _⟩ := hshown.mem_right l hl
    rw [← (lispPoint_f hpl).1, hlf]
    exact .inl rfl
  obtain ⟨rs, c, q1, q2, q3, q4⟩ := query_file fs env pick (t := t) (types := types) (by rw [n1]; exact tn)
    (by unfold getTypes; rw [n1, t1]; exact ty1) ty2 (by rw [ty3]; exact hr) l1 d1 (accepted_canonical b2)
    (q := ⟨varTypes, transl names s, [], 0, file, filter⟩) (f := f) hne (fun ts hts n hn' => by
      obtain ⟨r, hr, hrn⟩ := hknown ts hts n hn'
      exact ty4 r hr n hrn)
    rfl rfl hids hread hal (fun l hl => by
      obtain ⟨v, hv, hs⟩ := hshown.mem_right l hl
      exact hq v hv l hs)
  have hiff : ∀ r, PointsAnswer fs (ls.filter fun l => decide (∀ i, file = some i → l.f = some i))
      ⟨varTypes, transl names s, [], 0, file, filter⟩ f r ↔ ShownAnswers fs ls varTypes file filter f r := by
    intro r
    constructor
    · rintro ⟨l, hl, b, h1, h2, h3, rfl⟩
      obtain ⟨hl, hlf⟩ := List.mem_filter.mp hl
      exact ⟨l, hl, b, of_decide_eq_true hlf, h1, h2, h3, rfl⟩
    · rintro ⟨l, hl, b, hlf, h1, h2, h3, rfl⟩
      exact ⟨l, List.mem_filter.mpr ⟨hl, decide_eq_true hlf⟩, b, h1, h2, h3, rfl⟩
  refine ⟨bs, t, ls, ptr, ph ++ new, transl names s, rs, c, b1, b2, ?_, hshown, e, createPredicateObj_ok hp, q1,
    fun r hr => (hiff r).mp (q2 r hr), fun hf a ha => q3 hf a ((hiff a).mpr ha),
    fun hf => ⟨fun a ha => (q4 hf).1 a ((hiff a).mpr ha), (q4 hf).2⟩⟩
  unfold lispGetTrace
  rw [lispPoints_of_allRel l1]
  rfl

end TraceDB
