import Verif.Spec.BestAnswers
import Verif.Props.LispQuery
import Verif.Proofs.EndToEndTables
/-
Lemmas for C104.
-/
namespace TraceDB

/-- The bindings at a point that satisfy the formula and as many of the soft ones as possible. -/
def bestBindings (fs : FloatSys) (fvs : List FreeVar) (f : Form) (sf : List Form) (p : Point) : List (List Nat) :=
  (goodBindings (lowFloat fs) fvs f p).filter fun b => decide (∀ b' ∈ goodBindings (lowFloat fs) fvs f p,
    satCount (lowFloat fs) sf (resultOf p b') ≤ satCount (lowFloat fs) sf (resultOf p b))

theorem collectResults_best (fs : FloatSys) (env : Env) (p : Point) (fvs : List FreeVar)
    (hard : Pred) (f : Form) (soft : List Pred) (sf : List Form)
    (hne : fvs ≠ []) (hcan : ∀ v ∈ p.vars, v.Canonical)
    (hform : ReadsForm fvs.length hard f) (hsoft : AllRel (ReadsForm fvs.length) soft sf)
    (hsize : p.vars.length < 2 ^ 32) (hcount : combinations fvs p.vars < 2 ^ 32)
    (halloc : env.canAlloc (24 * combinations fvs p.vars) = true) :
    collectResults env (plainEval fs) p fvs hard soft () = .ok ((bestBindings fs fvs f sf p).map (resultOf p), ()) := by
  have hc64 : combinations fvs p.vars < 2 ^ 64 := by omega
  have hgb : (goodBindings (lowFloat fs) fvs f p).length < 2 ^ 32 := by
    refine Nat.lt_of_le_of_lt (List.length_filter_le ..) ?_
    rw [length_combos, sizeProduct_matching]
    exact hcount
  by_cases hs : soft = []
  · subst hs
    cases hsoft
    rw [collectResults_hard fs env p fvs hard f hne hcan hform hsize hc64 halloc]
    have : bestBindings fs fvs f [] p = goodBindings (lowFloat fs) fvs f p := by
      unfold bestBindings
      rw [List.filter_eq_self]
      intro b _
      simp [satCount]
    rw [this]
  · rw [collectResults_soft fs env p fvs hard f soft sf hne hcan hform hsoft.length.symm (fun i q g hq hg => by
      rcases hsoft.get_left i with ⟨e, _⟩ | ⟨q', g', e1, e2, h⟩
      · rw [e] at hq; cases hq
      · rw [hq] at e1
        rw [hg] at e2
        cases e1
        cases e2
        exact h) hs hsize hc64 halloc hgb, keepMax_map, List.filter_map]
    congr 2
    unfold bestBindings
    congr 1
    apply List.filter_congr
    intro b _
    simp only [Function.comp, List.mem_map, forall_exists_index, and_imp, forall_apply_eq_imp_iff₂]

/-- The points a query looks at. -/
def LooksAtPoints (seed : U32) (pts chosen : List Point) : Prop :=
  if seed = 0 then chosen = pts else (pts = [] ∧ chosen = []) ∨ ∃ p ∈ pts, chosen = [p]

theorem query_looks (env : Env) (pick : U32 → Nat → Nat) (fs : FloatSys) (t : Trace) (q : Query)
    (hpick : ∀ n, 0 < n → pick q.seed n < n) (g : Point → List Point)
    (h : ∀ p ∈ t.points, collectResults env (plainEval fs) p q.variables q.hard q.soft () = .ok (g p, ())) :
    ∃ chosen c, LooksAtPoints q.seed (passing t.points q.mask q.stmt) chosen ∧
      ∀ keep, queryTrace env pick (plainEval fs) t q keep [] () =
        .ok (if keep then chosen.flatMap g else deduplicate (chosen.flatMap g), c, ()) := by
  have h0 : getPoints t.points [] q.mask q.stmt = (passing t.points q.mask q.stmt,
      [((q.mask, q.stmt), passing t.points q.mask q.stmt)]) := by
    simp only [getPoints, List.lookup_nil, filterPoints_eq]
  have hsub : ∀ p ∈ passing t.points q.mask q.stmt, p ∈ t.points := fun p hp => (List.mem_filter.mp hp).1
  generalize passing t.points q.mask q.stmt = pts at h0 hsub ⊢
  suffices hs : ∃ chosen, LooksAtPoints q.seed pts chosen ∧
      queryPoints env pick (plainEval fs) pts q.variables q.hard q.soft q.seed () = .ok (chosen.flatMap g, ()) by
    obtain ⟨chosen, h1, h2⟩ := hs
    refine ⟨chosen, [((q.mask, q.stmt), pts)], h1, fun keep => ?_⟩
    simp only [queryTrace, query, h0, h2, Res.ok_bind, Res.pure_eq]
  unfold queryPoints LooksAtPoints
  by_cases hseed : q.seed = 0
  · refine ⟨pts, by rw [if_pos hseed], ?_⟩
    rw [if_neg (by simp [hseed]), queryAll_ok g fun p hp => h p (hsub p hp)]
  · simp only [ne_eq, hseed, not_false_eq_true, if_true, if_false]
    cases hp : pts with
    | nil => exact ⟨[], .inl ⟨rfl, rfl⟩, rfl⟩
    | cons p ps =>
      have hk : pick q.seed (p :: ps).length < (p :: ps).length := hpick _ (by simp)
      refine ⟨[(p :: ps)[pick q.seed (p :: ps).length]], .inr ⟨_, List.getElem_mem hk, rfl⟩, ?_⟩
      rw [if_neg (by simp), List.getElem?_eq_getElem hk]
      simp only [List.flatMap_cons, List.flatMap_nil, List.append_nil]
      exact h _ (hsub _ (by rw [hp]; exact List.getElem_mem hk))

/-- A query with results `all` before duplicates are removed, which are those of bindings. -/
theorem answers_all {t : Trace} {chosen : List Point} {good : Point → List (List Nat)} (filter : Option (LPoint → Bool))
    (hconv : ∀ p ∈ chosen, ∃ l, lispPoint t p = .ok l ∧ ∀ b ∈ good p, ∀ k ∈ b, k < p.vars.length)
    {all : List Point} (hall : all = chosen.flatMap fun p => (good p).map (resultOf p)) :
    ∃ ps, lispPoints t (if filter.isSome then all else deduplicate all) = .ok ps ∧
      AnswersAll (fun r => ∃ p ∈ chosen, ∃ l b, lispPoint t p = .ok l ∧ b ∈ good p ∧
          (∀ g, filter = some g → g (namedResult l b) = true) ∧ r = namedResult l b) filter
        (match filter with
          | some g => removeDuplicates sameBindings (ps.filter g)
          | none => ps) := by
  have hmem : ∀ r ∈ all, ∃ p ∈ chosen, ∃ l b, lispPoint t p = .ok l ∧ b ∈ good p ∧
      lispPoint t r = .ok (namedResult l b) := by
    intro r hr
    rw [hall] at hr
    obtain ⟨p, hp, hr⟩ := List.mem_flatMap.mp hr
    obtain ⟨b, hb, rfl⟩ := List.mem_map.mp hr
    obtain ⟨l, hl, hlt⟩ := hconv p hp
    exact ⟨p, hp, l, b, hl, hb, lispPoint_result hl (hlt b hb)⟩
  have hmem' : ∀ p ∈ chosen, ∀ l b, lispPoint t p = .ok l → b ∈ good p →
      ∃ r ∈ all, lispPoint t r = .ok (namedResult l b) := by
    intro p hp l b hl hb
    obtain ⟨l', hl', hlt⟩ := hconv p hp
    refine ⟨resultOf p b, ?_, lispPoint_result hl (hlt b hb)⟩
    rw [hall]
    exact List.mem_flatMap.mpr ⟨p, hp, List.mem_map.mpr ⟨b, hb, rfl⟩⟩
  cases filter with
  | none =>
    simp only [Option.isSome_none, Bool.false_eq_true, if_false]
    obtain ⟨d1, d2, d3⟩ := C34_first_of_each_class all
    obtain ⟨ls, h1, h2, h3⟩ := lispPoints_ok (t := t) (ps := deduplicate all) (fun p hp => by
      obtain ⟨_, _, l, b, _, _, h⟩ := hmem p (d1.subset hp)
      exact ⟨_, h⟩)
    refine ⟨ls, h1, fun r hr => ?_, fun _ a ha => ?_, fun h => absurd rfl h⟩
    · obtain ⟨p, hp, e⟩ := h2 r hr
      obtain ⟨p', hp', l, b, e1, e2, e4⟩ := hmem p (d1.subset hp)
      rw [e] at e4
      cases e4
      exact ⟨p', hp', l, b, e1, e2, fun g hg => (by cases hg), rfl⟩
    · obtain ⟨p, hp, l, b, e1, e2, _, rfl⟩ := ha
      obtain ⟨r, hr, e4⟩ := hmem' p hp l b e1 e2
      have := d3 (bindingKey r)
      cases hfind : all.find? (fun p => decide (bindingKey p = bindingKey r)) with
      | none =>
        rw [List.find?_eq_none] at hfind
        exact absurd (by simp) (hfind r hr)
      | some r' =>
        rw [hfind] at this
        have hr' := List.mem_of_find?_eq_some this
        have hk := List.find?_some this
        simp only [decide_eq_true_eq] at hk
        obtain ⟨x, hx, e5⟩ := h3 r' hr'
        exact ⟨x, hx, exactKey_of_bindingKey e5 e4 hk⟩
  | some g =>
    simp only [Option.isSome_some, if_true]
    obtain ⟨ls, h1, h2, h3⟩ := lispPoints_ok (t := t) (ps := all) (fun p hp => by
      obtain ⟨_, _, l, b, _, _, h⟩ := hmem p hp
      exact ⟨_, h⟩)
    obtain ⟨r1, r2, r3⟩ := removeDuplicates_spec sameBindings foldedKey sameBindings_iff (ls.filter g)
    refine ⟨ls, h1, fun r hr => ?_, fun h => by (cases h), fun _ => ⟨fun a ha => ?_, r3⟩⟩
    · obtain ⟨hr, hg⟩ := List.mem_filter.mp (r1 r hr)
      obtain ⟨p, hp, e⟩ := h2 r hr
      obtain ⟨p', hp', l, b, e1, e2, e4⟩ := hmem p hp
      rw [e] at e4
      cases e4
      exact ⟨p', hp', l, b, e1, e2, fun g' hg' => (by cases hg'; exact hg), rfl⟩
    · obtain ⟨p, hp, l, b, e1, e2, e4, rfl⟩ := ha
      obtain ⟨r, hr, e5⟩ := hmem' p hp l b e1 e2
      obtain ⟨x, hx, e6⟩ := h3 r hr
      rw [e5] at e6
      cases e6
      exact r2 _ (List.mem_filter.mpr ⟨hx, e4 g rfl⟩)

/-- What is known about a trace whose points are shown as `ls`. -/
structure KnownTrace (t : Trace) (types : List (List U8)) (ls : List LPoint) : Prop where
  names : (t.names.map cStr).Nodup
  typeNames : getTypes t = .ok types
  nodup : types.Nodup
  small : types.length < 2 ^ 32
  shown : AllRel (fun p l => lispPoint t p = .ok l) t.points ls
  described : ∀ p ∈ t.points, ∀ v ∈ p.vars, Described t.names t.types v
  canonical : ∀ p ∈ t.points, ∀ v ∈ p.vars, v.Canonical
  files : ∀ p ∈ t.points, (unpackF p.statement).isSome = true

theorem mem_bestBindings (fs : FloatSys) {t : Trace} {types : List (List U8)} {ls : List LPoint} (hk : KnownTrace t types ls)
    {varTypes : List (List (List U8))} (hknown : ∀ ts ∈ varTypes, ∀ n ∈ ts, n ∈ types) (f : Form) (sf : List Form)
    {p : Point} (hp : p ∈ t.points) {l : LPoint} (hpl : lispPoint t p = .ok l)
    (hdb : ∀ x ∈ l.scopes, ∀ ts ∈ varTypes, x.type ∈ ts → ∀ b, x.value ≠ .double b) (b : List Nat) :
    b ∈ bestBindings fs (varTypes.map fun ts => ts.map fun n => BitVec.ofNat 32 (types.findIdx (· == n))) f sf p ↔
      Binds fs varTypes f l b ∧ ∀ b', Binds fs varTypes f l b' →
        trueOf fs sf (namedResult l b').scopes ≤ trueOf fs sf (namedResult l b).scopes := by
  have key : ∀ (g : Form) (b : List Nat), IsNamedBinding varTypes l.scopes b →
      g.holds (lowFloat fs) (boundVars p.vars b) = g.holdsFor fs (namedResult l b).scopes := by
    intro g b hb
    obtain ⟨_, _, _, hv⟩ := lispPoint_f hpl
    have hall := lispVars_allRel hv
    refine form_shown fs hk.names hk.typeNames hk.nodup (hall.pick b (fun k hk => ?_) fun k hk' x y hx hy hxy => ?_) g
    · obtain ⟨v, ts, h1, _⟩ := hb.lt' k hk
      rw [hall.length]
      exact (List.getElem?_eq_some_iff.mp h1).1
    · obtain ⟨v, ts, h1, h2, h3⟩ := hb.lt' k hk'
      rw [hy] at h1
      cases h1
      exact ⟨hxy, hk.described p hp _ (List.mem_of_getElem? hx), hdb _ (List.mem_of_getElem? hy) ts h2 h3⟩
  have hgood : ∀ b, b ∈ goodBindings (lowFloat fs)
      (varTypes.map fun ts => ts.map fun n => BitVec.ofNat 32 (types.findIdx (· == n))) f p ↔ Binds fs varTypes f l b := by
    intro b
    unfold goodBindings Binds
    rw [List.mem_filter, mem_combos_matching, isBinding_iff hk.typeNames hk.nodup hk.small hpl hknown]
    refine and_congr_right fun hb => ?_
    rw [key f b hb]
  have hsat : ∀ b, Binds fs varTypes f l b → satCount (lowFloat fs) sf (resultOf p b) = trueOf fs sf (namedResult l b).scopes := by
    intro b hb
    unfold satCount trueOf
    congr 1
    funext g
    exact key g b hb.1
  unfold bestBindings
  rw [List.mem_filter, hgood, decide_eq_true_eq]
  refine and_congr_right fun hb => ?_
  constructor
  · intro h b' hb'
    rw [← hsat b hb, ← hsat b' hb']
    exact h b' ((hgood b').mpr hb')
  · intro h b' hb'
    have hb' := (hgood b').mp hb'
    rw [hsat b hb, hsat b' hb']
    exact h b' hb'

theorem file_passing {t : Trace} {file : Option Nat} (hfiles : ∀ p ∈ t.points, (unpackF p.statement).isSome = true)
    (hfile : ∀ i, file = some i → i < 2 ^ 23) :
    ∃ mask stmt, fileArgs file = .ok (mask, stmt) ∧
      passing t.points mask stmt = t.points.filter fun p => decide (∀ i, file = some i → unpackF p.statement = some i) := by
  cases file with
  | none =>
    refine ⟨0, 0, rfl, ?_⟩
    rw [passing_zero]
    symm
    rw [List.filter_eq_self]
    intro p _
    simp
  | some i =>
    obtain ⟨mask, stmt, ha, hm⟩ := C49_selected i (hfile i rfl)
    refine ⟨mask, stmt, ha, ?_⟩
    apply List.filter_congr
    intro p hp
    rw [decide_eq_decide, hm]
    have h := hfiles p hp
    simp only [Option.some.injEq, forall_eq']
    rw [unpackF_eq] at h ⊢
    split at h
    · rename_i hflag
      rw [if_pos hflag, Option.some.injEq]
    · cases h

theorem AllRel.looksAt {R : Point → LPoint → Prop} {seed : U32} {pts chosen : List Point} {ls : List LPoint}
    (h : AllRel R pts ls) (hc : LooksAtPoints seed pts chosen) : ∃ ch, LooksAt seed ls ch ∧ AllRel R chosen ch := by
  unfold LooksAtPoints at hc
  unfold LooksAt
  by_cases hs : seed = 0
  · rw [if_pos hs] at hc
    subst hc
    exact ⟨ls, by rw [if_pos hs], h⟩
  · rw [if_neg hs] at hc
    simp only [if_neg hs]
    rcases hc with ⟨rfl, rfl⟩ | ⟨p, hp, rfl⟩
    · cases h
      exact ⟨[], .inl ⟨rfl, rfl⟩, .nil⟩
    · obtain ⟨l, hl, hr⟩ := h.mem_left p hp
      exact ⟨[l], .inr ⟨l, hl, rfl⟩, .cons hr .nil⟩

/-- A query with soft predicates, file and seed on a trace of this kind. -/
theorem query_best (fs : FloatSys) (env : Env) (pick : U32 → Nat → Nat) {t : Trace} {types : List (List U8)} {ls : List LPoint}
    (hk : KnownTrace t types ls) {q : LQuery} {f : Form} {sf : List Form} (hne : q.varTypes ≠ [])
    (hknown : ∀ ts ∈ q.varTypes, ∀ n ∈ ts, n ∈ types) (hpick : ∀ n, 0 < n → pick q.seed n < n)
    (hfile : ∀ i, q.file = some i → i < 2 ^ 23)
    (hform : ReadsForm q.varTypes.length q.hard f) (hsoft : AllRel (ReadsForm q.varTypes.length) q.soft sf)
    (hal : ∀ n, env.canAlloc n = true) {n : Nat} (hn : n < 2 ^ 32) (hfit : ∀ l ∈ ls, l.Answerable q.varTypes n) :
    ∃ chosen rs c, LooksAt q.seed (ls.filter fun l => decide (∀ i, q.file = some i → l.f = some i)) chosen ∧
      lispQuery env pick (plainEval fs) t q [] () = .ok (rs, c, ()) ∧
      AnswersAll (BestAnswers fs chosen q.varTypes q.filter f sf) q.filter rs ∧
      ∀ fvs mask stmt, freeVars types q.varTypes = .ok fvs → fileArgs q.file = .ok (mask, stmt) →
        ∀ xs c' s', queryTrace env pick (plainEval fs) t ⟨fvs, q.hard, q.soft, q.seed, mask, stmt⟩ q.filter.isSome [] () =
          .ok (xs, c', s') → xs.length ≤ t.points.length * n := by
  have hfv := freeVars_ok hknown
  generalize hfvs : (q.varTypes.map fun ts => ts.map fun n => BitVec.ofNat 32 (types.findIdx (· == n))) = fvs at hfv
  have hlen : fvs.length = q.varTypes.length := by rw [← hfvs, List.length_map]
  have hfne : fvs ≠ [] := by
    intro h
    rw [h] at hlen
    exact hne (List.eq_nil_of_length_eq_zero hlen.symm)
  have hshow : ∀ p ∈ t.points, ∃ l ∈ ls, lispPoint t p = .ok l := fun p hp => hk.shown.mem_left p hp
  have hcomb : ∀ p ∈ t.points, p.vars.length < 2 ^ 32 ∧ combinations fvs p.vars ≤ n := by
    intro p hp
    obtain ⟨l, hl, hpl⟩ := hshow p hp
    obtain ⟨_, _, _, hv⟩ := lispPoint_f hpl
    have hall := lispVars_allRel hv
    obtain ⟨a1, a2, _⟩ := hfit l hl
    rw [← hfvs, combinations_eq hk.typeNames hk.nodup hk.small hall _ hknown, hall.length]
    exact ⟨a1, a2⟩
  have hc : ∀ p ∈ t.points, collectResults env (plainEval fs) p fvs q.hard q.soft () =
      .ok ((bestBindings fs fvs f sf p).map (resultOf p), ()) := by
    intro p hp
    obtain ⟨h1, h2⟩ := hcomb p hp
    exact collectResults_best fs env p fvs q.hard f q.soft sf hfne (hk.canonical p hp) (by rw [hlen]; exact hform)
      (by rw [hlen]; exact hsoft) h1 (by omega) (hal _)
  obtain ⟨mask, stmt, ha, hpass⟩ := file_passing (t := t) hk.files hfile
  obtain ⟨chosen, c, hch, hq⟩ := query_looks env pick fs t ⟨fvs, q.hard, q.soft, q.seed, mask, stmt⟩ hpick
    (fun p => (bestBindings fs fvs f sf p).map (resultOf p)) hc
  simp only at hch hq
  rw [hpass] at hch
  have hsub : ∀ p ∈ chosen, p ∈ t.points := by
    intro p hp
    unfold LooksAtPoints at hch
    split at hch
    · subst hch
      exact (List.mem_filter.mp hp).1
    · rcases hch with ⟨_, rfl⟩ | ⟨x, hx, rfl⟩
      · cases hp
      · rw [List.mem_singleton.mp hp]
        exact (List.mem_filter.mp hx).1
  have hrel : AllRel (fun p l => lispPoint t p = .ok l)
      (t.points.filter fun p => decide (∀ i, q.file = some i → unpackF p.statement = some i))
      (ls.filter fun l => decide (∀ i, q.file = some i → l.f = some i)) :=
    hk.shown.filter fun p l h => by rw [(lispPoint_f h).1]
  obtain ⟨ch, hch1, hch2⟩ := hrel.looksAt hch
  have hchl : ∀ l ∈ ch, l ∈ ls := by
    intro l hl
    unfold LooksAt at hch1
    split at hch1
    · subst hch1
      exact (List.mem_filter.mp hl).1
    · rcases hch1 with ⟨_, rfl⟩ | ⟨x, hx, rfl⟩
      · cases hl
      · rw [List.mem_singleton.mp hl]
        exact (List.mem_filter.mp hx).1
  have hbest : ∀ p ∈ chosen, ∀ l ∈ ch, lispPoint t p = .ok l → ∀ b, b ∈ bestBindings fs fvs f sf p ↔
      Binds fs q.varTypes f l b ∧ ∀ b', Binds fs q.varTypes f l b' →
        trueOf fs sf (namedResult l b').scopes ≤ trueOf fs sf (namedResult l b).scopes := fun p hp l hl hpl b => by
    rw [← hfvs]
    exact mem_bestBindings fs hk hknown f sf (hsub p hp) hpl (hfit l (hchl l hl)).2.2 b
  obtain ⟨ps, p1, p2⟩ := answers_all (t := t) (chosen := chosen) (good := bestBindings fs fvs f sf) q.filter (fun p hp => by
    obtain ⟨l, hl, hpl⟩ := hch2.mem_left p hp
    refine ⟨l, hpl, fun b hb k hkb => ?_⟩
    have hb := ((hbest p hp l hl hpl b).mp hb).1.1
    obtain ⟨v, ts, h1, _⟩ := hb.lt' k hkb
    obtain ⟨_, _, _, hv⟩ := lispPoint_f hpl
    rw [(lispVars_allRel hv).length]
    exact (List.getElem?_eq_some_iff.mp h1).1) rfl
  have hiff : ∀ r, (∃ p ∈ chosen, ∃ l b, lispPoint t p = .ok l ∧ b ∈ bestBindings fs fvs f sf p ∧
      (∀ g, q.filter = some g → g (namedResult l b) = true) ∧ r = namedResult l b) ↔
      BestAnswers fs ch q.varTypes q.filter f sf r := by
    intro r
    constructor
    · rintro ⟨p, hp, l, b, h1, h2, h3, h4⟩
      obtain ⟨l', hl', hpl'⟩ := hch2.mem_left p hp
      rw [h1] at hpl'
      cases hpl'
      obtain ⟨g1, g2⟩ := (hbest p hp l hl' h1 b).mp h2
      exact ⟨l, hl', b, g1, g2, h3, h4⟩
    · rintro ⟨l, hl, b, g1, g2, h3, h4⟩
      obtain ⟨p, hp, hpl⟩ := hch2.mem_right l hl
      exact ⟨p, hp, l, b, hpl, (hbest p hp l hl hpl b).mpr ⟨g1, g2⟩, h3, h4⟩
  have hpred : (fun r => ∃ p ∈ chosen, ∃ l b, lispPoint t p = .ok l ∧ b ∈ bestBindings fs fvs f sf p ∧
      (∀ g, q.filter = some g → g (namedResult l b) = true) ∧ r = namedResult l b) =
      BestAnswers fs ch q.varTypes q.filter f sf := funext fun r => propext (hiff r)
  rw [hpred] at p2
  refine ⟨ch, _, c, hch1, ?_, p2, ?_⟩
  · simp only [lispQuery, hk.typeNames, hfv, ha, Res.ok_bind, hq, p1]
    cases q.filter <;> rfl
  · intro fvs' mask' stmt' e1 e2 xs c' s' e3
    rw [hfv] at e1
    rw [ha] at e2
    cases e1
    cases e2
    rw [hq] at e3
    cases e3
    have hsum : ∀ l : List Point, (∀ p ∈ l, p ∈ t.points) →
        (l.flatMap fun p => (bestBindings fs fvs f sf p).map (resultOf p)).length ≤ l.length * n := by
      intro l hl
      induction l with
      | nil => simp
      | cons p l ih =>
        have ih := ih fun p hp => hl p (List.mem_cons_of_mem _ hp)
        have h1 : (bestBindings fs fvs f sf p).length ≤ n := by
          refine Nat.le_trans (List.length_filter_le ..) (Nat.le_trans (List.length_filter_le ..) ?_)
          rw [length_combos, sizeProduct_matching]
          exact (hcomb p (hl p (by simp))).2
        rw [List.flatMap_cons, List.length_append, List.length_map, List.length_cons, Nat.succ_mul]
        omega
    have hlen' : chosen.length ≤ t.points.length := by
      unfold LooksAtPoints at hch
      split at hch
      · subst hch
        exact List.length_filter_le ..
      · rcases hch with ⟨_, rfl⟩ | ⟨x, hx, rfl⟩
        · simp
        · exact List.length_pos_of_mem (List.mem_filter.mp hx).1
    have h1 := Nat.le_trans (hsum chosen hsub) (Nat.mul_le_mul_right n hlen')
    split
    · exact h1
    · exact Nat.le_trans (C34_first_of_each_class _).1.length_le h1

end TraceDB
