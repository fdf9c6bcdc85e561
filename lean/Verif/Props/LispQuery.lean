import Verif.Props.LispDb
import Verif.Proofs.LispQuery
import Verif.Spec.LispDb
/-
C58: queries of the list-based and of the binary database.
-/
namespace TraceDB

/-! C58 -/

/-- The binary database: each result is a binding by name that satisfies predicate and
filter, and each such binding is among the results up to its names, where a filter
makes the comparison ignore case. -/
theorem C58_binary (fs : FloatSys) (env : Env) (pick : U32 → Nat → Nat) (t : Trace) (types : List (List U8))
    (q : LQuery) (f : Form) (htypes : getTypes t = .ok types) (hnodup : types.Nodup) (hsmall : types.length < 2 ^ 32)
    (hconv : ∀ p ∈ t.points, ∃ l, lispPoint t p = .ok l) (hne : q.varTypes ≠ [])
    (hknown : ∀ ts ∈ q.varTypes, ∀ n ∈ ts, n ∈ types) (hsoft : q.soft = []) (hseed : q.seed = 0)
    (hfile : q.file = none) (hcan : ∀ p ∈ t.points, ∀ v ∈ p.vars, v.Canonical)
    (hform : ReadsForm q.varTypes.length q.hard f)
    (hsize : ∀ p ∈ t.points, p.vars.length < 2 ^ 32 ∧ ∀ fvs, freeVars types q.varTypes = .ok fvs →
      combinations fvs p.vars < 2 ^ 64 ∧ env.canAlloc (24 * combinations fvs p.vars) = true) :
    ∃ rs c, lispQuery env pick (plainEval fs) t q [] () = .ok (rs, c, ()) ∧
      (∀ r ∈ rs, LispAnswers fs t q f r) ∧
      (q.filter = none → ∀ a, LispAnswers fs t q f a → ∃ r ∈ rs, exactKey r = exactKey a) ∧
      (q.filter ≠ none → (∀ a, LispAnswers fs t q f a → ∃ r ∈ rs, foldedKey r = foldedKey a) ∧
        rs.Pairwise fun a b => foldedKey a ≠ foldedKey b) := by
  have hfv := freeVars_ok hknown
  generalize hfvs : (q.varTypes.map fun ts => ts.map fun n => BitVec.ofNat 32 (types.findIdx (· == n))) = fvs at hfv
  have hlen : fvs.length = q.varTypes.length := by rw [← hfvs, List.length_map]
  have hfne : fvs ≠ [] := by
    intro h
    rw [h] at hlen
    exact hne (List.eq_nil_of_length_eq_zero hlen.symm)
  have hc : ∀ p ∈ t.points, collectResults env (plainEval fs) p fvs q.hard [] () =
      .ok ((goodBindings (lowFloat fs) fvs f p).map (resultOf p), ()) := by
    intro p hp
    obtain ⟨h1, h2⟩ := hsize p hp
    obtain ⟨h2, h3⟩ := h2 fvs hfv
    exact collectResults_hard fs env p fvs q.hard f hfne (hcan p hp) (by rw [hlen]; exact hform) h1 h2 h3
  have hq := C24_unfiltered env pick (plainEval fs) t ⟨fvs, q.hard, [], q.seed, 0, 0⟩ () hseed rfl rfl
    (fun p => (goodBindings (lowFloat fs) fvs f p).map (resultOf p)) hc
  obtain ⟨⟨all, c, u⟩, hq1, hq2⟩ := Res.bind_eq_ok.mp hq
  simp only [Res.ok.injEq, Prod.mk.injEq] at hq2
  obtain ⟨rfl, -⟩ := hq2
  generalize hall : (t.points.flatMap fun p => (goodBindings (lowFloat fs) fvs f p).map (resultOf p)) = all at hq1
  have hmem : ∀ r ∈ all, ∃ p ∈ t.points, ∃ (l : LPoint) (b : List Nat), lispPoint t p = .ok l ∧
      IsNamedBinding q.varTypes l.scopes b ∧ f.holds (lowFloat fs) (boundVars p.vars b) = true ∧
      lispPoint t r = .ok (namedResult l b) := by
    intro r hr
    rw [← hall] at hr
    obtain ⟨p, hp, hr⟩ := List.mem_flatMap.mp hr
    obtain ⟨b, hb, rfl⟩ := List.mem_map.mp hr
    obtain ⟨l, hl⟩ := hconv p hp
    obtain ⟨hb, hh⟩ := List.mem_filter.mp hb
    have hb := (mem_combos_matching _ _ _).mp hb
    refine ⟨p, hp, l, b, hl, ?_, hh, lispPoint_result hl hb.lt⟩
    rw [← hfvs] at hb
    exact (isBinding_iff htypes hnodup hsmall hl hknown b).mp hb
  have hmem' : ∀ p ∈ t.points, ∀ (l : LPoint) (b : List Nat), lispPoint t p = .ok l →
      IsNamedBinding q.varTypes l.scopes b → f.holds (lowFloat fs) (boundVars p.vars b) = true →
      ∃ r ∈ all, lispPoint t r = .ok (namedResult l b) := by
    intro p hp l b hl hb hh
    have hb := (isBinding_iff htypes hnodup hsmall hl hknown b).mpr hb
    rw [hfvs] at hb
    refine ⟨resultOf p b, ?_, lispPoint_result hl hb.lt⟩
    rw [← hall]
    exact List.mem_flatMap.mpr ⟨p, hp, List.mem_map.mpr ⟨b, List.mem_filter.mpr
      ⟨(mem_combos_matching _ _ _).mpr hb, hh⟩, rfl⟩⟩
  have hqt : ∀ keep, queryTrace env pick (plainEval fs) t ⟨fvs, q.hard, q.soft, q.seed, 0, 0⟩ keep [] () =
      .ok (if keep then all else deduplicate all, c, ()) := by
    intro keep
    rw [hsoft]
    simp only [queryTrace, hq1, Res.ok_bind, Res.pure_eq]
  have hlq : lispQuery env pick (plainEval fs) t q [] () =
      (lispPoints t (if q.filter.isSome then all else deduplicate all) >>= fun ps => match q.filter with
        | some g => .ok (removeDuplicates sameBindings (ps.filter g), c, ())
        | none => .ok (ps, c, ())) := by
    simp only [lispQuery, htypes, hfv, hfile, show fileArgs none = .ok (0, 0) from rfl, Res.ok_bind, hqt]
    refine congrArg (fun k => lispPoints t (if q.filter.isSome then all else deduplicate all) >>= k)
      (funext fun ps => ?_)
    cases q.filter <;> rfl
  cases hf : q.filter with
  | none =>
    rw [hf] at hlq
    simp only [Option.isSome_none, Bool.false_eq_true, if_false] at hlq
    obtain ⟨d1, d2, d3⟩ := C34_first_of_each_class all
    obtain ⟨ls, h1, h2, h3⟩ := lispPoints_ok (t := t) (ps := deduplicate all) (fun p hp => by
      obtain ⟨_, _, l, b, _, _, _, h⟩ := hmem p (d1.subset hp)
      exact ⟨_, h⟩)
    rw [h1] at hlq
    refine ⟨ls, c, hlq, fun r hr => ?_, fun _ a ha => ?_, fun h => absurd rfl h⟩
    · obtain ⟨p, hp, e⟩ := h2 r hr
      obtain ⟨p', hp', l, b, e1, e2, e3, e4⟩ := hmem p (d1.subset hp)
      rw [e] at e4
      cases e4
      exact ⟨p', hp', l, b, e1, e2, e3, fun g hg => (by rw [hf] at hg; cases hg), rfl⟩
    · obtain ⟨p, hp, l, b, e1, e2, e3, _, rfl⟩ := ha
      obtain ⟨r, hr, e4⟩ := hmem' p hp l b e1 e2 e3
      have := d3 (bindingKey r)
      cases hfind : all.find? (fun p => decide (bindingKey p = bindingKey r)) with
      | none =>
        rw [List.find?_eq_none] at hfind
        exact absurd (by simp) (hfind r hr)
      | some r' =>
        rw [hfind] at this
        have hr' := List.mem_of_find?_eq_some this
        have hk := List.find?_some this
        simp only [decide_eq_true_eq] at hk
        obtain ⟨x, hx, e5⟩ := h3 r' hr'
        exact ⟨x, hx, exactKey_of_bindingKey e5 e4 hk⟩
  | some g =>
    rw [hf] at hlq
    simp only [Option.isSome_some, if_true] at hlq
    obtain ⟨ls, h1, h2, h3⟩ := lispPoints_ok (t := t) (ps := all) (fun p hp => by
      obtain ⟨_, _, l, b, _, _, _, h⟩ := hmem p hp
      exact ⟨_, h⟩)
    rw [h1] at hlq
    obtain ⟨r1, r2, r3⟩ := removeDuplicates_spec sameBindings foldedKey sameBindings_iff (ls.filter g)
    refine ⟨_, c, hlq, fun r hr => ?_, fun h => by (cases h), fun _ => ⟨fun a ha => ?_, r3⟩⟩
    · obtain ⟨hr, hg⟩ := List.mem_filter.mp (r1 r hr)
      obtain ⟨p, hp, e⟩ := h2 r hr
      obtain ⟨p', hp', l, b, e1, e2, e3, e4⟩ := hmem p hp
      rw [e] at e4
      cases e4
      exact ⟨p', hp', l, b, e1, e2, e3, fun g' hg' => (by rw [hf] at hg'; cases hg'; exact hg), rfl⟩
    · obtain ⟨p, hp, l, b, e1, e2, e3, e4, rfl⟩ := ha
      obtain ⟨r, hr, e5⟩ := hmem' p hp l b e1 e2 e3
      obtain ⟨x, hx, e6⟩ := h3 r hr
      rw [e5] at e6
      cases e6
      exact r2 _ (List.mem_filter.mpr ⟨hx, e4 g hf⟩)

/-- The list-based database: each result is a binding by name that repeats no variable
and that the filter accepts, and each of these is among the results up to case. -/
theorem C58_list_based (trace : List LPoint) (q : LQuery) (hsoft : q.soft = []) :
    ∃ rs, sexpQuery trace q = .ok rs ∧ (∀ r ∈ rs, SexpAnswers trace q r) ∧
      (∀ a, SexpAnswers trace q a → ∃ r ∈ rs, foldedKey r = foldedKey a) ∧
      rs.Pairwise fun a b => foldedKey a ≠ foldedKey b := by
  unfold sexpQuery
  rw [hsoft]
  simp only [List.isEmpty_nil, if_true]
  obtain ⟨r1, r2, r3⟩ := removeDuplicates_spec sameBindings foldedKey sameBindings_iff
    ((trace.flatMap (sexpAtPoint q.varTypes)).filter (q.filter.getD fun _ => true))
  refine ⟨_, rfl, fun r hr => ?_, fun a ha => r2 a ?_, r3⟩
  · obtain ⟨hr, hg⟩ := List.mem_filter.mp (r1 r hr)
    obtain ⟨l, hl, hr⟩ := List.mem_flatMap.mp hr
    obtain ⟨b, h1, h2, rfl⟩ := (mem_sexpAtPoint _ _ _).mp hr
    exact ⟨l, hl, b, h1, h2, fun g hg' => by rw [hg'] at hg; exact hg, rfl⟩
  · obtain ⟨l, hl, b, h1, h2, h3, rfl⟩ := ha
    refine List.mem_filter.mpr ⟨List.mem_flatMap.mpr ⟨l, hl, (mem_sexpAtPoint _ _ _).mpr ⟨b, h1, h2, rfl⟩⟩, ?_⟩
    cases hf : q.filter with
    | none => rfl
    | some g => exact h3 g hf

/-- Both databases on the same points: if the filter given to the list-based one
expresses predicate and filter of the query to the binary one, they return the same
results up to case, except for those of the binary one in which two free variables
are bound to the same variable. -/
theorem C58_agree (fs : FloatSys) (env : Env) (pick : U32 → Nat → Nat) (t : Trace) (types : List (List U8))
    (lpts : List LPoint) (q q' : LQuery) (f : Form) (htypes : getTypes t = .ok types) (hnodup : types.Nodup)
    (hsmall : types.length < 2 ^ 32) (hconv : lispPoints t t.points = .ok lpts) (hne : q.varTypes ≠ [])
    (hknown : ∀ ts ∈ q.varTypes, ∀ n ∈ ts, n ∈ types) (hsoft : q.soft = []) (hseed : q.seed = 0)
    (hfile : q.file = none) (hcan : ∀ p ∈ t.points, ∀ v ∈ p.vars, v.Canonical)
    (hform : ReadsForm q.varTypes.length q.hard f)
    (hsize : ∀ p ∈ t.points, p.vars.length < 2 ^ 32 ∧ ∀ fvs, freeVars types q.varTypes = .ok fvs →
      combinations fvs p.vars < 2 ^ 64 ∧ env.canAlloc (24 * combinations fvs p.vars) = true)
    (hsame : q'.varTypes = q.varTypes) (hsoft' : q'.soft = [])
    (hfilter : ∀ p ∈ t.points, ∀ (l : LPoint) (b : List Nat), lispPoint t p = .ok l →
      IsNamedBinding q.varTypes l.scopes b →
      (q'.filter.getD fun _ => true) (namedResult l b) =
        (f.holds (lowFloat fs) (boundVars p.vars b) && (q.filter.getD fun _ => true) (namedResult l b))) :
    ∃ rs c ls, lispQuery env pick (plainEval fs) t q [] () = .ok (rs, c, ()) ∧ sexpQuery lpts q' = .ok ls ∧
      (∀ x ∈ ls, ∃ r ∈ rs, foldedKey r = foldedKey x) ∧
      (∀ r ∈ rs, (∃ x ∈ ls, foldedKey x = foldedKey r) ∨
        ∃ l ∈ lpts, ∃ b : List Nat, IsNamedBinding q.varTypes l.scopes b ∧ ¬ b.Nodup ∧ r = namedResult l b) := by
  have hc : ∀ p ∈ t.points, ∃ l ∈ lpts, lispPoint t p = .ok l := (lispPoints_mem hconv).2
  obtain ⟨rs, c, h1, h2, h3, h4⟩ := C58_binary fs env pick t types q f htypes hnodup hsmall
    (fun p hp => (hc p hp).elim fun l h => ⟨l, h.2⟩) hne hknown hsoft hseed hfile hcan hform hsize
  obtain ⟨ls, g1, g2, g3, _⟩ := C58_list_based lpts q' hsoft'
  refine ⟨rs, c, ls, h1, g1, fun x hx => ?_, fun r hr => ?_⟩
  · obtain ⟨l, hl, b, e1, e2, e3, rfl⟩ := g2 x hx
    rw [hsame] at e1
    obtain ⟨p, hp, e⟩ := (lispPoints_mem hconv).1 l hl
    have hg := hfilter p hp l b e e1
    have hacc : (q'.filter.getD fun _ => true) (namedResult l b) = true := by
      cases hf : q'.filter with
      | none => rfl
      | some g => exact e3 g hf
    rw [hacc] at hg
    obtain ⟨hh, hg⟩ := Bool.and_eq_true_iff.mp hg.symm
    have ha : LispAnswers fs t q f (namedResult l b) := by
      refine ⟨p, hp, l, b, e, e1, hh, fun g hgf => ?_, rfl⟩
      rw [hgf] at hg
      exact hg
    cases hf : q.filter with
    | none =>
      obtain ⟨r, hr, hk⟩ := h3 hf _ ha
      exact ⟨r, hr, foldedKey_of_exactKey hk⟩
    | some g => exact (h4 (by rw [hf]; simp)).1 _ ha
  · obtain ⟨p, hp, l, b, e1, e2, e3, e4, rfl⟩ := h2 r hr
    obtain ⟨l', hl', e5⟩ := hc p hp
    rw [e1] at e5
    cases e5
    rcases Decidable.em b.Nodup with hb | hb
    · left
      apply g3
      refine ⟨l, hl', b, by rw [hsame]; exact e2, hb, fun g hgf => ?_, rfl⟩
      have hg := hfilter p hp l b e1 e2
      rw [hgf, e3] at hg
      simp only [Option.getD_some, Bool.true_and] at hg
      rw [hg]
      cases hf : q.filter with
      | none => rfl
      | some g => exact e4 g hf
    · exact .inr ⟨l, hl', b, e2, hb, rfl⟩

/-- When no two names of the trace differ in case only, results of queries have the
same names up to case exactly if they have the same names. -/
theorem C58_case (t : Trace) (l m : LPoint) (b c : List Nat) (p q : Point) (hl : lispPoint t p = .ok l)
    (hm : lispPoint t q = .ok m)
    (hcase : ∀ x ∈ t.names.map cStr, ∀ y ∈ t.names.map cStr, x.map foldChar = y.map foldChar → x = y) :
    foldedKey (namedResult l b) = foldedKey (namedResult m c) ↔ exactKey (namedResult l b) = exactKey (namedResult m c) := by
  refine ⟨fun h => ?_, foldedKey_of_exactKey⟩
  have hn : ∀ (p : Point) (l : LPoint) (b : List Nat), lispPoint t p = .ok l → ∀ v ∈ (namedResult l b).scopes,
      v.name ∈ t.names.map cStr ∧ v.type ∈ t.names.map cStr := by
    intro p l b hl v hv
    obtain ⟨_, _, _, hvs⟩ := lispPoint_f hl
    obtain ⟨k, _, hk⟩ := List.mem_filterMap.mp hv
    obtain ⟨h1, h2⟩ := lispVars_get hvs
    have hlt : k < p.vars.length := by rw [← h1]; exact (List.getElem?_eq_some_iff.mp hk).1
    obtain ⟨v', hv', hc⟩ := h2 k _ (List.getElem?_eq_getElem hlt)
    rw [hk] at hv'
    cases hv'
    exact lispVar_names hc
  have key : ∀ ls ms : List LVar, (∀ v ∈ ls, v.name ∈ t.names.map cStr ∧ v.type ∈ t.names.map cStr) →
      (∀ v ∈ ms, v.name ∈ t.names.map cStr ∧ v.type ∈ t.names.map cStr) →
      (ls.map fun v => (v.name.map foldChar, v.type.map foldChar)) =
        (ms.map fun v => (v.name.map foldChar, v.type.map foldChar)) →
      (ls.map fun v => (v.name, v.type)) = ms.map fun v => (v.name, v.type) := by
    intro ls
    induction ls with
    | nil => intro ms _ _ e; cases ms with
      | nil => rfl
      | cons _ _ => cases e
    | cons v ls ih => intro ms h1 h2 e; cases ms with
      | nil => cases e
      | cons w ms =>
        simp only [List.map_cons, List.cons.injEq, Prod.mk.injEq] at e ⊢
        have hv := h1 v (by simp)
        have hw := h2 w (by simp)
        exact ⟨⟨hcase _ hv.1 _ hw.1 e.1.1, hcase _ hv.2 _ hw.2 e.1.2⟩,
          ih ms (fun x hx => h1 x (List.mem_cons_of_mem _ hx)) (fun x hx => h2 x (List.mem_cons_of_mem _ hx)) e.2⟩
  simp only [foldedKey, exactKey, Prod.mk.injEq] at h ⊢
  exact ⟨h.1, h.2.1, key _ _ (hn p l b hl) (hn q m c hm) h.2.2⟩

/-- The list-based database ignores predicate and file. -/
theorem C58_predicate_ignored (trace : List LPoint) (q : LQuery) (hard : Pred) (file : Option Nat) :
    sexpQuery trace { q with hard := hard, file := file } = sexpQuery trace q := rfl

/-- Variables `x` and `X` of type `i`, at one point. -/
def cTrace : Trace :=
  ⟨[[120], [105], [88]], [⟨1, .unsigned, 8⟩], [⟨0, 7, [], [qVar 0 0 1, qVar 2 0 5], []⟩]⟩

/-- `(< v0 v1)` for two variables of type `i`. -/
def cQuery : LQuery := ⟨[[[105]], [[105]]], qLess, [], 0, none, none⟩

/-- A predicate that never holds, `(< v0 v0)`, for a variable of type `i`. -/
def lessSelf : LQuery := ⟨[[[105]]], .node .lessThan 2 [pVal 0, pVal 0], [], 0, none, none⟩

/-- So with a predicate that never holds the binary database returns nothing and the
list-based one every point. -/
theorem C58_predicate_disagrees :
    (lispQuery qEnv (fun _ _ => 0) (plainEval exFloats) fTrace lessSelf [] () >>= fun r => .ok (r.1.map LPoint.c)) =
      .ok [] ∧
    (lispPoints fTrace fTrace.points >>= fun ps => sexpQuery ps lessSelf >>= fun r => .ok (r.map LPoint.c)) =
      .ok [12, 13, 14] := by
  refine ⟨by decide +kernel, by decide +kernel⟩

/-- `(< v0 v1)` as a filter. -/
def increasing (p : LPoint) : Bool :=
  match p.scopes with
  | [⟨_, _, .int a, _⟩, ⟨_, _, .int b, _⟩] => decide (a < b)
  | _ => false

/-- The hypotheses of `C58_agree` hold for `(< v0 v1)` on `cTrace`, and the results
are the one pair with increasing values. -/
example : getTypes cTrace = .ok [[105]] ∧ [[(105 : U8)]].Nodup ∧ (lispPoints cTrace cTrace.points).isOk = true ∧
    (∀ ts ∈ cQuery.varTypes, ∀ n ∈ ts, n ∈ [[(105 : U8)]]) ∧
    (∀ p ∈ cTrace.points, ∀ v ∈ p.vars, v.Canonical) ∧ ReadsForm cQuery.varTypes.length cQuery.hard
      (.cmp .lt (.value 0) (.value 1)) ∧
    (lispQuery qEnv (fun _ _ => 0) (plainEval exFloats) cTrace cQuery [] () >>= fun r =>
      .ok (r.1.map fun p => p.scopes.map LVar.name)) = .ok [[[120], [88]]] ∧
    (lispPoints cTrace cTrace.points >>= fun ps => sexpQuery ps { cQuery with filter := some increasing } >>=
      fun r => .ok (r.map fun p => p.scopes.map LVar.name)) = .ok [[[120], [88]]] := by
  refine ⟨by decide +kernel, by decide, by decide +kernel, by decide, by decide +kernel, qLess_reads, by decide +kernel,
    by decide +kernel⟩

/-- The whole of `C58_agree` applied to this case. -/
example : ∃ rs c ls, lispQuery qEnv (fun _ _ => 0) (plainEval exFloats) cTrace cQuery [] () = .ok (rs, c, ()) ∧
    sexpQuery [⟨7, none, [⟨[120], [105], .int 1, none⟩, ⟨[88], [105], .int 5, none⟩], []⟩]
      { cQuery with filter := some increasing } = .ok ls ∧
    (∀ x ∈ ls, ∃ r ∈ rs, foldedKey r = foldedKey x) := by
  have h := C58_agree exFloats qEnv (fun _ _ => 0) cTrace [[105]]
    [⟨7, none, [⟨[120], [105], .int 1, none⟩, ⟨[88], [105], .int 5, none⟩], []⟩] cQuery
    { cQuery with filter := some increasing } (.cmp .lt (.value 0) (.value 1))
    (by decide +kernel) (by decide) (by decide) (by decide +kernel) (by decide) (by decide) rfl rfl rfl
    (by decide +kernel) qLess_reads ?_ rfl rfl ?_
  · obtain ⟨rs, c, ls, h1, h2, h3, _⟩ := h
    exact ⟨rs, c, ls, h1, h2, h3⟩
  · intro p hp
    refine ⟨?_, fun fvs hf => ?_⟩
    · revert p; decide
    · have : fvs = [[0], [0]] := by
        have h : freeVars [[105]] cQuery.varTypes = .ok [[0], [0]] := by decide +kernel
        rw [h] at hf
        cases hf
        rfl
      subst this
      revert p
      decide +kernel
  · intro p hp l b hl hb
    have hp : p = ⟨0, 7, [], [qVar 0 0 1, qVar 2 0 5], []⟩ := by simpa [cTrace] using hp
    have hl' : lispPoint cTrace p =
        .ok ⟨7, none, [⟨[120], [105], .int 1, none⟩, ⟨[88], [105], .int 5, none⟩], []⟩ := by
      subst hp; decide +kernel
    rw [hl'] at hl
    cases hl
    obtain ⟨hlen, hb⟩ := hb
    match b, hlen with
    | [i, j], _ =>
      obtain ⟨v, hv, _⟩ := hb 0 _ i rfl rfl
      obtain ⟨w, hw, _⟩ := hb 1 _ j rfl rfl
      have hi := (List.getElem?_eq_some_iff.mp hv).1
      have hj := (List.getElem?_eq_some_iff.mp hw).1
      simp only [List.length_cons, List.length_nil] at hi hj
      subst hp
      have hi : i = 0 ∨ i = 1 := by omega
      have hj : j = 0 ∨ j = 1 := by omega
      rcases hi with rfl | rfl <;> rcases hj with rfl | rfl <;> decide +kernel

/-- Names that differ in case only: the binary database without filter returns `x` and
`X`, with a filter that accepts everything and in the list-based database `X` only. -/
theorem C58_case_conflated :
    (lispQuery qEnv (fun _ _ => 0) (plainEval exFloats) cTrace ⟨[[[105]]], .nullPred, [], 0, none, none⟩ [] () >>=
      fun r => .ok (r.1.map fun p => p.scopes.map LVar.name)) = .ok [[[120]], [[88]]] ∧
    (lispQuery qEnv (fun _ _ => 0) (plainEval exFloats) cTrace ⟨[[[105]]], .nullPred, [], 0, none, some fun _ => true⟩
      [] () >>= fun r => .ok (r.1.map fun p => p.scopes.map LVar.name)) = .ok [[[88]]] ∧
    (lispPoints cTrace cTrace.points >>= fun ps => sexpQuery ps ⟨[[[105]]], .nullPred, [], 0, none, none⟩ >>=
      fun r => .ok (r.map fun p => p.scopes.map LVar.name)) = .ok [[[88]]] := by
  refine ⟨by decide +kernel, by decide +kernel, by decide +kernel⟩

/-- Two types with the same name, as the instrumentation makes them for a pointer and
an array: the binary database finds variables of the first one only, the list-based
database finds both. -/
theorem C58_shared_type_names (t : Trace)
    (ht : t = ⟨[[120], [105], [121]], [⟨1, .unsigned, 8⟩, ⟨1, .unsigned, 8⟩],
      [⟨0, 7, [], [qVar 0 0 1, qVar 2 1 5], []⟩]⟩) :
    (lispQuery qEnv (fun _ _ => 0) (plainEval exFloats) t ⟨[[[105]]], .nullPred, [], 0, none, none⟩ [] () >>=
      fun r => .ok (r.1.map fun p => p.scopes.map LVar.name)) = .ok [[[120]]] ∧
    (lispPoints t t.points >>= fun ps => sexpQuery ps ⟨[[[105]]], .nullPred, [], 0, none, none⟩ >>=
      fun r => .ok (r.map fun p => p.scopes.map LVar.name)) = .ok [[[120]], [[121]]] := by
  subst ht
  refine ⟨by decide +kernel, by decide +kernel⟩

/-- A type name that the trace does not have is an error in the binary database
although the type can simply not occur; the list-based one finds nothing. -/
theorem C58_unknown_type {σ : Type} (env : Env) (pick : U32 → Nat → Nat) (ev : Evaluator σ) (t : Trace)
    (types : List (List U8)) (lpts : List LPoint) (q : LQuery) (n : List U8) (s : σ) (htypes : getTypes t = .ok types)
    (hconv : lispPoints t t.points = .ok lpts) (hn : n ∉ types) (hq : q.varTypes = [[n]]) (hsoft : q.soft = []) :
    lispQuery env pick ev t q [] s = .throw .lisp ∧ sexpQuery lpts q = .ok [] := by
  constructor
  · have : ¬ types.findIdx (· == n) < types.length := by
      rw [List.findIdx_lt_length]
      rintro ⟨x, hx, he⟩
      rw [beq_iff_eq.mp he] at hx
      exact hn hx
    simp only [lispQuery, htypes, Res.ok_bind, hq, freeVars, typePositions, if_neg this]
    rfl
  · obtain ⟨rs, h1, h2, _⟩ := C58_list_based lpts q hsoft
    rw [h1]
    cases rs with
    | nil => rfl
    | cons r rs =>
      obtain ⟨l, hl, b, ⟨hb1, hb2⟩, _⟩ := h2 r (by simp)
      rw [hq] at hb1 hb2
      match b, hb1 with
      | [k], _ =>
        obtain ⟨v, hv, hm⟩ := hb2 0 [n] k rfl rfl
        simp only [List.mem_singleton] at hm
        obtain ⟨p, _, hp⟩ := (lispPoints_mem hconv).1 l hl
        obtain ⟨_, _, _, hvs⟩ := lispPoint_f hp
        obtain ⟨g1, g2⟩ := lispVars_get hvs
        have hlt : k < p.vars.length := by rw [← g1]; exact (List.getElem?_eq_some_iff.mp hv).1
        obtain ⟨v', hv', hc⟩ := g2 k _ (List.getElem?_eq_getElem hlt)
        rw [hv] at hv'
        cases hv'
        obtain ⟨ty, tn, e1, e2, e3⟩ := lispVar_type hc
        obtain ⟨tn', e4, e5⟩ := (getTypesLoop_get htypes).2 _ _ e1
        rw [e2] at e4
        cases e4
        rw [← e3, hm] at e5
        exact absurd (List.mem_of_getElem? e5) hn

/-- The trace above has the type "i" only, so a query for a variable of the type "j" ends in
an error here and gives nothing there. -/
example (ps : List LPoint) (h : lispPoints cTrace cTrace.points = .ok ps) :
    lispQuery qEnv (fun _ _ => 0) (plainEval exFloats) cTrace ⟨[[[106]]], .nullPred, [], 0, none, none⟩ [] () = .throw .lisp ∧
    sexpQuery ps ⟨[[[106]]], .nullPred, [], 0, none, none⟩ = .ok [] :=
  C58_unknown_type qEnv _ _ cTrace [[105]] ps _ [106] () (by decide +kernel) h (by decide) rfl rfl

end TraceDB
