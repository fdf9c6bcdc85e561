import Verif.Proofs.EndToEnd
/-
The tables of an instrumented program, and its trace.
-/
namespace TraceDB

theorem put_keys {κ α : Type} (same : κ → κ → Bool) (t : HTable κ α) (k : κ) (v : α) :
    ∀ n ∈ (t.put same k v).map (·.1), n ∈ t.map (·.1) ∨ n = k := by
  induction t with
  | nil => intro n hn; simp [HTable.put] at hn; exact .inr hn
  | cons e t ih =>
    intro n hn
    rw [HTable.put] at hn
    split at hn
    · exact .inl hn
    · rw [List.map_cons, List.mem_cons] at hn
      rcases hn with rfl | hn
      · simp
      · rcases ih n hn with h | h
        · exact .inl (List.mem_cons_of_mem _ h)
        · exact .inr h

theorem request_keys (te : TableTests) (s : Tables) (r : TabReq) : ∀ k ∈ (s.request te r).2.rows.map (·.1),
    k ∈ s.rows.map (·.1) ∨ ∃ f z, r = .type k f z := by
  intro k hk
  cases r with
  | name n => exact .inl hk
  | type k' f z =>
    rw [Tables.request] at hk
    split at hk
    · exact .inl hk
    · rcases put_keys _ _ _ _ k hk with h | rfl
      · exact .inl h
      · exact .inr ⟨f, z, rfl⟩

theorem genExprs_keys (te : TableTests) (ps : Bool) : ∀ (vs : List ScopeVar) (s : Tables),
    ∀ k ∈ (genExprs te ps vs s).2.rows.map (·.1), k ∈ s.rows.map (·.1) ∨ ∃ v ∈ vs, v.IsRecorded ps ∧ k = v.key ps
  | [], s, k, hk => .inl hk
  | v :: vs, s, k, hk => by
    rw [genExprs] at hk
    split at hk
    · rcases genExprs_keys te ps vs s k hk with h | ⟨w, hw, h⟩
      · exact .inl h
      · exact .inr ⟨w, List.mem_cons_of_mem _ hw, h⟩
    · rename_i format size hf
      have key : k ∈ (genExprs te ps vs ((s.request te (.type (v.key ps) format size)).2.request te (.name v.name)).2).2.rows.map
          (·.1) := by
        revert hk
        simp only []
        split
        · exact id
        · split
          · exact id
          · exact id
      rcases genExprs_keys te ps vs _ k key with h | ⟨w, hw, h⟩
      · rcases request_keys te _ _ k h with h | ⟨_, _, h⟩
        · rcases request_keys te _ _ k h with h | ⟨_, _, h⟩
          · exact .inl h
          · cases h
            refine .inr ⟨v, by simp, ?_, rfl⟩
            by_cases ht : v.AsText ps
            · exact .inr ht
            · exact .inl (asScalar_of ht hf)
        · cases h
      · exact .inr ⟨w, List.mem_cons_of_mem _ hw, h⟩

theorem instrumentParts_keys (te : TableTests) : ∀ (parts : List (Bool × List ScopeVar)) (s : Tables),
    ∀ k ∈ (instrumentParts te parts s).2.rows.map (·.1), k ∈ s.rows.map (·.1) ∨
      ∃ part ∈ parts, ∃ v ∈ part.2, v.IsRecorded part.1 ∧ k = v.key part.1
  | [], s, k, hk => .inl hk
  | p :: ps, s, k, hk => by
    rcases instrumentParts_keys te ps _ k hk with h | ⟨part, hp, h⟩
    · rcases genExprs_keys te p.1 p.2 s k h with h | h
      · exact .inl h
      · exact .inr ⟨p, by simp, h⟩
    · exact .inr ⟨part, List.mem_cons_of_mem _ hp, h⟩

theorem instrumentSites_keys (te : TableTests) : ∀ (sites : List Site) (s : Tables),
    ∀ k ∈ (instrumentSites te sites s).2.rows.map (·.1), k ∈ s.rows.map (·.1) ∨
      ∃ x ∈ sites, ∃ part ∈ x.parts, ∃ v ∈ part.2, v.IsRecorded part.1 ∧ k = v.key part.1
  | [], s, k, hk => .inl hk
  | x :: xs, s, k, hk => by
    rcases instrumentSites_keys te xs _ k hk with h | ⟨y, hy, h⟩
    · rcases instrumentParts_keys te x.parts s k h with h | h
      · exact .inl h
      · exact .inr ⟨x, by simp, h⟩
    · exact .inr ⟨y, List.mem_cons_of_mem _ hy, h⟩

theorem Selected.mem_of {α : Type} {P : α → Prop} {l m : List α} (h : Selected P l m) : ∀ x ∈ l, P x → x ∈ m := by
  induction h with
  | nil => simp
  | keep hp _ ih =>
    intro y hy hpy
    rcases List.mem_cons.mp hy with rfl | hy
    · simp
    · exact List.mem_cons_of_mem _ (ih y hy hpy)
  | skip hn _ ih =>
    intro y hy hpy
    rcases List.mem_cons.mp hy with rfl | hy
    · exact absurd hpy hn
    · exact ih y hy hpy

theorem AllRel.mem_left {α β : Type} {R : α → β → Prop} {l : List α} {m : List β} (h : AllRel R l m) :
    ∀ x ∈ l, ∃ y ∈ m, R x y := by
  intro x hx
  obtain ⟨i, hi⟩ := List.getElem?_of_mem hx
  rcases h.get_left i with ⟨e, _⟩ | ⟨x', y, e1, e2, e3⟩
  · rw [e] at hi; cases hi
  · rw [hi] at e1
    cases e1
    exact ⟨y, List.mem_of_getElem? e2, e3⟩

theorem getTypes_rows {names : List Name} (hn : names.length < 2 ^ 32) (hnul : ∀ n ∈ names, (0 : U8) ∉ n) :
    ∀ rows : List (TypeKey × TypeRow), (∀ e ∈ rows, names[e.2.name]? = some e.1.2) →
      getTypesLoop names ((rows.map (·.2)).map TypeRow.desc) = .ok (rows.map fun e => e.1.2)
  | [], _ => rfl
  | e :: rows, h => by
    have h1 := h e (by simp)
    have e1 : names[e.2.desc.nameIndex.toNat]? = some e.1.2 := by
      show names[(BitVec.ofNat 32 e.2.name).toNat]? = _
      rw [(ofNat_index hn h1).1, h1]
    simp only [List.map_cons, getTypesLoop, e1, getTypes_rows hn hnul rows fun e he => h e (List.mem_cons_of_mem _ he),
      Res.ok_bind, cStr_nulFree (hnul _ (List.mem_of_getElem? h1))]
    rfl

/-- The tables of a single file: names are distinct, types have the names of the types
recorded, and these are distinct if types that print alike are treated alike. -/
structure TablesFor (sites : List Site) (names : List Name) (rows : List TypeRow) : Prop where
  distinct : (names.map cStr).Nodup
  types : ∃ types, getTypesLoop names (rows.map TypeRow.desc) = .ok types ∧ (OneTypePerName sites → types.Nodup) ∧
    types.length = rows.length ∧ ∀ n, TypeRecorded sites n → n ∈ types

theorem tablesFor {sites : List Site} (hok : ∀ x ∈ sites, x.Ok) {gens : List GenSite} {tabs : Tables}
    (hins : instrumentSites .equal sites Tables.empty = (gens, tabs)) (hn : tabs.emitNames.length < 2 ^ 32) :
    TablesFor sites tabs.emitNames (tabs.emitTypes .equal) := by
  have law := TableTests.equal_lawful
  obtain ⟨rs, h1, h2, h3⟩ := instrumentSites_spec .equal sites Tables.empty hok
  have hkeys := instrumentSites_keys .equal sites Tables.empty
  rw [hins] at h1 h3 hkeys
  have h1 : tabs = (Tables.empty.requests .equal rs).2 := h1
  have he : EmittedFor .equal rs tabs.emitNames (tabs.emitTypes .equal) := by
    rw [h1]
    refine emittedFor law (fun a b h => ?_) h2
    rw [beq_iff_eq.mp (show (a == b) = true from h)]
    exact TableTests.equalp_lawful.type_refl b
  have hinv : tabs.Inv .equal := by rw [h1]; exact (Tables.requests_spec law rs _ (Tables.inv_empty _)).1
  have hnames := Tables.emitNames_eq hinv
  have hrows := Tables.emitTypes_eq law hinv
  have hrow : ∀ e ∈ tabs.rows, tabs.emitNames[e.2.name]? = some e.1.2 := by
    intro e hm
    obtain ⟨n, g1, g2⟩ := hinv.rowName e hm
    rw [hnames, List.getElem?_map, g1]
    simp only [Option.map_some, Option.some.injEq]
    exact beq_iff_eq.mp g2
  refine ⟨?_, tabs.rows.map fun e => e.1.2, ?_, ?_, ?_, ?_⟩
  · have : tabs.emitNames.map cStr = tabs.emitNames := by
      have : tabs.emitNames.map cStr = tabs.emitNames.map id :=
        List.map_congr_left fun n hm => cStr_nulFree (he.nulFree n hm)
      rw [this, List.map_id]
    rw [this, hnames, List.nodup_iff_pairwise_ne, List.pairwise_map]
    refine hinv.names.sep.imp fun {a b} h e => ?_
    rw [e] at h
    simp [TableTests.equal] at h
  · rw [hrows]
    exact getTypes_rows hn he.nulFree _ hrow
  · intro hone
    have hsep : (tabs.rows.map (·.1)).Pairwise (· ≠ ·) := by
      rw [hinv.keys, List.pairwise_map]
      refine hinv.types.sep.imp fun {a b} h e => ?_
      rw [e] at h
      simp [TableTests.equal] at h
    rw [List.nodup_iff_pairwise_ne, List.pairwise_map]
    rw [List.pairwise_map] at hsep
    refine hsep.imp_of_mem fun {a b} ha hb hab e => hab ?_
    rcases hkeys _ (List.mem_map_of_mem ha) with h | ⟨x, hx, part, hp, v, hv, r1, k1⟩
    · simp [Tables.empty] at h
    rcases hkeys _ (List.mem_map_of_mem hb) with h | ⟨y, hy, part', hp', w, hw, r2, k2⟩
    · simp [Tables.empty] at h
    rw [k1, k2] at e ⊢
    obtain ⟨g1, g2⟩ := hone x hx part hp v hv y hy part' hp' w hw r1 r2 e
    unfold ScopeVar.key at e ⊢
    simp only at e
    rw [e]
    by_cases ht : v.AsText part.1
    · have ht' := g1.mp ht
      rw [if_pos (asText_iff.mp ht), if_pos (asText_iff.mp ht'), g2 ht]
    · have ht' : ¬ w.AsText part'.1 := fun h => ht (g1.mpr h)
      rw [if_neg (fun h => ht (asText_iff.mpr h)), if_neg (fun h => ht' (asText_iff.mpr h))]
  · rw [hrows, List.length_map, List.length_map]
  · rintro n ⟨x, hx, part, hp, v, hv, hr, rfl⟩
    obtain ⟨g, _, _, cs, _, hparts⟩ := h3.mem_left x hx
    obtain ⟨c, _, sc, tx, vars, blobs, _, s1, s2, s3, s4⟩ := hparts.mem_left part hp
    have hask : ∃ i f z, Asked .equal Tables.empty rs i (.type (v.key part.1) f z) := by
      rcases hr with hr | hr
      · obtain ⟨g, _, _, _, ha, _⟩ := s3.mem_left v (s1.mem_of v hv hr)
        exact ⟨_, _, _, ha⟩
      · obtain ⟨g, _, _, _, ha, _⟩ := s4.mem_left v (s2.mem_of v hv hr)
        exact ⟨_, _, _, ha⟩
    obtain ⟨i, f, z, ha⟩ := hask
    obtain ⟨row, n', a1, _, _, a4, a5⟩ := he.type i _ f z ha
    rw [hrows, List.getElem?_map, Option.map_eq_some_iff] at a1
    obtain ⟨e, e1, e2⟩ := a1
    have hm := List.mem_of_getElem? e1
    refine List.mem_map.mpr ⟨e, hm, ?_⟩
    have := hrow e hm
    rw [e2, a4] at this
    cases this
    exact beq_iff_eq.mp a5

/-- The trace of an instrumented program. -/
theorem instrumented_trace (env : Env) (io : Bool) (cf : CFloat) (mem : CMem) {sites : List Site} {gens : List GenSite}
    {tabs : Tables} (hok : ∀ x ∈ sites, x.Ok) (hins : instrumentSites .equal sites Tables.empty = (gens, tabs))
    (hn : tabs.emitNames.length < 2 ^ 32) (hch : (tabs.emitNames.map fun n => n.length + 1).sum < 2 ^ 63)
    (hr : (tabs.emitTypes .equal).length < 2 ^ 32)
    {visits : List Visit} {calls : List (U64 × List RtCall)} (hruns : AllRel (Visit.RunsAs cf mem gens) visits calls)
    (hfit : ∀ v ∈ visits, v.Fits cf sites) (hal : ∀ n, env.canAlloc n = true) :
    ∃ bs t ls, rtRun cf mem tabs.emitNames ((tabs.emitTypes .equal).map TypeRow.desc) calls = .ok bs ∧
      readTrace env 0 (gs io bs) = .ok t ∧ t.names = tabs.emitNames ∧ t.types = (tabs.emitTypes .equal).map TypeRow.desc ∧
      AllRel (fun p l => lispPoint t p = .ok l) t.points ls ∧ AllRel (Visit.Shown .equal sites) visits ls ∧
      ∀ p ∈ t.points, ∀ v ∈ p.vars, Described t.names t.types v := by
  have law := TableTests.equal_lawful
  obtain ⟨rs, h1, h2, h3⟩ := instrumentSites_spec .equal sites Tables.empty hok
  rw [hins] at h1 h3
  have h1 : tabs = (Tables.empty.requests .equal rs).2 := h1
  have he : EmittedFor .equal rs tabs.emitNames (tabs.emitTypes .equal) := by
    rw [h1]
    refine emittedFor law (fun a b h => ?_) h2
    rw [beq_iff_eq.mp (show (a == b) = true from h)]
    exact TableTests.equalp_lawful.type_refl b
  obtain ⟨recs, r1, r2, r3, r4⟩ := visits_recorded he hn hr hok h3 hruns hfit
  have hdr : HeaderOk tabs.emitNames ((tabs.emitTypes .equal).map TypeRow.desc) := by
    refine ⟨he.nulFree, hch, by rw [List.length_map]; exact hr, fun t ht => ?_⟩
    obtain ⟨r, hr, rfl⟩ := List.mem_map.mp ht
    exact he.formats r hr
  have hres : ReservedOk (recs.flatMap fun p => recSizes p.items) := by
    have : (recs.flatMap fun p => recSizes p.items) = [] := by
      rw [List.flatMap_eq_nil_iff]
      exact r3
    rw [this]
    exact reservedOk_of_unused (by simp)
  obtain ⟨bs, b1, b2⟩ := C02_recorded_is_read env io cf mem _ _ recs calls hdr hn r1 r2 hres hal
  obtain ⟨ls, l1, l2⟩ := r4 (recPoints 0 [] recs) 0
  exact ⟨bs, _, ls, b1, b2, rfl, rfl, l1, l2, described_points recs 0 r2 r3⟩

theorem AllRel.trans {α β γ : Type} {R : α → β → Prop} {S : α → γ → Prop} {T : β → γ → Prop} {l : List α} {m : List β}
    {n : List γ} (h : AllRel R l m) (h' : AllRel S l n) (hi : ∀ x y z, R x y → S x z → T y z) : AllRel T m n := by
  induction h generalizing n with
  | nil => cases h'; exact .nil
  | cons hx _ ih => cases h' with
    | cons hy h' => exact .cons (hi _ _ _ hx hy) (ih h')

theorem AllRel.filter {α β : Type} {R : α → β → Prop} {l : List α} {m : List β} (h : AllRel R l m) {p : α → Bool} {q : β → Bool}
    (hpq : ∀ x y, R x y → p x = q y) : AllRel R (l.filter p) (m.filter q) := by
  induction h with
  | nil => exact .nil
  | cons hx _ ih =>
    rw [List.filter_cons, List.filter_cons, hpq _ _ hx]
    split
    · exact .cons hx ih
    · exact ih

/-- Queries with a file look at the points of the file only. -/
theorem query_file (fs : FloatSys) (env : Env) (pick : U32 → Nat → Nat) {t : Trace} {types : List (List U8)}
    (hnames : (t.names.map cStr).Nodup) (htypes : getTypes t = .ok types) (hnodup : types.Nodup)
    (hsmall : types.length < 2 ^ 32) {ls : List LPoint} (hls : AllRel (fun p l => lispPoint t p = .ok l) t.points ls)
    (hd : ∀ p ∈ t.points, ∀ v ∈ p.vars, Described t.names t.types v)
    (hcan : ∀ p ∈ t.points, ∀ v ∈ p.vars, v.Canonical) {q : LQuery} {f : Form} (hne : q.varTypes ≠ [])
    (hknown : ∀ ts ∈ q.varTypes, ∀ n ∈ ts, n ∈ types) (hsoft : q.soft = []) (hseed : q.seed = 0)
    (hfile : ∀ i, q.file = some i → i < 2 ^ 23 ∧
      ∀ p ∈ t.points, (unpackF p.statement).isSome ∨ (0 < i ∧ p.statement.toNat < 2 ^ 40))
    (hform : ReadsForm q.varTypes.length q.hard f) (hal : ∀ n, env.canAlloc n = true)
    (hfit : ∀ l ∈ ls, l.scopes.length < 2 ^ 32 ∧ choices q.varTypes l.scopes < 2 ^ 64 ∧
      ∀ x ∈ l.scopes, ∀ ts ∈ q.varTypes, x.type ∈ ts → ∀ b, x.value ≠ .double b) :
    ∃ rs c, lispQuery env pick (plainEval fs) t q [] () = .ok (rs, c, ()) ∧
      let A := PointsAnswer fs (ls.filter fun l => decide (∀ i, q.file = some i → l.f = some i)) q f
      (∀ r ∈ rs, A r) ∧
      (q.filter = none → ∀ a, A a → ∃ r ∈ rs, exactKey r = exactKey a) ∧
      (q.filter ≠ none → (∀ a, A a → ∃ r ∈ rs, foldedKey r = foldedKey a) ∧
        rs.Pairwise fun a b => foldedKey a ≠ foldedKey b) := by
  cases hq : q.file with
  | none =>
    have : (ls.filter fun l => decide (∀ i, (none : Option Nat) = some i → l.f = some i)) = ls := by
      rw [List.filter_eq_self]
      intro l _
      simp
    rw [this]
    exact query_points fs env pick hnames htypes hnodup hsmall hls hd hcan hne hknown hsoft hseed hq hform hal hfit
  | some i =>
    obtain ⟨hi, hids⟩ := hfile i hq
    have heq := (C49_points_of_file env pick (plainEval fs) t q i () hi hq hids).1
    have hls' : AllRel (fun p l => lispPoint t p = .ok l)
        (t.points.filter fun p => decide (unpackF p.statement = some i)) (ls.filter fun l => decide (l.f = some i)) :=
      hls.filter fun p l h => by rw [(lispPoint_f h).1]
    have hsub : ∀ p ∈ t.points.filter (fun p => decide (unpackF p.statement = some i)), p ∈ t.points :=
      fun p hp => (List.mem_filter.mp hp).1
    obtain ⟨rs, c, h1, h2⟩ := query_points fs env pick
      (t := { t with points := t.points.filter fun p => decide (unpackF p.statement = some i) })
      (q := { q with file := none }) hnames htypes hnodup hsmall (hls'.imp fun _ _ h => by rw [← h]; simp only [lispPoint, lispVars_with]) (fun p hp => hd p (hsub p hp))
      (fun p hp => hcan p (hsub p hp)) hne hknown hsoft hseed rfl hform hal
      (fun l hl => hfit l (List.mem_filter.mp hl).1)
    rw [h1, Res.ok_bind] at heq
    obtain ⟨⟨rs', c', u⟩, e1, e2⟩ := Res.bind_eq_ok.mp heq
    cases e2
    refine ⟨rs, c', e1, ?_⟩
    have : (ls.filter fun l => decide (∀ j, (some i : Option Nat) = some j → l.f = some j)) =
        ls.filter fun l => decide (l.f = some i) := by
      congr 1
      funext l
      simp
    rw [this]
    exact h2

end TraceDB
