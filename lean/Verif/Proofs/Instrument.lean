import Verif.Proofs.InstrumentTypes
import Verif.Proofs.RuntimeThreads
import Verif.Props.NameTable
import Verif.Props.LispDb
import Verif.Props.Runtime
/-
The indices in generated calls.
-/
namespace TraceDB

/-- The index `i` was the answer to the request `r`. -/
def Asked (te : TableTests) (s : Tables) (rs : List TabReq) (i : Nat) (r : TabReq) : Prop :=
  ∃ j : Nat, rs[j]? = some r ∧ (s.requests te rs).1[j]? = some i

theorem requests_append (te : TableTests) : ∀ (rs rs' : List TabReq) (s : Tables),
    s.requests te (rs ++ rs') = ((s.requests te rs).1 ++ ((s.requests te rs).2.requests te rs').1,
      ((s.requests te rs).2.requests te rs').2)
  | [], rs', s => rfl
  | r :: rs, rs', s => by
    rw [List.cons_append, Tables.requests_cons, Tables.requests_cons, requests_append te rs rs']
    rfl

theorem requests_length (te : TableTests) : ∀ (rs : List TabReq) (s : Tables), (s.requests te rs).1.length = rs.length
  | [], s => rfl
  | r :: rs, s => by
    rw [Tables.requests_cons, List.length_cons, List.length_cons, requests_length te rs]

theorem Asked.left {te : TableTests} {s : Tables} {rs : List TabReq} {i : Nat} {r : TabReq} (h : Asked te s rs i r)
    (rs' : List TabReq) : Asked te s (rs ++ rs') i r := by
  obtain ⟨j, h1, h2⟩ := h
  refine ⟨j, prefix_getElem? (List.prefix_append _ _) h1, ?_⟩
  rw [requests_append]
  exact prefix_getElem? (List.prefix_append _ _) h2

theorem Asked.right {te : TableTests} {s : Tables} {rs : List TabReq} (rs0 : List TabReq) {i : Nat} {r : TabReq}
    (h : Asked te (s.requests te rs0).2 rs i r) : Asked te s (rs0 ++ rs) i r := by
  obtain ⟨j, h1, h2⟩ := h
  refine ⟨rs0.length + j, ?_, ?_⟩
  · rw [List.getElem?_append_right (by omega)]
    simpa using h1
  · rw [requests_append, List.getElem?_append_right (by rw [requests_length]; omega), requests_length]
    simpa using h2

theorem Asked.single (te : TableTests) (s : Tables) (r : TabReq) : Asked te s [r] (s.request te r).1 r :=
  ⟨0, rfl, rfl⟩

/-- A request that comes from a variable. -/
def TabReq.Ok : TabReq → Prop
  | .name n => (0 : U8) ∉ n
  | .type k f z => ∃ (v : ScopeVar) (ps : Bool), v.Ok ∧ k = v.key ps ∧ formatAndSize v.type ps = some (f, z)

/-- A generated argument list for a scalar. -/
def GenVar.For (te : TableTests) (s : Tables) (rs : List TabReq) (ps : Bool) (v : ScopeVar) (g : GenVar) : Prop :=
  g.var = v ∧ formatAndSize v.type ps = some (g.format, g.size) ∧
    Asked te s rs g.type (.type (v.key ps) g.format g.size) ∧ Asked te s rs g.name (.name v.name)

/-- A generated argument list for a string. -/
def GenBlob.For (te : TableTests) (s : Tables) (rs : List TabReq) (ps : Bool) (v : ScopeVar) (g : GenBlob) : Prop :=
  g.var = v ∧ formatAndSize v.type ps = some (.blob, 0) ∧
    Asked te s rs g.type (.type (v.key ps) .blob 0) ∧ Asked te s rs g.name (.name v.name)

theorem GenVar.For.right {te : TableTests} {s : Tables} {rs : List TabReq} {ps : Bool} {v : ScopeVar} {g : GenVar}
    (rs0 : List TabReq) (h : g.For te (s.requests te rs0).2 rs ps v) : g.For te s (rs0 ++ rs) ps v :=
  ⟨h.1, h.2.1, h.2.2.1.right rs0, h.2.2.2.right rs0⟩

theorem GenVar.For.left {te : TableTests} {s : Tables} {rs : List TabReq} {ps : Bool} {v : ScopeVar} {g : GenVar}
    (h : g.For te s rs ps v) (rs' : List TabReq) : g.For te s (rs ++ rs') ps v :=
  ⟨h.1, h.2.1, h.2.2.1.left rs', h.2.2.2.left rs'⟩

theorem GenBlob.For.right {te : TableTests} {s : Tables} {rs : List TabReq} {ps : Bool} {v : ScopeVar} {g : GenBlob}
    (rs0 : List TabReq) (h : g.For te (s.requests te rs0).2 rs ps v) : g.For te s (rs0 ++ rs) ps v :=
  ⟨h.1, h.2.1, h.2.2.1.right rs0, h.2.2.2.right rs0⟩

theorem GenBlob.For.left {te : TableTests} {s : Tables} {rs : List TabReq} {ps : Bool} {v : ScopeVar} {g : GenBlob}
    (h : g.For te s rs ps v) (rs' : List TabReq) : g.For te s (rs ++ rs') ps v :=
  ⟨h.1, h.2.1, h.2.2.1.left rs', h.2.2.2.left rs'⟩

theorem AllRel.imp {α β : Type} {R S : α → β → Prop} {l : List α} {m : List β} (h : AllRel R l m)
    (hi : ∀ x y, R x y → S x y) : AllRel S l m := by
  induction h with
  | nil => exact .nil
  | cons h _ ih => exact .cons (hi _ _ h) ih

/-- What `genExprs` generates. -/
theorem genExprs_spec (te : TableTests) (ps : Bool) : ∀ (vs : List ScopeVar) (s : Tables), (∀ v ∈ vs, v.Ok) →
    ∃ rs scalars texts, (genExprs te ps vs s).2 = (s.requests te rs).2 ∧ (∀ r ∈ rs, r.Ok) ∧
      Selected (ScopeVar.AsScalar ps) vs scalars ∧ Selected (ScopeVar.AsText ps) vs texts ∧
      AllRel (fun v g => GenVar.For te s rs ps v g) scalars (genExprs te ps vs s).1.1 ∧
      AllRel (fun v g => GenBlob.For te s rs ps v g) texts (genExprs te ps vs s).1.2
  | [], s, _ => ⟨[], [], [], rfl, by simp, .nil, .nil, .nil, .nil⟩
  | v :: vs, s, hok => by
    cases hf : formatAndSize v.type ps with
    | none =>
      obtain ⟨rs, sc, tx, h1, h2, h3, h4, h5, h6⟩ := genExprs_spec te ps vs s fun x hx => hok x (List.mem_cons_of_mem _ hx)
      have hn := not_asScalar_of (v := v) hf
      rw [genExprs, hf]
      exact ⟨rs, sc, tx, h1, h2, .skip hn.1 h3, .skip hn.2 h4, h5, h6⟩
    | some fz =>
      obtain ⟨f, z⟩ := fz
      rw [genExprs, hf]
      simp only []
      generalize hr1 : s.request te (.type (v.key ps) f z) = r1
      generalize hr2 : r1.2.request te (.name v.name) = r2
      obtain ⟨rs, sc, tx, h1, h2, h3, h4, h5, h6⟩ :=
        genExprs_spec te ps vs r2.2 fun x hx => hok x (List.mem_cons_of_mem _ hx)
      have e2 : r2.2 = (s.requests te [.type (v.key ps) f z, .name v.name]).2 := by
        rw [← hr2, ← hr1]
        rfl
      have a1 : Asked te s ([.type (v.key ps) f z, .name v.name] ++ rs) r1.1 (.type (v.key ps) f z) :=
        ⟨0, rfl, by rw [← hr1]; rfl⟩
      have a2 : Asked te s ([.type (v.key ps) f z, .name v.name] ++ rs) r2.1 (.name v.name) :=
        ⟨1, rfl, by rw [← hr2, ← hr1]; rfl⟩
      have hok2 : ∀ r ∈ [TabReq.type (v.key ps) f z, .name v.name] ++ rs, r.Ok := by
        intro r hr
        simp only [List.cons_append, List.nil_append, List.mem_cons] at hr
        rcases hr with rfl | rfl | hr
        · exact ⟨v, ps, hok v (by simp), rfl, hf⟩
        · exact (hok v (by simp)).name
        · exact h2 r hr
      have h7 : (genExprs te ps vs r2.2).2 = (s.requests te ([.type (v.key ps) f z, .name v.name] ++ rs)).2 := by
        rw [h1, e2, requests_append]
      rw [e2] at h5 h6
      have h5 := h5.imp fun _ _ h => GenVar.For.right _ h
      have h6 := h6.imp fun _ _ h => GenBlob.For.right _ h
      rw [← e2] at h5 h6
      refine ⟨[.type (v.key ps) f z, .name v.name] ++ rs, ?_⟩
      by_cases ht : v.AsText ps
      · have ht' := asText_iff.mp ht
        have hfz : f = .blob ∧ z = 0 := by
          rw [formatAndSize_text ht] at hf
          cases hf
          exact ⟨rfl, rfl⟩
        obtain ⟨rfl, rfl⟩ := hfz
        have hb : GenBlob.For te s ([.type (v.key ps) .blob 0, .name v.name] ++ rs) ps v ⟨r2.1, r1.1, v⟩ :=
          ⟨rfl, hf, a1, a2⟩
        have hres : (if (ps && v.type.isCString) = true then
            (((genExprs te ps vs r2.2).1.1, ⟨r2.1, r1.1, v⟩ :: (genExprs te ps vs r2.2).1.2), (genExprs te ps vs r2.2).2)
          else if (ps && v.type.isCppString) = true then
            (((genExprs te ps vs r2.2).1.1, ⟨r2.1, r1.1, v⟩ :: (genExprs te ps vs r2.2).1.2), (genExprs te ps vs r2.2).2)
          else ((⟨r2.1, r1.1, 0, .blob, v⟩ :: (genExprs te ps vs r2.2).1.1, (genExprs te ps vs r2.2).1.2),
            (genExprs te ps vs r2.2).2)) =
            (((genExprs te ps vs r2.2).1.1, (⟨r2.1, r1.1, v⟩ :: (genExprs te ps vs r2.2).1.2 : List GenBlob)),
              (genExprs te ps vs r2.2).2) := by
          split
          · rfl
          · rename_i hc
            rw [if_pos]
            rw [Bool.and_eq_true] at ht' ⊢
            refine ⟨ht'.1, ?_⟩
            unfold CType.isString at ht'
            cases hcs : v.type.isCString with
            | true => rw [hcs, ht'.1] at hc; exact absurd rfl hc
            | false => rw [hcs] at ht'; exact ht'.2
        rw [hres]
        refine ⟨sc, v :: tx, h7, hok2, .skip (fun h => h.1 ht) h3, .keep ht h4, h5, .cons hb h6⟩
      · have ht' : ¬ (ps && v.type.isString) = true := fun h => ht (asText_iff.mpr h)
        have n1 : ¬ (ps && v.type.isCString) = true := by
          intro h
          rw [Bool.and_eq_true] at h
          exact ht' (by rw [h.1, CType.isString, h.2]; rfl)
        have n2 : ¬ (ps && v.type.isCppString) = true := by
          intro h
          rw [Bool.and_eq_true] at h
          exact ht' (by rw [h.1, CType.isString, h.2]; simp)
        rw [if_neg n1, if_neg n2]
        exact ⟨v :: sc, tx, h7, hok2, .keep (asScalar_of ht hf) h3, .skip ht h4, .cons ⟨rfl, hf, a1, a2⟩ h5, h6⟩

/-- Calls generated for one function. -/
def genCalls (vars : List GenVar) (blobs : List GenBlob) : List GenCall :=
  (if vars.isEmpty then [] else [.variables vars]) ++ (if blobs.isEmpty then [] else [.blobs blobs])

/-- The calls generated for the variables of one function. -/
def PartGen (te : TableTests) (s : Tables) (rs : List TabReq) (part : Bool × List ScopeVar) (cs : List GenCall) : Prop :=
  ∃ scalars texts vars blobs, cs = genCalls vars blobs ∧
    Selected (ScopeVar.AsScalar part.1) part.2 scalars ∧ Selected (ScopeVar.AsText part.1) part.2 texts ∧
    AllRel (fun v g => GenVar.For te s rs part.1 v g) scalars vars ∧
    AllRel (fun v g => GenBlob.For te s rs part.1 v g) texts blobs

theorem PartGen.right {te : TableTests} {s : Tables} {rs : List TabReq} {part : Bool × List ScopeVar} {cs : List GenCall}
    (rs0 : List TabReq) (h : PartGen te (s.requests te rs0).2 rs part cs) : PartGen te s (rs0 ++ rs) part cs := by
  obtain ⟨sc, tx, vars, blobs, h1, h2, h3, h4, h5⟩ := h
  exact ⟨sc, tx, vars, blobs, h1, h2, h3, h4.imp fun _ _ h => h.right rs0, h5.imp fun _ _ h => h.right rs0⟩

theorem PartGen.left {te : TableTests} {s : Tables} {rs : List TabReq} {part : Bool × List ScopeVar} {cs : List GenCall}
    (h : PartGen te s rs part cs) (rs' : List TabReq) : PartGen te s (rs ++ rs') part cs := by
  obtain ⟨sc, tx, vars, blobs, h1, h2, h3, h4, h5⟩ := h
  exact ⟨sc, tx, vars, blobs, h1, h2, h3, h4.imp fun _ _ h => h.left rs', h5.imp fun _ _ h => h.left rs'⟩

theorem instrumentParts_spec (te : TableTests) : ∀ (parts : List (Bool × List ScopeVar)) (s : Tables),
    (∀ p ∈ parts, ∀ v ∈ p.2, v.Ok) →
    ∃ rs cs, (instrumentParts te parts s).2 = (s.requests te rs).2 ∧ (∀ r ∈ rs, r.Ok) ∧
      (instrumentParts te parts s).1 = cs.flatten ∧ AllRel (PartGen te s rs) parts cs
  | [], s, _ => ⟨[], [], rfl, by simp, rfl, .nil⟩
  | p :: ps, s, hok => by
    obtain ⟨rs1, sc, tx, h1, h2, h3, h4, h5, h6⟩ := genExprs_spec te p.1 p.2 s (hok p (by simp))
    obtain ⟨rs2, cs, i1, i2, i3, i4⟩ := instrumentParts_spec te ps (s.requests te rs1).2
      fun q hq => hok q (List.mem_cons_of_mem _ hq)
    have hp : PartGen te s rs1 p (genCalls (genExprs te p.1 p.2 s).1.1 (genExprs te p.1 p.2 s).1.2) :=
      ⟨sc, tx, _, _, rfl, h3, h4, h5, h6⟩
    refine ⟨rs1 ++ rs2, genCalls (genExprs te p.1 p.2 s).1.1 (genExprs te p.1 p.2 s).1.2 :: cs, ?_, ?_, ?_, ?_⟩
    · rw [instrumentParts]
      simp only [instrumentExprs, h1, i1, requests_append]
    · intro r hr
      rcases List.mem_append.mp hr with hr | hr
      · exact h2 r hr
      · exact i2 r hr
    · rw [instrumentParts]
      simp only [instrumentExprs, h1, i3]
      rfl
    · exact .cons (hp.left rs2) (i4.imp fun _ _ h => h.right rs1)

/-- The code generated for a statement. -/
def SiteGen (te : TableTests) (s : Tables) (rs : List TabReq) (x : Site) (g : GenSite) : Prop :=
  g.id = packId x.file x.ast ∧ ∃ cs, g.calls = cs.flatten ∧ AllRel (PartGen te s rs) x.parts cs

theorem instrumentSites_spec (te : TableTests) : ∀ (sites : List Site) (s : Tables), (∀ x ∈ sites, x.Ok) →
    ∃ rs, (instrumentSites te sites s).2 = (s.requests te rs).2 ∧ (∀ r ∈ rs, r.Ok) ∧
      AllRel (SiteGen te s rs) sites (instrumentSites te sites s).1
  | [], s, _ => ⟨[], rfl, by simp, .nil⟩
  | x :: xs, s, hok => by
    obtain ⟨rs1, cs, h1, h2, h3, h4⟩ := instrumentParts_spec te x.parts s (hok x (by simp)).vars
    obtain ⟨rs2, i1, i2, i3⟩ := instrumentSites_spec te xs (s.requests te rs1).2 fun q hq => hok q (List.mem_cons_of_mem _ hq)
    refine ⟨rs1 ++ rs2, ?_, ?_, ?_⟩
    · rw [instrumentSites]
      simp only [h1, i1, requests_append]
    · intro r hr
      rcases List.mem_append.mp hr with hr | hr
      · exact h2 r hr
      · exact i2 r hr
    · rw [instrumentSites]
      simp only [h1]
      refine .cons ⟨rfl, cs, h3, h4.imp fun _ _ h => h.left rs2⟩ (i3.imp fun _ _ h => ?_)
      obtain ⟨j1, cs', j2, j3⟩ := h
      exact ⟨j1, cs', j2, j3.imp fun _ _ h => h.right rs1⟩

/-! The emitted tables -/

theorem request_names_mem (te : TableTests) (s : Tables) (r : TabReq) : ∀ n ∈ (s.request te r).2.names.map (·.1),
    n ∈ s.names.map (·.1) ∨ r = .name n ∨ ∃ k f z, r = .type k f z ∧ k.2 = n := by
  have hput : ∀ (t : HTable Name Nat) (k : Name) (v : Nat), ∀ n ∈ (t.put te.name k v).map (·.1), n ∈ t.map (·.1) ∨ n = k := by
    intro t
    induction t with
    | nil => intro k v n hn; simp [HTable.put] at hn; exact .inr hn
    | cons e t ih =>
      intro k v n hn
      rw [HTable.put] at hn
      split at hn
      · exact .inl hn
      · rw [List.map_cons, List.mem_cons] at hn
        rcases hn with rfl | hn
        · simp
        · rcases ih k v n hn with h | h
          · exact .inl (List.mem_cons_of_mem _ h)
          · exact .inr h
  have hidx : ∀ (t : HTable Name Nat) (k : Name), ∀ n ∈ (indexFor te.name t k).2.map (·.1), n ∈ t.map (·.1) ∨ n = k := by
    intro t k n hn
    unfold indexFor at hn
    split at hn
    · exact .inl hn
    · exact hput _ _ _ n hn
  intro n hn
  cases r with
  | name m =>
    rcases hidx _ _ n hn with h | rfl
    · exact .inl h
    · exact .inr (.inl rfl)
  | type k f z =>
    rw [Tables.request] at hn
    split at hn
    · exact .inl hn
    · rcases hidx _ _ n hn with h | rfl
      · exact .inl h
      · exact .inr (.inr ⟨k, f, z, rfl, rfl⟩)

theorem requests_names_mem (te : TableTests) : ∀ (rs : List TabReq) (s : Tables),
    ∀ n ∈ (s.requests te rs).2.names.map (·.1),
      n ∈ s.names.map (·.1) ∨ ∃ r ∈ rs, r = .name n ∨ ∃ k f z, r = .type k f z ∧ k.2 = n
  | [], s, n, hn => .inl hn
  | r :: rs, s, n, hn => by
    rw [Tables.requests_cons] at hn
    rcases requests_names_mem te rs _ n hn with h | ⟨r', hr', h⟩
    · rcases request_names_mem te s r n h with h | h
      · exact .inl h
      · exact .inr ⟨r, by simp, h⟩
    · exact .inr ⟨r', List.mem_cons_of_mem _ hr', h⟩

theorem nulFree_typeString {v : ScopeVar} (h : v.Ok) : (0 : U8) ∉ typeTraceString v.type := by
  intro h0
  rw [typeTraceString_eq h.printable] at h0
  rcases List.mem_append.mp h0 with h0 | h0
  · rcases List.mem_append.mp h0 with h0 | h0
    · obtain ⟨_, _, e⟩ := List.mem_map.mp h0
      exact absurd e (by decide)
    · obtain ⟨d, _, hb⟩ := List.mem_flatMap.mp h0
      rw [arrayStr1_eq] at hb
      cases hd : sizeText d with
      | none => rw [hd] at hb; cases hb
      | some z =>
        rw [hd] at hb
        simp only [List.mem_cons, List.mem_append, List.not_mem_nil, or_false] at hb
        rcases hb with hb | hb | hb
        · exact absurd hb (by decide)
        · have := sizeText_digits hd _ hb
          simp at this
        · exact absurd hb (by decide)
  · rcases mem_joinSpaces h0 with h0 | ⟨w, hw, h0⟩
    · exact absurd h0 (by decide)
    · obtain ⟨s, hs, rfl⟩ := List.mem_map.mp hw
      exact h.type s hs h0

theorem TabReq.Ok.nulFree {r : TabReq} (h : r.Ok) {n : Name}
    (hn : r = .name n ∨ ∃ k f z, r = .type k f z ∧ k.2 = n) : (0 : U8) ∉ n := by
  rcases hn with rfl | ⟨k, f, z, rfl, rfl⟩
  · exact h
  · obtain ⟨v, ps, hv, rfl, _⟩ := h
    exact nulFree_typeString hv

/-- The tables that the instrumented program gets. -/
structure EmittedFor (te : TableTests) (rs : List TabReq) (names : List Name) (rows : List TypeRow) : Prop where
  nulFree : ∀ n ∈ names, (0 : U8) ∉ n
  formats : ∀ r ∈ rows, r.format ≠ .invalid
  name : ∀ (i : Nat) (n : Name), Asked te Tables.empty rs i (.name n) → ∃ n', names[i]? = some n' ∧ te.name n' n = true
  type : ∀ (i : Nat) (k : TypeKey) (f : TypeFormat) (z : Nat), Asked te Tables.empty rs i (.type k f z) →
    ∃ row n', rows[i]? = some row ∧ row.format = f ∧ row.size = z ∧ names[row.name]? = some n' ∧ te.name n' k.2 = true

theorem emittedFor {te : TableTests} (law : te.Lawful) (hte : ∀ a b, te.type a b = true → TableTests.equalp.type a b = true)
    {rs : List TabReq} (hok : ∀ r ∈ rs, r.Ok) :
    EmittedFor te rs (Tables.empty.requests te rs).2.emitNames ((Tables.empty.requests te rs).2.emitTypes te) := by
  obtain ⟨hinv, _⟩ := Tables.requests_spec law rs Tables.empty (Tables.inv_empty te)
  have hrows := Tables.rows_first law rs [] Tables.empty (Tables.inv_empty te) (by simp) (by simp [Tables.empty])
  refine ⟨?_, ?_, ?_, ?_⟩
  · rw [Tables.emitNames_eq hinv]
    intro n hn
    rcases requests_names_mem te rs _ n hn with h | ⟨r, hr, h⟩
    · simp [Tables.empty] at h
    · exact (hok r hr).nulFree h
  · rw [Tables.emitTypes_eq law hinv]
    intro r hr
    obtain ⟨e, he, rfl⟩ := List.mem_map.mp hr
    obtain ⟨pre, post, hsplit, _, _⟩ := hrows e he
    rw [List.nil_append] at hsplit
    obtain ⟨v, ps, _, _, hf⟩ := hok (.type e.1 e.2.format e.2.size) (by rw [hsplit]; simp)
    exact (formatAndSize_valid hf).1
  · rintro i n ⟨j, h1, h2⟩
    exact C53_indices_mean_requests te law rs j _ i h1 h2
  · rintro i k f z ⟨j, h1, h2⟩
    obtain ⟨row, n', k', a1, a2, a3, pre, post, hsplit, hk, _⟩ := C53_indices_mean_requests te law rs j _ i h1 h2
    obtain ⟨v, ps, hv, rfl, hf⟩ := hok _ (List.mem_of_getElem? h1)
    obtain ⟨v', ps', hv', rfl, hf'⟩ := hok (.type k' row.format row.size) (by rw [hsplit]; simp)
    obtain ⟨e1, e2⟩ := sameKey_format hv'.printable hv.printable hf' hf (hte _ _ hk)
    exact ⟨row, n', a1, e1, e2, a2, a3⟩

end TraceDB
