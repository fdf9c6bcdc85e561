import Verif.Spec.ParallelInstrument
import Verif.Proofs.ProjectText
/-
Helper lemmas about instrumentation by several threads.
-/
namespace TraceDB

/-! Computations that ask for indices -/

/-- The computation ends with `a` if the requests are answered as `P` says. -/
inductive ReqProg.Told {α : Type} (P : TabReq → Nat → Prop) : ReqProg α → α → Prop
  | done (a : α) : Told P (.done a) a
  | ask {r : TabReq} {k : Nat → ReqProg α} {i : Nat} {a : α} : P r i → Told P (k i) a → Told P (.ask r k) a

theorem ReqProg.Told.bind_inv {α β : Type} {P : TabReq → Nat → Prop} {f : α → ReqProg β} {b : β} {p : ReqProg α}
    (h : ReqProg.Told P (p.bind f) b) : ∃ a, ReqProg.Told P p a ∧ ReqProg.Told P (f a) b := by
  induction p with
  | done a => exact ⟨a, .done a, h⟩
  | ask r k ih =>
    rw [ReqProg.bind] at h
    cases h with
    | ask hp h =>
      obtain ⟨a, h1, h2⟩ := ih _ h
      exact ⟨a, .ask hp h1, h2⟩

theorem genExprsReq_told {te : TableTests} {s : Tables} {rs : List TabReq} {ps : Bool} :
    ∀ (vs : List ScopeVar) (r : List GenVar × List GenBlob),
      ReqProg.Told (fun q i => Asked te s rs i q) (genExprsReq ps vs) r →
      ∃ scalars texts, Selected (ScopeVar.AsScalar ps) vs scalars ∧ Selected (ScopeVar.AsText ps) vs texts ∧
        AllRel (fun v g => GenVar.For te s rs ps v g) scalars r.1 ∧
        AllRel (fun v g => GenBlob.For te s rs ps v g) texts r.2
  | [], r, h => by
    cases h
    exact ⟨[], [], .nil, .nil, .nil, .nil⟩
  | v :: vs, r, h => by
    rw [genExprsReq] at h
    cases hf : formatAndSize v.type ps with
    | none =>
      rw [hf] at h
      obtain ⟨sc, tx, h3, h4, h5, h6⟩ := genExprsReq_told vs r h
      have hn := not_asScalar_of (v := v) hf
      exact ⟨sc, tx, .skip hn.1 h3, .skip hn.2 h4, h5, h6⟩
    | some fz =>
      obtain ⟨f, z⟩ := fz
      rw [hf] at h
      cases h with
      | @ask _ _ ti _ a1 h =>
      cases h with
      | @ask _ _ ni _ a2 h =>
      obtain ⟨r', h1, h2⟩ := h.bind_inv
      obtain ⟨sc, tx, h3, h4, h5, h6⟩ := genExprsReq_told vs r' h1
      cases h2
      by_cases ht : v.AsText ps
      · have ht' := asText_iff.mp ht
        have hfz : f = .blob ∧ z = 0 := by
          rw [formatAndSize_text ht] at hf
          cases hf
          exact ⟨rfl, rfl⟩
        obtain ⟨rfl, rfl⟩ := hfz
        have hb : GenBlob.For te s rs ps v ⟨ni, ti, v⟩ := ⟨rfl, hf, a1, a2⟩
        refine ⟨sc, v :: tx, .skip (fun h => h.1 ht) h3, .keep ht h4, ?_⟩
        split
        · exact ⟨h5, .cons hb h6⟩
        · rename_i hc
          rw [if_pos]
          · exact ⟨h5, .cons hb h6⟩
          rw [Bool.and_eq_true] at ht' ⊢
          refine ⟨ht'.1, ?_⟩
          unfold CType.isString at ht'
          cases hcs : v.type.isCString with
          | true => rw [hcs, ht'.1] at hc; exact absurd rfl hc
          | false => rw [hcs] at ht'; exact ht'.2
      · have ht' : ¬ (ps && v.type.isString) = true := fun h => ht (asText_iff.mpr h)
        have n1 : ¬ (ps && v.type.isCString) = true := by
          intro h
          rw [Bool.and_eq_true] at h
          exact ht' (by rw [h.1, CType.isString, h.2]; rfl)
        have n2 : ¬ (ps && v.type.isCppString) = true := by
          intro h
          rw [Bool.and_eq_true] at h
          exact ht' (by rw [h.1, CType.isString, h.2]; simp)
        rw [if_neg n1, if_neg n2]
        exact ⟨v :: sc, tx, .keep (asScalar_of ht hf) h3, .skip ht h4, .cons ⟨rfl, hf, a1, a2⟩ h5, h6⟩

theorem partsReq_told {te : TableTests} {s : Tables} {rs : List TabReq} :
    ∀ (parts : List (Bool × List ScopeVar)) (c : List GenCall),
      ReqProg.Told (fun q i => Asked te s rs i q) (partsReq parts) c →
      ∃ cs, c = cs.flatten ∧ AllRel (PartGen te s rs) parts cs
  | [], c, h => by
    cases h
    exact ⟨[], rfl, .nil⟩
  | p :: ps, c, h => by
    obtain ⟨r, h1, h⟩ := h.bind_inv
    obtain ⟨c', h2, h⟩ := h.bind_inv
    cases h
    obtain ⟨sc, tx, g1, g2, g3, g4⟩ := genExprsReq_told p.2 r h1
    obtain ⟨cs, rfl, g⟩ := partsReq_told ps c' h2
    exact ⟨genCalls r.1 r.2 :: cs, rfl, .cons ⟨sc, tx, _, _, rfl, g1, g2, g3, g4⟩ g⟩

theorem sitesReq_told {te : TableTests} {s : Tables} {rs : List TabReq} :
    ∀ (sites : List Site) (gens : List GenSite), ReqProg.Told (fun q i => Asked te s rs i q) (sitesReq sites) gens →
      AllRel (SiteGen te s rs) sites gens
  | [], c, h => by
    cases h
    exact .nil
  | x :: xs, c, h => by
    obtain ⟨r, h1, h⟩ := h.bind_inv
    obtain ⟨c', h2, h⟩ := h.bind_inv
    cases h
    obtain ⟨cs, rfl, g⟩ := partsReq_told x.parts r h1
    exact .cons ⟨rfl, cs, rfl, g⟩ (sitesReq_told xs c' h2)

/-- The requests that a computation makes, with any answers. -/
inductive ReqProg.Asks {α : Type} (P : TabReq → Prop) : ReqProg α → Prop
  | done (a : α) : Asks P (.done a)
  | ask {r : TabReq} {k : Nat → ReqProg α} : P r → (∀ i, Asks P (k i)) → Asks P (.ask r k)

theorem ReqProg.Asks.bind {α β : Type} {P : TabReq → Prop} {p : ReqProg α} (h : p.Asks P) {f : α → ReqProg β}
    (hf : ∀ a, (f a).Asks P) : (p.bind f).Asks P := by
  induction h with
  | done a => exact hf a
  | ask h _ ih => exact .ask h ih

/-- A request for a variable in scope at one of the statements. -/
def TabReq.From (sites : List Site) : TabReq → Prop
  | .name n => (0 : U8) ∉ n
  | .type k f z => ∃ x ∈ sites, ∃ part ∈ x.parts, ∃ v ∈ part.2, v.Ok ∧ k = v.key part.1 ∧
      formatAndSize v.type part.1 = some (f, z)

theorem TabReq.From.ok {sites : List Site} {r : TabReq} (h : r.From sites) : r.Ok := by
  cases r with
  | name n => exact h
  | type k f z =>
    obtain ⟨x, _, part, _, v, _, h1, h2, h3⟩ := h
    exact ⟨v, part.1, h1, h2, h3⟩

theorem genExprsReq_asks {sites : List Site} {x : Site} (hx : x ∈ sites) {part : Bool × List ScopeVar}
    (hp : part ∈ x.parts) (hok : ∀ v ∈ part.2, v.Ok) :
    ∀ vs : List ScopeVar, (∀ v ∈ vs, v ∈ part.2) → (genExprsReq part.1 vs).Asks (TabReq.From sites)
  | [], _ => .done _
  | v :: vs, h => by
    have ih := genExprsReq_asks hx hp hok vs fun w hw => h w (List.mem_cons_of_mem _ hw)
    have hv := h v (by simp)
    rw [genExprsReq]
    cases hf : formatAndSize v.type part.1 with
    | none => exact ih
    | some fz =>
      obtain ⟨f, z⟩ := fz
      exact .ask ⟨x, hx, part, hp, v, hv, hok v hv, rfl, hf⟩ fun ti => .ask (hok v hv).name fun ni => ih.bind fun _ => .done _

theorem partsReq_asks {sites : List Site} {x : Site} (hx : x ∈ sites) (hok : ∀ part ∈ x.parts, ∀ v ∈ part.2, v.Ok) :
    ∀ parts, (∀ p ∈ parts, p ∈ x.parts) → (partsReq parts).Asks (TabReq.From sites)
  | [], _ => .done _
  | p :: ps, h => by
    refine (genExprsReq_asks hx (h p (by simp)) (hok p (h p (by simp))) p.2 fun _ h => h).bind fun _ => ?_
    exact (partsReq_asks hx hok ps fun q hq => h q (List.mem_cons_of_mem _ hq)).bind fun _ => .done _

theorem sitesReq_asks {sites : List Site} (hok : ∀ x ∈ sites, x.Ok) :
    ∀ xs, (∀ x ∈ xs, x ∈ sites) → (sitesReq xs).Asks (TabReq.From sites)
  | [], _ => .done _
  | x :: xs, h => by
    refine (partsReq_asks (h x (by simp)) (hok x (h x (by simp))).vars x.parts fun _ h => h).bind fun _ => ?_
    exact (sitesReq_asks hok xs fun q hq => h q (List.mem_cons_of_mem _ hq)).bind fun _ => .done _

/-! Threads, one of which stores at a time -/

/-- A computation reaches another one if the requests are answered as `P` says. -/
inductive ReqProg.Path {α : Type} (P : TabReq → Nat → Prop) : ReqProg α → ReqProg α → Prop
  | refl (p : ReqProg α) : Path P p p
  | ask {r : TabReq} {k : Nat → ReqProg α} {i : Nat} {q : ReqProg α} : P r i → Path P (k i) q → Path P (.ask r k) q

theorem ReqProg.Path.mono {α : Type} {P Q : TabReq → Nat → Prop} (h : ∀ r i, P r i → Q r i) {p q : ReqProg α}
    (hp : ReqProg.Path P p q) : ReqProg.Path Q p q := by
  induction hp with
  | refl => exact .refl _
  | ask hr _ ih => exact .ask (h _ _ hr) ih

theorem ReqProg.Path.step {α : Type} {P : TabReq → Nat → Prop} {p : ReqProg α} {r : TabReq} {k : Nat → ReqProg α} {i : Nat}
    (hp : ReqProg.Path P p (.ask r k)) (hr : P r i) : ReqProg.Path P p (k i) := by
  generalize hq : ReqProg.ask r k = q at hp
  induction hp with
  | refl => subst hq; exact .ask hr (.refl _)
  | ask h _ ih => exact .ask h (ih hq)

theorem ReqProg.Path.told {α : Type} {P : TabReq → Nat → Prop} {p : ReqProg α} {a : α}
    (hp : ReqProg.Path P p (.done a)) : ReqProg.Told P p a := by
  generalize hq : ReqProg.done a = q at hp
  induction hp with
  | refl => subst hq; exact .done a
  | ask h _ ih => exact .ask h (ih hq)

theorem ReqProg.Path.asks {α : Type} {P : TabReq → Nat → Prop} {Q : TabReq → Prop} {p q : ReqProg α}
    (hp : ReqProg.Path P p q) (h : p.Asks Q) : q.Asks Q := by
  induction hp with
  | refl => exact h
  | ask _ _ ih => cases h with | ask _ h => exact ih (h _)

/-- Where a thread is, if the tables without its unfinished request are `s0`. -/
def TabThread.Within {α : Type} (te : TableTests) (s0 s : Tables) (t : TabThread α) : Prop :=
  match t.pc with
  | .start => s = s0
  | .nameMissed => s = s0 ∧ ∃ n k, t.prog = .ask (.name n) k ∧ s0.names.get te.name n = none
  | .nameCounted i => s = s0 ∧ ∃ n k, t.prog = .ask (.name n) k ∧ s0.names.get te.name n = none ∧ i = s0.names.length
  | .typeMissed => s = s0 ∧ ∃ key f z k, t.prog = .ask (.type key f z) k ∧ s0.types.get te.type key = none
  | .typeNameMissed => s = s0 ∧ ∃ key f z k, t.prog = .ask (.type key f z) k ∧ s0.types.get te.type key = none ∧
      s0.names.get te.name key.2 = none
  | .typeNameCounted i => s = s0 ∧ ∃ key f z k, t.prog = .ask (.type key f z) k ∧ s0.types.get te.type key = none ∧
      s0.names.get te.name key.2 = none ∧ i = s0.names.length
  | .typeNamed i => s = s0 ∧ ∃ key f z k, t.prog = .ask (.type key f z) k ∧ s0.types.get te.type key = none ∧
      s0.names.get te.name key.2 = some i
  | .typeDescribed => ∃ key f z k i, t.prog = .ask (.type key f z) k ∧ s0.types.get te.type key = none ∧
      s0.names.get te.name key.2 = some i ∧ s = { s0 with rows := s0.rows.put te.type key ⟨i, f, z⟩ }
  | .typeCounted j => ∃ key f z k i, t.prog = .ask (.type key f z) k ∧ s0.types.get te.type key = none ∧
      s0.names.get te.name key.2 = some i ∧ s = { s0 with rows := s0.rows.put te.type key ⟨i, f, z⟩ } ∧ j = s0.types.length

theorem request_hit_name {te : TableTests} {s : Tables} {n : Name} {i : Nat} (h : s.names.get te.name n = some i) :
    s.request te (.name n) = (i, s) := by
  simp only [Tables.request, indexFor, h]

theorem request_hit_type {te : TableTests} {s : Tables} {key : TypeKey} {f : TypeFormat} {z i : Nat}
    (h : s.types.get te.type key = some i) : s.request te (.type key f z) = (i, s) := by
  simp only [Tables.request, h]

theorem request_miss_name {te : TableTests} {s : Tables} {n : Name} (h : s.names.get te.name n = none) :
    s.request te (.name n) = (s.names.length, { s with names := s.names.put te.name n s.names.length }) := by
  simp only [Tables.request, indexFor, h]

theorem request_miss_type {te : TableTests} {s : Tables} {key : TypeKey} {f : TypeFormat} {z i : Nat}
    (h : s.types.get te.type key = none) (hi : s.names.get te.name key.2 = some i) :
    s.request te (.type key f z) = (s.types.length,
      ⟨s.names, s.types.put te.type key s.types.length, s.rows.put te.type key ⟨i, f, z⟩⟩) := by
  simp only [Tables.request, indexFor, h, hi]

theorem requests_snoc (te : TableTests) (s : Tables) (rs : List TabReq) (r : TabReq) :
    (s.requests te (rs ++ [r])).2 = ((s.requests te rs).2.request te r).2 ∧
    Asked te s (rs ++ [r]) ((s.requests te rs).2.request te r).1 r := by
  constructor
  · rw [requests_append]
    rfl
  · exact Asked.right rs (Asked.single te _ r)

/-- A name that was stored is found. -/
theorem put_get {κ α : Type} {same : κ → κ → Bool} {k : κ} (hk : same k k = true) (v : α) : ∀ t : HTable κ α,
    (t.put same k v).get same k = some v
  | [] => by simp [HTable.put, HTable.get, hk]
  | (k', v') :: t => by
    rw [HTable.put]
    split
    · rename_i h
      simp [HTable.get, h]
    · rename_i h
      have := put_get hk v t
      unfold HTable.get at this ⊢
      rw [List.find?_cons_of_neg (by simpa using h)]
      exact this

/-- What one access does if the thread is where it should be: the requests finished grow. -/
theorem within_step {α : Type} {te : TableTests} (law : te.Lawful) {Q : TabReq → Prop}
    (hQ : ∀ key f z, Q (.type key f z) → Q (.name key.2)) {rs : List TabReq} {s : Tables} {t : TabThread α}
    (hw : t.Within te (Tables.empty.requests te rs).2 s) (hasks : t.prog.Asks Q) :
    ∃ new, (∀ r ∈ new, Q r) ∧
      (t.step te s).1.Within te (Tables.empty.requests te (rs ++ new)).2 (t.step te s).2 ∧
      ReqProg.Path (fun r i => Asked te Tables.empty (rs ++ new) i r) t.prog (t.step te s).1.prog ∧
      ((t.step te s).1.pc = .start → (t.step te s).2 = (Tables.empty.requests te (rs ++ new)).2) := by
  obtain ⟨prog, pc⟩ := t
  have stay : ∀ (t' : TabThread α) (s' : Tables), t'.prog = prog → t'.Within te (Tables.empty.requests te rs).2 s' →
      ∃ new, (∀ r ∈ new, Q r) ∧ t'.Within te (Tables.empty.requests te (rs ++ new)).2 s' ∧
        ReqProg.Path (fun r i => Asked te Tables.empty (rs ++ new) i r) prog t'.prog ∧
        (t'.pc = .start → s' = (Tables.empty.requests te (rs ++ new)).2) := by
    rintro ⟨_, pc'⟩ s' rfl hw'
    refine ⟨[], by simp, by rw [List.append_nil]; exact hw', .refl _, ?_⟩
    rintro rfl
    rw [List.append_nil]
    exact hw'
  have finish : ∀ (r : TabReq) (k : Nat → ReqProg α) (i : Nat) (s' : Tables), prog = .ask r k →
      (Tables.empty.requests te rs).2.request te r = (i, s') →
      ∃ new, (∀ r ∈ new, Q r) ∧ (⟨k i, .start⟩ : TabThread α).Within te (Tables.empty.requests te (rs ++ new)).2 s' ∧
        ReqProg.Path (fun r i => Asked te Tables.empty (rs ++ new) i r) prog (k i) ∧
        (TabPc.start = .start → s' = (Tables.empty.requests te (rs ++ new)).2) := by
    intro r k i s' hp hr
    obtain ⟨h1, h2⟩ := requests_snoc te Tables.empty rs r
    rw [hr] at h1 h2
    refine ⟨[r], ?_, h1.symm, ?_, fun _ => h1.symm⟩
    · simp only at hasks
      rw [hp] at hasks
      cases hasks with
      | ask h _ => simpa using h
    · rw [hp]
      exact .ask h2 (.refl _)
  cases prog with
  | done a => exact stay _ _ rfl hw
  | ask r k =>
    cases r with
    | name n =>
      cases pc with
      | nameMissed =>
        obtain ⟨rfl, n', k', e, h⟩ := hw
        cases e
        exact stay _ _ rfl ⟨rfl, n, k, rfl, h, rfl⟩
      | nameCounted i =>
        obtain ⟨rfl, n', k', e, h, rfl⟩ := hw
        cases e
        exact finish _ k _ _ rfl (request_miss_name h)
      | start =>
        simp only [TabThread.Within] at hw
        subst hw
        simp only [TabThread.step]
        cases h : (Tables.empty.requests te rs).2.names.get te.name n with
        | some i => exact finish _ k i _ rfl (request_hit_name h)
        | none => exact stay _ _ rfl ⟨rfl, n, k, rfl, h⟩
      | typeMissed => obtain ⟨_, _, _, _, _, e, _⟩ := hw; cases e
      | typeNameMissed => obtain ⟨_, _, _, _, _, e, _⟩ := hw; cases e
      | typeNameCounted => obtain ⟨_, _, _, _, _, e, _⟩ := hw; cases e
      | typeNamed => obtain ⟨_, _, _, _, _, e, _⟩ := hw; cases e
      | typeDescribed => obtain ⟨_, _, _, _, _, e, _⟩ := hw; cases e
      | typeCounted => obtain ⟨_, _, _, _, _, e, _⟩ := hw; cases e
    | type key f z =>
      cases pc with
      | nameMissed => obtain ⟨_, _, _, e, _⟩ := hw; cases e
      | nameCounted i => obtain ⟨_, _, _, e, _⟩ := hw; cases e
      | start =>
        simp only [TabThread.Within] at hw
        subst hw
        simp only [TabThread.step]
        cases h : (Tables.empty.requests te rs).2.types.get te.type key with
        | some i => exact finish _ k i _ rfl (request_hit_type h)
        | none => exact stay _ _ rfl ⟨rfl, key, f, z, k, rfl, h⟩
      | typeMissed =>
        obtain ⟨rfl, _, _, _, _, e, h⟩ := hw
        cases e
        simp only [TabThread.step]
        cases h' : (Tables.empty.requests te rs).2.names.get te.name key.2 with
        | some i => exact stay _ _ rfl ⟨rfl, key, f, z, k, rfl, h, h'⟩
        | none => exact stay _ _ rfl ⟨rfl, key, f, z, k, rfl, h, h'⟩
      | typeNameMissed =>
        obtain ⟨rfl, _, _, _, _, e, h, h'⟩ := hw
        cases e
        exact stay _ _ rfl ⟨rfl, key, f, z, k, rfl, h, h', rfl⟩
      | typeNameCounted i =>
        obtain ⟨rfl, _, _, _, _, e, h, h', rfl⟩ := hw
        cases e
        obtain ⟨h1, _⟩ := requests_snoc te Tables.empty rs (.name key.2)
        rw [request_miss_name h'] at h1
        refine ⟨[.name key.2], ?_, ⟨h1.symm, key, f, z, k, rfl, ?_, ?_⟩, .refl _, fun e => by cases e⟩
        · cases hasks with
          | ask hq _ => simpa using hQ _ _ _ hq
        · rw [h1]; exact h
        · rw [h1]; exact put_get (law.name_refl _) _ _
      | typeNamed i =>
        obtain ⟨rfl, _, _, _, _, e, h, h'⟩ := hw
        cases e
        exact stay _ _ rfl ⟨key, f, z, k, i, rfl, h, h', rfl⟩
      | typeDescribed =>
        obtain ⟨_, _, _, _, i, e, h, h', rfl⟩ := hw
        cases e
        exact stay _ _ rfl ⟨key, f, z, k, i, rfl, h, h', rfl, rfl⟩
      | typeCounted j =>
        obtain ⟨_, _, _, _, i, e, h, h', rfl, rfl⟩ := hw
        cases e
        exact finish _ k _ _ rfl (request_miss_type h h')

/-- The names and types that others see. -/
theorem within_tables {α : Type} {te : TableTests} {s0 s : Tables} {t : TabThread α} (h : t.Within te s0 s) :
    s.names = s0.names ∧ s.types = s0.types := by
  obtain ⟨prog, pc⟩ := t
  cases pc with
  | start => cases h; exact ⟨rfl, rfl⟩
  | typeDescribed => obtain ⟨_, _, _, _, _, _, _, _, rfl⟩ := h; exact ⟨rfl, rfl⟩
  | typeCounted j => obtain ⟨_, _, _, _, _, _, _, _, rfl, _⟩ := h; exact ⟨rfl, rfl⟩
  | _ => obtain ⟨rfl, _⟩ := h; exact ⟨rfl, rfl⟩

theorem ReqProg.Path.trans {α : Type} {P : TabReq → Nat → Prop} {p q r : ReqProg α} (h : ReqProg.Path P p q)
    (h' : ReqProg.Path P q r) : ReqProg.Path P p r := by
  induction h with
  | refl => exact h'
  | ask hr _ ih => exact .ask hr (ih h')

/-- The state of threads one of which stores at a time: `rs` are the requests finished so far. -/
structure ThreadsInv {α : Type} (te : TableTests) (Q : TabReq → Prop) (progs : List (ReqProg α)) (rs : List TabReq)
    (ts : List (TabThread α)) (s : Tables) : Prop where
  from' : ∀ r ∈ rs, Q r
  paths : AllRel (fun p t => ReqProg.Path (fun r i => Asked te Tables.empty rs i r) p t.prog) progs ts
  tables : ∃ i : Nat, (∀ t, ts[i]? = some t → t.Within te (Tables.empty.requests te rs).2 s) ∧
    (ts[i]? = none → s = (Tables.empty.requests te rs).2) ∧ ∀ (j : Nat) t, j ≠ i → ts[j]? = some t → t.pc = .start

theorem AllRel.set_right {α β : Type} {R : α → β → Prop} {l : List α} {m : List β} (h : AllRel R l m) (b : β) :
    ∀ (j : Nat), (∀ a, l[j]? = some a → R a b) → AllRel R l (m.set j b) := by
  induction h with
  | nil => intro j _; exact .nil
  | cons hx hs ih =>
    intro j hb
    cases j with
    | zero => exact .cons (hb _ rfl) hs
    | succ j => exact .cons hx (ih j fun a ha => hb a (by simpa using ha))

theorem oneStoring_cons {α : Type} {te : TableTests} {ts : List (TabThread α)} {s : Tables} {i : Nat} {sched : List Nat}
    (h : OneStoring te ts s (i :: sched)) : match ts[i]? with
      | none => OneStoring te ts s sched
      | some t => OneStoring te (ts.set i (t.step te s).1) (t.step te s).2 sched := by
  cases ht : ts[i]? with
  | none =>
    intro n a b x y h1 h2
    exact h (n + 1) a b x y (by simpa [runTabThreads, ht] using h1) (by simpa [runTabThreads, ht] using h2)
  | some t =>
    intro n a b x y h1 h2
    exact h (n + 1) a b x y (by simpa [runTabThreads, ht] using h1) (by simpa [runTabThreads, ht] using h2)

theorem oneStoring_now {α : Type} {te : TableTests} {ts : List (TabThread α)} {s : Tables} {sched : List Nat}
    (h : OneStoring te ts s sched) : ∀ (i j : Nat) (a b : TabThread α), ts[i]? = some a → ts[j]? = some b →
      a.Storing → b.Storing → i = j := fun i j a b h1 h2 => h 0 i j a b h1 h2

/-- One access keeps the invariant if at most one thread is storing afterwards. -/
theorem threadsInv_step {α : Type} {te : TableTests} (law : te.Lawful) {Q : TabReq → Prop}
    (hQ : ∀ key f z, Q (.type key f z) → Q (.name key.2)) {progs : List (ReqProg α)} (hasks : ∀ p ∈ progs, p.Asks Q)
    {rs : List TabReq} {ts : List (TabThread α)} {s : Tables} (inv : ThreadsInv te Q progs rs ts s)
    {j : Nat} {t : TabThread α} (hj : ts[j]? = some t)
    (hone : ∀ (i i' : Nat) (a b : TabThread α), (ts.set j (t.step te s).1)[i]? = some a →
      (ts.set j (t.step te s).1)[i']? = some b → a.Storing → b.Storing → i = i') :
    ∃ new, ThreadsInv te Q progs (rs ++ new) (ts.set j (t.step te s).1) (t.step te s).2 := by
  obtain ⟨hfrom, hpaths, i, hi, hnone, hother⟩ := inv
  have hjl := (List.getElem?_eq_some_iff.mp hj).1
  have hta : t.prog.Asks Q := by
    obtain ⟨p, hp, hpt⟩ := hpaths.get _ _ hj
    exact hpt.asks (hasks p (List.mem_of_getElem? hp))
  have hmono : ∀ new, AllRel (fun p t => ReqProg.Path (fun r i => Asked te Tables.empty (rs ++ new) i r) p t.prog) progs ts :=
    fun new => hpaths.imp fun _ _ h => h.mono fun _ _ h => h.left new
  -- the thread is the one that may be storing
  have main : t.Within te (Tables.empty.requests te rs).2 s → (∀ (k : Nat) t, k ≠ j → ts[k]? = some t → t.pc = .start) →
      ∃ new, ThreadsInv te Q progs (rs ++ new) (ts.set j (t.step te s).1) (t.step te s).2 := by
    intro hw hst
    obtain ⟨new, n1, n2, n3, n4⟩ := within_step law hQ hw hta
    refine ⟨new, ?_, ?_, j, ?_, ?_, ?_⟩
    · intro r hr
      rcases List.mem_append.mp hr with hr | hr
      · exact hfrom r hr
      · exact n1 r hr
    · refine AllRel.set_right (hmono new) _ j fun p hp => ?_
      obtain ⟨p', hp', hpt⟩ := (hmono new).get _ _ hj
      rw [hp] at hp'
      cases hp'
      exact hpt.trans n3
    · intro t' ht'
      rw [List.getElem?_set_self hjl] at ht'
      cases ht'
      exact n2
    · intro h
      rw [List.getElem?_set_self hjl] at h
      cases h
    · intro k t' hk ht'
      rw [List.getElem?_set_ne (Ne.symm hk)] at ht'
      exact hst k t' hk ht'
  by_cases hji : j = i
  · subst hji
    exact main (hi t hj) hother
  have htst : t.pc = .start := hother j t hji hj
  -- no thread is storing
  have quiet : s = (Tables.empty.requests te rs).2 → (∀ t', ts[i]? = some t' → t'.pc = .start) →
      ∃ new, ThreadsInv te Q progs (rs ++ new) (ts.set j (t.step te s).1) (t.step te s).2 := by
    intro hs hti
    refine main ?_ ?_
    · unfold TabThread.Within
      rw [htst]
      exact hs
    · intro k t' hk ht'
      by_cases hki : k = i
      · subst hki
        exact hti t' ht'
      · exact hother k t' hki ht'
  cases hti : ts[i]? with
  | none => exact quiet (hnone hti) (by rw [hti]; simp)
  | some ti =>
    have hw := hi ti hti
    by_cases hst : ti.pc = .start
    · refine quiet ?_ (by rw [hti]; rintro t' ⟨⟩; exact hst)
      unfold TabThread.Within at hw
      rw [hst] at hw
      exact hw
    -- another thread is storing: this one finds what it asks for
    have hset : (ts.set j (t.step te s).1)[i]? = some ti := by rw [List.getElem?_set_ne hji]; exact hti
    have hself : (ts.set j (t.step te s).1)[j]? = some (t.step te s).1 := List.getElem?_set_self hjl
    have hno : (t.step te s).1.pc = .start := by
      cases hpc : (t.step te s).1.pc with
      | start => rfl
      | _ =>
        refine absurd (hone j i _ _ hself hset ?_ hst) hji
        intro e
        rw [hpc] at e
        cases e
    obtain ⟨tn, tt⟩ := within_tables hw
    have finish : ∀ (r : TabReq) (k : Nat → ReqProg α) (x : Nat), t.prog = .ask r k → t.step te s = (⟨k x, .start⟩, s) →
        (Tables.empty.requests te rs).2.request te r = (x, (Tables.empty.requests te rs).2) →
        ∃ new, ThreadsInv te Q progs (rs ++ new) (ts.set j (t.step te s).1) (t.step te s).2 := by
      intro r k x hp he hr
      obtain ⟨h1, h2⟩ := requests_snoc te Tables.empty rs r
      rw [hr] at h1 h2
      rw [he] at hset ⊢
      refine ⟨[r], ?_, ?_, i, ?_, ?_, ?_⟩
      · intro r' hr'
        rcases List.mem_append.mp hr' with hr' | hr'
        · exact hfrom r' hr'
        · rw [hp] at hta
          cases hta with
          | ask h _ => rw [List.mem_singleton.mp hr']; exact h
      · refine AllRel.set_right (hmono [r]) _ j fun p hp' => ?_
        obtain ⟨p', hp'', hpt⟩ := (hmono [r]).get _ _ hj
        rw [hp'] at hp''
        cases hp''
        rw [hp] at hpt
        exact hpt.step h2
      · intro t' ht'
        rw [hset] at ht'
        cases ht'
        rw [h1]
        exact hw
      · intro h
        rw [hset] at h
        cases h
      · intro k' t' hk ht'
        by_cases hkj : k' = j
        · subst hkj
          rw [List.getElem?_set_self hjl] at ht'
          cases ht'
          rfl
        · rw [List.getElem?_set_ne (Ne.symm hkj)] at ht'
          exact hother k' t' hk ht'
    obtain ⟨prog, pc⟩ := t
    simp only at htst
    subst htst
    cases prog with
    | done a =>
      have he : (⟨.done a, .start⟩ : TabThread α).step te s = (⟨.done a, .start⟩, s) := rfl
      rw [he]
      have hid : ts.set j ⟨.done a, .start⟩ = ts := by
        obtain ⟨h1, h2⟩ := List.getElem?_eq_some_iff.mp hj
        rw [← h2]
        exact List.set_getElem_self h1
      rw [hid]
      refine ⟨[], ?_⟩
      rw [List.append_nil]
      exact ⟨hfrom, hpaths, i, hi, hnone, hother⟩
    | ask r k =>
      cases r with
      | name n =>
        simp only [TabThread.step] at hno finish ⊢
        cases h : s.names.get te.name n with
        | none => rw [h] at hno; cases hno
        | some x =>
          simp only [h] at finish ⊢
          exact finish _ k x rfl rfl (request_hit_name (by rw [← tn]; exact h))
      | type key f z =>
        simp only [TabThread.step] at hno finish ⊢
        cases h : s.types.get te.type key with
        | none => rw [h] at hno; cases hno
        | some x =>
          simp only [h] at finish ⊢
          exact finish _ k x rfl rfl (request_hit_type (by rw [← tt]; exact h))

theorem threadsInv_run {α : Type} {te : TableTests} (law : te.Lawful) {Q : TabReq → Prop}
    (hQ : ∀ key f z, Q (.type key f z) → Q (.name key.2)) {progs : List (ReqProg α)} (hasks : ∀ p ∈ progs, p.Asks Q) :
    ∀ (sched : List Nat) (rs : List TabReq) (ts : List (TabThread α)) (s : Tables), ThreadsInv te Q progs rs ts s →
      OneStoring te ts s sched →
      ∃ rs', ThreadsInv te Q progs rs' (runTabThreads te ts s sched).1 (runTabThreads te ts s sched).2
  | [], rs, ts, s, inv, _ => ⟨rs, inv⟩
  | i :: sched, rs, ts, s, inv, h => by
    have h' := oneStoring_cons h
    rw [runTabThreads]
    cases ht : ts[i]? with
    | none =>
      rw [ht] at h'
      exact threadsInv_run law hQ hasks sched rs ts s inv h'
    | some t =>
      rw [ht] at h'
      obtain ⟨new, inv'⟩ := threadsInv_step law hQ hasks inv ht (oneStoring_now h')
      exact threadsInv_run law hQ hasks sched _ _ _ inv' h'

theorem threadResults_rel {α : Type} : ∀ {ts : List (TabThread α)} {as : List α}, threadResults ts = some as →
    AllRel (fun t a => t.prog = .done a) ts as
  | [], as, h => by cases h; exact .nil
  | t :: ts, as, h => by
    rw [threadResults] at h
    split at h
    · rename_i a as' h1 h2
      cases h
      refine .cons ?_ (threadResults_rel h2)
      unfold TabThread.result at h1
      split at h1
      · cases h1; assumption
      · cases h1
    · cases h

/-- All threads have finished: the tables and results are those of requests made in turn. -/
theorem threads_finished {α : Type} {te : TableTests} (law : te.Lawful) {Q : TabReq → Prop}
    (hQ : ∀ key f z, Q (.type key f z) → Q (.name key.2)) {progs : List (ReqProg α)} (hasks : ∀ p ∈ progs, p.Asks Q)
    {sched : List Nat} (hone : OneStoring te (progs.map fun p => ⟨p, .start⟩) Tables.empty sched) {as : List α}
    (hres : threadResults (runTabThreads te (progs.map fun p => ⟨p, .start⟩) Tables.empty sched).1 = some as) :
    ∃ rs, (∀ r ∈ rs, Q r) ∧
      (runTabThreads te (progs.map fun p => (⟨p, .start⟩ : TabThread α)) Tables.empty sched).2 =
        (Tables.empty.requests te rs).2 ∧
      AllRel (fun p a => ReqProg.Told (fun r i => Asked te Tables.empty rs i r) p a) progs as := by
  have inv0 : ThreadsInv te Q progs [] (progs.map fun p => (⟨p, .start⟩ : TabThread α)) Tables.empty := by
    refine ⟨by simp, AllRel.map_right (AllRel.self fun p _ => .refl p), 0, fun t ht => ?_, fun _ => rfl, fun j t _ ht => ?_⟩
    · obtain ⟨p, _, rfl⟩ := List.mem_map.mp (List.mem_of_getElem? ht)
      exact rfl
    · obtain ⟨p, _, rfl⟩ := List.mem_map.mp (List.mem_of_getElem? ht)
      rfl
  obtain ⟨rs, h1, h2, i, h3, h4, _⟩ := threadsInv_run law hQ hasks sched _ _ _ inv0 hone
  have hrel := threadResults_rel hres
  refine ⟨rs, h1, ?_, AllRel.comp h2 hrel fun p t a h e => by rw [e] at h; exact h.told⟩
  generalize runTabThreads te (progs.map fun p => (⟨p, .start⟩ : TabThread α)) Tables.empty sched = r at h2 h3 h4 hrel
  cases hi : r.1[i]? with
  | none => exact h4 hi
  | some t =>
    have hw := h3 t hi
    obtain ⟨a, _, ha⟩ := hrel.mem_left t (List.mem_of_getElem? hi)
    obtain ⟨prog, pc⟩ := t
    simp only at ha
    subst ha
    cases pc with
    | start => exact hw
    | nameMissed => obtain ⟨_, _, _, e, _⟩ := hw; cases e
    | nameCounted => obtain ⟨_, _, _, e, _⟩ := hw; cases e
    | _ => obtain ⟨_, _, _, _, _, e, _⟩ := hw; cases e

theorem requests_rows (te : TableTests) : ∀ (rs : List TabReq) (s : Tables), ∀ k ∈ (s.requests te rs).2.rows.map (·.1),
    k ∈ s.rows.map (·.1) ∨ ∃ f z, .type k f z ∈ rs
  | [], s, k, hk => .inl hk
  | r :: rs, s, k, hk => by
    rw [Tables.requests_cons] at hk
    rcases requests_rows te rs _ k hk with h | ⟨f, z, h⟩
    · rcases request_keys te s r k h with h | ⟨f, z, rfl⟩
      · exact .inl h
      · exact .inr ⟨f, z, by simp⟩
    · exact .inr ⟨f, z, List.mem_cons_of_mem _ h⟩

/-- The code generated by threads and the tables in the files with `main`. -/
theorem parallel_told {evolve other : List ProjFile} {sched : List Nat} {project : ProjResult}
    (hok : ∀ f ∈ evolve, f.Ok) (hlen : evolve.length ≤ 2 ^ 23)
    (hp : instrumentParallel evolve other sched = some project)
    (hone : OneStoring .equalp (projectThreads evolve) Tables.empty sched) :
    project.plain.length = (evolve.filter fun f => !f.main).length ∧ (∀ o ∈ project.plain, o.header = none) ∧
    ∃ s, project.mains = (instrumentFiles .equalp ((evolve.filter fun f => f.main).zipIdx
        (evolve.filter fun f => !f.main).length) s).1 ∧
      project.others = other.map (fun f => initTracing .equalp f.main (instrumentFiles .equalp
        ((evolve.filter fun f => f.main).zipIdx (evolve.filter fun f => !f.main).length) s).2) ∧
      ∀ m h, initTracing .equalp true (instrumentFiles .equalp (((evolve.filter fun f => f.main).zipIdx
          (evolve.filter fun f => !f.main).length).take m) s).2 = some h →
        ∃ rs, ProjTold (instrumentationFiles evolve) (project.plain ++ project.mains)
          ((evolve.filter fun f => !f.main).length + m) h rs := by
  obtain ⟨e1, e2⟩ := instrumentationFiles_filter evolve
  have hperm := (C65_files evolve).1
  unfold instrumentParallel at hp
  simp only [e1, e2] at hp
  have hfl : (evolve.filter fun f => !f.main).length + (evolve.filter fun f => f.main).length = evolve.length := by
    rw [← hperm.length_eq]
    unfold instrumentationFiles
    rw [List.length_append]
  have hfiles : instrumentationFiles evolve = (evolve.filter fun f => !f.main) ++ evolve.filter fun f => f.main := rfl
  have hAok : ∀ f ∈ (evolve.filter fun f => !f.main), f.Ok := fun f hf => hok f (List.mem_filter.mp hf).1
  have hBok : ∀ f ∈ (evolve.filter fun f => f.main), f.Ok := fun f hf => hok f (List.mem_filter.mp hf).1
  have hth : projectThreads evolve = ((evolve.filter fun f => !f.main).zipIdx.map fun f => sitesReq (f.1.sites f.2)).map
      fun p => ⟨p, .start⟩ := by
    unfold projectThreads
    rw [List.map_map]
    rfl
  have hth' : ((evolve.filter fun f => !f.main).zipIdx.map fun f => (⟨sitesReq (f.1.sites f.2), .start⟩ : TabThread (List GenSite))) =
      ((evolve.filter fun f => !f.main).zipIdx.map fun f => sitesReq (f.1.sites f.2)).map fun p => ⟨p, .start⟩ := hth
  rw [hth'] at hp
  rw [hth] at hone
  generalize hA : (evolve.filter fun f => !f.main) = A at *
  generalize hB : (evolve.filter fun f => f.main) = B at *
  cases hres : threadResults (runTabThreads .equalp ((A.zipIdx.map fun f => sitesReq (f.1.sites f.2)).map
      fun p => ⟨p, .start⟩) Tables.empty sched).1 with
  | none => rw [hres] at hp; cases hp
  | some gens =>
  rw [hres] at hp
  simp only [Option.some.injEq] at hp
  let sites := (A.zipIdx.map fun f => f.1.sites f.2).flatten
  have hsok : ∀ f ∈ A.zipIdx, ∀ x ∈ f.1.sites f.2, x.Ok := by
    intro f hf x hx
    obtain ⟨g1, g2⟩ := zipIdx_mem hf
    exact (hAok _ (List.mem_of_getElem? g1)).sites (by omega) x hx
  have hsites : ∀ f ∈ A.zipIdx, ∀ x ∈ f.1.sites f.2, x ∈ sites := fun f hf x hx =>
    List.mem_flatten.mpr ⟨_, List.mem_map.mpr ⟨f, hf, rfl⟩, hx⟩
  have hallok : ∀ x ∈ sites, x.Ok := by
    intro x hx
    obtain ⟨l, hl, hx⟩ := List.mem_flatten.mp hx
    obtain ⟨f, hf, rfl⟩ := List.mem_map.mp hl
    exact hsok f hf x hx
  obtain ⟨rs, r1, r2, r3⟩ := threads_finished TableTests.equalp_lawful (Q := TabReq.From sites) (by
      intro key f z ⟨x, _, part, _, v, _, hv, hk, _⟩
      rw [hk]
      exact nulFree_typeString hv) (by
      intro p hp
      obtain ⟨f, hf, rfl⟩ := List.mem_map.mp hp
      exact sitesReq_asks hallok _ fun x hx => hsites f hf x hx) hone hres
  rw [r2] at hp
  have r3 : AllRel (fun f g => AllRel (SiteGen .equalp Tables.empty rs) (f.1.sites f.2) g) A.zipIdx gens :=
    (AllRel.of_map_left r3).imp fun f g h => sitesReq_told _ _ h
  subst hp
  refine ⟨?_, ?_, (Tables.empty.requests .equalp rs).2, rfl, rfl, ?_⟩
  · rw [List.length_map, ← r3.length, List.length_zipIdx]
  · intro o ho
    obtain ⟨g, _, rfl⟩ := List.mem_map.mp ho
    rfl
  intro m h hh
  simp only [initTracing, if_true, Option.some.injEq] at hh
  obtain ⟨rs2, i1, i2, i3⟩ := instrumentFiles_spec .equalp ((B.zipIdx A.length).take m) (Tables.empty.requests .equalp rs).2
    fun f hf x hx => by
      have hf := List.mem_of_mem_take hf
      obtain ⟨q, hq⟩ := List.getElem?_of_mem hf
      rw [List.getElem?_zipIdx, Option.map_eq_some_iff] at hq
      obtain ⟨f', hf', rfl⟩ := hq
      have := (List.getElem?_eq_some_iff.mp hf').1
      exact (hBok _ (List.mem_of_getElem? hf')).sites (by simp only; omega) x hx
  have happ : (instrumentFiles .equalp ((B.zipIdx A.length).take m) (Tables.empty.requests .equalp rs).2).2 =
      (Tables.empty.requests .equalp (rs ++ rs2)).2 := by rw [i1, requests_append]
  refine ⟨rs ++ rs2, ?_, ?_, ?_, ?_, ?_⟩
  · intro r hr
    rcases List.mem_append.mp hr with hr | hr
    · exact (r1 r hr).ok
    · exact i2 r hr
  · intro e he
    rw [← happ] at he
    rcases instrumentFiles_keys .equalp _ _ _ (List.mem_map_of_mem he) with h | ⟨f, hf, h⟩
    · rcases requests_rows .equalp _ _ _ h with h | ⟨fm, z, h⟩
      · simp [Tables.empty] at h
      · obtain ⟨x, hx, part, hpart, v, hv, _, hk, hf⟩ := r1 _ h
        obtain ⟨l, hl, hx⟩ := List.mem_flatten.mp hx
        obtain ⟨f, hf', rfl⟩ := List.mem_map.mp hl
        obtain ⟨st, hst, rfl⟩ := List.mem_map.mp hx
        refine ⟨f.1, ?_, st, hst, part, hpart, v, hv, ?_, hk⟩
        · rw [hfiles]
          exact List.mem_append_left _ (List.mem_of_getElem? (zipIdx_mem hf').1)
        · by_cases ht : v.AsText part.1
          · exact .inr ht
          · exact .inl (asScalar_of ht hf)
    · refine ⟨f.1, ?_, h⟩
      rw [hfiles]
      exact List.mem_append_right _ (List.fst_mem_of_mem_zipIdx (List.mem_of_mem_take hf))
  · rw [← hh, happ]
  · simp only [List.length_append, List.length_map, instrumentFiles_length, List.length_zipIdx, ← r3.length]
    rw [hperm.length_eq]
    omega
  · intro q f o hq hf ho
    rw [hfiles] at hf
    have hgl : gens.length = A.length := by rw [← r3.length, List.length_zipIdx]
    by_cases hqa : q < A.length
    · rw [List.getElem?_append_left hqa] at hf
      rw [List.getElem?_append_left (by rw [List.length_map]; omega), List.getElem?_map, Option.map_eq_some_iff] at ho
      obtain ⟨g, hg, rfl⟩ := ho
      obtain ⟨x, hx, hr⟩ := r3.get _ _ hg
      rw [List.getElem?_zipIdx, hf] at hx
      simp only [Option.map_some, Nat.zero_add, Option.some.injEq] at hx
      subst hx
      exact hr.imp fun _ _ h => h.left rs2
    · rw [List.getElem?_append_right (by omega)] at hf
      rw [List.getElem?_append_right (by rw [List.length_map]; omega), List.length_map, hgl] at ho
      have hql := (List.getElem?_eq_some_iff.mp hf).1
      rw [← List.take_append_drop m (B.zipIdx A.length), instrumentFiles_append, List.getElem?_append_left (by
        rw [instrumentFiles_length, List.length_take, List.length_zipIdx]; omega)] at ho
      obtain ⟨x, hx, hr⟩ := i3.get _ _ ho
      rw [List.getElem?_take, if_pos (by omega), List.getElem?_zipIdx, hf] at hx
      simp only [Option.map_some, Option.some.injEq] at hx
      subst hx
      have e : A.length + (q - A.length) = q := by omega
      rw [e] at hr
      exact hr.imp fun _ _ h => h.right rs

/-! One thread after the other -/

/-- A computation whose requests are answered in turn. -/
def ReqProg.run {α : Type} (te : TableTests) : ReqProg α → Tables → α × Tables
  | .done a, s => (a, s)
  | .ask r k, s => (k (s.request te r).1).run te (s.request te r).2

theorem ReqProg.run_bind {α β : Type} (te : TableTests) (f : α → ReqProg β) (p : ReqProg α) (s : Tables) :
    (p.bind f).run te s = (f (p.run te s).1).run te (p.run te s).2 := by
  induction p generalizing s with
  | done a => rfl
  | ask r k ih =>
    rw [ReqProg.bind, ReqProg.run, ih, ReqProg.run]

theorem genExprsReq_run (te : TableTests) (ps : Bool) : ∀ (vs : List ScopeVar) (s : Tables),
    (genExprsReq ps vs).run te s = genExprs te ps vs s
  | [], s => rfl
  | v :: vs, s => by
    rw [genExprsReq, genExprs]
    cases hf : formatAndSize v.type ps with
    | none => exact genExprsReq_run te ps vs s
    | some fz =>
      obtain ⟨f, z⟩ := fz
      simp only [ReqProg.run, ReqProg.run_bind, genExprsReq_run te ps vs]
      split
      · rfl
      · split
        · rfl
        · rfl

theorem partsReq_run (te : TableTests) : ∀ (parts : List (Bool × List ScopeVar)) (s : Tables),
    (partsReq parts).run te s = instrumentParts te parts s
  | [], s => rfl
  | p :: ps, s => by
    rw [partsReq, instrumentParts]
    simp only [ReqProg.run, ReqProg.run_bind, genExprsReq_run, partsReq_run te ps, instrumentExprs]

theorem sitesReq_run (te : TableTests) : ∀ (sites : List Site) (s : Tables),
    (sitesReq sites).run te s = instrumentSites te sites s
  | [], s => rfl
  | x :: xs, s => by
    rw [sitesReq, instrumentSites]
    simp only [ReqProg.run, ReqProg.run_bind, partsReq_run, sitesReq_run te xs]

/-- Some accesses of one thread. -/
def TabThread.steps {α : Type} (te : TableTests) : Nat → TabThread α → Tables → TabThread α × Tables
  | 0, t, s => (t, s)
  | n + 1, t, s => TabThread.steps te n (t.step te s).1 (t.step te s).2

theorem TabThread.steps_add {α : Type} (te : TableTests) : ∀ (n m : Nat) (t : TabThread α) (s : Tables),
    TabThread.steps te (n + m) t s = TabThread.steps te m (TabThread.steps te n t s).1 (TabThread.steps te n t s).2
  | 0, m, t, s => by rw [Nat.zero_add]; rfl
  | n + 1, m, t, s => by
    rw [Nat.add_right_comm]
    exact TabThread.steps_add te n m _ _

/-- A thread that runs alone answers its request. -/
theorem request_steps {α : Type} (te : TableTests) (r : TabReq) (k : Nat → ReqProg α) (s : Tables) :
    ∃ n, TabThread.steps te n ⟨.ask r k, .start⟩ s = (⟨k (s.request te r).1, .start⟩, (s.request te r).2) := by
  cases r with
  | name n =>
    cases h : s.names.get te.name n with
    | some i => exact ⟨1, by simp only [TabThread.steps, TabThread.step, request_hit_name h, h]⟩
    | none => exact ⟨3, by simp only [TabThread.steps, TabThread.step, request_miss_name h, h]⟩
  | type key f z =>
    cases h : s.types.get te.type key with
    | some i => exact ⟨1, by simp only [TabThread.steps, TabThread.step, request_hit_type h, h]⟩
    | none =>
      cases h' : s.names.get te.name key.2 with
      | some i => exact ⟨5, by simp only [TabThread.steps, TabThread.step, request_miss_type h h', h, h']⟩
      | none =>
        refine ⟨7, ?_⟩
        simp only [TabThread.steps, TabThread.step, h, h', Tables.request, indexFor]

theorem prog_steps {α : Type} (te : TableTests) (p : ReqProg α) (s : Tables) :
    ∃ n, TabThread.steps te n ⟨p, .start⟩ s = (⟨.done (p.run te s).1, .start⟩, (p.run te s).2) := by
  induction p generalizing s with
  | done a => exact ⟨0, rfl⟩
  | ask r k ih =>
    obtain ⟨n, hn⟩ := request_steps te r k s
    obtain ⟨m, hm⟩ := ih (s.request te r).1 (s.request te r).2
    refine ⟨n + m, ?_⟩
    rw [TabThread.steps_add, hn, hm]
    rfl

theorem runTabThreads_replicate {α : Type} (te : TableTests) (i : Nat) : ∀ (n : Nat) (ts : List (TabThread α)) (t : TabThread α)
    (s : Tables), ts[i]? = some t → runTabThreads te ts s (List.replicate n i) =
      (ts.set i (TabThread.steps te n t s).1, (TabThread.steps te n t s).2)
  | 0, ts, t, s, h => by
    obtain ⟨h1, rfl⟩ := List.getElem?_eq_some_iff.mp h
    simp [runTabThreads, TabThread.steps]
  | n + 1, ts, t, s, h => by
    rw [List.replicate_succ, runTabThreads, h]
    simp only []
    rw [runTabThreads_replicate te i n _ (t.step te s).1 _ (List.getElem?_set_self (List.getElem?_eq_some_iff.mp h).1),
      List.set_set]
    rfl

theorem runTabThreads_append {α : Type} (te : TableTests) : ∀ (a b : List Nat) (ts : List (TabThread α)) (s : Tables),
    runTabThreads te ts s (a ++ b) = runTabThreads te (runTabThreads te ts s a).1 (runTabThreads te ts s a).2 b
  | [], b, ts, s => rfl
  | i :: a, b, ts, s => by
    rw [List.cons_append, runTabThreads, runTabThreads]
    cases ts[i]? with
    | none => exact runTabThreads_append te a b ts s
    | some t => exact runTabThreads_append te a b _ _

theorem oneStoring_append {α : Type} {te : TableTests} {ts : List (TabThread α)} {s : Tables} {a b : List Nat}
    (h1 : OneStoring te ts s a)
    (h2 : OneStoring te (runTabThreads te ts s a).1 (runTabThreads te ts s a).2 b) : OneStoring te ts s (a ++ b) := by
  intro n i j x y hx hy
  by_cases hn : n ≤ a.length
  · rw [List.take_append_of_le_length hn] at hx hy
    exact h1 n i j x y hx hy
  · rw [List.take_append, List.take_of_length_le (by omega), runTabThreads_append] at hx hy
    exact h2 _ i j x y hx hy

theorem oneStoring_replicate {α : Type} {te : TableTests} {ts : List (TabThread α)} {s : Tables} {i : Nat} {t : TabThread α}
    (ht : ts[i]? = some t) (hst : ∀ (j : Nat) t', j ≠ i → ts[j]? = some t' → t'.pc = .start) (n : Nat) :
    OneStoring te ts s (List.replicate n i) := by
  intro m a b x y hx hy sx sy
  rw [List.take_replicate, runTabThreads_replicate te i _ ts t s ht] at hx hy
  have key : ∀ (c : Nat) (z : TabThread α), (ts.set i (TabThread.steps te (min m n) t s).1)[c]? = some z → z.Storing →
      c = i := by
    intro c z hz hs
    by_cases hc : c = i
    · exact hc
    · rw [List.getElem?_set_ne (Ne.symm hc)] at hz
      exact absurd (hst c z hc hz) hs
  rw [key a x hx sx, key b y hy sy]

/-- Computations run one after the other. -/
def runEach {α : Type} (te : TableTests) : List (ReqProg α) → Tables → List α × Tables
  | [], s => ([], s)
  | p :: ps, s => ((p.run te s).1 :: (runEach te ps (p.run te s).2).1, (runEach te ps (p.run te s).2).2)

theorem run_in_turn {α : Type} (te : TableTests) : ∀ (ps : List (ReqProg α)) (pre : List (TabThread α))
    (s : Tables), (∀ t ∈ pre, t.pc = .start) →
    ∃ sched, runTabThreads te (pre ++ ps.map fun p => ⟨p, .start⟩) s sched =
        (pre ++ (runEach te ps s).1.map fun a => ⟨.done a, .start⟩, (runEach te ps s).2) ∧
      OneStoring te (pre ++ ps.map fun p => ⟨p, .start⟩) s sched
  | [], pre, s, hpre => by
    refine ⟨[], rfl, ?_⟩
    intro n i j x y hx hy sx
    rw [List.take_nil] at hx
    simp only [runTabThreads, List.map_nil, List.append_nil] at hx
    exact absurd (hpre x (List.mem_of_getElem? hx)) sx
  | p :: ps, pre, s, hpre => by
    obtain ⟨n, hn⟩ := prog_steps te p s
    obtain ⟨sched, h1, h2⟩ := run_in_turn te ps (pre ++ [⟨.done (p.run te s).1, .start⟩]) (p.run te s).2 (by
      intro t ht
      rcases List.mem_append.mp ht with ht | ht
      · exact hpre t ht
      · rw [List.mem_singleton.mp ht])
    have hget : (pre ++ (p :: ps).map fun p => (⟨p, .start⟩ : TabThread α))[pre.length]? = some ⟨p, .start⟩ := by
      rw [List.getElem?_append_right (Nat.le_refl _)]
      simp
    have hrun := runTabThreads_replicate te pre.length n _ _ s hget
    rw [hn] at hrun
    have hset : (pre ++ (p :: ps).map fun p => (⟨p, .start⟩ : TabThread α)).set pre.length ⟨.done (p.run te s).1, .start⟩ =
        pre ++ [⟨.done (p.run te s).1, .start⟩] ++ ps.map fun p => ⟨p, .start⟩ := by
      rw [List.set_append_right _ _ (Nat.le_refl _)]
      simp
    simp only [hset] at hrun
    refine ⟨List.replicate n pre.length ++ sched, ?_, oneStoring_append ?_ ?_⟩
    · rw [runTabThreads_append, hrun, h1]
      simp [runEach]
    · refine oneStoring_replicate hget (fun j t hj ht => ?_) n
      rcases List.mem_append.mp (List.mem_of_getElem? ht) with ht | ht
      · exact hpre t ht
      · obtain ⟨q, _, rfl⟩ := List.mem_map.mp ht
        rfl
    · rw [hrun]
      exact h2

theorem threadResults_done {α : Type} : ∀ as : List α, threadResults (as.map fun a => (⟨.done a, .start⟩ : TabThread α)) = some as
  | [] => rfl
  | a :: as => by
    simp [threadResults, TabThread.result, threadResults_done as]

theorem runEach_files (te : TableTests) : ∀ (fs : List (ProjFile × Nat)) (s : Tables), (∀ f ∈ fs, f.1.main = false) →
    (runEach te (fs.map fun f => sitesReq (f.1.sites f.2)) s).1.map (fun g => (⟨g, none⟩ : ProjOut)) =
      (instrumentFiles te fs s).1 ∧
    (runEach te (fs.map fun f => sitesReq (f.1.sites f.2)) s).2 = (instrumentFiles te fs s).2
  | [], s, _ => ⟨rfl, rfl⟩
  | f :: fs, s, h => by
    obtain ⟨h1, h2⟩ := runEach_files te fs (instrumentSites te (f.1.sites f.2) s).2 fun g hg => h g (List.mem_cons_of_mem _ hg)
    simp only [List.map_cons, runEach, sitesReq_run, h1, h2, instrumentFiles, initTracing, h f (by simp)]
    simp

/-! Code up to numbers -/

theorem genExprsReq_shape {ps : Bool} : ∀ (vs : List ScopeVar) (r r' : List GenVar × List GenBlob),
    ReqProg.Told (fun _ _ => True) (genExprsReq ps vs) r → ReqProg.Told (fun _ _ => True) (genExprsReq ps vs) r' →
    (r.1.map fun g => { g with name := 0, type := 0 }) = (r'.1.map fun g => { g with name := 0, type := 0 }) ∧
    (r.2.map fun g => { g with name := 0, type := 0 }) = (r'.2.map fun g => { g with name := 0, type := 0 })
  | [], r, r', h, h' => by
    cases h; cases h'; exact ⟨rfl, rfl⟩
  | v :: vs, r, r', h, h' => by
    rw [genExprsReq] at h h'
    cases hf : formatAndSize v.type ps with
    | none =>
      rw [hf] at h h'
      exact genExprsReq_shape vs r r' h h'
    | some fz =>
      obtain ⟨f, z⟩ := fz
      rw [hf] at h h'
      cases h with
      | ask _ h =>
      cases h with
      | ask _ h =>
      cases h' with
      | ask _ h' =>
      cases h' with
      | ask _ h' =>
      obtain ⟨x, h1, h2⟩ := h.bind_inv
      obtain ⟨x', h1', h2'⟩ := h'.bind_inv
      obtain ⟨e1, e2⟩ := genExprsReq_shape vs x x' h1 h1'
      cases h2
      cases h2'
      split
      · exact ⟨e1, by simp [e2]⟩
      · split
        · exact ⟨e1, by simp [e2]⟩
        · exact ⟨by simp [e1], e2⟩

theorem partsReq_shape : ∀ (parts : List (Bool × List ScopeVar)) (c c' : List GenCall),
    ReqProg.Told (fun _ _ => True) (partsReq parts) c → ReqProg.Told (fun _ _ => True) (partsReq parts) c' →
    c.map GenCall.unnumbered = c'.map GenCall.unnumbered
  | [], c, c', h, h' => by
    cases h; cases h'; rfl
  | p :: ps, c, c', h, h' => by
    obtain ⟨x, h1, h⟩ := h.bind_inv
    obtain ⟨y, h2, h⟩ := h.bind_inv
    obtain ⟨x', h1', h'⟩ := h'.bind_inv
    obtain ⟨y', h2', h'⟩ := h'.bind_inv
    obtain ⟨e1, e2⟩ := genExprsReq_shape p.2 x x' h1 h1'
    have e3 := partsReq_shape ps y y' h2 h2'
    cases h
    cases h'
    have l1 : x.1.isEmpty = x'.1.isEmpty := by
      have := congrArg List.isEmpty e1
      simpa using this
    have l2 : x.2.isEmpty = x'.2.isEmpty := by
      have := congrArg List.isEmpty e2
      simpa using this
    rw [List.map_append, List.map_append, e3, l1, l2, List.map_append, List.map_append]
    congr 2
    · split
      · rfl
      · simp only [List.map_cons, List.map_nil, GenCall.unnumbered, e1]
    · split
      · rfl
      · simp only [List.map_cons, List.map_nil, GenCall.unnumbered, e2]

theorem sitesReq_shape : ∀ (sites : List Site) (g g' : List GenSite),
    ReqProg.Told (fun _ _ => True) (sitesReq sites) g → ReqProg.Told (fun _ _ => True) (sitesReq sites) g' →
    (⟨g, none⟩ : ProjOut).unnumbered = (⟨g', none⟩ : ProjOut).unnumbered
  | [], c, c', h, h' => by
    cases h; cases h'; rfl
  | x :: xs, c, c', h, h' => by
    obtain ⟨x1, h1, h⟩ := h.bind_inv
    obtain ⟨y, h2, h⟩ := h.bind_inv
    obtain ⟨x', h1', h'⟩ := h'.bind_inv
    obtain ⟨y', h2', h'⟩ := h'.bind_inv
    have e1 := partsReq_shape x.parts x1 x' h1 h1'
    have e2 := sitesReq_shape xs y y' h2 h2'
    cases h
    cases h'
    simp only [ProjOut.unnumbered, List.map_cons, e1] at e2 ⊢
    rw [e2]

theorem ReqProg.run_told {α : Type} (te : TableTests) (p : ReqProg α) (s : Tables) :
    ReqProg.Told (fun _ _ => True) p (p.run te s).1 := by
  induction p generalizing s with
  | done a => exact .done a
  | ask r k ih => exact .ask trivial (ih _ _)

theorem step_path {α : Type} (te : TableTests) (t : TabThread α) (s : Tables) :
    ReqProg.Path (fun _ _ => True) t.prog (t.step te s).1.prog := by
  obtain ⟨prog, pc⟩ := t
  cases prog with
  | done a => exact .refl _
  | ask r k =>
    have key : ∀ (t' : TabThread α), (t'.prog = .ask r k ∨ ∃ i, t'.prog = k i) →
        ReqProg.Path (fun _ _ => True) (.ask r k) t'.prog := by
      rintro t' (h | ⟨i, h⟩) <;> rw [h]
      · exact .refl _
      · exact .ask trivial (.refl _)
    apply key
    unfold TabThread.step
    cases r <;> simp only <;> split <;> first | exact .inl rfl | exact .inr ⟨_, rfl⟩ | skip
    all_goals (split <;> first | exact .inl rfl | exact .inr ⟨_, rfl⟩)

theorem run_paths {α : Type} {te : TableTests} {progs : List (ReqProg α)} : ∀ (sched : List Nat) (ts : List (TabThread α))
    (s : Tables), AllRel (fun p t => ReqProg.Path (fun _ _ => True) p t.prog) progs ts →
    AllRel (fun p t => ReqProg.Path (fun _ _ => True) p t.prog) progs (runTabThreads te ts s sched).1
  | [], ts, s, h => h
  | i :: sched, ts, s, h => by
    rw [runTabThreads]
    cases ht : ts[i]? with
    | none => exact run_paths sched ts s h
    | some t =>
      refine run_paths sched _ _ (AllRel.set_right h _ i fun p hp => ?_)
      obtain ⟨p', hp', hpt⟩ := h.get _ _ ht
      rw [hp] at hp'
      cases hp'
      exact hpt.trans (step_path te t s)

/-! Checking a schedule -/

/-- No two threads are storing. -/
def storingOk {α : Type} (ts : List (TabThread α)) : Bool :=
  (List.range ts.length).all fun i => (List.range ts.length).all fun j =>
    match ts[i]?, ts[j]? with
    | some a, some b => a.pc == .start || b.pc == .start || i == j
    | _, _ => true

theorem storingOk_spec {α : Type} {ts : List (TabThread α)} (h : storingOk ts = true) {i j : Nat} {a b : TabThread α}
    (ha : ts[i]? = some a) (hb : ts[j]? = some b) (sa : a.Storing) (sb : b.Storing) : i = j := by
  unfold storingOk at h
  have := List.all_eq_true.mp (List.all_eq_true.mp h i (List.mem_range.mpr (List.getElem?_eq_some_iff.mp ha).1)) j
    (List.mem_range.mpr (List.getElem?_eq_some_iff.mp hb).1)
  simp only [ha, hb, Bool.or_eq_true, beq_iff_eq] at this
  rcases this with (h | h) | h
  · exact absurd h sa
  · exact absurd h sb
  · exact h

/-- No two threads are storing at any time. -/
def oneStoringOk {α : Type} (te : TableTests) : List (TabThread α) → Tables → List Nat → Bool
  | ts, _, [] => storingOk ts
  | ts, s, i :: sched =>
    storingOk ts && match ts[i]? with
    | none => oneStoringOk te ts s sched
    | some t => oneStoringOk te (ts.set i (t.step te s).1) (t.step te s).2 sched

theorem oneStoringOk_spec {α : Type} {te : TableTests} : ∀ {sched : List Nat} {ts : List (TabThread α)} {s : Tables},
    oneStoringOk te ts s sched = true → OneStoring te ts s sched
  | [], ts, s, h, n, i, j, a, b, ha, hb, sa, sb => by
    rw [List.take_nil] at ha hb
    exact storingOk_spec h ha hb sa sb
  | k :: sched, ts, s, h, n, i, j, a, b, ha, hb, sa, sb => by
    unfold oneStoringOk at h
    rw [Bool.and_eq_true] at h
    cases n with
    | zero => exact storingOk_spec h.1 ha hb sa sb
    | succ n =>
      obtain ⟨_, h⟩ := h
      rw [List.take_succ_cons, runTabThreads] at ha hb
      cases hk : ts[k]? with
      | none =>
        rw [hk] at ha hb h
        exact oneStoringOk_spec h n i j a b ha hb sa sb
      | some t =>
        rw [hk] at ha hb h
        exact oneStoringOk_spec h n i j a b ha hb sa sb

/-- The program built from a project and a file with `main`: the files before it have the code and
the names and types that it writes. -/
theorem parallel_main {evolve other : List ProjFile} {sched : List Nat} {project : ProjResult}
    (hok : ∀ f ∈ evolve, f.Ok) (hlen : evolve.length ≤ 2 ^ 23)
    (hp : instrumentParallel evolve other sched = some project)
    (hstore : OneStoring .equalp (projectThreads evolve) Tables.empty sched) (h : ProjHeader) (visits : List ProjVisit)
    (hruns : ∀ v ∈ visits, v.file < (project.plain ++ project.mains).length)
    (hmain : (∃ (p : Nat) (o : ProjOut), (project.plain ++ project.mains)[p]? = some o ∧
        o.header = some h ∧ ∀ v ∈ visits, v.file ≤ p) ∨ some h ∈ project.others) :
    ∃ k rs, ProjTold (instrumentationFiles evolve) (project.plain ++ project.mains) k h rs ∧
      ∀ v ∈ visits, v.file < k := by
  obtain ⟨l1, l2, s0, e1, e2, htold⟩ := parallel_told hok hlen hp hstore
  generalize hA : (evolve.filter fun f => !f.main) = A at *
  generalize hB : (evolve.filter fun f => f.main) = B at *
  have key : ∃ m, initTracing .equalp true (instrumentFiles .equalp ((B.zipIdx A.length).take m) s0).2 = some h ∧
      ∀ v ∈ visits, v.file < A.length + m := by
    rcases hmain with ⟨p, o, ho, hh, hv⟩ | hm
    · by_cases hpl : p < project.plain.length
      · rw [List.getElem?_append_left hpl] at ho
        rw [l2 o (List.mem_of_getElem? ho)] at hh
        cases hh
      · rw [List.getElem?_append_right (by omega), e1, l1] at ho
        have hb : p - A.length < B.length := by
          have := (List.getElem?_eq_some_iff.mp ho).1
          rwa [instrumentFiles_length, List.length_zipIdx] at this
        rw [instrumentFiles_get .equalp _ s0 (p - A.length) B[p - A.length] (A.length + (p - A.length)) (by
          rw [List.getElem?_zipIdx, List.getElem?_eq_getElem hb]; simp)] at ho
        cases ho
        simp only at hh
        have hm : B[p - A.length].main = true := by
          have hBm : ∀ f ∈ B, f.main = true := fun f hf => by
            rw [← hB] at hf
            exact (List.mem_filter.mp hf).2
          exact hBm _ (List.getElem_mem hb)
        rw [hm] at hh
        refine ⟨p - A.length + 1, hh, fun v hv' => ?_⟩
        have := hv v hv'
        omega
    · rw [e2] at hm
      obtain ⟨f, _, hf⟩ := List.mem_map.mp hm
      have hfm : f.main = true := by
        cases hb : f.main with
        | true => rfl
        | false => rw [hb] at hf; cases hf
      rw [hfm] at hf
      refine ⟨B.length, ?_, fun v hv => ?_⟩
      · rw [List.take_of_length_le (by rw [List.length_zipIdx]; exact Nat.le_refl _)]
        exact hf
      · have := hruns v hv
        rwa [List.length_append, l1, e1, instrumentFiles_length, List.length_zipIdx] at this
  obtain ⟨m, hm, hmv⟩ := key
  obtain ⟨rs, told⟩ := htold m h hm
  exact ⟨_, rs, told, hmv⟩

end TraceDB
