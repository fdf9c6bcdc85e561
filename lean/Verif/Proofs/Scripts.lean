import Verif.Model.Scripts
import Verif.Spec.Scripts
import Verif.Proofs.LispObjects
import Verif.Proofs.InstrumentRun
import Verif.Proofs.SignalProject
import Verif.Proofs.ProjectTold
/-
Helper lemmas about Lisp programs that use databases.
-/
namespace TraceDB

variable {μ : Type}

theorem Db.Ok.setCache {d : Db} (hd : d.Ok) {i : Nat} {t : Trace} {c : PointsCache} (ht : d.traces[i]? = some t)
    (hc : FilterCacheOk t.points c) : Db.Ok { d with caches := d.caches.set i c } := by
  refine ⟨by simpa using hd.1, ?_⟩
  intro j u e hu he
  simp only at hu he
  by_cases hj : i = j
  · subst hj
    rw [List.getElem?_set_self (by rw [hd.1]; exact (List.getElem?_eq_some_iff.mp ht).1)] at he
    cases he
    rw [ht] at hu
    cases hu
    exact hc
  · rw [List.getElem?_set_ne hj] at he
    exact hd.2 _ _ _ hu he

theorem queryTrace_caches (env : Env) (pick : U32 → Nat → Nat) (ev : Evaluator Unit) (t : Trace) (q : Query) (keep : Bool)
    {c c' : PointsCache} (hc : FilterCacheOk t.points c) (hc' : FilterCacheOk t.points c') :
    Res.Rel (fun x y => x.1 = y.1 ∧ FilterCacheOk t.points x.2.1 ∧ FilterCacheOk t.points y.2.1)
      (queryTrace env pick ev t q keep c ()) (queryTrace env pick ev t q keep c' ()) := by
  have h1 := getPoints_ok t.points c hc q.mask q.stmt
  have h2 := getPoints_ok t.points c' hc' q.mask q.stmt
  unfold queryTrace query
  simp only [Res.pure_eq, Res.bind_assoc, Res.ok_bind, h1.1, h2.1]
  refine Res.Rel.bind (R := Eq) (Res.Rel.refl (fun _ => rfl) _) ?_
  rintro ⟨rs, s1⟩ _ rfl
  simp only [Res.Rel]
  exact ⟨trivial, h1.2, h2.2⟩

theorem LispHeap.Alike.db {h h' : LispHeap μ} (a : h.Alike h') (d : Nat) :
    (h.dbs[d]? = none ∧ h'.dbs[d]? = none) ∨ ∃ x y, h.dbs[d]? = some x ∧ h'.dbs[d]? = some y ∧ x.Alike y :=
  a.dbs.get_left d

theorem LispHeap.Alike.metadata {h h' : LispHeap μ} (a : h.Alike h') (i : Nat) : h.metadata i = h'.metadata i := by
  unfold LispHeap.metadata
  rw [a.objs]

theorem LispHeap.Alike.setDb {h h' : LispHeap μ} (a : h.Alike h') {x y : Db} (hxy : x.Alike y) (d : Nat) :
    LispHeap.Alike { h with dbs := h.dbs.set d x } { h' with dbs := h'.dbs.set d y } :=
  ⟨a.objs, a.dbs.set hxy d⟩

theorem Db.Alike.symm {x y : Db} (h : x.Alike y) : y.Alike x := ⟨h.traces.symm, h.right, h.left⟩
theorem Db.Alike.trans {x y z : Db} (h : x.Alike y) (g : y.Alike z) : x.Alike z := ⟨h.traces.trans g.traces, h.left, g.right⟩

theorem LispHeap.Alike.left {h h' : LispHeap μ} (a : h.Alike h') : h.Alike h :=
  ⟨rfl, .self fun x hx => by
    obtain ⟨i, hi⟩ := List.getElem?_of_mem hx
    rcases a.db i with ⟨h1, _⟩ | ⟨x', y, h1, _, hy⟩
    · rw [hi] at h1; cases h1
    · rw [hi] at h1; cases h1; exact ⟨rfl, hy.left, hy.left⟩⟩

theorem LispHeap.Alike.trans {h1 h2 h3 : LispHeap μ} (a : h1.Alike h2) (b : h2.Alike h3) : h1.Alike h3 :=
  ⟨a.objs.trans b.objs, a.dbs.comp b.dbs fun _ _ _ => Db.Alike.trans⟩

theorem LispHeap.Alike.symm {h1 h2 : LispHeap μ} (a : h1.Alike h2) : h2.Alike h1 :=
  ⟨a.objs.symm, a.dbs.flip.mono fun _ _ _ h => Db.Alike.symm h⟩

/-- Pointer and names. -/
theorem getTrace_same {db : Db} {idx : Nat} {t : Trace} (hi : idx < (nTracesApi db).toNat) (ht : db.traces[idx]? = some t) :
    getTraceApi db (BitVec.ofNat 32 idx) = .ok ⟨db.gen, idx⟩ := by
  have h1 : (BitVec.ofNat 32 idx).toNat = idx := by
    rw [BitVec.toNat_ofNat, Nat.mod_eq_of_lt]
    exact Nat.lt_of_lt_of_le hi (Nat.le_of_lt (nTracesApi db).isLt)
  unfold getTraceApi
  rw [h1, if_pos (List.getElem?_eq_some_iff.mp ht).1]

theorem derefTrace_same {ts : List Trace} {idx : Nat} {t : Trace} (ht : ts[idx]? = some t) (c : List PointsCache) (cap gen : Nat) :
    derefTrace ⟨ts, c, cap, gen⟩ ⟨gen, idx⟩ = .ok t := by
  unfold derefTrace
  simp only [if_true, ht]

theorem results_alike (w : World) (ev : Evaluator Unit) {h h' : LispHeap μ} (a : h.Alike h') (o : LispObj μ) {db db' : Db}
    (hdb : db.Alike db') (idx : Nat) (q : LQuery) :
    Res.Rel (fun x y => x.1 = y.1 ∧ x.2.Alike y.2) (h.results w ev o db idx q) (h'.results w ev o db' idx q) := by
  have hn : nTracesApi db = nTracesApi db' := by unfold nTracesApi; rw [hdb.traces]
  unfold LispHeap.results
  rw [← hn]
  by_cases hi : idx < (nTracesApi db).toNat
  · rw [if_pos hi, if_pos hi, show db'.traces[idx]? = db.traces[idx]? by rw [hdb.traces]]
    cases ht : db.traces[idx]? with
    | none => simp [Res.Rel]
    | some t =>
      have hlt := (List.getElem?_eq_some_iff.mp ht).1
      have ht' : db'.traces[idx]? = some t := hdb.traces ▸ ht
      obtain ⟨c, hc⟩ : ∃ c, db.caches[idx]? = some c := ⟨_, List.getElem?_eq_getElem (by rw [hdb.left.1]; exact hlt)⟩
      obtain ⟨c', hc'⟩ : ∃ c, db'.caches[idx]? = some c :=
        ⟨_, List.getElem?_eq_getElem (by rw [hdb.right.1, ← hdb.traces]; exact hlt)⟩
      rw [hc, hc']
      dsimp only
      cases lispQueryArgs t { q with file := fileInForce q.file o } with
      | ok args =>
        dsimp only
        rw [getTrace_same hi ht, getTrace_same (hn ▸ hi) ht', Res.ok_bind, Res.ok_bind]
        refine Res.Rel.bind (queryTrace_caches w.env w.pick ev t args q.filter.isSome (hdb.left.2 _ _ _ ht hc)
          (hdb.right.2 _ _ _ ht' hc')) ?_
        rintro ⟨rs, c1, u⟩ ⟨rs', c2, u'⟩ ⟨e1, e2, e3⟩
        dsimp only at e1 e2 e3 ⊢
        subst e1
        rw [derefTrace_same ht, derefTrace_same ht', Res.ok_bind, Res.ok_bind]
        have hd : Db.Alike { db with caches := db.caches.set idx c1 } { db' with caches := db'.caches.set idx c2 } :=
          ⟨hdb.traces, hdb.left.setCache ht e2, hdb.right.setCache ht' e3⟩
        exact ⟨rfl, a.objs, a.dbs.set hd _⟩
      | throw e => cases e <;> first | exact ⟨rfl, a⟩ | rfl
      | abort => trivial
      | ub k => rfl
      | hang => trivial
  · rw [if_neg hi, if_neg hi]
    exact ⟨rfl, a⟩

theorem filterResults_rel {H H' : Type} {R : H → H' → Prop} (t : Trace) {f : LPoint → H → Res (Option Bool × H)}
    {f' : LPoint → H' → Res (Option Bool × H')}
    (hf : ∀ l h h', R h h' → Res.Rel (fun x y => x.1 = y.1 ∧ R x.2 y.2) (f l h) (f' l h')) :
    ∀ (ps : List Point) (h : H) (h' : H'), R h h' →
      Res.Rel (fun x y => x.1 = y.1 ∧ R x.2 y.2) (filterResults t f ps h) (filterResults t f' ps h')
  | [], h, h', hr => ⟨rfl, hr⟩
  | p :: ps, h, h', hr => by
    unfold filterResults
    cases lispPoint t p with
    | ok l =>
      dsimp only
      refine Res.Rel.bind (hf l h h' hr) ?_
      rintro ⟨b, h1⟩ ⟨b', h1'⟩ ⟨e, hr1⟩
      dsimp only at e hr1 ⊢
      subst e
      cases b with
      | none => exact ⟨rfl, hr1⟩
      | some b =>
        dsimp only
        refine Res.Rel.bind (filterResults_rel t hf ps h1 h1' hr1) ?_
        rintro ⟨r, h2⟩ ⟨r', h2'⟩ ⟨e, hr2⟩
        dsimp only at e hr2 ⊢
        subst e
        exact ⟨rfl, hr2⟩
    | throw e => cases e <;> first | exact ⟨rfl, hr⟩ | rfl
    | abort => trivial
    | ub k => rfl
    | hang => trivial

theorem lispStep_alike (w : World) (version : Nat) (ev : Evaluator Unit) {h h' : LispHeap μ} (a : h.Alike h') (op : ObjOp μ)
    (hop : ∀ i idx q, op ≠ .query i idx q) :
    Res.Rel (fun x y => x.1 = y.1 ∧ x.2.1.Alike y.2.1) (lispStep w version ev h () op) (lispStep w version ev h' () op) := by
  have hlen := a.dbs.length
  have fresh : ∀ d : Db, d.Ok → d.Alike d := fun d hd => ⟨rfl, hd, hd⟩
  cases op with
  | create =>
    refine ⟨by rw [a.objs], ⟨by simp only [a.objs, hlen], a.dbs.append (.cons (fresh _ dbOk_create) .nil)⟩⟩
  | restrict i f =>
    simp only [lispStep, ← a.objs]
    cases h.objs[i]? with
    | none => rfl
    | some o => exact ⟨rfl, rfl, a.dbs⟩
  | add i x =>
    simp only [lispStep, ← a.objs]
    cases ho : h.objs[i]? with
    | none => rfl
    | some o =>
      dsimp only
      rcases a.db o.db with ⟨h1, h2⟩ | ⟨d, d', h1, h2, hd⟩
      · rw [h1, h2]; rfl
      · rw [h1, h2]
        dsimp only
        cases x with
        | trace src k m =>
          simp only [LispHeap.add, addTraceApi]
          cases src with
          | none =>
            simp only [Res.ok_bind, if_true, Res.pure_eq]
            exact ⟨rfl, by rw [← a.objs], a.dbs.set hd _⟩
          | some st =>
            dsimp only
            cases readTrace w.env k st with
            | ok t =>
              simp only [Res.ok_bind, Res.pure_eq]
              refine ⟨rfl, ?_, a.dbs.set (hd.addTrace w.grow t) _⟩
              simp only [a.metadata]
              rw [a.objs]
            | throw e =>
              simp only [Res.ok_bind, if_true, Res.pure_eq]
              exact ⟨rfl, by rw [← a.objs], a.dbs.set hd _⟩
            | abort => trivial
            | ub k => rfl
            | hang => trivial
        | points ps names m =>
          simp only [LispHeap.add, addTracePointsApi]
          cases traceOfPoints ps names with
          | ok t =>
            simp only [Res.ok_bind, Res.pure_eq]
            exact ⟨rfl, by simp only [a.metadata]; rw [a.objs], a.dbs.set (hd.addTrace w.grow t) _⟩
          | throw e => rfl
          | abort => trivial
          | ub k => rfl
          | hang => trivial
  | get i idx file =>
    simp only [lispStep, ← a.objs]
    cases ho : h.objs[i]? with
    | none => rfl
    | some o =>
      dsimp only
      rcases a.db o.db with ⟨h1, h2⟩ | ⟨d, d', h1, h2, hd⟩
      · rw [h1, h2]; rfl
      · rw [h1, h2]
        dsimp only
        have : h.get i o d idx file = h'.get i o d' idx file := by
          unfold LispHeap.get
          rw [a.metadata, show nTracesApi d = nTracesApi d' by unfold nTracesApi; rw [hd.traces], hd.traces]
        rw [this]
        refine Res.Rel.bind (R := Eq) (Res.Rel.refl (fun _ => rfl) _) ?_
        rintro x _ rfl
        exact ⟨rfl, a⟩
  | query i idx q => exact absurd rfl (hop i idx q)
  | copy i =>
    simp only [lispStep, ← a.objs]
    cases ho : h.objs[i]? with
    | none => rfl
    | some o =>
      dsimp only
      split
      · exact ⟨rfl, a⟩
      · rcases a.db o.db with ⟨h1, h2⟩ | ⟨d, d', h1, h2, hd⟩
        · rw [h1, h2]; rfl
        · rw [h1, h2]
          dsimp only
          rw [show serializeDb version d = serializeDb version d' by unfold serializeDb; rw [hd.traces]]
          cases hx : deserializeDb (serializeDb version d') with
          | none => trivial
          | some db' =>
            have hok : db'.Ok := by
              unfold deserializeDb at hx
              simp only [Option.bind_eq_bind, Option.bind_eq_some_iff, Option.pure_def, Option.some.injEq] at hx
              obtain ⟨⟨ts, _⟩, _, rfl⟩ := hx
              refine ⟨by simp, ?_⟩
              intro j t c _ hc
              simp only [List.getElem?_map, Option.map_eq_some_iff] at hc
              obtain ⟨_, _, rfl⟩ := hc
              intro k ps hk
              simp at hk
            refine ⟨rfl, ⟨?_, a.dbs.append (.cons (fresh _ hok) .nil)⟩⟩
            simp only [a.metadata, hlen, a.objs]

theorem handledStep_alike (w : World) (version : Nat) (ev : Evaluator Unit) {h h' : LispHeap μ} (a : h.Alike h') (op : ObjOp μ) :
    Res.Rel (fun x y => x.1 = y.1 ∧ x.2.Alike y.2) (handledStep w version ev op h) (handledStep w version ev op h') := by
  have other : (∀ i idx q, op ≠ .query i idx q) → Res.Rel (fun x y => x.1 = y.1 ∧ x.2.Alike y.2)
      (handledStep w version ev op h) (handledStep w version ev op h') := by
    intro hop
    have key := lispStep_alike w version ev a op hop
    have he : ∀ h : LispHeap μ, handledStep w version ev op h = match lispStep w version ev h () op with
        | .ok (x, h, _) => .ok (some x, h)
        | .throw .lisp => .ok (none, h)
        | .throw e => .throw e
        | .abort => .abort
        | .ub k => .ub k
        | .hang => .hang := by
      intro h
      cases op <;> first | rfl | exact absurd rfl (hop _ _ _)
    rw [he, he]
    generalize lispStep w version ev h () op = x at key
    generalize lispStep w version ev h' () op = y at key
    cases x <;> cases y <;> simp only [Res.Rel] at key
    · exact ⟨by rw [key.1], key.2⟩
    · subst key
      rename_i e
      cases e <;> first | exact ⟨rfl, a⟩ | rfl
    · trivial
    · exact key
    · trivial
  by_cases hop : ∀ i idx q, op ≠ .query i idx q
  · exact other hop
  · cases op with
    | query i idx q =>
      unfold handledStep
      dsimp only
      rw [← a.objs]
      cases ho : h.objs[i]? with
      | none => exact ⟨rfl, a⟩
      | some o =>
        dsimp only
        rcases a.db o.db with ⟨h1, h2⟩ | ⟨d, d', h1, h2, hd⟩
        · rw [h1, h2]; rfl
        · rw [h1, h2]
          dsimp only
          refine Res.Rel.bind (results_alike w ev a o hd idx q) ?_
          rintro ⟨r, g⟩ ⟨r', g'⟩ ⟨e, b⟩
          dsimp only at e b ⊢
          subst e
          cases r with
          | none => exact ⟨rfl, b⟩
          | some x =>
            dsimp only
            refine Res.Rel.bind (filterResults_rel (R := LispHeap.Alike) x.1 ?_ x.2 g g' b) ?_
            · intro l h h' hr
              exact ⟨rfl, hr⟩
            · rintro ⟨ls, g1⟩ ⟨ls', g1'⟩ ⟨e, b1⟩
              dsimp only at e b1 ⊢
              subst e
              refine ⟨?_, b1⟩
              unfold LispHeap.answer
              rw [b1.metadata]
    | create => exact absurd (fun _ _ _ h => by cases h) hop
    | restrict => exact absurd (fun _ _ _ h => by cases h) hop
    | add => exact absurd (fun _ _ _ h => by cases h) hop
    | get => exact absurd (fun _ _ _ h => by cases h) hop
    | copy => exact absurd (fun _ _ _ h => by cases h) hop

/-- Programs do not see caches. -/
theorem script_alike (w : World) (version : Nat) (ev : Evaluator Unit) : ∀ (p : Script μ) (h h' : LispHeap μ)
    (log : List (Option (LispAnswer μ))), h.Alike h' →
    Res.Rel (fun x y => x.1 = y.1 ∧ x.2.1.Alike y.2.1 ∧ x.2.2 = y.2.2) (p.run w version ev (h, log)) (p.run w version ev (h', log)) := by
  intro p
  induction p with
  | done r => intro h h' log a; exact ⟨rfl, a, rfl⟩
  | call op k ih =>
    intro h h' log a
    unfold Script.run
    refine Res.Rel.bind (handledStep_alike w version ev a op) ?_
    rintro ⟨x, g⟩ ⟨x', g'⟩ ⟨e, b⟩
    dsimp only at e b ⊢
    subst e
    exact ih x g g' _ b
  | query i idx q filter k ihf ihk =>
    intro h h' log a
    unfold Script.run
    rw [← a.objs]
    cases ho : h.objs[i]? with
    | none => exact ihk none h h' _ a
    | some o =>
      dsimp only
      rcases a.db o.db with ⟨h1, h2⟩ | ⟨d, d', h1, h2, hd⟩
      · rw [h1, h2]; rfl
      · rw [h1, h2]
        dsimp only
        refine Res.Rel.bind (results_alike w ev a o hd idx _) ?_
        rintro ⟨r, g⟩ ⟨r', g'⟩ ⟨e, b⟩
        dsimp only at e b ⊢
        subst e
        cases r with
        | none => exact ihk none g g' _ b
        | some x =>
          dsimp only
          refine Res.Rel.bind (filterResults_rel (R := fun x y => x.1.Alike y.1 ∧ x.2 = y.2) x.1 ?_ x.2 (g, log) (g', log) ⟨b, rfl⟩) ?_
          · rintro l ⟨h, log⟩ ⟨h', _⟩ ⟨hr, rfl⟩
            exact ihf l h h' log hr
          · rintro ⟨ls, g1, log1⟩ ⟨ls', g1', _⟩ ⟨e, b1, rfl⟩
            dsimp only at e b1 ⊢
            subst e
            have : g1.answer i idx true = g1'.answer i idx true := by
              funext ls
              unfold LispHeap.answer
              rw [b1.metadata]
            rw [this]
            exact ihk _ g1 g1' _ b1

/-! Handled errors -/

theorem set_getElem?_same {α : Type} : ∀ {l : List α} {i : Nat} {x : α}, l[i]? = some x → l.set i x = l
  | [], _, _, h => by simp at h
  | a :: l, 0, x, h => by simp at h; subst h; rfl
  | a :: l, i + 1, x, h => by
    simp only [List.getElem?_cons_succ] at h
    rw [List.set_cons_succ, set_getElem?_same h]

theorem LispHeap.Alike.right {h h' : LispHeap μ} (a : h.Alike h') : h'.Alike h' :=
  ⟨rfl, .self fun x hx => by
    obtain ⟨i, hi⟩ := List.getElem?_of_mem hx
    rcases a.db i with ⟨_, h1⟩ | ⟨x', y, _, h1, hy⟩
    · rw [hi] at h1; cases h1
    · rw [hi] at h1; cases h1; exact ⟨rfl, hy.right, hy.right⟩⟩

theorem lispQuery_args (env : Env) (pick : U32 → Nat → Nat) (ev : Evaluator Unit) (t : Trace) (q : LQuery) (c : PointsCache) :
    lispQuery env pick ev t q c () = (lispQueryArgs t q >>= fun a => queryTrace env pick ev t a q.filter.isSome c () >>= fun r =>
      lispPoints t r.1 >>= fun ls => .ok (match q.filter with
        | some g => removeDuplicates sameBindings (ls.filter g)
        | none => ls, r.2)) := by
  unfold lispQuery lispQueryArgs
  simp only [Res.pure_eq, Res.bind_assoc, Res.ok_bind]
  congr 1; funext types
  congr 1; funext fvs
  congr 1; funext x
  congr 1; funext r
  congr 1; funext ls
  cases q.filter <;> rfl

theorem filterResults_plain {H : Type} (t : Trace) (g : Option (LPoint → Bool)) : ∀ (ps : List Point) (h : H),
    filterResults t (plainFilter g) ps h = match lispPoints t ps with
      | .ok ls => .ok (some (match g with | some g => ls.filter g | none => ls), h)
      | .throw .lisp => .ok (none, h)
      | .throw e => .throw e
      | .abort => .abort
      | .ub k => .ub k
      | .hang => .hang
  | [], h => by cases g <;> rfl
  | p :: ps, h => by
    unfold filterResults lispPoints
    cases hp : lispPoint t p with
    | ok l =>
      simp only [plainFilter, Res.ok_bind]
      rw [filterResults_plain t g ps h]
      cases lispPoints t ps with
      | ok ls =>
        cases g with
        | none => rfl
        | some g => simp only [Res.ok_bind, Res.pure_eq, Option.map_some, List.filter_cons]
      | throw e => cases e <;> rfl
      | abort => rfl
      | ub k => rfl
      | hang => rfl
    | throw e => cases e <;> rfl
    | abort => rfl
    | ub k => rfl
    | hang => rfl

/-- What an operation whose errors are handled has to do with the same operation. -/
def HandledAs (h : LispHeap μ) (l : Res (LispAnswer μ × LispHeap μ × Unit)) : Res (Option (LispAnswer μ) × LispHeap μ) → Prop
  | .ok (some x, g) => l = .ok (x, g, ()) ∧ g.Alike g
  | .ok (none, g) => l = .throw .lisp ∧ h.Alike g
  | .throw e => l = .throw e
  | .abort => l = .abort
  | .ub k => l = .ub k
  | .hang => l = .hang

theorem results_plain (w : World) (ev : Evaluator Unit) {h : LispHeap μ} (a : h.Alike h) (i : Nat) (o : LispObj μ) {db : Db}
    (hdb : h.dbs[o.db]? = some db) (idx : Nat) (q : LQuery) :
    HandledAs h (h.query w ev () i o db idx q) (h.results w ev o db idx q >>= fun x => match x.1 with
      | none => pure (none, x.2)
      | some (t, rs) => filterResults t (plainFilter q.filter) rs x.2 >>= fun y => pure (y.1.map (y.2.answer i idx q.filter.isSome), y.2)) := by
  have hd : db.Alike db := by
    rcases a.db o.db with ⟨h1, _⟩ | ⟨x, y, h1, _, hy⟩
    · rw [hdb] at h1; cases h1
    · rw [hdb] at h1; cases h1; exact ⟨rfl, hy.left, hy.left⟩
  unfold LispHeap.results LispHeap.query
  by_cases hi : idx < (nTracesApi db).toNat
  · rw [if_pos hi, if_pos hi]
    cases ht : db.traces[idx]? with
    | none => rfl
    | some t =>
      have hlt := (List.getElem?_eq_some_iff.mp ht).1
      obtain ⟨c, hc⟩ : ∃ c, db.caches[idx]? = some c := ⟨_, List.getElem?_eq_getElem (by rw [hd.left.1]; exact hlt)⟩
      rw [hc]
      dsimp only
      rw [lispQuery_args]

      cases hargs : lispQueryArgs t { q with file := fileInForce q.file o } with
      | throw e => cases e <;> simp [HandledAs, Res.pure_eq, a]
      | abort => rfl
      | ub k => rfl
      | hang => rfl
      | ok args =>
        have key := queryTrace_caches w.env w.pick ev t args q.filter.isSome (hd.left.2 _ _ _ ht hc) (hd.left.2 _ _ _ ht hc)
        dsimp only
        rw [getTrace_same hi ht]
        simp only [Res.ok_bind]
        cases hq : queryTrace w.env w.pick ev t args q.filter.isSome c () with
        | throw e =>
          rfl
        | abort => rfl
        | ub k => rfl
        | hang => rfl
        | ok r =>
          obtain ⟨rs, c1, u⟩ := r
          rw [hq] at key
          simp only [Res.Rel] at key
          simp only [Res.ok_bind, derefTrace_same ht, Res.pure_eq]
          rw [filterResults_plain]
          have hA : LispHeap.Alike h { h with dbs := h.dbs.set o.db { db with caches := db.caches.set idx c1 } } := by
            have hx : db.Alike { db with caches := db.caches.set idx c1 } := ⟨rfl, hd.left, hd.left.setCache ht key.2.1⟩
            have := a.dbs.set hx o.db
            rw [set_getElem?_same hdb] at this
            exact ⟨rfl, this⟩
          cases lispPoints t rs with
          | ok ls =>
            simp only [Res.ok_bind, HandledAs, Option.map_some, LispHeap.answer]
            refine ⟨?_, ?_⟩
            · cases q.filter <;> rfl
            · exact hA.right
          | throw e => cases e <;> simp [HandledAs, hA]
          | abort => rfl
          | ub k => rfl
          | hang => rfl
  · rw [if_neg hi, if_neg hi]
    exact ⟨rfl, a⟩

theorem handledStep_lispStep (w : World) (version : Nat) (ev : Evaluator Unit) {h : LispHeap μ} (a : h.Alike h) (op : ObjOp μ) :
    HandledAs h (lispStep w version ev h () op) (handledStep w version ev op h) := by
  by_cases hop : ∀ i idx q, op ≠ .query i idx q
  · have key := lispStep_alike w version ev a op hop
    have he : handledStep w version ev op h = match lispStep w version ev h () op with
        | .ok (x, h, _) => .ok (some x, h)
        | .throw .lisp => .ok (none, h)
        | .throw e => .throw e
        | .abort => .abort
        | .ub k => .ub k
        | .hang => .hang := by
      cases op <;> first | rfl | exact absurd rfl (hop _ _ _)
    rw [he]
    generalize lispStep w version ev h () op = x at key
    cases x with
    | ok x => exact ⟨rfl, key.2⟩
    | throw e => cases e <;> first | exact ⟨rfl, a⟩ | rfl
    | abort => rfl
    | ub k => rfl
    | hang => rfl
  · cases op with
    | query i idx q =>
      unfold handledStep lispStep
      dsimp only
      cases ho : h.objs[i]? with
      | none => exact ⟨rfl, a⟩
      | some o =>
        dsimp only
        cases hd : h.dbs[o.db]? with
        | none => rfl
        | some db =>
          dsimp only
          have := results_plain w ev a i o hd idx q
          generalize h.results w ev o db idx q = r at this ⊢
          cases r with
          | ok r =>
            obtain ⟨r, g⟩ := r
            cases r <;> exact this
          | throw e => exact this
          | abort => exact this
          | ub k => exact this
          | hang => exact this
    | create => exact absurd (fun _ _ _ h => by cases h) hop
    | restrict => exact absurd (fun _ _ _ h => by cases h) hop
    | add => exact absurd (fun _ _ _ h => by cases h) hop
    | get => exact absurd (fun _ _ _ h => by cases h) hop
    | copy => exact absurd (fun _ _ _ h => by cases h) hop

/-- Answers, and the state, are those of the operations that signalled no error. -/
theorem handledRun_lispRun (w : World) (version : Nat) (ev : Evaluator Unit) : ∀ (ops : List (ObjOp μ)) (h h' : LispHeap μ)
    (xs : List (Option (LispAnswer μ))) (h1 : LispHeap μ), h.Alike h' → handledRun w version ev ops h = .ok (xs, h1) →
    xs.length = ops.length ∧ ∃ h2 : LispHeap μ,
      lispRun w version ev h' () (succeeded ops xs) = .ok (xs.filterMap id, h2, ()) ∧ h1.Alike h2
  | [], h, h', xs, h1, a, e => by
    cases e
    exact ⟨rfl, h', rfl, a⟩
  | op :: ops, h, h', xs, h1, a, e => by
    unfold handledRun at e
    have hs := handledStep_lispStep w version ev a.right op
    have hal := handledStep_alike w version ev a op
    cases hx : handledStep w version ev op h with
    | ok r =>
      obtain ⟨x, g⟩ := r
      rw [hx] at e hal
      cases hx' : handledStep w version ev op h' with
      | ok r' =>
        obtain ⟨x', g'⟩ := r'
        rw [hx'] at hal hs
        simp only [Res.Rel] at hal
        obtain ⟨rfl, ag⟩ := hal
        simp only [Res.ok_bind, Res.pure_eq] at e
        cases hr : handledRun w version ev ops g with
        | ok r2 =>
          obtain ⟨ys, g2⟩ := r2
          rw [hr] at e
          cases e
          cases x with
          | none =>
            obtain ⟨hl, h2, e2, a2⟩ := handledRun_lispRun w version ev ops g h' ys _ (ag.trans (by
              have := hs.2
              exact this.symm)) hr
            exact ⟨by simp [hl], h2, by simpa [succeeded] using e2, a2⟩
          | some x =>
            obtain ⟨hl, h2, e2, a2⟩ := handledRun_lispRun w version ev ops g g' ys _ ag hr
            refine ⟨by simp [hl], h2, ?_, a2⟩
            have : succeeded (op :: ops) (some x :: ys) = op :: succeeded ops ys := rfl
            rw [this]
            unfold lispRun
            rw [hs.1]
            simp only [Res.ok_bind, e2, Res.pure_eq]
            rfl
        | throw e' => rw [hr] at e; cases e
        | abort => rw [hr] at e; cases e
        | ub k => rw [hr] at e; cases e
        | hang => rw [hr] at e; cases e
      | throw e' => rw [hx'] at hal; cases hal
      | abort => rw [hx'] at hal; cases hal
      | ub k => rw [hx'] at hal; cases hal
      | hang => rw [hx'] at hal; cases hal
    | throw e' => rw [hx] at e; cases e
    | abort => rw [hx] at e; cases e
    | ub k => rw [hx] at e; cases e
    | hang => rw [hx] at e; cases e

theorem handledRun_split (w : World) (version : Nat) (ev : Evaluator Unit) : ∀ (pre : List (ObjOp μ)) (op : ObjOp μ) (post : List (ObjOp μ))
    (h : LispHeap μ) (xs : List (Option (LispAnswer μ))) (h1 : LispHeap μ),
    handledRun w version ev (pre ++ op :: post) h = .ok (xs, h1) →
    ∃ (ys : List (Option (LispAnswer μ))) (g : LispHeap μ) (x : Option (LispAnswer μ)) (g1 : LispHeap μ)
      (zs : List (Option (LispAnswer μ))), handledRun w version ev pre h = .ok (ys, g) ∧ handledStep w version ev op g = .ok (x, g1) ∧
        xs = ys ++ x :: zs
  | [], op, post, h, xs, h1, e => by
    simp only [List.nil_append] at e
    unfold handledRun at e
    cases hx : handledStep w version ev op h with
    | ok r =>
      obtain ⟨x, g⟩ := r
      rw [hx] at e
      simp only [Res.ok_bind, Res.pure_eq] at e
      cases hr : handledRun w version ev post g with
      | ok r2 =>
        rw [hr] at e
        cases e
        exact ⟨[], h, x, g, r2.1, rfl, hx, rfl⟩
      | throw e' => rw [hr] at e; cases e
      | abort => rw [hr] at e; cases e
      | ub k => rw [hr] at e; cases e
      | hang => rw [hr] at e; cases e
    | throw e' => rw [hx] at e; cases e
    | abort => rw [hx] at e; cases e
    | ub k => rw [hx] at e; cases e
    | hang => rw [hx] at e; cases e
  | op' :: pre, op, post, h, xs, h1, e => by
    simp only [List.cons_append] at e
    unfold handledRun at e
    cases hx : handledStep w version ev op' h with
    | ok r =>
      obtain ⟨x, g⟩ := r
      rw [hx] at e
      simp only [Res.ok_bind, Res.pure_eq] at e
      cases hr : handledRun w version ev (pre ++ op :: post) g with
      | ok r2 =>
        rw [hr] at e
        cases e
        obtain ⟨ys, g', x', g1, zs, e1, e2, e3⟩ := handledRun_split w version ev pre op post g r2.1 r2.2 hr
        refine ⟨x :: ys, g', x', g1, zs, ?_, e2, by rw [e3]; rfl⟩
        unfold handledRun
        rw [hx]
        simp only [Res.ok_bind, e1, Res.pure_eq]
      | throw e' => rw [hr] at e; cases e
      | abort => rw [hr] at e; cases e
      | ub k => rw [hr] at e; cases e
      | hang => rw [hr] at e; cases e
    | throw e' => rw [hx] at e; cases e
    | abort => rw [hx] at e; cases e
    | ub k => rw [hx] at e; cases e
    | hang => rw [hx] at e; cases e

theorem lispRun_snoc (w : World) (version : Nat) (ev : Evaluator Unit) : ∀ (ops : List (ObjOp μ)) (op : ObjOp μ) (h g : LispHeap μ)
    (xs : List (LispAnswer μ)), lispRun w version ev h () ops = .ok (xs, g, ()) →
    lispRun w version ev h () (ops ++ [op]) = (lispStep w version ev g () op >>= fun r => .ok (xs ++ [r.1], r.2))
  | [], op, h, g, xs, e => by
    cases e
    simp only [List.nil_append, lispRun, Res.ok_bind, Res.pure_eq]
  | o :: ops, op, h, g, xs, e => by
    simp only [List.cons_append]
    unfold lispRun at e ⊢
    cases hx : lispStep w version ev h () o with
    | ok r =>
      obtain ⟨x, g1, u⟩ := r
      rw [hx] at e
      simp only [Res.ok_bind, Res.pure_eq] at e ⊢
      cases hr : lispRun w version ev g1 u ops with
      | ok r2 =>
        rw [hr] at e
        cases e
        rw [lispRun_snoc w version ev ops op g1 _ _ hr]
        simp only [Res.bind_assoc, Res.ok_bind, List.cons_append]
      | throw e' => rw [hr] at e; cases e
      | abort => rw [hr] at e; cases e
      | ub k => rw [hr] at e; cases e
      | hang => rw [hr] at e; cases e
    | throw e' => rw [hx] at e; cases e
    | abort => rw [hx] at e; cases e
    | ub k => rw [hx] at e; cases e
    | hang => rw [hx] at e; cases e

/-- Which operations signal errors. -/
theorem handledRun_errors (w : World) (version : Nat) (ev : Evaluator Unit) (pre : List (ObjOp μ)) (op : ObjOp μ) (post : List (ObjOp μ))
    (h h' : LispHeap μ) (a : h.Alike h') (xs : List (Option (LispAnswer μ))) (h1 : LispHeap μ)
    (e : handledRun w version ev (pre ++ op :: post) h = .ok (xs, h1)) :
    ∃ (ys : List (Option (LispAnswer μ))) (x : Option (LispAnswer μ)) (zs : List (Option (LispAnswer μ))),
      xs = ys ++ x :: zs ∧ ys.length = pre.length ∧
      (x = none ↔ lispRun w version ev h' () (succeeded pre ys ++ [op]) = .throw .lisp) := by
  obtain ⟨ys, g, x, g1, zs, e1, e2, e3⟩ := handledRun_split w version ev pre op post h xs h1 e
  obtain ⟨hl, h2, e4, a2⟩ := handledRun_lispRun w version ev pre h h' ys g a e1
  refine ⟨ys, x, zs, e3, hl, ?_⟩
  rw [lispRun_snoc w version ev _ op _ _ _ e4]
  have hs := handledStep_lispStep w version ev a2.right op
  have hal := handledStep_alike w version ev a2 op
  rw [e2] at hal
  cases hx' : handledStep w version ev op h2 with
  | ok r =>
    obtain ⟨x', g'⟩ := r
    rw [hx'] at hal hs
    simp only [Res.Rel] at hal
    obtain ⟨rfl, -⟩ := hal
    cases x with
    | none => rw [hs.1]; simp
    | some x => rw [hs.1]; simp
  | throw e' => rw [hx'] at hal; cases hal
  | abort => rw [hx'] at hal; cases hal
  | ub k => rw [hx'] at hal; cases hal
  | hang => rw [hx'] at hal; cases hal

/-- A history that does not go on has done so for a reason that is not an error. -/
theorem handledRun_ends (w : World) (version : Nat) (ev : Evaluator Unit) : ∀ (ops : List (ObjOp μ)) (h h' : LispHeap μ), h.Alike h' →
    (handledRun w version ev ops h).isOk = false →
    ∃ (pre : List (ObjOp μ)) (op : ObjOp μ) (post : List (ObjOp μ)) (ys : List (Option (LispAnswer μ))) (g : LispHeap μ),
      ops = pre ++ op :: post ∧ handledRun w version ev pre h = .ok (ys, g) ∧
      (lispRun w version ev h' () (succeeded pre ys ++ [op]) >>= fun _ => Res.ok ()) =
        (handledRun w version ev ops h >>= fun _ => Res.ok ())
  | [], h, h', a, e => by simp [handledRun, Res.isOk] at e
  | op :: ops, h, h', a, e => by
    have hs := handledStep_lispStep w version ev a.right op
    have hal := handledStep_alike w version ev a op
    have bad : (handledStep w version ev op h).isOk = false →
        ∃ (pre : List (ObjOp μ)) (op1 : ObjOp μ) (post : List (ObjOp μ)) (ys : List (Option (LispAnswer μ))) (g : LispHeap μ),
        op :: ops = pre ++ op1 :: post ∧ handledRun w version ev pre h = .ok (ys, g) ∧
        (lispRun w version ev h' () (succeeded pre ys ++ [op1]) >>= fun _ => Res.ok ()) =
          (handledRun w version ev (op :: ops) h >>= fun _ => Res.ok ()) := by
      intro hb
      refine ⟨[], op, ops, [], h, rfl, rfl, ?_⟩
      show (lispRun w version ev h' () [op] >>= fun _ => Res.ok ()) = _
      unfold lispRun handledRun
      cases hx : handledStep w version ev op h with
      | ok r => rw [hx] at hb; simp [Res.isOk] at hb
      | throw e' =>
        rw [hx] at hal
        cases hx' : handledStep w version ev op h' with
        | throw e'' => rw [hx'] at hal hs; cases hal; rw [hs]; rfl
        | _ => rw [hx'] at hal; cases hal
      | abort =>
        rw [hx] at hal
        cases hx' : handledStep w version ev op h' with
        | abort => rw [hx'] at hs; rw [hs]; rfl
        | _ => rw [hx'] at hal; cases hal
      | ub k =>
        rw [hx] at hal
        cases hx' : handledStep w version ev op h' with
        | ub k => rw [hx'] at hal hs; cases hal; rw [hs]; rfl
        | _ => rw [hx'] at hal; cases hal
      | hang =>
        rw [hx] at hal
        cases hx' : handledStep w version ev op h' with
        | hang => rw [hx'] at hs; rw [hs]; rfl
        | _ => rw [hx'] at hal; cases hal
    cases hx : handledStep w version ev op h with
    | ok r =>
      obtain ⟨x, g⟩ := r
      rw [hx] at hal
      have hrun : ∀ o, handledRun w version ev (op :: o) h = (handledRun w version ev o g >>= fun r => .ok (x :: r.1, r.2)) := by
        intro o
        conv => lhs; unfold handledRun
        rw [hx]
        simp only [Res.ok_bind, Res.pure_eq]
      have hb : (handledRun w version ev ops g).isOk = false := by
        rw [hrun] at e
        cases hr : handledRun w version ev ops g with
        | ok r => rw [hr] at e; simp [Res.isOk] at e
        | _ => rfl
      cases hx' : handledStep w version ev op h' with
      | ok r' =>
        obtain ⟨x', g'⟩ := r'
        rw [hx'] at hal hs
        simp only [Res.Rel] at hal
        obtain ⟨rfl, ag⟩ := hal
        cases x with
        | none =>
          obtain ⟨pre, op1, post, ys, g3, e1, e2, e3⟩ := handledRun_ends w version ev ops g h' (ag.trans (LispHeap.Alike.symm hs.2)) hb
          refine ⟨op :: pre, op1, post, none :: ys, g3, by rw [e1]; rfl, by rw [hrun, e2]; rfl, ?_⟩
          rw [hrun]
          simp only [Res.bind_assoc, Res.ok_bind]
          exact e3
        | some x =>
          obtain ⟨pre, op1, post, ys, g3, e1, e2, e3⟩ := handledRun_ends w version ev ops g g' ag hb
          refine ⟨op :: pre, op1, post, some x :: ys, g3, by rw [e1]; rfl, by rw [hrun, e2]; rfl, ?_⟩
          rw [hrun]
          simp only [Res.bind_assoc, Res.ok_bind]
          rw [← e3]
          have : succeeded (op :: pre) (some x :: ys) = op :: succeeded pre ys := rfl
          rw [this]
          simp only [List.cons_append]
          conv => lhs; unfold lispRun
          rw [hs.1]
          simp only [Res.ok_bind, Res.pure_eq, Res.bind_assoc]
      | _ => rw [hx'] at hal; cases hal
    | throw e' => exact bad (by rw [hx]; rfl)
    | abort => exact bad (by rw [hx]; rfl)
    | ub k => exact bad (by rw [hx]; rfl)
    | hang => exact bad (by rw [hx]; rfl)

/-! Nothing is lost -/

theorem LispHeap.Kept.refl (h : LispHeap μ) : h.Kept h :=
  ⟨fun _ o ho => ⟨o, ho, rfl, rfl⟩, fun _ x hx => ⟨x, hx, List.prefix_refl _⟩⟩

theorem LispHeap.Kept.trans {h1 h2 h3 : LispHeap μ} (a : h1.Kept h2) (b : h2.Kept h3) : h1.Kept h3 := by
  refine ⟨fun i o ho => ?_, fun d x hx => ?_⟩
  · obtain ⟨o2, e2, f2, g2⟩ := a.1 i o ho
    obtain ⟨o3, e3, f3, g3⟩ := b.1 i o2 e2
    exact ⟨o3, e3, f3.trans f2, g3.trans g2⟩
  · obtain ⟨x2, e2, f2⟩ := a.2 d x hx
    obtain ⟨x3, e3, f3⟩ := b.2 d x2 e2
    exact ⟨x3, e3, f2.trans f3⟩

theorem LispHeap.Alike.kept {h h' : LispHeap μ} (a : h.Alike h') : h.Kept h' := by
  refine ⟨fun i o ho => ⟨o, a.objs ▸ ho, rfl, rfl⟩, fun d x hx => ?_⟩
  rcases a.db d with ⟨h1, _⟩ | ⟨x', y, h1, h2, hy⟩
  · rw [hx] at h1; cases h1
  · rw [hx] at h1; cases h1
    exact ⟨y, h2, by rw [hy.traces]; exact List.prefix_refl _⟩

theorem kept_set {h : LispHeap μ} {d : Nat} {x y : Db} (hx : h.dbs[d]? = some x) (hp : x.traces <+: y.traces) {i : Nat} {o o' : LispObj μ}
    (ho : h.objs[i]? = some o) (e1 : o'.db = o.db) (e2 : o'.view = o.view) :
    h.Kept ⟨h.dbs.set d y, h.objs.set i o'⟩ := by
  refine ⟨fun j p hj => ?_, fun j z hz => ?_⟩
  · by_cases hij : i = j
    · subst hij
      rw [ho] at hj; cases hj
      exact ⟨o', by simp only; rw [List.getElem?_set_self (List.getElem?_eq_some_iff.mp ho).1], e1, e2⟩
    · exact ⟨p, by simp only; rw [List.getElem?_set_ne hij]; exact hj, rfl, rfl⟩
  · by_cases hij : d = j
    · subst hij
      rw [hx] at hz; cases hz
      exact ⟨y, by simp only; rw [List.getElem?_set_self (List.getElem?_eq_some_iff.mp hx).1], hp⟩
    · exact ⟨z, by simp only; rw [List.getElem?_set_ne hij]; exact hz, List.prefix_refl _⟩

theorem kept_append (h : LispHeap μ) (ds : List Db) (os : List (LispObj μ)) : h.Kept ⟨h.dbs ++ ds, h.objs ++ os⟩ := by
  refine ⟨fun j p hj => ⟨p, ?_, rfl, rfl⟩, fun j z hz => ⟨z, ?_, List.prefix_refl _⟩⟩
  · simp only; rw [List.getElem?_append_left (List.getElem?_eq_some_iff.mp hj).1]; exact hj
  · simp only; rw [List.getElem?_append_left (List.getElem?_eq_some_iff.mp hz).1]; exact hz

theorem lispStep_kept (w : World) (version : Nat) (ev : Evaluator Unit) {h g : LispHeap μ} {op : ObjOp μ} {x : LispAnswer μ} {u : Unit}
    (e : lispStep w version ev h () op = .ok (x, g, u)) (hop : ∀ i idx q, op ≠ .query i idx q) : h.Kept g := by
  cases op with
  | create => cases e; exact kept_append h _ _
  | restrict i f =>
    simp only [lispStep] at e
    cases ho : h.objs[i]? with
    | none => rw [ho] at e; cases e
    | some o =>
      rw [ho] at e; cases e
      have := kept_append h [] [⟨o.db, some (i, f), []⟩]
      simpa using this
  | add i a =>
    simp only [lispStep] at e
    cases ho : h.objs[i]? with
    | none => rw [ho] at e; cases e
    | some o =>
      rw [ho] at e
      dsimp only at e
      cases hd : h.dbs[o.db]? with
      | none => rw [hd] at e; cases e
      | some db =>
        rw [hd] at e
        dsimp only at e
        have same : h.Kept ⟨h.dbs.set o.db db, h.objs⟩ := by rw [set_getElem?_same hd]; exact .refl h
        have pref : ∀ t, db.traces <+: (db.addTrace w.grow t).traces := fun t => by
          rw [addTrace_traces]; exact List.prefix_append _ _
        cases a with
        | trace src k m =>
          simp only [LispHeap.add, addTraceApi] at e
          cases src with
          | none =>
            simp only [Res.ok_bind, if_true, Res.pure_eq] at e
            cases e; exact same
          | some st =>
            dsimp only at e
            cases hr : readTrace w.env k st with
            | ok t =>
              rw [hr] at e
              simp only [Res.ok_bind, Res.pure_eq] at e
              rw [if_neg (by decide)] at e
              cases e
              exact kept_set hd (pref t) ho rfl rfl
            | throw e' =>
              rw [hr] at e
              simp only [Res.ok_bind, if_true, Res.pure_eq] at e
              cases e; exact same
            | abort => rw [hr] at e; cases e
            | ub k => rw [hr] at e; cases e
            | hang => rw [hr] at e; cases e
        | points ps names m =>
          simp only [LispHeap.add, addTracePointsApi] at e
          cases hr : traceOfPoints ps names with
          | ok t =>
            rw [hr] at e
            simp only [Res.ok_bind, Res.pure_eq] at e
            cases e
            exact kept_set hd (pref t) ho rfl rfl
          | throw e' => rw [hr] at e; cases e
          | abort => rw [hr] at e; cases e
          | ub k => rw [hr] at e; cases e
          | hang => rw [hr] at e; cases e
  | get i idx file =>
    simp only [lispStep] at e
    cases ho : h.objs[i]? with
    | none => rw [ho] at e; cases e
    | some o =>
      rw [ho] at e
      dsimp only at e
      cases hd : h.dbs[o.db]? with
      | none => rw [hd] at e; cases e
      | some db =>
        rw [hd] at e
        dsimp only at e
        cases hr : h.get i o db idx file with
        | ok y =>
          rw [hr] at e
          simp only [Res.ok_bind, Res.pure_eq] at e
          cases e
          exact .refl _
        | _ => rw [hr] at e; cases e
  | query i idx q => exact absurd rfl (hop i idx q)
  | copy i =>
    simp only [lispStep] at e
    cases ho : h.objs[i]? with
    | none => rw [ho] at e; cases e
    | some o =>
      rw [ho] at e
      dsimp only at e
      split at e
      · cases e; exact .refl _
      · cases hd : h.dbs[o.db]? with
        | none => rw [hd] at e; cases e
        | some db =>
          rw [hd] at e
          dsimp only at e
          cases hr : deserializeDb (serializeDb version db) with
          | none => rw [hr] at e; cases e
          | some db' => rw [hr] at e; cases e; exact kept_append h _ _

/-- What a query finds. -/
theorem results_found (w : World) (ev : Evaluator Unit) {h : LispHeap μ} (a : h.Alike h) (o : LispObj μ) {db : Db}
    (hdb : h.dbs[o.db]? = some db) (idx : Nat) (q : LQuery) {r : Option (Trace × List Point)} {g : LispHeap μ}
    (e : h.results w ev o db idx q = .ok (r, g)) :
    h.Alike g ∧ match r with
      | none => g = h ∧ (db.traces.length % 2 ^ 32 ≤ idx ∨ ∃ t, db.traces[idx]? = some t ∧
          lispQueryArgs t { q with file := fileInForce q.file o } = .throw .lisp)
      | some (t, rs) => db.traces[idx]? = some t ∧ ∃ (args : Query) (c : PointsCache),
          lispQueryArgs t { q with file := fileInForce q.file o } = .ok args ∧
          queryTrace w.env w.pick ev t args q.filter.isSome [] () = .ok (rs, c, ()) := by
  have hd : db.Alike db := by
    rcases a.db o.db with ⟨h1, _⟩ | ⟨x, y, h1, _, hy⟩
    · rw [hdb] at h1; cases h1
    · rw [hdb] at h1; cases h1; exact ⟨rfl, hy.left, hy.left⟩
  unfold LispHeap.results at e
  by_cases hi : idx < (nTracesApi db).toNat
  · rw [if_pos hi] at e
    cases ht : db.traces[idx]? with
    | none => rw [ht] at e; cases e
    | some t =>
      have hlt := (List.getElem?_eq_some_iff.mp ht).1
      obtain ⟨c, hc⟩ : ∃ c, db.caches[idx]? = some c := ⟨_, List.getElem?_eq_getElem (by rw [hd.left.1]; exact hlt)⟩
      rw [ht, hc] at e
      dsimp only at e
      cases hargs : lispQueryArgs t { q with file := fileInForce q.file o } with
      | throw e' =>
        rw [hargs] at e
        cases e' <;> cases e
        exact ⟨a, rfl, .inr ⟨t, rfl, hargs⟩⟩
      | abort => rw [hargs] at e; cases e
      | ub k => rw [hargs] at e; cases e
      | hang => rw [hargs] at e; cases e
      | ok args =>
        rw [hargs] at e
        dsimp only at e
        rw [getTrace_same hi ht] at e
        simp only [Res.ok_bind] at e
        have key := queryTrace_caches w.env w.pick ev t args q.filter.isSome (hd.left.2 _ _ _ ht hc)
          (c' := []) (by intro k ps hk; simp at hk)
        cases hq : queryTrace w.env w.pick ev t args q.filter.isSome c () with
        | ok r =>
          obtain ⟨rs, c1, u⟩ := r
          rw [hq] at e key
          simp only [Res.ok_bind, derefTrace_same ht, Res.pure_eq] at e
          cases e
          cases hq2 : queryTrace w.env w.pick ev t args q.filter.isSome [] () with
          | ok r2 =>
            obtain ⟨rs2, c2, u2⟩ := r2
            rw [hq2] at key
            simp only [Res.Rel] at key
            obtain ⟨rfl, k1, k2⟩ := key
            refine ⟨?_, rfl, args, c2, hargs, hq2⟩
            have hx : db.Alike { db with caches := db.caches.set idx c1 } := ⟨rfl, hd.left, hd.left.setCache ht k1⟩
            have := a.dbs.set hx o.db
            rw [set_getElem?_same hdb] at this
            exact ⟨rfl, this⟩
          | _ => rw [hq2] at key; cases key
        | _ => rw [hq] at e; cases e
  · rw [if_neg hi] at e
    cases e
    refine ⟨a, rfl, .inl ?_⟩
    unfold nTracesApi at hi
    rw [BitVec.toNat_ofNat] at hi
    omega

theorem handledStep_kept (w : World) (version : Nat) (ev : Evaluator Unit) {h g : LispHeap μ} (a : h.Alike h) {op : ObjOp μ}
    {x : Option (LispAnswer μ)} (e : handledStep w version ev op h = .ok (x, g)) : h.Kept g ∧ g.Alike g := by
  have hs := handledStep_lispStep w version ev a op
  rw [e] at hs
  cases x with
  | none => exact ⟨hs.2.kept, hs.2.right⟩
  | some x =>
    refine ⟨?_, hs.2⟩
    by_cases hop : ∀ i idx q, op ≠ .query i idx q
    · exact lispStep_kept w version ev hs.1 hop
    · cases op with
      | query i idx q =>
        unfold handledStep at e
        dsimp only at e
        cases ho : h.objs[i]? with
        | none => rw [ho] at e; cases e
        | some o =>
          rw [ho] at e
          dsimp only at e
          cases hd : h.dbs[o.db]? with
          | none => rw [hd] at e; cases e
          | some db =>
            rw [hd] at e
            dsimp only at e
            cases hr : h.results w ev o db idx q with
            | ok r =>
              obtain ⟨r, g1⟩ := r
              have hf := results_found w ev a o hd idx q hr
              rw [hr] at e
              simp only [Res.ok_bind] at e
              cases r with
              | none => cases e
              | some r =>
                dsimp only at e
                rw [filterResults_plain] at e
                cases hl : lispPoints r.1 r.2 with
                | ok ls => rw [hl] at e; cases e; exact hf.1.kept
                | throw e' => rw [hl] at e; cases e' <;> cases e
                | abort => rw [hl] at e; cases e
                | ub k => rw [hl] at e; cases e
                | hang => rw [hl] at e; cases e
            | _ => rw [hr] at e; cases e
      | create => exact absurd (fun _ _ _ h => by cases h) hop
      | restrict => exact absurd (fun _ _ _ h => by cases h) hop
      | add => exact absurd (fun _ _ _ h => by cases h) hop
      | get => exact absurd (fun _ _ _ h => by cases h) hop
      | copy => exact absurd (fun _ _ _ h => by cases h) hop

/-! Filters -/

/-- How the conversion of the results ends. -/
theorem filterResults_ends {S : Type} (t : Trace) (f : LPoint → S → Res (Option Bool × S)) : ∀ (ps : List Point) (s s2 : S)
    (r : Option (List LPoint)), filterResults t f ps s = .ok (r, s2) →
    match r with
    | some ks => ∃ ls, lispPoints t ps = .ok ls ∧ FiltersRun f ls s ks s2
    | none => ∃ (qs : List Point) (p : Point) (rest : List Point) (ls ks : List LPoint) (s1 : S),
        ps = qs ++ p :: rest ∧ lispPoints t qs = .ok ls ∧ FiltersRun f ls s ks s1 ∧
        ((∃ l, lispPoint t p = .ok l ∧ f l s1 = .ok (none, s2)) ∨ (lispPoint t p = .throw .lisp ∧ s2 = s1))
  | [], s, s2, r, e => by cases e; exact ⟨[], rfl, .nil s⟩
  | p :: ps, s, s2, r, e => by
    unfold filterResults at e
    cases hp : lispPoint t p with
    | ok l =>
      rw [hp] at e
      dsimp only at e
      cases hf : f l s with
      | ok y =>
        obtain ⟨b, s1⟩ := y
        rw [hf] at e
        simp only [Res.ok_bind] at e
        cases b with
        | none =>
          cases e
          exact ⟨[], p, ps, [], [], s, rfl, rfl, .nil s, .inl ⟨l, hp, hf⟩⟩
        | some b =>
          dsimp only at e
          cases hr : filterResults t f ps s1 with
          | ok z =>
            obtain ⟨r1, s3⟩ := z
            rw [hr] at e
            simp only [Res.ok_bind, Res.pure_eq] at e
            cases e
            have ih := filterResults_ends t f ps s1 _ r1 hr
            cases r1 with
            | none =>
              obtain ⟨qs, p', rest, ls, ks, s4, e1, e2, e3, e4⟩ := ih
              cases b with
              | true => exact ⟨p :: qs, p', rest, l :: ls, l :: ks, s4, by rw [e1]; rfl, by
                  unfold lispPoints; rw [hp]; simp only [Res.ok_bind, e2, Res.pure_eq], .keep hf e3, e4⟩
              | false => exact ⟨p :: qs, p', rest, l :: ls, ks, s4, by rw [e1]; rfl, by
                  unfold lispPoints; rw [hp]; simp only [Res.ok_bind, e2, Res.pure_eq], .drop hf e3, e4⟩
            | some ks =>
              obtain ⟨ls, e2, e3⟩ := ih
              refine ⟨l :: ls, by unfold lispPoints; rw [hp]; simp only [Res.ok_bind, e2, Res.pure_eq], ?_⟩
              cases b with
              | true => exact .keep hf e3
              | false => exact .drop hf e3
          | _ => rw [hr] at e; cases e
      | _ => rw [hf] at e; cases e
    | throw e' =>
      rw [hp] at e
      cases e' <;> cases e
      exact ⟨[], p, ps, [], [], s, rfl, rfl, .nil s, .inr ⟨hp, rfl⟩⟩
    | abort => rw [hp] at e; cases e
    | ub k => rw [hp] at e; cases e
    | hang => rw [hp] at e; cases e

theorem FiltersRun.along {S : Type} {f : LPoint → S → Res (Option Bool × S)} {P : S → S → Prop} (hrefl : ∀ s, P s s)
    (htrans : ∀ s s1 s2, P s s1 → P s1 s2 → P s s2) (hf : ∀ l s b s1, f l s = .ok (b, s1) → P s s1) {ls ks : List LPoint} {s s2 : S}
    (h : FiltersRun f ls s ks s2) : P s s2 := by
  induction h with
  | nil s => exact hrefl s
  | keep h _ ih => exact htrans _ _ _ (hf _ _ _ _ h) ih
  | drop h _ ih => exact htrans _ _ _ (hf _ _ _ _ h) ih

theorem FiltersRun.pure {S : Type} {f : LPoint → S → Res (Option Bool × S)} {g : LPoint → Bool}
    (hf : ∀ l s b s1, f l s = .ok (b, s1) → b = some (g l)) {ls ks : List LPoint} {s s2 : S}
    (h : FiltersRun f ls s ks s2) : ks = ls.filter g := by
  induction h with
  | nil s => rfl
  | keep h _ ih =>
    have := hf _ _ _ _ h
    simp only [Option.some.injEq] at this
    rw [List.filter_cons, ← this, if_pos rfl, ih]
  | drop h _ ih =>
    have := hf _ _ _ _ h
    simp only [Option.some.injEq] at this
    rw [List.filter_cons, ← this, if_neg (by decide), ih]

/-- Nothing is lost by programs. -/
theorem script_kept (w : World) (version : Nat) (ev : Evaluator Unit) : ∀ (p : Script μ) (h : LispHeap μ)
    (log : List (Option (LispAnswer μ))) (r : Option Bool) (h1 : LispHeap μ) (log1 : List (Option (LispAnswer μ))),
    h.Alike h → p.run w version ev (h, log) = .ok (r, h1, log1) → h.Kept h1 ∧ h1.Alike h1 ∧ log <+: log1 := by
  intro p
  induction p with
  | done r => intro h log r h1 log1 a e; cases e; exact ⟨.refl _, a, List.prefix_refl _⟩
  | call op k ih =>
    intro h log r h1 log1 a e
    unfold Script.run at e
    cases hx : handledStep w version ev op h with
    | ok y =>
      obtain ⟨x, g⟩ := y
      rw [hx] at e
      simp only [Res.ok_bind] at e
      have k1 := handledStep_kept w version ev a hx
      have k2 := ih x g _ r h1 log1 k1.2 e
      exact ⟨k1.1.trans k2.1, k2.2.1, (List.prefix_append _ _).trans k2.2.2⟩
    | _ => rw [hx] at e; cases e
  | query i idx q filter k ihf ihk =>
    intro h log r h1 log1 a e
    unfold Script.run at e
    cases ho : h.objs[i]? with
    | none =>
      rw [ho] at e
      have k2 := ihk none h _ r h1 log1 a e
      exact ⟨k2.1, k2.2.1, (List.prefix_append _ _).trans k2.2.2⟩
    | some o =>
      rw [ho] at e
      dsimp only at e
      cases hd : h.dbs[o.db]? with
      | none => rw [hd] at e; cases e
      | some db =>
        rw [hd] at e
        dsimp only at e
        cases hr : h.results w ev o db idx { q with filter := some fun _ => true } with
        | ok y =>
          obtain ⟨x, g⟩ := y
          rw [hr] at e
          simp only [Res.ok_bind] at e
          have hA := (results_found w ev a o hd idx _ hr).1
          cases x with
          | none =>
            have k2 := ihk none g _ r h1 log1 hA.right e
            exact ⟨hA.kept.trans k2.1, k2.2.1, (List.prefix_append _ _).trans k2.2.2⟩
          | some x =>
            obtain ⟨t, rs⟩ := x
            dsimp only at e
            cases hf : filterResults t (fun l => Script.run w version ev (filter l)) rs (g, log) with
            | ok z =>
              obtain ⟨ls, g1, log2⟩ := z
              rw [hf] at e
              simp only [Res.ok_bind] at e
              have along : ∀ (l1 k1 : List LPoint) (s s2 : LispHeap μ × List (Option (LispAnswer μ))), s.1.Alike s.1 →
                  FiltersRun (fun l => Script.run w version ev (filter l)) l1 s k1 s2 → s.1.Kept s2.1 ∧ s2.1.Alike s2.1 ∧ s.2 <+: s2.2 := by
                intro l1 k1 s s2 ha hrun
                induction hrun with
                | nil s => exact ⟨.refl _, ha, List.prefix_refl _⟩
                | keep h1 _ ih =>
                  have k1 := ihf _ _ _ _ _ _ ha h1
                  have k2 := ih k1.2.1
                  exact ⟨k1.1.trans k2.1, k2.2.1, k1.2.2.trans k2.2.2⟩
                | drop h1 _ ih =>
                  have k1 := ihf _ _ _ _ _ _ ha h1
                  have k2 := ih k1.2.1
                  exact ⟨k1.1.trans k2.1, k2.2.1, k1.2.2.trans k2.2.2⟩
              have hmid : g.Kept g1 ∧ g1.Alike g1 ∧ log <+: log2 := by
                have he := filterResults_ends t _ rs _ _ ls hf
                cases ls with
                | some ks =>
                  obtain ⟨ls, -, e3⟩ := he
                  exact along _ _ _ _ hA.right e3
                | none =>
                  obtain ⟨qs, p, rest, ls, ks, s1, -, -, e3, e4⟩ := he
                  have k1 := along _ _ _ _ hA.right e3
                  rcases e4 with ⟨l, -, e4⟩ | ⟨-, e4⟩
                  · have k2 := ihf l s1.1 s1.2 _ _ _ k1.2.1 e4
                    exact ⟨k1.1.trans k2.1, k2.2.1, k1.2.2.trans k2.2.2⟩
                  · cases e4; exact k1
              have k2 := ihk _ g1 _ r h1 log1 hmid.2.1 e
              exact ⟨hA.kept.trans (hmid.1.trans k2.1), k2.2.1, hmid.2.2.trans ((List.prefix_append _ _).trans k2.2.2)⟩
            | _ => rw [hf] at e; cases e
        | _ => rw [hr] at e; cases e

theorem lispPoints_throw {t : Trace} : ∀ {qs : List Point} {p : Point} {ls : List LPoint}, lispPoints t qs = .ok ls →
    lispPoint t p = .throw .lisp → ∀ rest, lispPoints t (qs ++ p :: rest) = .throw .lisp
  | [], p, ls, _, hp, rest => by
    simp only [List.nil_append, lispPoints, hp, Res.throw_bind]
  | q :: qs, p, ls, e, hp, rest => by
    unfold lispPoints at e
    simp only [List.cons_append]
    unfold lispPoints
    cases hq : lispPoint t q with
    | ok l =>
      rw [hq] at e
      simp only [Res.ok_bind, Res.pure_eq] at e ⊢
      cases hr : lispPoints t qs with
      | ok ms => rw [lispPoints_throw hr hp rest]; rfl
      | _ => rw [hr] at e; cases e
    | _ => rw [hq] at e; cases e

/-- Programs without filters are histories. -/
theorem script_chooses (w : World) (version : Nat) (ev : Evaluator Unit) {p : Script μ} {ops : List (ObjOp μ)}
    {xs : List (Option (LispAnswer μ))} {r : Option Bool} (hp : p.Chooses ops xs r) :
    ∀ (h h1 : LispHeap μ) (log : List (Option (LispAnswer μ))), handledRun w version ev ops h = .ok (xs, h1) →
      p.run w version ev (h, log) = .ok (r, h1, log ++ xs) := by
  induction hp with
  | done r => intro h h1 log e; cases e; simp [Script.run]
  | @call op k x ops xs r hc ih =>
    intro h h1 log e
    unfold handledRun at e
    unfold Script.run
    cases hx : handledStep w version ev op h with
    | ok y =>
      obtain ⟨x', g⟩ := y
      rw [hx] at e
      simp only [Res.ok_bind, Res.pure_eq] at e ⊢
      cases hr : handledRun w version ev ops g with
      | ok z =>
        rw [hr] at e
        cases e
        rw [ih g _ (log ++ [x]) hr]
        simp
      | _ => rw [hr] at e; cases e
    | _ => rw [hx] at e; cases e

/-- And each of them runs one. -/
theorem script_runs (w : World) (version : Nat) (ev : Evaluator Unit) : ∀ (p : Script μ) (h h1 : LispHeap μ)
    (log log1 : List (Option (LispAnswer μ))) (r : Option Bool), p.run w version ev (h, log) = .ok (r, h1, log1) → p.NoFilters →
    ∃ (ops : List (ObjOp μ)) (xs : List (Option (LispAnswer μ))), p.Chooses ops xs r ∧ log1 = log ++ xs ∧
      handledRun w version ev ops h = .ok (xs, h1) := by
  intro p
  induction p with
  | done r => intro h h1 log log1 r e _; cases e; exact ⟨[], [], .done r, by simp, rfl⟩
  | call op k ih =>
    intro h h1 log log1 r e hn
    unfold Script.run at e
    cases hx : handledStep w version ev op h with
    | ok y =>
      obtain ⟨x, g⟩ := y
      rw [hx] at e
      simp only [Res.ok_bind] at e
      obtain ⟨ops, xs, hc, hl, hr⟩ := ih x g h1 _ log1 r e (hn x)
      refine ⟨op :: ops, x :: xs, .call hc, by rw [hl]; simp, ?_⟩
      unfold handledRun
      rw [hx]
      simp only [Res.ok_bind, hr, Res.pure_eq]
    | _ => rw [hx] at e; cases e
  | query => intro h h1 log log1 r _ hn; exact hn.elim

end TraceDB
