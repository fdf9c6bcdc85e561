import Verif.Spec.Process
import Verif.Proofs.SameAnswers
import Verif.Proofs.PredicateCache
/-
A process with caches does what its shelves say.
-/
namespace TraceDB

/-- An answer of one database without the address. -/
def Answer.plain : Answer → Answer
  | .ptr p => .ptr ⟨0, p.index⟩
  | a => a

theorem plain_call (a : Answer) : (PAnswer.call a).plain = .call a.plain := by cases a <;> rfl

/-- A query with caches gives the answer without. -/
theorem queryTrace_sim {σ : Type} {fs : FloatSys} {Inv : σ → Prop} {K : Pred → List VarInfo → Prop}
    {ev : Evaluator σ} (hev : EvalSim fs Inv K ev) (env : Env) (pick : U32 → Nat → Nat) (t : Trace) (q : Query) (keep : Bool)
    (c : PointsCache) (s : σ) (hc : FilterCacheOk t.points c) (hs : Inv s) (hK : ∀ p vs, QueryKeys t q p vs → K p vs) :
    Res.Rel (fun x y => x.1 = y.1 ∧ FilterCacheOk t.points x.2.1 ∧ Inv x.2.2)
      (queryTrace env pick ev t q keep c s) (queryTrace env pick (plainEval fs) t q keep [] ()) := by
  have h1 := getPoints_ok t.points c hc q.mask q.stmt
  have h2 := getPoints_ok t.points [] (by intro k ps hk; simp at hk) q.mask q.stmt
  have hpts : ∀ point ∈ filterPoints t.points q.mask q.stmt, point ∈ t.points := by
    intro point hp
    rw [← h2.1] at hp
    simp only [getPoints, List.lookup_nil] at hp
    exact (List.mem_filter.mp hp).1
  have hsim := queryPoints_sim hev (env := env) (pick := pick)
    (points := filterPoints t.points q.mask q.stmt) (variables := q.variables) (hard := q.hard)
    (soft := q.soft) (seed := q.seed) hs (fun point hp p vs hpk => hK p vs ⟨point, hpts point hp, hpk⟩)
  unfold queryTrace query
  simp only [Res.pure_eq, Res.bind_assoc, Res.ok_bind, h1.1, h2.1]
  generalize queryPoints env pick ev _ q.variables q.hard q.soft q.seed s = x at hsim
  generalize queryPoints env pick (plainEval fs) _ q.variables q.hard q.soft q.seed () = y at hsim
  cases x <;> cases y <;> try exact hsim.elim
  · rename_i a b
    obtain ⟨a, s1⟩ := a
    obtain ⟨b, u⟩ := b
    obtain ⟨rfl, hs1⟩ := hsim
    exact ⟨rfl, h1.2, hs1⟩
  all_goals exact hsim

theorem setCache_ok (d : Db) (i : Nat) (t : Trace) (c : PointsCache) (hd : d.Ok) (ht : d.traces[i]? = some t)
    (hc : FilterCacheOk t.points c) : Db.Ok { d with caches := d.caches.set i c } := by
  refine ⟨by simpa using hd.1, ?_⟩
  intro j u e hu he
  simp only at hu he
  by_cases hj : i = j
  · subst hj
    rw [List.getElem?_set_self (by rw [hd.1]; exact (List.getElem?_eq_some_iff.mp ht).1)] at he
    cases he
    rw [ht] at hu
    cases hu
    exact hc
  · rw [List.getElem?_set_ne hj] at he
    exact hd.2 _ _ _ hu he

/-- A call on one database. -/
theorem runCall_sim {σ : Type} {fs : FloatSys} {Inv : σ → Prop} {K : Pred → List VarInfo → Prop}
    {ev : Evaluator σ} (hev : EvalSim fs Inv K ev) (w : World) (db : Db) (hd : db.Ok) (s : σ) (hs : Inv s) (c : Call)
    (hK : ∀ i q keep t, c = .query i q keep → db.traces[i.toNat]? = some t → ∀ p vs, QueryKeys t q p vs → K p vs) :
    Res.Rel (fun x y => x.1.plain = y.1 ∧ x.2.1.traces = y.2 ∧ x.2.1.Ok ∧ Inv x.2.2)
      (runCall w ev db s c) (shelfCall w fs db.traces c) := by
  cases c with
  | addTrace src k =>
    cases src with
    | none => exact ⟨rfl, rfl, hd, hs⟩
    | some st =>
      simp only [runCall, addTraceApi, shelfCall]
      cases readTrace w.env k st with
      | ok t => exact ⟨rfl, addTrace_traces _ _ _, addTrace_ok _ _ _ hd, hs⟩
      | throw e => exact ⟨rfl, rfl, hd, hs⟩
      | abort => trivial
      | ub u => exact rfl
      | hang => trivial
  | addTracePoints ps names =>
    simp only [runCall, addTracePointsApi, shelfCall]
    cases traceOfPoints ps names with
    | ok t => exact ⟨rfl, addTrace_traces _ _ _, addTrace_ok _ _ _ hd, hs⟩
    | throw e => exact rfl
    | abort => trivial
    | ub u => exact rfl
    | hang => trivial
  | getTrace i =>
    simp only [runCall, getTraceApi, shelfCall]
    by_cases hi : i.toNat < db.traces.length
    · rw [if_pos hi, if_pos hi]; exact ⟨rfl, rfl, hd, hs⟩
    · rw [if_neg hi, if_neg hi]; exact rfl
  | nTraces =>
    refine ⟨?_, rfl, hd, hs⟩
    simp [Answer.plain, nTracesApi]
  | query i q keep =>
    simp only [runCall, queryTraceApi, shelfCall]
    cases ht : db.traces[i.toNat]? with
    | none => simp only; trivial
    | some t =>
      obtain ⟨c, hc⟩ : ∃ c, db.caches[i.toNat]? = some c :=
        ⟨_, List.getElem?_eq_getElem (by rw [hd.1]; exact (List.getElem?_eq_some_iff.mp ht).1)⟩
      rw [hc]
      simp only [Res.bind_assoc]
      refine Res.Rel.bind (queryTrace_sim hev w.env w.pick t q keep c s (hd.2 _ _ _ ht hc) hs (hK i q keep t rfl ht)) ?_
      rintro ⟨rs, c', s'⟩ ⟨rs', c'', u⟩ ⟨rfl, h1, h2⟩
      exact ⟨rfl, rfl, setCache_ok db _ t c' hd ht h1, h2⟩

/-- The databases of a process have correct caches, and its state is as it should be. -/
def DbProc.Good {σ : Type} (Inv : σ → Prop) (p : DbProc σ) : Prop :=
  (∀ (d : Nat) (db : Db), p.dbs[d]? = some (some db) → db.Ok) ∧ Inv p.state

theorem shelf_length {σ : Type} (p : DbProc σ) : p.shelf.length = p.dbs.length := by simp [DbProc.shelf]

theorem shelf_get {σ : Type} (p : DbProc σ) (d : Nat) : p.shelf[d]? = p.dbs[d]?.map (·.map Db.traces) := by
  simp [DbProc.shelf]

theorem good_push {σ : Type} {Inv : σ → Prop} {p : DbProc σ} (h : p.Good Inv) (db : Db) (hd : db.Ok) :
    DbProc.Good Inv { p with dbs := p.dbs ++ [some db] } := by
  refine ⟨?_, h.2⟩
  intro d db' hget
  rcases List.mem_append.mp (List.mem_of_getElem? hget) with hm | hm
  · obtain ⟨j, hj⟩ := List.getElem?_of_mem hm
    exact h.1 j db' hj
  · rw [List.mem_singleton] at hm
    cases hm
    exact hd

theorem good_set {σ : Type} {Inv : σ → Prop} {p : DbProc σ} (h : p.Good Inv) (d : Nat) (o : Option Db) (s : σ)
    (hs : Inv s) (hd : ∀ db, o = some db → db.Ok) : DbProc.Good Inv ⟨p.dbs.set d o, s⟩ := by
  refine ⟨?_, hs⟩
  intro e db hget
  simp only [List.getElem?_set] at hget
  split at hget
  · split at hget
    · cases hget; exact hd db rfl
    · cases hget
  · exact h.1 e db hget

theorem deserialize_ok (text : List U8) (db : Db) (h : deserializeDb text = some db) : db.Ok := by
  unfold deserializeDb at h
  simp only [Option.bind_eq_bind, Option.pure_def, Option.bind_eq_some_iff, Option.some.injEq] at h
  obtain ⟨⟨ts, _⟩, _, rfl⟩ := h
  refine ⟨by simp, ?_⟩
  intro i t c _ hc
  simp only [List.getElem?_map, Option.map_eq_some_iff] at hc
  obtain ⟨_, _, rfl⟩ := hc
  intro k ps hk
  simp at hk

/-- One call of a process. -/
theorem procCall_sim {σ : Type} {fs : FloatSys} {Inv : σ → Prop} {K : Pred → List VarInfo → Prop}
    {ev : Evaluator σ} (hev : EvalSim fs Inv K ev) {next : σ → σ} (hnext : ∀ s, Inv s → Inv (next s)) (w : World) (version : Nat)
    (p : DbProc σ) (hp : p.Good Inv) (c : PCall) (hK : ∀ tq ∈ askedBy p.shelf c, ∀ q vs, QueryKeys tq.1 tq.2 q vs → K q vs) :
    Res.Rel (fun x y => x.1.plain = y.1 ∧ x.2.shelf = y.2 ∧ x.2.Good Inv)
      (procCall w ev next version p c) (shelfStep w fs version p.shelf c) := by
  cases c with
  | create =>
    refine ⟨by simp [shelf_length, PAnswer.plain], by simp [DbProc.shelf, Db.create], ?_⟩
    exact good_push hp _ ⟨rfl, by simp [Db.create]⟩
  | free d =>
    simp only [procCall, shelfStep, shelf_get]
    cases hd : p.dbs[d]? with
    | none => exact rfl
    | some o =>
      cases o with
      | none => exact rfl
      | some db =>
        refine ⟨rfl, by simp [DbProc.shelf, List.map_set], ?_⟩
        exact good_set hp d none _ hp.2 (by simp)
  | on d c =>
    simp only [procCall, shelfStep, shelf_get, DbProc.db]
    cases hd : p.dbs[d]? with
    | none => exact rfl
    | some o =>
      cases o with
      | none => exact rfl
      | some db =>
        simp only [Option.map_some, Res.ok_bind]
        refine Res.Rel.bind (runCall_sim hev w db (hp.1 d db hd) p.state hp.2 c ?_) ?_
        · rintro i q keep t rfl ht
          refine hK (t, q) ?_
          simp [askedBy, shelf_get, hd, ht]
        · rintro ⟨a, db', s'⟩ ⟨b, ts⟩ ⟨h1, h2, h3, h4⟩
          simp only at h1 h2 h3 h4
          refine ⟨by simp only; rw [plain_call, h1], by simp [DbProc.shelf, List.map_set, h2], ?_⟩
          refine good_set hp d (some db') _ ?_ (by rintro _ ⟨⟩; exact h3)
          unfold afterCall
          split
          · exact hnext _ h4
          · exact h4
  | store d =>
    simp only [procCall, shelfStep, shelf_get, DbProc.db]
    cases hd : p.dbs[d]? with
    | none => exact rfl
    | some o =>
      cases o with
      | none => exact rfl
      | some db => exact ⟨rfl, rfl, hp⟩
  | load text =>
    simp only [procCall, shelfStep]
    cases hd : deserializeDb text with
    | none => trivial
    | some db =>
      refine ⟨by simp [shelf_length, PAnswer.plain], by simp [DbProc.shelf], ?_⟩
      exact good_push hp _ (deserialize_ok text db hd)

theorem runProc_sim {σ : Type} {fs : FloatSys} {Inv : σ → Prop} {K : Pred → List VarInfo → Prop}
    {ev : Evaluator σ} (hev : EvalSim fs Inv K ev) {next : σ → σ} (hnext : ∀ s, Inv s → Inv (next s)) (w : World) (version : Nat)
    (cs : List PCall) : ∀ (p : DbProc σ), p.Good Inv →
    (∀ tq ∈ asked w fs version p.shelf cs, ∀ q vs, QueryKeys tq.1 tq.2 q vs → K q vs) →
    Res.Rel (fun x y => x.1.map PAnswer.plain = y.1 ∧ x.2.shelf = y.2 ∧ x.2.Good Inv)
      (runProc w ev next version p cs) (runShelf w fs version p.shelf cs) := by
  induction cs with
  | nil => intro p hp _; exact ⟨rfl, rfl, hp⟩
  | cons c cs ih =>
    intro p hp hK
    simp only [asked, List.mem_append] at hK
    have h1 := procCall_sim hev hnext w version p hp c (fun tq h => hK tq (.inl h))
    have hK2 : ∀ x, shelfStep w fs version p.shelf c = .ok x → ∀ tq ∈ asked w fs version x.2 cs, ∀ q vs,
        QueryKeys tq.1 tq.2 q vs → K q vs := by
      intro x hx tq htq
      refine hK tq (.inr ?_)
      rw [hx]
      exact htq
    simp only [runProc, runShelf]
    generalize procCall w ev next version p c = x at h1
    generalize shelfStep w fs version p.shelf c = y at h1 hK2
    cases x <;> cases y <;> try exact h1.elim
    · rename_i a b
      obtain ⟨a, p'⟩ := a
      obtain ⟨b, sh⟩ := b
      obtain ⟨h1, h2, h3⟩ := h1
      simp only at h1 h2 h3
      subst h1 h2
      simp only [Res.ok_bind]
      refine Res.Rel.bind (ih p' h3 (hK2 _ rfl)) ?_
      rintro ⟨as, p2⟩ ⟨bs, sh2⟩ ⟨h4, h5, h6⟩
      simp only at h4 h5 h6
      exact ⟨by simp [h4], h5, h6⟩
    all_goals exact h1

/-! What the shelves hold. -/

theorem runShelf_append (w : World) (fs : FloatSys) (version : Nat) (l m : List PCall) : ∀ sh,
    runShelf w fs version sh (l ++ m) = (runShelf w fs version sh l >>= fun x =>
      runShelf w fs version x.2 m >>= fun y => .ok (x.1 ++ y.1, y.2)) := by
  induction l with
  | nil =>
    intro sh
    simp only [List.nil_append, runShelf, Res.ok_bind]
    cases runShelf w fs version sh m <;> rfl
  | cons c l ih =>
    intro sh
    simp only [List.cons_append, runShelf, Res.bind_assoc, Res.pure_eq, Res.ok_bind]
    cases shelfStep w fs version sh c with
    | ok x =>
      simp only [Res.ok_bind, ih, Res.bind_assoc]
    | _ => rfl

theorem runShelf_length (w : World) (fs : FloatSys) (version : Nat) (l : List PCall) : ∀ sh as sh',
    runShelf w fs version sh l = .ok (as, sh') → as.length = l.length := by
  induction l with
  | nil => intro sh as sh' h; cases h; rfl
  | cons c l ih =>
    intro sh as sh' h
    simp only [runShelf] at h
    obtain ⟨⟨a, sh1⟩, _, h2⟩ := Res.bind_eq_ok.mp h
    obtain ⟨⟨as1, sh2⟩, h3, h4⟩ := Res.bind_eq_ok.mp h2
    cases h4
    simp [ih _ _ _ h3]

/-- A call on a list of traces adds what it should and answers as it should. -/
theorem shelfCall_answers (w : World) (fs : FloatSys) (ts ts' : List Trace) (c : Call) (a : Answer)
    (h : shelfCall w fs ts c = .ok (a, ts')) : ts' = ts ++ (c.adds w.env).toList ∧ Answers w fs ts c a := by
  cases c with
  | addTrace src k =>
    cases src with
    | none => cases h; exact ⟨by simp [Call.adds], by simp [Answers, Call.adds]⟩
    | some s =>
      simp only [shelfCall] at h
      cases hr : readTrace w.env k s with
      | ok t => rw [hr] at h; cases h; exact ⟨by simp [Call.adds, hr], by simp [Answers, Call.adds, hr]⟩
      | throw e => rw [hr] at h; cases h; exact ⟨by simp [Call.adds, hr], by simp [Answers, Call.adds, hr]⟩
      | abort => rw [hr] at h; cases h
      | ub u => rw [hr] at h; cases h
      | hang => rw [hr] at h; cases h
  | addTracePoints ps names =>
    simp only [shelfCall] at h
    obtain ⟨t, h1, h2⟩ := Res.bind_eq_ok.mp h
    cases h2
    exact ⟨by simp [Call.adds, h1], rfl⟩
  | getTrace i =>
    simp only [shelfCall] at h
    split at h
    · rename_i hi
      cases h
      exact ⟨by simp [Call.adds], hi, _, rfl⟩
    · cases h
  | nTraces => cases h; exact ⟨by simp [Call.adds], rfl⟩
  | query i q keep =>
    simp only [shelfCall] at h
    split at h
    · cases h
    · rename_i t ht
      obtain ⟨⟨rs, c, u⟩, h1, h2⟩ := Res.bind_eq_ok.mp h
      cases h2
      exact ⟨by simp [Call.adds], t, rs, c, ht, rfl, h1⟩

/-- The shelves after a run. -/
theorem runShelf_traces (w : World) (fs : FloatSys) (version : Nat) (r : List PCall) : ∀ as sh,
    runShelf w fs version [] r.reverse = .ok (as, sh) →
    sh.length = (madeBy r.reverse).length ∧
    (∀ d ts, sh[d]? = some (some ts) → ts = tracesOf w.env d r.reverse) ∧
    (∀ d, sh[d]? = some none ↔ PCall.free d ∈ r.reverse) ∧
    ∀ d, sh.length ≤ d → callsOn d r.reverse = [] := by
  induction r with
  | nil => intro as sh h; cases h; simp [madeBy, callsOn]
  | cons c r ih =>
    intro as sh h
    rw [List.reverse_cons, runShelf_append] at h
    obtain ⟨⟨as1, sh1⟩, h1, h2⟩ := Res.bind_eq_ok.mp h
    obtain ⟨i1, i2, i3, i4⟩ := ih as1 sh1 h1
    simp only [runShelf, Res.bind_assoc, Res.pure_eq, Res.ok_bind] at h2
    obtain ⟨⟨a, sh2⟩, h3, h4⟩ := Res.bind_eq_ok.mp h2
    simp only [Res.ok_bind] at h4
    cases h4
    rw [List.reverse_cons]
    have hmade : ∀ c, madeBy (r.reverse ++ [c]) = madeBy r.reverse ++ madeBy [c] := fun c => List.filterMap_append
    have hon : ∀ d c, callsOn d (r.reverse ++ [c]) = callsOn d r.reverse ++ callsOn d [c] := fun d c => List.filterMap_append
    have hadd : ∀ l m, added w.env (l ++ m) = added w.env l ++ added w.env m := fun l m => List.filterMap_append
    have push : ∀ (ts : List Trace), madeBy [c] = [ts] → (∀ d, callsOn d [c] = []) → sh = sh1 ++ [some ts] →
        (∀ d, c ≠ .free d) →
        sh.length = (madeBy (r.reverse ++ [c])).length ∧
        (∀ d ts, sh[d]? = some (some ts) → ts = tracesOf w.env d (r.reverse ++ [c])) ∧
        (∀ d, sh[d]? = some none ↔ PCall.free d ∈ r.reverse ++ [c]) ∧
        ∀ d, sh.length ≤ d → callsOn d (r.reverse ++ [c]) = [] := by
      rintro ts hm hc rfl hf
      refine ⟨by simp [hmade, hm, i1], ?_, ?_, ?_⟩
      · intro d ts' hd
        simp only [tracesOf, hmade, hon, hc, hm, List.append_nil]
        by_cases hlt : d < sh1.length
        · rw [List.getElem?_append_left hlt] at hd
          rw [List.getElem?_append_left (by omega)]
          exact i2 d ts' hd
        · have hdl : d = sh1.length := by
            have := (List.getElem?_eq_some_iff.mp hd).1
            simp at this; omega
          subst hdl
          simp only [List.getElem?_concat_length, Option.some.injEq] at hd
          rw [i4 _ (Nat.le_refl _), i1, List.getElem?_concat_length, ← hd]
          simp [added]
      · intro d
        simp only [List.mem_append, List.mem_singleton]
        by_cases hlt : d < sh1.length
        · rw [List.getElem?_append_left hlt, i3]
          exact ⟨.inl, fun h => h.elim id fun h => absurd h.symm (hf d)⟩
        · have hno : PCall.free d ∉ r.reverse := fun h => by
            have := (List.getElem?_eq_some_iff.mp ((i3 d).mpr h)).1
            omega
          constructor
          · intro hd
            have := (List.getElem?_eq_some_iff.mp hd).1
            simp at this
            have hdl : d = sh1.length := by omega
            subst hdl
            simp at hd
          · rintro (h | h)
            · exact absurd h hno
            · exact absurd h.symm (hf d)
      · intro d hd
        simp only [List.length_append, List.length_singleton] at hd
        rw [hon, i4 d (by omega), hc]
        rfl
    cases c with
    | create =>
      cases h3
      exact push [] rfl (fun _ => rfl) rfl (by simp)
    | load text =>
      simp only [shelfStep] at h3
      split at h3
      · rename_i db hdb
        cases h3
        exact push db.traces (by simp [madeBy, hdb]) (fun _ => rfl) rfl (by simp)
      · cases h3
    | free e =>
      simp only [shelfStep] at h3
      split at h3
      · rename_i ts0 he
        cases h3
        have he' := (List.getElem?_eq_some_iff.mp he).1
        refine ⟨by simp [hmade, i1, madeBy], ?_, ?_, ?_⟩
        · intro d ts hd
          simp only [tracesOf, hmade, hon]
          simp only [List.getElem?_set] at hd
          split at hd
          · simp at hd
          · simpa [madeBy, callsOn, tracesOf] using i2 d ts hd
        · intro d
          simp only [List.getElem?_set, List.mem_append, List.mem_singleton, PCall.free.injEq]
          by_cases hed : e = d
          · subst hed; simp [he']
          · rw [if_neg hed, i3]
            exact ⟨.inl, fun h => h.elim id fun h => absurd h.symm hed⟩
        · intro d hd
          rw [List.length_set] at hd
          rw [hon, i4 d hd]; rfl
      · cases h3
    | store e =>
      simp only [shelfStep] at h3
      split at h3
      · cases h3
        refine ⟨by simp [hmade, i1, madeBy], ?_, ?_, ?_⟩
        · intro d ts hd
          simpa [tracesOf, hmade, hon, madeBy, callsOn] using i2 d ts hd
        · intro d; rw [i3]; simp
        · intro d hd
          rw [hon, i4 d hd]; rfl
      · cases h3
      · cases h3
    | on e c =>
      simp only [shelfStep] at h3
      split at h3
      · rename_i ts0 he
        obtain ⟨⟨a', ts1⟩, h5, h6⟩ := Res.bind_eq_ok.mp h3
        cases h6
        obtain ⟨h7, _⟩ := shelfCall_answers w fs ts0 ts1 c a' h5
        have he' := (List.getElem?_eq_some_iff.mp he).1
        refine ⟨by simp [hmade, i1, madeBy], ?_, ?_, ?_⟩
        · intro d ts hd
          simp only [List.getElem?_set] at hd
          split at hd
          · rename_i hed
            subst hed
            simp only [he', if_true, Option.some.injEq] at hd
            subst hd
            rw [h7, i2 e ts0 he]
            have : callsOn e [PCall.on e c] = [c] := by simp [callsOn]
            rw [tracesOf, tracesOf, hmade, hon, this, hadd, List.append_assoc]
            have h8 : madeBy [PCall.on e c] = [] := rfl
            have h9 : added w.env [c] = (c.adds w.env).toList := by
              simp only [added, List.filterMap_cons, List.filterMap_nil]; cases c.adds w.env <;> rfl
            rw [h8, List.append_nil, h9]
          · rename_i hed
            have : callsOn d [PCall.on e c] = [] := by simp [callsOn, hed]
            rw [tracesOf, hmade, hon, this, List.append_nil]
            have h8 : madeBy [PCall.on e c] = [] := rfl
            rw [h8, List.append_nil]
            exact i2 d ts hd
        · intro d
          simp only [List.getElem?_set, List.mem_append, List.mem_singleton]
          by_cases hed : e = d
          · subst hed
            have := i3 e
            rw [he] at this
            simp [he', ← this]
          · rw [if_neg hed, i3]; simp
        · intro d hd
          rw [List.length_set] at hd
          have : callsOn d [PCall.on e c] = [] := by
            have : e ≠ d := by omega
            simp [callsOn, this]
          rw [hon, i4 d hd, this]; rfl
      · cases h3
      · cases h3

/-- What happened at one call of a run. -/
theorem runShelf_at (w : World) (fs : FloatSys) (version : Nat) (calls : List PCall) (as : List PAnswer) (sh : Shelf)
    (h : runShelf w fs version [] calls = .ok (as, sh)) (i : Nat) (c : PCall) (a : PAnswer)
    (hc : calls[i]? = some c) (ha : as[i]? = some a) :
    ∃ as1 sh1 sh2, runShelf w fs version [] (calls.take i) = .ok (as1, sh1) ∧ shelfStep w fs version sh1 c = .ok (a, sh2) := by
  obtain ⟨hi, hget⟩ := List.getElem?_eq_some_iff.mp hc
  have hsplit : calls = calls.take i ++ c :: calls.drop (i + 1) := by
    rw [← hget, ← List.drop_eq_getElem_cons hi, List.take_append_drop]
  rw [hsplit, runShelf_append] at h
  obtain ⟨⟨as1, sh1⟩, h1, h2⟩ := Res.bind_eq_ok.mp h
  obtain ⟨⟨as2, sh2⟩, h3, h4⟩ := Res.bind_eq_ok.mp h2
  simp only [runShelf] at h3
  obtain ⟨⟨a', sh3⟩, h5, h6⟩ := Res.bind_eq_ok.mp h3
  obtain ⟨⟨as3, sh4⟩, h7, h8⟩ := Res.bind_eq_ok.mp h6
  cases h8
  cases h4
  have hl := runShelf_length w fs version _ _ _ _ h1
  rw [List.length_take, Nat.min_eq_left (by omega)] at hl
  have : a' = a := by
    simp only at ha
    rw [List.getElem?_append_right (by omega), hl, Nat.sub_self] at ha
    simpa using ha
  subst this
  exact ⟨as1, sh1, sh3, h1, h5⟩

end TraceDB
