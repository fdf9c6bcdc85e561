import Verif.Proofs.Database
import Verif.Spec.Archive
/-
Databases with the same traces answer in the same way.
-/
namespace TraceDB

/-- Same kind of outcome, and related results. -/
def Res.Rel {α β : Type} (R : α → β → Prop) : Res α → Res β → Prop
  | .ok a, .ok b => R a b
  | .throw e, .throw e' => e = e'
  | .abort, .abort => True
  | .ub k, .ub k' => k = k'
  | .hang, .hang => True
  | _, _ => False

theorem Res.Rel.bind {α β γ δ : Type} {R : α → β → Prop} {S : γ → δ → Prop} {x : Res α} {y : Res β} {f : α → Res γ}
    {g : β → Res δ} (h : Res.Rel R x y) (hf : ∀ a b, R a b → Res.Rel S (f a) (g b)) : Res.Rel S (x >>= f) (y >>= g) := by
  cases x <;> cases y <;> simp only [Res.Rel, Res.ok_bind, Res.throw_bind, Res.abort_bind, Res.ub_bind, Res.hang_bind] at h ⊢ <;>
    first | exact hf _ _ h | exact h

theorem Res.Rel.refl {α : Type} {R : α → α → Prop} (hR : ∀ a, R a a) (x : Res α) : Res.Rel R x x := by
  cases x <;> simp [Res.Rel, hR]

theorem Res.Rel.eq {α β γ : Type} {R : α → β → Prop} {x : Res α} {y : Res β} (h : Res.Rel R x y) (f : α → γ) (g : β → γ)
    (hR : ∀ a b, R a b → f a = g b) : (x >>= fun a => Res.ok (f a)) = (y >>= fun b => Res.ok (g b)) := by
  cases x <;> cases y <;> simp only [Res.Rel, Res.ok_bind, Res.throw_bind, Res.abort_bind, Res.ub_bind, Res.hang_bind] at h ⊢
  · rw [hR _ _ h]
  · rw [h]
  · rw [h]

/-- Same traces, correct caches. -/
structure Db.Alike (a b : Db) : Prop where
  traces : a.traces = b.traces
  left : a.Ok
  right : b.Ok

theorem queryTraceApi_alike {σ : Type} (env : Env) (pick : U32 → Nat → Nat) (ev : Evaluator σ) (a b : Db) (h : a.Alike b)
    (i : U64) (q : Query) (keep : Bool) (s : σ) :
    Res.Rel (fun x y => x.1 = y.1 ∧ x.2.1.Alike y.2.1 ∧ x.2.2 = y.2.2)
      (queryTraceApi env pick ev a i q keep s) (queryTraceApi env pick ev b i q keep s) := by
  have ha := h.left.1
  have hb := h.right.1
  unfold queryTraceApi
  by_cases hi : i.toNat < a.traces.length
  · have hi' : i.toNat < b.traces.length := h.traces ▸ hi
    obtain ⟨t, ht⟩ : ∃ t, a.traces[i.toNat]? = some t := ⟨_, List.getElem?_eq_getElem hi⟩
    have ht' : b.traces[i.toNat]? = some t := h.traces ▸ ht
    obtain ⟨c, hc⟩ : ∃ c, a.caches[i.toNat]? = some c := ⟨_, List.getElem?_eq_getElem (ha ▸ hi)⟩
    obtain ⟨c', hc'⟩ : ∃ c, b.caches[i.toNat]? = some c := ⟨_, List.getElem?_eq_getElem (hb ▸ hi')⟩
    have h1 := getPoints_ok t.points c (h.left.2 _ _ _ ht hc) q.mask q.stmt
    have h2 := getPoints_ok t.points c' (h.right.2 _ _ _ ht' hc') q.mask q.stmt
    rw [ht, ht', hc, hc']
    simp only
    unfold queryTrace query
    simp only [Res.pure_eq, Res.bind_assoc, Res.ok_bind, h1.1, h2.1]
    refine Res.Rel.bind (R := Eq) (Res.Rel.refl (fun _ => rfl) _) ?_
    rintro ⟨rs, s1⟩ _ rfl
    have setOk : ∀ (d : Db) (c : PointsCache), d.Ok → d.traces[i.toNat]? = some t → FilterCacheOk t.points c →
        Db.Ok { d with caches := d.caches.set i.toNat c } := by
      intro d c hd ht hc
      refine ⟨by simpa using hd.1, ?_⟩
      intro j u e hu he
      simp only at hu he
      by_cases hj : i.toNat = j
      · subst hj
        rw [List.getElem?_set_self (by rw [hd.1]; exact (List.getElem?_eq_some_iff.mp ht).1)] at he
        cases he
        rw [ht] at hu
        cases hu
        exact hc
      · rw [List.getElem?_set_ne hj] at he
        exact hd.2 _ _ _ hu he
    simp only [Res.Rel]
    exact ⟨trivial, ⟨h.traces, setOk a _ h.left ht h1.2, setOk b _ h.right ht' h2.2⟩, trivial⟩
  · have e1 : a.traces[i.toNat]? = none := List.getElem?_eq_none (by omega)
    have e2 : b.traces[i.toNat]? = none := h.traces ▸ e1
    rw [e1, e2]
    simp [Res.Rel]

theorem Db.Alike.addTrace {a b : Db} (h : a.Alike b) (grow : Nat → Nat) (t : Trace) :
    (a.addTrace grow t).Alike (b.addTrace grow t) :=
  ⟨by rw [addTrace_traces, addTrace_traces, h.traces], addTrace_ok _ _ _ h.left, addTrace_ok _ _ _ h.right⟩

theorem Answer.SameAs.rfl' (a : Answer) : a.SameAs a := by cases a <;> simp [Answer.SameAs]

theorem runCall_alike {σ : Type} (w : World) (ev : Evaluator σ) (a b : Db) (h : a.Alike b) (c : Call) (s : σ) :
    Res.Rel (fun x y => x.1.SameAs y.1 ∧ x.2.1.Alike y.2.1 ∧ x.2.2 = y.2.2) (runCall w ev a s c) (runCall w ev b s c) := by
  cases c with
  | addTrace src k =>
    simp only [runCall, addTraceApi]
    cases src with
    | none => simpa [Res.Rel, Answer.SameAs] using h
    | some st =>
      simp only
      cases readTrace w.env k st with
      | ok t => simpa [Res.Rel, Answer.SameAs] using h.addTrace _ _
      | throw e => simpa [Res.Rel, Answer.SameAs] using h
      | _ => simp [Res.Rel]
  | addTracePoints ps names =>
    simp only [runCall, addTracePointsApi]
    cases traceOfPoints ps names with
    | ok t => simpa [Res.Rel, Answer.SameAs] using h.addTrace _ _
    | _ => simp [Res.Rel]
  | getTrace i =>
    simp only [runCall, getTraceApi, h.traces]
    split
    · exact ⟨rfl, h, rfl⟩
    · exact rfl
  | nTraces => simp [runCall, Res.Rel, nTracesApi, h.traces, Answer.SameAs]; exact h
  | query i q keep =>
    simp only [runCall]
    refine (queryTraceApi_alike w.env w.pick ev a b h i q keep s).bind ?_
    rintro ⟨rs, d, s1⟩ ⟨rs', d', s1'⟩ ⟨h1, h2, h3⟩
    simp only at h1 h2 h3
    subst h1 h3
    exact ⟨rfl, h2, rfl⟩

theorem runCalls_alike {σ : Type} (w : World) (ev : Evaluator σ) (cs : List Call) (a b : Db) (h : a.Alike b) (s : σ) :
    Res.Rel (fun x y => (x.1.length = y.1.length ∧
        ∀ (i : Nat) (p q : Answer), x.1[i]? = some p → y.1[i]? = some q → p.SameAs q) ∧ x.2.1.Alike y.2.1 ∧ x.2.2 = y.2.2)
      (runCalls w ev a s cs) (runCalls w ev b s cs) := by
  induction cs generalizing a b s with
  | nil => exact ⟨⟨rfl, by simp⟩, h, rfl⟩
  | cons c cs ih =>
    simp only [runCalls]
    refine (runCall_alike w ev a b h c s).bind ?_
    rintro ⟨x, d, s1⟩ ⟨x', d', s1'⟩ ⟨h1, h2, h3⟩
    simp only at h1 h2 h3
    subst h3
    refine (ih d d' h2 s1).bind ?_
    rintro ⟨xs, d, s1⟩ ⟨xs', d', s1'⟩ ⟨⟨h4, h5⟩, h6, h7⟩
    simp only at h4 h5 h6 h7
    subst h7
    refine ⟨⟨by simp [h4], ?_⟩, h6, rfl⟩
    intro i p q hp hq
    cases i with
    | zero => simp at hp hq; subst hp hq; exact h1
    | succ i => simp at hp hq; exact h5 i p q hp hq

theorem runCalls_sameEnd {σ : Type} (w : World) (ev : Evaluator σ) (cs : List Call) (a b : Db) (h : a.Alike b) (s : σ) :
    SameEnd (runCalls w ev a s cs) (runCalls w ev b s cs) := by
  have := runCalls_alike w ev cs a b h s
  generalize runCalls w ev a s cs = x at this
  generalize runCalls w ev b s cs = y at this
  cases x <;> cases y <;> simp only [Res.Rel] at this <;> simp only [SameEnd] <;> try exact this
  exact ⟨this.1.1, this.1.2, this.2.1.traces, this.2.2⟩

/-- What a call leaves, for every evaluator. -/
theorem runCall_db {σ : Type} (w : World) (ev : Evaluator σ) (db : Db) (h : db.Ok) (c : Call) (a : Answer) (db' : Db) (s s' : σ)
    (e : runCall w ev db s c = .ok (a, db', s')) :
    db'.Ok ∧ db'.traces = db.traces ++ (c.adds w.env).toList := by
  have hok : db'.Ok := by
    have := runCall_alike w ev db db ⟨rfl, h, h⟩ c s
    rw [e] at this
    exact this.2.1.left
  refine ⟨hok, ?_⟩
  cases c with
  | addTrace src k =>
    simp only [runCall] at e
    obtain ⟨⟨n, d⟩, e1, e2⟩ := Res.bind_eq_ok.mp e
    cases e2
    cases src with
    | none => cases e1; simp [Call.adds]
    | some st =>
      simp only [addTraceApi] at e1
      split at e1
      · rename_i t ht; cases e1; simp [addTrace_traces, Call.adds, ht]
      · rename_i x ht; cases e1; simp [Call.adds, ht]
      all_goals cases e1
  | addTracePoints ps names =>
    simp only [runCall] at e
    obtain ⟨⟨n, d⟩, e1, e2⟩ := Res.bind_eq_ok.mp e
    cases e2
    obtain ⟨t, e3, e4⟩ := Res.bind_eq_ok.mp e1
    cases e4
    simp [addTrace_traces, Call.adds, e3]
  | getTrace i =>
    simp only [runCall] at e
    obtain ⟨p, _, e2⟩ := Res.bind_eq_ok.mp e
    cases e2
    simp [Call.adds]
  | nTraces => cases e; simp [Call.adds]
  | query i q keep =>
    simp only [runCall] at e
    obtain ⟨⟨rs, d, s1⟩, e1, e2⟩ := Res.bind_eq_ok.mp e
    cases e2
    unfold queryTraceApi at e1
    split at e1
    · obtain ⟨⟨rs, c, s2⟩, _, e3⟩ := Res.bind_eq_ok.mp e1
      cases e3
      simp [Call.adds]
    · cases e1

theorem runCalls_db {σ : Type} (w : World) (ev : Evaluator σ) (cs : List Call) (db : Db) (h : db.Ok) (as : List Answer)
    (db' : Db) (s s' : σ) (e : runCalls w ev db s cs = .ok (as, db', s')) :
    db'.Ok ∧ db'.traces = db.traces ++ added w.env cs := by
  induction cs generalizing db as s with
  | nil => cases e; exact ⟨h, by simp [added]⟩
  | cons c cs ih =>
    simp only [runCalls] at e
    obtain ⟨⟨a, d, s1⟩, e1, e2⟩ := Res.bind_eq_ok.mp e
    obtain ⟨⟨as', d', s2⟩, e3, e4⟩ := Res.bind_eq_ok.mp e2
    cases e4
    obtain ⟨h1, h2⟩ := runCall_db w ev db h c a d s s1 e1
    obtain ⟨h3, h4⟩ := ih d h1 as' s1 e3
    refine ⟨h3, ?_⟩
    rw [h4, h2, List.append_assoc]
    congr 1
    simp only [added, List.filterMap_cons]
    cases c.adds w.env <;> simp

end TraceDB
