import Verif.Spec.LispObjects
import Verif.Proofs.LispDb
import Verif.Proofs.SameAnswers
import Verif.Proofs.ArchiveDb
import Verif.Spec.Runtime
/-
Helper lemmas about databases as Lisp objects.
-/
namespace TraceDB

variable {μ σ : Type}

/-- Heap and specification describe the same traces and objects. -/
structure HeapInv (h : LispHeap μ) (S : SpecHeap μ) : Prop where
  objs : h.objs.map (fun o => (o.db, o.view.map (·.2))) = S.objs
  traces : h.dbs.map (·.traces) = S.dbs.map fun l => l.map (·.1)
  ok : ∀ db ∈ h.dbs, db.Ok
  range : ∀ o ∈ h.objs, o.db < h.dbs.length

/-- Wrappers have no metadata of their own, and databases that of their traces. -/
structure MetaInv (h : LispHeap μ) (S : SpecHeap μ) : Prop where
  view : ∀ (i : Nat) (o : LispObj μ) (p f : Nat), h.objs[i]? = some o → o.view = some (p, f) →
    p < i ∧ o.slot = [] ∧ ∃ o', h.objs[p]? = some o' ∧ o'.db = o.db
  base : ∀ (i : Nat) (o : LispObj μ), h.objs[i]? = some o → o.view = none →
    ∃ l : List (Trace × μ), S.dbs[o.db]? = some l ∧ o.slot = l.map (·.2)
  once : ∀ (i j : Nat) (o o' : LispObj μ), h.objs[i]? = some o → h.objs[j]? = some o' → o.view = none → o'.view = none →
    o.db = o'.db → i = j

/-- The traces can be stored. -/
def SpecHeap.Good (S : SpecHeap μ) : Prop :=
  ∀ l ∈ S.dbs, ∀ x ∈ l, x.1.NulFree ∧ ∀ p ∈ x.1.points, ∀ v ∈ p.vars, v.Sized

theorem HeapInv.obj {h : LispHeap μ} {S : SpecHeap μ} (H : HeapInv h S) (i : Nat) :
    S.objs[i]? = h.objs[i]?.map fun o => (o.db, o.view.map (·.2)) := by
  rw [← H.objs, List.getElem?_map]

theorem HeapInv.length {h : LispHeap μ} {S : SpecHeap μ} (H : HeapInv h S) : S.objs.length = h.objs.length := by
  rw [← H.objs, List.length_map]

theorem HeapInv.dbs_length {h : LispHeap μ} {S : SpecHeap μ} (H : HeapInv h S) : S.dbs.length = h.dbs.length := by
  have := congrArg List.length H.traces
  simpa using this.symm

/-- The database of an object. -/
theorem HeapInv.db {h : LispHeap μ} {S : SpecHeap μ} (H : HeapInv h S) {i : Nat} {o : LispObj μ} (ho : h.objs[i]? = some o) :
    ∃ (db : Db) (l : List (Trace × μ)), h.dbs[o.db]? = some db ∧ S.dbs[o.db]? = some l ∧ db.traces = l.map (·.1) ∧ db.Ok := by
  have hr := H.range o (List.mem_of_getElem? ho)
  have h1 := List.getElem?_eq_getElem hr
  have hr' : o.db < S.dbs.length := by rw [H.dbs_length]; exact hr
  have h2 := List.getElem?_eq_getElem hr'
  refine ⟨_, _, h1, h2, ?_, H.ok _ (List.getElem_mem hr)⟩
  have := congrArg (fun l => l[o.db]?) H.traces
  simp only [List.getElem?_map, h1, h2, Option.map_some, Option.some.injEq] at this
  exact this

theorem metadataFrom_spec {h : LispHeap μ} {S : SpecHeap μ} (M : MetaInv h S) :
    ∀ (n i : Nat) (o : LispObj μ), i < n → h.objs[i]? = some o →
      ∃ l : List (Trace × μ), S.dbs[o.db]? = some l ∧ metadataFrom h.objs n i = l.map (·.2) := by
  intro n
  induction n with
  | zero => intro i o hi; omega
  | succ n ih =>
    intro i o hi ho
    simp only [metadataFrom, ho]
    cases hv : o.view with
    | none =>
      obtain ⟨l, hl, hs⟩ := M.base i o ho hv
      exact ⟨l, hl, hs⟩
    | some pf =>
      obtain ⟨p, f⟩ := pf
      obtain ⟨hp, hs, o', ho', hd⟩ := M.view i o p f ho hv
      simp only [hs, List.isEmpty_nil, if_true]
      obtain ⟨l, hl, hm⟩ := ih p o' (by omega) ho'
      exact ⟨l, hd ▸ hl, hm⟩

theorem MetaInv.metadata {h : LispHeap μ} {S : SpecHeap μ} (M : MetaInv h S) {i : Nat} {o : LispObj μ}
    (ho : h.objs[i]? = some o) :
    ∃ l : List (Trace × μ), S.dbs[o.db]? = some l ∧ h.metadata i = l.map (·.2) :=
  metadataFrom_spec M _ i o (List.getElem?_eq_some_iff.mp ho).1 ho

theorem lispQuery_cache (w : World) (ev : Evaluator σ) (t : Trace) (q : LQuery) (c : PointsCache)
    (hc : FilterCacheOk t.points c) (s : σ) :
    Res.Rel (fun x y => x.1 = y.1 ∧ FilterCacheOk t.points x.2.1 ∧ x.2.2 = y.2.2)
      (lispQuery w.env w.pick ev t q c s) (lispQuery w.env w.pick ev t q [] s) := by
  unfold lispQuery
  refine Res.Rel.bind (R := Eq) (Res.Rel.refl (fun _ => rfl) _) ?_
  rintro types _ rfl
  refine Res.Rel.bind (R := Eq) (Res.Rel.refl (fun _ => rfl) _) ?_
  rintro fvs _ rfl
  refine Res.Rel.bind (R := Eq) (Res.Rel.refl (fun _ => rfl) _) ?_
  rintro ⟨mask, stmt⟩ _ rfl
  have h1 := getPoints_ok t.points c hc mask stmt
  have h2 := getPoints_ok t.points [] (fun k ps hk => by simp at hk) mask stmt
  refine Res.Rel.bind (R := fun x y => x.1 = y.1 ∧ FilterCacheOk t.points x.2.1 ∧ x.2.2 = y.2.2) ?_ ?_
  · unfold queryTrace query
    simp only [Res.pure_eq, Res.bind_assoc, Res.ok_bind, h1.1, h2.1]
    refine Res.Rel.bind (R := Eq) (Res.Rel.refl (fun _ => rfl) _) ?_
    rintro ⟨rs, s1⟩ _ rfl
    simp only [Res.Rel]
    exact ⟨trivial, h1.2, trivial⟩
  · rintro ⟨rs, c1, s1⟩ ⟨rs', c2, s2⟩ ⟨e1, e2, e3⟩
    simp only at e1 e2 e3
    subst e1 e3
    refine Res.Rel.bind (R := Eq) (Res.Rel.refl (fun _ => rfl) _) ?_
    rintro ps _ rfl
    cases q.filter <;> simp only [Res.pure_eq, Res.Rel] <;> exact ⟨trivial, e2, trivial⟩

/-! Growth -/

/-- Databases only grow. -/
theorem step_grows (env : Env) (S : SpecHeap μ) (op : ObjOp μ) :
    ∀ (d : Nat) (l : List (Trace × μ)), S.dbs[d]? = some l → ∃ l', (S.step env op).dbs[d]? = some (l ++ l') := by
  intro d l hl
  have hd := (List.getElem?_eq_some_iff.mp hl).1
  have app : ∀ y : List (Trace × μ), (S.dbs ++ [y])[d]? = some (l ++ []) := by
    intro y
    rw [List.getElem?_append_left hd, hl, List.append_nil]
  cases op with
  | create => exact ⟨[], app _⟩
  | restrict i f =>
    simp only [SpecHeap.step]
    split <;> exact ⟨[], by rw [List.append_nil]; exact hl⟩
  | add i a =>
    simp only [SpecHeap.step]
    split
    · rename_i o _
      simp only [List.getElem?_modify]
      by_cases ho : o.1 = d
      · exact ⟨storedWith env [a], by simp [ho, hl]⟩
      · exact ⟨[], by simp [ho, hl]⟩
    · exact ⟨[], by rw [List.append_nil]; exact hl⟩
  | get i idx file => exact ⟨[], by rw [List.append_nil]; exact hl⟩
  | query i idx q => exact ⟨[], by rw [List.append_nil]; exact hl⟩
  | copy i =>
    simp only [SpecHeap.step]
    split
    · exact ⟨[], app _⟩
    · exact ⟨[], by rw [List.append_nil]; exact hl⟩

theorem small_of_step {env : Env} {S : SpecHeap μ} {op : ObjOp μ} (h : (S.step env op).Small) : S.Small := by
  have key : ∀ l ∈ S.dbs, ∃ l', l ++ l' ∈ (S.step env op).dbs := by
    intro l hl
    obtain ⟨d, hd⟩ := List.getElem?_of_mem hl
    obtain ⟨l', h'⟩ := step_grows env S op d l hd
    exact ⟨l', List.mem_of_getElem? h'⟩
  refine ⟨fun l hl => ?_, fun l hl => ?_, fun l hl x hx => ?_⟩ <;> obtain ⟨l', hm⟩ := key l hl
  · have := h.traces _ hm
    rw [List.length_append] at this
    omega
  · have := h.points _ hm
    rw [List.map_append, List.sum_append] at this
    omega
  · exact h.each _ hm x (by simp [hx])

theorem small_of_after {env : Env} : ∀ {ops : List (ObjOp μ)} {S : SpecHeap μ}, (S.after env ops).Small → S.Small
  | [], _, h => h
  | _ :: ops, _, h => small_of_step (small_of_after (ops := ops) h)

/-- Objects only become more. -/
theorem step_objs (env : Env) (S : SpecHeap μ) (op : ObjOp μ) : ∃ more, (S.step env op).objs = S.objs ++ more := by
  cases op with
  | create => exact ⟨_, rfl⟩
  | restrict i f =>
    simp only [SpecHeap.step]
    split
    · exact ⟨_, rfl⟩
    · exact ⟨[], by simp⟩
  | add i a =>
    simp only [SpecHeap.step]
    split <;> exact ⟨[], by simp⟩
  | get i idx file => exact ⟨[], by simp [SpecHeap.step]⟩
  | query i idx q => exact ⟨[], by simp [SpecHeap.step]⟩
  | copy i =>
    simp only [SpecHeap.step]
    split
    · exact ⟨_, rfl⟩
    · exact ⟨[], by simp⟩

theorem after_objs (env : Env) : ∀ (ops : List (ObjOp μ)) (S : SpecHeap μ), ∃ more, (S.after env ops).objs = S.objs ++ more
  | [], S => ⟨[], by simp [SpecHeap.after]⟩
  | op :: ops, S => by
    obtain ⟨a, ha⟩ := step_objs env S op
    obtain ⟨b, hb⟩ := after_objs env ops (S.step env op)
    exact ⟨a ++ b, by rw [show S.after env (op :: ops) = (S.step env op).after env ops from rfl, hb, ha, List.append_assoc]⟩

theorem stores_good {env : Env} {a : LispAdd μ} (hn : (ObjOp.add 0 a).NamesNulFree) :
    ∀ x ∈ storedWith env [a], x.1.NulFree ∧ ∀ p ∈ x.1.points, ∀ v ∈ p.vars, v.Sized := by
  intro x hx
  simp only [storedWith, List.mem_filterMap, List.mem_cons, List.not_mem_nil, or_false] at hx
  obtain ⟨a', rfl, hx⟩ := hx
  obtain ⟨t, ht, rfl⟩ := Option.map_eq_some_iff.mp hx
  cases a' with
  | trace src k m =>
    cases src with
    | none => cases ht
    | some st =>
      have := added_good env [.addTrace (some st) k] (by simp [Call.NamesNulFree])
      simp only [LispAdd.stores] at ht
      split at ht
      · rename_i t' ht'
        cases ht
        exact this t (by simp [added, Call.adds, ht'])
      · cases ht
  | points ps names m =>
    have := added_good env [.addTracePoints ps names] (by simpa [Call.NamesNulFree, ObjOp.NamesNulFree] using hn)
    simp only [LispAdd.stores] at ht
    split at ht
    · rename_i t' ht'
      cases ht
      exact this t (by simp [added, Call.adds, ht'])
    · cases ht

theorem good_step {env : Env} {S : SpecHeap μ} {op : ObjOp μ} (h : S.Good) (hn : op.NamesNulFree) : (S.step env op).Good := by
  intro l hl
  cases op with
  | create =>
    rcases List.mem_append.mp hl with hl | hl
    · exact h l hl
    · simp at hl; subst hl; simp
  | restrict i f =>
    simp only [SpecHeap.step] at hl
    split at hl <;> exact h l hl
  | add i a =>
    simp only [SpecHeap.step] at hl
    split at hl
    · rename_i o _
      obtain ⟨d, hd⟩ := List.getElem?_of_mem hl
      simp only [List.getElem?_modify] at hd
      obtain ⟨l0, hl0, he⟩ := Option.map_eq_some_iff.mp hd
      have hg := h l0 (List.mem_of_getElem? hl0)
      split at he
      · subst he
        intro x hx
        rcases List.mem_append.mp hx with hx | hx
        · exact hg x hx
        · exact stores_good (a := a) (by cases a <;> simpa [ObjOp.NamesNulFree] using hn) x hx
      · subst he; exact hg
    · exact h l hl
  | get i idx file => exact h l hl
  | query i idx q => exact h l hl
  | copy i =>
    simp only [SpecHeap.step] at hl
    split at hl
    · rename_i d _
      rcases List.mem_append.mp hl with hl | hl
      · exact h l hl
      · simp only [List.mem_cons, List.not_mem_nil, or_false] at hl
        subst hl
        cases hd : S.dbs[d]? with
        | none => simp
        | some l0 => exact h l0 (List.mem_of_getElem? hd)
    · exact h l hl

/-! One step -/

theorem set_same {α : Type} {l : List α} {i : Nat} {x : α} (h : l[i]? = some x) : l.set i x = l := by
  apply List.ext_getElem?
  intro j
  by_cases hj : i = j
  · subst hj
    rw [List.getElem?_set_self (List.getElem?_eq_some_iff.mp h).1, h]
  · rw [List.getElem?_set_ne hj]

/-- Another database at the place of an object's, with the same or more traces. -/
theorem HeapInv.setDb {h : LispHeap μ} {S : SpecHeap μ} (H : HeapInv h S) {d : Nat} {l l' : List (Trace × μ)} {db' : Db}
    (hl : S.dbs[d]? = some l) (hok : db'.Ok) (ht : db'.traces = (l ++ l').map (·.1)) :
    HeapInv ⟨h.dbs.set d db', h.objs⟩ { S with dbs := S.dbs.modify d (· ++ l') } := by
  refine ⟨H.objs, ?_, ?_, ?_⟩
  · apply List.ext_getElem?
    intro j
    have hj := congrArg (fun l => l[j]?) H.traces
    simp only [List.getElem?_map] at hj
    simp only [List.getElem?_map, List.getElem?_modify, List.getElem?_set]
    by_cases e : d = j
    · subst e
      rw [hl] at hj
      have hlt : d < h.dbs.length := by
        rw [← H.dbs_length]; exact (List.getElem?_eq_some_iff.mp hl).1
      simp only [hlt, if_true, Option.map_some, hl, ht]
      rfl
    · simp only [e, if_false, hj]
      cases S.dbs[j]? <;> rfl
  · intro x hx
    rcases List.mem_or_eq_of_mem_set hx with hx | rfl
    · exact H.ok x hx
    · exact hok
  · intro o ho
    simp only [List.length_set]
    exact H.range o ho

theorem HeapInv.setSlot {h : LispHeap μ} {S : SpecHeap μ} (H : HeapInv h S) {i : Nat} {o : LispObj μ}
    (ho : h.objs[i]? = some o) (slot : List μ) : HeapInv ⟨h.dbs, h.objs.set i { o with slot := slot }⟩ S := by
  refine ⟨?_, H.traces, H.ok, ?_⟩
  · rw [← H.objs]
    apply List.ext_getElem?
    intro j
    simp only [List.getElem?_map, List.getElem?_set]
    by_cases e : i = j
    · subst e
      simp only [(List.getElem?_eq_some_iff.mp ho).1, if_true, ho, Option.map_some]
    · simp only [e, if_false]
  · intro x hx
    rcases List.mem_or_eq_of_mem_set hx with hx | rfl
    · exact H.range x hx
    · exact H.range o (List.mem_of_getElem? ho)

theorem modify_nil {α : Type} (L : List (List α)) (d : Nat) : L.modify d (· ++ []) = L := by
  apply List.ext_getElem?
  intro j
  rw [List.getElem?_modify]
  cases L[j]? <;> simp

theorem HeapInv.find {h : LispHeap μ} {S : SpecHeap μ} (H : HeapInv h S) (hs : S.Small) {i : Nat} {o : LispObj μ} {db : Db}
    (ho : h.objs[i]? = some o) (hdb : h.dbs[o.db]? = some db) (idx : Nat) :
    (idx < (nTracesApi db).toNat ∧ ∃ (t : Trace) (m : μ) (c : PointsCache) (l : List (Trace × μ)), db.traces[idx]? = some t ∧
      db.caches[idx]? = some c ∧ FilterCacheOk t.points c ∧ S.dbs[o.db]? = some l ∧ l[idx]? = some (t, m) ∧
      S.find i idx = some (t, m, o.view.map (·.2))) ∨
    (¬ idx < (nTracesApi db).toNat ∧ S.find i idx = none) := by
  obtain ⟨db', l, h1, h2, h3, h4⟩ := H.db ho
  rw [hdb, Option.some.injEq] at h1
  subst h1
  have hn : (nTracesApi db).toNat = l.length := by
    have h32 := hs.traces l (List.mem_of_getElem? h2)
    rw [nTracesApi, BitVec.toNat_ofNat, h3, List.length_map, Nat.mod_eq_of_lt h32]
  have hobj : S.objs[i]? = some (o.db, o.view.map (·.2)) := by rw [H.obj, ho]; rfl
  rw [hn]
  by_cases hlt : idx < l.length
  · left
    have hl := List.getElem?_eq_getElem hlt
    have ht : db.traces[idx]? = some l[idx].1 := by rw [h3, List.getElem?_map, hl]; rfl
    have hcl : idx < db.caches.length := by rw [h4.1, h3, List.length_map]; exact hlt
    have hc := List.getElem?_eq_getElem hcl
    refine ⟨hlt, l[idx].1, l[idx].2, _, l, ht, hc, h4.2 _ _ _ ht hc, h2, hl, ?_⟩
    simp only [SpecHeap.find, hobj, h2, hl, Option.map_some]
  · right
    refine ⟨hlt, ?_⟩
    simp only [SpecHeap.find, hobj, h2, List.getElem?_eq_none (Nat.le_of_not_lt hlt), Option.map_none]

theorem dbOk_create : Db.create.Ok := ⟨rfl, by simp [Db.create]⟩

/-- What the C interface does for an addition. -/
theorem addTraceApi_cases (grow : Nat → Nat) (env : Env) (db : Db) (hok : db.Ok) (src : Source) (k : U64) (m : μ) (n : Nat)
    (db' : Db) (h : addTraceApi grow env db src k = .ok (n, db')) :
    db'.Ok ∧ db'.traces = db.traces ++ (storedWith env [.trace src k m]).map (·.1) ∧
    ((n = 0 ∧ db' = db ∧ storedWith env [.trace src k m] = [] ∧
        (src = none ∨ ∃ st e, src = some st ∧ readTrace env k st = .throw e)) ∨
      (n = 1 ∧ ∃ st t, src = some st ∧ readTrace env k st = .ok t ∧ storedWith env [.trace src k m] = [(t, m)])) := by
  cases src with
  | none =>
    cases h
    exact ⟨hok, by simp [storedWith, LispAdd.stores], .inl ⟨rfl, rfl, by simp [storedWith, LispAdd.stores], .inl rfl⟩⟩
  | some st =>
    simp only [addTraceApi] at h
    split at h
    · rename_i t ht
      cases h
      have hs : storedWith env [LispAdd.trace (some st) k m] = [(t, m)] := by
        simp [storedWith, LispAdd.stores, ht, LispAdd.meta]
      exact ⟨addTrace_ok _ _ _ hok, by rw [addTrace_traces, hs]; rfl, .inr ⟨rfl, st, t, rfl, ht, hs⟩⟩
    · rename_i e ht
      cases h
      have hs : storedWith env [LispAdd.trace (some st) k m] = [] := by
        simp [storedWith, LispAdd.stores, ht]
      exact ⟨hok, by rw [hs]; simp, .inl ⟨rfl, rfl, hs, .inr ⟨st, e, rfl, ht⟩⟩⟩
    all_goals cases h

theorem addTracePointsApi_cases (grow : Nat → Nat) (env : Env) (db : Db) (hok : db.Ok) (ps : List InPoint) (names : List Name)
    (m : μ) (n : Nat) (db' : Db) (h : addTracePointsApi grow db ps names = .ok (n, db')) :
    db'.Ok ∧ ∃ t, traceOfPoints ps names = .ok t ∧ storedWith env [.points ps names m] = [(t, m)] ∧
      db'.traces = db.traces ++ [t] := by
  simp only [addTracePointsApi] at h
  obtain ⟨t, ht, h⟩ := Res.bind_eq_ok.mp h
  cases h
  exact ⟨addTrace_ok _ _ _ hok, t, ht, by simp [storedWith, LispAdd.stores, ht, LispAdd.meta], addTrace_traces _ _ _⟩

/-- **Traces.**  A step that returns does what it should, apart from metadata. -/
theorem lispStep_points {w : World} {version : Nat} (hv : version < 2 ^ 32) {ev : Evaluator σ} {h h' : LispHeap μ}
    {S : SpecHeap μ} (H : HeapInv h S) (G : S.Good) (hs : S.Small) {s s' : σ} {op : ObjOp μ} {x : LispAnswer μ}
    (e : lispStep w version ev h s op = .ok (x, h', s')) :
    HeapInv h' (S.step w.env op) ∧ ∃ x', S.answer w ev s op = .ok (x', s') ∧ x.SamePoints x' := by
  cases op with
  | create =>
    cases e
    refine ⟨⟨?_, ?_, ?_, ?_⟩, _, rfl, H.length.symm⟩
    · simp only [SpecHeap.step, List.map_append, List.map_cons, List.map_nil, H.objs, H.dbs_length, Option.map_none]
    · simp only [SpecHeap.step, List.map_append, List.map_cons, List.map_nil, H.traces]
      rfl
    · intro db hdb
      rcases List.mem_append.mp hdb with hdb | hdb
      · exact H.ok db hdb
      · simp at hdb; subst hdb; exact dbOk_create
    · intro o ho
      simp only [List.length_append, List.length_cons, List.length_nil]
      rcases List.mem_append.mp ho with ho | ho
      · have := H.range o ho; omega
      · simp at ho; subst ho; simp
  | restrict i f =>
    simp only [lispStep] at e
    split at e
    · cases e
    · rename_i o ho
      cases e
      have hobj : S.objs[i]? = some (o.db, o.view.map (·.2)) := by rw [H.obj, ho]; rfl
      have hi : i < S.objs.length := (List.getElem?_eq_some_iff.mp hobj).1
      refine ⟨?_, .object S.objs.length, by simp only [SpecHeap.answer, if_pos hi], H.length.symm⟩
      simp only [SpecHeap.step, hobj]
      refine ⟨?_, H.traces, H.ok, ?_⟩
      · simp only [List.map_append, List.map_cons, List.map_nil, H.objs, Option.map_some]
      · intro o' ho'
        rcases List.mem_append.mp ho' with ho' | ho'
        · exact H.range o' ho'
        · simp at ho'; subst ho'; exact H.range o (List.mem_of_getElem? ho)
  | add i a =>
    simp only [lispStep] at e
    split at e
    · cases e
    · rename_i o ho
      obtain ⟨db, l, h1, h2, h3, h4⟩ := H.db ho
      have hobj : S.objs[i]? = some (o.db, o.view.map (·.2)) := by rw [H.obj, ho]; rfl
      have hi : i < S.objs.length := (List.getElem?_eq_some_iff.mp hobj).1
      rw [h1] at e
      simp only at e
      obtain ⟨⟨x1, h1'⟩, e1, e2⟩ := Res.bind_eq_ok.mp e
      cases e2
      simp only [SpecHeap.step, hobj]
      cases a with
      | trace src k m =>
        simp only [LispHeap.add] at e1
        obtain ⟨⟨n, db'⟩, e2, e3⟩ := Res.bind_eq_ok.mp e1
        obtain ⟨c1, c2, c3⟩ := addTraceApi_cases w.grow w.env db h4 src k m n db' e2
        have K := H.setDb (l' := storedWith w.env [.trace src k m]) h2 c1 (by rw [c2, h3, List.map_append])
        simp only at e3
        rcases c3 with ⟨rfl, _, _, c4⟩ | ⟨rfl, st, t, rfl, c4, _⟩
        · cases e3
          refine ⟨K, .nil, ?_, trivial⟩
          simp only [SpecHeap.answer, if_pos hi]
          rcases c4 with rfl | ⟨st, e, rfl, c4⟩
          · rfl
          · simp only [c4]
        · cases e3
          refine ⟨K.setSlot (i := i) (o := o) ho _, .done, ?_, trivial⟩
          simp only [SpecHeap.answer, if_pos hi, c4]
      | points ps names m =>
        simp only [LispHeap.add] at e1
        obtain ⟨⟨n, db'⟩, e2, e3⟩ := Res.bind_eq_ok.mp e1
        obtain ⟨c1, t, c2, c3, c4⟩ := addTracePointsApi_cases w.grow w.env db h4 ps names m n db' e2
        have K := H.setDb (l' := storedWith w.env [.points ps names m]) h2 c1 (by rw [c4, c3, h3, List.map_append]; rfl)
        cases e3
        refine ⟨K.setSlot (i := i) (o := o) ho _, .done, ?_, trivial⟩
        simp only [SpecHeap.answer, if_pos hi, c2, Res.ok_bind]
  | get i idx file =>
    simp only [lispStep] at e
    split at e
    · cases e
    · rename_i o ho
      obtain ⟨db, l, h1, h2, h3, h4⟩ := H.db ho
      rw [h1] at e
      simp only at e
      obtain ⟨x1, e1, e2⟩ := Res.bind_eq_ok.mp e
      cases e2
      refine ⟨H, ?_⟩
      simp only [LispHeap.get] at e1
      rcases H.find hs ho h1 idx with ⟨f1, t, m, c, l, f2, f3, f4, f5, f6, f7⟩ | ⟨f1, f2⟩
      · rw [if_pos f1, f2] at e1
        simp only at e1
        obtain ⟨ps, e3, e4⟩ := Res.bind_eq_ok.mp e1
        split at e4
        · cases e4
          refine ⟨.trace ps m, ?_, rfl⟩
          simp only [SpecHeap.answer, f7]
          rw [show lispGetTrace t (file.or (o.view.map (·.2))) = .ok ps from e3]
          rfl
        · cases e4
      · rw [if_neg f1] at e1; cases e1
  | query i idx q =>
    simp only [lispStep] at e
    split at e
    · cases e
    · rename_i o ho
      obtain ⟨db, l, h1, h2, h3, h4⟩ := H.db ho
      rw [h1] at e
      simp only [LispHeap.query] at e
      rcases H.find hs ho h1 idx with ⟨f1, t, m, c, l, f2, f3, f4, f5, f6, f7⟩ | ⟨f1, f2⟩
      · rw [if_pos f1, f2, f3] at e
        simp only at e
        obtain ⟨⟨ps, c', s1⟩, e1, e2⟩ := Res.bind_eq_ok.mp e
        cases e2
        have hq := lispQuery_cache w ev t { q with file := fileInForce q.file o } c f4 s
        rw [e1] at hq
        cases hq' : lispQuery w.env w.pick ev t { q with file := fileInForce q.file o } [] s with
        | ok y =>
          obtain ⟨ps', c'', s2⟩ := y
          rw [hq'] at hq
          simp only [Res.Rel] at hq
          obtain ⟨rfl, q2, rfl⟩ := hq
          refine ⟨?_, .results ps (some m), ?_, rfl⟩
          · have K := H.setDb (d := o.db) (l' := []) (db' := { db with caches := db.caches.set idx c' }) f5 (by
              refine ⟨by simpa using h4.1, ?_⟩
              intro j u e hu he
              simp only at hu he
              by_cases hj : idx = j
              · subst hj
                rw [List.getElem?_set_self (List.getElem?_eq_some_iff.mp f3).1] at he
                cases he
                rw [f2] at hu
                cases hu
                exact q2
              · rw [List.getElem?_set_ne hj] at he
                exact h4.2 _ _ _ hu he) (by
              have : l = _ := rfl
              rw [List.append_nil]
              rw [h2, Option.some.injEq] at f5
              rw [← f5]
              exact h3)
            rw [modify_nil] at K
            exact K
          · simp only [SpecHeap.answer, f7]
            rw [show lispQuery w.env w.pick ev t { q with file := q.file.or (o.view.map (·.2)) } [] s = _ from hq']
            rfl
        | throw y => rw [hq'] at hq; exact hq.elim
        | abort => rw [hq'] at hq; exact hq.elim
        | ub y => rw [hq'] at hq; exact hq.elim
        | hang => rw [hq'] at hq; exact hq.elim
      · rw [if_neg f1] at e; cases e
  | copy i =>
    simp only [lispStep] at e
    split at e
    · cases e
    · rename_i o ho
      have hobj : S.objs[i]? = some (o.db, o.view.map (·.2)) := by rw [H.obj, ho]; rfl
      cases hw : o.view with
      | some pf =>
        rw [hw] at e hobj
        cases e
        simp only [Option.map_some] at hobj
        refine ⟨?_, .nil, ?_, trivial⟩
        · simp only [SpecHeap.step, hobj]; exact H
        · simp only [SpecHeap.answer, hobj]
      | none =>
        rw [hw] at e hobj
        simp only [Option.map_none] at hobj
        obtain ⟨db, l, h1, h2, h3, h4⟩ := H.db ho
        rw [h1] at e
        have hl := List.mem_of_getElem? h2
        have ed := deserialize_serialize version hv db
          (fun t ht => by
            rw [h3] at ht
            obtain ⟨x, hx, rfl⟩ := List.mem_map.mp ht
            exact (hs.each l hl x hx).fits (G l hl x hx).2)
          (fun t ht => by
            rw [h3] at ht
            obtain ⟨x, hx, rfl⟩ := List.mem_map.mp ht
            exact (G l hl x hx).1)
          (by rw [h3, List.length_map]; have := hs.traces l hl; omega)
          (by rw [h3, List.map_map]; exact hs.points l hl)
        simp only [ed, Option.isSome_none, Bool.false_eq_true, if_false] at e
        cases e
        refine ⟨?_, .object S.objs.length, ?_, H.length.symm⟩
        · simp only [SpecHeap.step, hobj]
          refine ⟨?_, ?_, ?_, ?_⟩
          · simp only [List.map_append, List.map_cons, List.map_nil, H.objs, H.dbs_length, Option.map_none]
          · simp only [List.map_append, List.map_cons, List.map_nil, H.traces, h2, Option.getD_some, h3]
          · intro db' hdb
            rcases List.mem_append.mp hdb with hdb | hdb
            · exact H.ok db' hdb
            · simp only [List.mem_cons, List.not_mem_nil, or_false] at hdb
              subst hdb
              refine ⟨by simp, ?_⟩
              intro j t c hj hc
              simp only [List.getElem?_map] at hc
              obtain ⟨_, _, rfl⟩ := Option.map_eq_some_iff.mp hc
              intro k ps hk
              simp at hk
          · intro o' ho'
            simp only [List.length_append, List.length_cons, List.length_nil]
            rcases List.mem_append.mp ho' with ho' | ho'
            · have := H.range o' ho'; omega
            · simp at ho'; subst ho'; simp
        · simp only [SpecHeap.answer, hobj]

theorem metadata_append {h : LispHeap μ} {S : SpecHeap μ} (H : HeapInv h S) (M : MetaInv h S) (S' : SpecHeap μ) (o : LispObj μ)
    (hdbs : ∀ (d : Nat) (l : List (Trace × μ)), S.dbs[d]? = some l → S'.dbs[d]? = some l)
    (hview : ∀ p f, o.view = some (p, f) → o.slot = [] ∧ ∃ o', h.objs[p]? = some o' ∧ o'.db = o.db)
    (hbase : o.view = none → h.dbs.length ≤ o.db ∧ ∃ l : List (Trace × μ), S'.dbs[o.db]? = some l ∧ o.slot = l.map (·.2))
    (dbs : List Db) : MetaInv ⟨dbs, h.objs ++ [o]⟩ S' := by
  have get : ∀ {i : Nat} {x : LispObj μ}, (h.objs ++ [o])[i]? = some x →
      (h.objs[i]? = some x ∧ i < h.objs.length) ∨ (i = h.objs.length ∧ x = o) := by
    intro i x hx
    rcases Nat.lt_or_ge i h.objs.length with hi | hi
    · rw [List.getElem?_append_left hi] at hx; exact .inl ⟨hx, hi⟩
    · rw [List.getElem?_append_right hi] at hx
      have : i - h.objs.length = 0 := by
        rcases Nat.eq_zero_or_pos (i - h.objs.length) with e | e
        · exact e
        · rw [List.getElem?_eq_none (by simp only [List.length_cons, List.length_nil]; omega)] at hx; cases hx
      rw [this] at hx
      simp at hx
      exact .inr ⟨by omega, hx.symm⟩
  refine ⟨?_, ?_, ?_⟩
  · intro i x p f hx hv
    rcases get hx with ⟨hx, hi⟩ | ⟨rfl, rfl⟩
    · obtain ⟨h1, h2, o', h3, h4⟩ := M.view i x p f hx hv
      exact ⟨h1, h2, o', by rw [List.getElem?_append_left (by omega)]; exact h3, h4⟩
    · obtain ⟨h1, o', h2, h3⟩ := hview p f hv
      have hp := (List.getElem?_eq_some_iff.mp h2).1
      exact ⟨hp, h1, o', by rw [List.getElem?_append_left hp]; exact h2, h3⟩
  · intro i x hx hv
    rcases get hx with ⟨hx, hi⟩ | ⟨rfl, rfl⟩
    · obtain ⟨l, h1, h2⟩ := M.base i x hx hv
      exact ⟨l, hdbs _ _ h1, h2⟩
    · exact (hbase hv).2
  · intro i j x y hx hy hvx hvy hd
    rcases get hx with ⟨hx', hi⟩ | ⟨ei, ex⟩ <;> rcases get hy with ⟨hy', hj⟩ | ⟨ej, ey⟩
    · exact M.once i j x y hx' hy' hvx hvy hd
    · rw [ey] at hvy hd
      have h1 := (hbase hvy).1
      have h2 := H.range x (List.mem_of_getElem? hx')
      omega
    · rw [ex] at hvx hd
      have h1 := (hbase hvx).1
      have h2 := H.range y (List.mem_of_getElem? hy')
      omega
    · rw [ei, ej]

/-- **Metadata.**  Direct additions keep metadata where it belongs. -/
theorem lispStep_meta {w : World} {version : Nat} {ev : Evaluator σ} {h h' : LispHeap μ}
    {S : SpecHeap μ} (H : HeapInv h S) (M : MetaInv h S) {s s' : σ} {op : ObjOp μ} {x : LispAnswer μ} (hd : op.Direct S)
    (e : lispStep w version ev h s op = .ok (x, h', s')) : MetaInv h' (S.step w.env op) := by
  have app : ∀ (y : List (Trace × μ)) (d : Nat) (l : List (Trace × μ)), S.dbs[d]? = some l → (S.dbs ++ [y])[d]? = some l := by
    intro y d l hl
    rw [List.getElem?_append_left (List.getElem?_eq_some_iff.mp hl).1, hl]
  have last : ∀ y : List (Trace × μ), (S.dbs ++ [y])[h.dbs.length]? = some y := by
    intro y
    rw [← H.dbs_length]
    simp
  cases op with
  | create =>
    cases e
    exact metadata_append H M (S.step w.env .create) ⟨h.dbs.length, none, []⟩ (app _) (by simp)
      (fun _ => ⟨Nat.le_refl _, [], last [], rfl⟩) _
  | restrict i f =>
    simp only [lispStep] at e
    split at e
    · cases e
    · rename_i o ho
      cases e
      have hobj : S.objs[i]? = some (o.db, o.view.map (·.2)) := by rw [H.obj, ho]; rfl
      simp only [SpecHeap.step, hobj]
      refine metadata_append H M { S with objs := S.objs ++ [(o.db, some f)] } ⟨o.db, some (i, f), []⟩ (fun _ _ h => h) ?_ (by simp) _
      intro p f' hpf
      simp only [Option.some.injEq, Prod.mk.injEq] at hpf
      obtain ⟨rfl, rfl⟩ := hpf
      exact ⟨rfl, o, ho, rfl⟩
  | add i a =>
    simp only [lispStep] at e
    split at e
    · cases e
    · rename_i o ho
      obtain ⟨db, l, h1, h2, h3, h4⟩ := H.db ho
      have hobj : S.objs[i]? = some (o.db, o.view.map (·.2)) := by rw [H.obj, ho]; rfl
      have hbase : o.view = none := by
        cases hv : o.view with
        | none => rfl
        | some pf => rw [hv] at hobj; exact absurd hobj (hd.2 _ _)
      rw [h1] at e
      simp only at e
      obtain ⟨⟨x1, h1'⟩, e1, e2⟩ := Res.bind_eq_ok.mp e
      cases e2
      simp only [SpecHeap.step, hobj]
      cases a with
      | points ps names m => cases hd.1
      | trace src k m =>
        simp only [LispHeap.add] at e1
        obtain ⟨⟨n, db'⟩, e2, e3⟩ := Res.bind_eq_ok.mp e1
        obtain ⟨c1, c2, c3⟩ := addTraceApi_cases w.grow w.env db h4 src k m n db' e2
        simp only at e3
        rcases c3 with ⟨rfl, _, c5, c4⟩ | ⟨rfl, st, t, rfl, c4, c5⟩
        · cases e3
          rw [c5, modify_nil]
          exact ⟨M.view, M.base, M.once⟩
        · cases e3
          rw [c5]
          obtain ⟨l', m1, m2⟩ := M.metadata ho
          rw [h2, Option.some.injEq] at m1
          subst m1
          have hi := (List.getElem?_eq_some_iff.mp ho).1
          -- objects afterwards
          have get : ∀ {j : Nat} {y : LispObj μ},
              (h.objs.set i { o with slot := h.metadata i ++ [m] })[j]? = some y →
              (i ≠ j ∧ h.objs[j]? = some y) ∨ (i = j ∧ y = { o with slot := h.metadata i ++ [m] }) := by
            intro j y hy
            by_cases hij : i = j
            · subst hij
              rw [List.getElem?_set_self hi] at hy
              cases hy
              exact .inr ⟨rfl, rfl⟩
            · rw [List.getElem?_set_ne hij] at hy
              exact .inl ⟨hij, hy⟩
          refine ⟨?_, ?_, ?_⟩
          · intro j y p f hy hv
            rcases get hy with ⟨hij, hy⟩ | ⟨rfl, rfl⟩
            · obtain ⟨v1, v2, o', v3, v4⟩ := M.view j y p f hy hv
              by_cases hip : i = p
              · subst hip
                rw [ho, Option.some.injEq] at v3
                subst v3
                exact ⟨v1, v2, _, List.getElem?_set_self hi, v4⟩
              · exact ⟨v1, v2, o', by rw [List.getElem?_set_ne hip]; exact v3, v4⟩
            · simp only [hbase] at hv; cases hv
          · intro j y hy hv
            simp only [List.getElem?_modify]
            rcases get hy with ⟨hij, hy⟩ | ⟨rfl, rfl⟩
            · obtain ⟨l', b1, b2⟩ := M.base j y hy hv
              have hne : ¬ o.db = y.db := fun hdd => hij (M.once i j o y ho hy hbase hv hdd)
              exact ⟨l', by simp [hne, b1], b2⟩
            · exact ⟨l ++ [(t, m)], by simp [h2], by simp [m2]⟩
          · intro j j' y y' hy hy' hv hv' hdd
            rcases get hy with ⟨_, hy⟩ | ⟨rfl, rfl⟩ <;> rcases get hy' with ⟨_, hy'⟩ | ⟨rfl, rfl⟩
            · exact M.once j j' y y' hy hy' hv hv' hdd
            · exact M.once j i y o hy ho hv hbase hdd
            · exact M.once i j' o y' ho hy' hbase hv' hdd
            · rfl
  | get i idx file =>
    simp only [lispStep] at e
    split at e
    · cases e
    · split at e
      · cases e
      · obtain ⟨x1, e1, e2⟩ := Res.bind_eq_ok.mp e
        cases e2
        exact M
  | query i idx q =>
    simp only [lispStep] at e
    split at e
    · cases e
    · split at e
      · cases e
      · simp only [LispHeap.query] at e
        split at e
        · split at e
          · obtain ⟨⟨ps, c', s1⟩, e1, e2⟩ := Res.bind_eq_ok.mp e
            cases e2
            exact ⟨M.view, M.base, M.once⟩
          · cases e
        · cases e
  | copy i =>
    simp only [lispStep] at e
    split at e
    · cases e
    · rename_i o ho
      have hobj : S.objs[i]? = some (o.db, o.view.map (·.2)) := by rw [H.obj, ho]; rfl
      cases hw : o.view with
      | some pf =>
        rw [hw] at e hobj
        cases e
        simp only [Option.map_some] at hobj
        simp only [SpecHeap.step, hobj]
        exact M
      | none =>
        rw [hw] at e hobj
        simp only [Option.map_none] at hobj
        simp only [Option.isSome_none, Bool.false_eq_true, if_false] at e
        split at e
        · cases e
        · split at e
          · cases e
          · cases e
            obtain ⟨l, m1, m2⟩ := M.metadata ho
            simp only [SpecHeap.step, hobj]
            refine metadata_append H M _ ⟨h.dbs.length, none, h.metadata i⟩ (app _) (by simp) (fun _ => ⟨Nat.le_refl _, l, ?_, m2⟩) _
            simp only [last, m1, Option.getD_some]

/-- With the right metadata a step returns exactly what it should. -/
theorem lispStep_same {w : World} {version : Nat} (hv : version < 2 ^ 32) {ev : Evaluator σ} {h : LispHeap μ}
    {S : SpecHeap μ} (H : HeapInv h S) (M : MetaInv h S) (G : S.Good) (hs : S.Small) (s : σ) (op : ObjOp μ) :
    Res.Rel (fun x y => x.1 = y.1 ∧ x.2.2 = y.2) (lispStep w version ev h s op) (S.answer w ev s op) := by
  cases op with
  | create => exact ⟨by rw [H.length], rfl⟩
  | restrict i f =>
    simp only [lispStep, SpecHeap.answer]
    cases ho : h.objs[i]? with
    | none =>
      rw [if_neg (by rw [H.length]; exact Nat.not_lt.mpr (List.getElem?_eq_none_iff.mp ho))]
      exact rfl
    | some o =>
      rw [if_pos (by rw [H.length]; exact (List.getElem?_eq_some_iff.mp ho).1)]
      exact ⟨by rw [H.length], rfl⟩
  | add i a =>
    simp only [lispStep, SpecHeap.answer]
    cases ho : h.objs[i]? with
    | none =>
      rw [if_neg (by rw [H.length]; exact Nat.not_lt.mpr (List.getElem?_eq_none_iff.mp ho))]
      exact rfl
    | some o =>
      rw [if_pos (by rw [H.length]; exact (List.getElem?_eq_some_iff.mp ho).1)]
      obtain ⟨db, l, h1, h2, h3, h4⟩ := H.db ho
      simp only [h1]
      cases a with
      | trace src k m =>
        cases src with
        | none => exact ⟨rfl, rfl⟩
        | some st =>
          simp only [LispHeap.add, addTraceApi]
          cases readTrace w.env k st with
          | ok t => exact ⟨rfl, rfl⟩
          | throw e => exact ⟨rfl, rfl⟩
          | abort => exact trivial
          | ub u => exact rfl
          | hang => exact trivial
      | points ps names m =>
        simp only [LispHeap.add, addTracePointsApi]
        cases traceOfPoints ps names with
        | ok t => exact ⟨rfl, rfl⟩
        | throw e => exact rfl
        | abort => exact trivial
        | ub u => exact rfl
        | hang => exact trivial
  | get i idx file =>
    simp only [lispStep, SpecHeap.answer]
    cases ho : h.objs[i]? with
    | none =>
      have : S.find i idx = none := by simp [SpecHeap.find, H.obj, ho]
      rw [this]
      exact rfl
    | some o =>
      obtain ⟨db, l, h1, h2, h3, h4⟩ := H.db ho
      obtain ⟨l', m1, m2⟩ := M.metadata ho
      simp only [h1, LispHeap.get]
      rcases H.find hs ho h1 idx with ⟨f1, t, m, c, l, f2, f3, f4, f5, f6, f7⟩ | ⟨f1, f2⟩
      · rw [m1, Option.some.injEq] at f5
        subst f5
        have hm : (h.metadata i)[idx]? = some m := by rw [m2, List.getElem?_map, f6]; rfl
        simp only [if_pos f1, f2, f7, fileInForce, hm]
        cases lispGetTrace t (file.or (o.view.map (·.2))) with
        | ok ps => exact ⟨rfl, rfl⟩
        | throw e => exact rfl
        | abort => exact trivial
        | ub u => exact rfl
        | hang => exact trivial
      · simp only [if_neg f1, f2]
        exact rfl
  | query i idx q =>
    simp only [lispStep, SpecHeap.answer]
    cases ho : h.objs[i]? with
    | none =>
      have : S.find i idx = none := by simp [SpecHeap.find, H.obj, ho]
      rw [this]
      exact rfl
    | some o =>
      obtain ⟨db, l, h1, h2, h3, h4⟩ := H.db ho
      obtain ⟨l', m1, m2⟩ := M.metadata ho
      simp only [h1, LispHeap.query]
      rcases H.find hs ho h1 idx with ⟨f1, t, m, c, l, f2, f3, f4, f5, f6, f7⟩ | ⟨f1, f2⟩
      · rw [m1, Option.some.injEq] at f5
        subst f5
        have hm : (h.metadata i)[idx]? = some m := by rw [m2, List.getElem?_map, f6]; rfl
        simp only [if_pos f1, f2, f3, f7, hm]
        refine Res.Rel.bind (lispQuery_cache w ev t _ c f4 s) ?_
        rintro ⟨ps, c1, s1⟩ ⟨ps', c2, s2⟩ ⟨q1, _, q3⟩
        simp only at q1 q3
        subst q1 q3
        exact ⟨rfl, rfl⟩
      · simp only [if_neg f1, f2]
        exact rfl
  | copy i =>
    simp only [lispStep, SpecHeap.answer]
    cases ho : h.objs[i]? with
    | none =>
      simp only [H.obj, ho, Option.map_none]
      exact rfl
    | some o =>
      simp only [H.obj, ho, Option.map_some]
      cases hw : o.view with
      | some pf => exact ⟨rfl, rfl⟩
      | none =>
        obtain ⟨db, l, h1, h2, h3, h4⟩ := H.db ho
        have hl := List.mem_of_getElem? h2
        have ed := deserialize_serialize version hv db
          (fun t ht => by
            rw [h3] at ht
            obtain ⟨x, hx, rfl⟩ := List.mem_map.mp ht
            exact (hs.each l hl x hx).fits (G l hl x hx).2)
          (fun t ht => by
            rw [h3] at ht
            obtain ⟨x, hx, rfl⟩ := List.mem_map.mp ht
            exact (G l hl x hx).1)
          (by rw [h3, List.length_map]; have := hs.traces l hl; omega)
          (by rw [h3, List.map_map]; exact hs.points l hl)
        simp only [h1, ed, Option.isSome_none, Bool.false_eq_true, if_false, Option.map_none]
        exact ⟨by rw [← H.length], rfl⟩

/-! Histories -/

theorem lispRun_points {w : World} {version : Nat} (hv : version < 2 ^ 32) {ev : Evaluator σ} :
    ∀ (ops : List (ObjOp μ)) {h h' : LispHeap μ} {S : SpecHeap μ} {s s' : σ} {xs : List (LispAnswer μ)},
      HeapInv h S → S.Good → (∀ op ∈ ops, op.NamesNulFree) → (S.after w.env ops).Small →
      lispRun w version ev h s ops = .ok (xs, h', s') →
      HeapInv h' (S.after w.env ops) ∧ ∃ xs', S.run w ev s ops = .ok (xs', s') ∧ AllRel LispAnswer.SamePoints xs xs'
  | [], _, _, _, _, _, _, H, _, _, _, e => by cases e; exact ⟨H, [], rfl, .nil⟩
  | op :: ops, h, h', S, s, s', xs, H, G, hn, hs, e => by
    simp only [lispRun] at e
    obtain ⟨⟨x, h1, s1⟩, e1, e2⟩ := Res.bind_eq_ok.mp e
    obtain ⟨⟨xs1, h2, s2⟩, e3, e4⟩ := Res.bind_eq_ok.mp e2
    cases e4
    have hs' : (S.step w.env op).Small := small_of_after (ops := ops) hs
    obtain ⟨H1, x', a1, a2⟩ := lispStep_points hv H G (small_of_step hs') e1
    obtain ⟨H2, xs', a3, a4⟩ := lispRun_points hv ops H1 (good_step G (hn op (by simp))) (fun o ho => hn o (by simp [ho])) hs e3
    refine ⟨H2, x' :: xs', ?_, .cons a2 a4⟩
    simp only [SpecHeap.run, a1, Res.ok_bind, a3]

theorem ObjOp.Direct.mono {S S' : SpecHeap μ} {op : ObjOp μ} (h : op.Direct S') (hs : ∃ more, S'.objs = S.objs ++ more) :
    op.Direct S := by
  obtain ⟨more, hs⟩ := hs
  cases op with
  | add i a =>
    refine ⟨h.1, fun d f hd => h.2 d f ?_⟩
    rw [hs, List.getElem?_append_left (List.getElem?_eq_some_iff.mp hd).1, hd]
  | _ => trivial

theorem ObjOp.Direct.names {S : SpecHeap μ} {op : ObjOp μ} (h : op.Direct S) : op.NamesNulFree := by
  cases op with
  | add i a =>
    cases a with
    | trace src k m => trivial
    | points ps names m => cases h.1
  | _ => trivial

theorem lispRun_same {w : World} {version : Nat} (hv : version < 2 ^ 32) {ev : Evaluator σ} :
    ∀ (ops : List (ObjOp μ)) {h : LispHeap μ} {S : SpecHeap μ} (s : σ),
      HeapInv h S → MetaInv h S → S.Good → (∀ op ∈ ops, op.Direct (S.after w.env ops)) → (S.after w.env ops).Small →
      Res.Rel (fun x y => x.1 = y.1 ∧ x.2.2 = y.2) (lispRun w version ev h s ops) (S.run w ev s ops)
  | [], _, _, _, _, _, _, _, _ => ⟨rfl, rfl⟩
  | op :: ops, h, S, s, H, M, G, hd, hs => by
    simp only [lispRun, SpecHeap.run]
    have hs' : (S.step w.env op).Small := small_of_after (ops := ops) hs
    have hd0 : op.Direct S := (hd op (by simp)).mono (after_objs w.env (op :: ops) S)
    have r := lispStep_same (w := w) hv (ev := ev) H M G (small_of_step hs') s op
    cases e1 : lispStep w version ev h s op with
    | ok y =>
      obtain ⟨x, h1, s1⟩ := y
      obtain ⟨H1, _⟩ := lispStep_points hv H G (small_of_step hs') e1
      have M1 := lispStep_meta H M hd0 e1
      rw [e1] at r
      cases e2 : S.answer w ev s op with
      | ok z =>
        obtain ⟨x', s1'⟩ := z
        rw [e2] at r
        simp only [Res.Rel] at r
        obtain ⟨rfl, rfl⟩ := r
        simp only [Res.ok_bind]
        refine Res.Rel.bind (lispRun_same hv ops s1 H1 M1 (good_step G hd0.names) (fun o ho => hd o (by simp [ho])) hs) ?_
        rintro ⟨xs, h2, s2⟩ ⟨xs', s2'⟩ ⟨r1, r2⟩
        simp only at r1 r2
        subst r1 r2
        exact ⟨rfl, rfl⟩
      | throw z => rw [e2] at r; exact r.elim
      | abort => rw [e2] at r; exact r.elim
      | ub z => rw [e2] at r; exact r.elim
      | hang => rw [e2] at r; exact r.elim
    | throw y => rw [e1] at r; cases e2 : S.answer w ev s op <;> rw [e2] at r <;> first | exact r.elim | exact r
    | abort => rw [e1] at r; cases e2 : S.answer w ev s op <;> rw [e2] at r <;> first | exact r.elim | exact r
    | ub y => rw [e1] at r; cases e2 : S.answer w ev s op <;> rw [e2] at r <;> first | exact r.elim | exact r
    | hang => rw [e1] at r; cases e2 : S.answer w ev s op <;> rw [e2] at r <;> first | exact r.elim | exact r

theorem heapInv_empty : HeapInv (⟨[], []⟩ : LispHeap μ) ⟨[], []⟩ := ⟨rfl, rfl, by simp, by simp⟩
theorem metaInv_empty : MetaInv (⟨[], []⟩ : LispHeap μ) ⟨[], []⟩ := ⟨by simp, by simp, by simp⟩
theorem good_empty : (⟨[], []⟩ : SpecHeap μ).Good := by simp [SpecHeap.Good]

end TraceDB
