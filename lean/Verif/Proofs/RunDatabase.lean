import Verif.Spec.RunDatabase
import Verif.Props.ProjectThreads
import Verif.Props.LispObjects
/-
Helper lemmas for C102: histories of databases.
-/
namespace TraceDB

variable {μ σ : Type}

theorem lispRun_append (w : World) (version : Nat) (ev : Evaluator σ) (more : List (ObjOp μ)) :
    ∀ (ops : List (ObjOp μ)) (h : LispHeap μ) (s : σ), lispRun w version ev h s (ops ++ more) =
      lispRun w version ev h s ops >>= fun r => lispRun w version ev r.2.1 r.2.2 more >>= fun q =>
        .ok (r.1 ++ q.1, q.2)
  | [], h, s => by
    simp only [List.nil_append, lispRun, Res.ok_bind]
    cases lispRun w version ev h s more <;> rfl
  | op :: ops, h, s => by
    simp only [List.cons_append, lispRun]
    cases e : lispStep w version ev h s op with
    | ok y =>
      obtain ⟨x, h1, s1⟩ := y
      simp only [Res.ok_bind]
      rw [lispRun_append w version ev more ops h1 s1]
      cases lispRun w version ev h1 s1 ops with
      | ok z =>
        simp only [Res.ok_bind, Res.pure_eq]
        cases lispRun w version ev z.2.1 z.2.2 more <;> rfl
      | _ => rfl
    | _ => rfl

theorem specRun_append (w : World) (ev : Evaluator σ) (more : List (ObjOp μ)) :
    ∀ (ops : List (ObjOp μ)) (S : SpecHeap μ) (s : σ), SpecHeap.run w ev S s (ops ++ more) =
      SpecHeap.run w ev S s ops >>= fun r => SpecHeap.run w ev (S.after w.env ops) r.2 more >>= fun q =>
        .ok (r.1 ++ q.1, q.2)
  | [], S, s => by
    simp only [List.nil_append, SpecHeap.run, Res.ok_bind, SpecHeap.after, List.foldl_nil]
    cases SpecHeap.run w ev S s more <;> rfl
  | op :: ops, S, s => by
    simp only [List.cons_append, SpecHeap.run]
    cases e : S.answer w ev s op with
    | ok y =>
      obtain ⟨x, s1⟩ := y
      simp only [Res.ok_bind]
      rw [specRun_append w ev more ops (S.step w.env op) s1]
      cases SpecHeap.run w ev (S.step w.env op) s1 ops with
      | ok z =>
        simp only [Res.ok_bind, SpecHeap.after, List.foldl_cons]
        cases SpecHeap.run w ev (List.foldl (SpecHeap.step w.env) (S.step w.env op) ops) z.2 more <;> rfl
      | _ => rfl
    | _ => rfl

/-- After a history, every operation that reads returns what it should. -/
theorem step_after {w : World} {version : Nat} (hv : version < 2 ^ 32) {ev : Evaluator σ} {s s' : σ} {ops : List (ObjOp μ)}
    (hd : ∀ op ∈ ops, op.Direct (SpecHeap.after w.env ⟨[], []⟩ ops)) (hs : (SpecHeap.after w.env ⟨[], []⟩ ops).Small)
    {xs : List (LispAnswer μ)} {h : LispHeap μ} (hrun : lispRun w version ev ⟨[], []⟩ s ops = .ok (xs, h, s'))
    (op : ObjOp μ) (hop : ∀ S : SpecHeap μ, S.step w.env op = S) (hdop : ∀ S : SpecHeap μ, op.Direct S)
    {x : LispAnswer μ} {s'' : σ} (ha : (SpecHeap.after w.env ⟨[], []⟩ ops).answer w ev s' op = .ok (x, s'')) :
    ∃ h', lispStep w version ev h s' op = .ok (x, h', s'') := by
  have hafter : SpecHeap.after w.env ⟨[], []⟩ (ops ++ [op]) = SpecHeap.after w.env ⟨[], []⟩ ops := by
    unfold SpecHeap.after
    rw [List.foldl_append, List.foldl_cons, List.foldl_nil, hop]
  have e1 := C66_exact w version hv ev s ops hd hs
  have e2 := C66_exact w version hv ev s (ops ++ [op]) (by
    rw [hafter]
    intro o ho
    rcases List.mem_append.mp ho with ho | ho
    · exact hd o ho
    · rw [List.mem_singleton.mp ho]; exact hdop _) (by rw [hafter]; exact hs)
  rw [hrun] at e1
  simp only [Res.ok_bind] at e1
  rw [lispRun_append, specRun_append, hrun, ← e1] at e2
  simp only [Res.ok_bind, SpecHeap.run, ha, lispRun] at e2
  cases e3 : lispStep w version ev h s' op with
  | ok y =>
    obtain ⟨x', h', s3⟩ := y
    rw [e3] at e2
    simp only [Res.ok_bind, Res.pure_eq] at e2
    injection e2 with e2
    injection e2 with e4 e5
    cases e5
    rw [List.append_cancel_left_eq] at e4
    cases e4
    exact ⟨h', rfl⟩
  | _ => rw [e3] at e2; cases e2

/-- Every trace of a database was added by the history. -/
theorem stored_from (env : Env) : ∀ (ops : List (ObjOp μ)) (S : SpecHeap μ), ∀ l ∈ (S.after env ops).dbs, ∀ x ∈ l,
    (∃ l ∈ S.dbs, x ∈ l) ∨ ∃ i a, ObjOp.add i a ∈ ops ∧ x ∈ storedWith env [a]
  | [], S, l, hl, x, hx => .inl ⟨l, hl, hx⟩
  | op :: ops, S, l, hl, x, hx => by
    have h1 : SpecHeap.after env S (op :: ops) = (S.step env op).after env ops := rfl
    rw [h1] at hl
    rcases stored_from env ops (S.step env op) l hl x hx with ⟨l', hl', hx'⟩ | ⟨i, a, ha, hx'⟩
    · have old : (∃ l ∈ S.dbs, x ∈ l) → (∃ l ∈ S.dbs, x ∈ l) ∨ ∃ i a, ObjOp.add i a ∈ op :: ops ∧ x ∈ storedWith env [a] := .inl
      cases op with
      | create =>
        rcases List.mem_append.mp hl' with hl' | hl'
        · exact old ⟨l', hl', hx'⟩
        · rw [List.mem_singleton.mp hl'] at hx'
          cases hx'
      | restrict i f =>
        simp only [SpecHeap.step] at hl'
        split at hl' <;> exact old ⟨l', hl', hx'⟩
      | get _ _ _ => exact old ⟨l', hl', hx'⟩
      | query _ _ _ => exact old ⟨l', hl', hx'⟩
      | copy i =>
        simp only [SpecHeap.step] at hl'
        split at hl'
        · rename_i d hd
          rcases List.mem_append.mp hl' with hl' | hl'
          · exact old ⟨l', hl', hx'⟩
          · rw [List.mem_singleton.mp hl'] at hx'
            cases hdb : S.dbs[d]? with
            | none => rw [hdb] at hx'; cases hx'
            | some l2 =>
              rw [hdb] at hx'
              exact old ⟨l2, List.mem_of_getElem? hdb, hx'⟩
        · exact old ⟨l', hl', hx'⟩
      | add i a =>
        simp only [SpecHeap.step] at hl'
        split at hl'
        · rename_i o ho
          obtain ⟨j, hj⟩ := List.mem_iff_getElem?.mp hl'
          simp only [List.getElem?_modify] at hj
          cases hdb : S.dbs[j]? with
          | none => rw [hdb] at hj; cases hj
          | some l2 =>
            rw [hdb] at hj
            replace hj := Option.some.inj hj
            split at hj
            · rw [← hj] at hx'
              rcases List.mem_append.mp hx' with hx' | hx'
              · exact old ⟨l2, List.mem_of_getElem? hdb, hx'⟩
              · exact .inr ⟨i, a, by simp, hx'⟩
            · subst hj
              exact old ⟨l2, List.mem_of_getElem? hdb, hx'⟩
        · exact old ⟨l', hl', hx'⟩
    · exact .inr ⟨i, a, List.mem_cons_of_mem _ ha, hx'⟩

/-- After adding files to a new database, it has what the files are read as. -/
theorem after_adds (env : Env) (adds : List (LispAdd μ)) :
    SpecHeap.after env ⟨[], []⟩ (.create :: adds.map (.add 0)) = ⟨[storedWith env adds], [(0, none)]⟩ := by
  have key : ∀ (adds : List (LispAdd μ)) l, SpecHeap.after env ⟨[l], [(0, none)]⟩ (adds.map (.add 0)) =
      ⟨[l ++ storedWith env adds], [(0, none)]⟩ := by
    intro adds
    induction adds with
    | nil => intro l; simp [SpecHeap.after, storedWith]
    | cons a adds ih =>
      intro l
      have h1 : SpecHeap.after env ⟨[l], [(0, none)]⟩ ((a :: adds).map (.add 0)) =
        SpecHeap.after env ⟨[l ++ storedWith env [a]], [(0, none)]⟩ (adds.map (.add 0)) := rfl
      rw [h1, ih, List.append_assoc]
      congr 2
      unfold storedWith
      rw [← List.filterMap_append]
      rfl
  have h0 : SpecHeap.after env ⟨[], []⟩ (.create :: adds.map (.add 0)) =
    SpecHeap.after env ⟨[[]], [(0, none)]⟩ (adds.map (.add 0)) := rfl
  rw [h0, key, List.nil_append]

theorem storedWith_all {env : Env} : ∀ {adds : List (LispAdd μ)}, (∀ a ∈ adds, ∃ t, a.stores env = some t) →
    (storedWith env adds).map (·.2) = adds.map LispAdd.meta
  | [], _ => rfl
  | a :: adds, h => by
    obtain ⟨t, ht⟩ := h a (by simp)
    have ih := storedWith_all (adds := adds) fun a ha => h a (List.mem_cons_of_mem _ ha)
    unfold storedWith at ih ⊢
    rw [List.filterMap_cons, ht]
    simp only [Option.map_some, List.map_cons, ih]

/-- What a run leaves is read as a trace of statements passed, or refused. -/
theorem run_read (fs : FloatSys) (env : Env) (pick : U32 → Nat → Nat) (io : Bool) (cf : CFloat) (mem : CMem) (r : ProjRun)
    (complete : Prop) (bytes : List U8) (hb : r.Built) (hleaves : r.Leaves cf mem complete bytes)
    (hal : ∀ n, env.canAlloc n = true) (henv : env.junk.isSome = true)
    (names : List Nat) (s : SExp) (f : Form) (ph : PHeap) (hf : SexpPredicate names s f)
    (varTypes : List (List (List U8))) (hvl : names.length = varTypes.length) (hl : names.length < 2 ^ 64)
    (hne : varTypes ≠ []) (hknown : ∀ ts ∈ varTypes, ∀ n ∈ ts, r.header.HasType n) (file : Option Nat)
    (hfile : ∀ i, file = some i → i < 2 ^ 23) (filter : Option (LPoint → Bool))
    (hq : ∀ l ∈ r.threads, ∀ v ∈ l, ∀ l, v.Shown (instrumentationFiles r.evolve) l → l.Manageable varTypes) :
    (readTrace env r.limit ⟨bytes, io, .good⟩ = .throw (endExn io) ∧ ¬ complete) ∨
      ∃ t shown ps ptr ph' p rs c,
        readTrace env r.limit ⟨bytes, io, .good⟩ = .ok t ∧ r.Passed complete shown ∧ lispGetTrace t none = .ok ps ∧
        AllRel (ProjVisit.Shown (instrumentationFiles r.evolve)) shown ps ∧
        buildPredicate names s ph = some (ptr, ph') ∧ createPredicateObj ph' ptr = .ok p ∧
        lispQuery env pick (plainEval fs) t ⟨varTypes, p, [], 0, file, filter⟩ [] () = .ok (rs, c, ()) ∧
        (∀ r ∈ rs, ShownAnswers fs ps varTypes file filter f r) ∧
        (filter = none → ∀ a, ShownAnswers fs ps varTypes file filter f a → ∃ r ∈ rs, exactKey r = exactKey a) ∧
        (filter ≠ none → (∀ a, ShownAnswers fs ps varTypes file filter f a → ∃ r ∈ rs, foldedKey r = foldedKey a) ∧
          rs.Pairwise fun a b => foldedKey a ≠ foldedKey b) := by
  obtain ⟨hok, hfew, ⟨isched, hp, hstore⟩, hsmall, hmain, hone⟩ := hb
  obtain ⟨hfit, calls, acts, sched, header, T, st, h1, h2, h3, h4, rfl, h5, h6⟩ := hleaves
  obtain ⟨order, o1, o2, _, o4, o5⟩ := C101_queries fs env pick io cf mem r.evolve r.other hok hfew isched r.project hp hstore
    r.threads calls hal henv hfit h1 r.header hsmall hmain r.limit acts h2 sched header h3 st h4 T h5 hone names s f ph hf
    varTypes hvl hl hne hknown file hfile filter hq
  rcases o5 with ⟨e1, e2, _⟩ | ⟨t, ps, ptr, ph', p, rs, c, e1, e2, e3, e4⟩
  · exact .inl ⟨e1, fun hc => e2 (h6 hc)⟩
  · exact .inr ⟨t, _, ps, ptr, ph', p, rs, c, e1, ⟨order, rfl, o1, o2, fun hc => o4 (h6 hc).1 (h6 hc).2⟩, e2, e3, e4⟩

/-- What a run leaves that ended without loss can be read. -/
theorem run_whole (env : Env) (io : Bool) (cf : CFloat) (mem : CMem) (r : ProjRun) (complete : Prop) (bytes : List U8)
    (hb : r.Built) (hleaves : r.Leaves cf mem complete bytes) (hal : ∀ n, env.canAlloc n = true)
    (henv : env.junk.isSome = true) (hc : complete) : ∃ t, readTrace env r.limit ⟨bytes, io, .good⟩ = .ok t := by
  obtain ⟨hok, hlen, ⟨isched, hp, hstore⟩, hsmall, hmain, hone⟩ := hb
  obtain ⟨hfit, calls, acts, sched, header, T, st, hruns, h2, h3, h4, rfl, h5, h6⟩ := hleaves
  have hperm := (C65_files r.evolve).1
  have hok' : ∀ f ∈ instrumentationFiles r.evolve, f.Ok := fun f hf => hok f (hperm.mem_iff.mp hf)
  have hlen' : (instrumentationFiles r.evolve).length ≤ 2 ^ 23 := by rw [hperm.length_eq]; exact hlen
  have hfl : ∀ {P : ProjVisit → Prop}, (∀ v ∈ r.threads.flatten, P v) ↔ ∀ l ∈ r.threads, ∀ v ∈ l, P v := by
    intro P
    exact ⟨fun h l hl v hv => h v (List.mem_flatten.mpr ⟨l, hl, hv⟩), fun h v hv => by
      obtain ⟨l, hl, hv⟩ := List.mem_flatten.mp hv
      exact h l hl v hv⟩
  obtain ⟨n, reqs, told, hmv⟩ := parallel_main hok hlen hp hstore r.header r.threads.flatten (hfl.mpr fun l hl v hv => by
      obtain ⟨m, _, hlm⟩ := hruns.mem_left l hl
      obtain ⟨c, _, o, g, ho, _⟩ := hlm.mem_left v hv
      exact (List.getElem?_eq_some_iff.mp ho).1) (by
    rcases hmain with ⟨p, o, ho, hh, hv⟩ | hm
    · exact .inl ⟨p, o, ho, hh, hfl.mpr hv⟩
    · exact .inr hm)
  obtain ⟨order, _, _, _, o4⟩ := told_threads env io cf mem told hok' hlen' hsmall r.threads calls hruns (hfl.mp hmv) hfit
    henv hal acts h2 sched header h3 st h4 T h5
  rcases o4 r.limit with ⟨_, bad, _⟩ | ⟨_, _, t, _, _, _, ht⟩
  · exact absurd (h6 hc) bad
  · exact ⟨t, ht⟩

end TraceDB
