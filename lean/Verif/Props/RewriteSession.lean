import Verif.Proofs.RewriteSession
import Verif.Props.QueryRewrite
import Verif.Props.LispDb
/-
C127: rewriting predicates in the C interface, in sessions and in Lisp.
-/
namespace TraceDB

/-- C127.  A call of `query_trace` with rewritten predicates does the same, with or without random pick and
duplicates, whatever points of the trace are in the cache of filtered points. -/
theorem C127_query (fs : FloatSys) (env : Env) (pick : U32 → Nat → Nat) (t : Trace) (q q' : Query)
    (h : q.Sensible env t) (hr : q.Rewritten fs q') (keep : Bool) (cache : PointsCache)
    (hc : ∀ e ∈ cache, ∀ p ∈ e.2, p ∈ t.points) :
    queryTrace env pick (plainEval fs) t q' keep cache () = queryTrace env pick (plainEval fs) t q keep cache () := by
  unfold queryTrace
  rw [query_rewritten fs env pick t q q' h hr cache hc]

/-- The best small value at a random point. -/
def qPicked : Query := ⟨[[0]], qSmall, [qFour], 5, 0, 0⟩
/-- The same, written otherwise. -/
def qPicked' : Query := ⟨[[0]], .node .and 1 [qSmall], [.node .not 1 [.node .not 1 [qFour]]], 5, 0, 0⟩

theorem qPicked_sensible : qPicked.Sensible qEnv qTwice :=
  ⟨qTwice_askable, qSmall_wellFormed, by simp [qPicked, qFour_wellFormed]⟩

theorem qPicked_rewritten : qPicked.Rewritten exFloats qPicked' :=
  ⟨rfl, .symm .oneAnd, .cons (.symm .notNot) .nil, rfl, rfl, rfl⟩

example := C127_query exFloats qEnv (fun _ n => 1 % n) qTwice qPicked qPicked' qPicked_sensible qPicked_rewritten false
  [((0, 0), qTwice.points)] (by simp)

/-- C127.  A session with the predicate cache has the same answers if the predicates are rewritten, as long as
no hashes collide. -/
theorem C127_session (fs : FloatSys) (ce : CacheEnv) (env : Env) (pick : U32 → Nat → Nat) (session session' : List (Trace × Query))
    (hs : RewrittenSession fs env session session') (hd : DeadConsistent ce)
    (hnc : NoCollision fs ce fun p vs => ∃ tq ∈ session, QueryKeys tq.1 tq.2 p vs)
    (hnc' : NoCollision fs ce fun p vs => ∃ tq ∈ session', QueryKeys tq.1 tq.2 p vs) :
    (runQueries fs ce env pick session' ⟨[], 0, 0⟩ >>= fun r => .ok r.1) =
      (runQueries fs ce env pick session ⟨[], 0, 0⟩ >>= fun r => .ok r.1) := by
  rw [C26_cache_unobservable_without_collisions fs ce env pick session hd hnc,
    C26_cache_unobservable_without_collisions fs ce env pick session' hd hnc']
  clear hnc hnc'
  induction hs with
  | nil => rfl
  | cons h hr _ ih =>
    unfold runPlain
    rw [query_rewritten fs env pick _ _ _ h hr [] (by simp), ih]

/-- A hash that tells outcomes apart. -/
def outcomeHash : Nat → Pred → List VarInfo → U64 := fun _ p vs =>
  match predicateSatisfied exFloats vs p with
  | .ok true => 1
  | _ => 0

theorem outcomeHash_noCollision (session : List (Trace × Query)) (h : ∀ tq ∈ session, tq.2.Sensible qEnv tq.1) :
    NoCollision exFloats ⟨outcomeHash, some fun _ _ _ => true⟩ fun p vs => ∃ tq ∈ session, QueryKeys tq.1 tq.2 p vs := by
  have key : ∀ p vs, (∃ tq ∈ session, QueryKeys tq.1 tq.2 p vs) → ∃ b, predicateSatisfied exFloats vs p = .ok b := by
    rintro p vs ⟨tq, ht, x, hx, hp, b, hb, rfl⟩
    have hq := h tq ht
    have hw : WellFormed tq.2.variables.length p := by
      rcases List.mem_cons.mp hp with rfl | hp
      · exact hq.hard
      · exact hq.soft p hp
    obtain ⟨f, hf⟩ := hw
    refine ⟨_, satisfied_reads exFloats (Nat.le_of_eq (boundVars_length hb).symm) (fun v hv => ?_) hf⟩
    obtain ⟨i, _, hi⟩ := List.mem_filterMap.mp hv
    exact hq.askable.canonical x hx v (List.mem_of_getElem? hi)
  intro _ _ p vs p' vs' h1 h2 he
  obtain ⟨b, hb⟩ := key p vs h1
  obtain ⟨b', hb'⟩ := key p' vs' h2
  simp only [outcomeHash, hb, hb'] at he
  rw [hb, hb']
  cases b <;> cases b' <;> first | rfl | exact absurd he (by decide)

example := C127_session exFloats ⟨outcomeHash, some fun _ _ _ => true⟩ qEnv (fun _ n => 1 % n)
  [(qTwice, qPicked), (qTwice, qPicked)] [(qTwice, qPicked'), (qTwice, qPicked')]
  (.cons qPicked_sensible qPicked_rewritten (.cons qPicked_sensible qPicked_rewritten .nil)) ⟨fun _ _ => true, rfl⟩
  (outcomeHash_noCollision _ (by simp [qPicked_sensible]))
  (outcomeHash_noCollision _ (by
    have : qPicked'.Sensible qEnv qTwice := ⟨qTwice_askable, wf_and.mpr (by simp [qSmall_wellFormed]; exact qSmall_wellFormed),
      by simp only [qPicked', List.forall_mem_singleton]; exact wf_not.mpr (wf_not.mpr qFour_wellFormed)⟩
    simp [this]))

/-- C127.  So does a query from Lisp, with any file, filter and random pick. -/
theorem C127_lisp (fs : FloatSys) (env : Env) (pick : U32 → Nat → Nat) (t : Trace) (q : LQuery) (hard : Pred) (soft : List Pred)
    (ha : ∀ types fvs, getTypes t = .ok types → freeVars types q.varTypes = .ok fvs → Askable env t fvs)
    (hh : WellFormed q.varTypes.length q.hard) (hs : ∀ p ∈ q.soft, WellFormed q.varTypes.length p)
    (rh : Equivalent fs q.varTypes.length q.hard hard) (rs : EquivalentEach fs q.varTypes.length q.soft soft)
    (cache : PointsCache) (hc : ∀ e ∈ cache, ∀ p ∈ e.2, p ∈ t.points) :
    lispQuery env pick (plainEval fs) t { q with hard := hard, soft := soft } cache () =
      lispQuery env pick (plainEval fs) t q cache () := by
  unfold lispQuery
  cases ht : getTypes t with
  | ok types =>
    simp only [Res.ok_bind]
    cases hf : freeVars types q.varTypes with
    | ok fvs =>
      have hl := freeVars_length hf
      simp only [Res.ok_bind]
      cases hfile : fileArgs q.file with
      | ok ms =>
        obtain ⟨mask, stmt⟩ := ms
        simp only [Res.ok_bind]
        rw [C127_query fs env pick t ⟨fvs, q.hard, q.soft, q.seed, mask, stmt⟩ ⟨fvs, hard, soft, q.seed, mask, stmt⟩
          ⟨ha types fvs ht hf, by simpa only [hl] using hh, by simpa only [hl] using hs⟩
          ⟨rfl, by simpa only [hl] using rh, by simpa only [hl] using rs, rfl, rfl, rfl⟩ _ cache hc]
      | throw e => rfl
      | abort => rfl
      | ub k => rfl
      | hang => rfl
    | throw e => rfl
    | abort => rfl
    | ub k => rfl
    | hang => rfl
  | throw e => rfl
  | abort => rfl
  | ub k => rfl
  | hang => rfl

theorem fTrace_askable : ∀ types fvs, getTypes fTrace = .ok types → freeVars types [[[105]]] = .ok fvs → Askable qEnv fTrace fvs := by
  intro types fvs h1 h2
  have e1 : getTypes fTrace = .ok [[105]] := by decide +kernel
  cases e1.symm.trans h1
  have e2 : freeVars [[105]] [[[105]]] = .ok [[0]] := by decide +kernel
  cases e2.symm.trans h2
  exact ⟨by decide, by decide, by decide⟩

example := C127_lisp exFloats qEnv (fun _ n => 1 % n) fTrace ⟨[[[105]]], qSmall, [qFour], 5, some 3, some fun _ => true⟩
  qPicked'.hard qPicked'.soft fTrace_askable qSmall_wellFormed (by simp [qFour_wellFormed]) qPicked_rewritten.hard
  qPicked_rewritten.soft [] (by simp)

end TraceDB
