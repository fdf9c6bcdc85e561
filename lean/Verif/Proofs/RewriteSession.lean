import Verif.Spec.RewriteSession
import Verif.Proofs.QueryRewrite
import Verif.Proofs.ForeignQuery
/-
Proofs about rewriting the predicates of the queries of a session.
-/
namespace TraceDB

theorem collectResults_wellFormed (fs : FloatSys) (env : Env) (t : Trace) (variables : List FreeVar)
    (h : Askable env t variables) (hard : Pred) (hp : WellFormed variables.length hard)
    (soft : List Pred) (hs : ∀ q ∈ soft, WellFormed variables.length q) (p : Point) (hp' : p ∈ t.points) :
    collectResults env (plainEval fs) p variables hard soft () =
      .ok (bestAt fs variables (formOf variables.length hard) (soft.map (formOf variables.length)) p, ()) := by
  have hf := formOf_reads hp
  obtain ⟨a1, a2, a3⟩ := h.size p hp'
  have hgb : (goodBindings (lowFloat fs) variables (formOf variables.length hard) p).length < 2 ^ 32 := by
    refine Nat.lt_of_le_of_lt (List.length_filter_le ..) ?_
    rw [length_combos, sizeProduct_matching]
    exact a2
  by_cases he : soft = []
  · subst he
    rw [collectResults_hard fs env p variables hard _ h.vars (h.canonical p hp') hf a1 (by omega) a3]
    unfold bestAt
    congr 2
    symm
    rw [List.filter_eq_self]
    intro r _
    simp [satCount]
  · rw [collectResults_soft fs env p variables hard _ soft (soft.map (formOf variables.length)) h.vars (h.canonical p hp') hf
      (by simp) (formsOf_read hs) he a1 (by omega) a3 hgb, keepMax_map]
    rfl

theorem collectResults_rewritten (fs : FloatSys) (env : Env) (t : Trace) (variables : List FreeVar)
    (h : Askable env t variables) (hard hard' : Pred) (hp : WellFormed variables.length hard)
    (hh : Equivalent fs variables.length hard hard') (soft soft' : List Pred)
    (hs : ∀ q ∈ soft, WellFormed variables.length q) (hss : EquivalentEach fs variables.length soft soft')
    (p : Point) (hp' : p ∈ t.points) :
    collectResults env (plainEval fs) p variables hard' soft' () = collectResults env (plainEval fs) p variables hard soft () := by
  rw [collectResults_wellFormed fs env t variables h hard hp soft hs p hp',
    collectResults_wellFormed fs env t variables h hard' ((equivalent_agree hh).1.mp hp) soft' (equivalentEach_wf hss hs) p hp']
  congr 2
  rw [bestAt_eq, bestAt_eq]
  have e : hardAt fs variables (formOf variables.length hard') p = hardAt fs variables (formOf variables.length hard) p :=
    List.filter_congr fun r _ => ((equivalent_agree hh).2 hp r.vars).symm
  rw [e]
  unfold bestOf
  simp only [equivalentEach_count hss hs]

theorem queryAll_rewritten {env : Env} {fs : FloatSys} {variables : List FreeVar} {hard hard' : Pred} {soft soft' : List Pred} :
    ∀ {points : List Point}, (∀ p ∈ points, collectResults env (plainEval fs) p variables hard' soft' () =
        collectResults env (plainEval fs) p variables hard soft ()) →
      queryAll env (plainEval fs) variables hard' soft' points () = queryAll env (plainEval fs) variables hard soft points ()
  | [], _ => rfl
  | p :: ps, h => by
    have ih := queryAll_rewritten fun q hq => h q (List.mem_cons_of_mem _ hq)
    unfold queryAll
    rw [h p (List.mem_cons_self ..)]
    cases collectResults env (plainEval fs) p variables hard soft () with
    | ok x =>
      obtain ⟨r, ⟨⟩⟩ := x
      simp only [Res.ok_bind, ih]
    | throw e => rfl
    | abort => rfl
    | ub k => rfl
    | hang => rfl

theorem query_rewritten (fs : FloatSys) (env : Env) (pick : U32 → Nat → Nat) (t : Trace) (q q' : Query)
    (h : q.Sensible env t) (hr : q.Rewritten fs q') (cache : PointsCache) (hc : ∀ e ∈ cache, ∀ p ∈ e.2, p ∈ t.points) :
    query env pick (plainEval fs) t q' cache () = query env pick (plainEval fs) t q cache () := by
  have hmem : ∀ p ∈ (getPoints t.points cache q.mask q.stmt).1, p ∈ t.points := by
    unfold getPoints
    split
    · next ps e =>
      intro p hp
      obtain ⟨k, hk⟩ : ∃ k, (k, ps) ∈ cache := by
        clear hc hp
        induction cache with
        | nil => cases e
        | cons c cs ih =>
          obtain ⟨a, b⟩ := c
          rw [List.lookup_cons] at e
          split at e
          · cases e; exact ⟨_, List.mem_cons_self ..⟩
          · obtain ⟨k, hk⟩ := ih e
            exact ⟨k, List.mem_cons_of_mem _ hk⟩
      exact hc _ hk p hp
    · intro p hp
      exact (List.mem_filter.mp hp).1
  have hcoll : ∀ p ∈ (getPoints t.points cache q.mask q.stmt).1, collectResults env (plainEval fs) p q.variables q'.hard q'.soft () =
      collectResults env (plainEval fs) p q.variables q.hard q.soft () := fun p hp =>
    collectResults_rewritten fs env t q.variables h.askable q.hard q'.hard h.hard hr.hard q.soft q'.soft h.soft hr.soft p (hmem p hp)
  unfold query
  rw [hr.variables, hr.seed, hr.mask, hr.stmt]
  generalize getPoints t.points cache q.mask q.stmt = x at hcoll
  obtain ⟨points, cache'⟩ := x
  have e : queryPoints env pick (plainEval fs) points q.variables q'.hard q'.soft q.seed () =
      queryPoints env pick (plainEval fs) points q.variables q.hard q.soft q.seed () := by
    unfold queryPoints
    rw [queryAll_rewritten hcoll]
    split
    · split
      · rfl
      · cases hk : points[pick q.seed points.length]? with
        | none => rfl
        | some p => exact hcoll p (List.mem_of_getElem? hk)
    · rfl
  simp only [e]

end TraceDB
