import Verif.Proofs.QueryDistinct
import Verif.Props.QueryOrder
/-
C125: laws of queries whose answers are distinct.
-/
namespace TraceDB

/-- C125.  A query about some statements has the answers of the query about all of them that are at these
statements. -/
theorem C125_statements (fs : FloatSys) (env : Env) (pick : U32 → Nat → Nat) (t : Trace) (variables : List FreeVar)
    (h : Askable env t variables) (p : Pred) (hp : WellFormed variables.length p) (mask stmt : U64) :
    ∃ rs, answersTo fs env pick t variables false p [] 0 0 = .ok rs ∧
      answersTo fs env pick t variables false p [] mask stmt =
        .ok (rs.filter fun r => decide (r.statement &&& mask = stmt)) := by
  obtain ⟨rs, h1, h2⟩ := C122_statements fs env pick t variables h p hp mask stmt
  refine ⟨_, answersTo_distinct h1, ?_⟩
  rw [answersTo_distinct h2, deduplicate_filter]
  intro a b e
  simp only [(Prod.mk.inj e).1]

example := C125_statements exFloats qEnv (fun _ _ => 0) qTwice [[0]] qTwice_askable qSmall qSmall_wellFormed (2 ^ 64 - 1) 8

/-- C125.  If a query allows fewer types, its answers are those of the wider query with these types. -/
theorem C125_types (fs : FloatSys) (env : Env) (pick : U32 → Nat → Nat) (t : Trace) (variables wider : List FreeVar)
    (hw : Wider variables wider) (h : Askable env t variables) (h' : Askable env t wider) (p : Pred)
    (hp : WellFormed variables.length p) (mask stmt : U64) :
    ∃ rs, answersTo fs env pick t wider false p [] mask stmt = .ok rs ∧
      answersTo fs env pick t variables false p [] mask stmt = .ok (rs.filter fun r => fitsTypes variables r.vars) := by
  obtain ⟨rs, h1, h2⟩ := C123_types fs env pick t variables wider hw h h' p hp mask stmt
  refine ⟨_, answersTo_distinct h1, ?_⟩
  rw [answersTo_distinct h2, deduplicate_filter]
  intro a b e
  exact fitsTypes_binding _ _ _ (Prod.mk.inj e).2

example := C125_types exFloats qEnv (fun _ _ => 0) qMixed [[0]] [[0, 1]] (by simp [Wider])
  (qMixed_askable _ (.inl rfl)) (qMixed_askable _ (.inr rfl)) qSmall qSmall_wellFormed 0 0

/-- C125.  Variables of types that no free variable allows do not matter. -/
theorem C125_unused (fs : FloatSys) (env : Env) (pick : U32 → Nat → Nat) (t : Trace) (variables : List FreeVar)
    (h : Askable env t variables) (p : Pred) (hp : WellFormed variables.length p) (soft : List Pred)
    (hs : ∀ q ∈ soft, WellFormed variables.length q) (mask stmt : U64) :
    ∃ rs, answersTo fs env pick t variables false p soft mask stmt = .ok rs ∧
      answersTo fs env pick (t.withVars (usableVars variables)) variables false p soft mask stmt = .ok rs := by
  obtain ⟨rs, h1, h2⟩ := C123_unused fs env pick t variables h p hp soft hs mask stmt
  exact ⟨_, answersTo_distinct h1, answersTo_distinct h2⟩

example := C125_unused exFloats qEnv (fun _ _ => 0) qMixed [[0, 1]] (qMixed_askable _ (.inr rfl)) qSmall qSmall_wellFormed
  [qFour] (by simp [qFour_wellFormed]) 0 0

/-- C125.  More points only add answers, after the others: those about the new points that bind
something new. -/
theorem C125_points (fs : FloatSys) (env : Env) (pick : U32 → Nat → Nat) (t : Trace) (ps : List Point)
    (variables : List FreeVar) (h : Askable env (t.withPoints ps) variables) (p : Pred)
    (hp : WellFormed variables.length p) (soft : List Pred) (hs : ∀ q ∈ soft, WellFormed variables.length q)
    (mask stmt : U64) :
    ∃ rs rs', answersTo fs env pick t variables false p soft mask stmt = .ok rs ∧
      answersTo fs env pick { t with points := ps } variables false p soft mask stmt = .ok rs' ∧
      answersTo fs env pick (t.withPoints ps) variables false p soft mask stmt =
        .ok (rs ++ rs'.filter fun r => decide (r.binding ∉ rs.map Point.binding)) := by
  obtain ⟨rs, rs', h1, h2, h3⟩ := C123_points fs env pick t ps variables h p hp soft hs mask stmt
  refine ⟨_, _, answersTo_distinct h1, answersTo_distinct h2, ?_⟩
  rw [answersTo_distinct h3, deduplicate_append]

example := C125_points exFloats qEnv (fun _ _ => 0) ⟨[], [], qMixed.points.take 1⟩ (qMixed.points.drop 1) [[0, 1]]
  (qMixed_askable _ (.inr rfl)) qSmall qSmall_wellFormed [qFour] (by simp [qFour_wellFormed]) 0 0

/-- C125.  What the answers to `or` bind is what the answers to one of the two bind; what the answers to `and` bind
is bound by answers to both; and what any combination binds is bound by an answer to a predicate or to its
negation. -/
theorem C125_connectives (fs : FloatSys) (env : Env) (pick : U32 → Nat → Nat) (t : Trace) (variables : List FreeVar)
    (h : Askable env t variables) (p q : Pred) (hp : WellFormed variables.length p) (hq : WellFormed variables.length q)
    (d mask stmt : U64) :
    ∃ all ps qs os as ns, answersTo fs env pick t variables false .nullPred [] mask stmt = .ok all ∧
      answersTo fs env pick t variables false p [] mask stmt = .ok ps ∧
      answersTo fs env pick t variables false q [] mask stmt = .ok qs ∧
      answersTo fs env pick t variables false (.node .or d [p, q]) [] mask stmt = .ok os ∧
      answersTo fs env pick t variables false (.node .and d [p, q]) [] mask stmt = .ok as ∧
      answersTo fs env pick t variables false (.node .not d [p]) [] mask stmt = .ok ns ∧
      (∀ b, b ∈ os.map Point.binding ↔ b ∈ ps.map Point.binding ∨ b ∈ qs.map Point.binding) ∧
      (∀ b, b ∈ as.map Point.binding → b ∈ ps.map Point.binding ∧ b ∈ qs.map Point.binding) ∧
      (∀ b, b ∈ all.map Point.binding ↔ b ∈ ps.map Point.binding ∨ b ∈ ns.map Point.binding) := by
  obtain ⟨all, ps, qs, h1, h2, h3, h4⟩ := C122_or fs env pick t variables h p q hp hq d mask stmt
  obtain ⟨ps1, qs1, g1, g2, g3, _⟩ := C122_and fs env pick t variables h p q hp hq d mask stmt
  obtain ⟨all1, ps2, ns, k1, k2, k3, k4, _⟩ := C122_not fs env pick t variables h p hp d mask stmt
  cases h2.symm.trans g1
  cases h3.symm.trans g2
  cases h1.symm.trans k1
  cases h2.symm.trans k2
  have sub : ∀ x p', WellFormed variables.length p' → answersTo fs env pick t variables true p' [] mask stmt = .ok x →
      ∀ r ∈ x, r ∈ all := by
    rintro x p' ⟨f, hf⟩ hx r hr
    rw [answersTo_form fs env pick t variables h p' f hf] at hx
    have h0 := h1.symm.trans (answersTo_form fs env pick t variables h _ _ .null mask stmt)
    cases hx
    cases h0
    obtain ⟨m1, _⟩ := List.mem_filter.mp hr
    exact List.mem_filter.mpr ⟨m1, by simp [Form.holds]⟩
  refine ⟨_, _, _, _, _, _, answersTo_distinct h1, answersTo_distinct h2, answersTo_distinct h3, answersTo_distinct h4,
    answersTo_distinct g3, answersTo_distinct k3, fun b => ?_, fun b => ?_, fun b => ?_⟩
  · simp only [mem_deduplicate]
    simp only [List.mem_map, List.mem_filter, decide_eq_true_eq]
    constructor
    · rintro ⟨r, ⟨_, hr | hr⟩, e⟩
      · exact .inl ⟨r, hr, e⟩
      · exact .inr ⟨r, hr, e⟩
    · rintro (⟨r, hr, e⟩ | ⟨r, hr, e⟩)
      · exact ⟨r, ⟨sub _ _ hp h2 r hr, .inl hr⟩, e⟩
      · exact ⟨r, ⟨sub _ _ hq h3 r hr, .inr hr⟩, e⟩
  · simp only [mem_deduplicate]
    simp only [List.mem_map, List.mem_filter, decide_eq_true_eq]
    rintro ⟨r, ⟨h1, h2⟩, e⟩
    exact ⟨⟨r, h1, e⟩, ⟨r, h2, e⟩⟩
  · rw [k4]
    simp only [mem_deduplicate]
    simp only [List.mem_map, List.mem_filter, decide_eq_true_eq]
    constructor
    · rintro ⟨r, hr, e⟩
      by_cases hm : r ∈ ps
      · exact .inl ⟨r, hm, e⟩
      · exact .inr ⟨r, ⟨hr, hm⟩, e⟩
    · rintro (⟨r, hr, e⟩ | ⟨r, ⟨hr, _⟩, e⟩)
      · exact ⟨r, sub _ _ hp h2 r hr, e⟩
      · exact ⟨r, hr, e⟩

example := C125_connectives exFloats qEnv (fun _ _ => 0) qTwice [[0]] qTwice_askable qSmall qFour qSmall_wellFormed
  qFour_wellFormed 2 0 0

/-- C125.  Soft predicates only choose among the bindings, and their order does not matter. -/
theorem C125_soft (fs : FloatSys) (env : Env) (pick : U32 → Nat → Nat) (t : Trace) (variables : List FreeVar)
    (h : Askable env t variables) (p : Pred) (hp : WellFormed variables.length p) (soft soft' : List Pred)
    (hs : ∀ q ∈ soft, WellFormed variables.length q) (hperm : soft.Perm soft') (mask stmt : U64) :
    ∃ all rs, answersTo fs env pick t variables false p [] mask stmt = .ok all ∧
      answersTo fs env pick t variables false p soft mask stmt = .ok rs ∧
      answersTo fs env pick t variables false p soft' mask stmt = .ok rs ∧
      ∀ b ∈ rs.map Point.binding, b ∈ all.map Point.binding := by
  obtain ⟨all, rs, h1, h2, h3, h4⟩ := C122_soft fs env pick t variables h p hp soft soft' hs hperm mask stmt
  refine ⟨_, _, answersTo_distinct h1, answersTo_distinct h2, answersTo_distinct h3, fun b hb => ?_⟩
  rw [mem_deduplicate] at hb ⊢
  exact (h4.map _).subset hb

example := C125_soft exFloats qEnv (fun _ _ => 0) qTwice [[0]] qTwice_askable qSmall qSmall_wellFormed [qFour, qSmall]
  [qSmall, qFour] (by simp [qFour_wellFormed, qSmall_wellFormed]) (.swap _ _ _) 0 0

/-- C125.  A query with its free variables in another order binds the same, in the other order. -/
theorem C125_order (fs : FloatSys) (env : Env) (pick : U32 → Nat → Nat) (t : Trace) (variables : List FreeVar)
    (h : Askable env t variables) (order : List Nat) (ho : order.Perm (List.range variables.length))
    (hn : variables.length ≤ 2 ^ 64) (p : Pred) (hp : WellFormed variables.length p) (soft : List Pred)
    (hs : ∀ q ∈ soft, WellFormed variables.length q) (mask stmt : U64) :
    ∃ rs rs', answersTo fs env pick t variables false p soft mask stmt = .ok rs ∧
      answersTo fs env pick t (reorder order variables) false (p.reordered order) (soft.map (Pred.reordered order)) mask stmt =
        .ok rs' ∧
      (rs'.map Point.binding).Perm (rs.map fun r => (r.binding.1, reorder order r.binding.2)) := by
  obtain ⟨rs, rs', h1, h2, h3⟩ := C124_order fs env pick t variables h order ho hn p hp soft hs mask stmt
  have hlen := answers_length fs env pick t variables h p hp soft hs mask stmt rs h1
  refine ⟨_, _, answersTo_distinct h1, answersTo_distinct h2, ?_⟩
  have e : ((deduplicate rs).map fun r => (r.binding.1, reorder order r.binding.2)) =
      ((deduplicate rs).map Point.binding).map fun b => (b.1, reorder order b.2) := by rw [List.map_map]; rfl
  rw [e]
  refine (List.perm_ext_iff_of_nodup (deduplicate_nodup rs') ?_).mpr fun b => ?_
  · unfold List.Nodup
    rw [List.pairwise_map]
    refine (deduplicate_nodup rs).imp_of_mem fun {a b} ha hb hne hab => hne ?_
    rw [mem_deduplicate] at ha hb
    obtain ⟨x, hx, rfl⟩ := List.mem_map.mp ha
    obtain ⟨y, hy, rfl⟩ := List.mem_map.mp hb
    obtain ⟨e1, e2⟩ := Prod.mk.inj hab
    refine Prod.ext e1 ((orderOf ho).inj ?_ ?_ e2)
    · simp [Point.binding, hlen x hx]
    · simp [Point.binding, hlen y hy]
  · rw [mem_deduplicate, (h3.map Point.binding).mem_iff, List.map_map, List.mem_map, List.mem_map]
    constructor
    · rintro ⟨r, hr, e⟩
      exact ⟨r.binding, (mem_deduplicate _ _).mpr (List.mem_map_of_mem hr), by rw [← e]; exact (reorderAnswer_binding order r).symm⟩
    · rintro ⟨c, hc, e⟩
      rw [mem_deduplicate] at hc
      obtain ⟨r, hr, rfl⟩ := List.mem_map.mp hc
      exact ⟨r, hr, by rw [← e]; exact reorderAnswer_binding order r⟩

example := C125_order exFloats qEnv (fun _ _ => 0) qMixed [[0], [1, 2]] ⟨by decide, by decide, by decide⟩ [1, 0]
  (.swap 0 1 []) (by decide) qBelow qBelow_wellFormed [qBelow] (by simp [qBelow_wellFormed]) 0 0

end TraceDB
