import Verif.Proofs.QueryVariables
import Verif.Props.QueryLaws
/-
C123: laws about free variables, and about the variables and points of a trace.
-/
namespace TraceDB

/-- Two points with variables of three types. -/
def qMixed : Trace := ⟨[], [], [⟨0, 7, [], [qVar 0 0 1, qVar 1 2 6, qVar 2 1 4], [5]⟩, ⟨1, 8, [], [qVar 2 1 9, qVar 0 0 3], []⟩]⟩

theorem qMixed_askable (types : List FreeVar) (h : types = [[0]] ∨ types = [[0, 1]]) : Askable qEnv qMixed types := by
  rcases h with rfl | rfl <;> exact ⟨by decide, by decide, by decide⟩

/-- C123.  If a query allows fewer types, its answers are those of the wider query with these
types, in the same order. -/
theorem C123_types (fs : FloatSys) (env : Env) (pick : U32 → Nat → Nat) (t : Trace) (variables wider : List FreeVar)
    (hw : Wider variables wider) (h : Askable env t variables) (h' : Askable env t wider) (p : Pred)
    (hp : WellFormed variables.length p) (mask stmt : U64) :
    ∃ rs, answersTo fs env pick t wider true p [] mask stmt = .ok rs ∧
      answersTo fs env pick t variables true p [] mask stmt = .ok (rs.filter fun r => fitsTypes variables r.vars) := by
  obtain ⟨f, hf⟩ := hp
  refine ⟨_, answersTo_form fs env pick t wider h' p f (hw.length ▸ hf) mask stmt, ?_⟩
  rw [answersTo_form fs env pick t variables h p f hf, List.filter_filter]
  unfold allAnswers
  simp only [results_answersAt, ← flatMap_filter_eq]
  congr 1
  refine flatMap_same fun x _ => ?_
  rw [answersAt_wider hw, List.filter_filter]
  refine List.filter_congr fun r _ => Bool.and_comm _ _

example := C123_types exFloats qEnv (fun _ _ => 0) qMixed [[0]] [[0, 1]] (by simp [Wider])
  (qMixed_askable _ (.inl rfl)) (qMixed_askable _ (.inr rfl)) qSmall qSmall_wellFormed 0 0

/-- C123.  Variables of types that no free variable allows do not matter. -/
theorem C123_unused (fs : FloatSys) (env : Env) (pick : U32 → Nat → Nat) (t : Trace) (variables : List FreeVar)
    (h : Askable env t variables) (p : Pred) (hp : WellFormed variables.length p) (soft : List Pred)
    (hs : ∀ q ∈ soft, WellFormed variables.length q) (mask stmt : U64) :
    ∃ rs, answersTo fs env pick t variables true p soft mask stmt = .ok rs ∧
      answersTo fs env pick (t.withVars (usableVars variables)) variables true p soft mask stmt = .ok rs := by
  have hf := formOf_reads hp
  have h' : Askable env (t.withVars (usableVars variables)) variables := by
    refine ⟨h.vars, ?_, ?_⟩
    · intro q hq v hv
      obtain ⟨x, hx, rfl⟩ := List.mem_map.mp hq
      exact h.canonical x hx v (List.mem_filter.mp hv).1
    · intro q hq
      obtain ⟨x, hx, rfl⟩ := List.mem_map.mp hq
      obtain ⟨a1, a2, a3⟩ := h.size x hx
      refine ⟨Nat.lt_of_le_of_lt (List.length_filter_le ..) a1, ?_, ?_⟩
      · rw [combinations_usable]; exact a2
      · rw [combinations_usable]; exact a3
  refine ⟨_, answersTo_soft fs env pick t variables h p _ hf soft _ (by simp) (formsOf_read hs) mask stmt, ?_⟩
  rw [answersTo_soft fs env pick _ variables h' p _ hf soft _ (by simp) (formsOf_read hs) mask stmt]
  unfold Trace.withVars
  rw [passing_withVars, List.flatMap_map]
  congr 1
  refine flatMap_same fun x _ => ?_
  rw [bestAt_eq, bestAt_eq]
  unfold hardAt
  rw [answersAt_usable]

example := C123_unused exFloats qEnv (fun _ _ => 0) qMixed [[0, 1]] (qMixed_askable _ (.inr rfl)) qSmall qSmall_wellFormed
  [qFour] (by simp [qFour_wellFormed]) 0 0

/-- C123.  The order of the variables at a point only changes the order of the answers. -/
theorem C123_order (fs : FloatSys) (env : Env) (pick : U32 → Nat → Nat) (t : Trace) (variables : List FreeVar)
    (h : Askable env t variables) (vars : Point → List VarInfo) (hv : ∀ x ∈ t.points, (vars x).Perm x.vars)
    (p : Pred) (hp : WellFormed variables.length p) (soft : List Pred)
    (hs : ∀ q ∈ soft, WellFormed variables.length q) (mask stmt : U64) :
    ∃ rs rs', answersTo fs env pick t variables true p soft mask stmt = .ok rs ∧
      answersTo fs env pick (t.withVars vars) variables true p soft mask stmt = .ok rs' ∧ rs'.Perm rs := by
  have hf := formOf_reads hp
  have hcomb : ∀ x ∈ t.points, combinations variables (vars x) = combinations variables x.vars := fun x hx => by
    unfold combinations
    congr 1
    refine List.map_congr_left fun fv _ => ?_
    exact (hv x hx).countP_eq _
  have h' : Askable env (t.withVars vars) variables := by
    refine ⟨h.vars, ?_, ?_⟩
    · intro q hq v hv'
      obtain ⟨x, hx, rfl⟩ := List.mem_map.mp hq
      exact h.canonical x hx v ((hv x hx).mem_iff.mp hv')
    · intro q hq
      obtain ⟨x, hx, rfl⟩ := List.mem_map.mp hq
      obtain ⟨a1, a2, a3⟩ := h.size x hx
      refine ⟨(hv x hx).length_eq ▸ a1, ?_, ?_⟩
      · rw [hcomb x hx]; exact a2
      · rw [hcomb x hx]; exact a3
  refine ⟨_, _, answersTo_soft fs env pick t variables h p _ hf soft _ (by simp) (formsOf_read hs) mask stmt,
    answersTo_soft fs env pick _ variables h' p _ hf soft _ (by simp) (formsOf_read hs) mask stmt, ?_⟩
  unfold Trace.withVars
  rw [passing_withVars, List.flatMap_map]
  refine flatMap_perm _ fun x hx => ?_
  rw [bestAt_eq, bestAt_eq]
  exact bestOf_perm fs _ (hardAt_perm fs variables _ x (hv x (List.mem_filter.mp hx).1))

example := C123_order exFloats qEnv (fun _ _ => 0) qMixed [[0, 1]] (qMixed_askable _ (.inr rfl)) (fun x => x.vars.reverse)
  (fun _ _ => List.reverse_perm _) qSmall qSmall_wellFormed [qFour] (by simp [qFour_wellFormed]) 0 0

/-- C123.  More points only add answers, after the others. -/
theorem C123_points (fs : FloatSys) (env : Env) (pick : U32 → Nat → Nat) (t : Trace) (ps : List Point)
    (variables : List FreeVar) (h : Askable env (t.withPoints ps) variables) (p : Pred)
    (hp : WellFormed variables.length p) (soft : List Pred) (hs : ∀ q ∈ soft, WellFormed variables.length q)
    (mask stmt : U64) :
    ∃ rs rs', answersTo fs env pick t variables true p soft mask stmt = .ok rs ∧
      answersTo fs env pick { t with points := ps } variables true p soft mask stmt = .ok rs' ∧
      answersTo fs env pick (t.withPoints ps) variables true p soft mask stmt = .ok (rs ++ rs') := by
  have hf := formOf_reads hp
  have h1 : Askable env t variables := ⟨h.vars, fun x hx => h.canonical x (List.mem_append_left _ hx),
    fun x hx => h.size x (List.mem_append_left _ hx)⟩
  have h2 : Askable env { t with points := ps } variables := ⟨h.vars, fun x hx => h.canonical x (List.mem_append_right _ hx),
    fun x hx => h.size x (List.mem_append_right _ hx)⟩
  refine ⟨_, _, answersTo_soft fs env pick t variables h1 p _ hf soft _ (by simp) (formsOf_read hs) mask stmt,
    answersTo_soft fs env pick _ variables h2 p _ hf soft _ (by simp) (formsOf_read hs) mask stmt, ?_⟩
  rw [answersTo_soft fs env pick _ variables h p _ hf soft _ (by simp) (formsOf_read hs) mask stmt]
  unfold Trace.withPoints passing
  rw [List.filter_append, List.flatMap_append]

example := C123_points exFloats qEnv (fun _ _ => 0) ⟨[], [], qMixed.points.take 1⟩ (qMixed.points.drop 1) [[0, 1]]
  (qMixed_askable _ (.inr rfl)) qSmall qSmall_wellFormed [qFour] (by simp [qFour_wellFormed]) 0 0

example : answersTo exFloats qEnv (fun _ _ => 0) qMixed [[0, 1]] true qSmall [] 0 0 =
      .ok [⟨0, 7, [], [qVar 0 0 1], [5]⟩, ⟨0, 7, [], [qVar 2 1 4], [5]⟩, ⟨1, 8, [], [qVar 0 0 3], []⟩] ∧
    answersTo exFloats qEnv (fun _ _ => 0) qMixed [[0]] true qSmall [] 0 0 =
      .ok [⟨0, 7, [], [qVar 0 0 1], [5]⟩, ⟨1, 8, [], [qVar 0 0 3], []⟩] := by decide +kernel

/-- C123.  With soft predicates, allowing more types can lose answers. -/
theorem C123_types_soft :
    answersTo exFloats qEnv (fun _ _ => 0) qMixed [[0]] true qSmall [qFour] 0 0 =
      .ok [⟨0, 7, [], [qVar 0 0 1], [5]⟩, ⟨1, 8, [], [qVar 0 0 3], []⟩] ∧
    answersTo exFloats qEnv (fun _ _ => 0) qMixed [[0, 1]] true qSmall [qFour] 0 0 =
      .ok [⟨0, 7, [], [qVar 2 1 4], [5]⟩, ⟨1, 8, [], [qVar 0 0 3], []⟩] := by decide +kernel

end TraceDB
