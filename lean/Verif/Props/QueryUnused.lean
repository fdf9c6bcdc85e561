import Verif.Proofs.QueryUnused
import Verif.Props.QueryOrder
/-
C128: free variables that the predicates do not mention.
-/
namespace TraceDB

/-- C128.  A further free variable that the predicates do not mention extends every answer at a point by every variable there
that has one of its types. -/
theorem C128_unused (fs : FloatSys) (env : Env) (pick : U32 → Nat → Nat) (t : Trace) (variables : List FreeVar) (fv : FreeVar)
    (h : Askable env t variables) (h' : Askable env t (variables ++ [fv])) (p : Pred) (hp : WellFormed variables.length p)
    (soft : List Pred) (hs : ∀ q ∈ soft, WellFormed variables.length q) (mask stmt : U64) :
    ∃ answers : Point → List Point,
      (∀ x ∈ t.points, answersTo fs env pick { t with points := [x] } variables true p soft 0 0 = .ok (answers x)) ∧
      answersTo fs env pick t variables true p soft mask stmt = .ok ((passing t.points mask stmt).flatMap answers) ∧
      answersTo fs env pick t (variables ++ [fv]) true p soft mask stmt =
        .ok ((passing t.points mask stmt).flatMap fun x => (x.varsOf fv).flatMap fun v =>
          (answers x).map fun r => r.extended v) := by
  have hf := formOf_reads hp
  have hle : variables.length ≤ (variables ++ [fv]).length := by simp
  have hsf := formsOf_read hs
  refine ⟨bestAt fs variables (formOf variables.length p) (soft.map (formOf variables.length)), fun x hx => ?_,
    answersTo_soft fs env pick t variables h p _ hf soft _ (by simp) hsf mask stmt, ?_⟩
  · have hx' : Askable env { t with points := [x] } variables := ⟨h.vars, fun y hy => h.canonical y (by
      rw [List.mem_singleton.mp hy]; exact hx), fun y hy => h.size y (by rw [List.mem_singleton.mp hy]; exact hx)⟩
    rw [answersTo_soft fs env pick _ variables hx' p _ hf soft _ (by simp) hsf 0 0]
    simp [passing]
  · rw [answersTo_soft fs env pick t _ h' p _ (readsForm_mono hle hf) soft (soft.map (formOf variables.length)) (by simp)
      (fun i q g h1 h2 => readsForm_mono hle (hsf i q g h1 h2)) mask stmt]
    congr 1
    refine flatMap_same fun x _ => ?_
    simp only [bestAt_eq]
    rw [hardAt_last fs variables fv hf, bestOf_last]
    intro r hr v
    refine satCount_forms (lowFloat fs) (formOf variables.length) (formOf variables.length) r (r.extended v) soft fun q hq => ?_
    exact holds_append _ (hardAt_length fs hr) v (formOf_reads (hs q hq))

example := C128_unused exFloats qEnv (fun _ _ => 0) qMixed [[0, 1]] [1, 2] (qMixed_askable _ (.inr rfl))
  ⟨by decide, by decide, by decide⟩ qSmall qSmall_wellFormed [qFour] (by simp [qFour_wellFormed]) 0 0

/-- C128.  So there is no answer at a point without a variable of these types, though there was one
before; and several where there are several. -/
theorem C128_points :
    answersTo exFloats qEnv (fun _ _ => 0) qMixed [[0]] true qSmall [] 0 0 =
      .ok [⟨0, 7, [], [qVar 0 0 1], [5]⟩, ⟨1, 8, [], [qVar 0 0 3], []⟩] ∧
    answersTo exFloats qEnv (fun _ _ => 0) qMixed [[0], [2]] true qSmall [] 0 0 =
      .ok [⟨0, 7, [], [qVar 0 0 1, qVar 1 2 6], [5]⟩] ∧
    answersTo exFloats qEnv (fun _ _ => 0) qMixed [[0], [1, 2]] true qSmall [] 0 0 =
      .ok [⟨0, 7, [], [qVar 0 0 1, qVar 1 2 6], [5]⟩, ⟨0, 7, [], [qVar 0 0 1, qVar 2 1 4], [5]⟩,
        ⟨1, 8, [], [qVar 0 0 3, qVar 2 1 9], []⟩] := by decide +kernel

end TraceDB
