import Verif.Proofs.QueryLaws
/-
C122: laws of queries.
-/
namespace TraceDB

/-! C122 -/

/-- `v0 = 4`. -/
def qFour : Pred := .node .equal 2 [pVal 0, pNat 4]
/-- `v0 < 5`. -/
def qSmall : Pred := .node .lessThan 2 [pVal 0, pNat 5]
/-- Two points of one statement, with another value of the variable. -/
def qTwice : Trace := ⟨[], [], [⟨0, 7, [], [qVar 0 0 1], []⟩, ⟨1, 7, [], [qVar 0 0 4], []⟩, ⟨2, 8, [], [qVar 0 0 9], []⟩]⟩

theorem qFour_wellFormed : WellFormed 1 qFour :=
  ⟨_, .cmp (op := .eq) (.value (i := 0) (by decide)) .nat⟩

theorem qSmall_wellFormed : WellFormed 1 qSmall :=
  ⟨_, .cmp (op := .lt) (.value (i := 0) (by decide)) .nat⟩

theorem qTwice_askable : Askable qEnv qTwice [[0]] := ⟨by decide, by decide, by decide⟩

/-- C122.  The answers to the conjunction of two predicates are the answers to one of them that are
also answers to the other, in the same order. -/
theorem C122_and (fs : FloatSys) (env : Env) (pick : U32 → Nat → Nat) (t : Trace) (variables : List FreeVar)
    (h : Askable env t variables) (p q : Pred) (hp : WellFormed variables.length p) (hq : WellFormed variables.length q)
    (d mask stmt : U64) :
    ∃ ps qs, answersTo fs env pick t variables true p [] mask stmt = .ok ps ∧
      answersTo fs env pick t variables true q [] mask stmt = .ok qs ∧
      answersTo fs env pick t variables true (.node .and d [p, q]) [] mask stmt = .ok (ps.filter fun r => decide (r ∈ qs)) ∧
      answersTo fs env pick t variables true (.node .and d [p, q]) [] mask stmt = .ok (qs.filter fun r => decide (r ∈ ps)) := by
  obtain ⟨f, hf⟩ := hp
  obtain ⟨g, hg⟩ := hq
  refine ⟨_, _, answersTo_form fs env pick t variables h p f hf mask stmt, answersTo_form fs env pick t variables h q g hg mask stmt, ?_, ?_⟩
  all_goals
    rw [answersTo_form fs env pick t variables h _ _ (.and (.cons hf (.cons hg .nil)))]
    rw [List.filter_filter]
    congr 1
    refine List.filter_congr fun r hr => ?_
    simp only [Form.holds, List.mem_filter, hr, true_and, Bool.and_true, Bool.decide_eq_true]
  · exact Bool.and_comm _ _

example := C122_and exFloats qEnv (fun _ _ => 0) qTwice [[0]] qTwice_askable qSmall qFour qSmall_wellFormed qFour_wellFormed 2 0 0

/-- C122.  The answers to a disjunction are those of all combinations that are answers to one of the
two. -/
theorem C122_or (fs : FloatSys) (env : Env) (pick : U32 → Nat → Nat) (t : Trace) (variables : List FreeVar)
    (h : Askable env t variables) (p q : Pred) (hp : WellFormed variables.length p) (hq : WellFormed variables.length q)
    (d mask stmt : U64) :
    ∃ all ps qs, answersTo fs env pick t variables true .nullPred [] mask stmt = .ok all ∧
      answersTo fs env pick t variables true p [] mask stmt = .ok ps ∧
      answersTo fs env pick t variables true q [] mask stmt = .ok qs ∧
      answersTo fs env pick t variables true (.node .or d [p, q]) [] mask stmt =
        .ok (all.filter fun r => decide (r ∈ ps ∨ r ∈ qs)) := by
  obtain ⟨f, hf⟩ := hp
  obtain ⟨g, hg⟩ := hq
  refine ⟨_, _, _, answersTo_form fs env pick t variables h _ _ .null mask stmt,
    answersTo_form fs env pick t variables h p f hf mask stmt, answersTo_form fs env pick t variables h q g hg mask stmt, ?_⟩
  rw [answersTo_form fs env pick t variables h _ _ (.or (.cons hf (.cons hg .nil)))]
  rw [List.filter_filter]
  congr 1
  refine List.filter_congr fun r hr => ?_
  simp [Form.holds, List.mem_filter, hr]

example := C122_or exFloats qEnv (fun _ _ => 0) qTwice [[0]] qTwice_askable qSmall qFour qSmall_wellFormed qFour_wellFormed 2 0 0

/-- C122.  Every combination is an answer to a predicate or to its negation, and not to both. -/
theorem C122_not (fs : FloatSys) (env : Env) (pick : U32 → Nat → Nat) (t : Trace) (variables : List FreeVar)
    (h : Askable env t variables) (p : Pred) (hp : WellFormed variables.length p) (d mask stmt : U64) :
    ∃ all ps ns, answersTo fs env pick t variables true .nullPred [] mask stmt = .ok all ∧
      answersTo fs env pick t variables true p [] mask stmt = .ok ps ∧
      answersTo fs env pick t variables true (.node .not d [p]) [] mask stmt = .ok ns ∧
      ns = all.filter (fun r => decide (r ∉ ps)) ∧ ps.length + ns.length = all.length := by
  obtain ⟨f, hf⟩ := hp
  refine ⟨_, _, _, answersTo_form fs env pick t variables h _ _ .null mask stmt,
    answersTo_form fs env pick t variables h p f hf mask stmt, answersTo_form fs env pick t variables h _ _ (.not hf) mask stmt, ?_, ?_⟩
  · rw [List.filter_filter]
    refine List.filter_congr fun r hr => ?_
    simp [Form.holds, List.mem_filter, hr]
  · have : ∀ l : List Point, (l.filter fun r => f.holds (lowFloat fs) r.vars).length +
        (l.filter fun r => (Form.neg f).holds (lowFloat fs) r.vars).length =
        (l.filter fun r => Form.tt.holds (lowFloat fs) r.vars).length := by
      intro l
      induction l with
      | nil => rfl
      | cons r l ih =>
        simp only [List.filter_cons, Form.holds] at ih ⊢
        cases f.holds (lowFloat fs) r.vars <;> simp at ih ⊢ <;> omega
    exact this _

example := C122_not exFloats qEnv (fun _ _ => 0) qTwice [[0]] qTwice_askable qFour qFour_wellFormed 1 0 0

/-- C122.  Asking about some statements only gives those of all answers that are about them. -/
theorem C122_statements (fs : FloatSys) (env : Env) (pick : U32 → Nat → Nat) (t : Trace) (variables : List FreeVar)
    (h : Askable env t variables) (p : Pred) (hp : WellFormed variables.length p) (mask stmt : U64) :
    ∃ rs, answersTo fs env pick t variables true p [] 0 0 = .ok rs ∧
      answersTo fs env pick t variables true p [] mask stmt =
        .ok (rs.filter fun r => decide (r.statement &&& mask = stmt)) := by
  obtain ⟨f, hf⟩ := hp
  refine ⟨_, answersTo_form fs env pick t variables h p f hf 0 0, ?_⟩
  rw [answersTo_form fs env pick t variables h p f hf]
  congr 1
  rw [List.filter_filter]
  have key : ∀ l : List Point, ((passing l mask stmt).flatMap fun p => (combos (variables.map fun fv => matchingVars fv p.vars)).map (resultOf p)) =
      (l.flatMap fun p => (combos (variables.map fun fv => matchingVars fv p.vars)).map (resultOf p)).filter
        fun r => decide (r.statement &&& mask = stmt) := by
    intro l
    induction l with
    | nil => rfl
    | cons p l ih =>
      rw [List.flatMap_cons, List.filter_append, ← ih]
      have hs : ∀ b, (resultOf p b).statement = p.statement := fun _ => rfl
      by_cases hp : p.statement &&& mask = stmt
      · have e : passing (p :: l) mask stmt = p :: passing l mask stmt := by simp [passing, hp]
        rw [e, List.flatMap_cons]
        congr 1
        symm
        rw [List.filter_eq_self]
        intro r hr
        obtain ⟨b, _, rfl⟩ := List.mem_map.mp hr
        simpa [hs] using hp
      · have e : passing (p :: l) mask stmt = passing l mask stmt := by simp [passing, hp]
        rw [e]
        have : ((combos (variables.map fun fv => matchingVars fv p.vars)).map (resultOf p)).filter
            (fun r => decide (r.statement &&& mask = stmt)) = [] := by
          rw [List.filter_eq_nil_iff]
          intro r hr
          obtain ⟨b, _, rfl⟩ := List.mem_map.mp hr
          simpa [hs] using hp
        rw [this, List.nil_append]
  rw [allAnswers, key, List.filter_filter]
  have h0 : passing t.points 0 0 = t.points := passing_zero _
  rw [allAnswers, h0]
  refine List.filter_congr fun r _ => ?_
  rw [Bool.and_comm]

example := C122_statements exFloats qEnv (fun _ _ => 0) qTwice [[0]] qTwice_askable qSmall qSmall_wellFormed (2 ^ 64 - 1) 8

/-- C122.  Soft predicates only choose among the answers, and their order does not matter. -/
theorem C122_soft (fs : FloatSys) (env : Env) (pick : U32 → Nat → Nat) (t : Trace) (variables : List FreeVar)
    (h : Askable env t variables) (p : Pred) (hp : WellFormed variables.length p) (soft soft' : List Pred)
    (hs : ∀ q ∈ soft, WellFormed variables.length q) (hperm : soft.Perm soft') (mask stmt : U64) :
    ∃ all rs, answersTo fs env pick t variables true p [] mask stmt = .ok all ∧
      answersTo fs env pick t variables true p soft mask stmt = .ok rs ∧
      answersTo fs env pick t variables true p soft' mask stmt = .ok rs ∧ rs.Sublist all := by
  obtain ⟨f, hf⟩ := hp
  have hs' : ∀ q ∈ soft', WellFormed variables.length q := fun q hq => hs q (hperm.mem_iff.mpr hq)
  refine ⟨_, _, answersTo_soft fs env pick t variables h p f hf [] [] rfl (by simp) mask stmt,
    answersTo_soft fs env pick t variables h p f hf soft _ (by simp) (formsOf_read hs) mask stmt, ?_, ?_⟩
  · rw [answersTo_soft fs env pick t variables h p f hf soft' _ (by simp) (formsOf_read hs') mask stmt]
    congr 1
    refine flatMap_same fun x _ => bestAt_congr fs variables f _ _ x 0 fun r _ => ?_
    exact ((hperm.symm.map _).countP_eq _)
  · refine flatMap_sublist fun x _ => ?_
    have e : bestAt fs variables f [] x = (goodBindings (lowFloat fs) variables f x).map (resultOf x) := by
      unfold bestAt
      rw [List.filter_eq_self]
      intro r _
      simp [satCount]
    rw [e]
    exact List.filter_sublist

example := C122_soft exFloats qEnv (fun _ _ => 0) qTwice [[0]] qTwice_askable qSmall qSmall_wellFormed [qFour, qSmall] [qSmall, qFour]
  (by simp [qFour_wellFormed, qSmall_wellFormed]) (.swap ..) 0 0

/-- C122.  The hard predicate as a soft predicate changes nothing. -/
theorem C122_soft_hard (fs : FloatSys) (env : Env) (pick : U32 → Nat → Nat) (t : Trace) (variables : List FreeVar)
    (h : Askable env t variables) (p : Pred) (hp : WellFormed variables.length p) (soft : List Pred)
    (hs : ∀ q ∈ soft, WellFormed variables.length q) (mask stmt : U64) :
    ∃ rs, answersTo fs env pick t variables true p soft mask stmt = .ok rs ∧
      answersTo fs env pick t variables true p (p :: soft) mask stmt = .ok rs := by
  have hf := formOf_reads hp
  have hs' : ∀ q ∈ p :: soft, WellFormed variables.length q := List.forall_mem_cons.mpr ⟨hp, hs⟩
  refine ⟨_, answersTo_soft fs env pick t variables h p _ hf soft _ (by simp) (formsOf_read hs) mask stmt, ?_⟩
  rw [answersTo_soft fs env pick t variables h p _ hf (p :: soft) _ (by simp) (formsOf_read hs') mask stmt]
  congr 1
  refine flatMap_same fun x _ => bestAt_congr fs variables _ _ _ x 1 fun r hr => ?_
  obtain ⟨b, hb, rfl⟩ := List.mem_map.mp hr
  have hb' : (formOf variables.length p).holds (lowFloat fs) (resultOf x b).vars = true := (List.mem_filter.mp hb).2
  unfold satCount
  rw [List.map_cons, List.countP_cons, if_pos hb']

example := C122_soft_hard exFloats qEnv (fun _ _ => 0) qTwice [[0]] qTwice_askable qSmall qSmall_wellFormed [qFour] (by simp [qFour_wellFormed]) 0 0

example : answersTo exFloats qEnv (fun _ _ => 0) qTwice [[0]] true (.node .and 2 [qSmall, qFour]) [] 0 0 =
      .ok [⟨1, 7, [], [qVar 0 0 4], []⟩] ∧
    answersTo exFloats qEnv (fun _ _ => 0) qTwice [[0]] true (.node .not 1 [qFour]) [] 0 0 =
      .ok [⟨0, 7, [], [qVar 0 0 1], []⟩, ⟨2, 8, [], [qVar 0 0 9], []⟩] ∧
    answersTo exFloats qEnv (fun _ _ => 0) qTwice [[0]] true qSmall [] (2 ^ 64 - 1) 8 = .ok [] ∧
    answersTo exFloats qEnv (fun _ _ => 0) qTwice [[0]] true qSmall [qFour] 0 0 =
      .ok [⟨0, 7, [], [qVar 0 0 1], []⟩, ⟨1, 7, [], [qVar 0 0 4], []⟩] := by decide +kernel

/-- C122.  None of this holds if duplicates are removed: `(and (< v0 5) (= v0 4))` has an answer that
neither is an answer to `(< v0 5)`, nor has it one, because there another answer with the same statement
and variable comes first; and a predicate and its negation can together have more answers than
there are. -/
theorem C122_duplicates_removed :
    answersTo exFloats qEnv (fun _ _ => 0) qTwice [[0]] false qSmall [] 0 0 = .ok [⟨0, 7, [], [qVar 0 0 1], []⟩] ∧
    answersTo exFloats qEnv (fun _ _ => 0) qTwice [[0]] false (.node .and 2 [qSmall, qFour]) [] 0 0 =
      .ok [⟨1, 7, [], [qVar 0 0 4], []⟩] ∧
    answersTo exFloats qEnv (fun _ _ => 0) qTwice [[0]] false .nullPred [] 0 0 =
      .ok [⟨0, 7, [], [qVar 0 0 1], []⟩, ⟨2, 8, [], [qVar 0 0 9], []⟩] ∧
    answersTo exFloats qEnv (fun _ _ => 0) qTwice [[0]] false qFour [] 0 0 = .ok [⟨1, 7, [], [qVar 0 0 4], []⟩] ∧
    answersTo exFloats qEnv (fun _ _ => 0) qTwice [[0]] false (.node .not 1 [qFour]) [] 0 0 =
      .ok [⟨0, 7, [], [qVar 0 0 1], []⟩, ⟨2, 8, [], [qVar 0 0 9], []⟩] := by decide +kernel

end TraceDB
