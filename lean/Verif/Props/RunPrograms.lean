import Verif.Proofs.RunPrograms
import Verif.Spec.RunPrograms
import Verif.Props.Scripts
import Verif.Props.AnyRuns
/-
C120: Lisp programs that handle errors, on databases of runs of every kind.
-/
namespace TraceDB

/-- **C120.**  A Lisp program that handles errors and decides by the answers what it does next adds files left
by runs of every kind, and perhaps files from which nothing can be read.  Whatever it has done before, also
with errors: reading a trace then shows statements passed by its run as its kind allows, and a query returns
exactly the best answers among them, without an error. -/
theorem C120_programs {μ : Type} (fs : FloatSys) (w : World) (cf : CFloat) (mem : CMem) (version : Nat) (hv : version < 2 ^ 32)
    (runOf : μ → ProjRun) (may : μ → List ProjVisit → Prop) (whole : μ → Prop) (p : Script μ) (hp : p.NoFilters)
    (xs : List (Option (LispAnswer μ))) (r : Option Bool) (h1 : LispHeap μ)
    (e : p.run w version (plainEval fs) (⟨[], []⟩, []) = .ok (r, h1, xs))
    (hadds : p.AddsRuns w.env cf mem runOf may whole xs r)
    (hal : ∀ n, w.env.canAlloc n = true) (henv : w.env.junk.isSome = true) :
    ∃ ops, p.Chooses ops xs r ∧ ∀ (i idx : Nat) (t : Trace) (m : μ) (only : Option Nat)
      (_ : (SpecHeap.after w.env ⟨[], []⟩ (succeeded ops xs)).find i idx = some (t, m, only))
      (names : List Nat) (s : SExp) (f : Form) (_ : SexpPredicate names s f) (ss : List SExp) (sf : List Form)
      (_ : AllRel (SexpPredicate names) ss sf)
      (varTypes : List (List (List U8))) (_ : names.length = varTypes.length) (_ : names.length < 2 ^ 64)
      (_ : varTypes ≠ []) (_ : ∀ ts ∈ varTypes, ∀ n ∈ ts, (runOf m).header.HasType n) (seed : U32)
      (_ : ∀ n, 0 < n → w.pick seed n < n) (file : Option Nat)
      (_ : ∀ i, file.or only = some i → i < 2 ^ 23) (filter : Option (LPoint → Bool)) (n : Nat) (_ : n < 2 ^ 32)
      (_ : ∀ l ∈ (runOf m).threads, ∀ v ∈ l, ∀ l, v.Shown (instrumentationFiles (runOf m).evolve) l → l.Answerable varTypes n),
      ∃ all ps hard softs chosen rs h₁ h₂,
        may m all ∧
        AllRel (ProjVisit.Shown (instrumentationFiles (runOf m).evolve)) (limited (runOf m).limit all) ps ∧
        handledStep w version (plainEval fs) (.get i idx file) h1 = .ok (some (.trace (ofFile (file.or only) ps) m), h₁) ∧
        SexpRoot names s hard ∧ SexpRoots names ss softs ∧
        handledStep w version (plainEval fs) (.query i idx ⟨varTypes, hard, softs, seed, file, filter⟩) h1 =
          .ok (some (.results rs (some m)), h₂) ∧
        LooksAt seed (ofFile (file.or only) ps) chosen ∧ AnswersAll (BestAnswers fs chosen varTypes filter f sf) filter rs := by
  obtain ⟨ops, hc, hr⟩ := (C117_programs w version (plainEval fs) p hp _ _ xs r).mp e
  obtain ⟨-, ⟨h2, hrun, hA⟩, -⟩ := C117_errors w version (plainEval fs) ops xs h1 hr
  obtain ⟨a1, a2, a3⟩ := hadds ops hc
  refine ⟨ops, hc, ?_⟩
  intro i idx t m only hfind names s f hf ss sf hsf varTypes hvl hl hne hknown seed hpick file hfile filter n hn hq
  obtain ⟨all, ps, hard, softs, chosen, rs, g1, g2, k1, k2, k3, k4, k5, k6, k7, k8⟩ :=
    C118_queries fs w cf mem version hv runOf may whole _ a1 a2 a3 hal henv _ _ hrun i idx t m only hfind names s f hf ss sf hsf
      varTypes hvl hl hne hknown seed hpick file hfile filter n hn hq
  obtain ⟨h₁, e1, -⟩ := handledStep_of_alike w version _ hA k3
  obtain ⟨h₂, e2, -⟩ := handledStep_of_alike w version _ hA k6
  exact ⟨all, ps, hard, softs, chosen, rs, h₁, h₂, k1, k2, e1, k4, k5, e2, k7, k8⟩

/-- **C120, filters.**  The same if the filter of the query is itself a program — it may add traces, make queries
and handle errors — as long as the value that it returns for a point is always that of `g`.  The metadata is what
is then at the place of the trace (C117). -/
theorem C120_filters {μ : Type} (fs : FloatSys) (w : World) (cf : CFloat) (mem : CMem) (version : Nat) (hv : version < 2 ^ 32)
    (runOf : μ → ProjRun) (may : μ → List ProjVisit → Prop) (whole : μ → Prop) (p : Script μ) (hp : p.NoFilters)
    (xs : List (Option (LispAnswer μ))) (r : Option Bool) (h1 : LispHeap μ)
    (e : p.run w version (plainEval fs) (⟨[], []⟩, []) = .ok (r, h1, xs))
    (hadds : p.AddsRuns w.env cf mem runOf may whole xs r)
    (hal : ∀ n, w.env.canAlloc n = true) (henv : w.env.junk.isSome = true) :
    ∃ ops, p.Chooses ops xs r ∧ ∀ (i idx : Nat) (t : Trace) (m : μ) (only : Option Nat)
      (_ : (SpecHeap.after w.env ⟨[], []⟩ (succeeded ops xs)).find i idx = some (t, m, only))
      (names : List Nat) (s : SExp) (f : Form) (_ : SexpPredicate names s f) (ss : List SExp) (sf : List Form)
      (_ : AllRel (SexpPredicate names) ss sf)
      (varTypes : List (List (List U8))) (_ : names.length = varTypes.length) (_ : names.length < 2 ^ 64)
      (_ : varTypes ≠ []) (_ : ∀ ts ∈ varTypes, ∀ n ∈ ts, (runOf m).header.HasType n) (seed : U32)
      (_ : ∀ n, 0 < n → w.pick seed n < n) (file : Option Nat)
      (_ : ∀ i, file.or only = some i → i < 2 ^ 23) (n : Nat) (_ : n < 2 ^ 32)
      (_ : ∀ l ∈ (runOf m).threads, ∀ v ∈ l, ∀ l, v.Shown (instrumentationFiles (runOf m).evolve) l → l.Answerable varTypes n)
      (filter : LPoint → Script μ) (g : LPoint → Bool)
      (_ : ∀ l s b s1, (filter l).run w version (plainEval fs) s = .ok (b, s1) → b = some (g l)),
      ∃ all ps hard softs chosen rs,
        may m all ∧
        AllRel (ProjVisit.Shown (instrumentationFiles (runOf m).evolve)) (limited (runOf m).limit all) ps ∧
        SexpRoot names s hard ∧ SexpRoots names ss softs ∧ LooksAt seed (ofFile (file.or only) ps) chosen ∧
        AnswersAll (BestAnswers fs chosen varTypes (some g) f sf) (some g) rs ∧
        ∀ (k : Option (LispAnswer μ) → Script μ) (log : List (Option (LispAnswer μ))) (y : Option Bool × LispHeap μ × List (Option (LispAnswer μ))),
          (Script.query i idx ⟨varTypes, hard, softs, seed, file, none⟩ filter k).run w version (plainEval fs) (h1, log) = .ok y →
          ∃ (h2 : LispHeap μ) (log2 : List (Option (LispAnswer μ))), h1.Kept h2 ∧
            (k (some (.results rs (h2.metadata i)[idx]?))).run w version (plainEval fs)
              (h2, log2 ++ [some (.results rs (h2.metadata i)[idx]?)]) = .ok y := by
  obtain ⟨ops, hc, hr⟩ := (C117_programs w version (plainEval fs) p hp _ _ xs r).mp e
  obtain ⟨-, ⟨h2, hrun, hA⟩, -⟩ := C117_errors w version (plainEval fs) ops xs h1 hr
  obtain ⟨a1, a2, a3⟩ := hadds ops hc
  refine ⟨ops, hc, ?_⟩
  intro i idx t m only hfind names s f hf ss sf hsf varTypes hvl hl hne hknown seed hpick file hfile n hn hq filter g hg
  obtain ⟨all, ps, hard, softs, chosen, rs, g1, g2, k1, k2, k3, k4, k5, k6, k7, k8⟩ :=
    C118_queries fs w cf mem version hv runOf may whole _ a1 a2 a3 hal henv _ _ hrun i idx t m only hfind names s f hf ss sf hsf
      varTypes hvl hl hne hknown seed hpick file hfile (some g) n hn hq
  obtain ⟨h₂, -, e2⟩ := handledStep_of_alike w version _ hA k6
  refine ⟨all, ps, hard, softs, chosen, rs, k1, k2, k4, k5, k7, k8, ?_⟩
  intro k log y hy
  obtain ⟨o, db, t', c, ho, hdb, ht, hi, hq'⟩ := lispStep_query_found w version _ hA.left e2
  obtain ⟨x, h3, log2, q1, q2, q3⟩ := C117_filter_function w version (plainEval fs) i idx
    ⟨varTypes, hard, softs, seed, file, none⟩ filter k h1 log hA.left o ho db hdb t' ht hi g hg y hy
  dsimp only at hq' q3
  rw [hq'] at q3
  dsimp only at q3
  subst q3
  exact ⟨h3, log2, q2, q1⟩

/-! The files of C118, among them also one that is not there and one from which nothing can be read; the program
reads a trace that is not there, and only if that is an error it adds the rest. -/

def rpBad : List (ObjOp Nat) := [.add 0 (.trace none 0 99), .add 0 (.trace (some ⟨[1, 2, 3], false, .good⟩) 0 98)]

def rpAdds : List (ObjOp Nat) := rpBad ++ (List.range 7).map fun m => .add 0 (arAdd m)

def rpAll : List (ObjOp Nat) → Script Nat
  | [] => .done (some true)
  | op :: ops => .call op fun _ => rpAll ops

def rpProg : Script Nat :=
  .call .create fun _ => .call (.get 0 0 none) fun x =>
    match x with
    | some _ => .done none
    | none => rpAll rpAdds

theorem rpAll_chooses : ∀ (l ops : List (ObjOp Nat)) (xs : List (Option (LispAnswer Nat))) (r : Option Bool),
    (rpAll l).Chooses ops xs r → ops = l
  | [], _, _, _, h => by cases h; rfl
  | op :: l, _, _, _, h => by
    cases h with
    | call h => rw [rpAll_chooses l _ _ _ h]

theorem rp_chooses {ops : List (ObjOp Nat)} {xs : List (Option (LispAnswer Nat))} (h : rpProg.Chooses ops xs (some true)) :
    ops = .create :: .get 0 0 none :: rpAdds := by
  unfold rpProg at h
  cases h with
  | call h =>
    cases h with
    | @call _ _ x _ _ _ h =>
      cases x with
      | some x => cases h
      | none => rw [rpAll_chooses _ _ _ _ h]

theorem rp_noFilters : rpProg.NoFilters := by
  have key : ∀ l : List (ObjOp Nat), (rpAll l).NoFilters := by
    intro l
    induction l with
    | nil => trivial
    | cons op l ih => exact fun _ => ih
  intro _ x
  cases x with
  | some x => trivial
  | none => exact key _

/-- Which operations signalled no error. -/
def rpEnd (r : Res (Option Bool × LispHeap Nat × List (Option (LispAnswer Nat)))) : Option (Option Bool × List Bool) :=
  match r with
  | .ok (r, _, xs) => some (r, xs.map Option.isSome)
  | _ => none

set_option maxRecDepth 20000 in
theorem rp_end : rpEnd (rpProg.run rdWorld 17 (plainEval exFloats) (⟨[], []⟩, [])) =
    some (some true, true :: false :: List.replicate 9 true) := by decide +kernel

theorem succeeded_isSome {μ : Type} : ∀ (ops : List (ObjOp μ)) (xs : List (Option (LispAnswer μ))),
    succeeded ops xs = (ops.zip (xs.map Option.isSome)).filterMap fun x => if x.2 then some x.1 else none
  | [], _ => rfl
  | _ :: _, [] => rfl
  | op :: ops, x :: xs => by
    have ih := succeeded_isSome ops xs
    unfold succeeded at ih ⊢
    rw [List.map_cons, List.zip_cons_cons, List.zip_cons_cons, List.filterMap_cons, List.filterMap_cons, ih]
    cases x <;> rfl

def rpFiles : List (LispAdd Nat) :=
  [.trace none 0 99, .trace (some ⟨[1, 2, 3], false, .good⟩) 0 98] ++ (List.range 7).map arAdd

theorem rp_unreadable : ∀ t, readTrace exEnv 0 ⟨[1, 2, 3], false, .good⟩ ≠ .ok t := by
  have h : (readTrace exEnv 0 ⟨[1, 2, 3], false, .good⟩).isOk = false := by decide +kernel
  intro t e
  rw [e] at h
  cases h

theorem rp_after : SpecHeap.after rdWorld.env ⟨[], []⟩ (.create :: rpFiles.map (.add 0)) =
    ⟨[(List.range 7).map fun m => (arTrace m, m)], [(0, none)]⟩ := by
  rw [after_adds, show rdWorld.env = exEnv from rfl, ← ar_stored _ fun _ h => h]
  unfold rpFiles storedWith
  rw [List.filterMap_append]
  have h2 : (LispAdd.trace (some ⟨[1, 2, 3], false, .good⟩) 0 98 : LispAdd Nat).stores exEnv = none := by
    simp only [LispAdd.stores]
    cases hr : readTrace exEnv 0 ⟨[1, 2, 3], false, .good⟩ with
    | ok t => exact absurd hr (rp_unreadable t)
    | _ => rfl
  have h3 : [(LispAdd.trace none 0 99 : LispAdd Nat), .trace (some ⟨[1, 2, 3], false, .good⟩) 0 98].filterMap
      (fun a => (a.stores exEnv).map fun t => (t, a.meta)) = [] := by
    rw [List.filterMap_cons, List.filterMap_cons, h2]
    rfl
  rw [h3, List.nil_append]

/-- The hypotheses of `C120_programs` and `C120_filters` hold for it. -/
theorem rp_case : ∃ h1 xs, rpProg.run rdWorld 17 (plainEval exFloats) (⟨[], []⟩, []) = .ok (some true, h1, xs) ∧
    rpProg.AddsRuns rdWorld.env exFloat exMem arRun arMay arWhole xs (some true) ∧
    ∀ ops, rpProg.Chooses ops xs (some true) → ∀ m < 7,
      (SpecHeap.after rdWorld.env ⟨[], []⟩ (succeeded ops xs)).find 0 m = some (arTrace m, m, none) := by
  have hend := rp_end
  generalize rpProg.run rdWorld 17 (plainEval exFloats) (⟨[], []⟩, []) = res at hend
  cases res with
  | ok res =>
    obtain ⟨r, h1, xs⟩ := res
    simp only [rpEnd, Option.some.injEq, Prod.mk.injEq] at hend
    obtain ⟨rfl, hxs⟩ := hend
    have hs : ∀ ops, rpProg.Chooses ops xs (some true) → succeeded ops xs = .create :: rpFiles.map (.add 0) := by
      intro ops hc
      rw [rp_chooses hc, succeeded_isSome, hxs]
      rfl
    have hin : ∀ op ∈ (ObjOp.create :: rpFiles.map (.add 0) : List (ObjOp Nat)), op = .create ∨
        (∃ m, op = .add 0 (arAdd m)) ∨ ∃ a : LispAdd Nat, a.isFile = true ∧ a.Unreadable exEnv ∧ op = .add 0 a := by
      intro op hop
      simp only [rpFiles, List.mem_cons, List.mem_map, List.mem_append, List.not_mem_nil, or_false] at hop
      rcases hop with rfl | ⟨a, (rfl | rfl) | ⟨m, _, rfl⟩, rfl⟩
      · exact .inl rfl
      · exact .inr (.inr ⟨_, rfl, ⟨_, _, _, rfl, fun s hs => by cases hs⟩, rfl⟩)
      · exact .inr (.inr ⟨_, rfl, ⟨_, _, _, rfl, fun s hs t => by cases hs; exact rp_unreadable t⟩, rfl⟩)
      · exact .inr (.inl ⟨m, rfl⟩)
    refine ⟨h1, xs, rfl, ?_, ?_⟩
    · intro ops hc
      rw [hs ops hc]
      refine ⟨?_, ?_, ?_⟩
      · intro i a ha
        rcases hin _ ha with e | ⟨m, e⟩ | ⟨b, _, hb, e⟩ <;> cases e
        · exact .inl ⟨false, _, m, rfl, ar_left m⟩
        · exact .inr hb
      · rw [rp_after]
        intro op hop
        rcases hin op hop with rfl | ⟨m, rfl⟩ | ⟨b, hb, _, rfl⟩
        · trivial
        · exact ⟨rfl, fun d f => by simp⟩
        · exact ⟨hb, fun d f => by simp⟩
      · rw [rp_after]
        refine ⟨?_, ?_, ?_⟩
        · intro l hl
          rw [List.mem_singleton.mp hl]
          simp
        · intro l hl
          rw [List.mem_singleton.mp hl, List.map_map]
          exact ar_points
        · intro l hl x hx
          rw [List.mem_singleton.mp hl] at hx
          obtain ⟨m, hm, rfl⟩ := List.mem_map.mp hx
          exact ar_counts m hm
    · intro ops hc m hm
      rw [hs ops hc, rp_after]
      simp only [SpecHeap.find, List.getElem?_cons_zero, List.getElem?_map, List.getElem?_range hm, Option.map_some]
  | _ => cases hend

/-- The query of C104 to any of the seven traces, also with a filter that adds traces. -/
example (m : Nat) (hm : m < 7) (seed : U32) :
    ∃ h1 xs, rpProg.run rdWorld 17 (plainEval exFloats) (⟨[], []⟩, []) = .ok (some true, h1, xs) ∧
      ∃ all ps hard softs chosen rs h₁ h₂,
        arMay m all ∧ AllRel (ProjVisit.Shown (instrumentationFiles (arRun m).evolve)) (limited (arRun m).limit all) ps ∧
        handledStep rdWorld 17 (plainEval exFloats) (.get 0 m none) h1 = .ok (some (.trace (ofFile none ps) m), h₁) ∧
        SexpRoot [0] pgSexp hard ∧ SexpRoots [0] [pgSexp, .nil] softs ∧
        handledStep rdWorld 17 (plainEval exFloats) (.query 0 m ⟨pgTypes, hard, softs, seed, none, none⟩) h1 =
          .ok (some (.results rs (some m)), h₂) ∧
        LooksAt seed (ofFile none ps) chosen ∧
        AnswersAll (BestAnswers exFloats chosen pgTypes none pgForm [pgForm, .tt]) none rs := by
  obtain ⟨h1, xs, e, ha, hf⟩ := rp_case
  refine ⟨h1, xs, e, ?_⟩
  obtain ⟨ops, hc, k⟩ := C120_programs exFloats rdWorld exFloat exMem 17 (by decide) arRun arMay arWhole rpProg rp_noFilters xs
    (some true) h1 e ha (fun _ => rfl) rfl
  exact k 0 m _ m none (hf ops hc m hm) [0] pgSexp pgForm rq_pred [pgSexp, .nil] [pgForm, .tt] (.cons rq_pred (.cons .nil .nil))
    pgTypes rfl (by decide) (by decide) (ar_types m) seed (fun n hn => hn) none (fun i hi => by cases hi) none 1 (by decide)
    (ar_shown m)

/-- A filter that adds a file for each point and lets pass points of statement 8. -/
def rpFilter (l : LPoint) : Script Nat := .call (.add 0 (arAdd 0)) fun _ => .done (some (l.c == 8))

example (l : LPoint) (s : LispHeap Nat × List (Option (LispAnswer Nat))) (b : Option Bool)
    (s1 : LispHeap Nat × List (Option (LispAnswer Nat)))
    (e : (rpFilter l).run rdWorld 17 (plainEval exFloats) s = .ok (b, s1)) : b = some (l.c == 8) := by
  obtain ⟨h, log⟩ := s
  unfold rpFilter at e
  simp only [Script.run] at e
  obtain ⟨x, _, e⟩ := Res.bind_eq_ok.mp e
  cases e
  rfl

end TraceDB
