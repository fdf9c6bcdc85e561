import Verif.Proofs.RunQuery
import Verif.Props.RunDatabase
import Verif.Props.QueryMemory
/-
C104: soft predicates and `pick` in queries about runs of programs.
-/
namespace TraceDB

/-- **C104.**  What a run of a program leaves is read, and a query is made with any predicate, soft
predicates and filter, possibly for a file, possibly with `pick`.  If the file is not refused, the
query looks at the statements passed by the run (of the file), with `pick` at one of them, and
returns exactly the bindings there for which the predicate is true and as many of the soft predicates
as possible at the same statement passed.  All memory it allocates is freed. -/
theorem C104_queries (fs : FloatSys) (env : Env) (pick : U32 → Nat → Nat) (abi : Abi) (alloc : AllocEnv) (io : Bool) (cf : CFloat)
    (mem : CMem) (r : ProjRun) (complete : Prop) (bytes : List U8) (hb : r.Built) (hleaves : r.Leaves cf mem complete bytes)
    (hal : ∀ n, env.canAlloc n = true) (henv : env.junk.isSome = true)
    (hsizes : 0 < abi.sizePoint ∧ abi.sizePoint ≤ abi.sizeVar) (hmem : ∀ n, alloc.canAlloc n = true)
    (q : FQuery) (f : Form) (sf : List Form) (hf : SexpPredicate q.varNames q.predicate f)
    (hsf : AllRel (SexpPredicate q.varNames) q.softs sf) (filter : Option (LPoint → Bool))
    (hfilter : q.filter = filter.map fun g p => some (g p)) (hvl : q.varNames.length = q.varTypes.length)
    (hne : q.varTypes ≠ []) (hsmall : q.varTypes.length < 2 ^ 32) (hts : ∀ ts ∈ q.varTypes, ts.length < 2 ^ 32)
    (hknown : ∀ ts ∈ q.varTypes, ∀ n ∈ ts, r.header.HasType n) (hfile : ∀ i, q.file = some i → i < 2 ^ 23)
    (hpick : ∀ n, 0 < n → pick q.seed n < n) (n : Nat) (hn : n < 2 ^ 32)
    (hq : ∀ l ∈ r.threads, ∀ v ∈ l, ∀ l, v.Shown (instrumentationFiles r.evolve) l → l.Answerable q.varTypes n)
    (hroom : r.threads.flatten.length * n * abi.sizeVar < 2 ^ (8 * abi.ptr.1)) (m : FMem) :
    (readTrace env r.limit ⟨bytes, io, .good⟩ = .throw (endExn io) ∧ ¬ complete) ∨
      ∃ t shown ps chosen rs c m' a p b,
        readTrace env r.limit ⟨bytes, io, .good⟩ = .ok t ∧ r.Passed complete shown ∧ lispGetTrace t none = .ok ps ∧
        AllRel (ProjVisit.Shown (instrumentationFiles r.evolve)) shown ps ∧
        LooksAt q.seed (ofFile q.file ps) chosen ∧
        lispQueryM ⟨env, pick, plainEval fs, abi, alloc⟩ t q [] () m = (.ok (rs, c, ()), m') ∧
        AnswersAll (BestAnswers fs chosen q.varTypes filter f sf) filter rs ∧
        m.Adds m' a p b ∧ Released a p ∧ ∀ x ∈ b, x.live = false := by
  rcases run_known env io cf mem r complete bytes hb hleaves hal henv with bad | ⟨t, shown, ps, types, k1, k2, k3, k4, k5, k6⟩
  · exact .inl bad
  · right
    obtain ⟨chosen, rs, c, m', a, p, b, q1, q2, q3, q4, q5, q6⟩ := known_query fs env pick abi alloc k4 hal hsizes hmem hf hsf hfilter
      hvl hne hsmall hts (fun ts hts n hn => k5 n (hknown ts hts n hn)) hfile hpick hn (by
        intro l hl
        obtain ⟨v, hv, hs⟩ := k3.mem_right l hl
        obtain ⟨th, hth, hv⟩ := k6 v hv
        exact hq th hth v hv l hs) (by
        intro l hl
        obtain ⟨v, _, _, _, _, _, _, _, ha, _⟩ := k3.mem_right l hl
        exact ha) (by
        rw [← k3.length]
        exact k2.length_le) hroom m
    exact ⟨t, shown, ps, chosen, rs, c, m', a, p, b, k1, k2, k4.get none, k3, q1, q2, q3, q4, q5, q6⟩

/-- **C104, databases.**  The same for queries to databases: after any history as in C102, for every
trace of every object. -/
theorem C104_databases {μ : Type} (fs : FloatSys) (w : World) (cf : CFloat) (mem : CMem) (version : Nat) (hv : version < 2 ^ 32)
    (runOf : μ → ProjRun) (complete : μ → Prop) (ops : List (ObjOp μ))
    (hadds : ∀ i a, ObjOp.add i a ∈ ops → a.OfRun cf mem runOf complete)
    (hd : ∀ op ∈ ops, op.Direct (SpecHeap.after w.env ⟨[], []⟩ ops)) (hs : (SpecHeap.after w.env ⟨[], []⟩ ops).Small)
    (hal : ∀ n, w.env.canAlloc n = true) (henv : w.env.junk.isSome = true)
    (xs : List (LispAnswer μ)) (h : LispHeap μ)
    (hrun : lispRun w version (plainEval fs) ⟨[], []⟩ () ops = .ok (xs, h, ()))
    (i idx : Nat) (t : Trace) (m : μ) (only : Option Nat)
    (hfind : (SpecHeap.after w.env ⟨[], []⟩ ops).find i idx = some (t, m, only))
    (names : List Nat) (s : SExp) (f : Form) (hf : SexpPredicate names s f) (ss : List SExp) (sf : List Form)
    (hsf : AllRel (SexpPredicate names) ss sf)
    (varTypes : List (List (List U8))) (hvl : names.length = varTypes.length) (hl : names.length < 2 ^ 64)
    (hne : varTypes ≠ []) (hknown : ∀ ts ∈ varTypes, ∀ n ∈ ts, (runOf m).header.HasType n) (seed : U32)
    (hpick : ∀ n, 0 < n → w.pick seed n < n) (file : Option Nat)
    (hfile : ∀ i, file.or only = some i → i < 2 ^ 23) (filter : Option (LPoint → Bool)) (n : Nat) (hn : n < 2 ^ 32)
    (hq : ∀ l ∈ (runOf m).threads, ∀ v ∈ l, ∀ l, v.Shown (instrumentationFiles (runOf m).evolve) l → l.Answerable varTypes n) :
    ∃ shown ps hard softs chosen rs h₁ h₂,
      (runOf m).Passed (complete m) shown ∧
      AllRel (ProjVisit.Shown (instrumentationFiles (runOf m).evolve)) shown ps ∧
      lispStep w version (plainEval fs) h () (.get i idx file) = .ok (.trace (ofFile (file.or only) ps) m, h₁, ()) ∧
      SexpRoot names s hard ∧ SexpRoots names ss softs ∧
      lispStep w version (plainEval fs) h () (.query i idx ⟨varTypes, hard, softs, seed, file, filter⟩) =
        .ok (.results rs (some m), h₂, ()) ∧
      LooksAt seed (ofFile (file.or only) ps) chosen ∧ AnswersAll (BestAnswers fs chosen varTypes filter f sf) filter rs := by
  obtain ⟨l, hl', hx⟩ : ∃ l ∈ (SpecHeap.after w.env ⟨[], []⟩ ops).dbs, (t, m) ∈ l := by
    have hfind := hfind
    unfold SpecHeap.find at hfind
    split at hfind
    · cases hfind
    · split at hfind
      · cases hfind
      · rename_i l hl'
        obtain ⟨x, hx, e⟩ := Option.map_eq_some_iff.mp hfind
        cases e
        exact ⟨l, List.mem_of_getElem? hl', List.mem_of_getElem? hx⟩
  rcases stored_from w.env ops ⟨[], []⟩ l hl' (t, m) hx with ⟨_, h0, _⟩ | ⟨j, a, ha, hst⟩
  · cases h0
  · obtain ⟨io, bytes, m', rfl, hb, hleaves⟩ := hadds j a ha
    obtain ⟨a', ha', e⟩ := List.mem_filterMap.mp hst
    rw [List.mem_singleton.mp ha'] at e
    obtain ⟨t', ht', e⟩ := Option.map_eq_some_iff.mp e
    have e1 : t' = t := congrArg Prod.fst e
    have e2 : m' = m := congrArg Prod.snd e
    subst e1 e2
    have hread : readTrace w.env (runOf m').limit ⟨bytes, io, .good⟩ = .ok t' := by
      revert ht'
      simp only [LispAdd.stores]
      cases readTrace w.env (runOf m').limit ⟨bytes, io, .good⟩ with
      | ok x => intro h; cases h; rfl
      | _ => intro h; cases h
    rcases run_known w.env io cf mem (runOf m') (complete m') bytes hb hleaves hal henv with
      ⟨bad, _⟩ | ⟨t2, shown, ps, types, k1, k2, k3, k4, k5, k6⟩
    · rw [hread] at bad
      cases bad
    · rw [hread] at k1
      cases k1
      obtain ⟨hard, s1, s2⟩ := sexpPredicate_root hl hf
      obtain ⟨softs, s3, s4⟩ := sexpPredicate_roots hl hsf
      rw [hvl] at s2 s4
      obtain ⟨chosen, rs, c, q1, q2, q3, _⟩ := query_best fs w.env w.pick k4
        (q := ⟨varTypes, hard, softs, seed, file.or only, filter⟩) (f := f) (sf := sf) hne
        (fun ts hts n hn => k5 n (hknown ts hts n hn)) hpick hfile s2 s4 hal hn (fun l hl => by
          obtain ⟨v, hv, hs⟩ := k3.mem_right l hl
          obtain ⟨th, hth, hv⟩ := k6 v hv
          exact hq th hth v hv l hs)
      obtain ⟨h₁, g1⟩ := step_after hv hd hs hrun (.get i idx file) (fun _ => rfl) (fun _ => trivial)
        (x := .trace (ofFile (file.or only) ps) m') (s'' := ()) (by
          simp only [SpecHeap.answer, hfind]
          rw [k4.get]
          rfl)
      obtain ⟨h₂, g2⟩ := step_after hv hd hs hrun (.query i idx ⟨varTypes, hard, softs, seed, file, filter⟩) (fun _ => rfl)
        (fun _ => trivial) (x := .results rs (some m')) (s'' := ()) (by
          simp only [SpecHeap.answer, hfind]
          rw [q2]
          rfl)
      exact ⟨shown, ps, hard, softs, chosen, rs, h₁, h₂, k2, k3, g1, s1, s3, g2, by rw [← ofFile_eq]; exact q1, q3⟩

/-! The complete run of C102: a variable of type `int`, soft predicates `(> x 1)`, `nil` and `(> x 1)`,
with a seed. -/

theorem rq_shown (m : Nat) : ∀ l ∈ (rdRun m).threads, ∀ v ∈ l, ∀ l, v.Shown (instrumentationFiles (rdRun m).evolve) l →
    l.Answerable pgTypes 1 := by
  intro th hth v hv l hs
  have hv : v ∈ [tpY, tpX] := by
    simp only [rdRun, tpThreads, List.mem_cons, List.not_mem_nil, or_false] at hth
    rcases hth with rfl | rfl
    · rw [List.mem_singleton.mp hv]
      simp
    · exact hv
  obtain ⟨y, hy, hval⟩ := pi_shown v hv l hs
  unfold LPoint.Answerable
  rw [hy]
  refine ⟨by simp, ?_, ?_⟩
  · simp only [choices, pgTypes, List.map_cons, List.map_nil]
    generalize ascii "int" = t
    by_cases h : y.type = t <;> simp [h]
  · intro z hz _ _ _ b
    rw [List.mem_singleton.mp hz, hval]
    simp

theorem rq_pred : SexpPredicate [0] pgSexp pgForm := by
  have hx : IsVar [0] 0 0 := ⟨rfl, fun j hj => absurd hj (by omega)⟩
  exact .form (.cmp .lt (.nat (n := 1)) (.value hx))

def rqQuery (seed : U32) : FQuery := ⟨[0], pgTypes, .nil, [pgSexp, .nil, pgSexp], seed, some 0, some fun _ => some true⟩

/-- The hypotheses of `C104_queries` hold for it. -/
example (seed : U32) (m : FMem) :
    ∃ t shown ps chosen rs c m' a p b,
      readTrace exEnv 0 (gs false (rdBytes 0)) = .ok t ∧ (rdRun 0).Passed (rdComplete 0) shown ∧ lispGetTrace t none = .ok ps ∧
      AllRel (ProjVisit.Shown (instrumentationFiles (rdRun 0).evolve)) shown ps ∧ LooksAt seed (ofFile (some 0) ps) chosen ∧
      lispQueryM ⟨exEnv, fun s n => s.toNat % n, plainEval exFloats, .lp64, xAlloc⟩ t (rqQuery seed) [] () m = (.ok (rs, c, ()), m') ∧
      AnswersAll (BestAnswers exFloats chosen pgTypes (some fun _ => true) .tt [pgForm, .tt, pgForm]) (some fun _ => true) rs ∧
      m.Adds m' a p b ∧ Released a p ∧ ∀ x ∈ b, x.live = false := by
  rcases C104_queries exFloats exEnv (fun s n => s.toNat % n) .lp64 xAlloc false exFloat exMem (rdRun 0) (rdComplete 0) (rdBytes 0)
    (rd_built 0) (rd_leaves 0) (fun _ => rfl) rfl (by decide) (fun _ => rfl) (rqQuery seed) .tt [pgForm, .tt, pgForm] .nil
    (.cons rq_pred (.cons .nil (.cons rq_pred .nil))) (some fun _ => true) rfl rfl (show pgTypes ≠ [] by decide)
    (show pgTypes.length < 2 ^ 32 by decide)
    (by show ∀ ts ∈ pgTypes, _; decide) pi_case.2.2.2.2.2.2.2.2.1
    (by intro i h; cases h; decide) (fun n hn => Nat.mod_lt _ hn) 1 (by decide) (rq_shown 0)
    (by show tpThreads.flatten.length * 1 * Abi.lp64.sizeVar < _; decide) m with ⟨_, h⟩ | h
  · exact absurd rfl h
  · exact h

/-- Those of `C104_databases` for the second trace of the restricted copy of C102. -/
example (seed : U32) (file : Option Nat) (hfile : ∀ i, file = some i → i < 2 ^ 23) (version : Nat) (hv : version < 2 ^ 32)
    (xs : List (LispAnswer Nat)) (h : LispHeap Nat)
    (hrun : lispRun rdWorld version (plainEval exFloats) ⟨[], []⟩ () rdOps = .ok (xs, h, ())) :
    ∃ shown ps hard softs chosen rs h₁ h₂,
      (rdRun 1).Passed (rdComplete 1) shown ∧
      AllRel (ProjVisit.Shown (instrumentationFiles (rdRun 1).evolve)) shown ps ∧
      lispStep rdWorld version (plainEval exFloats) h () (.get 2 1 file) = .ok (.trace (ofFile (file.or (some 1)) ps) 1, h₁, ()) ∧
      SexpRoot [0] pgSexp hard ∧ SexpRoots [0] [pgSexp, .nil] softs ∧
      lispStep rdWorld version (plainEval exFloats) h () (.query 2 1 ⟨pgTypes, hard, softs, seed, file, none⟩) =
        .ok (.results rs (some 1), h₂, ()) ∧
      LooksAt seed (ofFile (file.or (some 1)) ps) chosen ∧
      AnswersAll (BestAnswers exFloats chosen pgTypes none pgForm [pgForm, .tt]) none rs := by
  obtain ⟨c1, c2, c3, c4⟩ := rd_case
  refine C104_databases exFloats rdWorld exFloat exMem version hv rdRun rdComplete rdOps c1 c2 c3 (fun _ => rfl) rfl xs h hrun
    2 1 _ 1 (some 1) c4 [0] pgSexp pgForm rq_pred [pgSexp, .nil] [pgForm, .tt] (.cons rq_pred (.cons .nil .nil)) pgTypes rfl
    (by decide) (by decide) pi_case.2.2.2.2.2.2.2.2.1 seed (fun n hn => hn) file ?_ none 1 (by decide) (rq_shown 1)
  intro i hi
  cases file with
  | none => cases hi; decide
  | some j => cases hi; exact hfile _ rfl

/-- Two variables `x = 1`, `X = 5` of one type, no predicate: without soft predicates every choice of
two variables is a result; with the soft predicate `(< x y)` only the one it holds for. -/
example : ((lispQueryM fWorld cTrace ⟨[1, 2], [[[105]], [[105]]], .nil, [], 0, none, none⟩ [] () fMem).1 >>= fun r =>
      .ok (r.1.map fun l => l.scopes.map (·.value))) =
      .ok [[.int 1, .int 1], [.int 5, .int 1], [.int 1, .int 5], [.int 5, .int 5]] ∧
    ((lispQueryM fWorld cTrace ⟨[1, 2], [[[105]], [[105]]], .nil, [fLess, .nil], 0, none, none⟩ [] () fMem).1 >>= fun r =>
      .ok (r.1.map fun l => l.scopes.map (·.value))) = .ok [[.int 1, .int 5]] := by decide +kernel

end TraceDB
