import Verif.Proofs.ForkProject
import Verif.Props.RunQuery
/-
C105: programs that fork, from projects to queries.
-/
namespace TraceDB

/-- **C105.**  A program built from an instrumented project passes a statement before it forks or
creates threads, and no point is larger than the buffer of the stream.  As long as no thread forks or
ends its process while another thread of the process is recording a point, then, however threads and
processes are scheduled and whichever processes are killed, at every moment the file is a part of
header and first point, or reading it gives a trace that shows the first statement and then
statements passed by the threads of all processes, each thread from its start and in its own order (up
to the limit), with the values their variables had; queries answer about them and free their
memory.  If nobody was killed, processes ended after their threads, and everything has ended, the
trace shows (up to the limit) every statement passed by every thread of every process. -/
theorem C105_queries (fs : FloatSys) (env : Env) (pick : U32 → Nat → Nat) (abi : Abi) (alloc : AllocEnv) (io : Bool) (cf : CFloat)
    (mem : CMem) (size : Nat) (r : ForkRun) (acts : List FtAct) (hb : r.inOne.Built) (hd : r.Does cf mem size acts)
    (hal : ∀ n, env.canAlloc n = true) (events : List FtEvent) (hsafe : FtSafe size (FtState.start acts) events)
    (hsizes : 0 < abi.sizePoint ∧ abi.sizePoint ≤ abi.sizeVar) (hmem : ∀ n, alloc.canAlloc n = true)
    (q : FQuery) (f : Form) (sf : List Form) (hf : SexpPredicate q.varNames q.predicate f)
    (hsf : AllRel (SexpPredicate q.varNames) q.softs sf) (filter : Option (LPoint → Bool))
    (hfilter : q.filter = filter.map fun g p => some (g p)) (hvl : q.varNames.length = q.varTypes.length)
    (hne : q.varTypes ≠ []) (hsmall : q.varTypes.length < 2 ^ 32) (hts : ∀ ts ∈ q.varTypes, ts.length < 2 ^ 32)
    (hknown : ∀ ts ∈ q.varTypes, ∀ n ∈ ts, r.header.HasType n) (hfile : ∀ i, q.file = some i → i < 2 ^ 23)
    (hpick : ∀ n, 0 < n → pick q.seed n < n) (n : Nat) (hn : n < 2 ^ 32)
    (hq : ∀ v ∈ r.first :: ftPoints r.prog, ∀ l, v.Shown (instrumentationFiles r.evolve) l → l.Answerable q.varTypes n)
    (hroom : (r.first :: ftPoints r.prog).length * n * abi.sizeVar < 2 ^ (8 * abi.ptr.1)) (m : FMem) :
    ∃ s, (FtState.start acts).run size events = .ok s ∧
      ((∃ c0 bs, r.first.RunsAs cf mem (r.project.plain ++ r.project.mains) c0 ∧
          rtRun cf mem r.header.names (r.header.types.map TypeRow.desc) [c0] = .ok bs ∧ s.out <+: bs ∧
          ¬ ((∀ e ∈ events, ¬ e.IsKill) ∧ FtJoined size (FtState.start acts) events ∧ s.Ended)) ∨
        ∃ later t ps chosen rs c m' a p b,
          FkSoFar (ftAsFork r.prog) later ∧
          ((∀ e ∈ events, ¬ e.IsKill) → FtJoined size (FtState.start acts) events → s.Ended → FkAll (ftAsFork r.prog) later) ∧
          readTrace env r.limit ⟨s.out, io, .good⟩ = .ok t ∧ lispGetTrace t none = .ok ps ∧
          AllRel (ProjVisit.Shown (instrumentationFiles r.evolve)) (limited r.limit (r.first :: later)) ps ∧
          LooksAt q.seed (ofFile q.file ps) chosen ∧
          lispQueryM ⟨env, pick, plainEval fs, abi, alloc⟩ t q [] () m = (.ok (rs, c, ()), m') ∧
          AnswersAll (BestAnswers fs chosen q.varTypes filter f sf) filter rs ∧
          m.Adds m' a p b ∧ Released a p ∧ ∀ x ∈ b, x.live = false) := by
  obtain ⟨p0, prog, hprog, h0, hrel, hknows⟩ := forked_known env cf mem size r acts hb hd hal
  have answer : ∀ (later : List ProjVisit) (rs : List RecPoint), FkSoFar (ftAsFork r.prog) later → AllRel (r.inOne.Records cf mem) later rs →
      ∀ s : FtState, readTrace env 0 (gs io s.out) =
          .ok ⟨r.header.names, r.header.types.map TypeRow.desc, recPoints 0 [] (p0 :: rs)⟩ →
        ∃ t ps chosen rs c m' a p b,
          readTrace env r.limit ⟨s.out, io, .good⟩ = .ok t ∧ lispGetTrace t none = .ok ps ∧
          AllRel (ProjVisit.Shown (instrumentationFiles r.evolve)) (limited r.limit (r.first :: later)) ps ∧
          LooksAt q.seed (ofFile q.file ps) chosen ∧
          lispQueryM ⟨env, pick, plainEval fs, abi, alloc⟩ t q [] () m = (.ok (rs, c, ()), m') ∧
          AnswersAll (BestAnswers fs chosen q.varTypes filter f sf) filter rs ∧
          m.Adds m' a p b ∧ Released a p ∧ ∀ x ∈ b, x.live = false := by
    intro later rs hso hrs s hread
    have hin : ∀ v ∈ limited r.limit (r.first :: later), v ∈ r.first :: ftPoints r.prog := by
      intro v hv
      have hv : v ∈ r.first :: later := by
        unfold limited at hv
        split at hv
        · exact hv
        · exact List.mem_of_mem_take hv
      rcases List.mem_cons.mp hv with rfl | hv
      · exact List.mem_cons_self
      · exact List.mem_cons_of_mem _ (hso.mem v hv)
    obtain ⟨ps, types, k1, k2, k3⟩ := hknows (limited r.limit (r.first :: later)) (limited r.limit (p0 :: rs)) (by
      unfold limited
      split
      · exact .cons h0 hrs
      · exact AllRel.take (.cons h0 hrs) _) hin
    obtain ⟨chosen, ans, c, m', a, p, b, q1, q2, q3, q4, q5, q6⟩ := known_query fs env pick abi alloc k2 hal hsizes hmem hf hsf
      hfilter hvl hne hsmall hts (fun ts hts n hn => k3 n (hknown ts hts n hn)) hfile hpick hn (by
        intro l hl
        obtain ⟨v, hv, hs⟩ := k1.mem_right l hl
        exact hq v (hin v hv) l hs) (by
        intro l hl
        obtain ⟨v, _, _, _, _, _, _, _, ha, _⟩ := k1.mem_right l hl
        exact ha) (N := (r.first :: ftPoints r.prog).length) (by
        rw [← k1.length]
        have h1 : (limited r.limit (r.first :: later)).length ≤ (r.first :: later).length := by
          unfold limited
          split
          · exact Nat.le_refl _
          · rw [List.length_take]; omega
        have := hso.length_le
        simp only [List.length_cons] at h1 ⊢
        omega) hroom m
    exact ⟨_, ps, chosen, ans, c, m', a, p, b, read_limited hread r.limit, k2.get none, k1, q1, q2, q3, q4, q5, q6⟩
  obtain ⟨s, hs, hc⟩ := C91_forked env io cf mem _ _ size p0 prog acts hprog hal events hsafe
  refine ⟨s, hs, ?_⟩
  by_cases hw : (∀ e ∈ events, ¬ e.IsKill) ∧ FtJoined size (FtState.start acts) events ∧ s.Ended
  · obtain ⟨l, hl, hread⟩ := C91_all_recorded env io cf mem _ _ size p0 prog acts hprog hal events hsafe hw.2.1 hw.1 s hs hw.2.2
    obtain ⟨later, g1, g2⟩ := hrel.asFork.all hl
    obtain ⟨t, ps, chosen, rs, c, m', a, p, b, e⟩ := answer later l g1.soFar g2 s hread
    exact .inr ⟨later, t, ps, chosen, rs, c, m', a, p, b, g1.soFar, fun _ _ _ => g1, e⟩
  · rcases hc with ⟨c, bs, hc, hbs, hpre⟩ | ⟨l, hl, hread⟩
    · obtain ⟨c0, k1, k2, _⟩ := h0
      refine .inl ⟨c0, bs, k1, ?_, hpre, hw⟩
      rw [hprog.one k2, ← hprog.one hc]
      exact hbs
    · obtain ⟨later, g1, g2⟩ := hrel.asFork.soFar hl
      obtain ⟨t, ps, chosen, rs, c, m', a, p, b, e⟩ := answer later l g1 g2 s hread
      exact .inr ⟨later, t, ps, chosen, rs, c, m', a, p, b, g1, fun h1 h2 h3 => absurd ⟨h1, h2, h3⟩ hw, e⟩

/-! The project of C101: the program passes a statement of the second file, creates a thread that
passes one of the first file, and forks; the child passes both. -/

def fpRun : ForkRun :=
  ⟨[piMain, piX, piYs], [], piOuts, piHeaderY, tpY, [.spawn [.point tpX], .fork [.point tpX, .point tpY]], 0⟩
def fpCalls : List (FtItem (U64 × List RtCall)) := [.spawn [.point piCallX], .fork [.point piCallX, .point piCallY']]
def fpActs : List FtAct :=
  match ftProgram exFloat exMem piHeaderY.names (piHeaderY.types.map TypeRow.desc) (.point piCallY' :: fpCalls) with
  | .ok a => a
  | _ => []
/-- The parent forks after its thread has ended. -/
def fpEvents : List FtEvent :=
  ftRuns 0 0 28 ++ ftRuns 0 1 60 ++ ftRuns 0 0 1 ++ ftRuns 1 0 20 ++ ftRuns 0 0 1 ++ ftRuns 1 0 100

theorem fp_in : ∀ v ∈ fpRun.first :: ftPoints fpRun.prog, v ∈ [tpY, tpX] := by
  intro v hv
  simp only [fpRun, ftPoints, FtItem.points, List.append_nil, List.cons_append, List.nil_append, List.mem_cons, List.not_mem_nil,
    or_false] at hv ⊢
  rcases hv with rfl | rfl | rfl | rfl <;> simp

theorem fp_built : fpRun.inOne.Built := by
  obtain ⟨h1, h2, h3, h4, _, _, h5, _⟩ := pi_case
  refine ⟨h1, show [piMain, piX, piYs].length ≤ 2 ^ 23 by decide, ⟨_, h3, h4⟩, h5, .inl ⟨2, _, rfl, rfl, ?_⟩, h2⟩
  intro l hl v hv
  rw [List.mem_singleton.mp hl] at hv
  have := fp_in v hv
  simp only [List.mem_cons, List.not_mem_nil, or_false] at this
  rcases this with rfl | rfl <;> decide

theorem fp_does : fpRun.Does exFloat exMem 4096 fpActs := by
  obtain ⟨_, _, _, _, h1, h2, _⟩ := pi_case
  refine ⟨fun v hv => h1 v (fp_in v hv), piCallY', fpCalls, ?_⟩
  cases h2 with
  | cons hy h2 =>
    cases h2 with
    | cons hx _ =>
      refine ⟨hy, .spawn (.point hx .nil) (.fork (.point hx (.point hy .nil)) .nil), ?_, by rfl⟩
      intro c hc b hb
      have hc : c = piCallX ∨ c = piCallY' := by
        simp only [fpCalls, ftPoints, FtItem.points, List.append_nil, List.cons_append, List.nil_append, List.mem_cons,
          List.not_mem_nil, or_false] at hc
        rcases hc with rfl | rfl | rfl <;> simp
      have h : ∀ c, c = piCallX ∨ c = piCallY' → (match rtBytes exFloat exMem (pointCalls c.1 c.2) with
          | .ok b => decide (b.length ≤ 4096)
          | _ => true) = true := by
        rintro c (rfl | rfl) <;> decide +kernel
      have h := h c hc
      rw [hb] at h
      exact of_decide_eq_true h

/-- The hypotheses of `C105_queries` hold for it, with the query of C104. -/
example (seed : U32) (m : FMem) (events : List FtEvent) (hsafe : FtSafe 4096 (FtState.start fpActs) events) :
    ∃ s, (FtState.start fpActs).run 4096 events = .ok s ∧
      ((∃ c0 bs, tpY.RunsAs exFloat exMem (piOuts.plain ++ piOuts.mains) c0 ∧
          rtRun exFloat exMem piHeaderY.names (piHeaderY.types.map TypeRow.desc) [c0] = .ok bs ∧ s.out <+: bs ∧
          ¬ ((∀ e ∈ events, ¬ e.IsKill) ∧ FtJoined 4096 (FtState.start fpActs) events ∧ s.Ended)) ∨
        ∃ later t ps chosen rs c m' a p b,
          FkSoFar (ftAsFork fpRun.prog) later ∧
          ((∀ e ∈ events, ¬ e.IsKill) → FtJoined 4096 (FtState.start fpActs) events → s.Ended → FkAll (ftAsFork fpRun.prog) later) ∧
          readTrace exEnv 0 ⟨s.out, false, .good⟩ = .ok t ∧ lispGetTrace t none = .ok ps ∧
          AllRel (ProjVisit.Shown (instrumentationFiles [piMain, piX, piYs])) (limited 0 (tpY :: later)) ps ∧
          LooksAt seed (ofFile (some 0) ps) chosen ∧
          lispQueryM ⟨exEnv, fun s n => s.toNat % n, plainEval exFloats, .lp64, xAlloc⟩ t (rqQuery seed) [] () m = (.ok (rs, c, ()), m') ∧
          AnswersAll (BestAnswers exFloats chosen pgTypes (some fun _ => true) .tt [pgForm, .tt, pgForm]) (some fun _ => true) rs ∧
          m.Adds m' a p b ∧ Released a p ∧ ∀ x ∈ b, x.live = false) :=
  C105_queries exFloats exEnv (fun s n => s.toNat % n) .lp64 xAlloc false exFloat exMem 4096 fpRun fpActs fp_built fp_does
    (fun _ => rfl) events hsafe (by decide) (fun _ => rfl) (rqQuery seed) .tt [pgForm, .tt, pgForm] .nil
    (.cons rq_pred (.cons .nil (.cons rq_pred .nil))) (some fun _ => true) rfl rfl (show pgTypes ≠ [] by decide)
    (show pgTypes.length < 2 ^ 32 by decide) (by show ∀ ts ∈ pgTypes, _; decide) pi_case.2.2.2.2.2.2.2.2.1
    (by intro i h; cases h; decide) (fun n hn => Nat.mod_lt _ hn) 1 (by decide)
    (fun v hv => rq_shown 0 [tpY, tpX] (by simp [rdRun, tpThreads]) v (fp_in v hv))
    (by decide) m

/-- What the trace shows after some events. -/
def fpShown (events : List FtEvent) (k : U64) : Res (List LPoint) :=
  readTrace exEnv k (gs false (ftFinal 4096 fpActs events).out) >>= fun t => lispGetTrace t none

/-- The run satisfies the condition, everything ends, and all four statements are shown. -/
example : FtSafe 4096 (FtState.start fpActs) fpEvents ∧ FtJoined 4096 (FtState.start fpActs) fpEvents ∧
    (ftFinal 4096 fpActs fpEvents).Ended ∧ fpShown fpEvents 0 = .ok [tpPointY, tpPointX, tpPointX, tpPointY] :=
  ⟨ftCheck_safe (by decide +kernel), ftCheck_joined (fork := false) (by decide +kernel), FtState.ended_of (by decide +kernel),
    by decide +kernel⟩

/-- The child is killed while it records its second point, or in its first; with a limit. -/
example : fpShown (fpEvents.take 136 ++ [.kill 1] ++ fpEvents) 0 = .ok [tpPointY, tpPointX, tpPointX] ∧
    fpShown (fpEvents.take 105 ++ [.kill 1] ++ fpEvents) 0 = .ok [tpPointY, tpPointX] ∧
    fpShown fpEvents 3 = .ok [tpPointY, tpPointX, tpPointX] := by decide +kernel

end TraceDB
