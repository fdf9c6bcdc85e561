import Verif.Proofs.SignalProject
import Verif.Props.ForkProject
/-
C106: programs interrupted by signals, from projects to queries.
-/
namespace TraceDB

/-- **C106.**  Threads of a program built from an instrumented project are interrupted by signals at any
moment, within points too; handlers pass statements, return, or leave by `longjmp`.  At any moment the
program may be killed and any first part of what was written after the header be in the file.  Then
reading it fails as for any file that ends early, or it gives a trace that shows (up to the limit) the
first statements passed: by each thread in its order, and those of its handlers where they interrupted
it, after the first of the signals.  Queries answer about them and free their memory.  If no handler came
within a point, all threads have ended and the whole file is there, it can be read and shows every
statement passed after all signals. -/
theorem C106_queries (fs : FloatSys) (env : Env) (pick : U32 → Nat → Nat) (abi : Abi) (alloc : AllocEnv) (io : Bool) (cf : CFloat)
    (mem : CMem) (r : SigRun) (acts : List (List RtAct)) (steps : List (SgEvent (List RtAct))) (hb : r.inOne.Built)
    (hd : r.Does cf mem acts steps) (hal : ∀ n, env.canAlloc n = true) (henv : env.junk.isSome = true) (header : List U8)
    (hheader : writeTraceHeader r.header.names (r.header.types.map TypeRow.desc) = .ok header)
    (hsizes : 0 < abi.sizePoint ∧ abi.sizePoint ≤ abi.sizeVar) (hmem : ∀ n, alloc.canAlloc n = true)
    (q : FQuery) (f : Form) (sf : List Form) (hf : SexpPredicate q.varNames q.predicate f)
    (hsf : AllRel (SexpPredicate q.varNames) q.softs sf) (filter : Option (LPoint → Bool))
    (hfilter : q.filter = filter.map fun g p => some (g p)) (hvl : q.varNames.length = q.varTypes.length)
    (hne : q.varTypes ≠ []) (hsmall : q.varTypes.length < 2 ^ 32) (hts : ∀ ts ∈ q.varTypes, ts.length < 2 ^ 32)
    (hknown : ∀ ts ∈ q.varTypes, ∀ n ∈ ts, r.header.HasType n) (hfile : ∀ i, q.file = some i → i < 2 ^ 23)
    (hpick : ∀ n, 0 < n → pick q.seed n < n) (n : Nat) (hn : n < 2 ^ 32)
    (hq : ∀ v ∈ r.visits, ∀ l, v.Shown (instrumentationFiles r.evolve) l → l.Answerable q.varTypes n)
    (hroom : r.visits.length * n * abi.sizeVar < 2 ^ (8 * abi.ptr.1)) (m : FMem) :
    ∃ s, (RtState.init header acts).sgRun steps = .ok s ∧ ∀ T, header ++ T <+: s.out →
      (readTrace env r.limit ⟨header ++ T, io, .good⟩ = .throw (endExn io) ∧
          ¬ (SgSafe (RtState.init header acts) steps ∧ s.Ended ∧ header ++ T = s.out)) ∨
        ∃ signals order left t ps chosen rs c m' a p b,
          signals <+: r.events.filter SgEvent.isSignal ∧ SgReach r.threads signals order left ∧
          (SgSafe (RtState.init header acts) steps → s.Ended → header ++ T = s.out →
            signals = r.events.filter SgEvent.isSignal ∧ ∀ l ∈ left, l = []) ∧
          readTrace env r.limit ⟨header ++ T, io, .good⟩ = .ok t ∧ lispGetTrace t none = .ok ps ∧
          AllRel (ProjVisit.Shown (instrumentationFiles r.evolve)) (limited r.limit (order.map (·.2))) ps ∧
          LooksAt q.seed (ofFile q.file ps) chosen ∧
          lispQueryM ⟨env, pick, plainEval fs, abi, alloc⟩ t q [] () m = (.ok (rs, c, ()), m') ∧
          AnswersAll (BestAnswers fs chosen q.varTypes filter f sf) filter rs ∧
          m.Adds m' a p b ∧ Released a p ∧ ∀ x ∈ b, x.live = false := by
  obtain ⟨threads, events, hprog, ht, he, hdr, hnl, hsane, hknows⟩ := signalled_known env cf mem r acts steps hb hd hal
  obtain ⟨s, order, rem, rest, es, hrun, hes, hreach, hout, hall⟩ := sg_written (header := header) hprog
  refine ⟨s, hrun, ?_⟩
  rintro T ⟨more, hT⟩
  obtain ⟨sv, hsv, hsvr⟩ := (sgRel_signals he).prefixRight hes
  obtain ⟨ov, rv, g1, g2, g3⟩ := hreach.lift ht hsvr
  have hrs : ∀ p ∈ order.map (·.2), (∀ x ∈ p.items, x.Typed r.header.names (r.header.types.map TypeRow.desc) cf) ∧
      recSizes p.items = [] := by
    intro p hp
    obtain ⟨_, _, _, _, _, h⟩ := g2.mem_right p hp
    exact h
  obtain ⟨cs, _, hcs⟩ := AllRel.between (S := fun _ p c => RecPoint.CalledAs cf mem p c ∧
    (∀ x ∈ p.items, x.Typed r.header.names (r.header.types.map TypeRow.desc) cf) ∧ recSizes p.items = []) g2
  obtain ⟨j, hj, hread⟩ := read_cut env io cf mem (rs := order.map (·.2)) (T := T) (rest := more ++ rest) hdr hnl
    (hcs.imp fun p c ⟨_, h⟩ => h.1) (fun p hp => (hrs p hp).1) hsane (fun p hp r hr => by rw [(hrs p hp).2] at hr; simp at hr)
    henv hal hheader (by rw [← List.append_assoc, hT, hout, List.map_map]; rfl)
  have hfull : SgSafe (RtState.init header acts) steps → s.Ended → header ++ T = s.out →
      more ++ rest = [] ∧ es = events.filter SgEvent.isSignal ∧ ∀ l ∈ rem, l = [] := by
    intro h1 h2 h3
    obtain ⟨k1, k2, k3⟩ := hall h1 h2
    rw [h3] at hT
    exact ⟨by rw [k2, List.append_nil]; exact List.append_cancel_left (hT.trans (List.append_nil _).symm), k1, k3⟩
  rcases hread r.limit with ⟨hbad, hne'⟩ | hread
  · exact .inl ⟨hbad, fun ⟨h1, h2, h3⟩ => hne' (hfull h1 h2 h3).1⟩
  · right
    obtain ⟨signals, left, hsig, hre, hend⟩ : ∃ signals left, signals <+: r.events.filter SgEvent.isSignal ∧
        SgReach r.threads signals (ov.take j) left ∧
        (SgSafe (RtState.init header acts) steps → s.Ended → header ++ T = s.out →
          signals = r.events.filter SgEvent.isSignal ∧ ∀ l ∈ left, l = []) := by
      by_cases hw : SgSafe (RtState.init header acts) steps ∧ s.Ended ∧ header ++ T = s.out
      · obtain ⟨k1, k2, k3⟩ := hfull hw.1 hw.2.1 hw.2.2
        have hlen : ov.length ≤ j := by
          have h1 := hj k1
          have h2 := g2.length
          rw [List.length_map] at h1 h2
          rw [List.length_map] at h2
          omega
        refine ⟨sv, rv, hsv, by rw [List.take_of_length_le hlen]; exact g1, fun _ _ _ => ⟨?_, ?_⟩⟩
        · refine hsv.eq_of_length ?_
          rw [hsvr.length, k2, ← (sgRel_signals he).length]
        · intro l hl
          obtain ⟨x, hx, hlx⟩ := g3.mem_left l hl
          rw [k3 x hx] at hlx
          cases hlx
          rfl
      · obtain ⟨signals, left, k1, k2⟩ := g1.take j
        exact ⟨signals, left, k1.trans hsv, k2, fun h1 h2 h3 => absurd ⟨h1, h2, h3⟩ hw⟩
    have hin : ∀ v ∈ limited r.limit ((ov.take j).map (·.2)), v ∈ r.visits := by
      have h1 : ∀ x ∈ ov.take j, x.2 ∈ r.visits := (hre.mem (P := (· ∈ r.visits))
        (fun l hl v hv => List.mem_append_left _ (List.mem_flatten.mpr ⟨l, hl, hv⟩))
        fun e he v hv => List.mem_append_right _ (List.mem_flatMap.mpr
          ⟨e, (List.mem_filter.mp (hsig.subset he)).1, hv⟩)).1
      intro v hv
      have hv : v ∈ (ov.take j).map (·.2) := by
        unfold limited at hv
        split at hv
        · exact hv
        · exact List.mem_of_mem_take hv
      obtain ⟨x, hx, rfl⟩ := List.mem_map.mp hv
      exact h1 x hx
    have hlim : AllRel (r.inOne.Records cf mem) (limited r.limit ((ov.take j).map (·.2))) (limited r.limit ((order.map (·.2)).take j)) := by
      rw [List.map_take]
      unfold limited
      split
      · exact g2.take j
      · exact (g2.take j).take _
    obtain ⟨ps, types, k1, k2, k3⟩ := hknows _ _ hlim hin
    obtain ⟨chosen, ans, c, m', a, p, b, q1, q2, q3, q4, q5, q6⟩ := known_query fs env pick abi alloc k2 hal hsizes hmem hf hsf
      hfilter hvl hne hsmall hts (fun ts hts n hn => k3 n (hknown ts hts n hn)) hfile hpick hn (by
        intro l hl
        obtain ⟨v, hv, hs⟩ := k1.mem_right l hl
        exact hq v (hin v hv) l hs) (by
        intro l hl
        obtain ⟨v, _, _, _, _, _, _, _, ha, _⟩ := k1.mem_right l hl
        exact ha) (N := r.visits.length) (by
        rw [← k1.length]
        have h1 : (limited r.limit ((ov.take j).map (·.2))).length ≤ (ov.take j).length := by
          unfold limited
          split
          · rw [List.length_map]; exact Nat.le_refl _
          · rw [List.length_take, List.length_map]; omega
        have h2 := hre.length_le
        have h3 : (signals.flatMap SgEvent.code).length ≤ (r.events.flatMap SgEvent.code).length := by
          have hsub : signals.Sublist r.events := hsig.sublist.trans List.filter_sublist
          exact flatMap_length_le _ hsub
        simp only [SigRun.visits, List.length_append]
        omega) hroom m
    exact ⟨signals, ov.take j, left, _, ps, chosen, ans, c, m', a, p, b, hsig, hre, hend, hread, k2.get none, k1, q1, q2, q3, q4, q5, q6⟩

/-! The threads of C101; after `n` steps a handler passes the statement of the second file in the first
thread, and returns or (`jump`) ends the thread. -/

def spEvent (jump : Bool) {α : Type} (h : α) : SgEvent α := if jump then .jump 0 h else .signal 0 h
def spAll {α : Type} (jump : Bool) (n : Nat) (h : α) : List (SgEvent α) :=
  (tpSched.take n).map .run ++ spEvent jump h :: tpSched.map .run
def spHandler : List RtAct :=
  match rtActs exFloat exMem (pointCalls piCallY'.1 piCallY'.2) with
  | .ok a => a
  | _ => []
def spRun (jump : Bool) (n : Nat) (k : U64) : SigRun :=
  ⟨[piMain, piX, piYs], [], piOuts, piHeaderY, tpThreads, spAll jump n [tpY], k⟩

theorem sp_in (jump : Bool) (n : Nat) (k : U64) : ∀ v ∈ (spRun jump n k).visits, v ∈ [tpY, tpX] := by
  intro v hv
  have hruns : ∀ l : List Nat, (l.map (SgEvent.run (α := List ProjVisit))).flatMap SgEvent.code = [] := by
    intro l
    rw [List.flatMap_eq_nil_iff]
    intro e he
    obtain ⟨i, _, rfl⟩ := List.mem_map.mp he
    rfl
  have hcode : (spEvent jump [tpY]).code = [tpY] := by cases jump <;> rfl
  simp only [SigRun.visits, spRun, spAll, List.flatMap_append, List.flatMap_cons, hruns, hcode, tpThreads] at hv
  simp only [List.flatten_cons, List.flatten_nil, List.append_nil, List.nil_append, List.cons_append, List.mem_cons,
    List.not_mem_nil, or_false] at hv ⊢
  rcases hv with rfl | rfl | rfl | rfl <;> simp

theorem sp_visits (jump : Bool) (n : Nat) (k : U64) : (spRun jump n k).visits.length = 4 := by
  have hruns : ∀ l : List Nat, (l.map (SgEvent.run (α := List ProjVisit))).flatMap SgEvent.code = [] := by
    intro l
    rw [List.flatMap_eq_nil_iff]
    intro e he
    obtain ⟨i, _, rfl⟩ := List.mem_map.mp he
    rfl
  have hcode : (spEvent jump [tpY]).code = [tpY] := by cases jump <;> rfl
  simp only [SigRun.visits, spRun, spAll, List.flatMap_append, List.flatMap_cons, hruns, hcode, tpThreads]
  rfl

theorem sp_built (jump : Bool) (n : Nat) (k : U64) : (spRun jump n k).inOne.Built := by
  obtain ⟨h1, h2, h3, h4, _, _, h5, _⟩ := pi_case
  refine ⟨h1, show [piMain, piX, piYs].length ≤ 2 ^ 23 by decide, ⟨_, h3, h4⟩, h5, .inl ⟨2, _, rfl, rfl, ?_⟩, h2⟩
  intro l hl v hv
  rw [List.mem_singleton.mp hl] at hv
  have := sp_in jump n k v hv
  simp only [List.mem_cons, List.not_mem_nil, or_false] at this
  rcases this with rfl | rfl <;> decide

theorem sp_does (jump : Bool) (n : Nat) (k : U64) : (spRun jump n k).Does exFloat exMem tpActs (spAll jump n spHandler) := by
  obtain ⟨_, _, _, _, h1, h2, _⟩ := pi_case
  obtain ⟨_, h3, _, h4, _⟩ := tp_case
  refine ⟨fun v hv => h1 v (sp_in jump n k v hv), ?_, ⟨tpCalls, h3, h4⟩, spAll jump n [piCallY'], ?_, ?_⟩
  · intro e he
    simp only [spRun, spAll, List.mem_append, List.mem_cons, List.mem_map] at he
    rcases he with ⟨i, _, rfl⟩ | rfl | ⟨i, _, rfl⟩
    · trivial
    · cases jump <;> exact (by decide : 0 < tpThreads.length)
    · trivial
  · cases h2 with
    | cons hy _ =>
      refine sgRel_runs _ _ (.cons ?_ (sgRel_runs' _ _))
      cases jump
      · exact .signal 0 (.cons hy .nil)
      · exact .jump 0 (.cons hy .nil)
  · refine sgRel_runs _ _ (.cons ?_ (sgRel_runs' _ _))
    have : rtActs exFloat exMem ([piCallY'].flatMap fun p => pointCalls p.1 p.2) = .ok spHandler := by decide +kernel
    cases jump
    · exact .signal 0 this
    · exact .jump 0 this

/-- The hypotheses of `C106_queries` hold for it, with the query of C104. -/
example (jump : Bool) (n : Nat) (k : U64) (seed : U32) (m : FMem) :
    ∃ s, (RtState.init rdHeader tpActs).sgRun (spAll jump n spHandler) = .ok s ∧ ∀ T, rdHeader ++ T <+: s.out →
      (readTrace exEnv k ⟨rdHeader ++ T, false, .good⟩ = .throw .eof ∧
          ¬ (SgSafe (RtState.init rdHeader tpActs) (spAll jump n spHandler) ∧ s.Ended ∧ rdHeader ++ T = s.out)) ∨
        ∃ signals order left t ps chosen rs c m' a p b,
          signals <+: (spAll jump n [tpY]).filter SgEvent.isSignal ∧ SgReach tpThreads signals order left ∧
          (SgSafe (RtState.init rdHeader tpActs) (spAll jump n spHandler) → s.Ended → rdHeader ++ T = s.out →
            signals = (spAll jump n [tpY]).filter SgEvent.isSignal ∧ ∀ l ∈ left, l = []) ∧
          readTrace exEnv k ⟨rdHeader ++ T, false, .good⟩ = .ok t ∧ lispGetTrace t none = .ok ps ∧
          AllRel (ProjVisit.Shown (instrumentationFiles [piMain, piX, piYs])) (limited k (order.map (·.2))) ps ∧
          LooksAt seed (ofFile (some 0) ps) chosen ∧
          lispQueryM ⟨exEnv, fun s n => s.toNat % n, plainEval exFloats, .lp64, xAlloc⟩ t (rqQuery seed) [] () m = (.ok (rs, c, ()), m') ∧
          AnswersAll (BestAnswers exFloats chosen pgTypes (some fun _ => true) .tt [pgForm, .tt, pgForm]) (some fun _ => true) rs ∧
          m.Adds m' a p b ∧ Released a p ∧ ∀ x ∈ b, x.live = false :=
  C106_queries exFloats exEnv (fun s n => s.toNat % n) .lp64 xAlloc false exFloat exMem (spRun jump n k) tpActs _ (sp_built jump n k)
    (sp_does jump n k) (fun _ => rfl) rfl rdHeader rd_run.1 (by decide) (fun _ => rfl) (rqQuery seed) .tt [pgForm, .tt, pgForm] .nil
    (.cons rq_pred (.cons .nil (.cons rq_pred .nil))) (some fun _ => true) rfl rfl (show pgTypes ≠ [] by decide)
    (show pgTypes.length < 2 ^ 32 by decide) (by show ∀ ts ∈ pgTypes, _; decide) pi_case.2.2.2.2.2.2.2.2.1
    (by intro i h; cases h; decide) (fun n hn => Nat.mod_lt _ hn) 1 (by decide)
    (fun v hv => rq_shown 0 [tpY, tpX] (by simp [rdRun, tpThreads]) v (sp_in jump n k v hv))
    (by rw [sp_visits]; decide) m

/-- What the threads have still to do, and what the trace shows. -/
def spShown (jump : Bool) (n lost : Nat) (k : U64 := 0) : Res (List Nat × List LPoint) := do
  let s ← (RtState.init rdHeader tpActs).sgRun (spAll jump n spHandler)
  let t ← readTrace exEnv k (gs false (s.out.take (s.out.length - lost)))
  return (s.threads.map List.length, ← lispGetTrace t none)

/-- The signal comes while the thread waits for the mutex: all is shown, the statement passed by the
handler before that of the interrupted thread, or instead of it after `longjmp`. -/
example : spShown false 6 0 = .ok ([0, 0], [tpPointY, tpPointY, tpPointX, tpPointX]) ∧
    spShown true 6 0 = .ok ([0, 0], [tpPointY, tpPointY, tpPointX]) ∧
    spShown false 6 2 3 = .ok ([0, 0], [tpPointY, tpPointY, tpPointX]) := by decide +kernel
/-- It comes within a point: the first thread hangs, the second when it wants to record its second
point; the file shows what was recorded before, or cannot be read unless a limit is given. -/
example : spShown false 68 0 = .ok ([40, 25], [tpPointY]) ∧ spShown false 60 0 = .throw .eof ∧
    spShown false 60 0 1 = .ok ([44, 25], [tpPointY]) := by decide +kernel

end TraceDB
