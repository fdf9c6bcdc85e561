import Verif.Proofs.ProjectThreads
import Verif.Props.ParallelInstrument
/-
C101: programs of several threads, built from instrumented projects, that end or die.
-/
namespace TraceDB

/-- **C101.**  Instrument a project, with threads as in C100 or without.  The program runs with
several threads, in any order; it ends, or dies at any moment, and of what it wrote any first part
reaches the file, at least the header.  Then there is an `order` of the first statements passed by
each thread such that reading the file either fails with the error for the end of the stream,
or gives a trace that shows the statements in this order with the values of their variables, and
queries answer about them; with a limit, only the first ones, and then it fails only if there are
fewer.  If the program has ended and nothing is lost, reading succeeds and `order` runs through all
statements passed by all threads. -/
theorem C101_queries (fs : FloatSys) (env : Env) (pick : U32 → Nat → Nat) (io : Bool) (cf : CFloat) (mem : CMem)
    (evolve other : List ProjFile) (hok : ∀ f ∈ evolve, f.Ok) (hlen : evolve.length ≤ 2 ^ 23)
    (isched : List Nat) (project : ProjResult) (hp : instrumentParallel evolve other isched = some project)
    (hstore : OneStoring .equalp (projectThreads evolve) Tables.empty isched)
    (threads : List (List ProjVisit)) (calls : List (List (U64 × List RtCall)))
    (hal : ∀ n, env.canAlloc n = true) (henv : env.junk.isSome = true)
    (hfit : ∀ l ∈ threads, ∀ v ∈ l, v.Fits cf (instrumentationFiles evolve))
    (hruns : AllRel (AllRel (ProjVisit.RunsAs cf mem (project.plain ++ project.mains))) threads calls)
    (h : ProjHeader) (hs : h.Small)
    (hmain : (∃ (p : Nat) (o : ProjOut), (project.plain ++ project.mains)[p]? = some o ∧
        o.header = some h ∧ ∀ l ∈ threads, ∀ v ∈ l, v.file ≤ p) ∨ some h ∈ project.others)
    (k : U64) (acts : List (List RtAct)) (hsteps : Steps cf mem calls acts) (sched : List Nat) (header : List U8)
    (hheader : writeTraceHeader h.names (h.types.map TypeRow.desc) = .ok header) (st : RtState)
    (hrun : (RtState.init header acts).run sched = .ok st) (T : List U8) (hcut : header ++ T <+: st.out)
    (hone : OneTypePerFoldedName evolve)
    (names : List Nat) (s : SExp) (f : Form) (ph : PHeap) (hf : SexpPredicate names s f)
    (varTypes : List (List (List U8))) (hvl : names.length = varTypes.length) (hl : names.length < 2 ^ 64)
    (hne : varTypes ≠ []) (hknown : ∀ ts ∈ varTypes, ∀ n ∈ ts, h.HasType n) (file : Option Nat)
    (hfile : ∀ i, file = some i → i < 2 ^ 23) (filter : Option (LPoint → Bool))
    (hq : ∀ l ∈ threads, ∀ v ∈ l, ∀ l, v.Shown (instrumentationFiles evolve) l → l.Manageable varTypes) :
    ∃ order : List (Nat × ProjVisit), (∀ x ∈ order, x.1 < threads.length) ∧
      (∀ (i : Nat) (l : List ProjVisit), threads[i]? = some l → threadPart i order <+: l) ∧
      (header ++ T = st.out → ∀ (i : Nat) (l : List ProjVisit), threads[i]? = some l → st.threads[i]? = some [] →
        threadPart i order = l) ∧
      (st.Ended → header ++ T = st.out → Interleaves order threads) ∧
      (readTrace env k (gs io (header ++ T)) = .throw (endExn io) ∧ ¬ (st.Ended ∧ header ++ T = st.out) ∧
          (k ≠ 0 → order.length < k.toNat) ∨
        ∃ t ps ptr ph' p rs c,
          readTrace env k (gs io (header ++ T)) = .ok t ∧ lispGetTrace t none = .ok ps ∧
          AllRel (ProjVisit.Shown (instrumentationFiles evolve)) (limited k (order.map (·.2))) ps ∧
          buildPredicate names s ph = some (ptr, ph') ∧ createPredicateObj ph' ptr = .ok p ∧
          lispQuery env pick (plainEval fs) t ⟨varTypes, p, [], 0, file, filter⟩ [] () = .ok (rs, c, ()) ∧
          (∀ r ∈ rs, ShownAnswers fs ps varTypes file filter f r) ∧
          (filter = none → ∀ a, ShownAnswers fs ps varTypes file filter f a → ∃ r ∈ rs, exactKey r = exactKey a) ∧
          (filter ≠ none → (∀ a, ShownAnswers fs ps varTypes file filter f a → ∃ r ∈ rs, foldedKey r = foldedKey a) ∧
            rs.Pairwise fun a b => foldedKey a ≠ foldedKey b)) := by
  have hperm := (C65_files evolve).1
  have hone' : OneTypePerFoldedName (instrumentationFiles evolve) := fun x hx s hs part hp v hv y hy =>
    hone x (hperm.mem_iff.mp hx) s hs part hp v hv y (hperm.mem_iff.mp hy)
  have hok' : ∀ f ∈ instrumentationFiles evolve, f.Ok := fun f hf => hok f (hperm.mem_iff.mp hf)
  have hlen' : (instrumentationFiles evolve).length ≤ 2 ^ 23 := by rw [hperm.length_eq]; exact hlen
  have hfl : ∀ {P : ProjVisit → Prop}, (∀ v ∈ threads.flatten, P v) ↔ ∀ l ∈ threads, ∀ v ∈ l, P v := by
    intro P
    exact ⟨fun h l hl v hv => h v (List.mem_flatten.mpr ⟨l, hl, hv⟩), fun h v hv => by
      obtain ⟨l, hl, hv⟩ := List.mem_flatten.mp hv
      exact h l hl v hv⟩
  obtain ⟨n, reqs, told, hmv⟩ := parallel_main hok hlen hp hstore h threads.flatten (hfl.mpr fun l hl v hv => by
      obtain ⟨m, _, hlm⟩ := hruns.mem_left l hl
      obtain ⟨c, _, o, g, ho, _⟩ := hlm.mem_left v hv
      exact (List.getElem?_eq_some_iff.mp ho).1) (by
    rcases hmain with ⟨p, o, ho, hh, hv⟩ | hm
    · exact .inl ⟨p, o, ho, hh, hfl.mpr hv⟩
    · exact .inr hm)
  obtain ⟨order, o1, o2, o3, o4⟩ := told_threads env io cf mem told hok' hlen' hs threads calls hruns (hfl.mp hmv) hfit
    henv hal acts hsteps sched header hheader st hrun T hcut
  have hmem : ∀ v ∈ limited k (order.map (·.2)), ∃ l ∈ threads, v ∈ l := by
    intro v hv
    have hv : v ∈ order.map (·.2) := by
      unfold limited at hv
      split at hv
      · exact hv
      · exact List.mem_of_mem_take hv
    obtain ⟨x, hx, rfl⟩ := List.mem_map.mp hv
    refine ⟨_, List.getElem_mem (o1 x hx), (o2 x.1 _ (List.getElem?_eq_getElem (o1 x hx))).subset ?_⟩
    unfold threadPart
    exact List.mem_map.mpr ⟨x, List.mem_filter.mpr ⟨hx, by simp⟩, rfl⟩
  refine ⟨order, o1, o2, o3, fun hend hT => ?_, ?_⟩
  · refine ⟨o1, fun i l hl => o3 hT i l hl ?_⟩
    have hi : i < st.threads.length := by
      rw [RtState.run_length _ _ _ hrun]
      have := (List.getElem?_eq_some_iff.mp hl).1
      rw [hruns.length, hsteps.length] at this
      simpa [RtState.init] using this
    rw [List.getElem?_eq_getElem hi, hend _ (List.getElem_mem hi)]
  · rcases o4 k with o4 | ⟨cs, bs, t, c1, c2, c3, c4⟩
    · exact .inl o4
    · obtain ⟨bs', t', ps, ptr, ph', p, rs, c, d1, d2, d3⟩ := told_queries fs env pick io cf mem told hok' hlen' hs
        (limited k (order.map (·.2))) cs c1 (fun v hv => by
          obtain ⟨l, hl, hv⟩ := hmem v hv
          exact hfl.mp hmv l hl v hv) (fun v hv => by
          obtain ⟨l, hl, hv⟩ := hmem v hv
          exact hfit l hl v hv) hal hone' names s f ph hf varTypes hvl hl hne hknown file hfile filter (fun v hv => by
          obtain ⟨l, hl, hv⟩ := hmem v hv
          exact hq l hl v hv)
      rw [c2] at d1
      cases d1
      rw [c3] at d2
      cases d2
      exact .inr ⟨t, ps, ptr, ph', p, rs, c, c4, d3⟩

/-! The project of C100: one thread passes the statement of `b.c`, the other that of `c.c` and then
that of `b.c`. -/

def tpX : ProjVisit := ⟨0, 0, piEnv⟩
def tpY : ProjVisit := ⟨1, 0, piEnv⟩
def tpThreads : List (List ProjVisit) := [[tpX], [tpY, tpX]]
def tpCalls : List (List (U64 × List RtCall)) := [[piCallX], [piCallY', piCallX]]
def tpActs : List (List RtAct) :=
  tpCalls.map fun l => match rtActs exFloat exMem (l.flatMap fun p => pointCalls p.1 p.2) with
    | .ok a => a
    | _ => []
/-- The second thread takes the mutex first, then the threads take turns. -/
def tpSched : List Nat := 1 :: (List.range 200).map (· % 2)
/-- The first `k` points of the trace after `n` steps, of which `lost` bytes are missing. -/
def tpTrace (n lost : Nat) (k : U64 := 0) : Res (List (List RtAct) × List LPoint) := do
  let header ← writeTraceHeader piHeaderY.names (piHeaderY.types.map TypeRow.desc)
  let s ← (RtState.init header tpActs).run (tpSched.take n)
  let t ← readTrace exEnv k (gs false (s.out.take (s.out.length - lost)))
  return (s.threads, ← lispGetTrace t none)
def tpPointX : LPoint := ⟨1, some 0, [⟨ascii "x", ascii "int", .int 5, none⟩], []⟩
def tpPointY : LPoint := ⟨2, some 1, [⟨ascii "y", ascii "int", .int 5, none⟩], []⟩

/-- The program has ended, and nothing, the last end marker, or part of the last variable is lost. -/
example : tpTrace 201 0 = .ok ([[], []], [tpPointY, tpPointX, tpPointX]) ∧
    tpTrace 201 1 = .ok ([[], []], [tpPointY, tpPointX]) ∧ tpTrace 201 2 = .throw .eof ∧
    tpTrace 201 2 2 = .ok ([[], []], [tpPointY, tpPointX]) ∧ tpTrace 201 2 3 = .throw .eof := by decide +kernel

/-- The hypotheses of `C101_queries` hold for it. -/
theorem tp_case : (∀ l ∈ tpThreads, ∀ v ∈ l, v.Fits exFloat (instrumentationFiles [piMain, piX, piYs])) ∧
    AllRel (AllRel (ProjVisit.RunsAs exFloat exMem (piOuts.plain ++ piOuts.mains))) tpThreads tpCalls ∧
    (∃ (p : Nat) (o : ProjOut), (piOuts.plain ++ piOuts.mains)[p]? = some o ∧ o.header = some piHeaderY ∧
      ∀ l ∈ tpThreads, ∀ v ∈ l, v.file ≤ p) ∧
    Steps exFloat exMem tpCalls tpActs ∧
    (∀ l ∈ tpThreads, ∀ v ∈ l, ∀ l, v.Shown (instrumentationFiles [piMain, piX, piYs]) l → l.Manageable pgTypes) := by
  obtain ⟨_, _, _, _, h1, h2, _, _, _, h3⟩ := pi_case
  have hmem : ∀ l ∈ tpThreads, ∀ v ∈ l, v ∈ [tpY, tpX] := by
    intro l hl v hv
    simp only [tpThreads, List.mem_cons, List.not_mem_nil, or_false] at hl
    rcases hl with rfl | rfl
    · simp only [List.mem_cons, List.not_mem_nil, or_false] at hv
      subst hv
      simp
    · exact hv
  have h2' := h2
  cases h2 with
  | cons hy h2 =>
    cases h2 with
    | cons hx _ =>
      refine ⟨fun l hl v hv => h1 v (hmem l hl v hv), .cons (.cons hx .nil) (.cons h2' .nil), ⟨2, _, rfl, rfl, ?_⟩, ?_,
        fun l hl v hv => h3 v (hmem l hl v hv)⟩
      · intro l hl v hv
        have := hmem l hl v hv
        simp only [List.mem_cons, List.not_mem_nil, or_false] at this
        rcases this with rfl | rfl <;> decide
      · refine .cons ?_ (.cons ?_ .nil) <;> decide +kernel

example : tpThreads.length = 2 ∧ Steps exFloat exMem tpCalls tpActs := ⟨rfl, tp_case.2.2.2.1⟩

end TraceDB
