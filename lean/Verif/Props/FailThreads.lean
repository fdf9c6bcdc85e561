import Verif.Proofs.FailThreads
import Verif.Props.FailProject
/-
C116: failing writes in programs with threads, from projects to queries.
-/
namespace TraceDB

/-- Queries about a trace of points recorded in some order. -/
theorem fm_answers (fs : FloatSys) (env : Env) (pick : U32 → Nat → Nat) (abi : Abi) (alloc : AllocEnv) (cf : CFloat)
    (mem : CMem) (r : ProjRun) (hal : ∀ n, env.canAlloc n = true)
    (hsizes : 0 < abi.sizePoint ∧ abi.sizePoint ≤ abi.sizeVar) (hmem : ∀ n, alloc.canAlloc n = true)
    (q : FQuery) (f : Form) (sf : List Form) (hf : SexpPredicate q.varNames q.predicate f)
    (hsf : AllRel (SexpPredicate q.varNames) q.softs sf) (filter : Option (LPoint → Bool))
    (hfilter : q.filter = filter.map fun g p => some (g p)) (hvl : q.varNames.length = q.varTypes.length)
    (hne : q.varTypes ≠ []) (hsmall : q.varTypes.length < 2 ^ 32) (hts : ∀ ts ∈ q.varTypes, ts.length < 2 ^ 32)
    (hknown : ∀ ts ∈ q.varTypes, ∀ n ∈ ts, r.header.HasType n) (hfile : ∀ i, q.file = some i → i < 2 ^ 23)
    (hpick : ∀ n, 0 < n → pick q.seed n < n) (n : Nat) (hn : n < 2 ^ 32)
    (hq : ∀ l ∈ r.threads, ∀ v ∈ l, ∀ p, v.Shown (instrumentationFiles r.evolve) p → p.Answerable q.varTypes n)
    (hroom : r.threads.flatten.length * n * abi.sizeVar < 2 ^ (8 * abi.ptr.1)) (m : FMem)
    (hknows : ∀ vs rs, AllRel (r.Records cf mem) vs rs → (∀ v ∈ vs, v ∈ r.threads.flatten) →
        ∃ ps types, AllRel (ProjVisit.Shown (instrumentationFiles r.evolve)) vs ps ∧
          KnownTrace ⟨r.header.names, r.header.types.map TypeRow.desc, recPoints 0 [] rs⟩ types ps ∧
          ∀ n, r.header.HasType n → n ∈ types)
    {thr : List (List FmPoint)} (hthr : r.threads = thr.map (List.map (·.1)))
    (hok : ∀ l ∈ thr, ∀ x ∈ l, x.Ok cf mem r) {order : List (Nat × FmPoint)} (hlt : ∀ x ∈ order, x.1 < thr.length)
    (hsub : ∀ (i : Nat) (l : List FmPoint), thr[i]? = some l → (threadPart i order).Sublist l)
    {s : IStream} (hread : readTrace env r.limit s =
      .ok ⟨r.header.names, r.header.types.map TypeRow.desc, recPoints 0 [] (limited r.limit (order.map (·.2.2.1)))⟩) :
    ∃ t ps chosen rs c m' a p b,
      readTrace env r.limit s = .ok t ∧ lispGetTrace t none = .ok ps ∧
      AllRel (ProjVisit.Shown (instrumentationFiles r.evolve)) (limited r.limit (order.map (·.2.1))) ps ∧
      LooksAt q.seed (ofFile q.file ps) chosen ∧
      lispQueryM ⟨env, pick, plainEval fs, abi, alloc⟩ t q [] () m = (.ok (rs, c, ()), m') ∧
      AnswersAll (BestAnswers fs chosen q.varTypes filter f sf) filter rs ∧
      m.Adds m' a p b ∧ Released a p ∧ ∀ x ∈ b, x.live = false := by
  obtain ⟨h1, h2, h3⟩ := fm_order hthr hok hlt hsub
  have hin : ∀ v ∈ limited r.limit (order.map (·.2.1)), v ∈ r.threads.flatten := by
    intro v hv
    obtain ⟨x, hx, rfl⟩ := List.mem_map.mp ((limited_sublist r.limit _).subset hv)
    exact (h1 x hx).2
  obtain ⟨ps, types, k1, k2, k3⟩ := hknows _ _ (h3.limited r.limit) hin
  obtain ⟨chosen, ans, c, m', a, p, b, q1, q2, q3, q4, q5, q6⟩ := known_query fs env pick abi alloc k2 hal hsizes hmem hf hsf
    hfilter hvl hne hsmall hts (fun ts hts n hn => k3 n (hknown ts hts n hn)) hfile hpick hn (by
      intro l hl'
      obtain ⟨v, hv, hs⟩ := k1.mem_right l hl'
      obtain ⟨l', hl', hv'⟩ := List.mem_flatten.mp (hin v hv)
      exact hq l' hl' v hv' l hs) (by
      intro l hl'
      obtain ⟨v, _, _, _, _, _, _, _, ha, _⟩ := k1.mem_right l hl'
      exact ha) (N := r.threads.flatten.length) (by
      rw [← k1.length]
      have := (limited_sublist r.limit (order.map (·.2.1))).length_le
      rw [List.length_map] at this
      omega) hroom m
  exact ⟨_, ps, chosen, ans, c, m', a, p, b, hread, k2.get none, k1, q1, q2, q3, q4, q5, q6⟩

/-- Points with their threads, as statements passed. -/
def fmVisits (order : List (Nat × FmPoint)) : List (Nat × ProjVisit) := order.map fun x => (x.1, x.2.1)

theorem fmVisits_part (i : Nat) (order : List (Nat × FmPoint)) : threadPart i (fmVisits order) = (threadPart i order).map (·.1) := by
  unfold threadPart fmVisits
  rw [List.filter_map, List.map_map, List.map_map]
  rfl

theorem fmVisits_get {r : ProjRun} {thr : List (List FmPoint)} (hthr : r.threads = thr.map (List.map (·.1))) {i : Nat} {l : List ProjVisit}
    (h : r.threads[i]? = some l) : ∃ l', thr[i]? = some l' ∧ l = l'.map (·.1) := by
  rw [hthr, List.getElem?_map] at h
  cases ht : thr[i]? with
  | none => rw [ht] at h; cases h
  | some l' => rw [ht] at h; cases h; exact ⟨l', rfl, rfl⟩

theorem fmVisits_lt {r : ProjRun} {thr : List (List FmPoint)} (hthr : r.threads = thr.map (List.map (·.1))) {order : List (Nat × FmPoint)}
    (h : ∀ x ∈ order, x.1 < thr.length) : ∀ x ∈ fmVisits order, x.1 < r.threads.length := by
  intro x hx
  obtain ⟨y, hy, rfl⟩ := List.mem_map.mp hx
  rw [hthr, List.length_map]
  exact h y hy

theorem fmVisits_interleaves {r : ProjRun} {thr : List (List FmPoint)} (hthr : r.threads = thr.map (List.map (·.1))) {order : List (Nat × FmPoint)}
    (h : Interleaves order thr) : Interleaves (fmVisits order) r.threads := by
  refine ⟨fmVisits_lt hthr h.1, ?_⟩
  intro i l hl
  obtain ⟨l', h1, rfl⟩ := fmVisits_get hthr hl
  rw [fmVisits_part, h.2 i l' h1]

/-- **C116, for ever.**  A program with threads, built from an instrumented project; the threads run in any
order, the process is ended by `exit` at any time or killed, and after the first failing write nothing can be
written any more.  If the header is in the file, reading it fails as for any file that ends early, or gives a
trace that shows of each thread the first of the statements it passed, in their order (up to the limit), with
the values their variables had; queries answer about them and free their memory.  If no write failed, nobody
killed the program and it ended after its threads, the file can be read and shows all statements. -/
theorem C116_for_ever (fs : FloatSys) (env : Env) (pick : U32 → Nat → Nat) (abi : Abi) (alloc : AllocEnv) (io : Bool) (cf : CFloat)
    (mem : CMem) (size : Nat) (r : ProjRun) (calls : List (List (U64 × List RtCall))) (acts : List (List FtAct)) (hb : r.Built)
    (hd : r.DoesThreads cf mem calls acts) (hal : ∀ n, env.canAlloc n = true) (henv : env.junk.isSome = true) (header : List U8)
    (hheader : writeTraceHeader r.header.names (r.header.types.map TypeRow.desc) = .ok header)
    (events : List FmEvent) (hever : FmFailsForEver size (FmState.start header acts) events)
    (hthere : ∀ s, (FmState.start header acts).run size events = .ok s → header <+: s.out)
    (hsizes : 0 < abi.sizePoint ∧ abi.sizePoint ≤ abi.sizeVar) (hmem : ∀ n, alloc.canAlloc n = true)
    (q : FQuery) (f : Form) (sf : List Form) (hf : SexpPredicate q.varNames q.predicate f)
    (hsf : AllRel (SexpPredicate q.varNames) q.softs sf) (filter : Option (LPoint → Bool))
    (hfilter : q.filter = filter.map fun g p => some (g p)) (hvl : q.varNames.length = q.varTypes.length)
    (hne : q.varTypes ≠ []) (hsmall : q.varTypes.length < 2 ^ 32) (hts : ∀ ts ∈ q.varTypes, ts.length < 2 ^ 32)
    (hknown : ∀ ts ∈ q.varTypes, ∀ n ∈ ts, r.header.HasType n) (hfile : ∀ i, q.file = some i → i < 2 ^ 23)
    (hpick : ∀ n, 0 < n → pick q.seed n < n) (n : Nat) (hn : n < 2 ^ 32)
    (hq : ∀ l ∈ r.threads, ∀ v ∈ l, ∀ p, v.Shown (instrumentationFiles r.evolve) p → p.Answerable q.varTypes n)
    (hroom : r.threads.flatten.length * n * abi.sizeVar < 2 ^ (8 * abi.ptr.1)) (m : FMem) :
    ∃ s, (FmState.start header acts).run size events = .ok s ∧
      ((readTrace env r.limit ⟨s.out, io, .good⟩ = .throw (endExn io) ∧ ¬ FmWhole events s) ∨
      ∃ (shown : List (Nat × ProjVisit)) (t : _) (ps : _) (chosen : _) (rs : _) (c : _) (m' : _) (a : _) (p : _) (b : _),
        (∀ x ∈ shown, x.1 < r.threads.length) ∧
        (∀ (i : Nat) (l : List ProjVisit), r.threads[i]? = some l → threadPart i shown <+: l) ∧
        (FmWhole events s → Interleaves shown r.threads) ∧
        readTrace env r.limit ⟨s.out, io, .good⟩ = .ok t ∧ lispGetTrace t none = .ok ps ∧
        AllRel (ProjVisit.Shown (instrumentationFiles r.evolve)) (limited r.limit (shown.map (·.2))) ps ∧
        LooksAt q.seed (ofFile q.file ps) chosen ∧
        lispQueryM ⟨env, pick, plainEval fs, abi, alloc⟩ t q [] () m = (.ok (rs, c, ()), m') ∧
        AnswersAll (BestAnswers fs chosen q.varTypes filter f sf) filter rs ∧
        m.Adds m' a p b ∧ Released a p ∧ ∀ x ∈ b, x.live = false) := by
  obtain ⟨thr, hthr, hcalls, hok, hdoes, hdr, hfew, hsane, hknows⟩ := failThreads_known env cf mem r calls acts hb hd hal
  obtain ⟨s, hrun, order, rest, h1, h2, h3, h4⟩ := fm_for_ever hdoes header size events hever
  refine ⟨s, hrun, ?_⟩
  have hsub : ∀ (i : Nat) (l : List FmPoint), thr[i]? = some l → (threadPart i order).Sublist l := fun i l hl => (h2 i l hl).sublist
  obtain ⟨g1, _, _⟩ := fm_order hthr hok h1 hsub
  obtain ⟨j, hj, hread⟩ := fm_read env io (fun x hx => (g1 x hx).1) hdr hfew hsane henv hal hheader (hthere s hrun) h3
  rcases hread with ⟨hbad, hrest⟩ | hread
  · exact .inl ⟨hbad, fun hw => hrest (h4 hw).1⟩
  · right
    have htake : ∀ (i : Nat), threadPart i (order.take j) <+: threadPart i order := fun i => threadPart_of_take i j order
    obtain ⟨t, ps, chosen, rs, c, m', a, p, b, e⟩ := fm_answers fs env pick abi alloc cf mem r hal hsizes hmem q f sf hf hsf filter
      hfilter hvl hne hsmall hts hknown hfile hpick n hn hq hroom m hknows hthr hok (order := order.take j)
      (fun x hx => h1 x (List.mem_of_mem_take hx)) (fun i l hl => (htake i).sublist.trans (hsub i l hl)) hread
    refine ⟨fmVisits (order.take j), t, ps, chosen, rs, c, m', a, p, b,
      fmVisits_lt hthr fun x hx => h1 x (List.mem_of_mem_take hx), ?_, ?_, ?_⟩
    · intro i l hl
      obtain ⟨l', hl', rfl⟩ := fmVisits_get hthr hl
      rw [fmVisits_part]
      exact ((htake i).trans (h2 i l' hl')).map _
    · intro hw
      obtain ⟨hr, hi⟩ := h4 hw
      rw [List.take_of_length_le (hj hr)]
      exact fmVisits_interleaves hthr hi
    · have : (fmVisits (order.take j)).map (·.2) = (order.take j).map (·.2.1) := by
        rw [fmVisits, List.map_map]
        rfl
      rw [this]
      exact e

/-- **C116, for a time.**  A program with threads has written its header and perhaps some points, and no thread is
recording one; so far no write has failed.  From then on writing fails now and then, such that nothing of the buffer is written and
all of it is dropped, the process may be ended by `exit` at any time, and it may be killed.  Whenever the file is
read, the trace shows what was in the file then, and of each thread some of the statements it passed later, in
their order (up to the limit); queries answer about them and free their memory.  Only if `exit` comes while
a thread is recording a point, reading the file may fail as for any file that ends early.  If no write failed,
nobody killed the program and it ended after its threads, all statements are shown. -/
theorem C116_for_a_time (fs : FloatSys) (env : Env) (pick : U32 → Nat → Nat) (abi : Abi) (alloc : AllocEnv) (io : Bool) (cf : CFloat)
    (mem : CMem) (size : Nat) (r : ProjRun) (calls : List (List (U64 × List RtCall))) (acts : List (List FtAct)) (hb : r.Built)
    (hd : r.DoesThreads cf mem calls acts) (hal : ∀ n, env.canAlloc n = true) (henv : env.junk.isSome = true) (header : List U8)
    (hheader : writeTraceHeader r.header.names (r.header.types.map TypeRow.desc) = .ok header)
    (hfit : PointsFit cf mem size calls) (before after : List FmEvent) (hbefore : ∀ e ∈ before, ¬ e.IsFail)
    (hafter : ∀ e ∈ after, e.AllOrNothing size) (s1 : FmState) (hs1 : (FmState.start header acts).run size before = .ok s1)
    (hidle : s1.owner = none) (hon : s1.ended = false) (hthere : header <+: s1.out)
    (hsizes : 0 < abi.sizePoint ∧ abi.sizePoint ≤ abi.sizeVar) (hmem : ∀ n, alloc.canAlloc n = true)
    (q : FQuery) (f : Form) (sf : List Form) (hf : SexpPredicate q.varNames q.predicate f)
    (hsf : AllRel (SexpPredicate q.varNames) q.softs sf) (filter : Option (LPoint → Bool))
    (hfilter : q.filter = filter.map fun g p => some (g p)) (hvl : q.varNames.length = q.varTypes.length)
    (hne : q.varTypes ≠ []) (hsmall : q.varTypes.length < 2 ^ 32) (hts : ∀ ts ∈ q.varTypes, ts.length < 2 ^ 32)
    (hknown : ∀ ts ∈ q.varTypes, ∀ n ∈ ts, r.header.HasType n) (hfile : ∀ i, q.file = some i → i < 2 ^ 23)
    (hpick : ∀ n, 0 < n → pick q.seed n < n) (n : Nat) (hn : n < 2 ^ 32)
    (hq : ∀ l ∈ r.threads, ∀ v ∈ l, ∀ p, v.Shown (instrumentationFiles r.evolve) p → p.Answerable q.varTypes n)
    (hroom : r.threads.flatten.length * n * abi.sizeVar < 2 ^ (8 * abi.ptr.1)) (m : FMem) :
    ∃ s, (FmState.start header acts).run size (before ++ after) = .ok s ∧
      ∃ (first : List (Nat × ProjVisit)) (ps1 : List LPoint),
      (readTrace env r.limit ⟨s1.out, io, .good⟩ >>= fun t => lispGetTrace t none) = .ok ps1 ∧
      AllRel (ProjVisit.Shown (instrumentationFiles r.evolve)) (limited r.limit (first.map (·.2))) ps1 ∧
      ((readTrace env r.limit ⟨s.out, io, .good⟩ = .throw (endExn io) ∧ s.ended = true ∧ s.owner.isSome = true ∧
        (r.limit = 0 ∨ first.length < r.limit.toNat)) ∨
      ∃ (later : List (Nat × ProjVisit)) (t : _) (ps : _) (chosen : _) (rs : _) (c : _) (m' : _) (a : _) (p : _) (b : _),
        (∀ x ∈ first ++ later, x.1 < r.threads.length) ∧
        (∀ (i : Nat) (l : List ProjVisit), r.threads[i]? = some l →
          ∃ more, l = threadPart i first ++ more ∧ (threadPart i later).Sublist more) ∧
        (FmWhole (before ++ after) s → Interleaves (first ++ later) r.threads) ∧
        readTrace env r.limit ⟨s.out, io, .good⟩ = .ok t ∧ lispGetTrace t none = .ok ps ∧
        AllRel (ProjVisit.Shown (instrumentationFiles r.evolve)) (limited r.limit ((first ++ later).map (·.2))) ps ∧
        LooksAt q.seed (ofFile q.file ps) chosen ∧
        lispQueryM ⟨env, pick, plainEval fs, abi, alloc⟩ t q [] () m = (.ok (rs, c, ()), m') ∧
        AnswersAll (BestAnswers fs chosen q.varTypes filter f sf) filter rs ∧
        m.Adds m' a p b ∧ Released a p ∧ ∀ x ∈ b, x.live = false) := by
  obtain ⟨thr, hthr, hcalls, hok, hdoes, hdr, hfew, hsane, hknows⟩ := failThreads_known env cf mem r calls acts hb hd hal
  obtain ⟨s, hrun, first, later, torn, T, rest, h1, h2, h3, h4, h5, h6, h7, h8⟩ := fm_for_a_time hdoes header size (by
    intro l hl x hx
    have := hfit _ (by rw [hcalls]; exact List.mem_map.mpr ⟨l, hl, rfl⟩) _ (List.mem_map.mpr ⟨x, hx, rfl⟩)
    exact this _ (point_bytes (hok l hl x hx).2.1 (hok l hl x hx).2.2.1)) before after hbefore hafter s1 hs1 hidle hon hthere
  have happend : ∀ (i : Nat) (a b : List (Nat × FmPoint)), threadPart i (a ++ b) = threadPart i a ++ threadPart i b := by
    intro i a b
    simp [threadPart]
  have hsub : ∀ o, o <+: torn → ∀ (i : Nat) (l : List FmPoint), thr[i]? = some l → (threadPart i (first ++ (later ++ o))).Sublist l := by
    intro o ho i l hl
    obtain ⟨more, rfl, hm⟩ := h3 i l hl
    rw [happend]
    refine (List.Sublist.refl _).append (List.Sublist.trans ?_ hm)
    exact ((((List.Sublist.refl later).append ho.sublist).filter _).map _)
  have hlt : ∀ o, o <+: torn → ∀ x ∈ first ++ (later ++ o), x.1 < thr.length := by
    intro o ho x hx
    apply h2
    rw [List.append_assoc]
    exact (((List.Sublist.refl first).append ((List.Sublist.refl later).append ho.sublist)).subset hx)
  have hsub1 : ∀ (i : Nat) (l : List FmPoint), thr[i]? = some l → (threadPart i first).Sublist l := by
    intro i l hl
    obtain ⟨more, rfl, hm⟩ := h3 i l hl
    exact List.sublist_append_left _ _
  have hlt1 : ∀ x ∈ first, x.1 < thr.length := fun x hx => hlt [] List.nil_prefix x (List.mem_append_left _ hx)
  obtain ⟨g1, _, _⟩ := fm_order hthr hok (hlt torn List.prefix_rfl) (hsub torn List.prefix_rfl)
  obtain ⟨g2, _, g3⟩ := fm_order hthr hok hlt1 hsub1
  obtain ⟨j1, hj1, hread1⟩ := fm_read env io (fun x hx => (g2 x hx).1) hdr hfew hsane henv hal hheader ⟨_, h1.symm⟩ (rest := [])
    (by rw [List.append_nil]; exact h1)
  have hread1 : readTrace env r.limit ⟨s1.out, io, .good⟩ =
      .ok ⟨r.header.names, r.header.types.map TypeRow.desc, recPoints 0 [] (limited r.limit (first.map (·.2.2.1)))⟩ := by
    rcases hread1 with ⟨_, hx⟩ | hx
    · exact absurd rfl hx
    · rw [List.take_of_length_le (hj1 rfl)] at hx
      exact hx
  obtain ⟨ps1, types1, k1, k2, _⟩ := hknows _ _ (g3.limited r.limit) (by
    intro v hv
    obtain ⟨x, hx, rfl⟩ := List.mem_map.mp ((limited_sublist r.limit _).subset hv)
    exact (g2 x hx).2)
  have hread := fm_read_torn env io (order := first ++ later) (torn := torn) (T := T) (rest := rest) (by
    rw [List.append_assoc]
    exact fun x hx => (g1 x hx).1) hdr hfew hsane henv hal hheader h5
  rw [← h4] at hread
  have hsnd : ∀ o : List (Nat × FmPoint), (fmVisits o).map (·.2) = o.map (·.2.1) := by
    intro o
    rw [fmVisits, List.map_map]
    rfl
  refine ⟨s, hrun, fmVisits first, ps1, by rw [hread1, Res.ok_bind]; exact k2.get none, by rw [hsnd]; exact k1, ?_⟩
  rcases hread with ⟨hbad, hrest, hlim⟩ | ⟨o, ho, _, hread⟩
  · obtain ⟨h7, h7'⟩ := h7 (by
      rintro rfl
      exact hrest (List.append_eq_nil_iff.mp h5).2)
    refine .inl ⟨hbad, h7, h7', ?_⟩
    rw [List.length_append] at hlim
    have : (fmVisits first).length = first.length := by simp [fmVisits]
    rcases hlim with hlim | hlim
    · exact .inl hlim
    · exact .inr (by omega)
  · right
    rw [List.append_assoc] at hread
    obtain ⟨t, ps, chosen, rs, c, m', a, p, b, e⟩ := fm_answers fs env pick abi alloc cf mem r hal hsizes hmem q f sf hf hsf filter
      hfilter hvl hne hsmall hts hknown hfile hpick n hn hq hroom m hknows hthr hok (order := first ++ (later ++ o))
      (hlt o ho) (hsub o ho) hread
    have happ : fmVisits first ++ fmVisits (later ++ o) = fmVisits (first ++ (later ++ o)) := by simp [fmVisits]
    refine ⟨fmVisits (later ++ o), t, ps, chosen, rs, c, m', a, p, b, ?_, ?_, ?_, ?_⟩
    · rw [happ]
      exact fmVisits_lt hthr (hlt o ho)
    · intro i l hl
      obtain ⟨l', hl', rfl⟩ := fmVisits_get hthr hl
      obtain ⟨more, hm1, hm2⟩ := h3 i l' hl'
      refine ⟨more.map (·.1), ?_, ?_⟩
      · rw [fmVisits_part, hm1, List.map_append]
      · rw [fmVisits_part]
        exact (((((List.Sublist.refl later).append ho.sublist).filter _).map _).trans hm2).map _
    · intro hw
      obtain ⟨hr, hi⟩ := h8 hw
      subst hr
      have : o = [] := List.prefix_nil.mp ho
      subst this
      rw [happ, List.append_nil]
      exact fmVisits_interleaves hthr hi
    · rw [happ, hsnd]
      exact e

/-- **C116, what was there stays.**  If nothing has failed until a moment when no thread is recording a point and the
header is in the file, then, whatever fails for ever afterwards, all that a trace of that moment shows is shown,
followed by later points.  Reading can fail only if something failed, the process was killed or `exit` came too
early, and not if a limit is given that the points of that moment reach. -/
theorem C116_kept (fs : FloatSys) (env : Env) (pick : U32 → Nat → Nat) (abi : Abi) (alloc : AllocEnv) (io : Bool) (cf : CFloat)
    (mem : CMem) (size : Nat) (r : ProjRun) (calls : List (List (U64 × List RtCall))) (acts : List (List FtAct)) (hb : r.Built)
    (hd : r.DoesThreads cf mem calls acts) (hal : ∀ n, env.canAlloc n = true) (henv : env.junk.isSome = true) (header : List U8)
    (hheader : writeTraceHeader r.header.names (r.header.types.map TypeRow.desc) = .ok header)
    (before after : List FmEvent) (hbefore : ∀ e ∈ before, ¬ e.IsFail)
    (s1 : FmState) (hs1 : (FmState.start header acts).run size before = .ok s1)
    (hidle : s1.owner = none) (hon : s1.ended = false) (hthere : header <+: s1.out)
    (hever : FmFailsForEver size s1 after)
    (hsizes : 0 < abi.sizePoint ∧ abi.sizePoint ≤ abi.sizeVar) (hmem : ∀ n, alloc.canAlloc n = true)
    (q : FQuery) (f : Form) (sf : List Form) (hf : SexpPredicate q.varNames q.predicate f)
    (hsf : AllRel (SexpPredicate q.varNames) q.softs sf) (filter : Option (LPoint → Bool))
    (hfilter : q.filter = filter.map fun g p => some (g p)) (hvl : q.varNames.length = q.varTypes.length)
    (hne : q.varTypes ≠ []) (hsmall : q.varTypes.length < 2 ^ 32) (hts : ∀ ts ∈ q.varTypes, ts.length < 2 ^ 32)
    (hknown : ∀ ts ∈ q.varTypes, ∀ n ∈ ts, r.header.HasType n) (hfile : ∀ i, q.file = some i → i < 2 ^ 23)
    (hpick : ∀ n, 0 < n → pick q.seed n < n) (n : Nat) (hn : n < 2 ^ 32)
    (hq : ∀ l ∈ r.threads, ∀ v ∈ l, ∀ p, v.Shown (instrumentationFiles r.evolve) p → p.Answerable q.varTypes n)
    (hroom : r.threads.flatten.length * n * abi.sizeVar < 2 ^ (8 * abi.ptr.1)) (m : FMem) :
    ∃ s, (FmState.start header acts).run size (before ++ after) = .ok s ∧
      ∃ (first : List (Nat × ProjVisit)) (ps1 : List LPoint),
      (readTrace env r.limit ⟨s1.out, io, .good⟩ >>= fun t => lispGetTrace t none) = .ok ps1 ∧
      AllRel (ProjVisit.Shown (instrumentationFiles r.evolve)) (limited r.limit (first.map (·.2))) ps1 ∧
      ((readTrace env r.limit ⟨s.out, io, .good⟩ = .throw (endExn io) ∧ ¬ FmWhole (before ++ after) s ∧
        (r.limit = 0 ∨ first.length < r.limit.toNat)) ∨
      ∃ (later : List (Nat × ProjVisit)) (t : _) (ps : _) (chosen : _) (rs : _) (c : _) (m' : _) (a : _) (p : _) (b : _),
        (∀ x ∈ first ++ later, x.1 < r.threads.length) ∧
        (∀ (i : Nat) (l : List ProjVisit), r.threads[i]? = some l → threadPart i (first ++ later) <+: l) ∧
        (FmWhole (before ++ after) s → Interleaves (first ++ later) r.threads) ∧
        readTrace env r.limit ⟨s.out, io, .good⟩ = .ok t ∧ lispGetTrace t none = .ok ps ∧
        AllRel (ProjVisit.Shown (instrumentationFiles r.evolve)) (limited r.limit ((first ++ later).map (·.2))) ps ∧
        LooksAt q.seed (ofFile q.file ps) chosen ∧
        lispQueryM ⟨env, pick, plainEval fs, abi, alloc⟩ t q [] () m = (.ok (rs, c, ()), m') ∧
        AnswersAll (BestAnswers fs chosen q.varTypes filter f sf) filter rs ∧
        m.Adds m' a p b ∧ Released a p ∧ ∀ x ∈ b, x.live = false) := by
  obtain ⟨thr, hthr, hcalls, hok, hdoes, hdr, hfew, hsane, hknows⟩ := failThreads_known env cf mem r calls acts hb hd hal
  obtain ⟨s, hrun, first, later, T, rest, h1, h2, h3, h4, h5, h6⟩ := fm_kept_for_ever hdoes header size before after hbefore s1 hs1 hidle
    hon hthere hever
  have hsub : ∀ o, o <+: later → ∀ (i : Nat) (l : List FmPoint), thr[i]? = some l → threadPart i (first ++ o) <+: l := by
    intro o ho i l hl
    refine List.IsPrefix.trans ?_ (h3 i l hl)
    obtain ⟨x, rfl⟩ := ho
    exact ⟨threadPart i x, by simp [threadPart]⟩
  have hlt : ∀ o, o <+: later → ∀ x ∈ first ++ o, x.1 < thr.length := by
    intro o ho x hx
    exact h2 _ (((List.Sublist.refl first).append ho.sublist).subset hx)
  obtain ⟨g1, _, _⟩ := fm_order hthr hok (hlt later List.prefix_rfl) fun i l hl => (hsub later List.prefix_rfl i l hl).sublist
  obtain ⟨g2, _, g3⟩ := fm_order hthr hok (order := first) (by simpa using hlt [] List.nil_prefix)
    fun i l hl => by simpa using (hsub [] List.nil_prefix i l hl).sublist
  obtain ⟨j1, hj1, hread1⟩ := fm_read env io (fun x hx => (g2 x hx).1) hdr hfew hsane henv hal hheader ⟨_, h1.symm⟩ (rest := [])
    (by rw [List.append_nil]; exact h1)
  have hread1 : readTrace env r.limit ⟨s1.out, io, .good⟩ =
      .ok ⟨r.header.names, r.header.types.map TypeRow.desc, recPoints 0 [] (limited r.limit (first.map (·.2.2.1)))⟩ := by
    rcases hread1 with ⟨_, hx⟩ | hx
    · exact absurd rfl hx
    · rw [List.take_of_length_le (hj1 rfl)] at hx
      exact hx
  obtain ⟨ps1, types1, k1, k2, _⟩ := hknows _ _ (g3.limited r.limit) (by
    intro v hv
    obtain ⟨x, hx, rfl⟩ := List.mem_map.mp ((limited_sublist r.limit _).subset hv)
    exact (g2 x hx).2)
  have hread := fm_read_torn env io (order := first) (torn := later) (T := T) (rest := rest) (fun x hx => (g1 x hx).1) hdr hfew hsane henv
    hal hheader h5
  rw [← h4] at hread
  have hsnd : ∀ o : List (Nat × FmPoint), (fmVisits o).map (·.2) = o.map (·.2.1) := by
    intro o
    rw [fmVisits, List.map_map]
    rfl
  refine ⟨s, hrun, fmVisits first, ps1, by rw [hread1, Res.ok_bind]; exact k2.get none, by rw [hsnd]; exact k1, ?_⟩
  rcases hread with ⟨hbad, hrest, hlim⟩ | ⟨o, ho, hall, hread⟩
  · refine .inl ⟨hbad, fun hw => hrest (h6 hw).1, ?_⟩
    have : (fmVisits first).length = first.length := by simp [fmVisits]
    rw [this]
    exact hlim
  · right
    obtain ⟨t, ps, chosen, rs, c, m', a, p, b, e⟩ := fm_answers fs env pick abi alloc cf mem r hal hsizes hmem q f sf hf hsf filter
      hfilter hvl hne hsmall hts hknown hfile hpick n hn hq hroom m hknows hthr hok (order := first ++ o)
      (hlt o ho) (fun i l hl => (hsub o ho i l hl).sublist) hread
    have happ : fmVisits first ++ fmVisits o = fmVisits (first ++ o) := by simp [fmVisits]
    refine ⟨fmVisits o, t, ps, chosen, rs, c, m', a, p, b, ?_, ?_, ?_, ?_⟩
    · rw [happ]
      exact fmVisits_lt hthr (hlt o ho)
    · intro i l hl
      obtain ⟨l', hl', rfl⟩ := fmVisits_get hthr hl
      obtain ⟨x, hx⟩ := hsub o ho i l' hl'
      rw [happ]
      exact ⟨x.map (·.1), by rw [fmVisits_part, ← List.map_append, hx]⟩
    · intro hw
      obtain ⟨hr, hi⟩ := h6 hw
      rw [happ, hall hr]
      exact fmVisits_interleaves hthr hi
    · rw [happ, hsnd]
      exact e

/-! The project of C101: the first thread passes the statement of the first file, the second thread the
statement of the second file and then the one of the first. -/

def fmRun (k : U64) : ProjRun := ⟨[piMain, piX, piYs], [], piOuts, piHeaderY, tpThreads, k⟩
def fmActs : List (List FtAct) :=
  tpCalls.map fun l => match ftItems exFloat exMem [] (l.map .point) with
    | .ok a => a
    | _ => []

/-- Thread `i` goes on for `n` steps. -/
def fmGo (i n : Nat) : List FmEvent := List.replicate n (.run i)

/-- What the trace shows after some events. -/
def fmShown (events : List FmEvent) (k : U64 := 0) : Res (List LPoint) := do
  let s ← (FmState.start rdHeader fmActs).run 4096 events
  let t ← readTrace exEnv k (gs false s.out)
  lispGetTrace t none

theorem fm_built (k : U64) : (fmRun k).Built := by
  obtain ⟨h1, h2, h3, h4, h5, h6⟩ := rd_built 0
  exact ⟨h1, h2, h3, h4, h5, h6⟩

theorem fm_acts : AllRel (fun l a => ftItems exFloat exMem [] (l.map .point) = .ok a) tpCalls fmActs := by
  have h : ∀ l : List (U64 × List RtCall), (match ftItems exFloat exMem [] (l.map .point) with
      | .ok _ => true
      | _ => false) = true → ftItems exFloat exMem [] (l.map .point) = .ok (match ftItems exFloat exMem [] (l.map .point) with
      | .ok a => a
      | _ => []) := by
    intro l hl
    cases hr : ftItems exFloat exMem [] (l.map .point) with
    | ok a => rfl
    | _ => rw [hr] at hl; cases hl
  exact .cons (h _ (by decide +kernel)) (.cons (h _ (by decide +kernel)) .nil)

theorem fm_does (k : U64) : (fmRun k).DoesThreads exFloat exMem tpCalls fmActs := by
  obtain ⟨h1, h2, _⟩ := tp_case
  exact ⟨h1, h2, fm_acts⟩

theorem fm_fit : PointsFit exFloat exMem 4096 tpCalls := by
  intro l hl c hc b hb
  have hc : c = piCallX ∨ c = piCallY' := by
    simp only [tpCalls, List.mem_cons, List.not_mem_nil, or_false] at hl
    rcases hl with rfl | rfl
    · exact .inl (List.mem_singleton.mp hc)
    · simp only [List.mem_cons, List.not_mem_nil, or_false] at hc
      exact hc.symm
  have h : ∀ c, c = piCallX ∨ c = piCallY' → (match rtBytes exFloat exMem (pointCalls c.1 c.2) with
      | .ok b => decide (b.length ≤ 4096)
      | _ => true) = true := by
    rintro c (rfl | rfl) <;> decide +kernel
  have h := h c hc
  rw [hb] at h
  exact of_decide_eq_true h

/-- After the first point of the second thread. -/
def fmFirst : FmState :=
  match (FmState.start rdHeader fmActs).run 4096 (fmGo 1 26) with
  | .ok s => s
  | _ => FmState.start [] []

theorem fm_first : (FmState.start rdHeader fmActs).run 4096 (fmGo 1 26) = .ok fmFirst ∧ fmFirst.owner = none ∧ fmFirst.ended = false ∧
    rdHeader <+: fmFirst.out := by
  have h : (match (FmState.start rdHeader fmActs).run 4096 (fmGo 1 26) with
      | .ok s => s.owner.isNone && !s.ended && rdHeader.isPrefixOf s.out
      | _ => false) = true := by decide +kernel
  unfold fmFirst
  cases hr : (FmState.start rdHeader fmActs).run 4096 (fmGo 1 26) with
  | ok s =>
    rw [hr] at h
    dsimp only at h ⊢
    simp only [Bool.and_eq_true, Option.isNone_iff_eq_none, Bool.not_eq_true', List.isPrefixOf_iff_prefix] at h
    exact ⟨rfl, h.1.1, h.1.2, h.2⟩
  | _ => rw [hr] at h; cases h

/-- The hypotheses of `C116_for_a_time` hold for it, with the query of C104. -/
example (k : U64) (seed : U32) (m : FMem) (after : List FmEvent) (hafter : ∀ e ∈ after, e.AllOrNothing 4096) :
    ∃ s, (FmState.start rdHeader fmActs).run 4096 (fmGo 1 26 ++ after) = .ok s ∧
      ∃ (first : List (Nat × ProjVisit)) (ps1 : List LPoint),
      (readTrace exEnv k ⟨fmFirst.out, false, .good⟩ >>= fun t => lispGetTrace t none) = .ok ps1 ∧
      AllRel (ProjVisit.Shown (instrumentationFiles [piMain, piX, piYs])) (limited k (first.map (·.2))) ps1 ∧
      ((readTrace exEnv k ⟨s.out, false, .good⟩ = .throw .eof ∧ s.ended = true ∧ s.owner.isSome = true ∧
        (k = 0 ∨ first.length < k.toNat)) ∨
      ∃ (later : List (Nat × ProjVisit)) (t : _) (ps : _) (chosen : _) (rs : _) (c : _) (m' : _) (a : _) (p : _) (b : _),
        (∀ x ∈ first ++ later, x.1 < 2) ∧
        (∀ (i : Nat) (l : List ProjVisit), tpThreads[i]? = some l →
          ∃ more, l = threadPart i first ++ more ∧ (threadPart i later).Sublist more) ∧
        (FmWhole (fmGo 1 26 ++ after) s → Interleaves (first ++ later) tpThreads) ∧
        readTrace exEnv k ⟨s.out, false, .good⟩ = .ok t ∧ lispGetTrace t none = .ok ps ∧
        AllRel (ProjVisit.Shown (instrumentationFiles [piMain, piX, piYs])) (limited k ((first ++ later).map (·.2))) ps ∧
        LooksAt seed (ofFile (some 0) ps) chosen ∧
        lispQueryM ⟨exEnv, fun s n => s.toNat % n, plainEval exFloats, .lp64, xAlloc⟩ t (rqQuery seed) [] () m = (.ok (rs, c, ()), m') ∧
        AnswersAll (BestAnswers exFloats chosen pgTypes (some fun _ => true) .tt [pgForm, .tt, pgForm]) (some fun _ => true) rs ∧
        m.Adds m' a p b ∧ Released a p ∧ ∀ x ∈ b, x.live = false) :=
  C116_for_a_time exFloats exEnv (fun s n => s.toNat % n) .lp64 xAlloc false exFloat exMem 4096 (fmRun k) tpCalls fmActs (fm_built k)
    (fm_does k) (fun _ => rfl) rfl rdHeader rd_run.1 fm_fit (fmGo 1 26) after
    (by intro e he; rw [(List.mem_replicate.mp he).2]; exact id) hafter fmFirst fm_first.1 fm_first.2.1 fm_first.2.2.1 fm_first.2.2.2
    (by decide) (fun _ => rfl) (rqQuery seed) .tt [pgForm, .tt, pgForm] .nil
    (.cons rq_pred (.cons .nil (.cons rq_pred .nil))) (some fun _ => true) rfl rfl (show pgTypes ≠ [] by decide)
    (show pgTypes.length < 2 ^ 32 by decide) (by show ∀ ts ∈ pgTypes, _; decide) pi_case.2.2.2.2.2.2.2.2.1
    (by intro i h; cases h; decide) (fun n hn => Nat.mod_lt _ hn) 1 (by decide) (rq_shown 0)
    (show 3 * 1 * Abi.lp64.sizeVar < 2 ^ (8 * Abi.lp64.ptr.1) by decide) m

/-- The hypotheses of `C116_kept` hold for it, with the query of C104. -/
example (k : U64) (seed : U32) (m : FMem) (after : List FmEvent) (hever : FmFailsForEver 4096 fmFirst after) :
    ∃ s, (FmState.start rdHeader fmActs).run 4096 (fmGo 1 26 ++ after) = .ok s ∧
      ∃ (first : List (Nat × ProjVisit)) (ps1 : List LPoint),
      (readTrace exEnv k ⟨fmFirst.out, false, .good⟩ >>= fun t => lispGetTrace t none) = .ok ps1 ∧
      AllRel (ProjVisit.Shown (instrumentationFiles [piMain, piX, piYs])) (limited k (first.map (·.2))) ps1 ∧
      ((readTrace exEnv k ⟨s.out, false, .good⟩ = .throw .eof ∧ ¬ FmWhole (fmGo 1 26 ++ after) s ∧
        (k = 0 ∨ first.length < k.toNat)) ∨
      ∃ (later : List (Nat × ProjVisit)) (t : _) (ps : _) (chosen : _) (rs : _) (c : _) (m' : _) (a : _) (p : _) (b : _),
        (∀ x ∈ first ++ later, x.1 < 2) ∧
        (∀ (i : Nat) (l : List ProjVisit), tpThreads[i]? = some l → threadPart i (first ++ later) <+: l) ∧
        (FmWhole (fmGo 1 26 ++ after) s → Interleaves (first ++ later) tpThreads) ∧
        readTrace exEnv k ⟨s.out, false, .good⟩ = .ok t ∧ lispGetTrace t none = .ok ps ∧
        AllRel (ProjVisit.Shown (instrumentationFiles [piMain, piX, piYs])) (limited k ((first ++ later).map (·.2))) ps ∧
        LooksAt seed (ofFile (some 0) ps) chosen ∧
        lispQueryM ⟨exEnv, fun s n => s.toNat % n, plainEval exFloats, .lp64, xAlloc⟩ t (rqQuery seed) [] () m = (.ok (rs, c, ()), m') ∧
        AnswersAll (BestAnswers exFloats chosen pgTypes (some fun _ => true) .tt [pgForm, .tt, pgForm]) (some fun _ => true) rs ∧
        m.Adds m' a p b ∧ Released a p ∧ ∀ x ∈ b, x.live = false) :=
  C116_kept exFloats exEnv (fun s n => s.toNat % n) .lp64 xAlloc false exFloat exMem 4096 (fmRun k) tpCalls fmActs (fm_built k)
    (fm_does k) (fun _ => rfl) rfl rdHeader rd_run.1 (fmGo 1 26) after
    (by intro e he; rw [(List.mem_replicate.mp he).2]; exact id) fmFirst fm_first.1 fm_first.2.1 fm_first.2.2.1 fm_first.2.2.2 hever
    (by decide) (fun _ => rfl) (rqQuery seed) .tt [pgForm, .tt, pgForm] .nil
    (.cons rq_pred (.cons .nil (.cons rq_pred .nil))) (some fun _ => true) rfl rfl (show pgTypes ≠ [] by decide)
    (show pgTypes.length < 2 ^ 32 by decide) (by show ∀ ts ∈ pgTypes, _; decide) pi_case.2.2.2.2.2.2.2.2.1
    (by intro i h; cases h; decide) (fun n hn => Nat.mod_lt _ hn) 1 (by decide) (rq_shown 0)
    (show 3 * 1 * Abi.lp64.sizeVar < 2 ^ (8 * Abi.lp64.ptr.1) by decide) m

/-- The hypotheses of `C116_for_ever` hold for it. -/
example (k : U64) (seed : U32) (m : FMem) (events : List FmEvent) (hever : FmFailsForEver 4096 (FmState.start rdHeader fmActs) events)
    (hthere : ∀ s, (FmState.start rdHeader fmActs).run 4096 events = .ok s → rdHeader <+: s.out) :
    ∃ s, (FmState.start rdHeader fmActs).run 4096 events = .ok s ∧
      ((readTrace exEnv k ⟨s.out, false, .good⟩ = .throw .eof ∧ ¬ FmWhole events s) ∨
      ∃ (shown : List (Nat × ProjVisit)) (t : _) (ps : _) (chosen : _) (rs : _) (c : _) (m' : _) (a : _) (p : _) (b : _),
        (∀ x ∈ shown, x.1 < 2) ∧
        (∀ (i : Nat) (l : List ProjVisit), tpThreads[i]? = some l → threadPart i shown <+: l) ∧
        (FmWhole events s → Interleaves shown tpThreads) ∧
        readTrace exEnv k ⟨s.out, false, .good⟩ = .ok t ∧ lispGetTrace t none = .ok ps ∧
        AllRel (ProjVisit.Shown (instrumentationFiles [piMain, piX, piYs])) (limited k (shown.map (·.2))) ps ∧
        LooksAt seed (ofFile (some 0) ps) chosen ∧
        lispQueryM ⟨exEnv, fun s n => s.toNat % n, plainEval exFloats, .lp64, xAlloc⟩ t (rqQuery seed) [] () m = (.ok (rs, c, ()), m') ∧
        AnswersAll (BestAnswers exFloats chosen pgTypes (some fun _ => true) .tt [pgForm, .tt, pgForm]) (some fun _ => true) rs ∧
        m.Adds m' a p b ∧ Released a p ∧ ∀ x ∈ b, x.live = false) :=
  C116_for_ever exFloats exEnv (fun s n => s.toNat % n) .lp64 xAlloc false exFloat exMem 4096 (fmRun k) tpCalls fmActs (fm_built k)
    (fm_does k) (fun _ => rfl) rfl rdHeader rd_run.1 events hever hthere
    (by decide) (fun _ => rfl) (rqQuery seed) .tt [pgForm, .tt, pgForm] .nil
    (.cons rq_pred (.cons .nil (.cons rq_pred .nil))) (some fun _ => true) rfl rfl (show pgTypes ≠ [] by decide)
    (show pgTypes.length < 2 ^ 32 by decide) (by show ∀ ts ∈ pgTypes, _; decide) pi_case.2.2.2.2.2.2.2.2.1
    (by intro i h; cases h; decide) (fun n hn => Nat.mod_lt _ hn) 1 (by decide) (rq_shown 0)
    (show 3 * 1 * Abi.lp64.sizeVar < 2 ^ (8 * Abi.lp64.ptr.1) by decide) m

/-- All is written; the first thread comes between the points of the second; its point is lost, or the second point
of the second thread; the process is killed while the second thread records a point; with a limit. -/
example : fmShown (fmGo 1 52 ++ fmGo 0 26 ++ [.exit]) = .ok [tpPointY, tpPointX, tpPointX] ∧
    fmShown (fmGo 1 20 ++ fmGo 0 9 ++ fmGo 1 6 ++ fmGo 0 26 ++ fmGo 1 26 ++ [.exit]) = .ok [tpPointY, tpPointX, tpPointX] ∧
    fmShown (fmGo 1 26 ++ fmGo 0 24 ++ .fail 0 0 4096 :: fmGo 0 1 ++ fmGo 1 26 ++ [.exit]) = .ok [tpPointY, tpPointX] ∧
    fmShown (fmGo 1 26 ++ fmGo 0 26 ++ fmGo 1 24 ++ .fail 1 0 4096 :: fmGo 1 1 ++ [.exit]) = .ok [tpPointY, tpPointX] ∧
    fmShown (fmGo 1 40 ++ .kill :: fmGo 0 26) = .ok [tpPointY] ∧
    fmShown (fmGo 1 52 ++ fmGo 0 26 ++ [.exit]) 2 = .ok [tpPointY, tpPointX] := by decide +kernel

/-- The events after which everything is written are such. -/
theorem fm_whole_case : ∃ s, (FmState.start rdHeader fmActs).run 4096 (fmGo 1 52 ++ fmGo 0 26 ++ [.exit]) = .ok s ∧
    FmWhole (fmGo 1 52 ++ fmGo 0 26 ++ [.exit]) s := by
  have h : (match (FmState.start rdHeader fmActs).run 4096 (fmGo 1 52 ++ fmGo 0 26 ++ [.exit]) with
      | .ok s => s.ended && s.threads.all List.isEmpty
      | _ => false) = true := by decide +kernel
  cases hr : (FmState.start rdHeader fmActs).run 4096 (fmGo 1 52 ++ fmGo 0 26 ++ [.exit]) with
  | ok s =>
    rw [hr] at h
    dsimp only at h
    simp only [Bool.and_eq_true, List.all_eq_true, List.isEmpty_iff] at h
    refine ⟨s, rfl, ?_, h.1, h.2⟩
    intro e he
    simp only [List.mem_append, List.mem_singleton, fmGo, List.mem_replicate] at he
    rcases he with (⟨_, rfl⟩ | ⟨_, rfl⟩) | rfl <;> exact ⟨id, id⟩
  | _ => rw [hr] at h; cases h

/-- The disk is full after 12 bytes of the point of the first thread, for ever. -/
theorem fm_full : FmFailsForEver 4096 (FmState.start rdHeader fmActs) (fmGo 1 26 ++ fmGo 0 24 ++ [.fail 0 12 4096]) := by
  intro a e b s1 s2 hab he h1 h2
  rcases List.eq_nil_or_concat b with rfl | ⟨b, x, rfl⟩
  · rw [hab, h1] at h2
    cases h2
    rfl
  · exfalso
    rw [List.concat_eq_append, ← List.cons_append, ← List.append_assoc] at hab
    have hm : e ∈ fmGo 1 26 ++ fmGo 0 24 := by
      rw [(List.append_inj' hab rfl).1]
      simp
    simp only [List.mem_append, fmGo, List.mem_replicate] at hm
    rcases hm with ⟨_, rfl⟩ | ⟨_, rfl⟩ <;> exact he

theorem fm_full_later : FmFailsForEver 4096 fmFirst (fmGo 0 24 ++ [.fail 0 12 4096]) := by
  intro a e b s1 s2 hab he h1 h2
  refine fm_full (fmGo 1 26 ++ a) e b s1 s2 (by rw [List.append_assoc, hab, List.append_assoc]) he ?_ ?_
  · rw [List.append_assoc, fm_run_append, fm_first.1, Res.ok_bind]
    exact h1
  · rw [List.append_assoc, fm_run_append, fm_first.1, Res.ok_bind]
    exact h2

/-- Then reading the file fails, unless a limit is given. -/
example : fmShown (fmGo 1 26 ++ fmGo 0 24 ++ [.fail 0 12 4096]) = .throw .eof ∧
    fmShown (fmGo 1 26 ++ fmGo 0 24 ++ [.fail 0 12 4096]) 1 = .ok [tpPointY] := by decide +kernel

/-- **C116, exit while recording.**  That the process ends when no thread is recording a point is needed even if
nothing fails: if a thread calls `exit` while another records a point, half of the point comes into the
file, and nothing of it can be read any more, unless a limit is given. -/
theorem C116_exit_while_recording : (∀ e ∈ fmGo 1 26 ++ fmGo 0 12 ++ [FmEvent.exit], ¬ e.IsFail ∧ ¬ e.IsKill) ∧
    fmShown (fmGo 1 26 ++ fmGo 0 12 ++ [.exit]) = .throw .eof ∧
    fmShown (fmGo 1 26 ++ fmGo 0 12 ++ [.exit]) 1 = .ok [tpPointY] ∧
    fmShown (fmGo 1 26 ++ fmGo 0 12 ++ [.kill]) = .ok [tpPointY] := by
  refine ⟨?_, by decide +kernel⟩
  intro e he
  simp only [List.mem_append, List.mem_singleton, fmGo, List.mem_replicate] at he
  rcases he with (⟨_, rfl⟩ | ⟨_, rfl⟩) | rfl <;> exact ⟨id, id⟩

end TraceDB
