import Verif.Proofs.BestAnswers
import Verif.Proofs.RunDatabase
import Verif.Props.QueryMemory
/-
Lemmas for C104: the traces of runs, and the predicates of queries.
-/
namespace TraceDB

/-! Predicates -/

mutual
theorem sexpTree_of_wf {names : List Nat} : ∀ {s : SExp}, s.Wf names → s.Small → SexpTree names s (transl names s)
  | .int i, h, _ => by
    simp only [SExp.Wf] at h
    simp only [transl]
    by_cases h0 : 0 ≤ i
    · rw [if_pos h0]
      have := @SexpTree.nat names (BitVec.ofInt 64 i)
      have e : ((BitVec.ofInt 64 i).toNat : Int) = i := by
        rw [BitVec.toNat_ofInt]
        omega
      rw [e] at this
      exact this
    · rw [if_neg h0]
      have e : (BitVec.ofInt 64 i).toInt = i := by
        rw [BitVec.toInt_ofInt, Int.bmod_def]
        split <;> omega
      have := @SexpTree.negative names (BitVec.ofInt 64 i) (by rw [e]; omega)
      rw [e] at this
      exact this
  | .float bits, _, _ => by
    simp only [transl]
    exact .float
  | .sym x, h, _ => by
    simp only [SExp.Wf] at h
    simp only [transl]
    cases hp : position x names with
    | none => exact absurd h ((position_spec x names).2 hp)
    | some i => exact .var ((position_spec x names).1 i hp)
  | .nil, h, _ => by simp [SExp.Wf] at h
  | .call op args, h, hs => by
    simp only [SExp.Wf] at h
    simp only [SExp.Small] at hs
    simp only [transl]
    have : ∃ k, op.kind = some k := by
      cases op <;> first | exact ⟨_, rfl⟩ | exact absurd rfl (h.1 _)
    obtain ⟨k, hk⟩ := this
    rw [hk]
    exact .call hk hs.1 (sexpTrees_of_wf h.2 hs.2)
theorem sexpTrees_of_wf {names : List Nat} : ∀ {ss : List SExp}, SExp.WfAll names ss → SExp.SmallAll ss →
    SexpTrees names ss (translAll names ss)
  | [], _, _ => by
    simp only [translAll]
    exact .nil
  | s :: ss, h, hs => by
    simp only [SExp.WfAll] at h
    simp only [SExp.SmallAll] at hs
    simp only [translAll]
    exact .cons (sexpTree_of_wf h.1 hs.1) (sexpTrees_of_wf h.2 hs.2)
end

theorem sexpPredicate_root {names : List Nat} (hl : names.length < 2 ^ 64) {s : SExp} {f : Form} (h : SexpPredicate names s f) :
    ∃ p, SexpRoot names s p ∧ ReadsForm names.length p f := by
  cases h with
  | nil => exact ⟨.nullPred, .inl ⟨rfl, rfl⟩, by simpa [Pred.nullPred] using ReadsForm.null⟩
  | form h =>
    obtain ⟨h1, h2, h3⟩ := sexpForm_ok hl h
    exact ⟨_, .inr (sexpTree_of_wf h1 h2), h3⟩

theorem sexpPredicate_roots {names : List Nat} (hl : names.length < 2 ^ 64) {ss : List SExp} {fs : List Form}
    (h : AllRel (SexpPredicate names) ss fs) : ∃ ps, SexpRoots names ss ps ∧ AllRel (ReadsForm names.length) ps fs := by
  induction h with
  | nil => exact ⟨[], trivial, .nil⟩
  | cons hx _ ih =>
    obtain ⟨ps, h1, h2⟩ := ih
    obtain ⟨p, g1, g2⟩ := sexpPredicate_root hl hx
    exact ⟨p :: ps, ⟨g1, h1⟩, .cons g2 h2⟩

/-! Traces -/

/-- The trace of a program built from the first `k` files. -/
theorem told_known (env : Env) (io : Bool) (cf : CFloat) (mem : CMem)
    {files : List ProjFile} {outs : List ProjOut} {k : Nat} {h : ProjHeader} {reqs : List TabReq}
    (told : ProjTold files outs k h reqs)
    (hok : ∀ f ∈ files, f.Ok) (hlen : files.length ≤ 2 ^ 23)
    (hsmall : h.Small) (visits : List ProjVisit) (calls : List (U64 × List RtCall))
    (hruns : AllRel (ProjVisit.RunsAs cf mem outs) visits calls)
    (hk : ∀ v ∈ visits, v.file < k) (hfit : ∀ v ∈ visits, v.Fits cf files) (hal : ∀ n, env.canAlloc n = true)
    (hone : OneTypePerFoldedName files) :
    ∃ bs t ls types, rtRun cf mem h.names (h.types.map TypeRow.desc) calls = .ok bs ∧ readTrace env 0 (gs io bs) = .ok t ∧
      AllRel (ProjVisit.Shown files) visits ls ∧ KnownTrace t types ls ∧ ∀ n, h.HasType n → n ∈ types := by
  obtain ⟨sites, gens, visits', hgen, hsites, hruns', hfit', hvis⟩ :=
    told_flat cf mem told hok hlen visits calls hruns hk hfit
  obtain ⟨tok, tsource, rfl, _, _⟩ := told
  obtain ⟨hn, hch, hr⟩ := hsmall
  simp only at hn hch hr
  obtain ⟨bs, t, ls, b1, b2, n1, t1, l1, l2, d1⟩ := told_trace TableTests.equalp_lawful (fun _ _ h => h) env io
    cf mem hsites rfl tok hgen hn hch hr hruns' hfit' hal
  obtain ⟨tn, types, ty1, ty2, ty3, ty4⟩ := tablesTold tok rfl hn (by
    intro a ha b hb e
    obtain ⟨fx, hfx, s, hs, part, hp, v, hv, r1, k1⟩ := tsource a ha
    obtain ⟨fy, hfy, s', hs', part', hp', w, hw, r2, k2⟩ := tsource b hb
    rw [k1, k2] at e
    obtain ⟨g1, g2⟩ := hone fx hfx s hs part hp v hv fy hfy s' hs' part' hp' w hw r1 r2 e
    rw [k1, k2]
    unfold ScopeVar.key
    by_cases ht : v.AsText part.1
    · rw [if_pos (asText_iff.mp ht), if_pos (asText_iff.mp (g1.mp ht)), g2 ht]
    · have ht' : ¬ w.AsText part'.1 := fun h => ht (g1.mpr h)
      rw [if_neg (fun h => ht (asText_iff.mpr h)), if_neg (fun h => ht' (asText_iff.mpr h))])
  have hshown : AllRel (ProjVisit.Shown files) visits ls :=
    AllRel.comp hvis l2 fun v v' l h1 h2 => (h1 l).mp h2
  refine ⟨bs, t, ls, types, b1, b2, hshown,
    ⟨by rw [n1]; exact tn, by unfold getTypes; rw [n1, t1]; exact ty1, ty2, by rw [ty3]; exact hr, l1, d1, accepted_canonical b2,
      fun p hp => ?_⟩, fun n hn => ?_⟩
  · obtain ⟨l, hl, hpl⟩ := l1.mem_left p hp
    obtain ⟨v, _, _, _, _, _, _, hlf, _⟩ := hshown.mem_right l hl
    rw [← (lispPoint_f hpl).1, hlf]
    rfl
  · obtain ⟨r, hr, hrn⟩ := hn
    exact ty4 r hr n hrn

/-- What a run leaves is refused, or gives a trace of statements it passed. -/
theorem run_known (env : Env) (io : Bool) (cf : CFloat) (mem : CMem) (r : ProjRun) (complete : Prop) (bytes : List U8)
    (hb : r.Built) (hleaves : r.Leaves cf mem complete bytes) (hal : ∀ n, env.canAlloc n = true)
    (henv : env.junk.isSome = true) :
    (readTrace env r.limit ⟨bytes, io, .good⟩ = .throw (endExn io) ∧ ¬ complete) ∨
      ∃ t shown ps types, readTrace env r.limit ⟨bytes, io, .good⟩ = .ok t ∧ r.Passed complete shown ∧
        AllRel (ProjVisit.Shown (instrumentationFiles r.evolve)) shown ps ∧ KnownTrace t types ps ∧
        (∀ n, r.header.HasType n → n ∈ types) ∧ ∀ v ∈ shown, ∃ l ∈ r.threads, v ∈ l := by
  obtain ⟨hok, hlen, ⟨isched, hp, hstore⟩, hsmall, hmain, hone⟩ := hb
  obtain ⟨hfit, calls, acts, sched, header, T, st, hruns, h2, h3, h4, rfl, h5, h6⟩ := hleaves
  have hperm := (C65_files r.evolve).1
  have hone' : OneTypePerFoldedName (instrumentationFiles r.evolve) := fun x hx s hs part hp v hv y hy =>
    hone x (hperm.mem_iff.mp hx) s hs part hp v hv y (hperm.mem_iff.mp hy)
  have hok' : ∀ f ∈ instrumentationFiles r.evolve, f.Ok := fun f hf => hok f (hperm.mem_iff.mp hf)
  have hlen' : (instrumentationFiles r.evolve).length ≤ 2 ^ 23 := by rw [hperm.length_eq]; exact hlen
  have hfl : ∀ {P : ProjVisit → Prop}, (∀ v ∈ r.threads.flatten, P v) ↔ ∀ l ∈ r.threads, ∀ v ∈ l, P v := by
    intro P
    exact ⟨fun h l hl v hv => h v (List.mem_flatten.mpr ⟨l, hl, hv⟩), fun h v hv => by
      obtain ⟨l, hl, hv⟩ := List.mem_flatten.mp hv
      exact h l hl v hv⟩
  obtain ⟨n, reqs, told, hmv⟩ := parallel_main hok hlen hp hstore r.header r.threads.flatten (hfl.mpr fun l hl v hv => by
      obtain ⟨m, _, hlm⟩ := hruns.mem_left l hl
      obtain ⟨c, _, o, g, ho, _⟩ := hlm.mem_left v hv
      exact (List.getElem?_eq_some_iff.mp ho).1) (by
    rcases hmain with ⟨p, o, ho, hh, hv⟩ | hm
    · exact .inl ⟨p, o, ho, hh, hfl.mpr hv⟩
    · exact .inr hm)
  obtain ⟨order, o1, o2, o3, o4⟩ := told_threads env io cf mem told hok' hlen' hsmall r.threads calls hruns (hfl.mp hmv) hfit
    henv hal acts h2 sched header h3 st h4 T h5
  have hmem : ∀ v ∈ limited r.limit (order.map (·.2)), ∃ l ∈ r.threads, v ∈ l := by
    intro v hv
    have hv : v ∈ order.map (·.2) := by
      unfold limited at hv
      split at hv
      · exact hv
      · exact List.mem_of_mem_take hv
    obtain ⟨x, hx, rfl⟩ := List.mem_map.mp hv
    refine ⟨_, List.getElem_mem (o1 x hx), (o2 x.1 _ (List.getElem?_eq_getElem (o1 x hx))).subset ?_⟩
    unfold threadPart
    exact List.mem_map.mpr ⟨x, List.mem_filter.mpr ⟨hx, by simp⟩, rfl⟩
  rcases o4 r.limit with ⟨e1, e2, _⟩ | ⟨cs, bs, t, c1, c2, c3, c4⟩
  · exact .inl ⟨e1, fun hc => e2 (h6 hc)⟩
  · obtain ⟨bs', t', ls, types, d1, d2, d3, d4, d5⟩ := told_known env io cf mem told hok' hlen' hsmall
      (limited r.limit (order.map (·.2))) cs c1 (fun v hv => by
        obtain ⟨l, hl, hv⟩ := hmem v hv
        exact hfl.mp hmv l hl v hv) (fun v hv => by
        obtain ⟨l, hl, hv⟩ := hmem v hv
        exact hfit l hl v hv) hal hone'
    rw [c2] at d1
    cases d1
    rw [c3] at d2
    cases d2
    refine .inr ⟨t, _, ls, types, c4, ⟨order, rfl, o1, o2, fun hc => ⟨o1, fun i l hl => o3 (h6 hc).2 i l hl ?_⟩⟩, d3, d4, d5, hmem⟩
    have hi : i < st.threads.length := by
      rw [RtState.run_length _ _ _ h4]
      have := (List.getElem?_eq_some_iff.mp hl).1
      rw [hruns.length, h2.length] at this
      simpa [RtState.init] using this
    rw [List.getElem?_eq_getElem hi, (h6 hc).1 _ (List.getElem_mem hi)]

theorem KnownTrace.get {t : Trace} {types : List (List U8)} {ls : List LPoint} (hk : KnownTrace t types ls) (file : Option Nat) :
    lispGetTrace t file = .ok (ofFile file ls) := by
  unfold lispGetTrace
  rw [lispPoints_of_allRel hk.shown]
  rfl

theorem KnownTrace.exportable {σ : Type} {t : Trace} {types : List (List U8)} {ls : List LPoint} (hk : KnownTrace t types ls)
    (w : QueryWorld σ) (hs : 0 < w.abi.sizePoint ∧ w.abi.sizePoint ≤ w.abi.sizeVar) (hm : ∀ n, w.alloc.canAlloc n = true)
    (hl : ∀ l ∈ ls, l.scopes.length < 2 ^ 32 ∧ l.aux.length < 2 ^ 32) : TraceExportable w t := by
  refine ⟨hs, hm, fun p hp => ?_⟩
  obtain ⟨l, hl', hpl⟩ := hk.shown.mem_left p hp
  obtain ⟨_, _, ha, hv⟩ := lispPoint_f hpl
  have hall := lispVars_allRel hv
  refine ⟨fun v hv => ?_, by rw [hall.length]; exact (hl l hl').1, by rw [← ha]; exact (hl l hl').2⟩
  obtain ⟨x, _, hx⟩ := hall.mem_left v hv
  obtain ⟨ty, _, h1, _⟩ := lispVar_type hx
  exact (List.getElem?_eq_some_iff.mp h1).1

theorem ofFile_eq (file : Option Nat) (ls : List LPoint) :
    (ls.filter fun l => decide (∀ i, file = some i → l.f = some i)) = ofFile file ls := by
  cases file with
  | none =>
    simp only [ofFile]
    rw [List.filter_eq_self]
    intro l _
    simp
  | some i =>
    simp only [ofFile]
    apply List.filter_congr
    intro l _
    simp only [Option.some.injEq, forall_eq']
    rw [Bool.eq_iff_iff]
    simp

/-- Queries about such a trace, and their memory. -/
theorem known_query (fs : FloatSys) (env : Env) (pick : U32 → Nat → Nat) (abi : Abi) (alloc : AllocEnv) {t : Trace}
    {types : List (List U8)} {ps : List LPoint} (hk : KnownTrace t types ps) (hal : ∀ n, env.canAlloc n = true)
    (hsizes : 0 < abi.sizePoint ∧ abi.sizePoint ≤ abi.sizeVar) (hmem : ∀ n, alloc.canAlloc n = true)
    {q : FQuery} {f : Form} {sf : List Form} (hf : SexpPredicate q.varNames q.predicate f)
    (hsf : AllRel (SexpPredicate q.varNames) q.softs sf) {filter : Option (LPoint → Bool)}
    (hfilter : q.filter = filter.map fun g p => some (g p)) (hvl : q.varNames.length = q.varTypes.length)
    (hne : q.varTypes ≠ []) (hsmall : q.varTypes.length < 2 ^ 32) (hts : ∀ ts ∈ q.varTypes, ts.length < 2 ^ 32)
    (hknown : ∀ ts ∈ q.varTypes, ∀ n ∈ ts, n ∈ types) (hfile : ∀ i, q.file = some i → i < 2 ^ 23)
    (hpick : ∀ n, 0 < n → pick q.seed n < n) {n : Nat} (hn : n < 2 ^ 32) (hans : ∀ l ∈ ps, l.Answerable q.varTypes n)
    (haux : ∀ l ∈ ps, l.aux = []) {N : Nat} (hlen : ps.length ≤ N) (hroom : N * n * abi.sizeVar < 2 ^ (8 * abi.ptr.1)) (m : FMem) :
    ∃ chosen rs c m' a p b, LooksAt q.seed (ofFile q.file ps) chosen ∧
      lispQueryM ⟨env, pick, plainEval fs, abi, alloc⟩ t q [] () m = (.ok (rs, c, ()), m') ∧
      AnswersAll (BestAnswers fs chosen q.varTypes filter f sf) filter rs ∧
      m.Adds m' a p b ∧ Released a p ∧ ∀ x ∈ b, x.live = false := by
  have hl : q.varNames.length < 2 ^ 64 := by omega
  obtain ⟨hard, s1, s2⟩ := sexpPredicate_root hl hf
  obtain ⟨softs, s3, s4⟩ := sexpPredicate_roots hl hsf
  rw [hvl] at s2 s4
  obtain ⟨chosen, rs, c, q1, q2, q3, q4⟩ := query_best fs env pick hk (q := q.meant hard softs filter) (f := f) (sf := sf) hne
    hknown hpick hfile s2 s4 hal hn hans
  obtain ⟨m', c1, c2⟩ := C71_answers_and_releases ⟨env, pick, plainEval fs, abi, alloc⟩ t q types hard softs filter [] () m
    hk.typeNames ⟨hknown, .inr (by
        intro e
        rw [e] at hvl
        exact hne (List.eq_nil_of_length_eq_zero hvl.symm)), s1, s3, ⟨hsmall, hts, hl⟩⟩
    (hk.exportable _ hsizes hmem fun l hl => ⟨(hans l hl).1, by rw [haux l hl]; decide⟩) (by simp [CacheOf]) hfilter (by
      intro fvs mask stmt xs c' s' e1 e2 e3
      have hs : q.filter.isSome = filter.isSome := by rw [hfilter]; cases filter <;> rfl
      rw [hs] at e3
      have h1 := q4 fvs mask stmt e1 e2 xs c' s' e3
      rw [hk.shown.length] at h1
      have h2 : xs.length ≤ N * n := Nat.le_trans h1 (Nat.mul_le_mul_right n hlen)
      exact Nat.lt_of_le_of_lt (Nat.mul_le_mul_right _ h2) hroom)
  simp only at c1 c2
  rw [q2] at c1 c2
  obtain ⟨a, p, b, c3, c4, c5⟩ := c2 rfl
  exact ⟨chosen, rs, c, m', a, p, b, by rw [← ofFile_eq]; exact q1, c1, q3, c3, c4, c5⟩

/-! The number of statements passed -/

theorem sum_zeros : ∀ l : List Nat, (l.map fun _ => 0).sum = 0
  | [] => rfl
  | _ :: l => by rw [List.map_cons, List.sum_cons, sum_zeros l]

theorem sum_one_at (x k : Nat) (hx : x < k) : ((List.range k).map fun i => if x = i then 1 else 0).sum = 1 := by
  induction k with
  | zero => omega
  | succ k ih =>
    rw [List.range_succ, List.map_append, List.sum_append]
    by_cases h : x = k
    · subst h
      have : ((List.range x).map fun i => if x = i then 1 else 0) = (List.range x).map fun _ => 0 := by
        apply List.map_congr_left
        intro i hi
        rw [if_neg (by have := List.mem_range.mp hi; omega)]
      rw [this, sum_zeros]
      simp
    · rw [ih (by omega)]
      simp [h]

theorem order_length {α : Type} (k : Nat) : ∀ order : List (Nat × α), (∀ x ∈ order, x.1 < k) →
    order.length = ((List.range k).map fun i => (threadPart i order).length).sum
  | [], _ => (sum_zeros _).symm
  | x :: order, h => by
    have ih := order_length k order fun y hy => h y (List.mem_cons_of_mem _ hy)
    have hx := h x (by simp)
    have e : ∀ i, (threadPart i (x :: order)).length = (if x.1 = i then 1 else 0) + (threadPart i order).length := by
      intro i
      unfold threadPart
      by_cases hi : x.1 = i
      · simp [hi, Nat.add_comm]
      · simp [hi]
    have : ∀ l : List Nat, (l.map fun i => (threadPart i (x :: order)).length).sum =
        (l.map fun i => if x.1 = i then 1 else 0).sum + (l.map fun i => (threadPart i order).length).sum := by
      intro l
      induction l with
      | nil => rfl
      | cons i l ih =>
        simp only [List.map_cons, List.sum_cons]
        rw [ih, e]
        omega
    rw [this, sum_one_at _ _ hx, List.length_cons, ih]
    omega

theorem range_sum_le {α : Type} (g : Nat → Nat) : ∀ (threads : List (List α)), (∀ (i : Nat) (l : List α), threads[i]? = some l → g i ≤ l.length) →
    ((List.range threads.length).map g).sum ≤ threads.flatten.length := by
  intro threads h
  have : ∀ k, k ≤ threads.length → ((List.range k).map g).sum ≤ (threads.take k).flatten.length := by
    intro k
    induction k with
    | zero => intro _; simp
    | succ k ih =>
      intro hk
      have hk' : k < threads.length := by omega
      have h1 := h k _ (List.getElem?_eq_getElem hk')
      have ih := ih (by omega)
      rw [List.range_succ, List.map_append, List.sum_append, List.take_succ_eq_append_getElem hk', List.flatten_append, List.length_append]
      simp only [List.map_cons, List.map_nil, List.sum_cons, List.sum_nil, List.flatten_cons, List.flatten_nil, List.append_nil]
      omega
  have := this threads.length (Nat.le_refl _)
  rw [List.take_length] at this
  exact this

/-- A run does not pass more statements than its threads have. -/
theorem ProjRun.Passed.length_le {r : ProjRun} {complete : Prop} {shown : List ProjVisit} (h : r.Passed complete shown) :
    shown.length ≤ r.threads.flatten.length := by
  obtain ⟨order, rfl, h1, h2, _⟩ := h
  have e : order.length ≤ r.threads.flatten.length := by
    rw [order_length r.threads.length order h1]
    exact range_sum_le _ r.threads fun i l hl => (h2 i l hl).length_le
  unfold limited
  split
  · rw [List.length_map]
    exact e
  · rw [List.length_take, List.length_map]
    omega

end TraceDB
