import Verif.Proofs.ThreadCrash
/-
Property C79: the trace that a multi-threaded program leaves behind when it dies.
-/
namespace TraceDB

/-- **C79**.  Several threads record points concurrently; the program dies at any
moment, and of what it wrote, any first part reaches the file, at least the header.
The file then holds, after the header: the points `order`, complete, which contain
for every thread its first ones in program order; then the entries `es`, complete,
of the next point of some thread; then a part `left` of its next entry.  Reading
the file gives exactly the points `order` if `left` is empty, and otherwise fails
with the error for the end of the stream.  If nothing of what was written is lost,
`order` contains all points of every thread that has ended. -/
theorem C79_crash (env : Env) (io : Bool) (cf : CFloat) (mem : CMem) (names : List Name)
    (types : List TypeDesc) (threads : List (List RecPoint)) (calls : List (List (U64 × List RtCall)))
    (acts : List (List RtAct)) (hdr : HeaderOk names types) (hn : names.length < 2 ^ 32)
    (hcalls : AllRel (AllRel (RecPoint.CalledAs cf mem)) threads calls) (hs : Steps cf mem calls acts)
    (htyped : ∀ l ∈ threads, ∀ p ∈ l, ∀ x ∈ p.items, x.Typed names types cf)
    (hsane : ∀ ty ∈ types, ty.Sane)
    (hres : ∀ l ∈ threads, ∀ p ∈ l, ∀ r ∈ recSizes p.items, r.address ≠ u64Max)
    (henv : env.junk.isSome = true) (hal : ∀ n, env.canAlloc n = true) (sched : List Nat) (header : List U8)
    (hheader : writeTraceHeader names types = .ok header) (s : RtState)
    (hrun : (RtState.init header acts).run sched = .ok s) (T : List U8) (hcut : header ++ T <+: s.out) :
    ∃ (order : List (Nat × RecPoint)) (es : List Entry) (left : List U8),
      T = encodePoints types (order.map fun x => x.2.entries) ++ (encodeEntries types es ++ left) ∧
      (∀ x ∈ order, x.1 < threads.length) ∧
      (∀ (i : Nat) (l : List RecPoint), threads[i]? = some l → threadPart i order <+: l) ∧
      (es = [] ∧ left = [] ∨
        ∃ (i : Nat) (l : List RecPoint) (p : RecPoint), threads[i]? = some l ∧ threadPart i order ++ [p] <+: l ∧
          (es = p.entries ∧ left = [] ∨
            ∃ e more, p.entries = es ++ e :: more ∧ left <+: e.encode types ∧ left ≠ e.encode types)) ∧
      readTrace env 0 (gs io (header ++ T)) =
        (if left = [] then .ok ⟨names, types, recPoints 0 [] (order.map (·.2))⟩ else .throw (endExn io)) ∧
      (header ++ T = s.out → ∀ (i : Nat) (l : List RecPoint), threads[i]? = some l → s.threads[i]? = some [] →
        threadPart i order = l) := by
  rw [writeTraceHeader_ok hdr hn] at hheader
  cases hheader
  obtain ⟨all, n, more, h1, h2, h3, h4, h5⟩ := reached_order (writes_of_called hcalls htyped) hs hrun
  obtain ⟨rest, hcut'⟩ := hcut
  have hT : T ++ (rest ++ more) = encodePoints types (all.map fun x => x.2.entries) := by
    rw [← hcut'] at h1
    simp only [List.append_assoc, List.append_cancel_left_eq] at h1
    exact h1
  have hmem : ∀ x ∈ all, ∃ l ∈ threads, x.2 ∈ l := by
    intro x hx
    have hlt := h3 x hx
    have := h4 x.1 threads[x.1] (List.getElem?_eq_getElem hlt)
    refine ⟨threads[x.1], List.getElem_mem hlt, this.subset ?_⟩
    unfold threadPart
    exact List.mem_map.mpr ⟨x, List.mem_filter.mpr ⟨hx, by simp⟩, rfl⟩
  have hty : ∀ p ∈ all.map (·.2), ∀ x ∈ p.items, x.Typed names types cf := by
    intro p hp x hx
    obtain ⟨y, hy, rfl⟩ := List.mem_map.mp hp
    obtain ⟨l, hl, hpl⟩ := hmem y hy
    exact htyped l hl _ hpl x hx
  have hwf : ∀ q ∈ all.map (fun x => x.2.entries), ∀ e ∈ q, e.WF names types := by
    intro q hq e he
    obtain ⟨y, hy, rfl⟩ := List.mem_map.mp hq
    rcases List.mem_cons.mp he with rfl | he
    · trivial
    · obtain ⟨x, hx, he⟩ := List.mem_flatMap.mp he
      exact recorded_wf (hty y.2 (List.mem_map_of_mem hy) x hx) e he
  have hstmt : ∀ q ∈ all.map (fun x => x.2.entries), (entryStmt q).isSome = true := by
    intro q hq
    obtain ⟨y, hy, rfl⟩ := List.mem_map.mp hq
    rw [entryStmt_point]; rfl
  have hres' : ∀ q ∈ all.map (fun x => x.2.entries), ∀ r ∈ entrySizes q, r.address ≠ u64Max := by
    intro q hq r hr
    obtain ⟨y, hy, rfl⟩ := List.mem_map.mp hq
    rw [entrySizes_point] at hr
    obtain ⟨l, hl, hpl⟩ := hmem y hy
    exact hres l hl _ hpl r hr
  have hc := (C04_cut_position_decides env io names types (all.map fun x => x.2.entries) T (rest ++ more) hdr
    hwf hstmt hsane hres' henv hal hT).1
  have hpart : ∀ k, ∀ (i : Nat) (l : List RecPoint), threads[i]? = some l → threadPart i (all.take k) <+: l :=
    fun k i l hl => (threadPart_of_take i k all).trans (h4 i l hl)
  have hpts : ∀ k, pointsOf types 0 0 [] ((all.take k).map fun x => x.2.entries) =
      recPoints 0 [] ((all.take k).map (·.2)) := by
    intro k
    have := pointsOf_recorded (cf := cf) (names := names) (types := types) 0 ((all.take k).map (·.2)) 0 [] (by
      intro p hp
      obtain ⟨y, hy, rfl⟩ := List.mem_map.mp hp
      exact hty _ (List.mem_map_of_mem (List.mem_of_mem_take hy)))
    rw [← this, List.map_map]; rfl
  have hended : ∀ k, (n ≤ k) → ∀ (i : Nat) (l : List RecPoint), threads[i]? = some l → s.threads[i]? = some [] →
      threadPart i (all.take k) = l := by
    intro k hk i l hl he
    have h6 := h5 i l hl he
    have h7 : threadPart i (all.take n) <+: threadPart i (all.take k) := by
      have := threadPart_of_take i n (all.take k)
      rwa [List.take_take, Nat.min_eq_left hk] at this
    rw [h6] at h7
    exact (h7.eq_of_length_le (hpart k i l hl).length_le).symm
  have hlong : ∀ k, encodeHeader names types ++ T = s.out →
      T.length < (encodePoints types ((all.take (k + 1)).map fun x => x.2.entries)).length → n ≤ k := by
    intro k hfull hlt
    by_cases hk : n ≤ k
    · exact hk
    exfalso
    rw [← hfull] at h2
    have h6 := h2.length_le
    have h7 : (encodePoints types ((all.take (k + 1)).map fun x => x.2.entries)).length ≤
        (encodePoints types ((all.take n).map fun x => x.2.entries)).length := by
      have h8 : all.take n = all.take (k + 1) ++ (all.take n).drop (k + 1) := by
        conv => lhs; rw [← List.take_append_drop (k + 1) (all.take n)]
        rw [List.take_take, Nat.min_eq_left (by omega)]
      rw [h8, List.map_append, encodePoints_append, List.length_append]
      omega
    simp only [List.length_append] at h6
    omega
  rcases points_cut _ T (rest ++ more) hT with ⟨hT', _⟩ | ⟨ps₁, p, ps₂, hsplit, hcase⟩
  · refine ⟨all, [], [], by simp [hT', encodeEntries], h3, h4, .inl ⟨rfl, rfl⟩, ?_, ?_⟩
    · rw [if_pos rfl, hc _ ⟨[], by simp [hT', encodeEntries], .inl ⟨rfl, rfl⟩⟩]
      have := hpts all.length
      rw [List.take_length] at this
      rw [this]
    · intro _ i l hl he
      have := hended (max n all.length) (Nat.le_max_left _ _) i l hl he
      rwa [List.take_of_length_le (Nat.le_max_right _ _)] at this
  · obtain ⟨o₁, o₂, rfl, rfl, ho⟩ := List.map_eq_append_iff.mp hsplit
    obtain ⟨x, o₃, rfl, rfl, rfl⟩ := List.map_eq_cons_iff.mp ho
    have htk : (o₁ ++ x :: o₃).take o₁.length = o₁ := by simp
    have htk1 : (o₁ ++ x :: o₃).take (o₁.length + 1) = o₁ ++ [x] := by
      rw [List.take_append, List.take_of_length_le (by omega)]; simp
    have hlt : ∀ y ∈ o₁, y.1 < threads.length := fun y hy => h3 y (by simp [hy])
    have hx : x.1 < threads.length := h3 x (by simp)
    have hnext : threadPart x.1 o₁ ++ [x.2] <+: threads[x.1] := by
      have := hpart (o₁.length + 1) x.1 _ (List.getElem?_eq_getElem hx)
      rw [htk1] at this
      have h6 : threadPart x.1 (o₁ ++ [x]) = threadPart x.1 o₁ ++ [x.2] := by
        rw [show [x] = [(x.1, x.2)] from rfl, threadPart_append, if_pos rfl]
      rwa [h6] at this
    have hp1 := hpart o₁.length
    have hp2 := hpts o₁.length
    have hp3 := hended o₁.length
    have hp4 := hlong o₁.length
    rw [htk] at hp1 hp2 hp3
    rw [htk1, List.map_append, List.map_singleton, encodePoints_append, encodePoints_single] at hp4
    rcases hcase with hT' | ⟨es₁, e, es₂, A, B, hes, hT', he, hB⟩
    · refine ⟨o₁, x.2.entries, [], by simp [hT'], hlt, hp1,
        .inr ⟨x.1, _, x.2, List.getElem?_eq_getElem hx, hnext, .inl ⟨rfl, rfl⟩⟩, ?_, ?_⟩
      · rw [if_pos rfl, hc (o₁.map fun x => x.2.entries) ⟨x.2.entries, hT', .inr ⟨_, _, hsplit, List.prefix_refl _⟩⟩, hp2]
      · intro hfull
        refine hp3 (hp4 hfull ?_)
        rw [hT']
        simp only [List.length_append, List.length_cons, List.length_nil]
        omega
    · refine ⟨o₁, es₁, A, hT', hlt, hp1, .inr ⟨x.1, _, x.2, List.getElem?_eq_getElem hx, hnext,
        .inr ⟨e, es₂, hes, ⟨B, he.symm⟩, ?_⟩⟩, ?_, ?_⟩
      · intro hA
        rw [he] at hA
        exact hB (by simpa using hA)
      · split
        · rename_i hA
          rw [hc (o₁.map fun x => x.2.entries)
            ⟨es₁, by rw [hT', hA]; simp, .inr ⟨_, _, hsplit, by rw [hes]; exact List.prefix_append _ _⟩⟩, hp2]
        · rename_i hA
          rw [hsplit, hes] at hwf hstmt hres'
          exact readTrace_cut_inside env io names types _ _ es₁ es₂ e T A B hdr hwf hstmt hsane hres' henv hal hT' he hA hB
      · intro hfull
        refine hp3 (hp4 hfull ?_)
        rw [hT', hes, encodeEntries_append, encodeEntries_cons, he]
        have : B.length ≠ 0 := fun h => hB (List.length_eq_zero_iff.mp h)
        simp only [List.length_append, List.length_cons, List.length_nil]
        omega

/-- **C79, limits.**  If the reader is given a maximal number `k` of points, it returns the first
`k` points of `order` if there are as many, whatever happened to the rest; otherwise it does what
it does without a limit. -/
theorem C79_limit (env : Env) (io : Bool) (cf : CFloat) (mem : CMem) (names : List Name)
    (types : List TypeDesc) (threads : List (List RecPoint)) (calls : List (List (U64 × List RtCall)))
    (acts : List (List RtAct)) (hdr : HeaderOk names types) (hn : names.length < 2 ^ 32)
    (hcalls : AllRel (AllRel (RecPoint.CalledAs cf mem)) threads calls) (hs : Steps cf mem calls acts)
    (htyped : ∀ l ∈ threads, ∀ p ∈ l, ∀ x ∈ p.items, x.Typed names types cf)
    (hsane : ∀ ty ∈ types, ty.Sane)
    (hres : ∀ l ∈ threads, ∀ p ∈ l, ∀ r ∈ recSizes p.items, r.address ≠ u64Max)
    (henv : env.junk.isSome = true) (hal : ∀ n, env.canAlloc n = true) (sched : List Nat) (header : List U8)
    (hheader : writeTraceHeader names types = .ok header) (s : RtState)
    (hrun : (RtState.init header acts).run sched = .ok s) (T : List U8) (hcut : header ++ T <+: s.out) :
    ∃ (order : List (Nat × RecPoint)),
      (∀ x ∈ order, x.1 < threads.length) ∧
      (∀ (i : Nat) (l : List RecPoint), threads[i]? = some l → threadPart i order <+: l) ∧
      (header ++ T = s.out → ∀ (i : Nat) (l : List RecPoint), threads[i]? = some l → s.threads[i]? = some [] →
        threadPart i order = l) ∧
      ((∀ k : U64, readTrace env k (gs io (header ++ T)) =
          .ok ⟨names, types, recPoints 0 [] (limited k (order.map (·.2)))⟩) ∨
        (∃ i l p, threads[i]? = some l ∧ threadPart i order ++ [p] <+: l) ∧
        ∀ k : U64, readTrace env k (gs io (header ++ T)) =
          if k ≠ 0 ∧ k.toNat ≤ order.length then .ok ⟨names, types, recPoints 0 [] (limited k (order.map (·.2)))⟩
          else .throw (endExn io)) := by
  obtain ⟨order, es, left, e1, h1, h2, h3, h4, h5⟩ := C79_crash env io cf mem names types threads calls acts hdr hn hcalls hs
    htyped hsane hres henv hal sched header hheader s hrun T hcut
  refine ⟨order, h1, h2, h5, ?_⟩
  rw [writeTraceHeader_ok hdr hn] at hheader
  cases hheader
  have hmem : ∀ x ∈ order, ∃ l ∈ threads, x.2 ∈ l := by
    intro x hx
    have hlt := h1 x hx
    refine ⟨threads[x.1], List.getElem_mem hlt, (h2 x.1 _ (List.getElem?_eq_getElem hlt)).subset ?_⟩
    unfold threadPart
    exact List.mem_map.mpr ⟨x, List.mem_filter.mpr ⟨hx, by simp⟩, rfl⟩
  have hwf : ∀ p : RecPoint, (∃ l ∈ threads, p ∈ l) → ∀ e ∈ p.entries, e.WF names types := by
    intro p ⟨l, hl, hp⟩ e he
    rcases List.mem_cons.mp he with rfl | he
    · trivial
    · obtain ⟨x, hx, he⟩ := List.mem_flatMap.mp he
      exact recorded_wf (htyped l hl p hp x hx) e he
  have hrs : ∀ p : RecPoint, (∃ l ∈ threads, p ∈ l) → ∀ r ∈ entrySizes p.entries, r.address ≠ u64Max := by
    intro p ⟨l, hl, hp⟩ r hr
    rw [entrySizes_point] at hr
    exact hres l hl p hp r hr
  have hlen : ∀ k : U64, k ≠ 0 ∧ k.toNat ≤ order.length → readTrace env k (gs io (encodeHeader names types ++ T)) =
      .ok ⟨names, types, recPoints 0 [] (limited k (order.map (·.2)))⟩ := by
    intro k ⟨hk, hle⟩
    have hsplit : encodePoints types (order.map fun x => x.2.entries) =
        encodePoints types ((order.take k.toNat).map fun x => x.2.entries) ++
          encodePoints types ((order.drop k.toNat).map fun x => x.2.entries) := by
      rw [← encodePoints_append, ← List.map_append, List.take_append_drop]
    have hm : ∀ q ∈ (order.take k.toNat).map (fun x => x.2.entries), ∃ p : RecPoint, q = p.entries ∧ ∃ l ∈ threads, p ∈ l := by
      intro q hq
      obtain ⟨x, hx, rfl⟩ := List.mem_map.mp hq
      exact ⟨x.2, rfl, hmem x (List.mem_of_mem_take hx)⟩
    rw [e1, hsplit, List.append_assoc, C08_limit_ignores_damage env io k hk names types _ _ hdr hal (by
      intro q hq
      obtain ⟨p, rfl, hp⟩ := hm q hq
      exact hwf p hp) (by simp [hle]) (by
      intro q hq
      obtain ⟨p, rfl, _⟩ := hm q hq
      rw [entryStmt_point]; rfl) (reservedOk_of_unused (by
      intro r hr
      obtain ⟨q, hq, hr⟩ := List.mem_flatMap.mp hr
      obtain ⟨p, rfl, hp⟩ := hm q hq
      exact hrs p hp r hr))]
    have := pointsOf_recorded (cf := cf) (names := names) (types := types) 0 ((order.take k.toNat).map (·.2)) 0 [] (by
      intro p hp
      obtain ⟨y, hy, rfl⟩ := List.mem_map.mp hp
      obtain ⟨l, hl, hpl⟩ := hmem y (List.mem_of_mem_take hy)
      exact htyped l hl _ hpl)
    rw [List.map_map] at this
    unfold limited
    rw [if_neg hk, ← List.map_take, ← this]
    rfl
  by_cases hleft : left = []
  · left
    intro k
    rw [if_pos hleft] at h4
    by_cases hk : k = 0
    · subst hk
      exact h4
    · rw [(C08_limit_is_prefix env _ k hk _).1 h4]
      unfold limited
      rw [if_neg hk, recPoints_take]
  · right
    rcases h3 with ⟨_, h⟩ | ⟨i, l, p, hl, hpre, ⟨_, h⟩ | ⟨e, more, hp, hle, hne⟩⟩
    · exact absurd h hleft
    · exact absurd h hleft
    · refine ⟨⟨i, l, p, hl, hpre⟩, fun k => ?_⟩
      by_cases hk : k ≠ 0 ∧ k.toNat ≤ order.length
      · rw [if_pos hk]
        exact hlen k hk
      · rw [if_neg hk]
        obtain ⟨B, hB⟩ := hle
        have hpm : ∃ l ∈ threads, p ∈ l := ⟨l, List.mem_of_getElem? hl, hpre.subset (by simp)⟩
        have hm : ∀ q ∈ order.map (fun x => x.2.entries) ++ [es ++ e :: more],
            ∃ p : RecPoint, q = p.entries ∧ ∃ l ∈ threads, p ∈ l := by
          intro q hq
          rcases List.mem_append.mp hq with hq | hq
          · obtain ⟨x, hx, rfl⟩ := List.mem_map.mp hq
            exact ⟨x.2, rfl, hmem x hx⟩
          · exact ⟨p, by rw [List.mem_singleton.mp hq, hp], hpm⟩
        refine readTrace_cut_inside_limit env io k names types _ [] es more e T left B hdr ?_ ?_ hsane ?_ henv hal e1 hB.symm
          hleft ?_ ?_
        · intro q hq
          obtain ⟨p, rfl, hp⟩ := hm q hq
          exact hwf p hp
        · intro q hq
          obtain ⟨p, rfl, _⟩ := hm q hq
          rw [entryStmt_point]; rfl
        · intro q hq
          obtain ⟨p, rfl, hp⟩ := hm q hq
          exact hrs p hp
        · rintro rfl
          exact hne (by rw [← hB, List.append_nil])
        · rw [List.length_map]
          by_cases h0 : k = 0
          · exact .inl h0
          · exact .inr (Nat.lt_of_not_le fun h => hk ⟨h0, h⟩)

/-- The two threads of the example, stopped after 180 steps: the second thread has
recorded its first point, the first one is in the middle of its point.  The first
`n` bytes of the file are left. -/
def rtCrash (n : Nat) (k : U64 := 0) : Res Trace := do
  let header ← writeTraceHeader exNames rtTypes
  let s ← (RtState.init header rtThreadActs).run (rtSchedule.take 180)
  readTrace exEnv k (gs false (s.out.take n))
/-- Inside an entry of the unfinished point, between its entries, right before it,
before the end marker of the complete point. -/
example : rtCrash 179 = .throw .eof ∧
    rtCrash 150 = .ok ⟨exNames, rtTypes, recPoints 0 [] [rtPoint2]⟩ ∧
    rtCrash 141 = .ok ⟨exNames, rtTypes, recPoints 0 [] [rtPoint2]⟩ ∧
    rtCrash 140 = .ok ⟨exNames, rtTypes, []⟩ := by decide +kernel
/-- With a limit of one point, the damage inside the unfinished point is not seen. -/
example : rtCrash 179 1 = .ok ⟨exNames, rtTypes, recPoints 0 [] [rtPoint2]⟩ ∧ rtCrash 179 2 = .throw .eof := by
  decide +kernel
/-- The hypotheses of `C79_crash` hold for this program. -/
example : HeaderOk exNames rtTypes ∧ AllRel (AllRel (RecPoint.CalledAs exFloat exMem)) rtThreadPoints rtThreads ∧
    Steps exFloat exMem rtThreads rtThreadActs ∧
    (∀ l ∈ rtThreadPoints, ∀ p ∈ l, ∀ x ∈ p.items, x.Typed exNames rtTypes exFloat) ∧
    (∀ ty ∈ rtTypes, ty.Sane) ∧ (∀ l ∈ rtThreadPoints, ∀ p ∈ l, ∀ r ∈ recSizes p.items, r.address ≠ u64Max) ∧
    exEnv.junk.isSome = true ∧ (∀ n, exEnv.canAlloc n = true) :=
  ⟨by decide +kernel, rtThreadCalls_ok, rtThreads_steps, rtThreads_typed, by decide +kernel, by decide +kernel, rfl,
    fun _ => rfl⟩

end TraceDB
