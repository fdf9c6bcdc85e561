import Verif.Props.Reader
/-
Properties C03-C05: traces cut short, as left behind by a program that dies.

`gs io T` is the stream of the bytes `T` that ends normally or (`io = true`) with
an I/O error; `endExn io` is the corresponding exception: the end-of-file error,
or the trace error after an I/O error.
-/
namespace TraceDB

variable {names : List Name} {types : List TypeDesc}

theorem encodePoints_append (ps qs : List (List Entry)) :
    encodePoints types (ps ++ qs) = encodePoints types ps ++ encodePoints types qs := by
  simp [encodePoints]

theorem encodePoints_single (p : List Entry) : encodePoints types [p] = encodeEntries types p ++ [0] := by
  simp [encodePoints, encodePoint]

theorem encodeEntries_append (p q : List Entry) :
    encodeEntries types (p ++ q) = encodeEntries types p ++ encodeEntries types q := by
  simp [encodeEntries]

theorem encodeEntries_cons (e : Entry) (q : List Entry) :
    encodeEntries types (e :: q) = e.encode types ++ encodeEntries types q := by
  simp [encodeEntries]

/-! ### C03 -/

/-- **C03**.  A recorded run `ps` (complete, well-formed points, each with its
statement id) is cut anywhere after the header, leaving the bytes `T`.  If the
read returns a trace, it has the names and types of the run and exactly the
points whose encoding lies completely in `T`: the first `k` ones, unchanged,
where the next point (if there is one) is not completely in `T`. -/
theorem C03_cut_trace_yields_complete_points (env : Env) (io : Bool) (names : List Name)
    (types : List TypeDesc) (ps : List (List Entry)) (T rest : List U8)
    (hdr : HeaderOk names types) (hwf : ∀ p ∈ ps, ∀ e ∈ p, e.WF names types)
    (hstmt : ∀ p ∈ ps, (entryStmt p).isSome = true)
    (hcut : T ++ rest = encodePoints types ps) (t : Trace)
    (h : readTrace env 0 (gs io (encodeHeader names types ++ T)) = .ok t) :
    ∃ k, k ≤ ps.length ∧ t = ⟨names, types, pointsOf types 0 0 [] (ps.take k)⟩ ∧
      encodePoints types (ps.take k) <+: T ∧
      (k < ps.length → ¬ encodePoints types (ps.take (k + 1)) <+: T) := by
  have hnl : ∀ qs : List (List Entry), ¬ Limited 0 qs := by
    rintro qs ⟨h1, _⟩; exact h1 rfl
  have key : ∀ (qs : List (List Entry)) (es : List Entry) (left : List U8) (k : Nat), ps.take k = qs →
      Decomposed names types T qs es left → t = ⟨names, types, pointsOf types 0 0 [] (ps.take k)⟩ := by
    intro qs es left k hk hd
    obtain ⟨_, _, rfl, _⟩ := readTrace_ok_of hdr hd h
    rw [kept_of_not_limited (hnl qs), hk]
    rw [pointsOf_stmt qs (junkStmt env) 0 0 [] ?_]
    intro p hp
    rw [← hk] at hp
    exact hstmt p (List.mem_of_mem_take hp)
  rcases points_cut ps T rest hcut with ⟨hT, _⟩ | ⟨ps₁, p, ps₂, rfl, hT | ⟨es₁, e, es₂, A, B, rfl, hT, he, hB⟩⟩
  · refine ⟨ps.length, Nat.le_refl _, ?_, ?_, fun hlt => absurd hlt (Nat.lt_irrefl _)⟩
    · exact key ps [] [] _ (List.take_length) ⟨by simp [hT, encodeEntries], hwf, by simp, stuck_nil⟩
    · rw [List.take_length, hT]; exact List.prefix_refl _
  · have htk : (ps₁ ++ p :: ps₂).take ps₁.length = ps₁ := by simp
    have htk1 : (ps₁ ++ p :: ps₂).take (ps₁.length + 1) = ps₁ ++ [p] := by
      rw [List.take_append, List.take_of_length_le (by omega)]; simp
    refine ⟨ps₁.length, by simp, ?_, ?_, fun _ hp => ?_⟩
    · refine key ps₁ p [] _ htk ⟨by simp [hT], fun q hq => hwf q (by simp [hq]), hwf p (by simp), stuck_nil⟩
    · rw [htk, hT]; exact List.prefix_append _ _
    · rw [htk1, encodePoints_append, encodePoints_single, hT] at hp
      have := hp.length_le
      simp only [List.length_append, List.length_cons, List.length_nil] at this
      omega
  · obtain ⟨p, hp⟩ : ∃ p, p = es₁ ++ e :: es₂ := ⟨_, rfl⟩
    have hpw : ∀ x ∈ p, x.WF names types := hwf p (by simp [hp])
    have htk : (ps₁ ++ p :: ps₂).take ps₁.length = ps₁ := by simp
    have htk1 : (ps₁ ++ p :: ps₂).take (ps₁.length + 1) = ps₁ ++ [p] := by
      rw [List.take_append, List.take_of_length_le (by omega)]; simp
    rw [← hp] at key ⊢
    refine ⟨ps₁.length, by simp, ?_, ?_, fun _ hpre => ?_⟩
    · by_cases hA : A = []
      · exact key ps₁ es₁ [] _ htk ⟨by simp [hT, hA], fun q hq => hwf q (by simp [hq]),
          fun x hx => hpw x (by simp [hp, hx]), stuck_nil⟩
      · exact key ps₁ es₁ A _ htk ⟨by simp [hT], fun q hq => hwf q (by simp [hq]),
          fun x hx => hpw x (by simp [hp, hx]), stuck_of_cut (hpw e (by simp [hp])) he hA hB⟩
    · rw [htk, hT]; exact List.prefix_append _ _
    · rw [htk1, encodePoints_append, encodePoints_single, hT, hp, encodeEntries_append,
        encodeEntries_cons, he] at hpre
      have := hpre.length_le
      simp only [List.length_append, List.length_cons, List.length_nil] at this
      omega

/-- The example run cut inside the first entry of its second point. -/
example : ∃ rest, (encodePoints exTypes exPoints).take 57 ++ rest = encodePoints exTypes exPoints :=
  ⟨_, List.take_append_drop _ _⟩
example : readTrace exEnv 0 (IStream.ofBytes (encodeHeader exNames exTypes ++
    encodePoints exTypes [exPoints.head!])) = .ok { exTrace with points := exTrace.points.take 1 } := by
  decide +kernel

/-! ### C04 -/

/-- The cut leaves complete points `qs` and complete entries `es` of the next
point. -/
def CutBetweenEntries (types : List TypeDesc) (ps qs : List (List Entry)) (T : List U8) : Prop :=
  ∃ es, T = encodePoints types qs ++ encodeEntries types es ∧
    (qs = ps ∧ es = [] ∨ ∃ p more, ps = qs ++ p :: more ∧ es <+: p)

/-- A cut inside an entry. -/
theorem readTrace_cut_inside_limit (env : Env) (io : Bool) (k : U64) (names : List Name)
    (types : List TypeDesc) (ps₁ ps₂ : List (List Entry)) (es₁ es₂ : List Entry) (e : Entry) (T A B : List U8)
    (hdr : HeaderOk names types) (hwf : ∀ p ∈ ps₁ ++ (es₁ ++ e :: es₂) :: ps₂, ∀ e ∈ p, e.WF names types)
    (hstmt : ∀ p ∈ ps₁ ++ (es₁ ++ e :: es₂) :: ps₂, (entryStmt p).isSome = true)
    (hsane : ∀ ty ∈ types, ty.Sane)
    (hres : ∀ p ∈ ps₁ ++ (es₁ ++ e :: es₂) :: ps₂, ∀ r ∈ entrySizes p, r.address ≠ u64Max)
    (henv : env.junk.isSome = true) (halloc : ∀ n, env.canAlloc n = true)
    (hT : T = encodePoints types ps₁ ++ (encodeEntries types es₁ ++ A)) (he : e.encode types = A ++ B)
    (hA : A ≠ []) (hB : B ≠ []) (hk : k = 0 ∨ ps₁.length < k.toNat) :
    readTrace env k (gs io (encodeHeader names types ++ T)) = .throw (endExn io) := by
  have hall : ∀ q : List Entry, AllocsOk env types q := by
    intro q e _
    cases e with
    | var n t x => exact fun _ _ _ _ => halloc _
    | _ => trivial
  have hresOk : ∀ H : List BufferSize, (∀ r ∈ H, r.address ≠ u64Max) → ReservedOk H := by
    intro H hH P hP
    have : P.countP (·.freesReserved) = 0 := by
      rw [List.countP_eq_zero]
      intro r hr
      simp only [BufferSize.freesReserved, Bool.and_eq_true, beq_iff_eq, not_and]
      exact fun hh => absurd hh (hH r (hP.subset hr))
    omega
  have hfl : ∀ qs : List (List Entry), (∀ q ∈ qs, ∀ r ∈ entrySizes q, r.address ≠ u64Max) →
      ∀ r ∈ qs.flatMap entrySizes, r.address ≠ u64Max := by
    intro qs h r hr
    obtain ⟨q, hq, hr⟩ := List.mem_flatMap.mp hr
    exact h q hq r hr
  have hsub : ∀ {es p : List Entry}, es <+: p → ∀ r ∈ entrySizes es, r ∈ entrySizes p := by
    intro es p hpre r hr
    obtain ⟨x, hx⟩ := hpre
    rw [← hx]
    simp only [entrySizes, List.filterMap_append, List.mem_append]
    exact Or.inl hr
  have hal : HeaderAlloc env names types := ⟨fun _ => halloc _, fun _ => halloc _⟩
  obtain ⟨p, hp⟩ : ∃ p, p = es₁ ++ e :: es₂ := ⟨_, rfl⟩
  rw [← hp] at hwf hstmt hres
  have hpw : ∀ x ∈ p, x.WF names types := hwf p (by simp)
  have hw1 : ∀ q ∈ ps₁, ∀ x ∈ q, x.WF names types := fun q hq => hwf q (by simp [hq])
  have hqr := hfl ps₁ (fun q hq => hres q (by simp [hq]))
  have hfine : Fine env types [] ps₁ :=
    ⟨fun q _ => hall q, by simpa using hresOk _ hqr, fun q hq => Or.inl (hstmt q (by simp [hq]))⟩
  have hpre1 : es₁ <+: p := by rw [hp]; exact List.prefix_append _ _
  have hres1 : ReservedOk (ps₁.flatMap entrySizes ++ entrySizes es₁) := hresOk _ (by
    intro r hr
    rcases List.mem_append.mp hr with hr | hr
    · exact hqr r hr
    · exact hres p (by simp) r (hsub hpre1 r hr))
  rw [hT, readTrace_header hdr hal]
  have hpl := encodePoints_length (types := types) ps₁
  obtain ⟨f, hf⟩ : ∃ f, (encodePoints types ps₁ ++ (encodeEntries types es₁ ++ A)).length + 3 =
      ps₁.length + (f + 1) :=
    ⟨(encodePoints types ps₁ ++ (encodeEntries types es₁ ++ A)).length + 2 - ps₁.length, by
      simp only [List.length_append]; omega⟩
  rw [hf, readPoints_points ps₁ (f + 1) 0 [] [] _ (by rcases hk with h | h; exact .inl h; exact .inr (by omega)) hw1 hfine]
  have hw : Within k (0 + ps₁.length) := by rw [Nat.zero_add]; exact hk
  rw [readPoints]
  simp only [gs_isGood, Bool.true_and, within_cond.mpr hw, if_true]
  have hAl : 0 < A.length := List.length_pos_iff.mpr hA
  obtain ⟨f', hf'⟩ : ∃ f', entryFuel (gs io (encodeEntries types es₁ ++ A)) = es₁.length + (f' + 2) := by
    have h1 := encodeEntries_length (types := types) es₁
    refine ⟨entryFuel (gs io (encodeEntries types es₁ ++ A)) - es₁.length - 2, ?_⟩
    simp only [entryFuel, List.length_append]
    omega
  rw [hf', readEntries_entries es₁ (f' + 2) _ _ _ (fun x hx => hpw x (hpre1.subset hx)) (hall es₁)
    (by simpa using hres1)]
  rw [readEntries_cut (hpw e (by simp [hp])) he hA hB hsane ⟨henv, fun n _ => halloc n⟩ ?_]
  · rfl
  · rintro r rfl
    exact hres p (by simp) r (by simp [hp, entrySizes])

theorem readTrace_cut_inside (env : Env) (io : Bool) (names : List Name)
    (types : List TypeDesc) (ps₁ ps₂ : List (List Entry)) (es₁ es₂ : List Entry) (e : Entry) (T A B : List U8)
    (hdr : HeaderOk names types) (hwf : ∀ p ∈ ps₁ ++ (es₁ ++ e :: es₂) :: ps₂, ∀ e ∈ p, e.WF names types)
    (hstmt : ∀ p ∈ ps₁ ++ (es₁ ++ e :: es₂) :: ps₂, (entryStmt p).isSome = true)
    (hsane : ∀ ty ∈ types, ty.Sane)
    (hres : ∀ p ∈ ps₁ ++ (es₁ ++ e :: es₂) :: ps₂, ∀ r ∈ entrySizes p, r.address ≠ u64Max)
    (henv : env.junk.isSome = true) (halloc : ∀ n, env.canAlloc n = true)
    (hT : T = encodePoints types ps₁ ++ (encodeEntries types es₁ ++ A)) (he : e.encode types = A ++ B)
    (hA : A ≠ []) (hB : B ≠ []) :
    readTrace env 0 (gs io (encodeHeader names types ++ T)) = .throw (endExn io) :=
  readTrace_cut_inside_limit env io 0 names types ps₁ ps₂ es₁ es₂ e T A B hdr hwf hstmt hsane hres henv halloc hT he hA hB
    (.inl rfl)

/-- **C04**.  A cut between two entries keeps every complete point and silently
drops the unfinished one; a cut inside an entry makes the whole read fail with
the end-of-file error (or the trace error after an I/O error).  Assumptions on
the run: types the reader can hold, no use of the reserved address 2^64-1, enough
memory, and reading uninitialised memory is harmless. -/
theorem C04_cut_position_decides (env : Env) (io : Bool) (names : List Name)
    (types : List TypeDesc) (ps : List (List Entry)) (T rest : List U8)
    (hdr : HeaderOk names types) (hwf : ∀ p ∈ ps, ∀ e ∈ p, e.WF names types)
    (hstmt : ∀ p ∈ ps, (entryStmt p).isSome = true)
    (hsane : ∀ ty ∈ types, ty.Sane)
    (hres : ∀ p ∈ ps, ∀ r ∈ entrySizes p, r.address ≠ u64Max)
    (henv : env.junk.isSome = true) (halloc : ∀ n, env.canAlloc n = true)
    (hcut : T ++ rest = encodePoints types ps) :
    (∀ qs, CutBetweenEntries types ps qs T →
      readTrace env 0 (gs io (encodeHeader names types ++ T)) = .ok ⟨names, types, pointsOf types 0 0 [] qs⟩) ∧
    ((∀ qs, ¬ CutBetweenEntries types ps qs T) →
      readTrace env 0 (gs io (encodeHeader names types ++ T)) = .throw (endExn io)) := by
  have hall : ∀ q : List Entry, AllocsOk env types q := by
    intro q e _
    cases e with
    | var n t x => exact fun _ _ _ _ => halloc _
    | _ => trivial
  have hresOk : ∀ H : List BufferSize, (∀ r ∈ H, r.address ≠ u64Max) → ReservedOk H := by
    intro H hH P hP
    have : P.countP (·.freesReserved) = 0 := by
      rw [List.countP_eq_zero]
      intro r hr
      simp only [BufferSize.freesReserved, Bool.and_eq_true, beq_iff_eq, not_and]
      exact fun hh => absurd hh (hH r (hP.subset hr))
    omega
  have hfl : ∀ qs : List (List Entry), (∀ q ∈ qs, ∀ r ∈ entrySizes q, r.address ≠ u64Max) →
      ∀ r ∈ qs.flatMap entrySizes, r.address ≠ u64Max := by
    intro qs h r hr
    obtain ⟨q, hq, hr⟩ := List.mem_flatMap.mp hr
    exact h q hq r hr
  have hsub : ∀ {es p : List Entry}, es <+: p → ∀ r ∈ entrySizes es, r ∈ entrySizes p := by
    intro es p hpre r hr
    obtain ⟨x, hx⟩ := hpre
    rw [← hx]
    simp only [entrySizes, List.filterMap_append, List.mem_append]
    exact Or.inl hr
  have hal : HeaderAlloc env names types := ⟨fun _ => halloc _, fun _ => halloc _⟩
  have hnl : ∀ qs : List (List Entry), ¬ Limited 0 qs := by
    rintro qs ⟨h1, _⟩; exact h1 rfl
  -- complete points followed by complete entries
  have hok : ∀ (qs : List (List Entry)) (es : List Entry), (∀ q ∈ qs, q ∈ ps) →
      (∀ e ∈ es, e.WF names types) → (∀ r ∈ entrySizes es, r.address ≠ u64Max) →
      readTrace env 0 (gs io (encodeHeader names types ++ (encodePoints types qs ++ encodeEntries types es))) =
        .ok ⟨names, types, pointsOf types 0 0 [] qs⟩ := by
    intro qs es hqs hes hesr
    have hd : Decomposed names types (encodePoints types qs ++ encodeEntries types es) qs es [] :=
      ⟨by simp, fun q hq => hwf q (hqs q hq), hes, stuck_nil⟩
    have hqr := hfl qs (fun q hq => hres q (hqs q hq))
    have hfine : Fine env types [] qs :=
      ⟨fun q _ => hall q, by simpa using hresOk _ hqr, fun q hq => Or.inl (hstmt q (hqs q hq))⟩
    have hb := ((readTrace_body (env := env) (io := io) (maxPoints := 0) hdr hal hd rfl).2
      (by rw [kept_of_not_limited (hnl qs)]; exact hfine)).2 (hnl qs)
    rcases hb.2 ⟨hall es, hresOk _ (by
        intro r hr
        rcases List.mem_append.mp hr with hr | hr
        · exact hqr r hr
        · exact hesr r hr)⟩ with ⟨_, h6⟩ | ⟨h6, _⟩ | ⟨h6, _⟩
    · rw [h6, pointsOf_stmt qs (junkStmt env) 0 0 [] (fun p hp => hstmt p (hqs p hp))]
    · exact absurd rfl h6
    · exact absurd rfl h6
  constructor
  · rintro qs ⟨es, rfl, ⟨rfl, rfl⟩ | ⟨p, more, rfl, hpre⟩⟩
    · exact hok qs [] (fun q hq => hq) (by simp) (by simp [entrySizes])
    · exact hok qs es (fun q hq => by simp [hq]) (fun e he => hwf p (by simp) e (hpre.subset he))
        (fun r hr => hres p (by simp) r (hsub hpre r hr))
  · intro hno
    rcases points_cut ps T rest hcut with ⟨hT, _⟩ | ⟨ps₁, p, ps₂, rfl, hT | ⟨es₁, e, es₂, A, B, rfl, hT, he, hB⟩⟩
    · exact absurd ⟨[], by simp [hT, encodeEntries], Or.inl ⟨rfl, rfl⟩⟩ (hno ps)
    · exact absurd ⟨p, hT, Or.inr ⟨p, ps₂, rfl, List.prefix_refl _⟩⟩ (hno ps₁)
    · have hA : A ≠ [] := by
        intro hA
        refine hno ps₁ ⟨es₁, by simp [hT, hA], Or.inr ⟨_, ps₂, rfl, List.prefix_append _ _⟩⟩
      exact readTrace_cut_inside env io names types ps₁ ps₂ es₁ es₂ e T A B hdr hwf hstmt hsane hres henv halloc hT he hA hB

/-- Both situations in the example run: a cut between the entries of the second
point, and one byte further. -/
example : CutBetweenEntries exTypes exPoints (exPoints.take 1)
    (encodePoints exTypes (exPoints.take 1) ++ encodeEntries exTypes [.stmt 8]) :=
  ⟨[.stmt 8], rfl, Or.inr ⟨_, [], rfl, _, rfl⟩⟩
example : readTrace exEnv 0 (IStream.ofBytes (encodeHeader exNames exTypes ++
      (encodePoints exTypes (exPoints.take 1) ++ encodeEntries exTypes [.stmt 8]))) =
    .ok ⟨exNames, exTypes, pointsOf exTypes 0 0 [] (exPoints.take 1)⟩ :=
  (C04_cut_position_decides exEnv false exNames exTypes exPoints _
    (encodeEntries exTypes [.var 1 2 [104, 105], .var 1 3 [255, 255], .aux 42] ++ [0])
    exHeaderOk exWF (by decide +kernel) exSane (by decide +kernel) rfl (fun _ => rfl) (by decide +kernel)).1 _
    ⟨[.stmt 8], rfl, Or.inr ⟨_, [], rfl, _, rfl⟩⟩
example : readTrace exEnv 0 (IStream.ofBytes (encodeHeader exNames exTypes ++
      (encodePoints exTypes (exPoints.take 1) ++ encodeEntries exTypes [.stmt 8] ++ [2]))) = .throw .eof := by
  decide +kernel

/-! ### C05 -/

/-- **C05**.  The exact outcome of reading a header cut short.  `N` is the end of
the name table.  The trace is accepted when the type count is cut so that its
remaining bytes read as 0 (in particular right after the name table), and when
only bytes of the size of the last type are missing (which are then read as 0);
every other cut is not accepted, and rejected with an error unless it falls into
the characters of the name table. -/
theorem C05_cut_header (env : Env) (io : Bool) (maxPoints : U64) (names : List Name)
    (types : List TypeDesc) (T B : List U8) (hdr : HeaderOk names types)
    (halloc : ∀ n, env.canAlloc n = true) (hcut : T ++ B = encodeHeader names types) (hB : B ≠ [])
    (N : Nat) (hN : N = 8 + (names.map fun n => n.length + 1).sum) :
    (T.length < N → ∀ t, readTrace env maxPoints (gs io T) ≠ .ok t) ∧
    (T.length < 8 → readTrace env maxPoints (gs io T) = .throw (endExn io) ∨
      readTrace env maxPoints (gs io T) = .throw .alloc) ∧
    (N ≤ T.length → T.length < N + 4 →
      readTrace env maxPoints (gs io T) =
        if types.length % 256 ^ (T.length - N) = 0 then .ok ⟨names, [], []⟩ else .throw (endExn io)) ∧
    (N + 4 ≤ T.length →
      if B.length ≤ 4 then
        ∃ init last, types = init ++ [last] ∧ readTrace env maxPoints (gs io T) =
          .ok ⟨names, init ++ [{ last with size := BitVec.ofNat 32 (last.size.toNat % 256 ^ (4 - B.length)) }], []⟩
      else readTrace env maxPoints (gs io T) = .throw (endExn io)) := by
  have hN' : N = 8 + charCount names := hN
  clear hN
  -- outcomes of the header decide the outcome of the read
  have hthrow : ∀ e, readHeader env (gs io T) = .throw e → readTrace env maxPoints (gs io T) = .throw e := by
    intro e h
    rw [readTrace_eq_history, readTraceWith_eq, h]; rfl
  have hended : ∀ ns ts, readHeader env (gs io T) = .ok (ns, ts, ended io) →
      readTrace env maxPoints (gs io T) = .ok ⟨ns, ts, []⟩ := by
    intro ns ts h
    rw [readTrace_eq_history, readTraceWith_eq, h]
    simp only [Res.ok_bind]
    rw [show (ended io).rest.length + 3 = 2 + 1 from rfl, readPoints_ended]
    rfl
  have hunf : readHeader env (gs io T) = (readNameTable env (gs io T) >>= fun q =>
      readTypeTable env q.2 >>= fun q' => pure (q.1, q'.1, q'.2)) := rfl
  rw [encodeHeader_eq] at hcut
  have htt : readTypeTable env (ended io) = .throw (endExn io) := by
    simp [readTypeTable]
  -- cut inside the character count
  have hshort : T.length < 8 → readTrace env maxPoints (gs io T) = .throw (endExn io) ∨
      readTrace env maxPoints (gs io T) = .throw .alloc := by
    intro h8
    have hh : readHeader env (gs io T) = .throw (endExn io) ∨ readHeader env (gs io T) = .throw .alloc := by
      rw [hunf]
      unfold readNameTable
      rw [readUInt_short h8]
      simp only [Res.ok_bind]
      split
      · split
        · exact Or.inr rfl
        · left; simp
      · left; simp [htt]
    rcases hh with h | h
    · exact Or.inl (hthrow _ h)
    · exact Or.inr (hthrow _ h)
  -- the name table is complete
  have hfull : N ≤ T.length → ∃ A, T = leBytes 8 (charCount names) ++ (flatNames names ++ A) ∧
      A.length = T.length - N ∧ leBytes 4 types.length ++ types.flatMap encodeType = A ++ B ∧
      readHeader env (gs io T) = (readTypeTable env (gs io A) >>= fun q' => pure (names, q'.1, q'.2)) := by
    intro hl
    obtain ⟨T1, hT1, h1⟩ := cut_split hcut (by rw [leBytes_length]; omega)
    have hl1 : T.length = 8 + T1.length := by rw [hT1]; simp
    obtain ⟨A, hA, h2⟩ := cut_split h1 (by rw [flatNames_length]; omega)
    refine ⟨A, by rw [hT1, hA], ?_, h2.symm, ?_⟩
    · rw [hl1, hA, hN']; simp [flatNames_length]; omega
    · rw [hunf, hT1, hA, readNameTable_ok hdr.nulFree hdr.chars (fun _ => halloc _)]
      rfl
  refine ⟨?_, hshort, ?_, ?_⟩
  · intro hl t ht
    by_cases h8 : T.length < 8
    · rcases hshort h8 with h | h <;> rw [h] at ht <;> cases ht
    · obtain ⟨T1, hT1, h1⟩ := cut_split hcut (by rw [leBytes_length]; omega)
      have hl1 : T.length = 8 + T1.length := by rw [hT1]; simp
      have hcc : charCount names < 256 ^ 8 := by
        have : charCount names < 2 ^ 63 := hdr.chars
        omega
      have hno : ∀ q, readHeader env (gs io T) ≠ .ok q := by
        intro q hq
        rw [hunf, hT1] at hq
        unfold readNameTable at hq
        rw [readUInt_le hcc] at hq
        simp only [Res.ok_bind] at hq
        rw [if_pos (show charCount names > 0 by omega)] at hq
        split at hq
        · cases hq
        · rw [binaryRead_short (show T1.length < charCount names by omega)] at hq
          simp only [Res.ok_bind] at hq
          obtain ⟨q1, h3, h4⟩ := Res.bind_eq_ok.mp hq
          obtain ⟨b, _, h3⟩ := Res.bind_eq_ok.mp h3
          obtain ⟨ns, _, h3⟩ := Res.bind_eq_ok.mp h3
          cases h3
          simp [htt] at h4
      rw [readTrace_eq_history, readTraceWith_eq] at ht
      obtain ⟨q, hq, _⟩ := Res.bind_eq_ok.mp ht
      exact hno q hq
  · intro hl hl4
    obtain ⟨A, hT, hAl, hA, hr⟩ := hfull hl
    have hAlt : A.length < 4 := by omega
    rw [← hAl]
    rcases readTypeTable_cut (env := env) (io := io) hdr.formats hdr.count (fun n _ _ => halloc _) hA hB with
      ⟨_, h2, h3⟩ | ⟨h1, _⟩ | ⟨h1, _, h3⟩
    · rw [if_pos h2]
      exact hended _ _ (by rw [hr, h3]; rfl)
    · omega
    · rw [if_neg (h1 hAlt)]
      exact hthrow _ (by rw [hr, h3]; rfl)
  · intro hl
    obtain ⟨A, hT, hAl, hA, hr⟩ := hfull (by omega)
    have hAlt : 4 ≤ A.length := by omega
    rcases readTypeTable_cut (env := env) (io := io) hdr.formats hdr.count (fun n _ _ => halloc _) hA hB with
      ⟨h1, _⟩ | ⟨_, h2, ts, t, h3, h4⟩ | ⟨_, h2, h3⟩
    · omega
    · rw [if_pos h2]
      exact ⟨ts, t, h3, hended _ _ (by rw [hr, h4]; rfl)⟩
    · rw [if_neg (by have := h2 hAlt; omega)]
      exact hthrow _ (by rw [hr, h3]; rfl)

/-- **C05, defect.**  Not every truncated header is rejected: the example header
without its last byte is accepted, and so is the header cut right after the name
table, which loses all types. -/
theorem C05_truncated_headers_accepted :
    ¬ (∀ (env : Env) (names : List Name) (types : List TypeDesc) (T B : List U8), HeaderOk names types →
        T ++ B = encodeHeader names types → B ≠ [] → ∀ t, readTrace env 0 (gs false T) ≠ .ok t) := by
  intro h
  exact h exStrict exNames exTypes ((encodeHeader exNames exTypes).take 16)
    ((encodeHeader exNames exTypes).drop 16) exHeaderOk (List.take_append_drop _ _) (by decide +kernel)
    ⟨exNames, [], []⟩ (by decide +kernel)

example : readTrace exStrict 0 (IStream.ofBytes ((encodeHeader exNames [⟨0, .signed, 260⟩]).take 29)) =
    .ok ⟨exNames, [⟨0, .signed, 4⟩], []⟩ := by decide +kernel
example : readTrace exStrict 0 (IStream.ofBytes ((encodeHeader exNames [⟨0, .signed, 260⟩]).take 27)) =
    .throw .eof := by decide +kernel

end TraceDB
