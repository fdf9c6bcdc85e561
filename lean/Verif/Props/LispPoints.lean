import Verif.Proofs.LispPoints
/-
C62, C63: points as Lisp data.
-/
namespace TraceDB

/-! C62 -/

/-- **C62**.  What `get-trace` returns for a trace that was read shows the complete
points of the stream in order: ids, auxiliary values, names, types, values by the
format of their type, and the buffer sizes that follow from the allocation records. -/
theorem C62_lisp_shows_stream (env : Env) (maxPoints : U64) (io : Bool) (names : List Name)
    (types : List TypeDesc) (body : List U8) (ps : List (List Entry)) (p : List Entry) (left : List U8)
    (hdr : HeaderOk names types) (hd : Decomposed names types body ps p left) (t : Trace)
    (htn : ∀ ty ∈ types, ty.nameIndex.toNat < names.length)
    (h : readTrace env maxPoints (gs io (encodeHeader names types ++ body)) = .ok t) :
    ∃ l, lispGetTrace t none = .ok l ∧
      l.length = (if maxPoints = 0 then ps.length else min maxPoints.toNat ps.length) ∧
      ∀ (i : Nat) (x : LPoint), l[i]? = some x → ∃ es, ps[i]? = some es ∧
        ShowsPoint names types ((ps.take i).flatMap entrySizes) es x := by
  obtain ⟨_, _, rfl, _⟩ := readTrace_ok_of hdr hd h
  have hsub : ∀ q ∈ kept maxPoints ps, q ∈ ps := by
    intro q hq
    unfold kept at hq
    split at hq
    · exact hq
    · exact List.mem_of_mem_take hq
  obtain ⟨l, h1, h2, h3⟩ := lispPoints_of_entries hdr.nulFree htn
    (pointsOf types (junkStmt env) 0 [] (kept maxPoints ps)) (junkStmt env) (kept maxPoints ps) 0 []
    fun q hq => hd.points q (hsub q hq)
  refine ⟨l, ?_, ?_, ?_⟩
  · unfold lispGetTrace
    rw [h1, Res.ok_bind]
    rfl
  · rw [h2]
    unfold kept
    split
    · rfl
    · rw [List.length_take]
  · intro i x hx
    have hlt : i < (kept maxPoints ps).length := by rw [← h2]; exact (List.getElem?_eq_some_iff.mp hx).1
    have hk : (kept maxPoints ps)[i]? = some (kept maxPoints ps)[i] := List.getElem?_eq_getElem hlt
    have hps : ps[i]? = (kept maxPoints ps)[i]? ∧ (kept maxPoints ps).take i = ps.take i := by
      unfold kept at hlt ⊢
      split
      · exact ⟨rfl, rfl⟩
      · rename_i h0
        rw [if_neg h0, List.length_take] at hlt
        rw [List.take_take, Nat.min_eq_left (by omega), List.getElem?_take, if_pos (by omega)]
        exact ⟨rfl, rfl⟩
    refine ⟨(kept maxPoints ps)[i], by rw [hps.1, hk], ?_⟩
    have := h3 i _ x hk hx
    rw [hps.2, List.nil_append] at this
    exact this

/-- With a file, `get-trace` returns those points whose statement id is one of the
2^40 ids of that file. -/
theorem C62_file (t : Trace) (f : Nat) (l : List LPoint) (h : lispGetTrace t none = .ok l) :
    l.length = t.points.length ∧
    lispGetTrace t (some f) = .ok (((t.points.zip l).filter fun x =>
      decide (2 ^ 63 + f * 2 ^ 40 ≤ x.1.statement.toNat ∧ x.1.statement.toNat < 2 ^ 63 + (f + 1) * 2 ^ 40)).map (·.2)) := by
  unfold lispGetTrace at h ⊢
  obtain ⟨l', hl, h'⟩ := Res.bind_eq_ok.mp h
  cases h'
  rw [hl, Res.ok_bind]
  show l'.length = _ ∧ Res.ok (l'.filter fun p => p.f == some f) = _
  rw [Res.ok.injEq]
  have key : ∀ (ps : List Point) (ls : List LPoint), lispPoints t ps = .ok ls → ls.length = ps.length ∧
      (ls.filter fun p => p.f == some f) = ((ps.zip ls).filter fun x =>
        decide (2 ^ 63 + f * 2 ^ 40 ≤ x.1.statement.toNat ∧ x.1.statement.toNat < 2 ^ 63 + (f + 1) * 2 ^ 40)).map (·.2) := by
    intro ps
    induction ps with
    | nil => intro ls hls; cases hls; exact ⟨rfl, rfl⟩
    | cons q qs ih =>
      intro ls hls
      rw [lispPoints] at hls
      obtain ⟨x, hx, hls⟩ := Res.bind_eq_ok.mp hls
      obtain ⟨xs, hxs, hls⟩ := Res.bind_eq_ok.mp hls
      cases hls
      obtain ⟨h1, h2⟩ := ih xs hxs
      refine ⟨by simp [h1], ?_⟩
      have hf := (lispPoint_f hx).1
      have : (x.f == some f) = decide (2 ^ 63 + f * 2 ^ 40 ≤ q.statement.toNat ∧
          q.statement.toNat < 2 ^ 63 + (f + 1) * 2 ^ 40) := by
        rw [hf, unpackF_eq, Bool.eq_iff_iff, beq_iff_eq, decide_eq_true_iff]
        have := q.statement.isLt
        split
        · rw [Option.some.injEq]; omega
        · constructor
          · intro h; cases h
          · intro h; omega
      rw [List.zip_cons_cons, List.filter_cons, List.filter_cons, this, h2]
      split <;> rfl
  exact key t.points l' hl

/-- Values are shown with their sign, and a pointer into a buffer with what is left of
it. -/
example : HeaderOk exNames exTypes ∧ (∀ ty ∈ exTypes, ty.nameIndex.toNat < exNames.length) ∧
    readTrace exEnv 0 (IStream.ofBytes exBytes) = .ok exTrace ∧
    lispGetTrace exTrace none = .ok
      [⟨7, none, [⟨[120], [105, 110, 116], .int (-2), none⟩, ⟨[112], [105, 110, 116], .int 0x1005, some 11⟩], []⟩,
       ⟨8, none, [⟨[120], [105, 110, 116], .blob [104, 105], none⟩, ⟨[120], [105, 110, 116], .int 65535, none⟩], [42]⟩] ∧
    lispGetTrace exTrace (some 0) = .ok [] := by
  refine ⟨⟨?_, ?_, ?_, ?_⟩, ?_, ?_, ?_, ?_⟩ <;> decide +kernel

/-! C63 -/

/-- **C63**.  Points given as Lisp data are returned by `get-trace` for the new, last
trace: with the same ids, names, types and buffer sizes, and with the same values if
they are below 2^63.  Auxiliary values are dropped. -/
theorem C63_points_returned {μ : Type} (grow : Nat → Nat) (env : Env) (d : LispDb μ) (trace : List LPoint) (m : μ)
    (hall : ∀ p ∈ trace, p.Addable) (hlen : (lispAddNames trace).length ≤ 2 ^ 32) :
    ∃ d' t, d.addPoints grow env trace m = .ok d' ∧ d'.db.traces = d.db.traces ++ [t] ∧
      lispGetTrace t none = .ok (trace.map LPoint.wrapped) := by
  have ht := traceOfPoints_eq (trace.map (givenPoint (lispAddNames trace))) ((lispAddNames trace).map cStr) (by
    intro p hp
    obtain ⟨q, _, rfl⟩ := List.mem_map.mp hp
    rfl)
  have hadd : d.addPoints grow env trace m = .ok ⟨d.db.addTrace grow
      ⟨(lispAddNames trace).map cStr, typesOf (noteFormats (trace.map (givenPoint (lispAddNames trace)))),
        madePoints (trace.map (givenPoint (lispAddNames trace))) 0 (trace.map (givenPoint (lispAddNames trace)))⟩,
      m :: d.metadata⟩ := by
    unfold LispDb.addPoints
    simp only []
    rw [lispInPoints_eq hlen trace hall, Res.ok_bind]
    unfold LispDb.add addTracePointsApi
    simp only []
    rw [ht]
    rfl
  refine ⟨_, ⟨(lispAddNames trace).map cStr, typesOf (noteFormats (trace.map (givenPoint (lispAddNames trace)))),
      madePoints (trace.map (givenPoint (lispAddNames trace))) 0 (trace.map (givenPoint (lispAddNames trace)))⟩, hadd, ?_, ?_⟩
  · unfold Db.addTrace
    split <;> rfl
  · unfold lispGetTrace
    simp only []
    rw [lispPoints_given hall hlen _ trace 0 fun _ h => h, Res.ok_bind]
    rfl

/-- What is small comes back unchanged. -/
theorem C63_unchanged (p : LPoint) (haux : p.aux = [])
    (hv : ∀ v ∈ p.scopes, ∃ i : Int, 0 ≤ i ∧ i < 2 ^ 63 ∧ v.value = .int i) : p.wrapped = p := by
  obtain ⟨c, f, scopes, aux⟩ := p
  cases haux
  unfold LPoint.wrapped
  congr 1
  conv => rhs; rw [← List.map_id scopes]
  apply List.map_congr_left
  intro v hmem
  obtain ⟨i, _, h1, h2⟩ := hv v hmem
  obtain ⟨n, ty, x, z⟩ := v
  cases h2
  simp only [LValue.wrapped, if_pos h1]
  rfl

/-- Other values than integers from 0 to 2^64 - 1 are refused, also the negative ones,
for which the code has a format; nothing is added then. -/
theorem C63_refused {μ : Type} (grow : Nat → Nat) (env : Env) (d : LispDb μ) (trace : List LPoint) (m : μ)
    (h : ∃ p ∈ trace, ∃ v ∈ p.scopes, ∀ i : Nat, i < 2 ^ 64 → v.value ≠ .int i) :
    d.addPoints grow env trace m = .throw .lisp := by
  have hvars : ∀ (names : List (List U8)) (vs : List LVar),
      (∀ xs, lispInVars names vs = .ok xs → ∀ v ∈ vs, ∃ i : Nat, i < 2 ^ 64 ∧ v.value = .int i) ∧
      (lispInVars names vs = .throw .lisp ∨ ∃ xs, lispInVars names vs = .ok xs) := by
    intro names vs
    induction vs with
    | nil => exact ⟨fun _ _ v hv => by simp at hv, .inr ⟨[], rfl⟩⟩
    | cons v vs ih =>
      have hone : lispInVar names v = .throw .lisp ∨
          (∃ x, lispInVar names v = .ok x) ∧ ∃ i : Nat, i < 2 ^ 64 ∧ v.value = .int i := by
        unfold lispInVar
        split
        · rename_i i hi
          split
          · rename_i hc
            refine .inr ⟨⟨_, rfl⟩, i.toNat, by omega, ?_⟩
            rw [Int.toNat_of_nonneg hc.1]
            exact hi
          · exact .inl rfl
        · exact .inl rfl
      rw [lispInVars]
      rcases hone with h1 | ⟨⟨x, h1⟩, h2⟩
      · rw [h1]
        exact ⟨fun xs hxs => (by cases hxs), .inl rfl⟩
      · rw [h1, Res.ok_bind]
        rcases ih.2 with h3 | ⟨xs, h3⟩
        · rw [h3]
          exact ⟨fun xs hxs => (by cases hxs), .inl rfl⟩
        · rw [h3, Res.ok_bind]
          refine ⟨fun _ _ w hw => ?_, .inr ⟨_, rfl⟩⟩
          rcases List.mem_cons.mp hw with rfl | hw
          · exact h2
          · exact ih.1 xs h3 w hw
  have hpoints : ∀ (names : List (List U8)) (ps : List LPoint),
      (∃ p ∈ ps, ∃ v ∈ p.scopes, ∀ i : Nat, i < 2 ^ 64 → v.value ≠ .int i) →
      lispInPoints names ps = .throw .lisp := by
    intro names ps
    induction ps with
    | nil => rintro ⟨p, hp, _⟩; simp at hp
    | cons q qs ih =>
      rintro ⟨p, hp, v, hv, hno⟩
      rw [lispInPoints]
      unfold lispInPoint
      rcases (hvars names q.scopes).2 with h3 | ⟨xs, h3⟩
      · rw [h3]; rfl
      · rw [h3, Res.ok_bind]
        rcases List.mem_cons.mp hp with rfl | hp
        · obtain ⟨i, h4, h5⟩ := (hvars names p.scopes).1 xs h3 v hv
          exact absurd h5 (hno i h4)
        · split
          · rw [Res.pure_eq, Res.ok_bind, ih ⟨p, hp, v, hv, hno⟩]
            rfl
          · rfl
  unfold LispDb.addPoints
  simp only []
  rw [hpoints _ trace h]
  rfl

/-- "x" of type "int" is 5, "y" of the same type is 2^64 - 1 with a buffer size. -/
def lpTrace : List LPoint :=
  [⟨9, some 3, [⟨[120], [105, 110, 116], .int 5, none⟩, ⟨[121], [105, 110, 116], .int (2 ^ 64 - 1), some 16⟩], [1]⟩,
   ⟨4, none, [], []⟩]

example : ∀ p ∈ lpTrace, p.Addable := by
  intro p hp
  simp only [lpTrace, List.mem_cons, List.not_mem_nil, or_false] at hp
  rcases hp with rfl | rfl
  · refine ⟨by decide, ?_⟩
    intro v hv
    simp only [List.mem_cons, List.not_mem_nil, or_false] at hv
    rcases hv with rfl | rfl
    · exact ⟨by decide, by decide, ⟨5, by decide, rfl⟩, by simp⟩
    · exact ⟨by decide, by decide, ⟨2 ^ 64 - 1, by decide, rfl⟩, by simp⟩
  · exact ⟨by decide, by simp⟩

/-- The value of "y" turns to -1, and the auxiliary value is lost. -/
example : lispAddNames lpTrace = [[120], [121], [105, 110, 116]] ∧ lpTrace.map LPoint.wrapped =
    [⟨9, some 3, [⟨[120], [105, 110, 116], .int 5, none⟩, ⟨[121], [105, 110, 116], .int (-1), some 16⟩], []⟩,
     ⟨4, none, [], []⟩] := by decide +kernel

example : ((LispDb.empty (μ := Unit)).addPoints (fun n => n) exEnv [⟨1, none, [⟨[120], [105], .int (-1), none⟩], []⟩] ()) =
    .throw .lisp :=
  C63_refused _ _ _ _ _ ⟨_, List.mem_singleton.mpr rfl, _, List.mem_singleton.mpr rfl, fun i _ h => by
    simp only [LValue.int.injEq] at h; omega⟩

end TraceDB
