import Verif.Proofs.ReaderTail
/-
The point loop of the reader.
-/
namespace TraceDB

variable {env : Env} {names : List Name} {types : List TypeDesc} {io : Bool}

theorem encode_length_pos (e : Entry) : 1 ≤ (e.encode types).length := by
  cases e <;> simp [Entry.encode]

theorem encodeEntries_length : ∀ es : List Entry, es.length ≤ (encodeEntries types es).length
  | [] => by simp [encodeEntries]
  | e :: es => by
    have h1 := encode_length_pos (types := types) e
    have h2 := encodeEntries_length es
    simp only [encodeEntries, List.flatMap_cons, List.length_append, List.length_cons] at *
    omega

theorem encodePoints_length : ∀ ps : List (List Entry), ps.length ≤ (encodePoints types ps).length
  | [] => by simp [encodePoints]
  | p :: ps => by
    have h2 := encodePoints_length ps
    simp only [encodePoints, List.flatMap_cons, List.length_append, List.length_cons] at *
    have h3 : 1 ≤ (encodePoint types p).length := by simp [encodePoint]
    omega

/-- Value of an uninitialised statement id. -/
def junkStmt (env : Env) : U64 :=
  match env.junk with
  | none => 0
  | some f => BitVec.ofNat 64 (leNat ((List.range 8).map f))

/-- A finished point can be copied: it has a statement id, or uninitialised
memory may be used. -/
def StmtOk (env : Env) (p : List Entry) : Prop := (entryStmt p).isSome = true ∨ env.junk.isSome = true

theorem finishStatement_ok {p : List Entry} (h : StmtOk env p) :
    finishStatement env (entryStmt p) = .ok ((entryStmt p).getD (junkStmt env)) := by
  unfold finishStatement junkStmt
  rcases h with h | h
  · obtain ⟨v, hv⟩ := Option.isSome_iff_exists.mp h
    simp [hv]
  · obtain ⟨f, hf⟩ := Option.isSome_iff_exists.mp h
    cases entryStmt p <;> simp [hf]

theorem finishStatement_ub {p : List Entry} (h : ¬ StmtOk env p) :
    finishStatement env (entryStmt p) = .ub .uninit := by
  unfold StmtOk at h
  simp only [not_or] at h
  unfold finishStatement
  cases h1 : entryStmt p with
  | some v => rw [h1] at h; simp at h
  | none =>
    cases h2 : env.junk with
    | some f => rw [h2] at h; simp at h
    | none => rfl

/-- All allocations requested by the entries succeed. -/
def AllocsOk (env : Env) (types : List TypeDesc) (p : List Entry) : Prop := ∀ e ∈ p, e.AllocOk env types

/-- The points can be read without undefined behaviour. -/
structure Fine (env : Env) (types : List TypeDesc) (H : List BufferSize) (ps : List (List Entry)) : Prop where
  allocs : ∀ p ∈ ps, AllocsOk env types p
  reserved : ReservedOk (H ++ ps.flatMap entrySizes)
  stmts : ∀ p ∈ ps, StmtOk env p

/-- The loop condition of the point loop, apart from the stream state. -/
def Within (maxPoints : U64) (i : Nat) : Prop := maxPoints = 0 ∨ i < maxPoints.toNat

theorem within_cond {maxPoints : U64} {i : Nat} :
    (decide (i < maxPoints.toNat) || maxPoints == 0) = true ↔ Within maxPoints i := by
  unfold Within
  simp
  exact Or.comm

/-- One complete point. -/
theorem readPoints_point {maxPoints : U64} {fuel i : Nat} {H : List BufferSize} {acc : List Point}
    {p : List Entry} {R : List U8} (hw : Within maxPoints i)
    (hwf : ∀ e ∈ p, e.WF names types) (ha : AllocsOk env types p)
    (hok : ReservedOk (H ++ entrySizes p)) (hs : StmtOk env p) :
    readPoints MapImpl.history env names types maxPoints (fuel + 1) i
      (gs io (encodePoint types p ++ R)) H acc =
    readPoints MapImpl.history env names types maxPoints fuel (i + 1) (gs io R) (H ++ entrySizes p)
      (acc ++ [pointOf types i H ((entryStmt p).getD (junkStmt env)) p]) := by
  rw [readPoints]
  simp only [gs_isGood, Bool.true_and, within_cond.mpr hw, if_true]
  have hf : ∃ f, entryFuel (gs io (encodePoint types p ++ R)) = p.length + (f + 1) := by
    have h1 := encodeEntries_length (types := types) p
    refine ⟨entryFuel (gs io (encodePoint types p ++ R)) - p.length - 1, ?_⟩
    simp only [entryFuel, encodePoint, List.length_append, List.length_cons, List.length_nil]
    omega
  obtain ⟨f, hf⟩ := hf
  rw [hf]
  simp only [encodePoint, List.append_assoc]
  rw [readEntries_entries p (f + 1) H _ _ hwf ha hok]
  simp only [List.cons_append, List.nil_append]
  rw [readEntries_fin]
  simp only [Res.ok_bind, gs_isGood, if_true, accAfter_empty, finishStatement_ok hs, pointOf]

/-- A point that cannot be read without undefined behaviour. -/
theorem readPoints_point_ub {maxPoints : U64} {fuel i : Nat} {H : List BufferSize} {acc : List Point}
    {p : List Entry} {R : List U8} (hw : Within maxPoints i)
    (hwf : ∀ e ∈ p, e.WF names types) (hH : ReservedOk H)
    (hno : ¬ (AllocsOk env types p ∧ ReservedOk (H ++ entrySizes p) ∧ StmtOk env p)) :
    ∃ k, readPoints MapImpl.history env names types maxPoints (fuel + 1) i
      (gs io (encodePoint types p ++ R)) H acc = .ub k := by
  rw [readPoints]
  simp only [gs_isGood, Bool.true_and, within_cond.mpr hw, if_true]
  have hf : ∃ f, entryFuel (gs io (encodePoint types p ++ R)) = p.length + (f + 1) := by
    have h1 := encodeEntries_length (types := types) p
    refine ⟨entryFuel (gs io (encodePoint types p ++ R)) - p.length - 1, ?_⟩
    simp only [entryFuel, encodePoint, List.length_append, List.length_cons, List.length_nil]
    omega
  obtain ⟨f, hf⟩ := hf
  rw [hf]
  simp only [encodePoint, List.append_assoc]
  rcases readEntries_entries_any (env := env) (io := io) p (f + 1) H .empty ([0] ++ R) hwf hH with ⟨h1, h2⟩ | ⟨k, hk⟩
  · rw [readEntries_entries p (f + 1) H _ _ hwf h1 h2]
    simp only [List.cons_append, List.nil_append]
    rw [readEntries_fin]
    have hs : ¬ StmtOk env p := fun hs => hno ⟨h1, h2, hs⟩
    simp only [Res.ok_bind, gs_isGood, if_true, accAfter_empty, finishStatement_ub hs]
    exact ⟨_, rfl⟩
  · rw [hk]
    exact ⟨k, rfl⟩

theorem Fine.cons {H : List BufferSize} {p : List Entry} {ps : List (List Entry)} :
    Fine env types H (p :: ps) ↔
      (AllocsOk env types p ∧ ReservedOk (H ++ entrySizes p) ∧ StmtOk env p) ∧
        Fine env types (H ++ entrySizes p) ps := by
  constructor
  · intro h
    have hr := h.reserved
    simp only [List.flatMap_cons, ← List.append_assoc] at hr
    exact ⟨⟨h.allocs p (by simp), hr.prefix (List.prefix_append _ _), h.stmts p (by simp)⟩,
      ⟨fun q hq => h.allocs q (by simp [hq]), hr, fun q hq => h.stmts q (by simp [hq])⟩⟩
  · rintro ⟨⟨h1, h2, h3⟩, h4⟩
    refine ⟨?_, ?_, ?_⟩
    · intro q hq
      simp only [List.mem_cons] at hq
      rcases hq with rfl | hq
      · exact h1
      · exact h4.allocs q hq
    · simp only [List.flatMap_cons, ← List.append_assoc]
      exact h4.reserved
    · intro q hq
      simp only [List.mem_cons] at hq
      rcases hq with rfl | hq
      · exact h3
      · exact h4.stmts q hq

/-- A sequence of complete points, all within the limit. -/
theorem readPoints_points {maxPoints : U64} : ∀ (ps : List (List Entry)) (fuel i : Nat)
    (H : List BufferSize) (acc : List Point) (R : List U8),
    (maxPoints = 0 ∨ i + ps.length ≤ maxPoints.toNat) →
    (∀ p ∈ ps, ∀ e ∈ p, e.WF names types) → Fine env types H ps →
    readPoints MapImpl.history env names types maxPoints (ps.length + fuel) i
      (gs io (encodePoints types ps ++ R)) H acc =
    readPoints MapImpl.history env names types maxPoints fuel (i + ps.length) (gs io R)
      (H ++ ps.flatMap entrySizes) (acc ++ pointsOf types (junkStmt env) i H ps)
  | [], fuel, i, H, acc, R, _, _, _ => by simp [encodePoints, pointsOf]
  | p :: ps, fuel, i, H, acc, R, hw, hwf, hfine => by
    obtain ⟨⟨h1, h2, h3⟩, h4⟩ := Fine.cons.mp hfine
    have hl : (p :: ps).length + fuel = (ps.length + fuel) + 1 := by simp; omega
    rw [hl]
    simp only [encodePoints, List.flatMap_cons, List.append_assoc]
    have hw' : Within maxPoints i := by
      rcases hw with h | h
      · exact Or.inl h
      · right; simp only [List.length_cons] at h; omega
    rw [readPoints_point hw' (hwf p (by simp)) h1 h2 h3]
    have := readPoints_points ps fuel (i + 1) (H ++ entrySizes p)
      (acc ++ [pointOf types i H ((entryStmt p).getD (junkStmt env)) p]) R
      (by rcases hw with h | h
          · exact Or.inl h
          · right; simp only [List.length_cons] at h; omega)
      (fun q hq => hwf q (by simp [hq])) h4
    simp only [encodePoints] at this
    rw [this]
    simp only [pointsOf, List.append_assoc, List.length_cons, List.cons_append, List.nil_append]
    congr 1
    omega

/-- The same without assuming that the points are fine. -/
theorem readPoints_points_any {maxPoints : U64} : ∀ (ps : List (List Entry)) (fuel i : Nat)
    (H : List BufferSize) (acc : List Point) (R : List U8),
    (maxPoints = 0 ∨ i + ps.length ≤ maxPoints.toNat) →
    (∀ p ∈ ps, ∀ e ∈ p, e.WF names types) → ReservedOk H →
    Fine env types H ps ∨
    ∃ k, readPoints MapImpl.history env names types maxPoints (ps.length + fuel) i
      (gs io (encodePoints types ps ++ R)) H acc = .ub k
  | [], fuel, i, H, acc, R, _, _, hH => by
    left
    exact ⟨by simp, by simpa using hH, by simp⟩
  | p :: ps, fuel, i, H, acc, R, hw, hwf, hH => by
    have hl : (p :: ps).length + fuel = (ps.length + fuel) + 1 := by simp; omega
    rw [hl]
    simp only [encodePoints, List.flatMap_cons, List.append_assoc]
    have hw' : Within maxPoints i := by
      rcases hw with h | h
      · exact Or.inl h
      · right; simp only [List.length_cons] at h; omega
    by_cases hp : AllocsOk env types p ∧ ReservedOk (H ++ entrySizes p) ∧ StmtOk env p
    · rw [readPoints_point hw' (hwf p (by simp)) hp.1 hp.2.1 hp.2.2]
      rcases readPoints_points_any ps fuel (i + 1) (H ++ entrySizes p)
        (acc ++ [pointOf types i H ((entryStmt p).getD (junkStmt env)) p]) R
        (by rcases hw with h | h
            · exact Or.inl h
            · right; simp only [List.length_cons] at h; omega)
        (fun q hq => hwf q (by simp [hq])) hp.2.1 with h | h
      · left; exact Fine.cons.mpr ⟨hp, h⟩
      · right; exact h
    · right
      exact readPoints_point_ub hw' (hwf p (by simp)) hH hp

/-- The limit is reached. -/
theorem readPoints_stop {maxPoints : U64} {fuel i : Nat} {H : List BufferSize} {acc : List Point}
    {s : IStream} (hw : ¬ Within maxPoints i) :
    readPoints MapImpl.history env names types maxPoints (fuel + 1) i s H acc = .ok acc := by
  rw [readPoints]
  have : (decide (i < maxPoints.toNat) || maxPoints == 0) = false := by
    rw [Bool.eq_false_iff]
    intro h
    exact hw (within_cond.mp h)
  simp only [this, Bool.and_false, Bool.false_eq_true, if_false, Res.pure_eq]

/-- The stream has ended. -/
theorem readPoints_ended {maxPoints : U64} {fuel i : Nat} {H : List BufferSize} {acc : List Point} :
    readPoints MapImpl.history env names types maxPoints (fuel + 1) i (ended io) H acc = .ok acc := by
  rw [readPoints]
  simp

/-- The rest of the stream after the last complete point. -/
theorem readPoints_tail {maxPoints : U64} {fuel i : Nat} {H : List BufferSize} {acc : List Point}
    {p : List Entry} {left : List U8} (hw : Within maxPoints i)
    (hwf : ∀ e ∈ p, e.WF names types) (ha : AllocsOk env types p) (hok : ReservedOk (H ++ entrySizes p))
    (hst : Stuck names types left) :
    (left = [] ∧ readPoints MapImpl.history env names types maxPoints (fuel + 2) i
      (gs io (encodeEntries types p ++ left)) H acc = .ok acc) ∨
    (left ≠ [] ∧ FailsWith io (readPoints MapImpl.history env names types maxPoints (fuel + 2) i
      (gs io (encodeEntries types p ++ left)) H acc)) ∨
    (left ≠ [] ∧ ∃ k, readPoints MapImpl.history env names types maxPoints (fuel + 2) i
      (gs io (encodeEntries types p ++ left)) H acc = .ub k ∧
        TailUB env types (H ++ entrySizes p) left k) := by
  rw [readPoints]
  simp only [gs_isGood, Bool.true_and, within_cond.mpr hw, if_true]
  by_cases hne : left = []
  · left
    refine ⟨hne, ?_⟩
    subst hne
    have hf : ∃ f, entryFuel (gs io (encodeEntries types p ++ [])) = p.length + (f + 1) := by
      have h1 := encodeEntries_length (types := types) p
      refine ⟨entryFuel (gs io (encodeEntries types p ++ [])) - p.length - 1, ?_⟩
      simp only [entryFuel, List.length_append, List.length_nil]
      omega
    obtain ⟨f, hf⟩ := hf
    rw [hf, readEntries_entries p (f + 1) H _ _ hwf ha hok, readEntries_end]
    simp only [Res.ok_bind, ended_isGood]
    exact readPoints_ended
  · right
    have hf : ∃ f, entryFuel (gs io (encodeEntries types p ++ left)) = p.length + (f + 2) := by
      have h1 := encodeEntries_length (types := types) p
      refine ⟨entryFuel (gs io (encodeEntries types p ++ left)) - p.length - 2, ?_⟩
      simp only [entryFuel, List.length_append]
      omega
    obtain ⟨f, hf⟩ := hf
    rw [hf, readEntries_entries p (f + 2) H _ _ hwf ha hok]
    rcases readEntries_stuck (env := env) (io := io) (fuel := f) (H := H ++ entrySizes p)
      (acc := accAfter types H .empty p) hst hne with (h | h) | ⟨k, h1, h2⟩
    · left; exact ⟨hne, Or.inl (by rw [h]; rfl)⟩
    · left; exact ⟨hne, Or.inr (by rw [h]; rfl)⟩
    · right; exact ⟨hne, k, by rw [h1]; rfl, h2⟩

/-- The tail when its entries may not be fine. -/
theorem readPoints_tail_any {maxPoints : U64} {fuel i : Nat} {H : List BufferSize} {acc : List Point}
    {p : List Entry} {left : List U8} (hw : Within maxPoints i)
    (hwf : ∀ e ∈ p, e.WF names types) (hH : ReservedOk H) :
    (AllocsOk env types p ∧ ReservedOk (H ++ entrySizes p)) ∨
    (∃ k, readPoints MapImpl.history env names types maxPoints (fuel + 2) i
      (gs io (encodeEntries types p ++ left)) H acc = .ub k) := by
  rw [readPoints]
  simp only [gs_isGood, Bool.true_and, within_cond.mpr hw, if_true]
  have hf : ∃ f, entryFuel (gs io (encodeEntries types p ++ left)) = p.length + (f + 1) := by
    have h1 := encodeEntries_length (types := types) p
    refine ⟨entryFuel (gs io (encodeEntries types p ++ left)) - p.length - 1, ?_⟩
    simp only [entryFuel, List.length_append]
    omega
  obtain ⟨f, hf⟩ := hf
  rw [hf]
  rcases readEntries_entries_any (env := env) (io := io) p (f + 1) H .empty left hwf hH with h | ⟨k, hk⟩
  · left; exact h
  · right; rw [hk]; exact ⟨k, rfl⟩

/-! ### Every byte string decomposes -/

theorem stuck_nil : Stuck names types [] := by
  refine ⟨by simp, ?_⟩
  intro e R _ h
  have := encode_length_pos (types := types) e
  have := congrArg List.length h
  simp only [List.length_nil, List.length_append] at this
  omega

/-- A byte string is a sequence of complete points, then entries, then bytes that
are no complete entry. -/
structure Decomposed (names : List Name) (types : List TypeDesc) (bs : List U8)
    (ps : List (List Entry)) (p : List Entry) (left : List U8) : Prop where
  eq : bs = encodePoints types ps ++ (encodeEntries types p ++ left)
  points : ∀ q ∈ ps, ∀ e ∈ q, e.WF names types
  entries : ∀ e ∈ p, e.WF names types
  stuck : Stuck names types left

theorem decompose (names : List Name) (types : List TypeDesc) : ∀ (n : Nat) (bs : List U8), bs.length ≤ n →
    ∃ ps p left, Decomposed names types bs ps p left
  | n, bs, hn => by
    by_cases hst : Stuck names types bs
    · exact ⟨[], [], bs, by simp [encodePoints, encodeEntries], by simp, by simp, hst⟩
    · have : (∃ R, bs = 0 :: R) ∨ ∃ e R, Entry.WF names types e ∧ bs = e.encode types ++ R := by
        apply Classical.byContradiction
        intro h
        simp only [not_or, not_exists, not_and] at h
        exact hst ⟨h.1, h.2⟩
      cases n with
      | zero =>
        exfalso
        have : bs = [] := List.eq_nil_of_length_eq_zero (by omega)
        subst this
        exact hst stuck_nil
      | succ n =>
        rcases this with ⟨R, rfl⟩ | ⟨e, R, he, rfl⟩
        · obtain ⟨ps, p, left, h⟩ := decompose names types n R (by simp at hn; omega)
          refine ⟨[] :: ps, p, left, ?_, ?_, h.entries, h.stuck⟩
          · simp [encodePoints, encodePoint, encodeEntries, h.eq]
          · intro q hq
            simp only [List.mem_cons] at hq
            rcases hq with rfl | hq
            · simp
            · exact h.points q hq
        · have hl := encode_length_pos (types := types) e
          obtain ⟨ps, p, left, h⟩ := decompose names types n R (by simp at hn; omega)
          cases ps with
          | nil =>
            refine ⟨[], e :: p, left, ?_, by simp, ?_, h.stuck⟩
            · simp [encodePoints, encodeEntries, h.eq]
            · intro x hx
              simp only [List.mem_cons] at hx
              rcases hx with rfl | hx
              · exact he
              · exact h.entries x hx
          | cons q ps =>
            refine ⟨(e :: q) :: ps, p, left, ?_, ?_, h.entries, h.stuck⟩
            · simp [encodePoints, encodePoint, encodeEntries, h.eq]
            · intro q' hq'
              simp only [List.mem_cons] at hq'
              rcases hq' with rfl | hq'
              · intro x hx
                simp only [List.mem_cons] at hx
                rcases hx with rfl | hx
                · exact he
                · exact h.points q (by simp) x hx
              · exact h.points q' (by simp [hq'])

theorem exists_decomposition (names : List Name) (types : List TypeDesc) (bs : List U8) :
    ∃ ps p left, Decomposed names types bs ps p left :=
  decompose names types bs.length bs (Nat.le_refl _)

/-! ### The whole body -/

/-- Number of complete points the reader looks at. -/
def kept (maxPoints : U64) (ps : List (List Entry)) : List (List Entry) :=
  if maxPoints = 0 then ps else ps.take maxPoints.toNat

/-- The limit stops the reader before the bytes after the last complete point. -/
def Limited (maxPoints : U64) (ps : List (List Entry)) : Prop :=
  maxPoints ≠ 0 ∧ maxPoints.toNat ≤ ps.length

/-- Reading the body of a trace. -/
theorem readPoints_body {maxPoints : U64} {fuel : Nat} {bs left : List U8}
    {ps : List (List Entry)} {p : List Entry}
    (hd : Decomposed names types bs ps p left) (hf : bs.length + 3 ≤ fuel) :
    let r := readPoints MapImpl.history env names types maxPoints fuel 0 (gs io bs) [] []
    (¬ Fine env types [] (kept maxPoints ps) → ∃ k, r = .ub k) ∧
    (Fine env types [] (kept maxPoints ps) →
      (Limited maxPoints ps → r = .ok (pointsOf types (junkStmt env) 0 [] (kept maxPoints ps))) ∧
      (¬ Limited maxPoints ps →
        (¬ (AllocsOk env types p ∧ ReservedOk (ps.flatMap entrySizes ++ entrySizes p)) → ∃ k, r = .ub k) ∧
        (AllocsOk env types p ∧ ReservedOk (ps.flatMap entrySizes ++ entrySizes p) →
          (left = [] ∧ r = .ok (pointsOf types (junkStmt env) 0 [] ps)) ∨
          (left ≠ [] ∧ FailsWith io r) ∨
          (left ≠ [] ∧ ∃ k, r = .ub k ∧ TailUB env types (ps.flatMap entrySizes ++ entrySizes p) left k)))) := by
  have hpl := encodePoints_length (types := types) ps
  have hbl : bs.length = (encodePoints types ps).length + (encodeEntries types p ++ left).length := by
    rw [hd.eq]; simp
  have hempty : ReservedOk [] := MemMap.Rep.construct.ok
  intro r
  by_cases hlim : Limited maxPoints ps
  · -- the limit is reached within the complete points
    have hk : kept maxPoints ps = ps.take maxPoints.toNat := if_neg hlim.1
    have hlen : (ps.take maxPoints.toNat).length = maxPoints.toNat := by
      simp [hlim.2]
    have heq : bs = encodePoints types (ps.take maxPoints.toNat) ++
        (encodePoints types (ps.drop maxPoints.toNat) ++ (encodeEntries types p ++ left)) := by
      have : encodePoints types ps = encodePoints types (ps.take maxPoints.toNat) ++
          encodePoints types (ps.drop maxPoints.toNat) := by
        simp only [encodePoints]
        rw [← List.flatMap_append, List.take_append_drop]
      rw [hd.eq, this, List.append_assoc]
    have hwf : ∀ q ∈ ps.take maxPoints.toNat, ∀ e ∈ q, e.WF names types :=
      fun q hq => hd.points q (List.mem_of_mem_take hq)
    obtain ⟨f, hfe⟩ : ∃ f, fuel = (ps.take maxPoints.toNat).length + (f + 1) := by
      refine ⟨fuel - (ps.take maxPoints.toNat).length - 1, ?_⟩
      have := hlim.2
      omega
    have hw : maxPoints = 0 ∨ 0 + (ps.take maxPoints.toNat).length ≤ maxPoints.toNat := by
      right; omega
    rw [hk]
    constructor
    · intro hnf
      rcases readPoints_points_any (env := env) (io := io) (ps.take maxPoints.toNat) (f + 1) 0 [] []
        (encodePoints types (ps.drop maxPoints.toNat) ++ (encodeEntries types p ++ left)) hw hwf hempty with h | h
      · exact absurd h hnf
      · show ∃ k, readPoints MapImpl.history env names types maxPoints fuel 0 (gs io bs) [] [] = .ub k
        rw [hfe, heq]; exact h
    · intro hfine
      refine ⟨fun _ => ?_, fun hn => absurd hlim hn⟩
      show readPoints MapImpl.history env names types maxPoints fuel 0 (gs io bs) [] [] = _
      rw [hfe, heq, readPoints_points _ _ 0 [] [] _ hw hwf hfine]
      rw [readPoints_stop]
      · simp
      · unfold Within
        rw [hlen]
        simp only [not_or]
        exact ⟨hlim.1, by omega⟩
  · have hk : kept maxPoints ps = ps := by
      unfold kept
      split
      · rfl
      · rename_i h0
        apply List.take_of_length_le
        apply Classical.byContradiction
        intro hh
        exact hlim ⟨h0, by omega⟩
    have hw : maxPoints = 0 ∨ 0 + ps.length ≤ maxPoints.toNat := by
      by_cases h0 : maxPoints = 0
      · exact Or.inl h0
      · right
        apply Classical.byContradiction
        intro hh
        exact hlim ⟨h0, by omega⟩
    have hw' : Within maxPoints (0 + ps.length) := by
      by_cases h0 : maxPoints = 0
      · exact Or.inl h0
      · right
        apply Classical.byContradiction
        intro hh
        exact hlim ⟨h0, by omega⟩
    obtain ⟨f, hfe⟩ : ∃ f, fuel = ps.length + (f + 2) := ⟨fuel - ps.length - 2, by omega⟩
    rw [hk]
    constructor
    · intro hnf
      rcases readPoints_points_any (env := env) (io := io) ps (f + 2) 0 [] []
        (encodeEntries types p ++ left) hw hd.points hempty with h | h
      · exact absurd h hnf
      · show ∃ k, readPoints MapImpl.history env names types maxPoints fuel 0 (gs io bs) [] [] = .ub k
        rw [hfe, hd.eq]; exact h
    · intro hfine
      refine ⟨fun hn => absurd hn hlim, fun _ => ?_⟩
      have hr : r = readPoints MapImpl.history env names types maxPoints (f + 2) (0 + ps.length)
          (gs io (encodeEntries types p ++ left)) (ps.flatMap entrySizes)
          (pointsOf types (junkStmt env) 0 [] ps) := by
        show readPoints MapImpl.history env names types maxPoints fuel 0 (gs io bs) [] [] = _
        rw [hfe, hd.eq, readPoints_points _ _ 0 [] [] _ hw hd.points hfine]
        simp
      have hres : ReservedOk (ps.flatMap entrySizes) := by simpa using hfine.reserved
      constructor
      · intro hnt
        rcases readPoints_tail_any (env := env) (io := io) (fuel := f) (left := left)
          (acc := pointsOf types (junkStmt env) 0 [] ps) hw' hd.entries hres with h | h
        · exact absurd h hnt
        · rw [hr]; exact h
      · rintro ⟨h1, h2⟩
        rw [hr]
        exact readPoints_tail hw' hd.entries h1 h2 hd.stuck

end TraceDB
