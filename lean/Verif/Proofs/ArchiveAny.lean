import Verif.Proofs.ArchiveCut
/-
What can be loaded from an arbitrary text.
-/
namespace TraceDB

/-! Numbers, lists and objects -/

theorem numberRead_le {max v n : Nat} {minus : Bool} (h : numberRead max minus v = some n) : n ≤ max := by
  unfold numberRead at h
  split at h
  · split at h
    · cases h; assumption
    · cases h
  · split at h
    · cases h; exact Nat.zero_le _
    · split at h
      · cases h
      · split at h
        · split at h
          · cases h; exact Nat.le_refl _
          · cases h
        · split at h
          · cases h; omega
          · cases h

theorem loadNat_some {max : Nat} {st s : LoadState} {n : Nat} (h : loadNat max st = some (n, s)) :
    n ≤ max ∧ s.arch = st.arch ∧ s.rest.length < st.rest.length := by
  unfold loadNat at h
  simp only at h
  split at h
  · cases h
  · next h1 =>
    split at h
    · cases h
    · next m h2 =>
      cases h
      refine ⟨numberRead_le h2, rfl, ?_⟩
      have e := congrArg List.length (List.takeWhile_append_dropWhile (p := isDigit) (l := afterSign (st.rest.dropWhile isSpace)))
      rw [List.length_append] at e
      have e0 := (afterSign_suffix (st.rest.dropWhile isSpace)).length_le
      have e1 := (List.dropWhile_suffix (l := st.rest) isSpace).length_le
      have e2 : 0 < ((afterSign (st.rest.dropWhile isSpace)).takeWhile isDigit).length := List.length_pos_iff.mpr h1
      show ((afterSign (st.rest.dropWhile isSpace)).dropWhile isDigit).length < _
      omega

theorem loadList_cons {α : Type} {l : Load α} {n : Nat} {st s : LoadState} {as : List α}
    (h : loadList l (n + 1) st = some (as, s)) :
    ∃ a bs s1, as = a :: bs ∧ l st = some (a, s1) ∧ loadList l n s1 = some (bs, s) := by
  obtain ⟨a, s1, h1, h⟩ := bind_some h
  obtain ⟨bs, s2, h2, h⟩ := bind_some h
  cases h
  exact ⟨a, bs, s1, rfl, h1, h2⟩

theorem loadList_length {α : Type} {l : Load α} : ∀ {n : Nat} {st s : LoadState} {as : List α},
    loadList l n st = some (as, s) → as.length = n
  | 0, _, _, _, h => by cases h; rfl
  | n + 1, _, _, _, h => by
    obtain ⟨a, bs, s1, rfl, _, h2⟩ := loadList_cons h
    rw [List.length_cons, loadList_length h2]

theorem loadList_inv {α : Type} {l : Load α} {I : LoadState → Prop} {V : α → Prop}
    (hl : ∀ st y s, I st → l st = some (y, s) → I s ∧ V y) : ∀ {n : Nat} {st s : LoadState} {as : List α}, I st →
      loadList l n st = some (as, s) → I s ∧ ∀ a ∈ as, V a
  | 0, _, _, _, hi, h => by cases h; exact ⟨hi, by simp⟩
  | n + 1, _, _, _, hi, h => by
    obtain ⟨a, bs, s1, rfl, h1, h2⟩ := loadList_cons h
    obtain ⟨g1, g2⟩ := hl _ _ _ hi h1
    obtain ⟨g3, g4⟩ := loadList_inv hl g1 h2
    exact ⟨g3, List.forall_mem_cons.mpr ⟨g2, g4⟩⟩

theorem suffix_of {α : Type} {l : Load α} (hl : Stable l) {st s : LoadState} {y : α} (h : l st = some (y, s)) :
    s.rest <:+ st.rest := (hl st.rest st.arch y s h).1

theorem suffix_len {α : Type} {l : Load α} (hl : Stable l) {st s : LoadState} {y : α} (h : l st = some (y, s)) :
    s.rest.length ≤ st.rest.length := (suffix_of hl h).length_le

theorem object_some {α : Type} {c : Cls} {l : Load α} {st s : LoadState} {y : α} (h : loadObject c l st = some (y, s)) :
    ∃ st1, l st1 = some (y, s) ∧ st1.arch.items = st.arch.items ∧ st1.rest <:+ st.rest := by
  unfold loadObject at h
  split at h
  · exact ⟨st, h, rfl, List.suffix_refl _⟩
  · obtain ⟨_, s1, h1, h⟩ := bind_some h
    obtain ⟨_, s2, h2, h⟩ := bind_some h
    obtain ⟨_, e1, _⟩ := loadNat_some h1
    obtain ⟨_, e3, _⟩ := loadNat_some h2
    have l1 : s1.rest <:+ st.rest := by have := suffix_of (Stable.nat 1) h1; exact this
    exact ⟨s2, h, by rw [e3, e1], (suffix_of (Stable.nat _) h2).trans l1⟩

/-! Point data -/

/-- Nothing numbered is added. -/
def KeepsItems {α : Type} (l : Load α) : Prop := ∀ st y s, l st = some (y, s) → s.arch.items = st.arch.items

theorem KeepsItems.nat (max : Nat) : KeepsItems (loadNat max) := fun _ _ _ h => by rw [(loadNat_some h).2.1]

theorem KeepsItems.pure {α : Type} (x : α) : KeepsItems (Pure.pure x : Load α) := fun _ _ _ h => by cases h; rfl

theorem KeepsItems.bind {α β : Type} {l : Load α} {f : α → Load β} (hl : KeepsItems l) (hf : ∀ x, KeepsItems (f x)) : KeepsItems (l >>= f) :=
  fun _ _ _ h => by
    obtain ⟨x, s1, h1, h2⟩ := bind_some h
    rw [hf x _ _ _ h2, hl _ _ _ h1]

theorem KeepsItems.list {α : Type} {l : Load α} (h : KeepsItems l) : ∀ n, KeepsItems (loadList l n)
  | 0 => KeepsItems.pure _
  | n + 1 => h.bind fun _ => (KeepsItems.list h n).bind fun _ => KeepsItems.pure _

theorem KeepsItems.object {α : Type} {l : Load α} (c : Cls) (h : KeepsItems l) : KeepsItems (loadObject c l) := fun _ _ _ e => by
  obtain ⟨st1, h1, h2, _⟩ := object_some e
  rw [h _ _ _ h1, h2]

theorem KeepsItems.char : KeepsItems loadChar := fun st y s h => by
  unfold loadChar at h
  simp only at h
  generalize (if (st.rest.dropWhile isSpace).head? = some 45 then _ else _ : Int) = v at h
  split at h
  · cases h
  · split at h
    · cases h; rfl
    · cases h

theorem KeepsItems.str : KeepsItems loadStr := fun st y s h => by
  unfold loadStr at h
  obtain ⟨⟨n, s1⟩, h1, h⟩ := Option.bind_eq_some_iff.mp h
  have e := KeepsItems.nat _ _ _ _ h1
  cases h
  exact e

theorem keeps_type : KeepsItems loadType :=
  KeepsItems.object _ ((KeepsItems.nat _).bind fun _ => (KeepsItems.nat _).bind fun _ => (KeepsItems.nat _).bind fun _ => KeepsItems.pure _)

theorem keeps_body : KeepsItems loadBody :=
  KeepsItems.object _ ((KeepsItems.nat _).bind fun _ => (KeepsItems.nat _).bind fun _ => (KeepsItems.nat _).bind fun _ =>
    ((KeepsItems.object _ ((KeepsItems.nat _).bind fun _ => (KeepsItems.nat _).bind fun _ => KeepsItems.pure _)).list _).bind fun _ =>
    ((KeepsItems.object _ ((KeepsItems.nat _).bind fun _ => (KeepsItems.nat _).bind fun _ => (KeepsItems.nat _).bind fun _ =>
      (KeepsItems.nat _).bind fun _ => (KeepsItems.nat _).bind fun _ => (KeepsItems.nat _).bind fun _ => by
        refine KeepsItems.bind ?_ fun _ => KeepsItems.pure _
        unfold loadValue
        split
        · exact (KeepsItems.char.list _).bind fun _ => KeepsItems.pure _
        · exact (KeepsItems.nat _).bind fun _ => KeepsItems.pure _)).list _).bind fun _ =>
    (((KeepsItems.nat _).bind fun _ => KeepsItems.pure _).list _).bind fun _ => KeepsItems.pure _)

theorem loadVar_sized {st s : LoadState} {v : VarInfo} (h : loadVar st = some (v, s)) : v.Sized := by
  obtain ⟨s0, h, _⟩ := object_some h
  obtain ⟨n, s1, h1, h⟩ := bind_some h
  obtain ⟨t, s2, h2, h⟩ := bind_some h
  obtain ⟨f, s3, h3, h⟩ := bind_some h
  obtain ⟨z, s4, h4, h⟩ := bind_some h
  obtain ⟨b, s5, h5, h⟩ := bind_some h
  obtain ⟨c, s6, h6, h⟩ := bind_some h
  obtain ⟨x, s7, h7, h⟩ := bind_some h
  cases h
  have hz := (loadNat_some h4).1
  unfold loadValue at h7
  split at h7
  · next hf =>
    obtain ⟨bs, s8, h8, h7⟩ := bind_some h7
    cases h7
    refine ⟨hf, ?_⟩
    rw [loadList_length h8]
    simp only [BitVec.toNat_ofNat]
    omega
  · next hf =>
    obtain ⟨u, s8, h8, h7⟩ := bind_some h7
    cases h7
    exact hf

theorem loadBody_fits {st s : LoadState} {d : Body} (h : loadBody st = some (d, s)) : d.Fits := by
  obtain ⟨s0, h, _⟩ := object_some h
  obtain ⟨ns, s1, h1, h⟩ := bind_some h
  obtain ⟨nv, s2, h2, h⟩ := bind_some h
  obtain ⟨na, s3, h3, h⟩ := bind_some h
  obtain ⟨ss, s4, h4, h⟩ := bind_some h
  obtain ⟨vs, s5, h5, h⟩ := bind_some h
  obtain ⟨as, s6, h6, h⟩ := bind_some h
  cases h
  have g1 := (loadNat_some h1).1
  have g2 := (loadNat_some h2).1
  have g3 := (loadNat_some h3).1
  have e1 := loadList_length h4
  have e2 := loadList_length h5
  have e3 := loadList_length h6
  refine ⟨?_, ?_, ?_, ?_⟩
  · show ss.length < _; omega
  · show vs.length < _; omega
  · show as.length < _; omega
  · exact (loadList_inv (I := fun _ => True) (V := fun v => v.Sized) (fun _ _ _ _ hv => ⟨trivial, loadVar_sized hv⟩) trivial h5).2

/-! Points and traces -/

/-- All numbered objects fit. -/
def ItemsFit (st : LoadState) : Prop := ∀ d ∈ st.arch.items, d.Fits

theorem ItemsFit.keep {a b : LoadState} (h : ItemsFit a) (e : b.arch.items = a.arch.items) : ItemsFit b := by
  unfold ItemsFit
  rw [e]
  exact h

theorem loadShared_fits {st s : LoadState} {d : Body} (hi : ItemsFit st) (h : loadShared st = some (d, s)) :
    ItemsFit s ∧ d.Fits := by
  unfold loadShared at h
  obtain ⟨n, s1, h1, h⟩ := bind_some h
  have e1 := KeepsItems.nat _ _ _ _ h1
  cases hd : st.arch.items[n]? with
  | some d1 =>
    simp only [hd] at h
    cases h
    exact ⟨hi.keep e1, hi d (List.mem_of_getElem? hd)⟩
  | none =>
    simp only [hd] at h
    split at h
    · obtain ⟨d1, s2, h2, h⟩ := bind_some h
      obtain ⟨_, s3, h3, h⟩ := bind_some h
      cases h
      cases h3
      have hd := loadBody_fits h2
      have e2 := keeps_body _ _ _ h2
      refine ⟨fun x hx => ?_, hd⟩
      simp only [List.mem_append, List.mem_singleton] at hx
      rcases hx with hx | hx
      · rw [e2, e1] at hx
        exact hi x hx
      · rw [hx]; exact hd
    · cases h

theorem loadPoint_fits {st s : LoadState} {p : Point} (hi : ItemsFit st) (h : loadPoint st = some (p, s)) :
    ItemsFit s ∧ p.body.Fits := by
  obtain ⟨s0, h, e0, _⟩ := object_some h
  obtain ⟨c, s1, h1, h⟩ := bind_some h
  obtain ⟨t, s2, h2, h⟩ := bind_some h
  obtain ⟨d, s3, h3, h⟩ := bind_some h
  cases h
  obtain ⟨s4, h4, e4, _⟩ := object_some h3
  exact loadShared_fits (hi.keep (by rw [e4, KeepsItems.nat _ _ _ _ h2, KeepsItems.nat _ _ _ _ h1, e0])) h4

theorem loadPoint_less {st s : LoadState} {p : Point} (h : loadPoint st = some (p, s)) :
    1 + s.rest.length ≤ st.rest.length := by
  obtain ⟨s0, h, _, e0⟩ := object_some h
  have e0 := e0.length_le
  obtain ⟨c, s1, h1, h⟩ := bind_some h
  obtain ⟨t, s2, h2, h⟩ := bind_some h
  obtain ⟨d, s3, h3, h⟩ := bind_some h
  cases h
  have g1 := (loadNat_some h1).2.2
  have g2 := (loadNat_some h2).2.2
  have g3 := suffix_len (Stable.object _ stable_shared) h3
  omega

theorem loadList_sum {α : Type} {l : Load α} {w : α → Nat}
    (hl : ∀ st y s, l st = some (y, s) → w y + s.rest.length ≤ st.rest.length) :
    ∀ {n : Nat} {st s : LoadState} {as : List α}, loadList l n st = some (as, s) →
      (as.map w).sum + s.rest.length ≤ st.rest.length
  | 0, _, _, _, h => by cases h; simp
  | n + 1, _, _, _, h => by
    obtain ⟨a, bs, s1, rfl, h1, h2⟩ := loadList_cons h
    have g1 := hl _ _ _ h1
    have g2 := loadList_sum hl h2
    rw [List.map_cons, List.sum_cons]
    omega

theorem sum_one {α : Type} (l : List α) : (l.map fun _ => 1).sum = l.length := by
  induction l with
  | nil => rfl
  | cons a l ih => simp only [List.map_cons, List.sum_cons, ih, List.length_cons]; omega

theorem loadStr_length {st s : LoadState} {n : Name} (h : loadStr st = some (n, s)) : n.length < 2 ^ 64 := by
  unfold loadStr at h
  obtain ⟨⟨k, s1⟩, h1, h⟩ := Option.bind_eq_some_iff.mp h
  have := (loadNat_some h1).1
  cases h
  simp only [List.length_append, List.length_take, List.length_replicate]
  omega

/-- The parts of a trace that was loaded. -/
theorem loadTrace_some {st s : LoadState} {t : Trace} (h : loadTrace st = some (t, s)) :
    ∃ s0 np nn nt s1 s2, s0.arch.items = st.arch.items ∧ s0.rest <:+ st.rest ∧
      np ≤ 2 ^ 64 - 1 ∧ nn ≤ 2 ^ 32 - 1 ∧ nt ≤ 2 ^ 32 - 1 ∧ loadList loadPoint np s0 = some (t.points, s1) ∧
      loadList loadStr nn s1 = some (t.names, s2) ∧ loadList loadType nt s2 = some (t.types, s) := by
  obtain ⟨s0, h, e0, l0⟩ := object_some h
  obtain ⟨np, s1, h1, h⟩ := bind_some h
  obtain ⟨nn, s2, h2, h⟩ := bind_some h
  obtain ⟨nt, s3, h3, h⟩ := bind_some h
  obtain ⟨ps, s4, h4, h⟩ := bind_some h
  obtain ⟨ns, s5, h5, h⟩ := bind_some h
  obtain ⟨ts, s6, h6, h⟩ := bind_some h
  cases h
  obtain ⟨g1, a1, _⟩ := loadNat_some h1
  obtain ⟨g2, a2, _⟩ := loadNat_some h2
  obtain ⟨g3, a3, _⟩ := loadNat_some h3
  exact ⟨s3, np, nn, nt, s4, s5, by rw [a3, a2, a1, e0],
    (((suffix_of (Stable.nat _) h3).trans (suffix_of (Stable.nat _) h2)).trans (suffix_of (Stable.nat _) h1)).trans l0, g1, g2, g3, h4, h5, h6⟩

theorem loadTrace_fits {st s : LoadState} {t : Trace} (hi : ItemsFit st) (h : loadTrace st = some (t, s)) :
    ItemsFit s ∧ t.Fits := by
  obtain ⟨s0, np, nn, nt, s1, s2, e0, _, g1, g2, g3, h4, h5, h6⟩ := loadTrace_some h
  obtain ⟨i4, f4⟩ := loadList_inv (I := ItemsFit) (V := fun p => p.body.Fits) (fun _ _ _ hi hp => loadPoint_fits hi hp)
    (hi.keep e0) h4
  have n4 := loadList_length h4
  have n5 := loadList_length h5
  have n6 := loadList_length h6
  have f5 := (loadList_inv (I := fun _ => True) (V := fun n : Name => n.length < 2 ^ 64)
    (fun _ _ _ _ hn => ⟨trivial, loadStr_length hn⟩) trivial h5).2
  exact ⟨i4.keep (by rw [keeps_type.list _ _ _ _ h6, KeepsItems.str.list _ _ _ _ h5]),
    ⟨by omega, by omega, by omega, f5, f4⟩⟩

theorem loadTrace_less {st s : LoadState} {t : Trace} (h : loadTrace st = some (t, s)) :
    t.points.length + s.rest.length ≤ st.rest.length := by
  obtain ⟨s0, np, nn, nt, s1, s2, _, l0, _, _, _, h4, h5, h6⟩ := loadTrace_some h
  have l0 := l0.length_le
  have g4 := loadList_sum (w := fun _ => 1) (fun _ _ _ hp => loadPoint_less hp) h4
  rw [sum_one] at g4
  have g5 := suffix_len (Stable.str.list _) h5
  have g6 := suffix_len (stable_type.list _) h6
  omega

/-! Names -/

/-- Names from the text; NULs only at the end of the last one, and then nothing of the text is
left. -/
def NamesFrom (ns : List Name) (rest : List U8) : Prop :=
  (∀ n ∈ ns, (0 : U8) ∉ n) ∨
    rest = [] ∧ ∃ (names : List Name) (base : Name) (k : Nat), ns = names ++ [base ++ List.replicate (k + 1) 0] ∧
      (∀ n ∈ names, (0 : U8) ∉ n) ∧ (0 : U8) ∉ base

theorem loadStr_names {st s : LoadState} {n : Name} (h0 : (0 : U8) ∉ st.rest) (h : loadStr st = some (n, s)) :
    (0 : U8) ∉ n ∨ s.rest = [] ∧ ∃ (base : Name) (k : Nat), n = base ++ List.replicate (k + 1) 0 ∧ (0 : U8) ∉ base := by
  unfold loadStr at h
  obtain ⟨⟨m, s1⟩, h1, h⟩ := Option.bind_eq_some_iff.mp h
  have hs := (Stable.nat _ st.rest st.arch m s1 h1).1
  cases h
  have hb : (0 : U8) ∉ (s1.rest.drop 1).take m := fun hm =>
    h0 (hs.mem (List.mem_of_mem_drop (List.mem_of_mem_take hm)))
  by_cases hm : m ≤ (s1.rest.drop 1).length
  · left
    have : m - (s1.rest.drop 1).length = 0 := by omega
    rw [this]
    simpa using hb
  · right
    refine ⟨List.drop_eq_nil_of_le (by omega), _, m - (s1.rest.drop 1).length - 1, ?_, hb⟩
    have : m - (s1.rest.drop 1).length - 1 + 1 = m - (s1.rest.drop 1).length := by omega
    rw [this]

theorem needs_zero {α : Type} {l : Load α} (hl : Needs l) {n : Nat} {st s : LoadState} {as : List α} (hr : st.rest = [])
    (h : loadList l n st = some (as, s)) : as = [] ∧ s = st := by
  cases n with
  | zero => cases h; exact ⟨rfl, rfl⟩
  | succ n =>
    obtain ⟨a, bs, s1, _, h1, _⟩ := loadList_cons h
    obtain ⟨r, a⟩ := st
    simp only at hr
    subst hr
    rw [hl] at h1
    cases h1

theorem no_nul_after {α : Type} {l : Load α} (hl : Stable l) {st s : LoadState} {y : α} (h0 : (0 : U8) ∉ st.rest)
    (h : l st = some (y, s)) : (0 : U8) ∉ s.rest := fun hm => h0 ((hl st.rest st.arch y s h).1.mem hm)

theorem loadNames_from : ∀ {n : Nat} {st s : LoadState} {ns : List Name}, (0 : U8) ∉ st.rest →
    loadList loadStr n st = some (ns, s) → NamesFrom ns s.rest
  | 0, _, _, _, _, h => by cases h; exact .inl (by simp)
  | n + 1, _, _, _, h0, h => by
    obtain ⟨a, bs, s1, rfl, h1, h2⟩ := loadList_cons h
    rcases loadStr_names h0 h1 with ha | ⟨hr, base, k, rfl, hb⟩
    · rcases loadNames_from (no_nul_after Stable.str h0 h1) h2 with hbs | ⟨hr, names, base, k, rfl, hn, hb⟩
      · exact .inl (List.forall_mem_cons.mpr ⟨ha, hbs⟩)
      · exact .inr ⟨hr, a :: names, base, k, rfl, List.forall_mem_cons.mpr ⟨ha, hn⟩, hb⟩
    · obtain ⟨rfl, rfl⟩ := needs_zero Needs.str hr h2
      exact .inr ⟨hr, [], base, k, rfl, by simp, hb⟩

/-- Traces whose names come from the text. -/
def TracesFrom (ts : List Trace) (rest : List U8) : Prop :=
  (∀ t ∈ ts, t.NulFree) ∨
    rest = [] ∧ ∃ (us : List Trace) (names : List Name) (base : Name) (k : Nat) (points : List Point),
      ts = us ++ [⟨names ++ [base ++ List.replicate (k + 1) 0], [], points⟩] ∧ (∀ t ∈ us, t.NulFree) ∧
      (∀ n ∈ names, (0 : U8) ∉ n) ∧ (0 : U8) ∉ base

theorem loadTrace_from {st s : LoadState} {t : Trace} (h0 : (0 : U8) ∉ st.rest) (h : loadTrace st = some (t, s)) :
    TracesFrom [t] s.rest := by
  obtain ⟨s0, np, nn, nt, s1, s2, _, l0, _, _, _, h4, h5, h6⟩ := loadTrace_some h
  have z1 : (0 : U8) ∉ s1.rest := no_nul_after (stable_point.list _) (fun hm => h0 (l0.mem hm)) h4
  rcases loadNames_from z1 h5 with hn | ⟨hr, names, base, k, e, hn, hb⟩
  · exact .inl fun u hu => by rw [List.mem_singleton.mp hu]; exact hn
  · obtain ⟨e2, rfl⟩ := needs_zero needs_type hr h6
    obtain ⟨ns, ts, ps⟩ := t
    simp only at e e2
    subst e e2
    exact .inr ⟨hr, [], names, base, k, ps, rfl, by simp, hn, hb⟩

theorem loadTraces_from : ∀ {n : Nat} {st s : LoadState} {ts : List Trace}, (0 : U8) ∉ st.rest →
    loadList loadTrace n st = some (ts, s) → TracesFrom ts s.rest
  | 0, _, _, _, _, h => by cases h; exact .inl (by simp)
  | n + 1, _, _, _, h0, h => by
    obtain ⟨a, bs, s1, rfl, h1, h2⟩ := loadList_cons h
    rcases loadTrace_from h0 h1 with ha | ⟨hr, us, names, base, k, ps, e, _, hn, hb⟩
    · have ha := ha a (by simp)
      rcases loadTraces_from (no_nul_after stable_trace h0 h1) h2 with hbs | ⟨hr, us, names, base, k, ps, rfl, hu, hn, hb⟩
      · exact .inl (List.forall_mem_cons.mpr ⟨ha, hbs⟩)
      · exact .inr ⟨hr, a :: us, names, base, k, ps, rfl, List.forall_mem_cons.mpr ⟨ha, hu⟩, hn, hb⟩
    · obtain ⟨rfl, rfl⟩ := needs_zero needs_trace hr h2
      cases us with
      | nil => exact .inr ⟨hr, [], names, base, k, ps, e, by simp, hn, hb⟩
      | cons u us => have := congrArg List.length e; simp at this

/-- What a database from any text is like. -/
theorem deserialize_some {text : List U8} {db : Db} (h : deserializeDb text = some db) :
    db = Db.fresh db.traces ∧ db.traces.length < 2 ^ 64 ∧ (db.traces.map fun t => t.points.length).sum ≤ text.length ∧
      (∀ t ∈ db.traces, t.Fits) ∧ TracesFrom db.traces [] := by
  unfold deserializeDb at h
  obtain ⟨⟨ts, s⟩, h', e⟩ := Option.bind_eq_some_iff.mp h
  clear h
  cases e
  have hc : (0 : U8) ∉ cStr text := by
    intro hm
    have := List.all_takeWhile (p := fun b : U8 => decide (b ≠ 0)) (l := text)
    rw [List.all_eq_true] at this
    simpa using this 0 hm
  have hcl : (cStr text).length ≤ text.length := (List.takeWhile_prefix _).length_le
  obtain ⟨_, s1, h1, h⟩ := bind_some h'
  obtain ⟨s2, h, e2, l2⟩ := object_some h
  obtain ⟨n, s3, h3, h⟩ := bind_some h
  have hk : KeepsItems loadHeader := KeepsItems.str.bind fun _ => (KeepsItems.nat _).bind fun _ => by
    split
    · exact KeepsItems.pure _
    · exact fun _ _ _ h => by cases h
  have hi : ItemsFit s3 := by
    have : s3.arch.items = [] := by rw [KeepsItems.nat _ _ _ _ h3, e2, hk _ _ _ h1]; rfl
    unfold ItemsFit
    rw [this]
    simp
  have l3 : s3.rest <:+ cStr text := ((suffix_of (Stable.nat _) h3).trans l2).trans (suffix_of stable_header h1)
  have hn := loadList_length h
  have hm := (loadNat_some h3).1
  refine ⟨rfl, by show ts.length < _; omega, ?_, ?_, ?_⟩
  · have := loadList_sum (w := fun t : Trace => t.points.length) (fun _ _ _ ht => loadTrace_less ht) h
    have := l3.length_le
    show (ts.map fun t => t.points.length).sum ≤ _
    omega
  · exact (loadList_inv (I := ItemsFit) (V := Trace.Fits) (fun _ _ _ hi ht => loadTrace_fits hi ht) hi h).2
  · rcases loadTraces_from (fun hz => hc (l3.mem hz)) h with h | ⟨_, h⟩
    · exact .inl h
    · exact .inr ⟨rfl, h⟩

/-! The text of a database whose last name has NULs at its end -/

/-- The last token is the string, the others have no NULs. -/
def LastStr (n : Name) (s : Save) : Prop := ∀ st, ∃ T, (s st).1 = T ++ [.str n] ∧ Clean T

theorem LastStr.seq {n : Name} {a b : Save} (ha : CleanSave a) (hb : LastStr n b) : LastStr n (a.seq b) := fun st => by
  obtain ⟨T, e, hT⟩ := hb (a st).2
  exact ⟨(a st).1 ++ T, by show (a st).1 ++ (b (a st).2).1 = _; rw [e, List.append_assoc], (ha st).append hT⟩

theorem LastStr.object {n : Name} {s : Save} (c : Cls) (h : LastStr n s) : LastStr n (saveObject c s) := fun st => by
  unfold saveObject
  split
  · exact h st
  · obtain ⟨T, e, hT⟩ := h { st with seen := c :: st.seen }
    exact ⟨.num 0 :: .num 0 :: T, by show Tok.num 0 :: Tok.num 0 :: (s _).1 = _; rw [e]; rfl, hT.num.num⟩

theorem LastStr.list {α : Type} {n : Name} {f : α → Save} {a : α} (ha : LastStr n (f a)) :
    ∀ {as : List α}, (∀ b ∈ as, CleanSave (f b)) → LastStr n (saveList f (as ++ [a]))
  | [], _ => fun st => by
    obtain ⟨T, e, hT⟩ := ha st
    exact ⟨T, by show (f a st).1 ++ [] = _; rw [e, List.append_nil], hT⟩
  | b :: as, h => LastStr.seq (h b (List.mem_cons_self ..)) (LastStr.list ha fun c hc => h c (List.mem_cons_of_mem _ hc))

theorem LastStr.nothing {n : Name} {s : Save} (h : LastStr n s) : LastStr n (s.seq Save.nil) := fun st => by
  obtain ⟨T, e, hT⟩ := h st
  exact ⟨T, by show (s st).1 ++ [] = _; rw [e, List.append_nil], hT⟩

theorem cleanSave_point (p : Point) : CleanSave (savePoint p) :=
  .object _ (.seq (.nat _) (.seq (.nat _) (.object _ fun st => by
    unfold saveShared
    simp only
    split
    · exact Clean.nil.num
    · exact (cleanSave_body _ _).num)))

theorem cleanSave_trace (t : Trace) (h : t.NulFree) : CleanSave (saveTrace t) :=
  .object _ (.seq (.nat _) (.seq (.nat _) (.seq (.nat _) (.seq (.list fun p _ => cleanSave_point p)
    (.seq (.list fun n hn st s hs => by simp at hs; rw [hs]; exact h n hn)
      (.list fun ty _ => .object _ (.seq (.nat _) (.seq (.nat _) (.nat _)))))))))

theorem lastStr_list (us : List Trace) (hu : ∀ t ∈ us, t.NulFree) (names : List Name) (hn : ∀ n ∈ names, (0 : U8) ∉ n)
    (n : Name) (points : List Point) : LastStr n (saveList saveTrace (us ++ [⟨names ++ [n], [], points⟩])) :=
  .list (f := saveTrace) (.object _ (.seq (.nat _) (.seq (.nat _) (.seq (.nat _)
    (.seq (.list fun p _ => cleanSave_point p) (.nothing (.list (f := fun n st => ([.str n], st))
      (fun _ => ⟨[], rfl, Clean.nil⟩) (fun m hm st s hs => by simp at hs; rw [hs]; exact hn m hm))))))))
    (fun t ht => cleanSave_trace t (hu t ht))

theorem cStr_nuls {P : List U8} (h : (0 : U8) ∉ P) (Q : List U8) : cStr (P ++ 0 :: Q) = P := by
  unfold cStr
  rw [List.takeWhile_append_of_pos]
  · simp
  · intro b hb
    have : b ≠ 0 := fun e => h (e ▸ hb)
    simpa using this

/-- The state after the class information of the database. -/
def dbState : ArchState := objState .traceDB .init

theorem saveTraces_toks (ts : List Trace) :
    (saveTraces ts .init).1 = .num 0 :: .num 0 :: .num ts.length :: (saveList saveTrace ts dbState).1 := rfl

theorem saveList_append {α : Type} (f : α → Save) (bs : List α) : ∀ (as : List α) (st : ArchState),
    (saveList f (as ++ bs) st).1 = (saveList f as st).1 ++ (saveList f bs (saveList f as st).2).1
  | [], _ => rfl
  | a :: as, st => by
    show (f a st).1 ++ (saveList f (as ++ bs) (f a st).2).1 = ((f a st).1 ++ (saveList f as (f a st).2).1) ++ _
    rw [saveList_append f bs as (f a st).2, List.append_assoc]
    rfl

/-- What comes before the traces. -/
def dbStart (version n : Nat) : List Tok := [.str archiveSignature, .num version, .num 0, .num 0, .num n]

/-- Loading what follows the number of traces. -/
theorem loaded_list (version : Nat) (hv : version < 2 ^ 32) (n : Nat) (hn : n < 2 ^ 64) (X : List U8) (hX : Sep X) :
    loaded (toksText (dbStart version n) ++ X) = (loadList loadTrace n ⟨X, dbState⟩).map (·.1) := by
  have e : toksText (dbStart version n) ++ X = toksText [.str archiveSignature, .num version] ++
      (32 :: decimal 0 ++ (32 :: decimal 0 ++ (32 :: decimal n ++ X))) := by
    simp [dbStart, toksText, tokText, intText]
  have s1 : Sep (32 :: decimal n ++ X) := .inr ⟨_, rfl⟩
  have s2 : Sep (32 :: decimal 0 ++ (32 :: decimal n ++ X)) := .inr ⟨_, rfl⟩
  have s3 : Sep (32 :: decimal 0 ++ (32 :: decimal 0 ++ (32 :: decimal n ++ X))) := .inr ⟨_, rfl⟩
  have h1 := (loads_header version hv .init).2 _ s3 (by decide)
  unfold loaded
  rw [e]
  refine congrArg (Option.map fun x : List Trace × LoadState => x.1) ?_
  rw [bind_of h1]
  show (loadNat 1 >>= fun _ => loadNat (2 ^ 32 - 1) >>= fun _ => loadNat (2 ^ 64 - 1) >>= fun n => loadList loadTrace n)
    ⟨_, dbState⟩ = _
  rw [bind_of (loadNat_text 0 1 (by omega) _ s2 _), bind_of (loadNat_text 0 (2 ^ 32 - 1) (by omega) _ s1 _),
    bind_of (loadNat_text n (2 ^ 64 - 1) (by omega) _ hX _)]

/-- The text up to the NULs. -/
theorem archiveText_nuls (version : Nat) (us : List Trace) (hu : ∀ t ∈ us, t.NulFree) (names : List Name)
    (hn : ∀ n ∈ names, (0 : U8) ∉ n) (base : Name) (hb : (0 : U8) ∉ base) (k : Nat) (points : List Point) :
    ∃ X, Sep X ∧ (0 : U8) ∉ X ∧ ∀ more : List Trace,
      (0 : U8) ∉ toksText (dbStart version ((us.length + 1) + more.length)) ∧
      ∃ R, 32 :: archiveText version (us ++ [⟨names ++ [base ++ List.replicate k 0], [], points⟩] ++ more) =
        toksText (dbStart version ((us.length + 1) + more.length)) ++ X ++ List.replicate k 0 ++ R ∧ (more = [] → R = []) := by
  obtain ⟨T, e, hT⟩ := lastStr_list us hu names hn (base ++ List.replicate k 0) points dbState
  refine ⟨toksText T ++ (32 :: decimal (base ++ List.replicate k 0).length ++ 32 :: base),
    toksText_sep _ (.inr ⟨_, rfl⟩), ?_, fun more => ⟨?_, ?_⟩⟩
  · intro hm
    simp only [List.mem_append, List.mem_cons] at hm
    rcases hm with hm | (hm | hm) | hm | hm
    · exact toksText_no_nul hT hm
    · exact absurd hm (by decide)
    · exact decimal_no_nul _ hm
    · exact absurd hm (by decide)
    · exact hb hm
  · refine toksText_no_nul fun s hs => ?_
    simp only [dbStart, List.mem_cons, reduceCtorEq, or_false, List.not_mem_nil] at hs
    cases hs
    decide
  · have hl : (us ++ [(⟨names ++ [base ++ List.replicate k 0], [], points⟩ : Trace)] ++ more).length =
        us.length + 1 + more.length := by simp; omega
    refine ⟨toksText (saveList saveTrace more
      (saveList saveTrace (us ++ [⟨names ++ [base ++ List.replicate k 0], [], points⟩]) dbState).2).1, ?_, ?_⟩
    · rw [archiveText_space, saveTraces_toks, saveList_append, e, hl]
      simp [dbStart, toksText, tokText]
    · rintro rfl
      rfl

theorem loadList_split {α : Type} {l : Load α} (r : Nat) : ∀ {m : Nat} {st s : LoadState} {as : List α},
    loadList l (m + r) st = some (as, s) →
      ∃ bs cs s1, as = bs ++ cs ∧ loadList l m st = some (bs, s1) ∧ loadList l r s1 = some (cs, s)
  | 0, st, s, as, h => ⟨[], as, st, rfl, rfl, by rw [Nat.zero_add] at h; exact h⟩
  | m + 1, st, s, as, h => by
    rw [Nat.add_right_comm] at h
    obtain ⟨a, bs, s1, rfl, h1, h2⟩ := loadList_cons h
    obtain ⟨xs, ys, s2, rfl, h3, h4⟩ := loadList_split r h2
    refine ⟨a :: xs, ys, s2, rfl, ?_, h4⟩
    show (l >>= fun a => loadList l m >>= fun as => pure (a :: as)) st = _
    rw [bind_of h1, bind_of h3]
    rfl

theorem deserialize_nuls {version : Nat} {ts : List Trace} {P R : List U8}
    (e : 32 :: archiveText version ts = P ++ 0 :: R) (h0 : (0 : U8) ∉ P) (caches : List _) (cap gen : Nat) :
    deserializeDb (serializeDb version ⟨ts, caches, cap, gen⟩) = (loaded P).map Db.fresh := by
  cases P with
  | nil => simp at e
  | cons b P =>
    simp only [List.cons_append, List.cons.injEq] at e
    obtain ⟨rfl, e⟩ := e
    rw [loaded_space]
    have hP : (0 : U8) ∉ P := fun h => h0 (List.mem_cons_of_mem _ h)
    unfold deserializeDb loaded serializeDb
    rw [e, List.append_assoc, List.cons_append, cStr_nuls hP]
    cases (do loadHeader; loadTraces : Load (List Trace)) ⟨P, .init⟩ with
    | none => rfl
    | some r => rfl

/-- A database whose last name has NULs at its end cannot be loaded once something follows. -/
theorem padded_lost (version : Nat) (hv : version < 2 ^ 32) (us : List Trace) (hu : ∀ t ∈ us, t.NulFree)
    (names : List Name) (hn : ∀ n ∈ names, (0 : U8) ∉ n) (base : Name) (hb : (0 : U8) ∉ base) (k : Nat) (points : List Point)
    (more : List Trace) (hm : more ≠ []) (db db' : Db)
    (hd : db.traces = us ++ [⟨names ++ [base ++ List.replicate (k + 1) 0], [], points⟩])
    (hd' : db'.traces = us ++ [⟨names ++ [base ++ List.replicate (k + 1) 0], [], points⟩] ++ more)
    (hlen : db'.traces.length < 2 ^ 64) (hr : deserializeDb (serializeDb version db) = some (Db.fresh db.traces)) :
    deserializeDb (serializeDb version db') = none := by
  obtain ⟨ts, c, cap, gen⟩ := db
  obtain ⟨ts', c', cap', gen'⟩ := db'
  simp only at hd hd' hlen hr
  subst hd hd'
  obtain ⟨X, hX, h0, hall⟩ := archiveText_nuls version us hu names hn base hb (k + 1) points
  obtain ⟨z, R, e, _⟩ := hall []
  obtain ⟨z', R', e', _⟩ := hall more
  have hl : us.length + 1 + more.length < 2 ^ 64 := by simpa [Nat.add_assoc, Nat.add_comm, Nat.add_left_comm] using hlen
  have nn : ∀ n, (0 : U8) ∉ toksText (dbStart version n) → (0 : U8) ∉ toksText (dbStart version n) ++ X := fun n hz hm => by
    rcases List.mem_append.mp hm with hm | hm
    · exact hz hm
    · exact h0 hm
  rw [List.append_nil] at e
  have split : ∀ A R : List U8, A ++ X ++ List.replicate (k + 1) 0 ++ R = (A ++ X) ++ 0 :: (List.replicate k 0 ++ R) :=
    fun A R => by simp [List.replicate_succ]
  have e := e.trans (split _ _)
  have e' := e'.trans (split _ _)
  rw [deserialize_nuls e (nn _ z), loaded_list version hv _ (by simp at hl ⊢; omega) X hX] at hr
  rw [deserialize_nuls e' (nn _ z'), loaded_list version hv _ hl X hX]
  simp only [List.length_nil, Nat.add_zero] at hr
  cases h1 : loadList loadTrace (us.length + 1 + more.length) ⟨X, dbState⟩ with
  | none => rfl
  | some r =>
    exfalso
    obtain ⟨xs, s⟩ := r
    obtain ⟨bs, cs, s1, _, h2, h3⟩ := loadList_split more.length h1
    rw [h2] at hr
    have hb' : bs = us ++ [⟨names ++ [base ++ List.replicate (k + 1) 0], [], points⟩] := by
      have := congrArg (Option.map Db.traces) hr
      simpa [Db.fresh] using this
    have hrest : s1.rest = [] := by
      rcases loadTraces_from h0 h2 with h | ⟨h, _⟩
      · rw [hb'] at h
        exact absurd (by simp [List.replicate_succ]) (h _ (List.mem_append_right _ (List.mem_singleton.mpr rfl)) _
          (List.mem_append_right _ (List.mem_singleton.mpr rfl)))
      · exact h
    have h4 := (needs_zero needs_trace hrest h3).1
    have h5 := loadList_length h3
    rw [h4] at h5
    exact hm (List.length_eq_zero_iff.mp h5.symm)

end TraceDB
