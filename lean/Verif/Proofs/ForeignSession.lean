import Verif.Spec.ForeignSession
import Verif.Props.ForeignAdd
import Verif.Proofs.Process
import Verif.Proofs.LispObjects
/-
Sessions byte by byte.
-/
namespace TraceDB

theorem MemoryShort.bind {α β : Type} {r : Res α} (h : MemoryShort r) (f : α → Res β) : MemoryShort (r >>= f) := by
  rcases h with h | h | h <;> rw [h]
  · exact .inl (resThrow_bind _ _)
  · exact .inr (.inl (resThrow_bind _ _))
  · exact .inr (.inr (resUb_bind _ _))

/-! Keeping bytes -/

theorem Keeps.mono {m m' : BMem} {B B' : List (Nat × Nat)} {a : Nat} {bs : List U8} (hB : ∀ x, InUse B x → InUse B' x)
    (hm : ∀ x, InUse B x → m' x = m x) (h : FState.Keeps ⟨m, B⟩ a bs) : FState.Keeps ⟨m', B'⟩ a bs :=
  ⟨h.pos, h.bound, fun x hx => hB x (h.used x hx), by
    have := h.bytes
    rw [← this]
    rw [this]
    exact (BMem.get_congr fun x hx => hm x (h.used x hx)).trans this⟩

theorem Kept.mono {m m' : BMem} {B B' : List (Nat × Nat)} {p : TraceAt} {t : Trace} {ps : List Point}
    (hB : ∀ x, InUse B x → InUse B' x) (hm : ∀ x, InUse B x → m' x = m x) (h : p.Kept t ps ⟨m, B⟩) : p.Kept t ps ⟨m', B'⟩ :=
  ⟨fun i n hn => Keeps.mono hB hm (h.name i n hn), fun q hq v hv bs e => Keeps.mono hB hm (h.blob q hq v hv bs e)⟩

theorem InUse.sub {B B' : List (Nat × Nat)} (h : ∀ b ∈ B, b ∈ B') {x : Nat} (hx : InUse B x) : InUse B' x := by
  obtain ⟨b, hb, hr⟩ := hx
  exact ⟨b, h b hb, hr⟩

/-- Blocks that are new. -/
def newBlocks (s s' : FState) : List (Nat × Nat) := s'.blocks.drop s.blocks.length

theorem OnlyNew.newBlocks_eq {s s' : FState} (h : OnlyNew s s') : s'.blocks = s.blocks ++ newBlocks s s' := by
  obtain ⟨new, e, _⟩ := h.blocks
  unfold newBlocks
  rw [e, List.drop_left]

theorem newBlocks_sub {s s' : FState} : ∀ b ∈ newBlocks s s', b ∈ s'.blocks := fun _ hb => List.mem_of_mem_drop hb

theorem newBlocks_left {s s1 s2 : FState} (h1 : OnlyNew s s1) (h2 : OnlyNew s1 s2) :
    newBlocks s s2 = newBlocks s s1 ++ newBlocks s1 s2 := by
  have e1 := h1.newBlocks_eq
  have e2 := h2.newBlocks_eq
  have e3 : s2.blocks = s.blocks ++ (newBlocks s s1 ++ newBlocks s1 s2) := by rw [e2, ← List.append_assoc, ← e1]
  show s2.blocks.drop s.blocks.length = _
  rw [e3, List.drop_left]

/-- Kept in new blocks. -/
def KeepsNew (s s' : FState) (a : Nat) (bs : List U8) : Prop := FState.Keeps ⟨s'.mem, newBlocks s s'⟩ a bs

theorem KeepsNew.left {s s1 s2 : FState} {a : Nat} {bs : List U8} (h : KeepsNew s s1 a bs) (h1 : OnlyNew s s1) (h2 : OnlyNew s1 s2) :
    KeepsNew s s2 a bs :=
  Keeps.mono (fun x hx => by rw [newBlocks_left h1 h2]; exact hx.append_left) (fun x hx => h2.same x (InUse.sub newBlocks_sub hx)) h

theorem KeepsNew.right {s s1 s2 : FState} {a : Nat} {bs : List U8} (h : KeepsNew s1 s2 a bs) (h1 : OnlyNew s s1) (h2 : OnlyNew s1 s2) :
    KeepsNew s s2 a bs :=
  Keeps.mono (fun x hx => InUse.sub (fun b hb => by rw [newBlocks_left h1 h2]; exact List.mem_append_right _ hb) hx) (fun _ _ => rfl) h

theorem keepB_ok {pl : Placing} (hpl : pl.Sound) (bs : List U8) (s : FState) :
    keepB pl bs s = .throw .alloc ∨ ∃ a s', keepB pl bs s = .ok (a, s') ∧ OnlyNew s s' ∧ KeepsNew s s' a bs := by
  obtain ⟨h1, h2⟩ := FState.alloc_new hpl bs.length false s
  unfold keepB
  generalize hg : s.alloc pl bs.length false = g at h1 h2
  obtain ⟨a, s1⟩ := g
  dsimp only at h1 h2 ⊢
  rcases h2 with h2 | ⟨hb, hpos, hlt, hfree⟩
  · exact .inl (if_pos h2)
  · rw [if_neg (by omega)]
    right
    have hn : OnlyNew s ⟨s1.mem.put a bs, s1.blocks⟩ := h1.write fun x hx => by
      refine BMem.put_other fun hr => ?_
      rcases hx with hx | hx
      · exact hfree x hr hx
      · refine hx ⟨(a, bs.length), ?_, hr⟩
        rw [hb]
        exact List.mem_append_right _ (List.mem_singleton.mpr rfl)
    refine ⟨a, _, rfl, hn, hpos, hlt, fun x hx => ⟨(a, bs.length), ?_, hx⟩, BMem.get_put _ _ _⟩
    unfold newBlocks
    dsimp only
    rw [hb, List.drop_left]
    exact List.mem_singleton.mpr rfl

theorem keepAllB_ok {pl : Placing} (hpl : pl.Sound) : ∀ (bss : List (List U8)) (s : FState),
    keepAllB pl bss s = .throw .alloc ∨ ∃ as s', keepAllB pl bss s = .ok (as, s') ∧ OnlyNew s s' ∧
      ∀ (i : Nat) bs, bss[i]? = some bs → ∃ a, as[i]? = some a ∧ KeepsNew s s' a bs
  | [], s => .inr ⟨[], s, rfl, OnlyNew.refl s, fun i bs h => by simp at h⟩
  | bs :: bss, s => by
    unfold keepAllB
    rcases keepB_ok hpl bs s with e | ⟨a, s1, e1, n1, k1⟩
    · left; rw [e]; exact resThrow_bind _ _
    rw [e1, Res.ok_bind]
    dsimp only
    rcases keepAllB_ok hpl bss s1 with e | ⟨as, s2, e2, n2, k2⟩
    · left; rw [e]; exact resThrow_bind _ _
    rw [e2, Res.ok_bind]
    refine .inr ⟨a :: as, s2, rfl, n1.trans n2, fun i b hb => ?_⟩
    cases i with
    | zero =>
      cases hb
      exact ⟨a, rfl, k1.left n1 n2⟩
    | succ i =>
      obtain ⟨x, hx, hk⟩ := k2 i b hb
      exact ⟨x, hx, hk.right n1 n2⟩

theorem keepTraceB_ok {pl : Placing} (hpl : pl.Sound) (t : Trace) (s : FState) :
    keepTraceB pl t s = .throw .alloc ∨ ∃ p s', keepTraceB pl t s = .ok (p, s') ∧ OnlyNew s s' ∧
      p.Kept t t.points ⟨s'.mem, newBlocks s s'⟩ := by
  unfold keepTraceB
  rcases keepAllB_ok hpl (t.names.map (· ++ [0])) s with e | ⟨ns, s1, e1, n1, k1⟩
  · left; rw [e]; exact resThrow_bind _ _
  rw [e1, Res.ok_bind]
  dsimp only
  rcases keepAllB_ok hpl (t.blobVars.map fun v => v.blobBytes.getD []) s1 with e | ⟨bs, s2, e2, n2, k2⟩
  · left; rw [e]; exact resThrow_bind _ _
  rw [e2, Res.ok_bind]
  refine .inr ⟨_, s2, rfl, n1.trans n2, fun i n hn => ?_, fun p hp v hv b hb => ?_⟩
  · obtain ⟨a, ha, hk⟩ := k1 i (n ++ [0]) (by rw [List.getElem?_map, hn]; rfl)
    dsimp only
    rw [ha]
    exact hk.left n1 n2
  · have hbb : v.blobBytes = some b := by unfold VarInfo.blobBytes; rw [hb]
    have hmem : v ∈ t.blobVars := by
      unfold Trace.blobVars
      exact List.mem_filter.mpr ⟨List.mem_flatMap.mpr ⟨p, hp, hv⟩, by rw [hbb]; rfl⟩
    have hlt := List.idxOf_lt_length_of_mem hmem
    have hget : t.blobVars[t.blobVars.idxOf v]? = some v := by
      rw [List.getElem?_eq_getElem hlt, List.getElem_idxOf hlt]
    obtain ⟨a, ha, hk⟩ := k2 (t.blobVars.idxOf v) b (by rw [List.getElem?_map, hget]; simp [hbb])
    dsimp only
    rw [ha]
    exact hk.right n1 n2

theorem keepTracesB_ok {pl : Placing} (hpl : pl.Sound) : ∀ (ts : List Trace) (s : FState),
    keepTracesB pl ts s = .throw .alloc ∨ ∃ ps s', keepTracesB pl ts s = .ok (ps, s') ∧ OnlyNew s s' ∧ ps.length = ts.length ∧
      ∀ (i : Nat) t p, ts[i]? = some t → ps[i]? = some p → p.Kept t t.points ⟨s'.mem, newBlocks s s'⟩
  | [], s => .inr ⟨[], s, rfl, OnlyNew.refl s, rfl, fun i t p h => by simp at h⟩
  | t :: ts, s => by
    unfold keepTracesB
    rcases keepTraceB_ok hpl t s with e | ⟨p, s1, e1, n1, k1⟩
    · left; rw [e]; exact resThrow_bind _ _
    rw [e1, Res.ok_bind]
    dsimp only
    rcases keepTracesB_ok hpl ts s1 with e | ⟨ps, s2, e2, n2, l2, k2⟩
    · left; rw [e]; exact resThrow_bind _ _
    rw [e2, Res.ok_bind]
    refine .inr ⟨p :: ps, s2, rfl, n1.trans n2, by simp [l2], fun i u q hu hq => ?_⟩
    cases i with
    | zero =>
      cases hu; cases hq
      exact Kept.mono (fun x hx => by rw [newBlocks_left n1 n2]; exact hx.append_left)
        (fun x hx => n2.same x (InUse.sub newBlocks_sub hx)) k1
    | succ i =>
      exact Kept.mono (fun x hx => InUse.sub (fun b hb => by rw [newBlocks_left n1 n2]; exact List.mem_append_right _ hb) hx)
        (fun _ _ => rfl) (k2 i u q hu hq)

/-! Databases -/

theorem Db.addTrace_holds (grow : Nat → Nat) (db : Db) (t : Trace) :
    (db.addTrace grow t).traces = db.traces ++ [t] ∧
    ((db.addTrace grow t).gen = db.gen ∧ (db.addTrace grow t).caches = db.caches ++ [[]] ∨
     (db.addTrace grow t).gen ≠ db.gen ∧ (db.addTrace grow t).caches = (db.traces ++ [t]).map fun _ => []) := by
  unfold Db.addTrace
  split
  · exact ⟨rfl, .inl ⟨rfl, rfl⟩⟩
  · exact ⟨rfl, .inr ⟨by dsimp only; omega, rfl⟩⟩

/-- What settling does: the traces that were there stay where they are, or all get new places. -/
theorem settleB_add {μ σ : Type} {pl : Placing} (hpl : pl.Sound) (grow : Nat → Nat) {x : FsState μ σ} {y : FsMeant μ σ}
    (h : x.Holds y) (t : Trace) (ms : List μ) (mem : FState) (hn : OnlyNew x.mem mem) :
    MemoryShort (settleB pl x ⟨x.d.db.addTrace grow t, ms⟩ mem) ∨
    ∃ x', settleB pl x ⟨x.d.db.addTrace grow t, ms⟩ mem = .ok x' ∧ x'.Holds ⟨y.traces ++ [t], ms, y.s⟩ := by
  obtain ⟨ht, hg⟩ := Db.addTrace_holds grow x.d.db t
  unfold settleB
  rcases hg with ⟨hg, hc⟩ | ⟨hg, hc⟩
  · rw [if_pos hg]
    dsimp only
    rw [ht, List.drop_left]
    rcases keepTracesB_ok hpl [t] mem with e | ⟨ps, mem', e, n, l, k⟩
    · left; rw [e]; exact .inr (.inl (resThrow_bind _ _))
    rw [e, Res.ok_bind]
    refine .inr ⟨_, rfl, ?_⟩
    refine ⟨by dsimp only; rw [ht, h.traces], rfl, h.s, ?_, ?_, ?_, ?_, ?_⟩
    · intro b hb
      rcases List.mem_append.mp hb with hb | hb
      · dsimp only
        rw [(hn.trans n).newBlocks_eq]
        exact List.mem_append_left _ (h.owned b hb)
      · exact List.mem_of_mem_drop hb
    · dsimp only; rw [ht, List.length_append, List.length_append, h.places, l]
    · dsimp only; rw [ht, hc, List.length_append, List.length_append, h.caches]; rfl
    · intro i u p hu hp
      dsimp only at hu hp ⊢
      rw [ht] at hu
      by_cases hi : i < x.d.db.traces.length
      · rw [List.getElem?_append_left hi] at hu
        rw [List.getElem?_append_left (by rw [h.places]; exact hi)] at hp
        exact Kept.mono (fun a ha => ha.append_left) (fun a ha => (hn.trans n).same a (InUse.sub h.owned ha)) (h.kept i u p hu hp)
      · rw [List.getElem?_append_right (by omega)] at hu
        rw [List.getElem?_append_right (by rw [h.places]; omega), h.places] at hp
        exact Kept.mono (fun a ha => InUse.sub (fun b hb => List.mem_append_right _ hb) ha) (fun _ _ => rfl) (k _ u p hu hp)
    · intro i u c hu hcc
      dsimp only at hu hcc
      rw [ht] at hu
      rw [hc] at hcc
      by_cases hi : i < x.d.db.traces.length
      · rw [List.getElem?_append_left hi] at hu
        rw [List.getElem?_append_left (by rw [h.caches]; exact hi)] at hcc
        exact h.cache i u c hu hcc
      · rw [List.getElem?_append_right (by rw [h.caches]; omega)] at hcc
        have := List.mem_of_getElem? hcc
        rw [List.mem_singleton] at this
        subst this
        intro e he
        cases he
  · rw [if_neg hg]
    dsimp only
    rw [ht]
    rcases keepTracesB_ok hpl (x.d.db.traces ++ [t]) mem with e | ⟨ps, mem', e, n, l, k⟩
    · left; rw [e]; exact .inr (.inl (resThrow_bind _ _))
    rw [e, Res.ok_bind]
    refine .inr ⟨_, rfl, ?_⟩
    refine ⟨by dsimp only; rw [ht, h.traces], rfl, h.s, newBlocks_sub, by dsimp only; rw [ht, l], by dsimp only; rw [ht, hc]; simp, ?_, ?_⟩
    · intro i u p hu hp
      dsimp only at hu hp ⊢
      rw [ht] at hu
      exact k i u p hu hp
    · intro i u c hu hcc
      dsimp only at hu hcc
      rw [hc, List.getElem?_map, Option.map_eq_some_iff] at hcc
      obtain ⟨_, _, rfl⟩ := hcc
      intro e he
      cases he

/-- Settling without an addition. -/
theorem settleB_same {μ σ : Type} {pl : Placing} {x : FsState μ σ} {y : FsMeant μ σ}
    (h : x.Holds y) (mem : FState) (hn : OnlyNew x.mem mem) :
    ∃ x', settleB pl x x.d mem = .ok x' ∧ x'.Holds y := by
  unfold settleB
  rw [if_pos rfl, List.drop_length]
  refine ⟨_, rfl, h.traces, h.metadata, h.s, ?_, ?_, h.caches, ?_, h.cache⟩
  · intro b hb
    rcases List.mem_append.mp hb with hb | hb
    · dsimp only
      rw [hn.newBlocks_eq]
      exact List.mem_append_left _ (h.owned b hb)
    · exact List.mem_of_mem_drop hb
  · dsimp only; rw [List.append_nil]; exact h.places
  · intro i u p hu hp
    dsimp only at hu hp ⊢
    rw [List.append_nil] at hp
    exact Kept.mono (fun a ha => ha.append_left) (fun a ha => hn.same a (InUse.sub h.owned ha)) (h.kept i u p hu hp)

/-- New memory does not matter. -/
theorem FsState.Holds.grown {μ σ : Type} {x : FsState μ σ} {y : FsMeant μ σ} (h : x.Holds y) {mem : FState} (hn : OnlyNew x.mem mem) :
    FsState.Holds { x with mem := mem } y :=
  ⟨h.traces, h.metadata, h.s, fun b hb => by
      dsimp only
      rw [hn.newBlocks_eq]
      exact List.mem_append_left _ (h.owned b hb), h.places, h.caches,
    fun i t p ht hp => Kept.mono (fun _ ha => ha) (fun a ha => hn.same a (InUse.sub h.owned ha)) (h.kept i t p ht hp), h.cache⟩

/-! Calls -/

theorem takes_u64 (v : U64) : FTy.pointer.takes (v.toNat : Int) = true := by
  unfold FTy.takes
  rw [Bool.and_eq_true]
  have := v.isLt
  exact ⟨decide_eq_true (by omega), decide_eq_true (by show (v.toNat : Int) < 2 ^ 64; omega)⟩

theorem callGetTraceB_ok {μ σ : Type} (w : FsWorld σ) (junk : List U64) (d : LispDb μ) (i : Nat)
    (hlen : d.db.traces.length < 2 ^ 32) (hi : i < d.db.traces.length) : callGetTraceB w junk d i = .ok i := by
  have hn : (nTracesApi d.db).toNat = d.db.traces.length := by
    unfold nTracesApi
    rw [BitVec.toNat_ofNat]
    exact Nat.mod_eq_of_lt hlen
  unfold callGetTraceB
  rw [hn, if_pos hi]
  obtain ⟨slots, hs⟩ := (C108_calls_taken .getTrace [(w.db.toNat : Int), (i : Int)] junk).mpr ⟨rfl, by
    intro x hx
    simp only [CFun.imported, List.zip_cons_cons, List.zip_nil_right, List.mem_cons, List.not_mem_nil, or_false] at hx
    rcases hx with rfl | rfl
    · exact takes_u64 w.db
    · unfold FTy.takes
      rw [Bool.and_eq_true]
      exact ⟨decide_eq_true (by dsimp only; omega), decide_eq_true (by show (i : Int) < 2 ^ 32; omega)⟩⟩
  have hp := C108_arguments .getTrace _ junk slots hs (fun h => by cases h)
  rw [hs]
  dsimp only
  rw [hp]
  dsimp only
  rw [Int.toNat_natCast]

theorem FsState.Holds.at {μ σ : Type} {x : FsState μ σ} {y : FsMeant μ σ} (h : x.Holds y) {i : Nat} {t : Trace}
    (hi : y.traces[i]? = some t) : ∃ p c, x.trace i = .ok (t, p, c) ∧ x.d.db.traces[i]? = some t ∧ x.places[i]? = some p ∧
      x.d.db.caches[i]? = some c := by
  have ht : x.d.db.traces[i]? = some t := by rw [h.traces]; exact hi
  obtain ⟨hlt, _⟩ := List.getElem?_eq_some_iff.mp ht
  have hp := List.getElem?_eq_getElem (l := x.places) (i := i) (by rw [h.places]; exact hlt)
  have hc := List.getElem?_eq_getElem (l := x.d.db.caches) (i := i) (by rw [h.caches]; exact hlt)
  refine ⟨_, _, ?_, ht, hp, hc⟩
  unfold FsState.trace
  rw [ht, hp, hc]

theorem FsState.Holds.keptAll {μ σ : Type} {x : FsState μ σ} {y : FsMeant μ σ} (h : x.Holds y) {i : Nat} {t : Trace} {p : TraceAt}
    (ht : x.d.db.traces[i]? = some t) (hp : x.places[i]? = some p) : p.Kept t t.points x.mem :=
  Kept.mono (m' := x.mem.mem) (B' := x.mem.blocks) (fun _ ha => InUse.sub h.owned ha) (fun _ _ => rfl) (h.kept i t p ht hp)

theorem takes_string (n : Nat) (h : n < 2 ^ 64) : FTy.string.takes (n : Int) = true := by
  unfold FTy.takes
  rw [Bool.and_eq_true]
  exact ⟨decide_eq_true (by omega), decide_eq_true (by show (n : Int) < 2 ^ 64; omega)⟩

theorem takes_uint64 (n : Nat) (h : n < 2 ^ 64) : FTy.uint64.takes (n : Int) = true := by
  unfold FTy.takes
  rw [Bool.and_eq_true]
  exact ⟨decide_eq_true (by omega), decide_eq_true (by show (n : Int) < 2 ^ 64; omega)⟩

theorem takes_int (n : Nat) (h : n < 2 ^ 31) : FTy.int.takes (n : Int) = true := by
  unfold FTy.takes
  rw [Bool.and_eq_true]
  exact ⟨decide_eq_true (by omega), decide_eq_true (by omega)⟩

theorem addTrace_taken (db : U64) (a timeout k : Nat) (junk : List U64) (ha : a < 2 ^ 64) (ht : timeout < 2 ^ 31) (hk : k < 2 ^ 64) :
    ∃ slots, lispCall CFun.addTrace.imported.2 [(db.toNat : Int), (a : Int), (timeout : Int), (k : Int)] junk = some slots ∧
      cParams CFun.addTrace.declared.2 slots = some [(db.toNat : Int), (a : Int), (timeout : Int), (k : Int)] := by
  obtain ⟨slots, hs⟩ := (C108_calls_taken .addTrace [(db.toNat : Int), (a : Int), (timeout : Int), (k : Int)] junk).mpr ⟨rfl, by
    intro x hx
    simp only [CFun.imported, List.zip_cons_cons, List.zip_nil_right, List.mem_cons, List.not_mem_nil, or_false] at hx
    rcases hx with hx | hx | hx | hx <;> rw [hx]
    · exact takes_u64 db
    · exact takes_string a ha
    · exact takes_int timeout ht
    · exact takes_uint64 k hk⟩
  refine ⟨slots, hs, C108_arguments .addTrace _ junk slots hs fun _ v hv => ?_⟩
  simp only [List.mem_cons, List.not_mem_nil, or_false] at hv
  rcases hv with hv | hv | hv | hv <;> rw [hv] <;> exact Int.natCast_nonneg _

theorem addTraceC_ok {μ σ : Type} (w : FsWorld σ) (d : LispDb μ) (m : μ) (db : Int) (a timeout k : Nat) (mem : BMem) (path : List U8)
    (h : readStringB mem a = .ok path) : addTraceC w d m [db, (a : Int), (timeout : Int), (k : Int)] mem =
      d.add w.grow w.env (.trace (w.files path timeout) (BitVec.ofNat 64 k) m) := by
  unfold addTraceC
  dsimp only
  rw [Int.toNat_natCast, Int.toNat_natCast, Int.toNat_natCast, h, Res.ok_bind]

theorem callAddTraceB_eq {μ σ : Type} (w : FsWorld σ) (junk : List U64) (d : LispDb μ) (m : μ) (args params : List Int) (mem : BMem)
    (slots : List U64) (hs : lispCall CFun.addTrace.imported.2 args junk = some slots)
    (hp : cParams CFun.addTrace.declared.2 slots = some params) : callAddTraceB w junk d m args mem = addTraceC w d m params mem := by
  unfold callAddTraceB
  rw [hs]
  dsimp only
  rw [hp]

theorem callAddTraceB_ok {μ σ : Type} (w : FsWorld σ) (junk : List U64) (d : LispDb μ) (m : μ) (a timeout k : Nat) (mem : BMem)
    (path : List U8) (ha : a < 2 ^ 64) (ht : timeout < 2 ^ 31) (hk : k < 2 ^ 64) (h : readStringB mem a = .ok path) :
    callAddTraceB w junk d m [(w.db.toNat : Int), (a : Int), (timeout : Int), (k : Int)] mem =
      d.add w.grow w.env (.trace (w.files path timeout) (BitVec.ofNat 64 k) m) := by
  obtain ⟨slots, hs, hp⟩ := addTrace_taken w.db a timeout k junk ha ht hk
  rw [callAddTraceB_eq w junk d m _ _ mem slots hs hp]
  exact addTraceC_ok w d m _ a timeout k mem path h

theorem addFileB_ok {μ σ : Type} (w : FsWorld σ) (hpl : w.pl.Sound) (junk : List U64) (d : LispDb μ) (path : List U8)
    (timeout k : Nat) (m : μ) (mem : FState) (htimeout : timeout < 2 ^ 31) (hk : k < 2 ^ 64) :
    addFileB w junk d path timeout k m mem = .throw .lisp ∨
    ∃ mem', OnlyNew mem mem' ∧ addFileB w junk d path timeout k m mem =
      (d.add w.grow w.env (.trace (w.files (cStr path) timeout) (BitVec.ofNat 64 k) m) >>= fun d' => .ok (d', mem')) := by
  have hneg : ¬ ((timeout : Int) < 0 ∨ (k : Int) < 0) := by
    intro h
    rcases h with h | h
    · exact absurd (Int.natCast_nonneg timeout) (Int.not_le.mpr h)
    · exact absurd (Int.natCast_nonneg k) (Int.not_le.mpr h)
  unfold addFileB
  rw [if_neg hneg]
  rcases lispStringAllocB_ok hpl path mem with e | ⟨a, mem1, e, hpos, hlt, n, r⟩
  · left; rw [e]; exact resThrow_bind _ _
  right
  refine ⟨mem1, n, ?_⟩
  rw [e, Res.ok_bind]
  dsimp only
  rw [callAddTraceB_ok w junk d m a timeout k mem1.mem (cStr path) hlt htimeout hk (r mem1.mem fun _ _ _ => rfl)]
  rfl

/-! Queries -/

theorem filterPoints_decide (ps : List Point) (mask stmt : U64) :
    filterPoints ps mask stmt = ps.filter fun p => p.statement &&& mask = stmt := by
  unfold filterPoints
  refine congrArg (fun f => ps.filter f) (funext fun p => ?_)
  rw [Bool.eq_iff_iff]
  simp

theorem getPoints_cache {t : Trace} {cache : PointsCache} (hc : ∀ e ∈ cache, e.2 = t.points.filter fun p => p.statement &&& e.1.1 = e.1.2)
    (mask stmt : U64) : ∀ e ∈ (getPoints t.points cache mask stmt).2, e.2 = t.points.filter fun p => p.statement &&& e.1.1 = e.1.2 := by
  unfold getPoints
  split
  · exact hc
  · intro e he
    rcases List.mem_cons.mp he with rfl | he
    · exact filterPoints_decide t.points mask stmt
    · exact hc e he

theorem lispQuery_keeps {σ : Type} {env : Env} {pick : U32 → Nat → Nat} {ev : Evaluator σ} {t : Trace} {q : LQuery}
    {cache cache' : PointsCache} {s s' : σ} {l : List LPoint}
    (hc : ∀ e ∈ cache, e.2 = t.points.filter fun p => p.statement &&& e.1.1 = e.1.2)
    (h : lispQuery env pick ev t q cache s = .ok (l, cache', s')) :
    ∀ e ∈ cache', e.2 = t.points.filter fun p => p.statement &&& e.1.1 = e.1.2 := by
  unfold lispQuery at h
  obtain ⟨types, _, h⟩ := Res.bind_eq_ok.mp h
  obtain ⟨fvs, _, h⟩ := Res.bind_eq_ok.mp h
  obtain ⟨⟨mask, stmt⟩, _, h⟩ := Res.bind_eq_ok.mp h
  obtain ⟨⟨rs, c, s1⟩, h1, h⟩ := Res.bind_eq_ok.mp h
  obtain ⟨ps, _, h⟩ := Res.bind_eq_ok.mp h
  have hcc : c = cache' := by
    split at h <;> cases h <;> rfl
  subst hcc
  unfold queryTrace query at h1
  dsimp only at h1
  obtain ⟨⟨rs1, c1, s2⟩, h2, h3⟩ := Res.bind_eq_ok.mp h1
  obtain ⟨⟨rs2, s3⟩, _, h4⟩ := Res.bind_eq_ok.mp h2
  cases h3
  cases h4
  exact getPoints_cache hc mask stmt

theorem lookup_cache {cache : PointsCache} : ∀ {k : U64 × U64} {ps : List Point}, cache.lookup k = some ps → (k, ps) ∈ cache := by
  induction cache with
  | nil => intro k ps h; cases h
  | cons e cache ih =>
    intro k ps h
    obtain ⟨k', ps'⟩ := e
    rw [List.lookup_cons] at h
    split at h
    · rename_i hk
      cases h
      rw [eq_of_beq hk]
      exact List.mem_cons_self
    · exact List.mem_cons_of_mem _ (ih h)

theorem cache_filterOk {t : Trace} {cache : PointsCache} (hc : ∀ e ∈ cache, e.2 = t.points.filter fun p => p.statement &&& e.1.1 = e.1.2) :
    FilterCacheOk t.points cache ∧ CacheOf t cache := by
  refine ⟨fun k ps hk => ?_, fun e he p hp => ?_⟩
  · rw [filterPoints_decide]
    exact hc _ (lookup_cache hk)
  · rw [hc e he] at hp
    exact (List.mem_filter.mp hp).1

/-- A result that does not depend on earlier queries is the result. -/
theorem lispQuery_anyCache {σ : Type} {env : Env} {pick : U32 → Nat → Nat} {ev : Evaluator σ} {t : Trace} {q : LQuery}
    {cache c : PointsCache} {s s' : σ} {l : List LPoint}
    (hc : ∀ e ∈ cache, e.2 = t.points.filter fun p => p.statement &&& e.1.1 = e.1.2)
    (h : lispQuery env pick ev t q [] s = .ok (l, c, s')) :
    ∃ cache', lispQuery env pick ev t q cache s = .ok (l, cache', s') := by
  have hr := lispQuery_cache ⟨fun n => n, env, pick⟩ ev t q cache (cache_filterOk hc).1 s
  dsimp only at hr
  rw [h] at hr
  generalize lispQuery env pick ev t q cache s = r at hr
  cases r with
  | ok r =>
    obtain ⟨l1, c1, s1⟩ := r
    obtain ⟨h1, _, h3⟩ := hr
    dsimp only at h1 h3
    subst h1 h3
    exact ⟨c1, rfl⟩
  | throw e => cases hr
  | abort => cases hr
  | ub k => cases hr
  | hang => cases hr

/-! Expressions have one meaning -/

mutual
theorem SexpTree.unique {names : List Nat} : ∀ {s : SExp} {p p' : Pred}, SexpTree names s p → SexpTree names s p' → p = p'
  | _, _, p', .nat (n := n), h => by
    generalize hs : SExp.int n.toNat = s at h
    cases h with
    | nat =>
      rename_i n'
      have h1 : (n.toNat : Int) = (n'.toNat : Int) := SExp.int.inj hs
      rw [BitVec.eq_of_toNat_eq (Int.ofNat.inj h1)]
    | negative hn =>
      rename_i n'
      have h1 : (n.toNat : Int) = n'.toInt := SExp.int.inj hs
      exact absurd (h1 ▸ Int.natCast_nonneg n.toNat) (Int.not_le.mpr hn)
    | float => cases hs
    | var => cases hs
    | call => cases hs
  | _, _, p', .negative (n := n) hn, h => by
    generalize hs : SExp.int n.toInt = s at h
    cases h with
    | nat =>
      rename_i n'
      have h1 : n.toInt = (n'.toNat : Int) := SExp.int.inj hs
      exact absurd (h1 ▸ Int.natCast_nonneg n'.toNat) (Int.not_le.mpr hn)
    | negative hn =>
      rename_i n'
      have h1 : n.toInt = n'.toInt := SExp.int.inj hs
      rw [BitVec.eq_of_toInt_eq h1]
    | float => cases hs
    | var => cases hs
    | call => cases hs
  | _, _, _, .float, h => by cases h; rfl
  | _, _, _, .var (x := x) (i := i) hx, h => by
    cases h with
    | var hx' => rw [IsVar.unique hx hx']
  | _, _, _, .call hk hl hs, h => by
    cases h with
    | call hk' hl' hs' =>
      rw [hk] at hk'
      cases hk'
      rw [SexpTrees.unique hs hs']
theorem SexpTrees.unique {names : List Nat} : ∀ {ss : List SExp} {ps ps' : List Pred}, SexpTrees names ss ps → SexpTrees names ss ps' → ps = ps'
  | _, _, _, .nil, h => by cases h; rfl
  | _, _, _, .cons h1 h2, h => by
    cases h with
    | cons h1' h2' => rw [SexpTree.unique h1 h1', SexpTrees.unique h2 h2']
end

theorem SexpRoot.unique {names : List Nat} {s : SExp} {p p' : Pred} (h : SexpRoot names s p) (h' : SexpRoot names s p') : p = p' := by
  rcases h with ⟨hs, hp⟩ | h
  · rcases h' with ⟨_, hp'⟩ | h'
    · rw [hp, hp']
    · subst hs; cases h'
  · rcases h' with ⟨hs, _⟩ | h'
    · subst hs; cases h
    · exact h.unique h'

theorem SexpRoots.unique {names : List Nat} : ∀ {ss : List SExp} {ps ps' : List Pred}, SexpRoots names ss ps → SexpRoots names ss ps' → ps = ps'
  | [], [], [], _, _ => rfl
  | [], [], _ :: _, _, h => by cases h
  | [], _ :: _, _, h, _ => by cases h
  | _ :: _, [], _, h, _ => by cases h
  | _ :: _, _ :: _, [], _, h => by cases h
  | _ :: _, _ :: _, _ :: _, h, h' => by rw [SexpRoot.unique h.1 h'.1, SexpRoots.unique h.2 h'.2]

theorem filter_unique {g g' : Option (LPoint → Bool)} (h : (g.map fun g p => some (g p)) = g'.map fun g p => some (g p)) : g = g' := by
  cases g with
  | none => cases g' with
    | none => rfl
    | some g' => cases h
  | some g => cases g' with
    | none => cases h
    | some g' =>
      have h1 : (fun p => some (g p)) = fun p => some (g' p) := Option.some.inj h
      rw [show g = g' from funext fun p => Option.some.inj (congrFun h1 p)]

/-! Operations -/

/-- Every operation gives the answer that is meant, or memory is short. -/
theorem byteStep_ok {μ σ : Type} (w : FsWorld σ) (hpl : w.pl.Sound) (junk : List U64) (op : FsOp μ) (a : FsAns μ)
    (x : FsState μ σ) (y z : FsMeant μ σ) (h : x.Holds y) (hm : FsMeans w y op a z) :
    MemoryShort (byteStep w junk op x) ∨ ∃ x', byteStep w junk op x = .ok (a, x') ∧ x'.Holds z := by
  cases hm with
  | fileAdded ts ms s path timeout k m st t htimeout hk hfile ht =>
    unfold byteStep
    dsimp only
    rcases addFileB_ok w hpl junk x.d path timeout k m x.mem htimeout hk with e | ⟨mem', n, e⟩
    · left; rw [e]; exact .inl (resThrow_bind _ _)
    have hf : w.files (cStr path) timeout = some st := hfile
    have ha : x.d.add w.grow w.env (.trace (some st) (BitVec.ofNat 64 k) m) = .ok ⟨x.d.db.addTrace w.grow t, x.d.metadata ++ [m]⟩ := by
      unfold LispDb.add addTraceApi
      dsimp only
      rw [ht]
      rfl
    rw [e, hf, ha, Res.ok_bind, Res.ok_bind]
    dsimp only
    have hms : x.d.metadata = ms := h.metadata
    rcases settleB_add hpl w.grow h t (x.d.metadata ++ [m]) mem' n with e | ⟨x', e, hx⟩
    · exact .inl (e.bind _)
    · right
      rw [e, Res.ok_bind]
      refine ⟨x', ?_, by rw [← hms]; exact hx⟩
      rw [(Db.addTrace_holds w.grow x.d.db t).1]
      simp
  | fileNot y path timeout k m htimeout hk hfile =>
    unfold byteStep
    dsimp only
    rcases addFileB_ok w hpl junk x.d path timeout k m x.mem htimeout hk with e | ⟨mem', n, e⟩
    · left; rw [e]; exact .inl (resThrow_bind _ _)
    have ha : x.d.add w.grow w.env (.trace (w.files (cStr path) timeout) (BitVec.ofNat 64 k) m) = .ok x.d := by
      unfold LispDb.add addTraceApi
      rcases hfile with hf | ⟨st, e', hf, ht⟩
      · rw [show w.files (cStr path) timeout = none from hf]
        rfl
      · rw [show w.files (cStr path) timeout = some st from hf]
        dsimp only
        rw [ht]
        rfl
    rw [e, ha, Res.ok_bind, Res.ok_bind]
    dsimp only
    obtain ⟨x', e, hx⟩ := settleB_same (pl := w.pl) h mem' n
    right
    rw [e, Res.ok_bind]
    exact ⟨x', by simp, hx⟩
  | points ts ms s trace m ps t hps ht =>
    unfold byteStep
    dsimp only
    rcases addPointsB_ok hpl w.grow w.env w.db junk x.d trace m x.mem with e | ⟨mem', n, e⟩
    · left; rw [e]; exact .inl (resThrow_bind _ _)
    have ha : x.d.addPoints w.grow w.env trace m = .ok ⟨x.d.db.addTrace w.grow t, m :: x.d.metadata⟩ := by
      unfold LispDb.addPoints
      dsimp only
      rw [hps, Res.ok_bind]
      unfold LispDb.add addTracePointsApi
      dsimp only
      rw [ht]
      rfl
    rw [e, ha, Res.ok_bind, Res.ok_bind]
    dsimp only
    have hms : x.d.metadata = ms := h.metadata
    rcases settleB_add hpl w.grow h t (m :: x.d.metadata) mem' n with e | ⟨x', e, hx⟩
    · exact .inl (e.bind _)
    · right
      rw [e, Res.ok_bind]
      exact ⟨x', rfl, by rw [← hms]; exact hx⟩
  | getTrace y i file t m l hlen hi hmd hf hl =>
    unfold byteStep
    dsimp only
    obtain ⟨p, c, e, ht, hp, hc⟩ := h.at hi
    obtain ⟨hlt, _⟩ := List.getElem?_eq_some_iff.mp ht
    rw [callGetTraceB_ok w junk x.d i (by rw [h.traces]; exact hlen) hlt, Res.ok_bind, e, Res.ok_bind]
    dsimp only
    rcases C108_get_trace w.pl hpl p t file x.mem (h.keptAll ht hp) hf l hl with e | ⟨mem', e, n⟩
    · left; rw [e]; exact .inr (.inr (resUb_bind _ _))
    · right
      rw [e, Res.ok_bind]
      dsimp only
      rw [h.metadata, hmd]
      exact ⟨_, rfl, h.grown n⟩
  | traceTypes y i t l hlen hi hf hl =>
    unfold byteStep
    dsimp only
    obtain ⟨p, c, e, ht, hp, hc⟩ := h.at hi
    obtain ⟨hlt, _⟩ := List.getElem?_eq_some_iff.mp ht
    rw [callGetTraceB_ok w junk x.d i (by rw [h.traces]; exact hlen) hlt, Res.ok_bind, e, Res.ok_bind]
    dsimp only
    rcases C108_types w.pl hpl p t x.mem (h.keptAll ht hp) hf l hl with e | ⟨mem', e, n⟩
    · left; rw [e]; exact .inr (.inr (resUb_bind _ _))
    · right
      rw [e, Res.ok_bind]
      exact ⟨_, rfl, h.grown n⟩
  | query ts ms s s' i t q hard softs filter cache l hlen hi hf hnames hh hs hfilter hvars hfit hl =>
    unfold byteStep
    dsimp only
    obtain ⟨p, c, e, ht, hp, hc⟩ := h.at hi
    obtain ⟨hlt, _⟩ := List.getElem?_eq_some_iff.mp ht
    rw [callGetTraceB_ok w junk x.d i (by rw [h.traces]; exact hlen) hlt, Res.ok_bind, e, Res.ok_bind]
    dsimp only
    have hcc := h.cache i t c ht hc
    have hss : x.s = s := h.s
    obtain ⟨cache', hq⟩ := lispQuery_anyCache hcc hl
    rcases C109_query w.pl hpl p w.env w.pick w.ev w.db (BitVec.ofNat 64 i) junk t q hard softs filter x.mem c cache' s s' l
      (h.keptAll ht hp) hf (cache_filterOk hcc).2 hnames hh hs hfilter hvars (fun types fvs mask stmt rs c1 s1 e1 e2 e3 hq1 => by
        obtain ⟨_, c2, hq2⟩ := query_cache w.env w.pick w.ev t _ q.filter.isSome c c1 s s1 rs (cache_filterOk hcc).1 hq1
        exact hfit types fvs mask stmt rs c2 s1 e1 e2 e3 hq2) hq with e | e | ⟨mem', e, n⟩
    · left; rw [hss, e]; exact .inl (resThrow_bind _ _)
    · left; rw [hss, e]; exact .inr (.inr (resUb_bind _ _))
    · right
      rw [hss, e, Res.ok_bind]
      refine ⟨_, rfl, h.traces, h.metadata, rfl, (h.grown n).owned, h.places, ?_, (h.grown n).kept, ?_⟩
      · dsimp only; rw [List.length_set]; exact h.caches
      · intro j u d hu hd
        dsimp only at hu hd
        rw [List.getElem?_set] at hd
        split at hd
        · rename_i hij
          subst hij
          rw [ht] at hu
          split at hd
          · cases hu; cases hd
            exact lispQuery_keeps hcc hq
          · cases hd
        · exact h.cache j u d hu hd
  | store y hn =>
    unfold byteStep
    dsimp only
    rcases storeB_ok hpl w.version x.d (junk.headD 0) x.mem (by rw [h.traces]; exact hn) with e | ⟨mem', e, n⟩
    · left; rw [e]; exact .inr (.inr (resUb_bind _ _))
    · right
      rw [e, Res.ok_bind, h.traces, h.metadata]
      exact ⟨_, rfl, h.grown n⟩
  | restore y text ms db hne hd =>
    unfold byteStep
    dsimp only
    rcases C110_restore w.pl hpl junk text ms x.mem hne with e | ⟨e, _⟩ | ⟨db', mem', e', e, n⟩
    · left; rw [e]; exact .inl (resThrow_bind _ _)
    · rw [hd] at e; cases e
    rw [hd] at e'
    cases e'
    rw [e, Res.ok_bind]
    dsimp only
    obtain ⟨hcl, hco⟩ := deserialize_ok text db hd
    have hce : ∀ c ∈ db.caches, c = [] := by
      unfold deserializeDb at hd
      simp only [Option.bind_eq_bind, Option.pure_def, Option.bind_eq_some_iff, Option.some.injEq] at hd
      obtain ⟨⟨ts, _⟩, _, rfl⟩ := hd
      intro c hc
      simp only [List.mem_map] at hc
      obtain ⟨_, _, rfl⟩ := hc
      rfl
    rcases keepTracesB_ok hpl db.traces mem' with e | ⟨ps, mem2, e, n2, l, k⟩
    · left; rw [e]; exact .inr (.inl (resThrow_bind _ _))
    rw [e, Res.ok_bind]
    refine .inr ⟨_, rfl, rfl, rfl, h.s, newBlocks_sub, l, hcl, k, ?_⟩
    intro i t c ht hc
    rw [hce c (List.mem_of_getElem? hc)]
    intro e he
    cases he
  | restoreNone y ms =>
    unfold byteStep LispDb.restoreB
    dsimp only
    rw [if_pos rfl, Res.ok_bind]
    refine .inr ⟨_, rfl, rfl, rfl, h.s, newBlocks_sub, rfl, rfl, ?_, ?_⟩
    · intro i t p ht
      simp [Db.create] at ht
    · intro i t p ht
      simp [Db.create] at ht
  | other y f hf =>
    obtain ⟨h1, h2⟩ := hf x.owned x.mem h.owned
    exact .inr ⟨_, rfl, h.traces, h.metadata, h.s, h1, h.places, h.caches,
      fun i t p ht hp => Kept.mono (fun _ ha => ha) (fun b hb => h2 b hb) (h.kept i t p ht hp), h.cache⟩

end TraceDB
