import Verif.Spec.TraceMemory
import Verif.Proofs.ReaderSim
import Verif.Proofs.Bytes
/-
Memory while a trace is read: what is read, and what is left.
-/
namespace TraceDB

open MapImpl

/-- Blocks are numbered below the number of the next one, and the map of the trace is a
skip list. -/
def TmMem.Good (m : TmMem) : Prop :=
  (∀ b ∈ m.loose, b.1 < m.count) ∧ ∃ H base, MemMap.Rep H m.map base

/-- The blocks that a throwing reader of points leaves: blobs, and a node if an allocation was
refused. -/
def TmThrown (refuse : Nat → Bool) (e : Exn) (ks : List TmKind) : Prop :=
  (∀ k ∈ ks, k.isBlob) ∨ (e = .alloc ∧ (∃ j, refuse j = true) ∧ ∃ l, ks = l ++ [.node] ∧ ∀ k ∈ l, TmKind.isBlob k)

theorem TmThrown.prefix {refuse : Nat → Bool} {e : Exn} {k1 k2 : List TmKind} (h1 : ∀ k ∈ k1, TmKind.isBlob k)
    (h2 : TmThrown refuse e k2) : TmThrown refuse e (k1 ++ k2) := by
  rcases h2 with h2 | ⟨he, hr, l, rfl, hl⟩
  · left
    intro k hk
    rcases List.mem_append.mp hk with hk | hk
    · exact h1 k hk
    · exact h2 k hk
  · right
    refine ⟨he, hr, k1 ++ l, by simp, ?_⟩
    intro k hk
    rcases List.mem_append.mp hk with hk | hk
    · exact h1 k hk
    · exact hl k hk

/-- What came out is the outcome `r`. -/
def TmAgrees {α β : Type} (R : α → MemMap → β → Prop) (out : Res α × TmMem) (r : Res β) : Prop :=
  match r with
  | .ok b => ∃ a, out.1 = .ok a ∧ R a out.2.map b
  | .throw e => out.1 = .throw e
  | .abort => out.1 = .abort
  | .ub k => out.1 = .ub k
  | .hang => out.1 = .hang

/-- A run from `mem` with outcome `out`, compared with `r`; `Q` and `P` describe the blocks
left after a normal return and after an exception. -/
structure TmRun {α β : Type} (refuse : Nat → Bool) (mem : TmMem) (out : Res α × TmMem) (r : Res β)
    (R : α → MemMap → β → Prop) (Q : α → List TmKind → Prop) (P : Exn → List TmKind → Prop) : Prop where
  good : out.2.Good
  count : mem.count ≤ out.2.count
  left : ∃ extra, out.2.loose = mem.loose ++ extra ∧ (∀ b ∈ extra, mem.count ≤ b.1) ∧
    (∀ a, out.1 = .ok a → Q a (extra.map (·.2))) ∧ ∀ e, out.1 = .throw e → P e (extra.map (·.2))
  agrees : TmAgrees R out r ∨
    ((out.1 = .throw .alloc ∨ out.1 = .ub .nullDeref) ∧ ∃ j, mem.count ≤ j ∧ j < out.2.count ∧ refuse j = true)

section
variable {α β γ δ : Type} {refuse : Nat → Bool} {mem : TmMem}

theorem TmRun.mono {out : Res α × TmMem} {r : Res β} {R R' : α → MemMap → β → Prop} {Q Q' : α → List TmKind → Prop}
    {P P' : Exn → List TmKind → Prop} (h : TmRun refuse mem out r R Q P) (hR : ∀ a m b, R a m b → R' a m b)
    (hQ : ∀ a k, Q a k → Q' a k) (hP : ∀ e k, P e k → P' e k) : TmRun refuse mem out r R' Q' P' where
  good := h.good
  count := h.count
  left := by
    obtain ⟨extra, h1, h2, h3, h4⟩ := h.left
    exact ⟨extra, h1, h2, fun a ha => hQ _ _ (h3 a ha), fun e he => hP _ _ (h4 e he)⟩
  agrees := by
    rcases h.agrees with ha | ha
    · left
      cases r with
      | ok b => obtain ⟨a, h1, h2⟩ := ha; exact ⟨a, h1, hR _ _ _ h2⟩
      | throw e => exact ha
      | abort => exact ha
      | ub k => exact ha
      | hang => exact ha
    · exact .inr ha

theorem TmRun.congr {out : Res α × TmMem} {r r' : Res β} {R : α → MemMap → β → Prop} {Q : α → List TmKind → Prop}
    {P : Exn → List TmKind → Prop} (h : r = r') (h' : TmRun refuse mem out r' R Q P) : TmRun refuse mem out r R Q P :=
  h ▸ h'

/-- No effect on the memory. -/
theorem TmRun.same (hm : mem.Good) {x : Res α} {r : Res β} {R : α → MemMap → β → Prop} {Q : α → List TmKind → Prop}
    {P : Exn → List TmKind → Prop} (hQ : ∀ a, x = .ok a → Q a []) (hP : ∀ e, x = .throw e → P e [])
    (ha : TmAgrees R (x, mem) r) : TmRun refuse mem (x, mem) r R Q P where
  good := hm
  count := Nat.le_refl _
  left := ⟨[], by simp, by simp, hQ, hP⟩
  agrees := .inl ha

theorem TmM.bind_eq (c : TmM α) (f : α → TmM γ) (mem : TmMem) :
    (c >>= f) mem = match c mem with
      | (.ok a, m) => f a m
      | (.throw e, m) => (.throw e, m)
      | (.abort, m) => (.abort, m)
      | (.ub k, m) => (.ub k, m)
      | (.hang, m) => (.hang, m) := rfl

theorem TmM.bind_assoc' (c : TmM α) (f : α → TmM β) (g : β → TmM γ) :
    ((c >>= f) >>= g) = (c >>= fun a => f a >>= g) := by
  funext mem
  show TmM.bind (TmM.bind c f) g mem = TmM.bind c (fun a => TmM.bind (f a) g) mem
  simp only [TmM.bind]
  generalize c mem = x
  obtain ⟨o, m⟩ := x
  cases o <;> rfl

theorem TmM.lift_bind (x : Res α) (f : α → TmM γ) (mem : TmMem) :
    (TmM.lift x >>= f) mem = match x with
      | .ok a => f a mem
      | .throw e => (.throw e, mem)
      | .abort => (.abort, mem)
      | .ub k => (.ub k, mem)
      | .hang => (.hang, mem) := by
  cases x <;> rfl

/-- Sequencing. -/
theorem TmRun.bind {c : TmM α} {f : α → TmM γ} {r : Res β} {g : β → Res δ} {R1 : α → MemMap → β → Prop}
    {Q1 : α → List TmKind → Prop} {P1 : Exn → List TmKind → Prop} {R : γ → MemMap → δ → Prop} {Q2 : α → γ → List TmKind → Prop}
    {P2 : α → Exn → List TmKind → Prop} {Q : γ → List TmKind → Prop} {P : Exn → List TmKind → Prop}
    (h1 : TmRun refuse mem (c mem) r R1 Q1 P1)
    (h2 : ∀ a b mem', mem'.Good → R1 a mem'.map b → r = .ok b → TmRun refuse mem' (f a mem') (g b) R (Q2 a) (P2 a))
    (hQ : ∀ a x k1 k2, Q1 a k1 → Q2 a x k2 → Q x (k1 ++ k2))
    (hP1 : ∀ e k, P1 e k → P e k)
    (hP2 : ∀ a e k1 k2, Q1 a k1 → P2 a e k2 → P e (k1 ++ k2)) :
    TmRun refuse mem ((c >>= f) mem) (r >>= g) R Q P := by
  rw [TmM.bind_eq]
  generalize hc : c mem = cm at h1
  obtain ⟨out, mem'⟩ := cm
  have hstop : ∀ (o : Res γ), (∀ a, o ≠ .ok a) → (∀ e, o = .throw e → out = .throw e) →
      (TmAgrees R (o, mem') (r >>= g) ∨
        ((o = .throw .alloc ∨ o = .ub .nullDeref) ∧ ∃ j, mem.count ≤ j ∧ j < mem'.count ∧ refuse j = true)) →
      TmRun refuse mem (o, mem') (r >>= g) R Q P := by
    intro o ho he ha
    obtain ⟨extra, e1, e2, e3, e4⟩ := h1.left
    exact ⟨h1.good, h1.count, ⟨extra, e1, e2, fun a h => absurd h (ho a), fun e h => hP1 _ _ (e4 e (he e h))⟩, ha⟩
  have hag := h1.agrees
  cases out with
  | ok a =>
    simp only
    rcases hag with hag | ⟨hag, _⟩
    · cases hr : r with
      | ok b =>
        rw [hr] at hag
        obtain ⟨a', h3, h4⟩ := hag
        cases h3
        have h5 := h2 a b mem' h1.good h4 hr
        obtain ⟨x1, e1, e2, e3, e4⟩ := h1.left
        obtain ⟨x2, f1, f2, f3, f4⟩ := h5.left
        refine ⟨h5.good, Nat.le_trans h1.count h5.count, ⟨x1 ++ x2, ?_, ?_, ?_, ?_⟩,
          h5.agrees.imp id fun ⟨h, j, hj, hj'⟩ => ⟨h, j, Nat.le_trans h1.count hj, hj'⟩⟩
        · rw [f1, e1, List.append_assoc]
        · intro y hy
          rcases List.mem_append.mp hy with hy | hy
          · exact e2 y hy
          · exact Nat.le_trans h1.count (f2 y hy)
        · intro x hx
          rw [List.map_append]
          exact hQ a x _ _ (e3 a rfl) (f3 x hx)
        · intro e he
          rw [List.map_append]
          exact hP2 a e _ _ (e3 a rfl) (f4 e he)
      | throw e => rw [hr] at hag; cases hag
      | abort => rw [hr] at hag; cases hag
      | ub k => rw [hr] at hag; cases hag
      | hang => rw [hr] at hag; cases hag
    · rcases hag with hag | hag <;> cases hag
  | throw e =>
    refine hstop (.throw e) (by simp) (by intro e' h; cases h; rfl) ?_
    rcases hag with hag | ⟨hag | hag, hj⟩
    · left
      cases hr : r with
      | ok b => rw [hr] at hag; obtain ⟨a, h3, _⟩ := hag; cases h3
      | throw e' => rw [hr] at hag; cases hag; rfl
      | abort => rw [hr] at hag; cases hag
      | ub k => rw [hr] at hag; cases hag
      | hang => rw [hr] at hag; cases hag
    · cases hag; exact .inr ⟨.inl rfl, hj⟩
    · cases hag
  | abort =>
    refine hstop .abort (by simp) (by simp) ?_
    rcases hag with hag | ⟨hag | hag, hj⟩
    · left
      cases hr : r with
      | ok b => rw [hr] at hag; obtain ⟨a, h3, _⟩ := hag; cases h3
      | throw e' => rw [hr] at hag; cases hag
      | abort => rfl
      | ub k => rw [hr] at hag; cases hag
      | hang => rw [hr] at hag; cases hag
    · cases hag
    · cases hag
  | ub k =>
    refine hstop (.ub k) (by simp) (by simp) ?_
    rcases hag with hag | ⟨hag | hag, hj⟩
    · left
      cases hr : r with
      | ok b => rw [hr] at hag; obtain ⟨a, h3, _⟩ := hag; cases h3
      | throw e' => rw [hr] at hag; cases hag
      | abort => rw [hr] at hag; cases hag
      | ub k' => rw [hr] at hag; cases hag; rfl
      | hang => rw [hr] at hag; cases hag
    · cases hag
    · cases hag; exact .inr ⟨.inr rfl, hj⟩
  | hang =>
    refine hstop .hang (by simp) (by simp) ?_
    rcases hag with hag | ⟨hag | hag, hj⟩
    · left
      cases hr : r with
      | ok b => rw [hr] at hag; obtain ⟨a, h3, _⟩ := hag; cases h3
      | throw e' => rw [hr] at hag; cases hag
      | abort => rw [hr] at hag; cases hag
      | ub k => rw [hr] at hag; cases hag
      | hang => rfl
    · cases hag
    · cases hag

/-- Code without allocations comes first. -/
theorem TmRun.liftBind (hm : mem.Good) {x : Res α} {f : α → TmM γ} {g : α → Res δ} {R : γ → MemMap → δ → Prop}
    {Q : γ → List TmKind → Prop} {P : Exn → List TmKind → Prop} (hP : ∀ e, x = .throw e → P e [])
    (h : ∀ a, x = .ok a → TmRun refuse mem (f a mem) (g a) R Q P) :
    TmRun refuse mem ((TmM.lift x >>= f) mem) (x >>= g) R Q P := by
  rw [TmM.lift_bind]
  cases x with
  | ok a => exact h a rfl
  | throw e => exact .same hm (by simp) (fun _ h => by cases h; exact hP _ rfl) rfl
  | abort => exact .same hm (by simp) (by simp) rfl
  | ub k => exact .same hm (by simp) (by simp) rfl
  | hang => exact .same hm (by simp) (by simp) rfl

/-- A container grows first. -/
theorem TmRun.ownBind (hm : mem.Good) {f : TmM γ} {r : Res δ} {R : γ → MemMap → δ → Prop}
    {Q : γ → List TmKind → Prop} {P : Exn → List TmKind → Prop} (hP : ∀ e, (∃ j, refuse j = true) → P e [])
    (h : ∀ mem' : TmMem, mem'.Good → mem'.map = mem.map → TmRun refuse mem' (f mem') r R Q P) :
    TmRun refuse mem ((TmM.own refuse >>= fun _ => f) mem) r R Q P := by
  have hg : TmMem.Good { mem with count := mem.count + 1 } := ⟨fun b hb => Nat.lt_succ_of_lt (hm.1 b hb), hm.2⟩
  rw [TmM.bind_eq]
  simp only [TmM.own]
  by_cases hr : refuse mem.count
  · rw [if_pos hr]
    exact ⟨hg, Nat.le_succ _, ⟨[], by simp, by simp, by simp, fun e _ => hP e ⟨_, hr⟩⟩, .inr ⟨.inl rfl, _, Nat.le_refl _, Nat.lt_succ_self _, hr⟩⟩
  · rw [if_neg hr]
    have h' := h _ hg rfl
    obtain ⟨extra, e1, e2, e3, e4⟩ := h'.left
    exact ⟨h'.good, Nat.le_trans (Nat.le_succ _) h'.count, ⟨extra, e1, fun b hb => Nat.le_trans (Nat.le_succ _) (e2 b hb), e3, e4⟩,
      h'.agrees.imp id fun ⟨h, j, hj, hj'⟩ => ⟨h, j, Nat.le_of_succ_le hj, hj'⟩⟩

end

theorem tmKinds_nil : tmKinds [] = [] := rfl

theorem tmKinds_append (a b : List VarInfo) : tmKinds (a ++ b) = tmKinds a ++ tmKinds b := by
  simp [tmKinds, List.filterMap_append]

theorem tmKinds_isBlob {vs : List VarInfo} : ∀ k ∈ tmKinds vs, TmKind.isBlob k := by
  intro k hk
  obtain ⟨v, _, hv⟩ := List.mem_filterMap.mp hk
  split at hv
  · cases hv; rfl
  · cases hv

theorem tmThrown_nil {refuse : Nat → Bool} (e : Exn) : TmThrown refuse e [] := .inl (by simp)

theorem TmRun.pure' {α β : Type} {refuse : Nat → Bool} {mem : TmMem} (hm : mem.Good) {a : α} {b : β}
    {R : α → MemMap → β → Prop} {Q : α → List TmKind → Prop} {P : Exn → List TmKind → Prop}
    (hQ : Q a []) (hR : R a mem.map b) : TmRun refuse mem ((pure a : TmM α) mem) (.ok b) R Q P :=
  .same hm (by intro a' h; cases h; exact hQ) (by intro e h; cases h) ⟨a, rfl, hR⟩

theorem TmRun.throw' {α β : Type} {refuse : Nat → Bool} {mem : TmMem} (hm : mem.Good) {e : Exn}
    {R : α → MemMap → β → Prop} {Q : α → List TmKind → Prop} {P : Exn → List TmKind → Prop}
    (hP : P e []) : TmRun refuse mem ((TmM.lift (.throw e) : TmM α) mem) (.throw e) R Q P :=
  .same hm (by intro a' h; cases h) (by intro e h; cases h; exact hP) rfl

theorem readUInt_four_lt {s s' : IStream} {n : Nat} (h : readUInt s 4 0 = .ok (n, s')) : n < 2 ^ 32 := by
  obtain ⟨bs, io, st⟩ := s
  cases st with
  | good =>
    rcases readUInt_cases (io := io) 4 0 bs with ⟨b, r, _, hb, h1⟩ | ⟨hb, h1⟩
    · rw [h] at h1
      injection h1 with h1
      injection h1 with h1 _
      rw [h1]
      have := leNat_lt b
      rw [hb] at this
      exact this
    · rw [h] at h1
      injection h1 with h1
      injection h1 with h1 _
      rw [h1]
      have := leNat_lt (overlay (leBytes 4 0) bs)
      rw [overlay_length (by simp; omega)] at this
      simpa using this
  | eof => cases h
  | bad => cases h

section
variable (env : Env) (refuse : Nat → Bool) (names : List Name) (types : List TypeDesc)

theorem tmVarInfo_blob {mem : TmMem} (hm : mem.Good) (s : IStream) (size : Nat) (hsize : size < 2 ^ 32)
    (mk : VarValue → U32 → U64 → Bool → VarInfo) (hmk : ∀ v z b h, (mk v z b h).format = .blob ∧ (mk v z b h).size = z) :
    TmRun refuse mem
      ((do
        let p ← if size = 0 then pure none else TmM.malloc refuse (env.canAlloc size) (.blob size)
        let (got, s) ← TmM.lift (binaryRead s size)
        if size > 0 ∧ p = none then TmM.lift (.ub .nullDeref)
        else do
          let bytes ← TmM.lift (env.fillUninit size got)
          pure (mk (.blob bytes) (BitVec.ofNat 32 size) 0 false, s) : TmM (VarInfo × IStream)) mem)
      (do
        let (bytes, s) ← readBlob env s size
        pure (mk (.blob bytes) (BitVec.ofNat 32 size) 0 false, s))
      (fun a m b => a = b ∧ m = mem.map) (fun a k => k = tmKinds [a.1]) (TmThrown refuse) := by
  by_cases h0 : size = 0
  · subst h0
    simp only [if_true]
    rw [show ((pure none : TmM (Option Nat)) >>= fun p => do
        let (got, s) ← TmM.lift (binaryRead s 0)
        if 0 > 0 ∧ p = none then TmM.lift (.ub .nullDeref)
        else do
          let bytes ← TmM.lift (env.fillUninit 0 got)
          pure (mk (.blob bytes) (BitVec.ofNat 32 0) 0 false, s) : TmM (VarInfo × IStream)) =
        (do
        let (got, s) ← TmM.lift (binaryRead s 0)
        if 0 > 0 ∧ (none : Option Nat) = none then TmM.lift (.ub .nullDeref)
        else do
          let bytes ← TmM.lift (env.fillUninit 0 got)
          pure (mk (.blob bytes) (BitVec.ofNat 32 0) 0 false, s) : TmM (VarInfo × IStream)) from rfl]
    unfold readBlob
    rw [Res.bind_assoc]
    apply TmRun.liftBind hm (fun e _ => tmThrown_nil e)
    rintro ⟨got, s⟩ _
    simp only
    rw [if_neg (by simp), if_neg (by simp), Res.bind_assoc]
    apply TmRun.liftBind hm (fun e _ => tmThrown_nil e)
    intro bytes _
    refine TmRun.pure' hm ?_ ⟨rfl, rfl⟩
    simp [tmKinds, hmk]
  · rw [if_neg h0, TmM.bind_eq]
    unfold TmM.malloc readBlob
    rw [Res.bind_assoc]
    by_cases hc : env.canAlloc size && !refuse mem.count
    · rw [if_pos hc]
      simp only [Bool.and_eq_true, Bool.not_eq_true'] at hc
      have hg : TmMem.Good { mem with count := mem.count + 1, loose := mem.loose ++ [(mem.count, .blob size)] } := by
        refine ⟨?_, hm.2⟩
        intro b hb
        rcases List.mem_append.mp hb with hb | hb
        · exact Nat.lt_succ_of_lt (hm.1 b hb)
        · simp only [List.mem_singleton] at hb
          subst hb
          exact Nat.lt_succ_self _
      have hrun := TmRun.liftBind (refuse := refuse) hg (x := binaryRead s size)
        (f := fun (x : List U8 × IStream) => if size > 0 ∧ some mem.count = none then TmM.lift (.ub .nullDeref)
          else do
            let bytes ← TmM.lift (env.fillUninit size x.1)
            pure (mk (.blob bytes) (BitVec.ofNat 32 size) 0 false, x.2))
        (g := fun x => (if size > 0 ∧ ¬ env.canAlloc size then Res.ub .nullDeref
          else do
            let bytes ← env.fillUninit size x.1
            pure (bytes, x.2)) >>= fun x => pure (mk (.blob x.1) (BitVec.ofNat 32 size) 0 false, x.2))
        (R := fun a m b => a = b ∧ m = mem.map)
        (Q := fun a k => k = [] ∧ a.1.format = .blob ∧ a.1.size = BitVec.ofNat 32 size) (P := fun _ k => k = []) (fun _ _ => rfl) (by
          rintro ⟨got, s⟩ _
          simp only
          rw [if_neg (by simp), if_neg (by simp [hc.1]), Res.bind_assoc]
          refine TmRun.liftBind (P := fun _ k => k = []) hg (fun _ _ => rfl) ?_
          intro bytes _
          exact TmRun.pure' hg ⟨rfl, hmk _ _ _ _⟩ ⟨rfl, rfl⟩)
      obtain ⟨x, e1, e2, e3, e4⟩ := hrun.left
      refine ⟨hrun.good, Nat.le_of_succ_le hrun.count, ⟨(mem.count, .blob size) :: x, ?_, ?_, ?_, ?_⟩,
        hrun.agrees.imp id fun ⟨h, j, hj, hj'⟩ => ⟨h, j, Nat.le_of_succ_le hj, hj'⟩⟩
      · refine e1.trans ?_
        simp
      · intro b hb
        rcases List.mem_cons.mp hb with rfl | hb
        · exact Nat.le_refl _
        · exact Nat.le_of_succ_le (e2 b hb)
      · intro a ha
        obtain ⟨h1, h2, h3⟩ := e3 a ha
        have hn : BitVec.ofNat 32 size ≠ 0 := by
          intro h
          have := congrArg BitVec.toNat h
          simp [BitVec.toNat_ofNat, Nat.mod_eq_of_lt hsize] at this
          exact h0 this
        rw [List.map_cons, h1]
        have hmod : size % 4294967296 = size := Nat.mod_eq_of_lt hsize
        simp only [tmKinds, List.filterMap_cons, List.filterMap_nil, h2, h3]
        rw [if_pos ⟨trivial, hn⟩]
        simp [hmod]
      · intro e he
        have h1 := e4 e he
        left
        rw [List.map_cons, h1]
        simp [TmKind.isBlob]
    · rw [if_neg hc]
      have hg : TmMem.Good { mem with count := mem.count + 1 } := ⟨fun b hb => Nat.lt_succ_of_lt (hm.1 b hb), hm.2⟩
      simp only
      rw [TmM.lift_bind]
      have hnil : ∀ (o : Res (VarInfo × IStream)) r, (∀ a, o ≠ .ok a) →
          (TmAgrees (fun a m b => a = b ∧ m = mem.map) (o, { mem with count := mem.count + 1 }) r ∨
            ((o = .throw .alloc ∨ o = .ub .nullDeref) ∧ ∃ j, mem.count ≤ j ∧ j < mem.count + 1 ∧ refuse j = true)) →
          TmRun refuse mem (o, { mem with count := mem.count + 1 }) r (fun a m b => a = b ∧ m = mem.map)
            (fun a k => k = tmKinds [a.1]) (TmThrown refuse) := by
        intro o r h1 h2
        exact ⟨hg, Nat.le_succ _, ⟨[], by simp, by simp, fun a h => absurd h (h1 a), fun e _ => tmThrown_nil e⟩, h2⟩
      cases hb : binaryRead s size with
      | ok x =>
        obtain ⟨got, s'⟩ := x
        simp only
        rw [if_pos ⟨Nat.pos_of_ne_zero h0, trivial⟩]
        refine hnil _ _ (by intro a h; cases h) ?_
        by_cases hca : env.canAlloc size
        · right
          refine ⟨.inr rfl, mem.count, Nat.le_refl _, Nat.lt_succ_self _, ?_⟩
          simpa [hca] using hc
        · left
          rw [Res.ok_bind, if_pos ⟨Nat.pos_of_ne_zero h0, hca⟩]
          rfl
      | throw e => exact hnil _ _ (by intro a h; cases h) (.inl rfl)
      | abort => exact hnil _ _ (by intro a h; cases h) (.inl rfl)
      | ub k => exact hnil _ _ (by intro a h; cases h) (.inl rfl)
      | hang => exact hnil _ _ (by intro a h; cases h) (.inl rfl)

theorem tmVarInfo_run {mem : TmMem} (hm : mem.Good) (s : IStream) :
    TmRun refuse mem (tmVarInfo env refuse names types s mem)
      (readVarInfo (skipList env.coin) env names types mem.map s)
      (fun a m b => a = b ∧ m = mem.map) (fun a k => k = tmKinds [a.1]) (TmThrown refuse) := by
  unfold tmVarInfo readVarInfo
  apply TmRun.liftBind hm (fun e _ => tmThrown_nil e)
  rintro ⟨nameIndex, s⟩ _
  apply TmRun.liftBind hm (fun e _ => tmThrown_nil e)
  rintro ⟨typeIndex, s⟩ _
  simp only
  cases types[typeIndex]? with
  | none => exact .throw' hm (tmThrown_nil _)
  | some type =>
    simp only
    split
    · exact .throw' hm (tmThrown_nil _)
    · cases hf : type.format with
      | signed =>
        simp only
        split
        · apply TmRun.liftBind hm (fun e _ => tmThrown_nil e)
          rintro ⟨v, s⟩ _
          exact TmRun.pure' hm (by simp [tmKinds]) ⟨rfl, rfl⟩
        · exact .throw' hm (tmThrown_nil _)
      | unsigned =>
        simp only
        apply TmRun.liftBind hm (fun e _ => tmThrown_nil e)
        rintro ⟨v, s⟩ _
        exact TmRun.pure' hm (by simp [tmKinds]) ⟨rfl, rfl⟩
      | float =>
        simp only
        apply TmRun.liftBind hm (fun e _ => tmThrown_nil e)
        rintro ⟨v, s⟩ _
        exact TmRun.pure' hm (by simp [tmKinds]) ⟨rfl, rfl⟩
      | pointer =>
        simp only
        apply TmRun.liftBind hm (fun e _ => tmThrown_nil e)
        rintro ⟨v, s⟩ _
        simp only
        have hl : TmM.lookup v mem = (TmM.lift (MemMap.computeBufferSize mem.map v)) mem := rfl
        rw [TmM.bind_eq, hl, ← TmM.bind_eq]
        apply TmRun.liftBind hm (fun e _ => tmThrown_nil e)
        intro b _
        split
        · exact TmRun.pure' hm (by simp [tmKinds]) ⟨rfl, rfl⟩
        · exact TmRun.pure' hm (by simp [tmKinds]) ⟨rfl, rfl⟩
      | blob =>
        simp only
        by_cases h0 : type.size = 0
        · rw [if_pos h0, if_pos h0]
          apply TmRun.liftBind hm (fun e _ => tmThrown_nil e)
          rintro ⟨size, s⟩ hs
          exact tmVarInfo_blob env refuse hm s size (readUInt_four_lt hs) (fun value size bufferSize has =>
            ⟨value, BitVec.ofNat 32 nameIndex, BitVec.ofNat 32 typeIndex, .blob, size, bufferSize, has⟩) (fun _ _ _ _ => ⟨rfl, rfl⟩)
        · rw [if_neg h0, if_neg h0]
          exact tmVarInfo_blob env refuse hm s type.size.toNat type.size.isLt (fun value size bufferSize has =>
            ⟨value, BitVec.ofNat 32 nameIndex, BitVec.ofNat 32 typeIndex, .blob, size, bufferSize, has⟩) (fun _ _ _ _ => ⟨rfl, rfl⟩)
      | invalid => exact .throw' hm (tmThrown_nil _)

theorem updateMap_run {mem : TmMem} (hm : mem.Good) (r : BufferSize) :
    TmRun refuse mem (TmM.updateMap env refuse r mem) ((skipList env.coin).update mem.map r)
      (fun _ m b => m = b) (fun _ k => k = []) (TmThrown refuse) := by
  obtain ⟨hlt, H, base, hrep⟩ := hm
  have hs := hrep.step env.coin r
  have hu : (skipList env.coin).update mem.map r = MemMap.updateMemoryMap env.coin mem.map r := rfl
  unfold TmM.updateMap
  rw [hu]
  by_cases hb : r.freesReserved ∧ MemMap.reservedCount H = 0
  · rw [hs.2 hb]
    exact .same ⟨hlt, H, base, hrep⟩ (by intro a h; cases h) (by intro a h; cases h) rfl
  · obtain ⟨m', base', h1, h2⟩ := hs.1 hb
    rw [h1]
    simp only
    split
    · exact ⟨⟨hlt, _, _, h2⟩, Nat.le_refl _, ⟨[], by simp, by simp, by simp, by intro e h; cases h⟩, .inl ⟨(), rfl, rfl⟩⟩
    · have hlt2 : ∀ b ∈ mem.loose ++ [(mem.count, TmKind.node)], b.1 < mem.count + 1 := by
        intro b hb
        rcases List.mem_append.mp hb with hb | hb
        · exact Nat.lt_succ_of_lt (hlt b hb)
        · simp only [List.mem_singleton] at hb
          subst hb
          exact Nat.lt_succ_self _
      simp only [TmM.bind, TmM.new]
      by_cases hr1 : refuse mem.count
      · simp only [hr1, Bool.not_true, Bool.and_false, Bool.false_eq_true, if_false]
        exact ⟨⟨fun b hb => Nat.lt_succ_of_lt (hlt b hb), _, _, hrep⟩, Nat.le_succ _,
          ⟨[], by simp, by simp, (by intro a h; cases h), fun e _ => tmThrown_nil e⟩, .inr ⟨.inl rfl, _, Nat.le_refl _, Nat.lt_succ_self _, hr1⟩⟩
      · simp only [Bool.not_eq_true] at hr1
        simp only [hr1, Bool.not_false, Bool.and_true, if_true, TmM.own]
        by_cases hr2 : refuse (mem.count + 1)
        · simp only [hr2, if_true]
          refine ⟨⟨fun b hb => Nat.lt_succ_of_lt (hlt2 b hb), _, _, hrep⟩, by show mem.count ≤ mem.count + 1 + 1; omega,
            ⟨[(mem.count, .node)], rfl, by simp, (by intro a h; cases h), fun e he => ?_⟩, .inr ⟨.inl rfl, _, Nat.le_succ _, Nat.lt_succ_self _, hr2⟩⟩
          cases he
          exact .inr ⟨rfl, ⟨_, hr2⟩, [], rfl, by simp⟩
        · rw [if_neg hr2]
          have hany : (mem.loose ++ [(mem.count, TmKind.node)]).any (·.1 == mem.count) = true := by simp
          have hfil : (mem.loose ++ [(mem.count, TmKind.node)]).filter (·.1 != mem.count) = mem.loose := by
            rw [List.filter_append]
            rw [List.filter_eq_self.mpr (by intro b hb; have := hlt b hb; simp; omega)]
            simp
          simp only [TmM.release, hany, if_true, hfil]
          exact ⟨⟨fun b hb => Nat.lt_succ_of_lt (Nat.lt_succ_of_lt (hlt b hb)), _, _, h2⟩, by show mem.count ≤ mem.count + 1 + 1; omega,
            ⟨[], by simp, by simp, by simp, by intro e h; cases h⟩, .inl ⟨(), rfl, rfl⟩⟩

theorem tmEntries_run : ∀ (fuel : Nat) (s : IStream) (acc : PointAcc) {mem : TmMem}, mem.Good →
    TmRun refuse mem (tmEntries env refuse names types fuel s acc mem)
      (readEntries (skipList env.coin) env names types fuel s mem.map acc)
      (fun a m b => a.1 = b.1 ∧ m = b.2.1 ∧ a.2 = b.2.2)
      (fun a k => tmKinds a.2.vars = tmKinds acc.vars ++ k) (TmThrown refuse)
  | 0, s, acc, mem, hm => .same hm (by intro a h; cases h) (by intro a h; cases h) rfl
  | fuel + 1, s, acc, mem, hm => by
    refine TmRun.congr (readEntries.eq_2 (skipList env.coin) env names types s mem.map acc fuel) ?_
    unfold tmEntries
    apply TmRun.liftBind hm (fun e _ => tmThrown_nil e)
    rintro ⟨c, s⟩ _
    simp only
    split
    · exact TmRun.pure' hm (by simp) ⟨rfl, rfl, rfl⟩
    · split
      · apply TmRun.liftBind hm (fun e _ => tmThrown_nil e)
        rintro ⟨got, s⟩ _
        simp only
        refine (tmEntries_run fuel _ _ hm).mono (fun _ _ _ h => h) ?_ (fun _ _ h => h)
        intro a k h
        rw [h]
        split <;> rfl
      · refine TmRun.bind (tmVarInfo_run env refuse names types hm s)
          (Q2 := fun x a k => tmKinds a.2.vars = tmKinds acc.vars ++ tmKinds [x.1] ++ k) (P2 := fun _ => TmThrown refuse)
          ?_ ?_ (fun _ _ h => h) ?_
        · rintro ⟨info, s⟩ b mem' hm' ⟨rfl, hmap⟩ _
          apply TmRun.ownBind hm' (fun e _ => tmThrown_nil e)
          intro mem'' hm'' hmap'
          simp only
          rw [← hmap, ← hmap']
          refine (tmEntries_run fuel _ _ hm'').mono (fun _ _ _ h => h) ?_ (fun _ _ h => h)
          intro a k h
          rw [h, tmKinds_append]
        · rintro ⟨info, s⟩ a k1 k2 rfl h
          rw [h, List.append_assoc]
        · rintro ⟨info, s⟩ e k1 k2 rfl h
          exact h.prefix tmKinds_isBlob
      · apply TmRun.liftBind hm (fun e _ => tmThrown_nil e)
        rintro ⟨size, s⟩ _
        simp only
        refine TmRun.bind (updateMap_run env refuse hm size)
          (Q2 := fun _ a k => tmKinds a.2.vars = tmKinds acc.vars ++ k) (P2 := fun _ => TmThrown refuse)
          ?_ ?_ (fun _ _ h => h) ?_
        · intro _ map mem' hm' hmap _
          subst hmap
          apply TmRun.ownBind hm' (fun e _ => tmThrown_nil e)
          intro mem'' hm'' hmap'
          rw [← hmap']
          exact tmEntries_run fuel _ _ hm''
        · rintro _ a k1 k2 rfl h
          simpa using h
        · rintro _ e k1 k2 rfl h
          simpa using h
      · apply TmRun.liftBind hm (fun e _ => tmThrown_nil e)
        rintro ⟨v, s⟩ _
        apply TmRun.ownBind hm (fun e _ => tmThrown_nil e)
        intro mem'' hm'' hmap'
        simp only
        rw [← hmap']
        exact tmEntries_run fuel _ _ hm''
      · split
        · rename_i h _ _ _; exact absurd rfl h
        · rename_i h _ _; exact absurd rfl h
        · rename_i h _; exact absurd rfl h
        · rename_i h; exact absurd rfl h
        · exact .throw' hm (tmThrown_nil _)

/-- The blocks after the point loop: those of the points, and those of a cut point. -/
def TmPointsLeft (maxPoints : U64) (before : List TmKind) (ps : List Point) (k : List TmKind) : Prop :=
  ∃ d, before ++ k = tmKinds (ps.flatMap (·.vars)) ++ tmKinds d ∧ (maxPoints ≠ 0 → ps.length = maxPoints.toNat → d = [])

theorem tmPoints_run (maxPoints : U64) : ∀ (fuel i : Nat) (s : IStream) (acc : List Point) {mem : TmMem}, mem.Good →
    acc.length = i →
    TmRun refuse mem (tmPoints env refuse names types maxPoints fuel i s acc mem)
      (readPoints (skipList env.coin) env names types maxPoints fuel i s mem.map acc)
      (fun a _ b => a = b)
      (TmPointsLeft maxPoints (tmKinds (acc.flatMap (·.vars)))) (TmThrown refuse)
  | 0, i, s, acc, mem, hm, _ => .same hm (by intro a h; cases h) (by intro a h; cases h) rfl
  | fuel + 1, i, s, acc, mem, hm, hi => by
    refine TmRun.congr (readPoints.eq_2 (skipList env.coin) env names types maxPoints i s mem.map acc fuel) ?_
    unfold tmPoints
    split
    · rename_i hwant
      refine TmRun.bind (tmEntries_run env refuse names types (entryFuel s) s .empty hm)
          (Q2 := fun x ps k => TmPointsLeft maxPoints (tmKinds (acc.flatMap (·.vars))) ps (tmKinds x.2.vars ++ k))
          (P2 := fun _ => TmThrown refuse) ?_ ?_ (fun _ _ h => h) ?_
      · rintro ⟨s, p⟩ ⟨s', map, p'⟩ mem' hm' ⟨h1, h2, h3⟩ _
        cases h1
        cases h3
        simp only at h2
        apply TmRun.ownBind hm' (fun e _ => tmThrown_nil e)
        intro mem2 hm2 hmap2
        simp only
        split
        · apply TmRun.liftBind hm2 (fun e _ => tmThrown_nil e)
          intro statement _
          apply TmRun.ownBind hm2 (fun e _ => tmThrown_nil e)
          intro mem3 hm3 hmap3
          rw [← h2, ← hmap2, ← hmap3]
          refine (tmPoints_run maxPoints fuel _ _ _ hm3 (by simp [hi])).mono (fun _ _ _ h => h) ?_ (fun _ _ h => h)
          rintro ps k ⟨d, h, hd⟩
          refine ⟨d, ?_, hd⟩
          rw [← h]
          simp [List.flatMap_append, tmKinds_append]
        · rename_i hng
          cases fuel with
          | zero => exact .same hm2 (by intro a h; cases h) (by intro a h; cases h) rfl
          | succ fuel =>
            refine TmRun.congr (readPoints.eq_2 (skipList env.coin) env names types maxPoints (i + 1) s _ acc fuel) ?_
            unfold tmPoints
            have hf : ¬ (s.isGood && (i + 1 < maxPoints.toNat || maxPoints == 0)) = true := by
              simp only [Bool.not_eq_true] at hng
              simp [hng]
            simp only [if_neg hf]
            refine .pure' hm2 ⟨p.vars, by simp, ?_⟩ rfl
            intro h0 hl
            simp only [Bool.and_eq_true, Bool.or_eq_true, decide_eq_true_eq, beq_iff_eq] at hwant
            rcases hwant.2 with hw | hw
            · omega
            · exact absurd hw h0
      · rintro ⟨s, p⟩ ps k1 k2 h1 ⟨d, h2, hd⟩
        refine ⟨d, ?_, hd⟩
        rw [← h2, h1]
        rfl
      · rintro ⟨s, p⟩ e k1 k2 h1 h2
        refine h2.prefix ?_
        have h3 : k1 = tmKinds p.vars := h1.symm
        rw [h3]
        exact tmKinds_isBlob
    · exact .pure' hm ⟨[], by simp [tmKinds_nil], fun _ _ => rfl⟩ rfl

theorem tmNames_run : ∀ (fuel : Nat) (buf : List U8) {mem : TmMem}, mem.Good →
    TmRun refuse mem (tmNames refuse fuel buf mem) (readNames fuel buf) (fun a m b => a = b ∧ m = mem.map)
      (fun _ k => k = []) (fun _ k => k = [] ∧ ∃ j, refuse j = true)
  | 0, buf, mem, hm => .same hm (by intro a h; cases h) (by intro a h; cases h) rfl
  | fuel + 1, buf, mem, hm => by
    unfold tmNames readNames
    cases splitName buf with
    | none => exact .same hm (by intro a h; cases h) (by intro a h; cases h) rfl
    | some x =>
      obtain ⟨nm, rest⟩ := x
      simp only
      refine TmRun.ownBind (P := fun _ k => k = [] ∧ ∃ j, refuse j = true) hm (fun _ h => ⟨rfl, h⟩) ?_
      intro mem1 hm1 hmap1
      split
      · exact .pure' hm1 rfl ⟨rfl, hmap1⟩
      · refine TmRun.bind (tmNames_run fuel rest hm1) (Q2 := fun _ _ k => k = []) (P2 := fun _ _ k => k = [] ∧ ∃ j, refuse j = true) ?_ ?_
          (fun _ _ h => h) ?_
        · rintro nms b mem2 hm2 ⟨rfl, h2⟩ _
          exact .pure' hm2 rfl ⟨rfl, h2.trans hmap1⟩
        · rintro _ _ _ _ rfl rfl; rfl
        · rintro _ _ _ _ rfl h; exact h

theorem tmShort {s s' : IStream} {n : Nat} (h : readUInt s 8 0 = .ok (n, s')) (hg : ¬ s'.isGood) : s.rest.length < 8 := by
  obtain ⟨bs, io, st⟩ := s
  cases st with
  | good =>
    rcases readUInt_cases (io := io) 8 0 bs with ⟨b, r, _, hb, h1⟩ | ⟨hb, h1⟩
    · rw [h] at h1
      injection h1 with h1
      injection h1 with _ h1
      rw [h1] at hg
      simp at hg
    · exact hb
  | eof => cases h
  | bad => cases h

theorem tmNotGood {s : IStream} {n : Nat} {e : Exn} (h : binaryRead s n = .throw e) : ¬ s.isGood := by
  obtain ⟨bs, io, st⟩ := s
  cases st with
  | good => cases h
  | eof => simp [IStream.isGood]
  | bad => simp [IStream.isGood]

theorem tmFill_no_throw (env : Env) (n : Nat) (got : List U8) (e : Exn) : env.fillUninit n got ≠ .throw e := by
  unfold Env.fillUninit
  split
  · simp
  · split <;> simp

/-- What the name table leaves when it throws: its buffer, or nothing. -/
def TmNamesThrown (s : IStream) (_ : Exn) (ks : List TmKind) : Prop :=
  ks = [] ∨ (ks = [.nameBuf] ∧ ((∃ j, refuse j = true) ∨ s.rest.length < 8))

theorem tmNameTable_run {mem : TmMem} (hm : mem.Good) (s : IStream) :
    TmRun refuse mem (tmNameTable env refuse s mem) (readNameTable env s) (fun a m b => a = b ∧ m = mem.map)
      (fun _ k => k = []) (TmNamesThrown refuse s) := by
  unfold tmNameTable readNameTable
  apply TmRun.liftBind hm (fun _ _ => .inl rfl)
  rintro ⟨nChars, s1⟩ hs1
  have hshort : ¬ s1.isGood → s.rest.length < 8 := tmShort hs1
  simp only
  split
  · rw [TmM.bind_eq]
    simp only [TmM.new]
    by_cases hc : env.canNew nChars && !refuse mem.count
    · rw [if_pos hc]
      simp only [Bool.and_eq_true, Bool.not_eq_true'] at hc
      rw [if_neg (by simp [hc.1])]
      have hg : TmMem.Good { mem with count := mem.count + 1, loose := mem.loose ++ [(mem.count, .nameBuf)] } := by
        refine ⟨?_, hm.2⟩
        intro b hb
        rcases List.mem_append.mp hb with hb | hb
        · exact Nat.lt_succ_of_lt (hm.1 b hb)
        · simp only [List.mem_singleton] at hb
          subst hb
          exact Nat.lt_succ_self _
      -- up to the release
      have hrun := TmRun.liftBind (refuse := refuse) hg (x := binaryRead s1 nChars)
        (f := fun (x : List U8 × IStream) => do
            let bytes ← TmM.lift (env.fillUninit nChars x.1)
            let names ← tmNames refuse (bytes.length + 1) bytes
            pure (names, x.2))
        (g := fun x => do
            let buf ← env.fillUninit nChars x.1
            let names ← readNames (buf.length + 1) buf
            pure (names, x.2))
        (R := fun a m b => a = b ∧ m = mem.map)
        (Q := fun _ k => k = []) (P := fun _ k => k = [] ∧ ((∃ j, refuse j = true) ∨ s.rest.length < 8)) (fun e he => ⟨rfl, .inr (hshort (tmNotGood he))⟩) (by
          rintro ⟨got, s2⟩ _
          simp only
          refine TmRun.liftBind (P := fun _ k => k = [] ∧ ((∃ j, refuse j = true) ∨ s.rest.length < 8)) hg (fun e he => absurd he (tmFill_no_throw _ _ _ _)) ?_
          intro bytes _
          refine TmRun.bind (tmNames_run refuse _ _ hg) (Q2 := fun _ _ k => k = []) (P2 := fun _ _ k => k = [] ∧ ((∃ j, refuse j = true) ∨ s.rest.length < 8)) ?_ ?_
            (fun _ _ h => ⟨h.1, .inl h.2⟩) ?_
          · rintro nms b mem2 hm2 ⟨rfl, h2⟩ _
            exact .pure' hm2 rfl ⟨rfl, h2⟩
          · rintro _ _ _ _ rfl rfl; rfl
          · rintro _ _ _ _ rfl h; exact h)
      have hbody : (do
            let (got, s) ← TmM.lift (binaryRead s1 nChars)
            let bytes ← TmM.lift (env.fillUninit nChars got)
            let names ← tmNames refuse (bytes.length + 1) bytes
            TmM.release mem.count
            pure (names, s) : TmM (List Name × IStream)) =
          ((do
            let x ← TmM.lift (binaryRead s1 nChars)
            let bytes ← TmM.lift (env.fillUninit nChars x.1)
            let names ← tmNames refuse (bytes.length + 1) bytes
            pure (names, x.2) : TmM (List Name × IStream)) >>= fun a => do
              TmM.release mem.count
              pure a) := by
        simp only [TmM.bind_assoc']
        rfl
      simp only
      rw [hbody, TmM.bind_eq]
      generalize hx : (do
            let x ← TmM.lift (binaryRead s1 nChars)
            let bytes ← TmM.lift (env.fillUninit nChars x.1)
            let names ← tmNames refuse (bytes.length + 1) bytes
            pure (names, x.2) : TmM (List Name × IStream)) _ = out at hrun ⊢
      obtain ⟨o, m1⟩ := out
      obtain ⟨x, e1, e2, e3, e4⟩ := hrun.left
      have hcnt : mem.count + 1 ≤ m1.count := hrun.count
      cases o with
      | ok a =>
        have hx0 : x = [] := by simpa using e3 a rfl
        subst hx0
        simp only at e1
        rw [List.append_nil] at e1
        have hany : m1.loose.any (·.1 == mem.count) = true := by rw [e1]; simp
        have hfil : m1.loose.filter (·.1 != mem.count) = mem.loose := by
          rw [e1, List.filter_append]
          rw [List.filter_eq_self.mpr (by intro b hb; have := hm.1 b hb; simp; omega)]
          simp
        simp only [TmM.bind_eq, TmM.release, hany, if_true, hfil]
        refine ⟨⟨fun b hb => Nat.lt_of_lt_of_le (hm.1 b hb) (by show mem.count ≤ m1.count; omega), hrun.good.2⟩,
          by show mem.count ≤ m1.count; omega, ⟨[], by simp [pure], by simp, by simp, by intro e h; cases h⟩, ?_⟩
        rcases hrun.agrees with h | ⟨h | h, _⟩
        · exact .inl h
        · cases h
        · cases h
      | throw e =>
        refine ⟨hrun.good, by show mem.count ≤ m1.count; omega, ⟨(mem.count, .nameBuf) :: x, ?_, ?_, ?_, ?_⟩,
        hrun.agrees.imp id fun ⟨h, j, hj, hj'⟩ => ⟨h, j, Nat.le_of_succ_le hj, hj'⟩⟩
        · exact e1.trans (by simp)
        · intro b hb
          rcases List.mem_cons.mp hb with rfl | hb
          · exact Nat.le_refl _
          · exact Nat.le_of_succ_le (e2 b hb)
        · intro a h; cases h
        · intro e' _
          right
          obtain ⟨h1, h2⟩ := e4 e rfl
          exact ⟨by rw [List.map_cons, h1], h2⟩
      | abort =>
        refine ⟨hrun.good, by show mem.count ≤ m1.count; omega, ⟨(mem.count, .nameBuf) :: x, ?_, ?_, ?_, ?_⟩,
        hrun.agrees.imp id fun ⟨h, j, hj, hj'⟩ => ⟨h, j, Nat.le_of_succ_le hj, hj'⟩⟩
        · exact e1.trans (by simp)
        · intro b hb
          rcases List.mem_cons.mp hb with rfl | hb
          · exact Nat.le_refl _
          · exact Nat.le_of_succ_le (e2 b hb)
        · intro a h; cases h
        · intro e' h; cases h
      | ub k =>
        refine ⟨hrun.good, by show mem.count ≤ m1.count; omega, ⟨(mem.count, .nameBuf) :: x, ?_, ?_, ?_, ?_⟩,
        hrun.agrees.imp id fun ⟨h, j, hj, hj'⟩ => ⟨h, j, Nat.le_of_succ_le hj, hj'⟩⟩
        · exact e1.trans (by simp)
        · intro b hb
          rcases List.mem_cons.mp hb with rfl | hb
          · exact Nat.le_refl _
          · exact Nat.le_of_succ_le (e2 b hb)
        · intro a h; cases h
        · intro e' h; cases h
      | hang =>
        refine ⟨hrun.good, by show mem.count ≤ m1.count; omega, ⟨(mem.count, .nameBuf) :: x, ?_, ?_, ?_, ?_⟩,
        hrun.agrees.imp id fun ⟨h, j, hj, hj'⟩ => ⟨h, j, Nat.le_of_succ_le hj, hj'⟩⟩
        · exact e1.trans (by simp)
        · intro b hb
          rcases List.mem_cons.mp hb with rfl | hb
          · exact Nat.le_refl _
          · exact Nat.le_of_succ_le (e2 b hb)
        · intro a h; cases h
        · intro e' h; cases h
    · rw [if_neg hc]
      simp only
      refine ⟨⟨fun b hb => Nat.lt_succ_of_lt (hm.1 b hb), hm.2⟩, Nat.le_succ _,
        ⟨[], by simp, by simp, (by intro a h; cases h), fun e _ => .inl rfl⟩, ?_⟩
      by_cases hn : env.canNew nChars
      · right
        exact ⟨.inl rfl, mem.count, Nat.le_refl _, Nat.lt_succ_self _, by simpa [hn] using hc⟩
      · left
        rw [if_pos (by simp [hn])]
        rfl
  · exact .pure' hm rfl ⟨rfl, rfl⟩

theorem tmTypeTable_run {mem : TmMem} (hm : mem.Good) (s : IStream) :
    TmRun refuse mem (tmTypeTable env refuse s mem) (readTypeTable env s) (fun a m b => a = b ∧ m = mem.map)
      (fun _ k => k = []) (TmThrown refuse) := by
  unfold tmTypeTable readTypeTable
  apply TmRun.liftBind hm (fun e _ => tmThrown_nil e)
  rintro ⟨nTypes, s⟩ _
  simp only
  have hlift : ∀ {mem' : TmMem}, mem'.Good → mem'.map = mem.map → TmRun refuse mem' (TmM.lift (readTypes nTypes s) mem') (readTypes nTypes s)
      (fun a m b => a = b ∧ m = mem.map) (fun _ k => k = []) (TmThrown refuse) := by
    intro mem' hm' hmap
    refine .same hm' (fun _ _ => rfl) (fun e _ => tmThrown_nil e) ?_
    cases readTypes nTypes s with
    | ok x => exact ⟨x, rfl, rfl, hmap⟩
    | throw e => rfl
    | abort => rfl
    | ub k => rfl
    | hang => rfl
  by_cases h0 : nTypes > 0
  · rw [if_pos h0]
    by_cases hc : env.canNew (12 * nTypes)
    · rw [if_pos hc, if_neg (by simp [hc])]
      apply TmRun.ownBind hm (fun e _ => tmThrown_nil e)
      intro mem' hm' hmap
      exact hlift hm' hmap
    · rw [if_neg hc, if_pos (by simp [hc, h0])]
      exact .same hm (by intro a h; cases h) (fun e _ => tmThrown_nil e) rfl
  · rw [if_neg h0, if_neg (by simp [h0])]
    exact hlift hm rfl

/-- What reading a trace leaves when it throws. -/
def TmTraceThrown (s : IStream) (e : Exn) (ks : List TmKind) : Prop :=
  (ks = [.nameBuf] ∧ ((∃ j, refuse j = true) ∨ s.rest.length < 8)) ∨ TmThrown refuse e ks

theorem tmTrace_run (maxPoints : U64) {mem : TmMem} (hm : mem.Good) (hmap : mem.map = MemMap.construct) (s : IStream) :
    TmRun refuse mem (tmTrace env refuse maxPoints s mem) (readTrace env maxPoints s) (fun a _ b => a = b)
      (fun t k => TmPointsLeft maxPoints [] t.points k) (TmTraceThrown refuse s) := by
  unfold tmTrace readTrace readTraceWith
  refine TmRun.bind (tmNameTable_run env refuse hm s)
    (Q2 := fun _ t k => TmPointsLeft maxPoints [] t.points k) (P2 := fun _ => TmThrown refuse) ?_ ?_ ?_ ?_
  · rintro ⟨names, s⟩ b mem1 hm1 ⟨rfl, hmap1⟩ _
    refine TmRun.bind (tmTypeTable_run env refuse hm1 s)
      (Q2 := fun _ t k => TmPointsLeft maxPoints [] t.points k) (P2 := fun _ => TmThrown refuse) ?_ ?_ (fun _ _ h => h) ?_
    · rintro ⟨types, s⟩ b mem2 hm2 ⟨rfl, hmap2⟩ _
      have hp := tmPoints_run env refuse names types maxPoints (s.rest.length + 3) 0 s [] hm2 rfl
      rw [hmap2, hmap1, hmap] at hp
      refine TmRun.bind hp
        (Q2 := fun ps t k => k = [] ∧ t.points = ps) (P2 := fun _ _ k => k = []) ?_ ?_ (fun _ _ h => h) ?_
      · rintro ps b mem3 hm3 rfl _
        exact .pure' hm3 ⟨rfl, rfl⟩ rfl
      · rintro ps t k1 k2 h ⟨rfl, rfl⟩
        simpa [tmKinds_nil] using h
      · rintro ps e k1 k2 ⟨d, h, _⟩ rfl
        left
        have h1 : k1 = tmKinds (ps.flatMap (·.vars)) ++ tmKinds d := by simpa [tmKinds_nil] using h
        rw [List.append_nil, h1, ← tmKinds_append]
        exact tmKinds_isBlob
    · rintro x t k1 k2 rfl h
      simpa using h
    · rintro x e k1 k2 rfl h
      simpa using h
  · rintro x t k1 k2 rfl h
    simpa using h
  · rintro e k (rfl | h)
    · exact .inr (tmThrown_nil e)
    · exact .inl h
  · rintro x e k1 k2 rfl h
    exact .inr (by simpa using h)

end

theorem TmTraceThrown.failure {refuse : Nat → Bool} {s : IStream} {e : Exn} {ks : List TmKind}
    (h : TmTraceThrown refuse s e ks) : TmLeftByFailure refuse s ks := by
  rcases h with h | h | ⟨_, h⟩
  · exact .inr (.inl h)
  · exact .inl h
  · exact .inr (.inr h)

theorem TmPointsLeft.trace {maxPoints : U64} {t : Trace} {ks : List TmKind} (h : TmPointsLeft maxPoints [] t.points ks) :
    TmLeftByTrace maxPoints t ks := by
  obtain ⟨d, h1, h2⟩ := h
  exact ⟨d, by simpa [Trace.allVars] using h1, h2⟩

theorem tmRelease_two {α : Type} {m : TmMem} {L x : List (Nat × TmKind)} {c : Nat} (a : α)
    (hm : m.loose = L ++ [(c, .fileBuf)] ++ [(c + 1, .stream)] ++ x) (hL : ∀ b ∈ L, b.1 < c) (hx : ∀ b ∈ x, c + 3 ≤ b.1) :
    (do
      TmM.release c
      TmM.release (c + 1)
      pure a : TmM α) m = (.ok a, { m with loose := L ++ x }) := by
  have h1 : m.loose.any (·.1 == c) = true := by rw [hm]; simp
  have h2 : m.loose.filter (·.1 != c) = L ++ [(c + 1, .stream)] ++ x := by
    rw [hm]
    simp only [List.filter_append]
    rw [List.filter_eq_self.mpr (by intro b hb; have := hL b hb; simp; omega)]
    rw [List.filter_eq_self (l := x) |>.mpr (by intro b hb; have := hx b hb; simp; omega)]
    simp
  have h3 : (L ++ [(c + 1, TmKind.stream)] ++ x).any (·.1 == c + 1) = true := by simp
  have h4 : (L ++ [(c + 1, TmKind.stream)] ++ x).filter (·.1 != c + 1) = L ++ x := by
    simp only [List.filter_append]
    rw [List.filter_eq_self.mpr (by intro b hb; have := hL b hb; simp; omega)]
    rw [List.filter_eq_self (l := x) |>.mpr (by intro b hb; have := hx b hb; simp; omega)]
    simp
  simp only [TmM.bind_eq, TmM.release, h1, h2, h3, h4, if_true]
  rfl

theorem tmFinally_ok {α : Type} {body : TmM α} {cleanup : TmM Unit} {m m' m'' : TmMem} {a : α}
    (h1 : body m = (.ok a, m')) (h2 : cleanup m' = (.ok (), m'')) : TmM.finally' body cleanup m = (.ok a, m'') := by
  simp only [TmM.finally', h1, TmM.bind, h2, TmM.lift]

/-- All about one call. -/
theorem tmAddTrace_run (grow : Nat → Nat) (env : Env) (refuse : Nat → Bool) (db : Db) (s : IStream) (maxPoints : U64)
    (mem : TmMem) (hm : mem.Tidy) (out : Res (Nat × Db) × TmMem) (hout : tmAddTrace grow env refuse db (some s) maxPoints mem = out) :
    mem.count ≤ out.2.count ∧
    (out.1 = addTraceApi grow env db (some s) maxPoints ∨
      ((out.1 = .ok (0, db) ∨ out.1 = .ub .nullDeref) ∧ ∃ j, mem.count ≤ j ∧ j < out.2.count ∧ refuse j = true)) ∧
    ∀ r, out.1 = .ok r → out.2.Tidy ∧ ∃ extra, out.2.loose = mem.loose ++ extra ∧ (∀ b ∈ extra, mem.count ≤ b.1) ∧
      ((∃ t, readTrace env maxPoints s = .ok t ∧ r = (1, db.addTrace grow t) ∧ TmLeftByTrace maxPoints t (extra.map (·.2))) ∨
        (r = (0, db) ∧ TmLeftByFailure refuse s (extra.map (·.2)))) := by
  obtain ⟨hlt, hnodes⟩ := hm
  have hlt' : ∀ n, mem.count ≤ n → ∀ b ∈ mem.loose, b.1 < n := fun n hn b hb => Nat.lt_of_lt_of_le (hlt b hb) hn
  have hgone : ∀ c, mem.count < c → (∃ j, mem.count ≤ j ∧ j < c ∧ refuse j = true) →
      out = (.ok (0, db), ⟨c, mem.map, mem.loose⟩) →
      mem.count ≤ out.2.count ∧
      (out.1 = addTraceApi grow env db (some s) maxPoints ∨
        ((out.1 = .ok (0, db) ∨ out.1 = .ub .nullDeref) ∧ ∃ j, mem.count ≤ j ∧ j < out.2.count ∧ refuse j = true)) ∧
      ∀ r, out.1 = .ok r → out.2.Tidy ∧ ∃ extra, out.2.loose = mem.loose ++ extra ∧ (∀ b ∈ extra, mem.count ≤ b.1) ∧
        ((∃ t, readTrace env maxPoints s = .ok t ∧ r = (1, db.addTrace grow t) ∧ TmLeftByTrace maxPoints t (extra.map (·.2))) ∨
          (r = (0, db) ∧ TmLeftByFailure refuse s (extra.map (·.2)))) := by
    intro c hc hj ho
    subst ho
    refine ⟨Nat.le_of_lt hc, .inr ⟨.inl rfl, hj⟩, ?_⟩
    intro r hr
    cases hr
    exact ⟨⟨hlt' c (Nat.le_of_lt hc), hnodes⟩, [], by simp, by simp, .inr ⟨rfl, .inl (by simp)⟩⟩
  simp only [tmAddTrace] at hout
  by_cases hr0 : refuse mem.count
  · refine hgone (mem.count + 1) (Nat.lt_succ_self _) ⟨_, Nat.le_refl _, Nat.lt_succ_self _, hr0⟩ ?_
    rw [← hout]
    simp only [TmM.catching, TmM.bind_eq, TmM.new, hr0, Bool.not_true, Bool.and_false, Bool.false_eq_true, if_false]
    rfl
  simp only [Bool.not_eq_true] at hr0
  by_cases hr1 : refuse (mem.count + 1)
  · refine hgone (mem.count + 2) (by omega) ⟨_, Nat.le_succ _, Nat.lt_succ_self _, hr1⟩ ?_
    rw [← hout]
    have h1 : (mem.loose ++ [(mem.count, TmKind.fileBuf)]).any (·.1 == mem.count) = true := by simp
    have h2 : (mem.loose ++ [(mem.count, TmKind.fileBuf)]).filter (·.1 != mem.count) = mem.loose := by
      rw [List.filter_append, List.filter_eq_self.mpr (by intro b hb; have := hlt b hb; simp; omega)]
      simp
    simp only [TmM.catching, TmM.bind_eq, TmM.new, hr0, hr1, Bool.not_true, Bool.not_false, Bool.and_false, Bool.and_true,
      Bool.false_eq_true, if_false, if_true, TmM.release, h1, h2]
    rfl
  simp only [Bool.not_eq_true] at hr1
  let mem2 : TmMem := ⟨mem.count + 2, mem.map, mem.loose ++ [(mem.count, .fileBuf)] ++ [(mem.count + 1, .stream)]⟩
  have hin : ∀ res m, tmAddStream grow env refuse db s maxPoints mem.count (mem.count + 1) mem2 = (res, m) →
      (∀ e, res ≠ .throw e) → out = (res, m) := by
    intro res m h1 h2
    rw [← hout]
    simp only [TmM.catching, TmM.bind_eq, TmM.new, hr0, hr1, Bool.not_false, Bool.and_true, if_true]
    rw [show tmAddStream grow env refuse db s maxPoints mem.count (mem.count + 1)
      { count := mem.count + 1 + 1, map := mem.map, loose := mem.loose ++ [(mem.count, TmKind.fileBuf)] ++ [(mem.count + 1, TmKind.stream)] } =
      (res, m) from h1]
    cases res with
    | throw e => exact absurd rfl (h2 e)
    | ok a => rfl
    | abort => rfl
    | ub k => rfl
    | hang => rfl
  by_cases hr2 : refuse (mem.count + 2)
  · refine hgone (mem.count + 3) (by omega) ⟨_, by omega, Nat.lt_succ_self _, hr2⟩ ?_
    refine hin _ _ ?_ (by intro e h; cases h)
    have h := tmRelease_two (m := ⟨mem.count + 3, mem.map, mem.loose ++ [(mem.count, .fileBuf)] ++ [(mem.count + 1, .stream)]⟩)
      (L := mem.loose) (x := []) (c := mem.count) (0, db) (by simp) hlt (by simp)
    rw [List.append_nil] at h
    rw [← h]
    simp only [tmAddStream, TmM.catching]
    rw [TmM.bind_eq]
    simp only [TmM.newMap, TmM.bind, TmM.own, mem2, hr2, if_true]
  simp only [Bool.not_eq_true] at hr2
  let mem3 : TmMem := ⟨mem.count + 3, MemMap.construct, mem.loose ++ [(mem.count, .fileBuf)] ++ [(mem.count + 1, .stream)]⟩
  have hg3 : mem3.Good := by
    refine ⟨?_, [], [], MemMap.Rep.construct⟩
    intro b hb
    simp only [mem3, List.mem_append, List.mem_singleton] at hb ⊢
    rcases hb with (hb | rfl) | rfl
    · exact hlt' _ (by omega) b hb
    · simp
    · simp
  have hrun := tmTrace_run env refuse maxPoints hg3 rfl s
  -- the end of the call
  generalize hx : tmTrace env refuse maxPoints s mem3 = x at hrun
  obtain ⟨o, m4⟩ := x
  obtain ⟨extra, e1, e2, e3, e4⟩ := hrun.left
  have hcount : mem.count + 3 ≤ m4.count := hrun.count
  have he2 : ∀ b ∈ extra, mem.count + 3 ≤ b.1 := e2
  have he1 : m4.loose = mem.loose ++ [(mem.count, .fileBuf)] ++ [(mem.count + 1, .stream)] ++ extra := e1
  obtain ⟨hlt4, H, base, hrep⟩ := hrun.good
  obtain ⟨map', hd1, hd2⟩ := hrep.inv.destruct
  have hlt5 : ∀ c, m4.count ≤ c → ∀ b ∈ mem.loose ++ extra, b.1 < c := by
    intro c hc b hb
    refine Nat.lt_of_lt_of_le (hlt4 b ?_) hc
    rw [he1]
    rcases List.mem_append.mp hb with hb | hb
    · simp [hb]
    · simp [hb]
  have hstart : tmAddStream grow env refuse db s maxPoints mem.count (mem.count + 1) mem2 =
      TmM.catching (fun (_ : TmMem) => (do
        let db' ← TmM.finally' (do
          let t ← tmTrace env refuse maxPoints s
          TmM.own refuse
          pure (db.addTrace grow t)) TmM.destroyMap
        TmM.release mem.count
        TmM.release (mem.count + 1)
        pure (1, db') : TmM (Nat × Db)) mem3) (do
        TmM.release mem.count
        TmM.release (mem.count + 1)
        pure (0, db)) mem2 := by
    simp only [tmAddStream, TmM.catching]
    rw [TmM.bind_eq]
    simp only [TmM.newMap, TmM.bind, TmM.own, mem2, hr2, Bool.false_eq_true, if_false]
    rfl
  -- the handler
  have hfail : ∀ c, m4.count ≤ c → ∀ e, TmM.finally' (do
          let t ← tmTrace env refuse maxPoints s
          TmM.own refuse
          pure (db.addTrace grow t)) TmM.destroyMap mem3 = (.throw e, ⟨c, map', m4.loose⟩) →
      out = (.ok (0, db), ⟨c, map', mem.loose ++ extra⟩) := by
    intro c hc e hf
    refine hin _ _ ?_ (by intro e h; cases h)
    rw [hstart]
    have h := tmRelease_two (m := ⟨c, map', m4.loose⟩) (L := mem.loose) (x := extra) (c := mem.count) (0, db) he1 hlt he2
    rw [← h]
    simp only [TmM.catching]
    rw [TmM.bind_eq, hf]
  have hother : ∀ (o' : Res (Nat × Db)), (∀ a, o' ≠ .ok a) → (∀ e, o' ≠ .throw e) →
      tmAddStream grow env refuse db s maxPoints mem.count (mem.count + 1) mem2 = (o', m4) →
      (o' = addTraceApi grow env db (some s) maxPoints ∨
        (o' = .ub .nullDeref ∧ ∃ j, mem.count + 3 ≤ j ∧ j < m4.count ∧ refuse j = true)) →
      mem.count ≤ out.2.count ∧
      (out.1 = addTraceApi grow env db (some s) maxPoints ∨
        ((out.1 = .ok (0, db) ∨ out.1 = .ub .nullDeref) ∧ ∃ j, mem.count ≤ j ∧ j < out.2.count ∧ refuse j = true)) ∧
      ∀ r, out.1 = .ok r → out.2.Tidy ∧ ∃ extra, out.2.loose = mem.loose ++ extra ∧ (∀ b ∈ extra, mem.count ≤ b.1) ∧
        ((∃ t, readTrace env maxPoints s = .ok t ∧ r = (1, db.addTrace grow t) ∧ TmLeftByTrace maxPoints t (extra.map (·.2))) ∨
          (r = (0, db) ∧ TmLeftByFailure refuse s (extra.map (·.2)))) := by
    intro o' h1 h2 h3 h4
    have ho := hin o' m4 h3 h2
    subst ho
    refine ⟨by show mem.count ≤ m4.count; omega, ?_, fun r hr => absurd hr (h1 r)⟩
    rcases h4 with h4 | ⟨h4, j, hj1, hj2, hj3⟩
    · exact .inl h4
    · exact .inr ⟨.inr h4, j, by omega, hj2, hj3⟩
  cases o with
  | ok t =>
    have hread : readTrace env maxPoints s = .ok t := by
      rcases hrun.agrees with ha | ⟨ha | ha, _⟩
      · cases hr : readTrace env maxPoints s with
        | ok b =>
          rw [hr] at ha
          obtain ⟨a, h1, h2⟩ := ha
          cases h1
          rw [h2]
        | throw e => rw [hr] at ha; cases ha
        | abort => rw [hr] at ha; cases ha
        | ub k => rw [hr] at ha; cases ha
        | hang => rw [hr] at ha; cases ha
      · cases ha
      · cases ha
    have hleft := TmPointsLeft.trace (e3 t rfl)
    by_cases hr4 : refuse m4.count
    · have ho := hfail (m4.count + 1) (Nat.le_succ _) .alloc (by
        simp only [TmM.finally']
        rw [TmM.bind_eq, hx]
        simp only [TmM.bind_eq, TmM.own, hr4, if_true, TmM.bind, TmM.destroyMap, hd1]
        rfl)
      subst ho
      refine ⟨by show mem.count ≤ m4.count + 1; omega, .inr ⟨.inl rfl, m4.count, by omega, Nat.lt_succ_self _, hr4⟩, ?_⟩
      intro r hr
      cases hr
      refine ⟨⟨hlt5 _ (Nat.le_succ _), hd2⟩, extra, rfl, fun b hb => by have := he2 b hb; omega, .inr ⟨rfl, .inl ?_⟩⟩
      obtain ⟨d, h, _⟩ := hleft
      rw [h, ← tmKinds_append]
      exact tmKinds_isBlob
    · have ho : out = (.ok (1, db.addTrace grow t), ⟨m4.count + 1, map', mem.loose ++ extra⟩) := by
        refine hin _ _ ?_ (by intro e h; cases h)
        rw [hstart]
        have h := tmRelease_two (m := ⟨m4.count + 1, map', m4.loose⟩) (L := mem.loose) (x := extra) (c := mem.count)
          (1, db.addTrace grow t) he1 hlt he2
        have hf : TmM.finally' (do
            let t ← tmTrace env refuse maxPoints s
            TmM.own refuse
            pure (db.addTrace grow t)) TmM.destroyMap mem3 = (.ok (db.addTrace grow t), ⟨m4.count + 1, map', m4.loose⟩) := by
          simp only [Bool.not_eq_true] at hr4
          refine tmFinally_ok (m' := { m4 with count := m4.count + 1 }) ?_ ?_
          · rw [TmM.bind_eq, hx]
            simp only [TmM.bind_eq, TmM.own, hr4, Bool.false_eq_true, if_false]
            rfl
          · simp only [TmM.destroyMap, hd1]
        simp only [TmM.catching]
        rw [TmM.bind_eq, hf]
        simp only
        rw [h]
      subst ho
      refine ⟨by show mem.count ≤ m4.count + 1; omega, .inl ?_, ?_⟩
      · simp only [addTraceApi, hread]
      · intro r hr
        cases hr
        exact ⟨⟨hlt5 _ (Nat.le_succ _), hd2⟩, extra, rfl, fun b hb => by have := he2 b hb; omega, .inl ⟨t, hread, rfl, hleft⟩⟩
  | throw e =>
    have ho := hfail m4.count (Nat.le_refl _) e (by
      simp only [TmM.finally']
      rw [TmM.bind_eq, hx]
      simp only [TmM.bind, TmM.destroyMap, hd1]
      rfl)
    subst ho
    refine ⟨by show mem.count ≤ m4.count; omega, ?_, ?_⟩
    · rcases hrun.agrees with ha | ⟨_, j, hj1, hj2⟩
      · left
        cases hr : readTrace env maxPoints s with
        | ok b => rw [hr] at ha; obtain ⟨a, h1, _⟩ := ha; cases h1
        | throw e => simp only [addTraceApi, hr]
        | abort => rw [hr] at ha; cases ha
        | ub k => rw [hr] at ha; cases ha
        | hang => rw [hr] at ha; cases ha
      · have hj1 : mem.count + 3 ≤ j := hj1
        exact .inr ⟨.inl rfl, j, by omega, hj2⟩
    · intro r hr
      cases hr
      exact ⟨⟨hlt5 _ (Nat.le_refl _), hd2⟩, extra, rfl, fun b hb => by have := he2 b hb; omega,
        .inr ⟨rfl, (e4 e rfl).failure⟩⟩
  | abort =>
    refine hother .abort (by intro a h; cases h) (by intro a h; cases h) ?_ ?_
    · rw [hstart]
      simp only [TmM.catching]
      rw [TmM.bind_eq]
      simp only [TmM.finally']
      rw [TmM.bind_eq, hx]
    · rcases hrun.agrees with ha | ⟨ha | ha, _⟩
      · left
        cases hr : readTrace env maxPoints s with
        | ok b => rw [hr] at ha; obtain ⟨a, h1, _⟩ := ha; cases h1
        | throw e => rw [hr] at ha; cases ha
        | abort => simp only [addTraceApi, hr]
        | ub k => rw [hr] at ha; cases ha
        | hang => rw [hr] at ha; cases ha
      · cases ha
      · cases ha
  | ub k =>
    refine hother (.ub k) (by intro a h; cases h) (by intro a h; cases h) ?_ ?_
    · rw [hstart]
      simp only [TmM.catching]
      rw [TmM.bind_eq]
      simp only [TmM.finally']
      rw [TmM.bind_eq, hx]
    · rcases hrun.agrees with ha | ⟨ha | ha, hj⟩
      · left
        cases hr : readTrace env maxPoints s with
        | ok b => rw [hr] at ha; obtain ⟨a, h1, _⟩ := ha; cases h1
        | throw e => rw [hr] at ha; cases ha
        | abort => rw [hr] at ha; cases ha
        | ub k' => rw [hr] at ha; cases ha; simp only [addTraceApi, hr]
        | hang => rw [hr] at ha; cases ha
      · cases ha
      · cases ha
        exact .inr ⟨rfl, hj⟩
  | hang =>
    refine hother .hang (by intro a h; cases h) (by intro a h; cases h) ?_ ?_
    · rw [hstart]
      simp only [TmM.catching]
      rw [TmM.bind_eq]
      simp only [TmM.finally']
      rw [TmM.bind_eq, hx]
    · rcases hrun.agrees with ha | ⟨ha | ha, _⟩
      · left
        cases hr : readTrace env maxPoints s with
        | ok b => rw [hr] at ha; obtain ⟨a, h1, _⟩ := ha; cases h1
        | throw e => rw [hr] at ha; cases ha
        | abort => rw [hr] at ha; cases ha
        | ub k => rw [hr] at ha; cases ha
        | hang => simp only [addTraceApi, hr]
      · cases ha
      · cases ha

end TraceDB
