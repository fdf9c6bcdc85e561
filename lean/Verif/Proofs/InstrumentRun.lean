import Verif.Proofs.Instrument
/-
Running instrumented code and loading its trace.
-/
namespace TraceDB

/-- A scalar as recorded. -/
def GenVar.recorded (env : CEnv) (g : GenVar) : VarRec :=
  ⟨BitVec.ofNat 32 g.name, BitVec.ofNat 32 g.type, env.scalar g.var.name⟩

/-- A string as recorded. -/
def GenBlob.recorded (env : CEnv) (g : GenBlob) : BlobRec :=
  ⟨BitVec.ofNat 32 g.name, BitVec.ofNat 32 g.type, env.text g.var.name⟩

/-- What a generated call records. -/
def GenCall.recorded (env : CEnv) : GenCall → RecItem
  | .variables l => .vars (l.map (GenVar.recorded env))
  | .blobs l => .blobs (l.map (GenBlob.recorded env))

/-- A generated scalar that is recorded correctly. -/
structure GenVar.Good (te : TableTests) (names : List Name) (rows : List TypeRow) (cf : CFloat) (env : CEnv) (g : GenVar) :
    Prop where
  name : ∃ n', names[g.name]? = some n' ∧ te.name n' g.var.name = true
  type : ∃ (row : TypeRow) (n' : Name), rows[g.type]? = some row ∧ row.format = (env.scalar g.var.name).format ∧
    row.size = (env.scalar g.var.name).size ∧ names[row.name]? = some n' ∧ te.name n' (typeTraceString g.var.type) = true
  format : g.format = (env.scalar g.var.name).format
  size : g.size = (env.scalar g.var.name).size
  range : (env.scalar g.var.name).InRange
  float : (env.scalar g.var.name).FloatOk cf

/-- A generated string that is recorded correctly. -/
structure GenBlob.Good (te : TableTests) (names : List Name) (rows : List TypeRow) (env : CEnv) (g : GenBlob) : Prop where
  name : ∃ n', names[g.name]? = some n' ∧ te.name n' g.var.name = true
  type : ∃ (row : TypeRow) (n' : Name), rows[g.type]? = some row ∧ row.format = .blob ∧
    row.size = 0 ∧ names[row.name]? = some n' ∧ te.name n' (typeTraceString g.var.type) = true
  length : (env.text g.var.name).length < 2 ^ 32

theorem GenVar.For.good {te : TableTests} {rs : List TabReq} {names : List Name} {rows : List TypeRow} {cf : CFloat}
    {env : CEnv} {ps : Bool} {v : ScopeVar} {g : GenVar} (he : EmittedFor te rs names rows)
    (h : GenVar.For te Tables.empty rs ps v g) (hs : v.AsScalar ps) (hfit : v.Fits cf ps env) :
    GenVar.Good te names rows cf env g := by
  obtain ⟨rfl, hf, ht, hn⟩ := h
  obtain ⟨h1, h2, h3⟩ := hfit.scalar hs
  rw [formatAndSize_holds hs.1 h1, Option.some.injEq, Prod.mk.injEq] at hf
  obtain ⟨row, n', a1, a2, a3, a4, a5⟩ := he.type _ _ _ _ ht
  exact ⟨he.name _ _ hn, ⟨row, n', a1, a2.trans hf.1.symm, a3.trans hf.2.symm, a4, a5⟩, hf.1.symm, hf.2.symm, h2, h3⟩

theorem GenBlob.For.good {te : TableTests} {rs : List TabReq} {names : List Name} {rows : List TypeRow} {cf : CFloat}
    {env : CEnv} {ps : Bool} {v : ScopeVar} {g : GenBlob} (he : EmittedFor te rs names rows)
    (h : GenBlob.For te Tables.empty rs ps v g) (hs : v.AsText ps) (hfit : v.Fits cf ps env) :
    GenBlob.Good te names rows env g := by
  obtain ⟨rfl, hf, ht, hn⟩ := h
  obtain ⟨row, n', a1, a2, a3, a4, a5⟩ := he.type _ _ _ _ ht
  exact ⟨he.name _ _ hn, ⟨row, n', a1, a2, a3, a4, a5⟩, hfit.text hs⟩

/-- All arguments of a call are recorded correctly. -/
def GenCall.Good (te : TableTests) (names : List Name) (rows : List TypeRow) (cf : CFloat) (env : CEnv) : GenCall → Prop
  | .variables l => l.length < 2 ^ 32 ∧ ∀ g ∈ l, GenVar.Good te names rows cf env g
  | .blobs l => l.length < 2 ^ 32 ∧ ∀ g ∈ l, GenBlob.Good te names rows env g

theorem ArgsAll.map {α β : Type} {A : α → List Slot → Prop} {B : β → List Slot → Prop} {f : α → β} {l : List α}
    {args : List Slot} (h : ArgsAll A l args) (hi : ∀ x ∈ l, ∀ a, A x a → B (f x) a) : ArgsAll B (l.map f) args := by
  induction h with
  | nil => exact .nil
  | cons hx _ ih => exact .cons (hi _ (by simp) _ hx) (ih fun x hx => hi x (List.mem_cons_of_mem _ hx))

theorem GenCall.called {te : TableTests} {names : List Name} {rows : List TypeRow} {cf : CFloat} {mem : CMem} {env : CEnv}
    {c : GenCall} {r : RtCall} (hg : c.Good te names rows cf env) (h : c.RunsAs cf mem env r) :
    (c.recorded env).CalledAs cf mem r := by
  cases c with
  | variables l =>
    obtain ⟨n, args, rfl, h1, h2⟩ := h
    refine ⟨n, args, rfl, by rw [List.length_map]; exact h1, h2.map fun g hgl a ha => ?_⟩
    obtain ⟨a, b, c, d, e, rfl, h3, h4, h5, h6, h7⟩ := ha
    have := hg.2 g hgl
    refine ⟨a, b, c, d, e, rfl, h3, h4, ?_, ?_, h7⟩
    · rw [this.size] at h5; exact h5
    · rw [this.format] at h6; exact h6
  | blobs l =>
    obtain ⟨n, args, rfl, h1, h2⟩ := h
    refine ⟨n, args, rfl, by rw [List.length_map]; exact h1, h2.map fun g hgl a ha => ?_⟩
    obtain ⟨a, b, c, p, rfl, h3, h4, h5, h6⟩ := ha
    exact ⟨a, b, c, p, rfl, h3, h4, h5, h6⟩

theorem value_size (v : CValue) : v.size < 2 ^ 32 := by
  cases v with
  | signed k _ => cases k <;> simp [CValue.size, IntSize.bytes]
  | unsigned k _ => cases k <;> simp [CValue.size, IntSize.bytes]
  | _ => simp [CValue.size]

theorem ofNat_index {α : Type} {l : List α} {i : Nat} {a : α} (hl : l.length < 2 ^ 32) (h : l[i]? = some a) :
    (BitVec.ofNat 32 i).toNat = i ∧ i < l.length := by
  have : i < l.length := by
    rcases Nat.lt_or_ge i l.length with h' | h'
    · exact h'
    · rw [List.getElem?_eq_none h'] at h; cases h
  refine ⟨?_, this⟩
  rw [BitVec.toNat_ofNat]
  exact Nat.mod_eq_of_lt (by omega)

theorem GenVar.Good.typed {te : TableTests} {names : List Name} {rows : List TypeRow} {cf : CFloat} {env : CEnv} {g : GenVar}
    (hn : names.length < 2 ^ 32) (hr : rows.length < 2 ^ 32) (h : g.Good te names rows cf env) :
    (g.recorded env).Typed names (rows.map TypeRow.desc) := by
  obtain ⟨n', h1, _⟩ := h.name
  obtain ⟨row, m, h2, h3, h4, _, _⟩ := h.type
  refine ⟨?_, h.range, row.desc, ?_, h3, ?_⟩
  · show (BitVec.ofNat 32 g.name).toNat < _
    rw [(ofNat_index hn h1).1]
    exact (ofNat_index hn h1).2
  · show (rows.map TypeRow.desc)[(BitVec.ofNat 32 g.type).toNat]? = _
    rw [(ofNat_index hr h2).1, List.getElem?_map, h2]
    rfl
  · show (BitVec.ofNat 32 row.size).toNat = _
    rw [h4, BitVec.toNat_ofNat, Nat.mod_eq_of_lt (value_size _)]
    rfl

theorem GenBlob.Good.typed {te : TableTests} {names : List Name} {rows : List TypeRow} {env : CEnv} {g : GenBlob}
    (hn : names.length < 2 ^ 32) (hr : rows.length < 2 ^ 32) (h : g.Good te names rows env) :
    (g.recorded env).Typed names (rows.map TypeRow.desc) := by
  obtain ⟨n', h1, _⟩ := h.name
  obtain ⟨row, m, h2, h3, h4, _, _⟩ := h.type
  refine ⟨?_, h.length, row.desc, ?_, h3, ?_⟩
  · show (BitVec.ofNat 32 g.name).toNat < _
    rw [(ofNat_index hn h1).1]
    exact (ofNat_index hn h1).2
  · show (rows.map TypeRow.desc)[(BitVec.ofNat 32 g.type).toNat]? = _
    rw [(ofNat_index hr h2).1, List.getElem?_map, h2]
    rfl
  · show BitVec.ofNat 32 row.size = _
    rw [h4]
    rfl

theorem GenCall.Good.typed {te : TableTests} {names : List Name} {rows : List TypeRow} {cf : CFloat} {env : CEnv} {c : GenCall}
    (hn : names.length < 2 ^ 32) (hr : rows.length < 2 ^ 32) (h : c.Good te names rows cf env) :
    (c.recorded env).Typed names (rows.map TypeRow.desc) cf := by
  cases c with
  | variables l =>
    refine ⟨by rw [List.length_map]; exact h.1, fun v hv => ?_⟩
    obtain ⟨g, hg, rfl⟩ := List.mem_map.mp hv
    exact ⟨(h.2 g hg).typed hn hr, (h.2 g hg).float⟩
  | blobs l =>
    refine ⟨by rw [List.length_map]; exact h.1, fun v hv => ?_⟩
    obtain ⟨g, hg, rfl⟩ := List.mem_map.mp hv
    exact (h.2 g hg).typed hn hr

/-! Loading -/

theorem lookupSize_nil (a : U64) : lookupSize [] a = u64Max := by
  unfold lookupSize
  split
  · rfl
  · rfl

theorem GenVar.info_eq (env : CEnv) (g : GenVar) : (g.recorded env).info [] =
    ⟨.word (env.scalar g.var.name).word, BitVec.ofNat 32 g.name, BitVec.ofNat 32 g.type, (env.scalar g.var.name).format,
      BitVec.ofNat 32 (env.scalar g.var.name).size, 0, false⟩ := by
  unfold VarRec.info GenVar.recorded
  cases env.scalar g.var.name with
  | pointer a => simp only [lookupSize_nil]; rfl
  | _ => rfl

theorem cStr_nulFree {n : List U8} (h : (0 : U8) ∉ n) : cStr n = n := by
  unfold cStr
  apply takeWhile_all
  intro b hb
  rw [decide_eq_true_iff]
  rintro rfl
  exact h hb

theorem lispValue_scalar (v : CValue) (hv : v.InRange) (n ty : U32) :
    lispValue ⟨.word v.word, n, ty, v.format, BitVec.ofNat 32 v.size, 0, false⟩ = .ok v.lisp := by
  cases v with
  | signed k i =>
    show Res.ok (LValue.int (CValue.signed k i).word.toInt) = _
    rw [(C02_values_exact k).1 i hv]
    rfl
  | unsigned k i =>
    show Res.ok (LValue.int (CValue.unsigned k i).word.toNat) = _
    rw [(C02_values_exact k).2 i hv]
    rfl
  | float b =>
    show Res.ok (LValue.single ((b.setWidth 64).setWidth 32)) = .ok (.single b)
    congr 2
    apply BitVec.eq_of_toNat_eq
    rw [BitVec.toNat_setWidth, BitVec.toNat_setWidth]
    have := b.isLt
    omega
  | double b => rfl
  | pointer a => rfl

theorem lispVar_scalar {te : TableTests} {names : List Name} {rows : List TypeRow} {cf : CFloat} {env : CEnv} {g : GenVar}
    (hn : names.length < 2 ^ 32) (hr : rows.length < 2 ^ 32) (hnul : ∀ n ∈ names, (0 : U8) ∉ n)
    (h : g.Good te names rows cf env) (ps : List Point) :
    ∃ l, lispVar ⟨names, rows.map TypeRow.desc, ps⟩ ((g.recorded env).info []) = .ok l ∧ g.var.ShownScalar te env l := by
  obtain ⟨n', h1, h1'⟩ := h.name
  obtain ⟨row, m, h2, h3, h4, h5, h5'⟩ := h.type
  refine ⟨⟨n', m, (env.scalar g.var.name).lisp, none⟩, ?_, h1', h5', rfl, rfl⟩
  rw [GenVar.info_eq]
  unfold lispVar
  simp only []
  have e1 : (rows.map TypeRow.desc)[(BitVec.ofNat 32 g.type).toNat]? = some row.desc := by
    rw [(ofNat_index hr h2).1, List.getElem?_map, h2]; rfl
  have e2 : names[(BitVec.ofNat 32 g.name).toNat]? = some n' := by rw [(ofNat_index hn h1).1, h1]
  have e3 : names[row.desc.nameIndex.toNat]? = some m := by
    show names[(BitVec.ofNat 32 row.name).toNat]? = _
    rw [(ofNat_index hn h5).1, h5]
  rw [e1]
  simp only [e2, e3]
  rw [lispValue_scalar _ h.range, Res.ok_bind, cStr_nulFree (hnul _ (List.mem_of_getElem? h1)),
    cStr_nulFree (hnul _ (List.mem_of_getElem? h5))]
  rfl

theorem lispVar_text {te : TableTests} {names : List Name} {rows : List TypeRow} {env : CEnv} {g : GenBlob}
    (hn : names.length < 2 ^ 32) (hr : rows.length < 2 ^ 32) (hnul : ∀ n ∈ names, (0 : U8) ∉ n)
    (h : g.Good te names rows env) (ps : List Point) :
    ∃ l, lispVar ⟨names, rows.map TypeRow.desc, ps⟩ (g.recorded env).info = .ok l ∧ g.var.ShownText te env l := by
  obtain ⟨n', h1, h1'⟩ := h.name
  obtain ⟨row, m, h2, h3, h4, h5, h5'⟩ := h.type
  refine ⟨⟨n', m, .blob (env.text g.var.name), none⟩, ?_, h1', h5', rfl, rfl⟩
  unfold lispVar BlobRec.info GenBlob.recorded
  simp only []
  have e1 : (rows.map TypeRow.desc)[(BitVec.ofNat 32 g.type).toNat]? = some row.desc := by
    rw [(ofNat_index hr h2).1, List.getElem?_map, h2]; rfl
  have e2 : names[(BitVec.ofNat 32 g.name).toNat]? = some n' := by rw [(ofNat_index hn h1).1, h1]
  have e3 : names[row.desc.nameIndex.toNat]? = some m := by
    show names[(BitVec.ofNat 32 row.name).toNat]? = _
    rw [(ofNat_index hn h5).1, h5]
  rw [e1]
  simp only [e2, e3]
  rw [cStr_nulFree (hnul _ (List.mem_of_getElem? h1)), cStr_nulFree (hnul _ (List.mem_of_getElem? h5))]
  rfl

theorem lispVars_of_allRel {t : Trace} {vs : List VarInfo} {ls : List LVar}
    (h : AllRel (fun v l => lispVar t v = .ok l) vs ls) : lispVars t vs = .ok ls := by
  induction h with
  | nil => rfl
  | cons hx _ ih => rw [lispVars, hx, Res.ok_bind, ih, Res.ok_bind]; rfl

theorem lispPoints_of_allRel {t : Trace} {ps : List Point} {ls : List LPoint}
    (h : AllRel (fun p l => lispPoint t p = .ok l) ps ls) : lispPoints t ps = .ok ls := by
  induction h with
  | nil => rfl
  | cons hx _ ih => rw [lispPoints, hx, Res.ok_bind, ih, Res.ok_bind]; rfl

theorem AllRel.append {α β : Type} {R : α → β → Prop} {l l' : List α} {m m' : List β} (h : AllRel R l m) (h' : AllRel R l' m') :
    AllRel R (l ++ l') (m ++ m') := by
  induction h with
  | nil => exact h'
  | cons hx _ ih => exact .cons hx ih

theorem AllRel.map_left {α β γ : Type} {R : γ → β → Prop} {f : α → γ} {l : List α} {m : List β}
    (h : AllRel (fun x y => R (f x) y) l m) : AllRel R (l.map f) m := by
  induction h with
  | nil => exact .nil
  | cons hx _ ih => exact .cons hx ih

/-- The variables of recorded calls. -/
def callVars (env : CEnv) : GenCall → List VarInfo
  | .variables l => l.map fun g => (g.recorded env).info []
  | .blobs l => l.map fun g => (g.recorded env).info

theorem recVars_calls (env : CEnv) : ∀ cs : List GenCall, recVars [] (cs.map (GenCall.recorded env)) = cs.flatMap (callVars env)
  | [] => rfl
  | .variables l :: cs => by
    rw [List.map_cons, GenCall.recorded, recVars, recVars_calls env cs, List.map_map, List.flatMap_cons]
    rfl
  | .blobs l :: cs => by
    rw [List.map_cons, GenCall.recorded, recVars, recVars_calls env cs, List.map_map, List.flatMap_cons]
    rfl

theorem recSizes_calls (env : CEnv) (cs : List GenCall) : recSizes (cs.map (GenCall.recorded env)) = [] := by
  unfold recSizes
  rw [List.filterMap_eq_nil_iff]
  intro x hx
  obtain ⟨c, _, rfl⟩ := List.mem_map.mp hx
  cases c <;> rfl

theorem callVars_genCalls (env : CEnv) (vars : List GenVar) (blobs : List GenBlob) :
    (genCalls vars blobs).flatMap (callVars env) =
      vars.map (fun g => (g.recorded env).info []) ++ blobs.map fun g => (g.recorded env).info := by
  unfold genCalls
  cases vars <;> cases blobs <;> simp [callVars]

/-- Elements selected come from the list. -/
theorem Selected.mem {α : Type} {P : α → Prop} {l m : List α} (h : Selected P l m) : ∀ x ∈ m, x ∈ l ∧ P x := by
  induction h with
  | nil => simp
  | keep hp _ ih =>
    intro y hy
    rcases List.mem_cons.mp hy with rfl | hy
    · exact ⟨by simp, hp⟩
    · exact ⟨List.mem_cons_of_mem _ (ih y hy).1, (ih y hy).2⟩
  | skip _ _ ih => exact fun y hy => ⟨List.mem_cons_of_mem _ (ih y hy).1, (ih y hy).2⟩

theorem Selected.length {α : Type} {P : α → Prop} {l m : List α} (h : Selected P l m) : m.length ≤ l.length := by
  induction h with
  | nil => simp
  | keep _ _ ih => simp only [List.length_cons]; omega
  | skip _ _ ih => simp only [List.length_cons]; omega

theorem AllRel.length {α β : Type} {R : α → β → Prop} {l : List α} {m : List β} (h : AllRel R l m) : l.length = m.length := by
  induction h with
  | nil => rfl
  | cons _ _ ih => simp only [List.length_cons, ih]

theorem AllRel.mem_right {α β : Type} {R : α → β → Prop} {l : List α} {m : List β} (h : AllRel R l m) :
    ∀ y ∈ m, ∃ x ∈ l, R x y := by
  induction h with
  | nil => simp
  | cons hx _ ih =>
    intro y hy
    rcases List.mem_cons.mp hy with rfl | hy
    · exact ⟨_, by simp, hx⟩
    · obtain ⟨x, h1, h2⟩ := ih y hy
      exact ⟨x, List.mem_cons_of_mem _ h1, h2⟩

theorem AllRel.get {α β : Type} {R : α → β → Prop} {l : List α} {m : List β} (h : AllRel R l m) :
    ∀ (i : Nat) (y : β), m[i]? = some y → ∃ x, l[i]? = some x ∧ R x y := by
  induction h with
  | nil => intro i y hy; simp at hy
  | cons hx _ ih =>
    intro i y hy
    cases i with
    | zero =>
      simp only [List.getElem?_cons_zero, Option.some.injEq] at hy
      subst hy
      exact ⟨_, rfl, hx⟩
    | succ i => exact ih i y hy

section
variable {te : TableTests} {rs : List TabReq} {names : List Name} {rows : List TypeRow} {cf : CFloat} {env : CEnv}

/-- The calls of a part are recorded correctly. -/
theorem PartGen.good {part : Bool × List ScopeVar} {cs : List GenCall} (he : EmittedFor te rs names rows)
    (h : PartGen te Tables.empty rs part cs) (hlen : part.2.length < 2 ^ 32) (hfit : ∀ v ∈ part.2, v.Fits cf part.1 env) :
    ∀ c ∈ cs, c.Good te names rows cf env := by
  obtain ⟨sc, tx, vars, blobs, rfl, h1, h2, h3, h4⟩ := h
  intro c hc
  unfold genCalls at hc
  rcases List.mem_append.mp hc with hc | hc
  · split at hc
    · cases hc
    · rw [List.mem_singleton.mp hc]
      refine ⟨by rw [← h3.length]; have := h1.length; omega, fun g hg => ?_⟩
      obtain ⟨v, hv, hfor⟩ := h3.mem_right g hg
      obtain ⟨a, b⟩ := h1.mem v hv
      exact hfor.good he b (hfit v a)
  · split at hc
    · cases hc
    · rw [List.mem_singleton.mp hc]
      refine ⟨by rw [← h4.length]; have := h2.length; omega, fun g hg => ?_⟩
      obtain ⟨v, hv, hfor⟩ := h4.mem_right g hg
      obtain ⟨a, b⟩ := h2.mem v hv
      exact hfor.good he b (hfit v a)

theorem scalars_shown {ps : Bool} {t : Trace} {sc : List ScopeVar} {vars : List GenVar}
    (h : AllRel (fun v g => GenVar.For te Tables.empty rs ps v g) sc vars)
    (hg : ∀ v ∈ sc, ∀ g, GenVar.For te Tables.empty rs ps v g →
      ∃ l, lispVar t ((g.recorded env).info []) = .ok l ∧ g.var.ShownScalar te env l) :
    ∃ ls, AllRel (fun v l => lispVar t v = .ok l) (vars.map fun g => (g.recorded env).info []) ls ∧
      AllRel (ScopeVar.ShownScalar te env) sc ls := by
  induction h with
  | nil => exact ⟨[], .nil, .nil⟩
  | cons hx _ ih =>
    obtain ⟨l, h1, h2⟩ := hg _ (by simp) _ hx
    obtain ⟨ls, h3, h4⟩ := ih fun v hv => hg v (List.mem_cons_of_mem _ hv)
    rw [hx.1] at h2
    exact ⟨l :: ls, .cons h1 h3, .cons h2 h4⟩

theorem texts_shown {ps : Bool} {t : Trace} {tx : List ScopeVar} {blobs : List GenBlob}
    (h : AllRel (fun v g => GenBlob.For te Tables.empty rs ps v g) tx blobs)
    (hg : ∀ v ∈ tx, ∀ g, GenBlob.For te Tables.empty rs ps v g →
      ∃ l, lispVar t (g.recorded env).info = .ok l ∧ g.var.ShownText te env l) :
    ∃ ls, AllRel (fun v l => lispVar t v = .ok l) (blobs.map fun g => (g.recorded env).info) ls ∧
      AllRel (ScopeVar.ShownText te env) tx ls := by
  induction h with
  | nil => exact ⟨[], .nil, .nil⟩
  | cons hx _ ih =>
    obtain ⟨l, h1, h2⟩ := hg _ (by simp) _ hx
    obtain ⟨ls, h3, h4⟩ := ih fun v hv => hg v (List.mem_cons_of_mem _ hv)
    rw [hx.1] at h2
    exact ⟨l :: ls, .cons h1 h3, .cons h2 h4⟩

/-- The variables of a part are shown as they should be. -/
theorem PartGen.shown {part : Bool × List ScopeVar} {cs : List GenCall} (he : EmittedFor te rs names rows)
    (hn : names.length < 2 ^ 32) (hr : rows.length < 2 ^ 32)
    (h : PartGen te Tables.empty rs part cs) (hfit : ∀ v ∈ part.2, v.Fits cf part.1 env) (ps : List Point) :
    ∃ l, AllRel (fun v l => lispVar ⟨names, rows.map TypeRow.desc, ps⟩ v = .ok l) (cs.flatMap (callVars env)) l ∧
      PartShown te env part l := by
  obtain ⟨sc, tx, vars, blobs, rfl, h1, h2, h3, h4⟩ := h
  obtain ⟨ls, a1, a2⟩ := scalars_shown (env := env) (t := ⟨names, rows.map TypeRow.desc, ps⟩) h3 fun v hv g hfor =>
    lispVar_scalar hn hr he.nulFree (hfor.good he (h1.mem v hv).2 (hfit v (h1.mem v hv).1)) ps
  obtain ⟨lt, b1, b2⟩ := texts_shown (env := env) (t := ⟨names, rows.map TypeRow.desc, ps⟩) h4 fun v hv g hfor =>
    lispVar_text hn hr he.nulFree (hfor.good (cf := cf) he (h2.mem v hv).2 (hfit v (h2.mem v hv).1)) ps
  refine ⟨ls ++ lt, ?_, sc, tx, ls, lt, rfl, h1, h2, a2, b2⟩
  rw [callVars_genCalls]
  exact a1.append b1

theorem parts_shown {parts : List (Bool × List ScopeVar)} {css : List (List GenCall)} (he : EmittedFor te rs names rows)
    (hn : names.length < 2 ^ 32) (hr : rows.length < 2 ^ 32)
    (h : AllRel (PartGen te Tables.empty rs) parts css) (hfit : ∀ part ∈ parts, ∀ v ∈ part.2, v.Fits cf part.1 env)
    (ps : List Point) :
    ∃ ls, AllRel (fun v l => lispVar ⟨names, rows.map TypeRow.desc, ps⟩ v = .ok l) (css.flatten.flatMap (callVars env))
        ls.flatten ∧ AllRel (PartShown te env) parts ls := by
  induction h with
  | nil => exact ⟨[], .nil, .nil⟩
  | cons hx _ ih =>
    obtain ⟨l, h1, h2⟩ := PartGen.shown he hn hr hx (hfit _ (by simp)) ps
    obtain ⟨ls, h3, h4⟩ := ih fun p hp => hfit p (List.mem_cons_of_mem _ hp)
    refine ⟨l :: ls, ?_, .cons h2 h4⟩
    rw [List.flatten_cons, List.flatMap_append, List.flatten_cons]
    exact h1.append h3

theorem parts_good {parts : List (Bool × List ScopeVar)} {css : List (List GenCall)} (he : EmittedFor te rs names rows)
    (h : AllRel (PartGen te Tables.empty rs) parts css) (hlen : ∀ part ∈ parts, part.2.length < 2 ^ 32)
    (hfit : ∀ part ∈ parts, ∀ v ∈ part.2, v.Fits cf part.1 env) : ∀ c ∈ css.flatten, c.Good te names rows cf env := by
  induction h with
  | nil => simp
  | cons hx _ ih =>
    intro c hc
    rw [List.flatten_cons, List.mem_append] at hc
    rcases hc with hc | hc
    · exact PartGen.good he hx (hlen _ (by simp)) (hfit _ (by simp)) c hc
    · exact ih (fun p hp => hlen p (List.mem_cons_of_mem _ hp)) (fun p hp => hfit p (List.mem_cons_of_mem _ hp)) c hc

end

theorem unpack_packed {x : Site} (h : x.Ok) : unpackC (BitVec.ofNat 64 (packId x.file x.ast)) = x.ast ∧
    unpackF (BitVec.ofNat 64 (packId x.file x.ast)) = x.file := by
  have := h.id
  cases hf : x.file with
  | none =>
    rw [hf] at this
    exact ⟨(C48_without_file x.ast this).2, (C48_without_file x.ast this).1⟩
  | some f =>
    rw [hf] at this
    exact ⟨(C48_round_trip f x.ast this.1 this.2).2.2, (C48_round_trip f x.ast this.1 this.2).2.1⟩

/-- What a visit records. -/
def Visit.recorded (v : Visit) (g : GenSite) : RecPoint :=
  ⟨BitVec.ofNat 64 g.id, g.calls.map (GenCall.recorded v.env)⟩

theorem calls_recorded {te : TableTests} {names : List Name} {rows : List TypeRow} {cf : CFloat} {mem : CMem} {env : CEnv}
    {cs : List GenCall} {rc : List RtCall} (hg : ∀ c ∈ cs, c.Good te names rows cf env)
    (h : AllRel (GenCall.RunsAs cf mem env) cs rc) : AllRel (RecItem.CalledAs cf mem) (cs.map (GenCall.recorded env)) rc := by
  induction h with
  | nil => exact .nil
  | cons hx _ ih => exact .cons (GenCall.called (hg _ (by simp)) hx) (ih fun c hc => hg c (List.mem_cons_of_mem _ hc))

theorem visits_recorded {te : TableTests} {rs : List TabReq} {names : List Name} {rows : List TypeRow} {cf : CFloat} {mem : CMem}
    {sites : List Site} {gens : List GenSite} (he : EmittedFor te rs names rows) (hn : names.length < 2 ^ 32)
    (hr : rows.length < 2 ^ 32) (hok : ∀ x ∈ sites, x.Ok) (hgen : AllRel (SiteGen te Tables.empty rs) sites gens)
    {visits : List Visit} {calls : List (U64 × List RtCall)} (hruns : AllRel (Visit.RunsAs cf mem gens) visits calls)
    (hfit : ∀ v ∈ visits, v.Fits cf sites) :
    ∃ recs : List RecPoint, AllRel (RecPoint.CalledAs cf mem) recs calls ∧
      (∀ p ∈ recs, ∀ x ∈ p.items, x.Typed names (rows.map TypeRow.desc) cf) ∧ (∀ p ∈ recs, recSizes p.items = []) ∧
      ∀ (pts : List Point) (i : Nat), ∃ ls,
        AllRel (fun p l => lispPoint ⟨names, rows.map TypeRow.desc, pts⟩ p = .ok l) (recPoints i [] recs) ls ∧
        AllRel (Visit.Shown te sites) visits ls := by
  induction hruns with
  | nil => exact ⟨[], .nil, by simp, by simp, fun _ _ => ⟨[], .nil, .nil⟩⟩
  | @cons v c _ _ hx _ ih =>
    obtain ⟨recs, r1, r2, r3, r4⟩ := ih fun v hv => hfit v (List.mem_cons_of_mem _ hv)
    obtain ⟨g, hg, hid, hcalls⟩ := hx
    obtain ⟨x, hx, hgid, cs, hcs, hparts⟩ := hgen.get _ _ hg
    have xok := hok x (List.mem_of_getElem? hx)
    have xfit := hfit v (by simp) x hx
    have good : ∀ c ∈ g.calls, c.Good te names rows cf v.env := by
      rw [hcs]; exact parts_good he hparts xok.count xfit
    have hsz : recSizes (g.calls.map (GenCall.recorded v.env)) = [] := recSizes_calls _ _
    refine ⟨v.recorded g :: recs, .cons ⟨hid, calls_recorded good hcalls⟩ r1, ?_, ?_, ?_⟩
    · intro p hp
      rcases List.mem_cons.mp hp with rfl | hp
      · intro y hy
        obtain ⟨c, hc, rfl⟩ := List.mem_map.mp hy
        exact (good c hc).typed hn hr
      · exact r2 p hp
    · intro p hp
      rcases List.mem_cons.mp hp with rfl | hp
      · exact hsz
      · exact r3 p hp
    · intro pts i
      obtain ⟨ls, a1, a2⟩ := r4 pts (i + 1)
      obtain ⟨lv, b1, b2⟩ := parts_shown he hn hr hparts xfit pts
      refine ⟨⟨x.ast, x.file, lv.flatten, []⟩ :: ls, ?_, .cons ⟨x, hx, rfl, rfl, rfl, lv, rfl, b2⟩ a2⟩
      rw [recPoints]
      refine .cons ?_ ?_
      · unfold lispPoint Visit.recorded
        simp only []
        rw [recVars_calls, hcs, lispVars_of_allRel b1, Res.ok_bind, hgid, (unpack_packed xok).1, (unpack_packed xok).2]
        rfl
      · have : recSizes (v.recorded g).items = [] := hsz
        rw [this]
        exact a1

theorem instrumented {te : TableTests} (law : te.Lawful) (hte : ∀ a b, te.type a b = true → TableTests.equalp.type a b = true)
    (env : Env) (io : Bool) (cf : CFloat) (mem : CMem) {sites : List Site} {gens : List GenSite} {tabs : Tables}
    (hok : ∀ x ∈ sites, x.Ok) (hins : instrumentSites te sites Tables.empty = (gens, tabs))
    (hn : tabs.emitNames.length < 2 ^ 32) (hch : (tabs.emitNames.map fun n => n.length + 1).sum < 2 ^ 63)
    (hr : (tabs.emitTypes te).length < 2 ^ 32)
    {visits : List Visit} {calls : List (U64 × List RtCall)} (hruns : AllRel (Visit.RunsAs cf mem gens) visits calls)
    (hfit : ∀ v ∈ visits, v.Fits cf sites) (hal : ∀ n, env.canAlloc n = true) :
    ∃ bs t ps, rtRun cf mem tabs.emitNames ((tabs.emitTypes te).map TypeRow.desc) calls = .ok bs ∧
      readTrace env 0 (gs io bs) = .ok t ∧ lispGetTrace t none = .ok ps ∧ AllRel (Visit.Shown te sites) visits ps := by
  obtain ⟨rs, h1, h2, h3⟩ := instrumentSites_spec te sites Tables.empty hok
  rw [hins] at h1 h3
  have h1 : tabs = (Tables.empty.requests te rs).2 := h1
  have he : EmittedFor te rs tabs.emitNames (tabs.emitTypes te) := by rw [h1]; exact emittedFor law hte h2
  obtain ⟨recs, r1, r2, r3, r4⟩ := visits_recorded he hn hr hok h3 hruns hfit
  have hdr : HeaderOk tabs.emitNames ((tabs.emitTypes te).map TypeRow.desc) := by
    refine ⟨he.nulFree, hch, by rw [List.length_map]; exact hr, fun t ht => ?_⟩
    obtain ⟨r, hr, rfl⟩ := List.mem_map.mp ht
    exact he.formats r hr
  have hres : ReservedOk (recs.flatMap fun p => recSizes p.items) := by
    have : (recs.flatMap fun p => recSizes p.items) = [] := by
      rw [List.flatMap_eq_nil_iff]
      exact r3
    rw [this]
    exact reservedOk_of_unused (by simp)
  obtain ⟨bs, b1, b2⟩ := C02_recorded_is_read env io cf mem _ _ recs calls hdr hn r1 r2 hres hal
  obtain ⟨ls, l1, l2⟩ := r4 (recPoints 0 [] recs) 0
  refine ⟨bs, _, ls, b1, b2, ?_, l2⟩
  unfold lispGetTrace
  simp only []
  rw [lispPoints_of_allRel l1]
  rfl

/-! What single files show is unique. -/

theorem selected_unique {α : Type} {P : α → Prop} {l m m' : List α} (h : Selected P l m) (h' : Selected P l m') : m = m' := by
  induction h generalizing m' with
  | nil => cases h'; rfl
  | keep hp _ ih =>
    cases h' with
    | keep _ h' => rw [ih h']
    | skip hn _ => exact absurd hp hn
  | skip hn _ ih =>
    cases h' with
    | keep hp _ => exact absurd hp hn
    | skip _ h' => exact ih h'

theorem allRel_unique {α β : Type} {R : α → β → Prop} (hR : ∀ x y y', R x y → R x y' → y = y') {l : List α} {m m' : List β}
    (h : AllRel R l m) (h' : AllRel R l m') : m = m' := by
  induction h generalizing m' with
  | nil => cases h'; rfl
  | cons hx _ ih =>
    cases h' with
    | cons hx' h' => rw [hR _ _ _ hx hx', ih h']

theorem shownScalar_unique {env : CEnv} (v : ScopeVar) (l l' : LVar) (h : v.ShownScalar .equal env l)
    (h' : v.ShownScalar .equal env l') : l = l' := by
  obtain ⟨a, b, c, d⟩ := l
  obtain ⟨a', b', c', d'⟩ := l'
  simp only [ScopeVar.ShownScalar, TableTests.equal, beq_iff_eq] at h h'
  obtain ⟨rfl, rfl, rfl, rfl⟩ := h
  obtain ⟨rfl, rfl, rfl, rfl⟩ := h'
  rfl

theorem shownText_unique {env : CEnv} (v : ScopeVar) (l l' : LVar) (h : v.ShownText .equal env l)
    (h' : v.ShownText .equal env l') : l = l' := by
  obtain ⟨a, b, c, d⟩ := l
  obtain ⟨a', b', c', d'⟩ := l'
  simp only [ScopeVar.ShownText, TableTests.equal, beq_iff_eq] at h h'
  obtain ⟨rfl, rfl, rfl, rfl⟩ := h
  obtain ⟨rfl, rfl, rfl, rfl⟩ := h'
  rfl

theorem partShown_unique {env : CEnv} (part : Bool × List ScopeVar) (l l' : List LVar) (h : PartShown .equal env part l)
    (h' : PartShown .equal env part l') : l = l' := by
  obtain ⟨sc, tx, ls, lt, rfl, h1, h2, h3, h4⟩ := h
  obtain ⟨sc', tx', ls', lt', rfl, h1', h2', h3', h4'⟩ := h'
  rw [selected_unique h1' h1] at h3'
  rw [selected_unique h2' h2] at h4'
  rw [allRel_unique shownScalar_unique h3 h3', allRel_unique shownText_unique h4 h4']

theorem visit_shown_unique {sites : List Site} {v : Visit} {p p' : LPoint} (h : v.Shown .equal sites p)
    (h' : v.Shown .equal sites p') : p = p' := by
  obtain ⟨x, hx, h1, h2, h3, ls, h4, h5⟩ := h
  obtain ⟨x', hx', h1', h2', h3', ls', h4', h5'⟩ := h'
  rw [hx, Option.some.injEq] at hx'
  subst hx'
  rw [allRel_unique partShown_unique h5' h5] at h4'
  obtain ⟨a, b, c, d⟩ := p
  obtain ⟨a', b', c', d'⟩ := p'
  simp only at h1 h2 h3 h4 h1' h2' h3' h4'
  subst h1 h2 h3 h4 h1' h2' h3' h4'
  rfl

end TraceDB
