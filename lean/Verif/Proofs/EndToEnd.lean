import Verif.Spec.EndToEnd
import Verif.Props.Instrument
import Verif.Props.LispQuery
import Verif.Proofs.Canonical
/-
Traces of instrumented programs meet the conditions of queries.
-/
namespace TraceDB

/-- Variables as instrumented programs record them. -/
inductive Described (names : List Name) (types : List TypeDesc) : VarInfo → Prop
  | scalar (x : CValue) (n ti : U32) (ty : TypeDesc) : n.toNat < names.length → x.InRange → types[ti.toNat]? = some ty →
      ty.format = x.format → ty.size.toNat = x.size →
      Described names types ⟨.word x.word, n, ti, x.format, BitVec.ofNat 32 x.size, 0, false⟩
  | text (bs : List U8) (n ti : U32) (ty : TypeDesc) : n.toNat < names.length → bs.length < 2 ^ 32 →
      types[ti.toNat]? = some ty → ty.format = .blob →
      Described names types ⟨.blob bs, n, ti, .blob, BitVec.ofNat 32 bs.length, 0, false⟩

theorem described_vars {names : List Name} {types : List TypeDesc} {cf : CFloat} : ∀ (items : List RecItem),
    (∀ x ∈ items, x.Typed names types cf) → recSizes items = [] → ∀ v ∈ recVars [] items, Described names types v
  | [], _, _, v, hv => by cases hv
  | .buffer b :: l, _, hs, _, _ => by simp [recSizes] at hs
  | .vars vs :: l, ht, hs, v, hv => by
    rw [recVars, List.mem_append] at hv
    rcases hv with hv | hv
    · obtain ⟨r, hr, rfl⟩ := List.mem_map.mp hv
      obtain ⟨⟨h1, h2, ty, h3, h4, h5⟩, _⟩ := (ht (.vars vs) (by simp)).2 r hr
      have e : r.info [] = ⟨.word r.value.word, r.name, r.type, r.value.format, BitVec.ofNat 32 r.value.size, 0, false⟩ := by
        unfold VarRec.info
        cases r.value with
        | pointer a => simp only [lookupSize_nil]; rfl
        | _ => rfl
      rw [e]
      exact .scalar _ _ _ ty h1 h2 h3 h4 h5
    · exact described_vars l (fun x hx => ht x (List.mem_cons_of_mem _ hx)) (by simpa [recSizes] using hs) v hv
  | .blobs vs :: l, ht, hs, v, hv => by
    rw [recVars, List.mem_append] at hv
    rcases hv with hv | hv
    · obtain ⟨r, hr, rfl⟩ := List.mem_map.mp hv
      obtain ⟨h1, h2, ty, h3, h4, h5⟩ := (ht (.blobs vs) (by simp)).2 r hr
      exact .text _ _ _ ty h1 h2 h3 h4
    · exact described_vars l (fun x hx => ht x (List.mem_cons_of_mem _ hx)) (by simpa [recSizes] using hs) v hv

theorem described_points {names : List Name} {types : List TypeDesc} {cf : CFloat} : ∀ (recs : List RecPoint) (i : Nat),
    (∀ p ∈ recs, ∀ x ∈ p.items, x.Typed names types cf) → (∀ p ∈ recs, recSizes p.items = []) →
    ∀ p ∈ recPoints i [] recs, ∀ v ∈ p.vars, Described names types v
  | [], _, _, _, p, hp => by cases hp
  | r :: rs, i, ht, hs, p, hp => by
    rw [recPoints, List.mem_cons] at hp
    have hr := hs r (by simp)
    rcases hp with rfl | hp
    · exact described_vars r.items (ht r (by simp)) hr
    · rw [hr] at hp
      exact described_points rs (i + 1) (fun p hp => ht p (List.mem_cons_of_mem _ hp))
        (fun p hp => hs p (List.mem_cons_of_mem _ hp)) p hp

/-! Meaning of formulas -/

theorem described_number (fs : FloatSys) {names : List Name} {types : List TypeDesc} {t : Trace} {v : VarInfo} {l : LVar}
    (hd : Described names types v) (h : lispVar t v = .ok l) (hnd : ∀ b, l.value ≠ .double b) :
    varNumber (lowFloat fs) v = l.value.number ∧ v.hasBufferSize = false ∧ l.size = none := by
  unfold lispVar at h
  split at h
  · cases h
  split at h
  · obtain ⟨x, hx, h⟩ := Res.bind_eq_ok.mp h
    cases h
    cases hd with
    | scalar x' n ti ty h1 h2 h3 h4 h5 =>
      rw [lispValue_scalar _ h2] at hx
      cases hx
      refine ⟨?_, rfl, rfl⟩
      cases x' with
      | signed k i =>
        have := (C02_values_exact k).1 i h2
        show some (Num.int (CValue.signed k i).word.toInt) = some (.int i)
        rw [this]
      | unsigned k i =>
        have := (C02_values_exact k).2 i h2
        show some (Num.int ((CValue.unsigned k i).word.toNat : Int)) = some (.int i)
        rw [this]
      | float b =>
        show some (Num.real (fs.ofF32 ((b.setWidth 64).setWidth 32))) = some (.real (fs.ofF32 b))
        congr 3
        apply BitVec.eq_of_toNat_eq
        rw [BitVec.toNat_setWidth, BitVec.toNat_setWidth]
        have := b.isLt
        omega
      | double b => exact absurd rfl (hnd b)
      | pointer a => rfl
    | text bs n ti ty h1 h2 h3 h4 =>
      cases hx
      exact ⟨rfl, rfl, rfl⟩
  · cases h

theorem nodup_get {α : Type} {l : List α} (h : l.Nodup) {i j : Nat} {a : α} (hi : l[i]? = some a) (hj : l[j]? = some a) :
    i = j := by
  obtain ⟨h1, h2⟩ := List.getElem?_eq_some_iff.mp hi
  obtain ⟨h3, h4⟩ := List.getElem?_eq_some_iff.mp hj
  rw [List.nodup_iff_pairwise_ne, List.pairwise_iff_getElem] at h
  rcases Nat.lt_trichotomy i j with hlt | heq | hgt
  · exact absurd (h2.trans h4.symm) (h i j h1 h3 hlt)
  · exact heq
  · exact absurd (h4.trans h2.symm) (h j i h3 h1 hgt)

theorem lisp_word {x y : CValue} (hf : x.format = y.format) (hs : x.size = y.size) (hl : x.lisp = y.lisp)
    : x.word = y.word := by
  cases x <;> cases y <;> simp_all [CValue.format, CValue.lisp, CValue.word]
  · rw [Int.ofNat_inj.mp hl]
  · exact BitVec.eq_of_toNat_eq (Int.ofNat_inj.mp hl)

/-- Variables of a trace are the same if they are shown the same. -/
theorem described_same {t : Trace} {types : List (List U8)} (hnames : (t.names.map cStr).Nodup)
    (htypes : getTypes t = .ok types) (hnodup : types.Nodup) {v w : VarInfo} {l m : LVar}
    (hv : Described t.names t.types v) (hw : Described t.names t.types w) (h : lispVar t v = .ok l) (h' : lispVar t w = .ok m) :
    v = w ↔ l = m := by
  constructor
  · rintro rfl
    rw [h] at h'
    cases h'
    rfl
  rintro rfl
  obtain ⟨ty, n, a1, a2, a3⟩ := lispVar_type h
  obtain ⟨ty', n', b1, b2, b3⟩ := lispVar_type h'
  obtain ⟨m1, e1, e2⟩ := (getTypesLoop_get htypes).2 _ _ a1
  obtain ⟨m2, e3, e4⟩ := (getTypesLoop_get htypes).2 _ _ b1
  rw [a2] at e1
  cases e1
  rw [b2] at e3
  cases e3
  rw [← a3] at e2
  rw [← b3] at e4
  have ht : v.typeIndex = w.typeIndex := BitVec.eq_of_toNat_eq (nodup_get hnodup e2 e4)
  have hn : ∀ {v : VarInfo}, lispVar t v = .ok l → (t.names.map cStr)[v.nameIndex.toNat]? = some l.name ∧
      lispValue v = .ok l.value := by
    intro v h
    unfold lispVar at h
    split at h
    · cases h
    split at h
    · rename_i hnm _
      obtain ⟨x, hx, h⟩ := Res.bind_eq_ok.mp h
      cases h
      rw [List.getElem?_map, hnm]
      exact ⟨rfl, hx⟩
    · cases h
  have hname : v.nameIndex = w.nameIndex := BitVec.eq_of_toNat_eq (nodup_get hnames (hn h).1 (hn h').1)
  have hval := (hn h).2.trans (hn h').2.symm
  cases hv with
  | scalar x n ti ty h1 h2 h3 h4 h5 =>
    cases hw with
    | scalar y n' ti' ty' g1 g2 g3 g4 g5 =>
      simp only at ht hname
      subst ht
      subst hname
      rw [h3] at g3
      cases g3
      rw [lispValue_scalar _ h2, lispValue_scalar _ g2, Res.ok.injEq] at hval
      have hf := h4.symm.trans g4
      have hs := h5.symm.trans g5
      rw [lisp_word hf hs hval, hf, hs]
    | text bs n' ti' ty' g1 g2 g3 g4 =>
      simp only at ht
      subst ht
      rw [h3] at g3
      cases g3
      rw [h4] at g4
      cases x <;> cases g4
  | text bs n ti ty h1 h2 h3 h4 =>
    cases hw with
    | scalar y n' ti' ty' g1 g2 g3 g4 g5 =>
      simp only at ht
      subst ht
      rw [h3] at g3
      cases g3
      rw [h4] at g4
      cases y <;> cases g4
    | text bs' n' ti' ty' g1 g2 g3 g4 =>
      simp only at ht hname
      subst ht
      subst hname
      cases hval
      rfl

theorem AllRel.get_left {α β : Type} {R : α → β → Prop} {l : List α} {m : List β} (h : AllRel R l m) (i : Nat) :
    (l[i]? = none ∧ m[i]? = none) ∨ ∃ x y, l[i]? = some x ∧ m[i]? = some y ∧ R x y := by
  induction h generalizing i with
  | nil => left; simp
  | cons hx _ ih =>
    cases i with
    | zero => exact .inr ⟨_, _, rfl, rfl, hx⟩
    | succ i => exact ih i

/-- Variables of a trace and what is shown for them, none of which is a `double`. -/
def ShownAs (t : Trace) (v : VarInfo) (l : LVar) : Prop :=
  lispVar t v = .ok l ∧ Described t.names t.types v ∧ ∀ b, l.value ≠ .double b

theorem term_shown (fs : FloatSys) {t : Trace} {vs : List VarInfo} {ls : List LVar} (h : AllRel (ShownAs t) vs ls) :
    ∀ a : Term, a.val (lowFloat fs) vs = a.valueFor ls
  | .size i => by
    rw [Term.val, Term.valueFor]
    rcases h.get_left i with ⟨e1, e2⟩ | ⟨v, l, e1, e2, h1, h2, h3⟩
    · rw [e1, e2]
    · obtain ⟨_, g1, g2⟩ := described_number fs h2 h1 h3
      rw [e1, e2]
      simp only [g1, g2]
      rfl
  | .value i => by
    rw [Term.val, Term.valueFor]
    rcases h.get_left i with ⟨e1, e2⟩ | ⟨v, l, e1, e2, h1, h2, h3⟩
    · rw [e1, e2]
    · rw [e1, e2]
      exact (described_number fs h2 h1 h3).1
  | .nat _ => rfl
  | .integer _ => rfl
  | .float _ => rfl
  | .add a b => by rw [Term.val, Term.valueFor, term_shown fs h a, term_shown fs h b]
  | .sub a b => by rw [Term.val, Term.valueFor, term_shown fs h a, term_shown fs h b]
  | .mul a b => by rw [Term.val, Term.valueFor, term_shown fs h a, term_shown fs h b]
  | .div a b => by rw [Term.val, Term.valueFor, term_shown fs h a, term_shown fs h b]

theorem form_shown (fs : FloatSys) {t : Trace} {types : List (List U8)} (hnames : (t.names.map cStr).Nodup)
    (htypes : getTypes t = .ok types) (hnodup : types.Nodup) {vs : List VarInfo} {ls : List LVar}
    (h : AllRel (ShownAs t) vs ls) : ∀ f : Form, f.holds (lowFloat fs) vs = f.holdsFor fs ls
  | .tt => rfl
  | .ff => rfl
  | .conj f g => by
    rw [Form.holds, Form.holdsFor, form_shown fs hnames htypes hnodup h f, form_shown fs hnames htypes hnodup h g]
  | .disj f g => by
    rw [Form.holds, Form.holdsFor, form_shown fs hnames htypes hnodup h f, form_shown fs hnames htypes hnodup h g]
  | .neg f => by rw [Form.holds, Form.holdsFor, form_shown fs hnames htypes hnodup h f]
  | .cmp op a b => by rw [Form.holds, Form.holdsFor, term_shown fs h a, term_shown fs h b]
  | .distinct i j => by
    rw [Form.holds, Form.holdsFor]
    have key : vs[i]? = vs[j]? ↔ ls[i]? = ls[j]? := by
      rcases h.get_left i with ⟨e1, e2⟩ | ⟨v, l, e1, e2, h1, h2, _⟩ <;>
      rcases h.get_left j with ⟨e3, e4⟩ | ⟨w, m, e3, e4, g1, g2, _⟩ <;> rw [e1, e2, e3, e4]
      · simp
      · simp
      · simp
      · rw [Option.some.injEq, Option.some.injEq]
        exact described_same hnames htypes hnodup h2 g2 h1 g1
    exact decide_eq_decide.mpr (not_congr key)

theorem AllRel.of_get {α β : Type} {R : α → β → Prop} : ∀ (l : List α) (m : List β), l.length = m.length →
    (∀ (i : Nat) (x : α) (y : β), l[i]? = some x → m[i]? = some y → R x y) → AllRel R l m
  | [], [], _, _ => .nil
  | x :: l, y :: m, hl, h => .cons (h 0 x y rfl rfl)
      (AllRel.of_get l m (by simpa using hl) fun i a b ha hb => h (i + 1) a b ha hb)

theorem AllRel.pick {α β : Type} {R S : α → β → Prop} {l : List α} {m : List β} (h : AllRel R l m) : ∀ (b : List Nat),
    (∀ k ∈ b, k < l.length) → (∀ k ∈ b, ∀ x y, l[k]? = some x → m[k]? = some y → R x y → S x y) →
    AllRel S (b.filterMap (l[·]?)) (b.filterMap (m[·]?))
  | [], _, _ => .nil
  | k :: b, hb, hi => by
    rcases h.get_left k with ⟨e1, _⟩ | ⟨x, y, e1, e2, h1⟩
    · have := hb k (by simp)
      rw [List.getElem?_eq_getElem this] at e1
      cases e1
    · rw [List.filterMap_cons_some e1, List.filterMap_cons_some e2]
      exact .cons (hi k (by simp) x y e1 e2 h1) (h.pick b (fun k hk => hb k (List.mem_cons_of_mem _ hk))
        fun k hk => hi k (List.mem_cons_of_mem _ hk))

theorem lispVars_allRel {t : Trace} : ∀ {vs : List VarInfo} {ls : List LVar}, lispVars t vs = .ok ls →
    AllRel (fun v l => lispVar t v = .ok l) vs ls
  | [], ls, h => by cases h; exact .nil
  | v :: vs, ls, h => by
    rw [lispVars] at h
    obtain ⟨x, hx, h⟩ := Res.bind_eq_ok.mp h
    obtain ⟨xs, hxs, h⟩ := Res.bind_eq_ok.mp h
    cases h
    exact .cons hx (lispVars_allRel hxs)

theorem typeIndex_mem {t : Trace} {types : List (List U8)} (htypes : getTypes t = .ok types) (hnodup : types.Nodup)
    (hsmall : types.length < 2 ^ 32) {ts : List (List U8)} (hknown : ∀ n ∈ ts, n ∈ types) {v : VarInfo} {x : LVar}
    (hx : lispVar t v = .ok x) :
    v.typeIndex ∈ (ts.map fun n => BitVec.ofNat 32 (types.findIdx (· == n))) ↔ x.type ∈ ts := by
  have hp : lispPoint t ⟨0, 0, [], [v], []⟩ = .ok ⟨unpackC 0, unpackF 0, [x], []⟩ := by
    unfold lispPoint
    simp only [lispVars, hx, Res.ok_bind]
    rfl
  have := isBinding_iff htypes hnodup hsmall hp (varTypes := [ts])
    (fun ts' h => by rw [List.mem_singleton.mp h]; exact hknown) [0]
  unfold IsBinding IsNamedBinding at this
  simp only [List.length_cons, List.length_nil, List.map_cons, List.map_nil, true_and] at this
  constructor
  · intro hm
    obtain ⟨y, hy, hm'⟩ := this.mp (fun i fv k hi hk => by
      cases i with
      | zero =>
        simp only [List.getElem?_cons_zero, Option.some.injEq] at hi hk
        subst hi hk
        exact ⟨v, rfl, hm⟩
      | succ i => simp at hi) 0 ts 0 rfl rfl
    cases hy
    exact hm'
  · intro hm
    obtain ⟨y, hy, hm'⟩ := this.mpr (fun i fv k hi hk => by
      cases i with
      | zero =>
        simp only [List.getElem?_cons_zero, Option.some.injEq] at hi hk
        subst hi hk
        exact ⟨x, rfl, hm⟩
      | succ i => simp at hi) 0 _ 0 rfl rfl
    cases hy
    exact hm'

theorem candidates_eq {t : Trace} {vs : List VarInfo} {ls : List LVar} {fv : FreeVar} {ts : List (List U8)}
    (h : AllRel (fun v l => lispVar t v = .ok l) vs ls)
    (hm : ∀ v l, lispVar t v = .ok l → (v.typeIndex ∈ fv ↔ l.type ∈ ts)) :
    candidates vs fv = ls.countP fun v => decide (v.type ∈ ts) := by
  unfold candidates
  induction h with
  | nil => rfl
  | cons hx _ ih =>
    rw [List.countP_cons, List.countP_cons, ih]
    simp only [decide_eq_true_eq, hm _ _ hx]

theorem combinations_eq {t : Trace} {types : List (List U8)} (htypes : getTypes t = .ok types) (hnodup : types.Nodup)
    (hsmall : types.length < 2 ^ 32) {vs : List VarInfo} {ls : List LVar} (h : AllRel (fun v l => lispVar t v = .ok l) vs ls) :
    ∀ varTypes : List (List (List U8)), (∀ ts ∈ varTypes, ∀ n ∈ ts, n ∈ types) →
      combinations (varTypes.map fun ts => ts.map fun n => BitVec.ofNat 32 (types.findIdx (· == n))) vs = choices varTypes ls
  | [], _ => rfl
  | ts :: tss, hk => by
    have ih := combinations_eq htypes hnodup hsmall h tss fun x hx => hk x (List.mem_cons_of_mem _ hx)
    unfold combinations choices at *
    simp only [List.map_cons, List.foldr_cons]
    rw [ih, candidates_eq h fun v l hl => typeIndex_mem htypes hnodup hsmall (hk ts (by simp)) hl]

/-! Queries about a trace of this kind -/

/-- What a query may answer about points shown. -/
def PointsAnswer (fs : FloatSys) (ls : List LPoint) (q : LQuery) (f : Form) (r : LPoint) : Prop :=
  ∃ l ∈ ls, ∃ b : List Nat, IsNamedBinding q.varTypes l.scopes b ∧ f.holdsFor fs (namedResult l b).scopes = true ∧
    (∀ g, q.filter = some g → g r = true) ∧ r = namedResult l b

theorem IsNamedBinding.lt' {varTypes : List (List (List U8))} {scopes : List LVar} {b : List Nat}
    (h : IsNamedBinding varTypes scopes b) : ∀ k ∈ b, ∃ v ts, scopes[k]? = some v ∧ ts ∈ varTypes ∧ v.type ∈ ts := by
  intro k hk
  obtain ⟨i, hi⟩ := List.getElem?_of_mem hk
  have hlt : i < b.length := (List.getElem?_eq_some_iff.mp hi).1
  rw [h.1] at hlt
  obtain ⟨v, h1, h2⟩ := h.2 i _ k (List.getElem?_eq_getElem hlt) hi
  exact ⟨v, _, h1, List.getElem_mem hlt, h2⟩

theorem answers_iff (fs : FloatSys) {t : Trace} {types : List (List U8)} (hnames : (t.names.map cStr).Nodup)
    (htypes : getTypes t = .ok types) (hnodup : types.Nodup) {ls : List LPoint}
    (hls : AllRel (fun p l => lispPoint t p = .ok l) t.points ls)
    (hd : ∀ p ∈ t.points, ∀ v ∈ p.vars, Described t.names t.types v) {q : LQuery}
    (hdb : ∀ l ∈ ls, ∀ x ∈ l.scopes, ∀ ts ∈ q.varTypes, x.type ∈ ts → ∀ b, x.value ≠ .double b) (f : Form) (r : LPoint) :
    LispAnswers fs t q f r ↔ PointsAnswer fs ls q f r := by
  have key : ∀ p ∈ t.points, ∀ l ∈ ls, lispPoint t p = .ok l → ∀ b, IsNamedBinding q.varTypes l.scopes b →
      f.holds (lowFloat fs) (boundVars p.vars b) = f.holdsFor fs (namedResult l b).scopes := by
    intro p hp l hl hpl b hb
    obtain ⟨_, _, _, hv⟩ := lispPoint_f hpl
    have hall := lispVars_allRel hv
    refine form_shown fs hnames htypes hnodup (hall.pick b (fun k hk => ?_) fun k hk x y hx hy hxy => ?_) f
    · obtain ⟨v, ts, h1, _⟩ := hb.lt' k hk
      rw [hall.length]
      exact (List.getElem?_eq_some_iff.mp h1).1
    · obtain ⟨v, ts, h1, h2, h3⟩ := hb.lt' k hk
      rw [hy] at h1
      cases h1
      exact ⟨hxy, hd p hp _ (List.mem_of_getElem? hx), hdb l hl _ (List.mem_of_getElem? hy) ts h2 h3⟩
  constructor
  · rintro ⟨p, hp, l, b, h1, h2, h3, h4, rfl⟩
    obtain ⟨i, hi⟩ := List.getElem?_of_mem hp
    rcases hls.get_left i with ⟨e, _⟩ | ⟨p', l', e1, e2, e3⟩
    · rw [e] at hi; cases hi
    rw [hi] at e1
    cases e1
    rw [h1] at e3
    cases e3
    have hl := List.mem_of_getElem? e2
    exact ⟨l, hl, b, h2, by rw [← key p hp l hl h1 b h2]; exact h3, h4, rfl⟩
  · rintro ⟨l, hl, b, h2, h3, h4, rfl⟩
    obtain ⟨p, hp, h1⟩ := hls.mem_right l hl
    exact ⟨p, hp, l, b, h1, h2, by rw [key p hp l hl h1 b h2]; exact h3, h4, rfl⟩

theorem query_points (fs : FloatSys) (env : Env) (pick : U32 → Nat → Nat) {t : Trace} {types : List (List U8)}
    (hnames : (t.names.map cStr).Nodup) (htypes : getTypes t = .ok types) (hnodup : types.Nodup)
    (hsmall : types.length < 2 ^ 32) {ls : List LPoint} (hls : AllRel (fun p l => lispPoint t p = .ok l) t.points ls)
    (hd : ∀ p ∈ t.points, ∀ v ∈ p.vars, Described t.names t.types v)
    (hcan : ∀ p ∈ t.points, ∀ v ∈ p.vars, v.Canonical) {q : LQuery} {f : Form} (hne : q.varTypes ≠ [])
    (hknown : ∀ ts ∈ q.varTypes, ∀ n ∈ ts, n ∈ types) (hsoft : q.soft = []) (hseed : q.seed = 0) (hfile : q.file = none)
    (hform : ReadsForm q.varTypes.length q.hard f) (hal : ∀ n, env.canAlloc n = true)
    (hfit : ∀ l ∈ ls, l.scopes.length < 2 ^ 32 ∧ choices q.varTypes l.scopes < 2 ^ 64 ∧
      ∀ x ∈ l.scopes, ∀ ts ∈ q.varTypes, x.type ∈ ts → ∀ b, x.value ≠ .double b) :
    ∃ rs c, lispQuery env pick (plainEval fs) t q [] () = .ok (rs, c, ()) ∧ (∀ r ∈ rs, PointsAnswer fs ls q f r) ∧
      (q.filter = none → ∀ a, PointsAnswer fs ls q f a → ∃ r ∈ rs, exactKey r = exactKey a) ∧
      (q.filter ≠ none → (∀ a, PointsAnswer fs ls q f a → ∃ r ∈ rs, foldedKey r = foldedKey a) ∧
        rs.Pairwise fun a b => foldedKey a ≠ foldedKey b) := by
  have hmem : ∀ p ∈ t.points, ∃ l ∈ ls, lispPoint t p = .ok l := by
    intro p hp
    obtain ⟨i, hi⟩ := List.getElem?_of_mem hp
    rcases hls.get_left i with ⟨e, _⟩ | ⟨p', l', e1, e2, e3⟩
    · rw [e] at hi; cases hi
    rw [hi] at e1
    cases e1
    exact ⟨l', List.mem_of_getElem? e2, e3⟩
  obtain ⟨rs, c, h1, h2, h3, h4⟩ := C58_binary fs env pick t types q f htypes hnodup hsmall
    (fun p hp => (hmem p hp).elim fun l h => ⟨l, h.2⟩) hne hknown hsoft hseed hfile hcan hform (fun p hp => by
      obtain ⟨l, hl, hpl⟩ := hmem p hp
      obtain ⟨_, _, _, hv⟩ := lispPoint_f hpl
      have hall := lispVars_allRel hv
      obtain ⟨a1, a2, _⟩ := hfit l hl
      refine ⟨by rw [hall.length]; exact a1, fun fvs hf => ?_⟩
      rw [freeVars_ok hknown] at hf
      cases hf
      rw [combinations_eq htypes hnodup hsmall hall _ hknown]
      exact ⟨a2, hal _⟩)
  have hiff := answers_iff fs hnames htypes hnodup hls hd (q := q) (fun l hl => (hfit l hl).2.2) f
  exact ⟨rs, c, h1, fun r hr => (hiff r).mp (h2 r hr), fun hf a ha => h3 hf a ((hiff a).mpr ha),
    fun hf => ⟨fun a ha => (h4 hf).1 a ((hiff a).mpr ha), (h4 hf).2⟩⟩

end TraceDB
