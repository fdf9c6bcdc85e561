import Verif.Proofs.PredicateMemory
/-
Lemmas about building predicates from s-expressions.
-/
namespace TraceDB

mutual
/-- The tree built from an s-expression. -/
def transl (names : List Nat) : SExp → Pred
  | .int i => .node (if 0 ≤ i then .unsignedValue else .signedValue) (BitVec.ofInt 64 i) []
  | .float bits => .node .floatValue bits []
  | .sym x => .node .varReference (BitVec.ofNat 64 ((position x names).getD 0)) []
  | .nil => .nullPred
  | .call op args => .node (op.kind.getD .null) (BitVec.ofNat 64 args.length) (translAll names args)
def translAll (names : List Nat) : List SExp → List Pred
  | [] => []
  | s :: ss => transl names s :: translAll names ss
end

theorem position_spec (x : Nat) (names : List Nat) :
    (∀ i, position x names = some i → IsVar names x i) ∧ (position x names = none → x ∉ names) := by
  induction names with
  | nil => simp [position]
  | cons y ys ih =>
    unfold position
    by_cases e : y = x
    · subst e
      simp only [if_true]
      refine ⟨fun i hi => ?_, by simp⟩
      cases hi
      exact ⟨rfl, fun j hj => absurd hj (by omega)⟩
    · simp only [e, if_false]
      cases hp : position x ys with
      | none => simp [ih.2 hp, Ne.symm e]
      | some k =>
        simp only [Option.map_some, Option.some.injEq]
        refine ⟨fun i hi => ?_, by simp⟩
        subst hi
        have := ih.1 k hp
        refine ⟨by simpa using this.1, fun j hj => ?_⟩
        cases j with
        | zero => simp [e]
        | succ j => simpa using this.2 j (by omega)

theorem IsVar.unique {names : List Nat} {x i j : Nat} (hi : IsVar names x i) (hj : IsVar names x j) : i = j := by
  rcases Nat.lt_trichotomy i j with h | h | h
  · exact absurd hi.1 (hj.2 i h)
  · exact h
  · exact absurd hj.1 (hi.2 j h)

theorem IsVar.position {names : List Nat} {x i : Nat} (h : IsVar names x i) : position x names = some i := by
  cases hp : TraceDB.position x names with
  | none => exact absurd (List.mem_of_getElem? h.1) ((position_spec x names).2 hp)
  | some k => rw [((position_spec x names).1 k hp).unique h]

theorem getElem?_append_lt {α : Type} (l l' : List α) (i : Nat) (h : i < l.length) : (l ++ l')[i]? = l[i]? :=
  List.getElem?_append_left h

theorem LispOp.kind_some {op : LispOp} {k : PKind} (h : op.kind = some k) :
    k ∉ [PKind.null, .varReference, .signedValue, .unsignedValue, .floatValue] := by
  cases op <;> simp [LispOp.kind] at h <;> subst h <;> decide

mutual
/-- Building succeeds for accepted expressions: the structure holds the tree and owns
exactly the new blocks. -/
theorem buildHelper_ok (names : List Nat) (s : SExp) (h : PHeap) (hw : s.Wf names) (hsm : s.Small) :
    ∃ c new bs, buildHelper names s h = some (c, h ++ new) ∧ Shape (h ++ new) c (transl names s) bs ∧ bs.Nodup ∧
      ∀ i, i ∈ bs ↔ h.length ≤ i ∧ i < h.length + new.length := by
  match s with
  | .int i =>
    simp only [SExp.Wf] at hw
    by_cases h0 : 0 ≤ i
    · refine ⟨⟨.unsignedValue, 0, 0, BitVec.ofInt 64 i, 0, 0, none⟩, [], [], ?_, ?_, List.nodup_nil, ?_⟩
      · simp [buildHelper, buildInt, h0]; omega
      · have := Shape.leaf (h := h ++ []) (c := ⟨.unsignedValue, 0, 0, BitVec.ofInt 64 i, 0, 0, none⟩) (by simp) rfl
        simpa [transl, h0] using this
      · simp
    · refine ⟨⟨.signedValue, 0, 0, 0, BitVec.ofInt 64 i, 0, none⟩, [], [], ?_, ?_, List.nodup_nil, ?_⟩
      · simp [buildHelper, buildInt, h0]; omega
      · have := Shape.leaf (h := h ++ []) (c := ⟨.signedValue, 0, 0, 0, BitVec.ofInt 64 i, 0, none⟩) (by simp) rfl
        simpa [transl, h0] using this
      · simp
  | .float bits =>
    refine ⟨⟨.floatValue, 0, 0, 0, 0, bits, none⟩, [], [], by simp [buildHelper], ?_, List.nodup_nil, by simp⟩
    exact Shape.leaf (h := h ++ []) (c := ⟨.floatValue, 0, 0, 0, 0, bits, none⟩) (by simp) rfl
  | .sym x =>
    simp only [SExp.Wf] at hw
    cases hp : position x names with
    | none => exact absurd hw ((position_spec x names).2 hp)
    | some i =>
      refine ⟨⟨.varReference, 0, BitVec.ofNat 64 i, 0, 0, 0, none⟩, [], [], by simp [buildHelper, hp], ?_,
        List.nodup_nil, by simp⟩
      have := Shape.leaf (h := h ++ []) (c := ⟨.varReference, 0, BitVec.ofNat 64 i, 0, 0, 0, none⟩) (by simp) rfl
      simpa [transl, hp] using this
  | .nil => simp [SExp.Wf] at hw
  | .call op args =>
    simp only [SExp.Wf] at hw
    simp only [SExp.Small] at hsm
    obtain ⟨cells, new, bs, e, hlen, hs, hn, hm⟩ := buildArgs_ok names args h hw.2 hsm.2
    cases hk : op.kind with
    | none =>
      cases op <;> simp [LispOp.kind] at hk
      exact absurd rfl (hw.1 _)
    | some k =>
      refine ⟨⟨k, BitVec.ofNat 64 args.length, 0, 0, 0, 0, some (h ++ new).length⟩, new ++ [⟨true, cells⟩],
        (h ++ new).length :: bs, ?_, ?_, ?_, ?_⟩
      · simp only [buildHelper, hk, e, PHeap.alloc, List.append_assoc]
      · have hd : (BitVec.ofNat 64 args.length : U64).toNat = cells.length := by
          rw [BitVec.toNat_ofNat, hlen, Nat.mod_eq_of_lt]
          have := hsm.1
          omega
        have hall : ShapeAll (h ++ (new ++ [⟨true, cells⟩])) cells (translAll names args) bs := by
          refine hs.frame fun i hi => ?_
          rw [← List.append_assoc]
          exact getElem?_append_lt _ _ _ (hs.mem i hi)
        have hb : (h ++ (new ++ [⟨true, cells⟩]))[(h ++ new).length]? = some ⟨true, cells⟩ := by
          rw [← List.append_assoc]; simp
        have := Shape.node (h := h ++ (new ++ [⟨true, cells⟩]))
          (c := ⟨k, BitVec.ofNat 64 args.length, 0, 0, 0, 0, some (h ++ new).length⟩)
          (LispOp.kind_some hk) rfl hb (by rw [hlen]; exact hsm.1) hd hall
        simpa [transl, hk] using this
      · refine List.nodup_cons.mpr ⟨fun hi => ?_, hn⟩
        have := (hm _).1 hi
        simp only [List.length_append] at this
        omega
      · intro i
        rw [List.mem_cons, hm i]
        simp only [List.length_append, List.length_singleton]
        omega
theorem buildArgs_ok (names : List Nat) (ss : List SExp) (h : PHeap) (hw : SExp.WfAll names ss)
    (hsm : SExp.SmallAll ss) :
    ∃ cells new bs, buildArgs names ss h = some (cells, h ++ new) ∧ cells.length = ss.length ∧
      ShapeAll (h ++ new) cells (translAll names ss) bs ∧ bs.Nodup ∧
      ∀ i, i ∈ bs ↔ h.length ≤ i ∧ i < h.length + new.length := by
  match ss with
  | [] => exact ⟨[], [], [], by simp [buildArgs], rfl, .nil, List.nodup_nil, by simp⟩
  | s :: ss =>
    simp only [SExp.WfAll] at hw
    simp only [SExp.SmallAll] at hsm
    obtain ⟨c, new, bs, e, hs, hn, hm⟩ := buildHelper_ok names s h hw.1 hsm.1
    obtain ⟨cells, new', bs', e', hlen, hs', hn', hm'⟩ := buildArgs_ok names ss (h ++ new) hw.2 hsm.2
    refine ⟨c :: cells, new ++ new', bs ++ bs', ?_, by simp [hlen], ?_, ?_, ?_⟩
    · simp only [buildArgs, e, e', List.append_assoc]
    · rw [← List.append_assoc]
      exact .cons (hs.frame fun i hi => getElem?_append_lt _ _ _ (hs.mem i hi)) hs'
    · refine List.nodup_append.mpr ⟨hn, hn', fun a ha b hb hab => ?_⟩
      subst hab
      have h1 := (hm a).1 ha
      have h2 := (hm' a).1 hb
      simp only [List.length_append] at h2
      omega
    · intro i
      rw [List.mem_append, hm i, hm' i]
      simp only [List.length_append]
      omega
end

/-- `build-predicate` on an accepted expression. -/
theorem buildPredicate_ok (names : List Nat) (s : SExp) (h : PHeap) (hw : s.Wf names ∨ s = .nil) (hsm : s.Small) :
    ∃ ptr new bs, buildPredicate names s h = some (ptr, h ++ new) ∧ PredAt (h ++ new) ptr (transl names s) bs ∧
      ∀ i, i ∈ bs ↔ h.length ≤ i ∧ i < h.length + new.length := by
  by_cases hs : s = .nil
  · subst hs
    exact ⟨none, [], [], by simp [buildPredicate], ⟨by simp [transl], rfl⟩, by simp⟩
  · have hw' : s.Wf names := hw.resolve_right hs
    obtain ⟨c, new, bs, e, hsh, hn, hm⟩ := buildHelper_ok names s h hw' hsm
    refine ⟨some (h ++ new).length, new ++ [⟨true, [c]⟩], (h ++ new).length :: bs, ?_,
      ⟨c, bs, ?_, rfl, ?_, ?_⟩, ?_⟩
    · cases s <;> simp_all [buildPredicate, PHeap.alloc]
    · rw [← List.append_assoc]; simp
    · refine List.nodup_cons.mpr ⟨fun hi => ?_, hn⟩
      have := (hm _).1 hi
      simp only [List.length_append] at this
      omega
    · refine hsh.frame fun i hi => ?_
      rw [← List.append_assoc]
      exact getElem?_append_lt _ _ _ (hsh.mem i hi)
    · intro i
      rw [List.mem_cons, hm i]
      simp only [List.length_append, List.length_singleton]
      omega

mutual
/-- Only accepted expressions are built. -/
theorem buildHelper_wf (names : List Nat) (s : SExp) (h : PHeap) (r : CPred × PHeap)
    (e : buildHelper names s h = some r) : s.Wf names := by
  match s with
  | .int i =>
    simp only [SExp.Wf]
    simp only [buildHelper, buildInt] at e
    split at e
    · split at e
      · constructor <;> omega
      · simp at e
    · split at e
      · constructor <;> omega
      · simp at e
  | .float _ => simp [SExp.Wf]
  | .sym x =>
    simp only [SExp.Wf]
    simp only [buildHelper] at e
    cases hp : position x names with
    | none => simp [hp] at e
    | some i => exact List.mem_of_getElem? ((position_spec x names).1 i hp).1
  | .nil => simp [buildHelper] at e
  | .call op args =>
    simp only [SExp.Wf]
    simp only [buildHelper] at e
    cases hk : op.kind with
    | none => simp [hk] at e
    | some k =>
      rw [hk] at e
      simp only at e
      cases ha : buildArgs names args h with
      | none => simp [ha] at e
      | some q =>
        refine ⟨fun n hn => ?_, buildArgs_wf names args h q ha⟩
        rw [hn] at hk
        simp [LispOp.kind] at hk
theorem buildArgs_wf (names : List Nat) (ss : List SExp) (h : PHeap) (r : List CPred × PHeap)
    (e : buildArgs names ss h = some r) : SExp.WfAll names ss := by
  match ss with
  | [] => simp [SExp.WfAll]
  | s :: ss =>
    simp only [SExp.WfAll]
    simp only [buildArgs] at e
    cases hs : buildHelper names s h with
    | none => simp [hs] at e
    | some q =>
      obtain ⟨c, h'⟩ := q
      rw [hs] at e
      simp only at e
      cases ha : buildArgs names ss h' with
      | none => simp [ha] at e
      | some q' => exact ⟨buildHelper_wf names s h _ hs, buildArgs_wf names ss h' q' ha⟩
end

theorem Wf_var {names : List Nat} {x i : Nat} (h : IsVar names x i) : x ∈ names := List.mem_of_getElem? h.1

/-- Terms of the grammar are accepted and read back. -/
theorem sexpTerm_ok {names : List Nat} (hl : names.length < 2 ^ 64) {s : SExp} {t : Term} (h : SexpTerm names s t) :
    s.Wf names ∧ s.Small ∧ ReadsTerm names.length (transl names s) t := by
  have hvar : ∀ {x i : Nat}, IsVar names x i → i < names.length ∧
      (BitVec.ofNat 64 ((position x names).getD 0) : U64).toNat = i := by
    intro x i hx
    have hi : i < names.length := (List.getElem?_eq_some_iff.mp hx.1).1
    refine ⟨hi, ?_⟩
    rw [hx.position, Option.getD_some, BitVec.toNat_ofNat, Nat.mod_eq_of_lt (by omega)]
  induction h with
  | @size x i hx =>
    refine ⟨by simp [SExp.Wf, SExp.WfAll, Wf_var hx], by simp [SExp.Small, SExp.SmallAll], ?_⟩
    obtain ⟨h1, h2⟩ := hvar hx
    have := ReadsTerm.size (n := names.length) (d := BitVec.ofNat 64 1)
      (i := BitVec.ofNat 64 ((position x names).getD 0)) (cs := []) (by rw [h2]; exact h1)
    rw [h2] at this
    simpa [transl, translAll, LispOp.kind] using this
  | @value x i hx =>
    refine ⟨by simp [SExp.Wf, SExp.WfAll, Wf_var hx], by simp [SExp.Small, SExp.SmallAll], ?_⟩
    obtain ⟨h1, h2⟩ := hvar hx
    have := ReadsTerm.value (n := names.length) (d := BitVec.ofNat 64 1)
      (i := BitVec.ofNat 64 ((position x names).getD 0)) (cs := []) (by rw [h2]; exact h1)
    rw [h2] at this
    simpa [transl, translAll, LispOp.kind] using this
  | @nat n =>
    have hn := n.isLt
    refine ⟨by simp only [SExp.Wf]; omega, by simp [SExp.Small], ?_⟩
    have e : BitVec.ofInt 64 (n.toNat : Int) = n := by simp
    have := ReadsTerm.nat (n := names.length) (d := n) (cs := [])
    simpa [transl, e] using this
  | @negative n hneg =>
    refine ⟨?_, by simp [SExp.Small], ?_⟩
    · simp only [SExp.Wf]
      have := BitVec.le_toInt n
      constructor <;> omega
    · have := ReadsTerm.integer (n := names.length) (d := n) (cs := [])
      have h0 : ¬ (0 ≤ n.toInt) := by omega
      simpa [transl, h0] using this
  | float =>
    exact ⟨by simp [SExp.Wf], by simp [SExp.Small], by simpa [transl] using ReadsTerm.float⟩
  | add _ _ iha ihb =>
    refine ⟨by simp [SExp.Wf, SExp.WfAll, iha.1, ihb.1], by simp [SExp.Small, SExp.SmallAll, iha.2.1, ihb.2.1], ?_⟩
    simpa [transl, translAll, LispOp.kind] using ReadsTerm.add (d := BitVec.ofNat 64 2) iha.2.2 ihb.2.2
  | sub _ _ iha ihb =>
    refine ⟨by simp [SExp.Wf, SExp.WfAll, iha.1, ihb.1], by simp [SExp.Small, SExp.SmallAll, iha.2.1, ihb.2.1], ?_⟩
    simpa [transl, translAll, LispOp.kind] using ReadsTerm.sub (d := BitVec.ofNat 64 2) iha.2.2 ihb.2.2
  | mul _ _ iha ihb =>
    refine ⟨by simp [SExp.Wf, SExp.WfAll, iha.1, ihb.1], by simp [SExp.Small, SExp.SmallAll, iha.2.1, ihb.2.1], ?_⟩
    simpa [transl, translAll, LispOp.kind] using ReadsTerm.mul (d := BitVec.ofNat 64 2) iha.2.2 ihb.2.2
  | div _ _ iha ihb =>
    refine ⟨by simp [SExp.Wf, SExp.WfAll, iha.1, ihb.1], by simp [SExp.Small, SExp.SmallAll, iha.2.1, ihb.2.1], ?_⟩
    simpa [transl, translAll, LispOp.kind] using ReadsTerm.div (d := BitVec.ofNat 64 2) iha.2.2 ihb.2.2

mutual
/-- Formulas of the grammar are accepted and read back. -/
theorem sexpForm_ok {names : List Nat} (hl : names.length < 2 ^ 64) {s : SExp} {f : Form} (h : SexpForm names s f) :
    s.Wf names ∧ s.Small ∧ ReadsForm names.length (transl names s) f := by
  match h with
  | .and hlen hc =>
    obtain ⟨h1, h2, h3⟩ := sexpConj_ok hl hc
    refine ⟨by simp [SExp.Wf, h1], by simp only [SExp.Small]; exact ⟨hlen, h2⟩, ?_⟩
    simpa [transl, LispOp.kind] using ReadsForm.and h3
  | .or hlen hc =>
    obtain ⟨h1, h2, h3⟩ := sexpDisj_ok hl hc
    refine ⟨by simp [SExp.Wf, h1], by simp only [SExp.Small]; exact ⟨hlen, h2⟩, ?_⟩
    simpa [transl, LispOp.kind] using ReadsForm.or h3
  | .not hf =>
    obtain ⟨h1, h2, h3⟩ := sexpForm_ok hl hf
    refine ⟨by simp [SExp.Wf, SExp.WfAll, h1], by simp [SExp.Small, SExp.SmallAll, h2], ?_⟩
    simpa [transl, translAll, LispOp.kind] using ReadsForm.not h3
  | .distinct (x := x) (y := y) (i := i) (j := j) hx hy =>
    refine ⟨by simp [SExp.Wf, SExp.WfAll, Wf_var hx, Wf_var hy], by simp [SExp.Small, SExp.SmallAll], ?_⟩
    have hi : i < names.length := (List.getElem?_eq_some_iff.mp hx.1).1
    have hj : j < names.length := (List.getElem?_eq_some_iff.mp hy.1).1
    have ei : (BitVec.ofNat 64 i : U64).toNat = i := by rw [BitVec.toNat_ofNat, Nat.mod_eq_of_lt (by omega)]
    have ej : (BitVec.ofNat 64 j : U64).toNat = j := by rw [BitVec.toNat_ofNat, Nat.mod_eq_of_lt (by omega)]
    have := ReadsForm.distinct (n := names.length) (d := BitVec.ofNat 64 2) (i := BitVec.ofNat 64 i)
      (j := BitVec.ofNat 64 j) (cs := []) (cs' := []) (by rw [ei]; exact hi) (by rw [ej]; exact hj)
    rw [ei, ej] at this
    simpa [transl, translAll, LispOp.kind, hx.position, hy.position] using this
  | .cmp (op := op) (c := c) hop hs ht =>
    obtain ⟨h1, h2, h3⟩ := sexpTerm_ok hl hs
    obtain ⟨h1', h2', h3'⟩ := sexpTerm_ok hl ht
    have hk : op.kind = some c.toKind ∧ ∀ n, op ≠ .other n := by cases hop <;> exact ⟨rfl, by simp⟩
    refine ⟨by simp only [SExp.Wf, SExp.WfAll]; exact ⟨hk.2, h1, h1', trivial⟩,
      by simp [SExp.Small, SExp.SmallAll, h2, h2'], ?_⟩
    simpa [transl, translAll, hk.1] using ReadsForm.cmp (op := c) (d := BitVec.ofNat 64 2) h3 h3'
theorem sexpConj_ok {names : List Nat} (hl : names.length < 2 ^ 64) {ss : List SExp} {f : Form}
    (h : SexpConj names ss f) :
    SExp.WfAll names ss ∧ SExp.SmallAll ss ∧ ReadsConj names.length (translAll names ss) f := by
  match h with
  | .nil => exact ⟨by simp [SExp.WfAll], by simp [SExp.SmallAll], .nil⟩
  | .cons h1 h2 =>
    obtain ⟨a1, a2, a3⟩ := sexpForm_ok hl h1
    obtain ⟨b1, b2, b3⟩ := sexpConj_ok hl h2
    exact ⟨by simp [SExp.WfAll, a1, b1], by simp [SExp.SmallAll, a2, b2], .cons a3 b3⟩
theorem sexpDisj_ok {names : List Nat} (hl : names.length < 2 ^ 64) {ss : List SExp} {f : Form}
    (h : SexpDisj names ss f) :
    SExp.WfAll names ss ∧ SExp.SmallAll ss ∧ ReadsDisj names.length (translAll names ss) f := by
  match h with
  | .nil => exact ⟨by simp [SExp.WfAll], by simp [SExp.SmallAll], .nil⟩
  | .cons h1 h2 =>
    obtain ⟨a1, a2, a3⟩ := sexpForm_ok hl h1
    obtain ⟨b1, b2, b3⟩ := sexpDisj_ok hl h2
    exact ⟨by simp [SExp.WfAll, a1, b1], by simp [SExp.SmallAll, a2, b2], .cons a3 b3⟩
end

/-- Predicates of the grammar are built, and the tree in memory reads as the formula. -/
theorem sexpPredicate_built (names : List Nat) (s : SExp) (f : Form) (h : PHeap) (hf : SexpPredicate names s f)
    (hl : names.length < 2 ^ 64) :
    ∃ ptr new bs, buildPredicate names s h = some (ptr, h ++ new) ∧ PredAt (h ++ new) ptr (transl names s) bs ∧
      (∀ i, i ∈ bs ↔ h.length ≤ i ∧ i < h.length + new.length) ∧ ReadsForm names.length (transl names s) f := by
  have key : (s.Wf names ∨ s = .nil) ∧ s.Small ∧ ReadsForm names.length (transl names s) f := by
    cases hf with
    | nil => exact ⟨Or.inr rfl, by simp [SExp.Small], by simpa [transl, Pred.nullPred] using ReadsForm.null⟩
    | form hf =>
      obtain ⟨h1, h2, h3⟩ := sexpForm_ok hl hf
      exact ⟨Or.inl h1, h2, h3⟩
  obtain ⟨ptr, new, bs, e, hp, hm⟩ := buildPredicate_ok names s h key.1 key.2.1
  exact ⟨ptr, new, bs, e, hp, hm, key.2.2⟩

mutual
theorem Shape.live {h : PHeap} {c : CPred} {p : Pred} {bs : List Nat} (hs : Shape h c p bs) :
    ∀ i ∈ bs, ∃ blk, h[i]? = some blk ∧ blk.live = true := by
  match hs with
  | .leaf _ _ => simp
  | .node _ _ hb _ _ hall =>
    intro i hi
    rcases List.mem_cons.mp hi with rfl | hi
    · exact ⟨_, hb, rfl⟩
    · exact hall.live i hi
theorem ShapeAll.live {h : PHeap} {cs : List CPred} {ps : List Pred} {bs : List Nat} (hs : ShapeAll h cs ps bs) :
    ∀ i ∈ bs, ∃ blk, h[i]? = some blk ∧ blk.live = true := by
  match hs with
  | .nil => simp
  | .cons h1 h2 =>
    intro i hi
    rcases List.mem_append.mp hi with hi | hi
    · exact h1.live i hi
    · exact h2.live i hi
end

theorem predAt_live {h : PHeap} {ptr : Option Nat} {p : Pred} {bs : List Nat} (hp : PredAt h ptr p bs) :
    ∀ i ∈ bs, ∃ blk, h[i]? = some blk ∧ blk.live = true := by
  cases ptr with
  | none => rw [hp.2]; simp
  | some b =>
    obtain ⟨c, bs', hb, rfl, _, hs⟩ := hp
    intro i hi
    rcases List.mem_cons.mp hi with rfl | hi
    · exact ⟨_, hb, rfl⟩
    · exact hs.live i hi

end TraceDB
