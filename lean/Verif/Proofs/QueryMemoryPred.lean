import Verif.Proofs.QueryMemory
/-
Predicates of a query: building them with what errors leave behind, reading and freeing
several of them.
-/
namespace TraceDB

/-! Building -/

/-- Blocks that were just allocated. -/
def AllLive (bs : List PBlock) : Prop := ∀ b ∈ bs, b.live = true

theorem AllLive.append {a b : List PBlock} (ha : AllLive a) (hb : AllLive b) : AllLive (a ++ b) := by
  intro x hx
  rcases List.mem_append.mp hx with hx | hx
  · exact ha x hx
  · exact hb x hx

theorem storedCells_all {cells : List (Option CPred)} (h : cells.all Option.isSome = true) :
    cells = (storedCells cells).map some := by
  induction cells with
  | nil => rfl
  | cons c cs ih =>
    cases c with
    | none => simp at h
    | some c =>
      simp only [List.all_cons, Option.isSome_some, Bool.true_and] at h
      simp only [storedCells, List.map_cons]
      rw [← ih h]

theorem storedCells_map (cells : List CPred) : storedCells (cells.map some) = cells := by
  induction cells with
  | nil => rfl
  | cons c cs ih => simp [storedCells, ih]

mutual
/-- Building only adds blocks; if it succeeds it is `buildHelper`. -/
theorem buildHelperM_adds (names : List Nat) (s : SExp) (h : PHeap) :
    ∃ new, (buildHelperM names s h).2 = h ++ new ∧ AllLive new ∧
      ∀ c, (buildHelperM names s h).1 = some (some c) → buildHelper names s h = some (c, h ++ new) := by
  match s with
  | .int i => exact ⟨[], by simp [buildHelperM], by simp [AllLive], by simp [buildHelperM, buildHelper]⟩
  | .float b => exact ⟨[], by simp [buildHelperM], by simp [AllLive], by simp [buildHelperM, buildHelper]⟩
  | .sym x => exact ⟨[], by simp [buildHelperM], by simp [AllLive], by
      simp only [buildHelperM, buildHelper, List.append_nil]
      cases position x names <;> simp⟩
  | .nil => exact ⟨[], by simp [buildHelperM], by simp [AllLive], by simp [buildHelperM]⟩
  | .call op args =>
    simp only [buildHelperM, buildHelper]
    cases op.kind with
    | none => exact ⟨[], by simp, by simp [AllLive], by simp⟩
    | some k =>
      obtain ⟨new, h1, h2, h3⟩ := buildArgsM_adds names args h
      generalize buildArgsM names args h = r at h1 h3
      obtain ⟨r, h'⟩ := r
      simp only at h1
      subst h1
      cases r with
      | none => exact ⟨new, rfl, h2, by simp⟩
      | some cells =>
        simp only [createPreds, PHeap.alloc]
        refine ⟨new ++ [⟨true, storedCells cells⟩], ?_, ?_, ?_⟩
        · split <;> rename_i he <;> split at he <;> simp at he <;> simp [← he]
        · exact h2.append (by simp [AllLive])
        · intro c hc
          by_cases hall : cells.all Option.isSome = true
          · rw [if_pos hall] at hc
            simp only [Option.some.injEq] at hc
            rw [h3 (storedCells cells) (by rw [← storedCells_all hall])]
            simp only [PHeap.alloc, List.append_assoc]
            rw [← hc]
          · rw [if_neg hall] at hc
            simp at hc
theorem buildArgsM_adds (names : List Nat) (ss : List SExp) (h : PHeap) :
    ∃ new, (buildArgsM names ss h).2 = h ++ new ∧ AllLive new ∧
      ∀ cs : List CPred, (buildArgsM names ss h).1 = some (cs.map some) → buildArgs names ss h = some (cs, h ++ new) := by
  match ss with
  | [] => exact ⟨[], by simp [buildArgsM], by simp [AllLive], by
      intro cs hcs
      simp only [buildArgsM, Option.some.injEq] at hcs
      cases cs with
      | nil => simp [buildArgs]
      | cons => simp at hcs⟩
  | s :: ss =>
    simp only [buildArgsM, buildArgs]
    obtain ⟨new, h1, h2, h3⟩ := buildHelperM_adds names s h
    generalize buildHelperM names s h = r at h1 h3
    obtain ⟨r, h'⟩ := r
    simp only at h1
    subst h1
    cases r with
    | none => exact ⟨new, rfl, h2, by simp⟩
    | some c =>
      obtain ⟨new', h1', h2', h3'⟩ := buildArgsM_adds names ss (h ++ new)
      simp only
      generalize buildArgsM names ss (h ++ new) = r at h1' h3'
      obtain ⟨r, h''⟩ := r
      simp only at h1'
      subst h1'
      cases r with
      | none => exact ⟨new ++ new', by simp, h2.append h2', by simp⟩
      | some cs =>
        refine ⟨new ++ new', by simp, h2.append h2', ?_⟩
        intro l hl
        simp only [Option.some.injEq] at hl
        cases l with
        | nil => simp at hl
        | cons x l =>
          simp only [List.map_cons, List.cons.injEq] at hl
          obtain ⟨rfl, rfl⟩ := hl
          simp only [h3 x rfl, h3' l rfl, List.append_assoc]
end

mutual
/-- Where `buildHelper` succeeds the version with the memory does the same. -/
theorem buildHelperM_ok (names : List Nat) (s : SExp) (h : PHeap) (c : CPred) (h' : PHeap)
    (e : buildHelper names s h = some (c, h')) : buildHelperM names s h = (some (some c), h') := by
  match s with
  | .int i =>
    simp only [buildHelper, Option.map_eq_some_iff, Prod.mk.injEq] at e
    obtain ⟨a, e, rfl, rfl⟩ := e
    simp [buildHelperM, e]
  | .float b =>
    simp only [buildHelper, Option.some.injEq, Prod.mk.injEq] at e
    obtain ⟨rfl, rfl⟩ := e
    simp [buildHelperM]
  | .sym x =>
    simp only [buildHelper, Option.map_eq_some_iff, Prod.mk.injEq] at e
    obtain ⟨a, e, rfl, rfl⟩ := e
    simp [buildHelperM, e]
  | .nil => simp [buildHelper] at e
  | .call op args =>
    simp only [buildHelper] at e
    simp only [buildHelperM]
    cases hk : op.kind with
    | none => simp [hk] at e
    | some k =>
      simp only [hk] at e
      cases ha : buildArgs names args h with
      | none => simp [ha] at e
      | some r =>
        obtain ⟨cells, h1⟩ := r
        simp only [ha, PHeap.alloc, Option.some.injEq, Prod.mk.injEq] at e
        obtain ⟨rfl, rfl⟩ := e
        rw [buildArgsM_ok names args h cells h1 ha]
        simp only [createPreds, PHeap.alloc, storedCells_map]
        rw [if_pos (by simp)]
theorem buildArgsM_ok (names : List Nat) (ss : List SExp) (h : PHeap) (cs : List CPred) (h' : PHeap)
    (e : buildArgs names ss h = some (cs, h')) : buildArgsM names ss h = (some (cs.map some), h') := by
  match ss with
  | [] => simp only [buildArgs, Option.some.injEq, Prod.mk.injEq] at e; simp [buildArgsM, ← e.1, e.2]
  | s :: ss =>
    simp only [buildArgs] at e
    cases h1 : buildHelper names s h with
    | none => simp [h1] at e
    | some r =>
      obtain ⟨c, hh⟩ := r
      simp only [h1] at e
      cases h2 : buildArgs names ss hh with
      | none => simp [h2] at e
      | some r =>
        obtain ⟨cs', hh'⟩ := r
        simp only [h2, Option.some.injEq, Prod.mk.injEq] at e
        obtain ⟨rfl, rfl⟩ := e
        simp only [buildArgsM, buildHelperM_ok names s h c hh h1, buildArgsM_ok names ss hh cs' hh' h2, List.map_cons]
end

theorem buildPredicateM_ok {names : List Nat} {s : SExp} {h h' : PHeap} {p : Option Nat}
    (e : buildPredicate names s h = some (p, h')) : buildPredicateM names s h = (.ok p, h') := by
  cases s with
  | nil => simp only [buildPredicate, Option.some.injEq, Prod.mk.injEq] at e; simp [buildPredicateM, e]
  | _ =>
    simp only [buildPredicate] at e
    simp only [buildPredicateM]
    split at e
    · cases e
    · rename_i c h1 he
      rw [buildHelperM_ok names _ _ _ _ he]
      simp only [PHeap.alloc, Option.some.injEq, Prod.mk.injEq] at e ⊢
      simp [e]

/-- A predicate that was built consists of allocated blocks. -/
theorem buildPredicate_live {names : List Nat} {s : SExp} {h new : PHeap} {ptr : Option Nat}
    (e : buildPredicate names s h = some (ptr, h ++ new)) : AllLive new := by
  cases s with
  | nil => simp only [buildPredicate, Option.some.injEq, Prod.mk.injEq] at e; simp [AllLive, List.self_eq_append_right.mp e.2]
  | _ =>
    simp only [buildPredicate] at e
    split at e
    · cases e
    · rename_i c hh he
      obtain ⟨n1, a1, a2, _⟩ := buildHelperM_adds names _ h
      rw [buildHelperM_ok _ _ _ _ _ he] at a1
      simp only at a1
      subst a1
      simp only [PHeap.alloc, Option.some.injEq, Prod.mk.injEq, List.append_assoc, List.append_cancel_left_eq] at e
      rw [← e.2]
      exact a2.append (by simp [AllLive])

/-- An expression that is refused leaves the block of the root behind, and more. -/
theorem buildPredicateM_refused {names : List Nat} {s : SExp} (hs : s.Refused names) (h : PHeap) :
    ∃ new, buildPredicateM names s h = (.throw .lisp, h ++ new) ∧ AllLive new ∧ new ≠ [] := by
  have key : ∃ new, (match buildHelperM names s h with
      | (some (some c), h) => ((.ok (some h.length), h ++ [⟨true, [c]⟩]) : Res (Option Nat) × PHeap)
      | (_, h) => (.throw .lisp, h ++ [⟨true, []⟩])) = (.throw .lisp, h ++ new) ∧ AllLive new ∧ new ≠ [] := by
    obtain ⟨new, h1, h2, h3⟩ := buildHelperM_adds names s h
    refine ⟨new ++ [⟨true, []⟩], ?_, h2.append (by simp [AllLive]), by simp⟩
    have hn : ∀ c, (buildHelperM names s h).1 ≠ some (some c) := fun c hc =>
      hs.2 (buildHelper_wf names s h _ (h3 c hc))
    generalize buildHelperM names s h = r at h1 hn
    obtain ⟨r, h'⟩ := r
    simp only at h1 hn
    subst h1
    split
    · rename_i c _ he
      simp only [Prod.mk.injEq] at he
      exact absurd he.1 (hn c)
    · rename_i he
      simp only [Prod.mk.injEq] at he
      simp [← he.2]
  cases s with
  | nil => exact absurd rfl hs.1
  | _ => exact key

/-! Trees -/

mutual
theorem sexpTree_wf {names : List Nat} (hl : names.length < 2 ^ 64) {s : SExp} {p : Pred} (h : SexpTree names s p) :
    s.Wf names ∧ s.Small ∧ transl names s = p := by
  match h with
  | .nat (n := n) =>
    have := n.isLt
    refine ⟨by simp only [SExp.Wf]; omega, by simp [SExp.Small], ?_⟩
    simp only [transl]
    rw [if_pos (by omega)]
    simp
  | .negative (n := n) hn =>
    refine ⟨by simp only [SExp.Wf]; have h1 := n.isLt; have h2 := @BitVec.le_toInt 64 n; omega,
      by simp [SExp.Small], ?_⟩
    simp only [transl]
    rw [if_neg (by omega)]
    simp
  | .float => exact ⟨by simp [SExp.Wf], by simp [SExp.Small], by simp [transl]⟩
  | .var (x := x) (i := i) hx =>
    refine ⟨by simp only [SExp.Wf]; exact Wf_var hx, by simp [SExp.Small], ?_⟩
    simp [transl, hx.position]
  | .call (op := op) (k := k) (args := args) hk hlen hargs =>
    obtain ⟨h1, h2, h3⟩ := sexpTrees_wf hl hargs
    refine ⟨?_, by simp only [SExp.Small]; exact ⟨hlen, h2⟩, ?_⟩
    · simp only [SExp.Wf]
      refine ⟨?_, h1⟩
      rintro n rfl
      simp [LispOp.kind] at hk
    · simp [transl, hk, h3]
theorem sexpTrees_wf {names : List Nat} (hl : names.length < 2 ^ 64) {ss : List SExp} {ps : List Pred}
    (h : SexpTrees names ss ps) : SExp.WfAll names ss ∧ SExp.SmallAll ss ∧ translAll names ss = ps := by
  match h with
  | .nil => exact ⟨by simp [SExp.WfAll], by simp [SExp.SmallAll], rfl⟩
  | .cons h1 h2 =>
    obtain ⟨a1, a2, a3⟩ := sexpTree_wf hl h1
    obtain ⟨b1, b2, b3⟩ := sexpTrees_wf hl h2
    exact ⟨by simp only [SExp.WfAll]; exact ⟨a1, b1⟩, by simp only [SExp.SmallAll]; exact ⟨a2, b2⟩,
      by simp [translAll, a3, b3]⟩
end

theorem sexpRoot_wf {names : List Nat} (hl : names.length < 2 ^ 64) {s : SExp} {p : Pred} (h : SexpRoot names s p) :
    (s.Wf names ∨ s = .nil) ∧ s.Small ∧ transl names s = p := by
  rcases h with ⟨rfl, rfl⟩ | h
  · exact ⟨.inr rfl, by simp [SExp.Small], by simp [transl]⟩
  · obtain ⟨a, b, c⟩ := sexpTree_wf hl h
    exact ⟨.inl a, b, c⟩

/-! Several predicates -/

/-- Predicates in memory with their blocks. -/
def AllAt (h : PHeap) : List (Option Nat) → List Pred → List (List Nat) → Prop
  | [], [], [] => True
  | p :: ps, q :: qs, b :: bs => PredAt h p q b ∧ AllAt h ps qs bs
  | _, _, _ => False

theorem PredAt.frame {h h' : PHeap} {p : Option Nat} {q : Pred} {bs : List Nat} (hp : PredAt h p q bs)
    (hs : ∀ i ∈ bs, h'[i]? = h[i]?) : PredAt h' p q bs := by
  cases p with
  | none => exact hp
  | some b =>
    obtain ⟨c, bs', h1, rfl, h2, h3⟩ := hp
    exact ⟨c, bs', by rw [hs b (by simp), h1], rfl, h2, h3.frame fun i hi => hs i (by simp [hi])⟩

theorem AllAt.frame {h h' : PHeap} {ps : List (Option Nat)} {qs : List Pred} {bss : List (List Nat)}
    (hp : AllAt h ps qs bss) (hs : ∀ i ∈ bss.flatten, h'[i]? = h[i]?) : AllAt h' ps qs bss := by
  induction ps generalizing qs bss with
  | nil => cases qs <;> cases bss <;> first | trivial | exact hp
  | cons p ps ih =>
    cases qs with
    | nil => exact hp.elim
    | cons q qs =>
      cases bss with
      | nil => exact hp.elim
      | cons b bss =>
        exact ⟨hp.1.frame fun i hi => hs i (by simp [hi]), ih hp.2 fun i hi => hs i (by
          simp only [List.flatten_cons, List.mem_append]; exact .inr hi)⟩

theorem AllAt.length {h : PHeap} {ps : List (Option Nat)} {qs : List Pred} {bss : List (List Nat)}
    (hp : AllAt h ps qs bss) : ps.length = qs.length := by
  induction ps generalizing qs bss with
  | nil => cases qs <;> cases bss <;> first | rfl | exact hp.elim
  | cons p ps ih =>
    cases qs with
    | nil => exact hp.elim
    | cons q qs => cases bss with
      | nil => exact hp.elim
      | cons b bss => simp [ih hp.2]

theorem AllAt.get {h : PHeap} {ps : List (Option Nat)} {qs : List Pred} {bss : List (List Nat)}
    (hp : AllAt h ps qs bss) {i : Nat} {p : Option Nat} (hi : ps[i]? = some p) :
    ∃ q bs, qs[i]? = some q ∧ PredAt h p q bs := by
  induction ps generalizing qs bss i with
  | nil => simp at hi
  | cons p' ps ih =>
    cases qs with
    | nil => exact hp.elim
    | cons q qs => cases bss with
      | nil => exact hp.elim
      | cons b bss =>
        cases i with
        | zero => simp at hi; subst hi; exact ⟨q, b, rfl, hp.1⟩
        | succ i => simpa using ih hp.2 (by simpa using hi)

theorem readPred_ok {m : FMem} {p : Option Nat} {q : Pred} {bs : List Nat} (h : PredAt m.preds p q bs) :
    readPred p m = (.ok q, m) := by
  simp [readPred, FM.onPreds, createPredicateObj_ok h]

theorem readSofts_ok {m : FMem} {arr : Nat} {ps : List (Option Nat)} {qs : List Pred} {bss : List (List Nat)}
    (harr : m.arrays[arr]? = some ⟨true, .ptrs ps⟩) (h : AllAt m.preds ps qs bss) :
    ∀ (n i : Nat), i + n = ps.length → readSofts arr i n m = (.ok (qs.drop i), m) := by
  have hlen := h.length
  intro n
  induction n with
  | zero =>
    intro i hi
    rw [List.drop_eq_nil_of_le (by omega)]
    rfl
  | succ n ih =>
    intro i hi
    have hlt : i < ps.length := by omega
    have hget : ps[i]? = some ps[i] := List.getElem?_eq_getElem hlt
    obtain ⟨q, bs, hq, hp⟩ := h.get hget
    simp only [readSofts]
    rw [FM.bind_ok (FM.array_ok harr)]
    simp only [hget]
    rw [FM.bind_ok (readPred_ok hp), FM.bind_ok (ih (i + 1) (by omega))]
    have hlt' : i < qs.length := by omega
    rw [List.drop_eq_getElem_cons hlt']
    rw [List.getElem?_eq_getElem hlt'] at hq
    cases hq
    rfl

theorem freeSoftsM_ok {h0 : PHeap} {ps : List (Option Nat)} {qs : List Pred} {bss : List (List Nat)}
    (hp : AllAt h0 ps qs bss) (hn : bss.flatten.Nodup) (m : FMem)
    (hs : ∀ i ∈ bss.flatten, m.preds[i]? = h0[i]?) :
    freeSoftsM ps m = (.ok (), { m with preds := killed m.preds bss.flatten }) := by
  induction ps generalizing qs bss m with
  | nil =>
    cases qs <;> cases bss <;> first | exact hp.elim | skip
    simp [freeSoftsM, killed_nil, FM.pure_apply]
  | cons p ps ih =>
    cases qs with
    | nil => exact hp.elim
    | cons q qs => cases bss with
      | nil => exact hp.elim
      | cons b bss =>
        simp only [List.flatten_cons] at hn hs ⊢
        obtain ⟨n1, n2, n3⟩ := List.nodup_append.mp hn
        have hfree := freeCPredicate_ok (hp.1.frame (h' := m.preds) fun i hi => hs i (by simp [hi]))
        simp only [freeSoftsM]
        have e : FM.onPreds (keepHeap fun h => (freeCPredicate p h) >>= fun h => Res.ok ((), h)) m =
            (.ok (), { m with preds := killed m.preds b }) := by
          simp [FM.onPreds, keepHeap, hfree]
        rw [FM.bind_ok e, ih hp.2 n2 _ (by
          intro i hi
          simp only
          rw [killed_other _ _ _ (fun hb => n3 i hb i hi rfl)]
          exact hs i (by simp only [List.mem_append]; exact .inr hi))]
        simp only [killed_append]

/-- Building the soft predicates. -/
theorem buildSoftsM_ok {names : List Nat} (hl : names.length < 2 ^ 64) {ss : List SExp} {qs : List Pred}
    (h : SexpRoots names ss qs) (m : FMem) :
    ∃ ps new bss, buildSoftsM names ss m = (.ok ps, { m with preds := m.preds ++ new }) ∧
      AllAt (m.preds ++ new) ps qs bss ∧ bss.flatten.Nodup ∧
      ∀ i, i ∈ bss.flatten ↔ m.preds.length ≤ i ∧ i < m.preds.length + new.length := by
  induction ss generalizing qs m with
  | nil =>
    cases qs with
    | nil => exact ⟨[], [], [], by simp [buildSoftsM, FM.pure_apply], trivial, by simp, by simp⟩
    | cons => exact h.elim
  | cons s ss ih =>
    cases qs with
    | nil => exact h.elim
    | cons q qs =>
      obtain ⟨h1, h2, h3⟩ := sexpRoot_wf hl h.1
      obtain ⟨ptr, new, bs, e, hp, hb⟩ := buildPredicate_ok names s m.preds h1 h2
      rw [h3] at hp
      obtain ⟨ps, new', bss, e', hp', hn', hb'⟩ := ih h.2 { m with preds := m.preds ++ new }
      simp only [List.length_append] at hb'
      refine ⟨ptr :: ps, new ++ new', bs :: bss, ?_, ⟨?_, ?_⟩, ?_, ?_⟩
      · simp only [buildSoftsM]
        have e1 : FM.onPreds (buildPredicateM names s) m = (.ok ptr, { m with preds := m.preds ++ new }) := by
          simp [FM.onPreds, buildPredicateM_ok e]
        rw [FM.bind_ok e1, FM.bind_ok e']
        simp [FM.pure_apply]
      · refine hp.frame fun i hi => ?_
        rw [← List.append_assoc, List.getElem?_append_left]
        have := (hb i).mp hi
        simp; omega
      · simpa [List.append_assoc] using hp'
      · simp only [List.flatten_cons]
        rw [List.nodup_append]
        refine ⟨?_, hn', ?_⟩
        · cases ptr with
          | none => rw [hp.2]; exact List.nodup_nil
          | some b => obtain ⟨_, _, _, _, hn, _⟩ := hp; exact hn
        · rintro a ha b hb2 rfl
          have := (hb a).mp ha
          have := (hb' a).mp hb2
          omega
      · intro i
        simp only [List.flatten_cons, List.mem_append, List.length_append, hb, hb']
        omega

/-- A soft predicate that is refused leaves those before it behind, and a root. -/
theorem buildSoftsM_refused {names : List Nat} (hl : names.length < 2 ^ 64) (good : List SExp) (gs : List Pred)
    (h : SexpRoots names good gs) (bad : SExp) (rest : List SExp) (hb : bad.Refused names) (m : FMem) :
    ∃ new, buildSoftsM names (good ++ bad :: rest) m = (.throw .lisp, { m with preds := m.preds ++ new }) ∧
      new ≠ [] ∧ AllLive new := by
  induction good generalizing gs m with
  | nil =>
    obtain ⟨new, e, hlive, hne⟩ := buildPredicateM_refused hb m.preds
    refine ⟨new, ?_, hne, hlive⟩
    simp only [List.nil_append, buildSoftsM]
    rw [FM.bind_throw (m' := { m with preds := m.preds ++ new }) (e := .lisp) (by simp [FM.onPreds, e])]
  | cons s ss ih =>
    cases gs with
    | nil => exact h.elim
    | cons q qs =>
      obtain ⟨h1, h2, h3⟩ := sexpRoot_wf hl h.1
      obtain ⟨ptr, new, bs, e, hp, hb'⟩ := buildPredicate_ok names s m.preds h1 h2
      obtain ⟨new', e', hne, hlive⟩ := ih qs h.2 { m with preds := m.preds ++ new }
      have hnew : AllLive new := buildPredicate_live e
      refine ⟨new ++ new', ?_, by simp [hne], hnew.append hlive⟩
      simp only [List.cons_append, buildSoftsM]
      have e1 : FM.onPreds (buildPredicateM names s) m = (.ok ptr, { m with preds := m.preds ++ new }) := by
        simp [FM.onPreds, buildPredicateM_ok e]
      rw [FM.bind_ok e1, FM.bind_throw e']
      simp

end TraceDB
