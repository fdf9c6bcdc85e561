import Verif.Proofs.Runtime
/-
Threads of an instrumented program: what holds in every reachable state.
-/
namespace TraceDB

variable {cf : CFloat} {mem : CMem}

/-- The steps of a point that writes the given bytes. -/
def pointActs (b : List U8) : List RtAct := .lock :: (b.map .put ++ [.unlock])

def actsAll (ps : List (List U8)) : List RtAct := ps.flatMap pointActs

theorem rtActs_append (a b : List RtCall) :
    rtActs cf mem (a ++ b) = (do let x ← rtActs cf mem a; let y ← rtActs cf mem b; return x ++ y) := by
  induction a with
  | nil =>
    simp only [List.nil_append, rtActs, Res.ok_bind]
    cases rtActs cf mem b <;> rfl
  | cons c a ih =>
    simp only [List.cons_append, rtActs, ih]
    cases c.bytes cf mem <;> simp
    cases rtActs cf mem a <;> simp
    cases rtActs cf mem b <;> simp

theorem rtActs_items (cs : List RtCall) (h : ∀ c ∈ cs, c.IsItem) :
    rtActs cf mem cs = (do let b ← rtBytes cf mem cs; return b.map .put) := by
  induction cs with
  | nil => rfl
  | cons c cs ih =>
    have hc := h c (by simp)
    have : ∀ b, c.acts b = b.map .put := by
      intro b; cases c <;> first | rfl | exact hc.elim
    simp only [rtActs, rtBytes, ih (fun d hd => h d (by simp [hd])), this]
    cases c.bytes cf mem <;> simp
    cases rtBytes cf mem cs <;> simp

theorem rtActs_point {id : U64} {body : List RtCall} {b : List U8} (h : ∀ c ∈ body, c.IsItem)
    (hb : rtBytes cf mem (pointCalls id body) = .ok b) :
    rtActs cf mem (pointCalls id body) = .ok (pointActs b) := by
  cases hx : rtBytes cf mem body with
  | ok x =>
    have h1 : rtBytes cf mem (pointCalls id body) = .ok ((1 : U8) :: (leBytes 8 id.toNat ++ (x ++ [0]))) := by
      simp only [pointCalls, rtBytes, rtBytes_append, RtCall.bytes, Res.ok_bind, Res.pure_eq, hx,
        List.append_nil, List.cons_append]
    rw [h1] at hb
    have hb := (Res.ok.inj hb).symm
    have e1 : rtActs cf mem body = .ok (x.map .put) := by
      rw [rtActs_items body h, hx]; rfl
    have e2 : rtActs cf mem (pointCalls id body) = .ok ((RtAct.lock :: ((1 : U8) :: leBytes 8 id.toNat).map .put) ++
        (x.map .put ++ ([(0 : U8)].map .put ++ [.unlock] ++ []))) := by
      have b1 : (RtCall.traceId id).bytes cf mem = .ok ((1 : U8) :: leBytes 8 id.toNat) := rfl
      have b2 : rtActs cf mem [.endEntry] = .ok ([(0 : U8)].map .put ++ [.unlock] ++ []) := rfl
      rw [pointCalls, rtActs, b1, rtActs_append, e1, b2]
      generalize leBytes 8 id.toNat = w
      rfl
    rw [e2, hb]
    generalize leBytes 8 id.toNat = w
    simp [pointActs]
  | _ =>
    simp only [pointCalls, rtBytes, rtBytes_append, RtCall.bytes, Res.ok_bind, hx] at hb
    cases hb

/-! ### The invariant -/

/-- The point being written: its thread, the bytes written and those to come. -/
abbrev Cur := Option (Nat × List U8 × List U8)

def Cur.points (cur : Cur) (i : Nat) : List (List U8) :=
  match cur with
  | some (j, w, u) => if i = j then [w ++ u] else []
  | none => []

def Cur.acts (cur : Cur) (i : Nat) : List RtAct :=
  match cur with
  | some (j, _, u) => if i = j then u.map .put ++ [.unlock] else []
  | none => []

def Cur.written (cur : Cur) : List U8 :=
  match cur with
  | some (_, w, _) => w
  | none => []

structure RtState.Inv (header : List U8) (thr : List (List (List U8))) (s : RtState)
    (order : List (Nat × List U8)) (cur : Cur) : Prop where
  out : s.out = header ++ ((order.map (·.2)).flatten ++ cur.written)
  owner : s.owner = cur.map (·.1)
  len : s.threads.length = thr.length
  orderLt : ∀ x ∈ order, x.1 < thr.length
  curLt : ∀ x ∈ cur, x.1 < thr.length
  part : ∀ (i : Nat) (ps : List (List U8)), thr[i]? = some ps → ∃ rest,
    ps = threadPart i order ++ (cur.points i ++ rest) ∧ s.threads[i]? = some (cur.acts i ++ actsAll rest)

theorem inv_init (header : List U8) (thr : List (List (List U8))) :
    (RtState.init header (thr.map actsAll)).Inv header thr [] none where
  out := by simp [RtState.init, Cur.written]
  owner := rfl
  len := by simp [RtState.init]
  orderLt := by simp
  curLt := by simp
  part := by
    intro i ps h
    exact ⟨ps, by simp [threadPart, Cur.points], by simp [RtState.init, h, Cur.acts]⟩

theorem threadPart_append {α : Type} (i j : Nat) (order : List (Nat × α)) (x : α) :
    threadPart i (order ++ [(j, x)]) = threadPart i order ++ (if i = j then [x] else []) := by
  unfold threadPart
  rw [List.filter_append, List.map_append]
  by_cases h : i = j
  · subst h; simp
  · simp [h, Ne.symm h]

/-- One step, and whether it moved. -/
theorem inv_step {header : List U8} {thr : List (List (List U8))} {s : RtState}
    {order : List (Nat × List U8)} {cur : Cur} (h : s.Inv header thr order cur) (i : Nat) :
    ∃ s' order' cur', s.step i = .ok s' ∧ s'.Inv header thr order' cur' := by
  cases ht : thr[i]? with
  | none =>
    have : s.threads[i]? = none := by
      rw [List.getElem?_eq_none_iff] at ht ⊢
      rw [h.len]; exact ht
    exact ⟨s, order, cur, by simp [RtState.step, this], h⟩
  | some ps =>
    obtain ⟨rest, hps, hact⟩ := h.part i ps ht
    have hlt : i < s.threads.length := (List.getElem?_eq_some_iff.mp hact).1
    have hlt' : i < thr.length := h.len ▸ hlt
    by_cases hc : ∃ w u, cur = some (i, w, u)
    · obtain ⟨w, u, rfl⟩ := hc
      simp only [Cur.acts, if_true] at hact
      cases u with
      | nil =>
        simp only [List.map_nil, List.nil_append, List.cons_append] at hact
        have ho : s.owner = some i := h.owner
        refine ⟨_, order ++ [(i, w)], none, by simp only [RtState.step, hact, ho, if_true]; rfl, ?_⟩
        constructor
        · simp [h.out, Cur.written]
        · rfl
        · simp [h.len]
        · intro x hx
          rcases List.mem_append.mp hx with hx | hx
          · exact h.orderLt x hx
          · simp only [List.mem_singleton] at hx; subst hx; exact hlt'
        · simp
        · intro k qs hk
          obtain ⟨rest', hq, ha⟩ := h.part k qs hk
          by_cases hki : k = i
          · subst hki
            have : rest' = rest := by
              rw [hk] at ht
              cases ht
              have := hq.symm.trans hps
              simpa [Cur.points] using this
            subst this
            refine ⟨rest', ?_, ?_⟩
            · rw [threadPart_append, if_pos rfl, hq]; simp [Cur.points]
            · simp [hlt, Cur.acts]
          · refine ⟨rest', ?_, ?_⟩
            · rw [threadPart_append, if_neg hki, hq]; simp [Cur.points, hki]
            · simp only [Cur.acts, if_neg hki] at ha
              simp only [Cur.acts, List.getElem?_set_ne (Ne.symm hki), ha]
      | cons b u =>
        simp only [List.map_cons, List.cons_append] at hact
        refine ⟨_, order, some (i, w ++ [b], u), by simp only [RtState.step, hact]; rfl, ?_⟩
        constructor
        · simp [h.out, Cur.written]
        · exact h.owner
        · simp [h.len]
        · exact h.orderLt
        · intro x hx
          simp only [Option.mem_def, Option.some.injEq] at hx; subst hx; exact hlt'
        · intro k qs hk
          obtain ⟨rest', hq, ha⟩ := h.part k qs hk
          by_cases hki : k = i
          · subst hki
            have : rest' = rest := by
              rw [hk] at ht
              cases ht
              have := hq.symm.trans hps
              simpa [Cur.points] using this
            subst this
            refine ⟨rest', ?_, ?_⟩
            · rw [hq]; simp [Cur.points]
            · simp [hlt, Cur.acts]
          · refine ⟨rest', ?_, ?_⟩
            · rw [hq]; simp [Cur.points, hki]
            · simp only [Cur.acts, if_neg hki] at ha ⊢
              simp only [List.getElem?_set_ne (Ne.symm hki), ha]
    · have hc1 : cur.acts i = [] := by
        cases cur with
        | none => rfl
        | some x =>
          obtain ⟨j, w, u⟩ := x
          simp only [Cur.acts]
          rw [if_neg]
          rintro rfl
          exact hc ⟨w, u, rfl⟩
      have hc2 : cur.points i = [] := by
        cases cur with
        | none => rfl
        | some x =>
          obtain ⟨j, w, u⟩ := x
          simp only [Cur.points]
          rw [if_neg]
          rintro rfl
          exact hc ⟨w, u, rfl⟩
      rw [hc1, List.nil_append] at hact
      cases rest with
      | nil => exact ⟨s, order, cur, by simp [RtState.step, hact, actsAll], h⟩
      | cons p rest =>
        simp only [actsAll, List.flatMap_cons, pointActs, List.cons_append] at hact
        cases cur with
        | some x =>
          have ho : s.owner = some x.1 := h.owner
          exact ⟨s, order, some x, by simp only [RtState.step, hact, ho], h⟩
        | none =>
          have ho : s.owner = none := h.owner
          refine ⟨_, order, some (i, [], p), by simp only [RtState.step, hact, ho]; rfl, ?_⟩
          constructor
          · simp [h.out, Cur.written]
          · rfl
          · simp [h.len]
          · exact h.orderLt
          · intro x hx
            simp only [Option.mem_def, Option.some.injEq] at hx; subst hx; exact hlt'
          · intro k qs hk
            obtain ⟨rest', hq, ha⟩ := h.part k qs hk
            by_cases hki : k = i
            · subst hki
              have : rest' = p :: rest := by
                rw [hk] at ht
                cases ht
                have := hq.symm.trans hps
                simpa [Cur.points] using this
              subst this
              refine ⟨rest, ?_, ?_⟩
              · rw [hq]; simp [Cur.points]
              · simp [hlt, Cur.acts, actsAll, pointActs]
            · refine ⟨rest', ?_, ?_⟩
              · rw [hq]; simp [Cur.points, hki]
              · simp only [Cur.acts, List.nil_append] at ha
                simp only [Cur.acts, if_neg hki, List.getElem?_set_ne (Ne.symm hki), ha, List.nil_append]

theorem inv_run {header : List U8} {thr : List (List (List U8))} (sched : List Nat) {s : RtState}
    {order : List (Nat × List U8)} {cur : Cur} (h : s.Inv header thr order cur) :
    ∃ s' order' cur', s.run sched = .ok s' ∧ s'.Inv header thr order' cur' := by
  induction sched generalizing s order cur with
  | nil => exact ⟨s, order, cur, rfl, h⟩
  | cons i is ih =>
    obtain ⟨s1, o1, c1, h1, h2⟩ := inv_step h i
    obtain ⟨s2, o2, c2, h3, h4⟩ := ih h2
    exact ⟨s2, o2, c2, by simp only [RtState.run, h1, Res.ok_bind, h3], h4⟩

/-! ### End and progress -/

theorem inv_ended {header : List U8} {thr : List (List (List U8))} {s : RtState}
    {order : List (Nat × List U8)} {cur : Cur} (h : s.Inv header thr order cur) (he : s.Ended) :
    cur = none ∧ Interleaves order thr := by
  have hcur : cur = none := by
    cases cur with
    | none => rfl
    | some x =>
      obtain ⟨j, w, u⟩ := x
      have hj : j < thr.length := h.curLt _ rfl
      obtain ⟨rest, _, ha⟩ := h.part j thr[j] (List.getElem?_eq_getElem hj)
      have := he _ (List.mem_of_getElem? ha)
      simp [Cur.acts] at this
  subst hcur
  refine ⟨rfl, h.orderLt, ?_⟩
  intro i l hl
  obtain ⟨rest, hq, ha⟩ := h.part i l hl
  have := he _ (List.mem_of_getElem? ha)
  cases rest with
  | nil => rw [hq]; simp [Cur.points]
  | cons p rest => simp [Cur.acts, actsAll, pointActs] at this

/-- Number of steps left. -/
def RtState.left (s : RtState) : Nat := (s.threads.map List.length).sum

theorem sum_set {l : List (List RtAct)} {i : Nat} {a : RtAct} {r : List RtAct} (h : l[i]? = some (a :: r)) :
    ((l.set i r).map List.length).sum + 1 = (l.map List.length).sum := by
  induction l generalizing i with
  | nil => simp at h
  | cons x l ih =>
    cases i with
    | zero =>
      simp only [List.getElem?_cons_zero, Option.some.injEq] at h
      subst h
      simp only [List.set_cons_zero, List.map_cons, List.sum_cons, List.length_cons]
      omega
    | succ i =>
      simp only [List.getElem?_cons_succ] at h
      have := ih h
      simp only [List.set_cons_succ, List.map_cons, List.sum_cons]
      omega

theorem inv_progress {header : List U8} {thr : List (List (List U8))} {s : RtState}
    {order : List (Nat × List U8)} {cur : Cur} (h : s.Inv header thr order cur) (he : ¬ s.Ended) :
    ∃ i s', s.step i = .ok s' ∧ s'.left < s.left := by
  cases cur with
  | some x =>
    obtain ⟨j, w, u⟩ := x
    have hj : j < thr.length := h.curLt _ rfl
    have ho : s.owner = some j := h.owner
    obtain ⟨rest, _, ha⟩ := h.part j thr[j] (List.getElem?_eq_getElem hj)
    simp only [Cur.acts, if_true] at ha
    cases u with
    | nil =>
      simp only [List.map_nil, List.nil_append, List.cons_append] at ha
      refine ⟨j, _, by simp only [RtState.step, ha, ho, if_true]; rfl, ?_⟩
      have := sum_set ha
      simp only [RtState.left]; omega
    | cons b u =>
      simp only [List.map_cons, List.cons_append] at ha
      refine ⟨j, _, by simp only [RtState.step, ha]; rfl, ?_⟩
      have := sum_set ha
      simp only [RtState.left]; omega
  | none =>
    have ho : s.owner = none := h.owner
    unfold RtState.Ended at he
    simp only [Classical.not_forall] at he
    obtain ⟨t, htm, hne⟩ := he
    obtain ⟨i, hi, hti⟩ := List.mem_iff_getElem.mp htm
    have hi' : i < thr.length := h.len ▸ hi
    obtain ⟨rest, _, ha⟩ := h.part i thr[i] (List.getElem?_eq_getElem hi')
    have hta : s.threads[i]? = some t := by rw [← hti]; exact List.getElem?_eq_getElem hi
    rw [hta] at ha
    simp only [Cur.acts, List.nil_append, Option.some.injEq] at ha
    cases rest with
    | nil => exact absurd ha hne
    | cons p rest =>
      have ha : s.threads[i]? = some (.lock :: ((p.map .put ++ [.unlock]) ++ actsAll rest)) := by
        rw [hta, ha]; simp [actsAll, pointActs]
      refine ⟨i, _, by simp only [RtState.step, ha, ho]; rfl, ?_⟩
      have := sum_set ha
      simp only [RtState.left]; omega

theorem inv_finish {header : List U8} {thr : List (List (List U8))} (n : Nat) {s : RtState}
    {order : List (Nat × List U8)} {cur : Cur} (h : s.Inv header thr order cur) (hn : s.left ≤ n) :
    ∃ sched s', s.run sched = .ok s' ∧ s'.Ended := by
  induction n generalizing s order cur with
  | zero =>
    by_cases he : s.Ended
    · exact ⟨[], s, rfl, he⟩
    · obtain ⟨i, s', _, h2⟩ := inv_progress h he
      omega
  | succ n ih =>
    by_cases he : s.Ended
    · exact ⟨[], s, rfl, he⟩
    · obtain ⟨i, s', h1, h2⟩ := inv_progress h he
      obtain ⟨s1, o1, c1, h3, h4⟩ := inv_step h i
      rw [h1] at h3
      cases h3
      obtain ⟨sched, s2, h5, h6⟩ := ih h4 (by omega)
      exact ⟨i :: sched, s2, by simp only [RtState.run, h1, Res.ok_bind, h5], h6⟩

/-! ### From bytes back to points -/

theorem threadPart_cons {α : Type} (i j : Nat) (x : α) (order : List (Nat × α)) :
    threadPart i ((j, x) :: order) = (if i = j then [x] else []) ++ threadPart i order := by
  unfold threadPart
  by_cases h : i = j
  · subst h; simp
  · simp [h, Ne.symm h]

theorem order_lift {α β : Type} (f : α → β) (order : List (Nat × β)) (L : Nat → List α)
    (h : ∀ i, threadPart i order = (L i).map f) :
    ∃ order' : List (Nat × α), order = order'.map (fun x => (x.1, f x.2)) ∧ ∀ i, threadPart i order' = L i := by
  induction order generalizing L with
  | nil =>
    refine ⟨[], rfl, fun i => ?_⟩
    have := h i
    simp only [threadPart, List.filter_nil, List.map_nil] at this
    simp only [threadPart, List.filter_nil, List.map_nil]
    exact (List.map_eq_nil_iff.mp this.symm).symm
  | cons x order ih =>
    obtain ⟨j, b⟩ := x
    have hj := h j
    rw [threadPart_cons, if_pos rfl] at hj
    cases hL : L j with
    | nil => rw [hL] at hj; simp at hj
    | cons p l =>
      rw [hL] at hj
      simp only [List.cons_append, List.nil_append, List.map_cons, List.cons.injEq] at hj
      obtain ⟨rfl, hj⟩ := hj
      obtain ⟨o, h1, h2⟩ := ih (fun i => if i = j then l else L i) (by
        intro i
        by_cases hi : i = j
        · subst hi; simp only [if_true]; exact hj
        · simp only [if_neg hi]
          have := h i
          rw [threadPart_cons, if_neg hi] at this
          exact this)
      refine ⟨(j, p) :: o, by rw [List.map_cons, ← h1], ?_⟩
      intro i
      rw [threadPart_cons, h2]
      by_cases hi : i = j
      · subst hi; simp [hL]
      · simp [hi]

theorem interleaves_lift {α β : Type} (f : α → β) {order : List (Nat × β)} {threads : List (List α)}
    (h : Interleaves order (threads.map (List.map f))) :
    ∃ order' : List (Nat × α), order = order'.map (fun x => (x.1, f x.2)) ∧ Interleaves order' threads := by
  obtain ⟨o, h1, h2⟩ := order_lift f order (fun i => threads[i]?.getD []) (by
    intro i
    cases hi : threads[i]? with
    | some l =>
      have := h.2 i (l.map f) (by simp [hi])
      simpa using this
    | none =>
      have hlt : threads.length ≤ i := List.getElem?_eq_none_iff.mp hi
      simp only [Option.getD_none, List.map_nil, threadPart, List.map_eq_nil_iff, List.filter_eq_nil_iff, beq_iff_eq]
      intro x hx hxi
      have := h.1 x hx
      rw [List.length_map] at this
      omega)
  refine ⟨o, h1, ?_, ?_⟩
  · intro x hx
    have := h.1 (x.1, f x.2) (by rw [h1]; exact List.mem_map_of_mem hx)
    simpa using this
  · intro i l hl
    rw [h2, hl]; rfl

/-- The steps of the threads of a program. -/
theorem thread_acts {l : List (U64 × List RtCall)} {bs : List (List U8)}
    (h : AllRel (fun p b => (∀ c ∈ p.2, RtCall.IsItem c) ∧ rtBytes cf mem (pointCalls p.1 p.2) = .ok b) l bs) :
    rtActs cf mem (l.flatMap fun p => pointCalls p.1 p.2) = .ok (actsAll bs) := by
  induction h with
  | nil => rfl
  | cons hx _ ih =>
    rw [List.flatMap_cons, rtActs_append, rtActs_point hx.1 hx.2, ih]
    rfl

theorem reservedOk_of_unused {H : List BufferSize} (h : ∀ r ∈ H, r.address ≠ u64Max) : ReservedOk H := by
  intro P hP
  have : P.countP (·.freesReserved) = 0 := by
    rw [List.countP_eq_zero]
    intro r hr
    have := h r (hP.subset hr)
    simp [BufferSize.freesReserved, this]
  omega

theorem AllRel.map_right {α β γ : Type} {R : α → γ → Prop} {f : β → γ} {xs : List α} {ys : List β}
    (h : AllRel (fun x y => R x (f y)) xs ys) : AllRel R xs (ys.map f) := by
  induction h with
  | nil => exact .nil
  | cons hx _ ih => exact .cons hx ih

theorem AllRel.mono {α β : Type} {R S : α → β → Prop} {xs : List α} {ys : List β}
    (h : AllRel R xs ys) (hRS : ∀ x ∈ xs, ∀ y, R x y → S x y) : AllRel S xs ys := by
  induction h with
  | nil => exact .nil
  | cons hx _ ih => exact .cons (hRS _ (by simp) _ hx) (ih fun x hx y => hRS x (by simp [hx]) y)

theorem AllRel.flip {α β : Type} {R : α → β → Prop} {xs : List α} {ys : List β}
    (h : AllRel R xs ys) : AllRel (fun y x => R x y) ys xs := by
  induction h with
  | nil => exact .nil
  | cons hx _ ih => exact .cons hx ih

theorem AllRel.trans_right {α β γ : Type} {R : α → β → Prop} {S : α → γ → Prop} {xs : List α} {ys : List β}
    {zs : List γ} (h : AllRel R xs ys) (h' : AllRel S xs zs) : AllRel (fun y z => ∃ x, x ∈ xs ∧ R x y ∧ S x z) ys zs := by
  induction h generalizing zs with
  | nil => cases h'; exact .nil
  | cons hx _ ih =>
    cases h' with
    | cons hx' h' =>
      exact .cons ⟨_, by simp, hx, hx'⟩ ((ih h').mono fun _ _ _ ⟨x, h1, h2⟩ => ⟨x, by simp [h1], h2⟩)

theorem AllRel.eq_map {α β : Type} {f : α → β} {xs : List α} {ys : List β}
    (h : AllRel (fun x y => y = f x) xs ys) : ys = xs.map f := by
  induction h with
  | nil => rfl
  | cons hx _ ih => rw [hx, ih]; rfl

end TraceDB
