import Verif.Spec.Signals
import Verif.Proofs.RuntimeThreads
/-
Lemmas for C88.
-/
namespace TraceDB

variable {α : Type} (enc : α → List U8)

/-- The point being written: the thread, what has been written of it, and the rest. -/
abbrev SgCur := Option (Nat × List U8 × List U8)

/-- The point that thread `i` is writing. -/
def SgCur.at (cur : SgCur) (i : Nat) : Option (List U8 × List U8) :=
  match cur with
  | some (j, x) => if j = i then some x else none
  | none => none

/-- What has been written of the point being written. -/
def SgCur.written (cur : SgCur) : List U8 :=
  match cur with
  | some (_, w, _) => w
  | none => []

/-- What a thread has to do, given the points it has to record. -/
inductive SgThread : Option (List U8 × List U8) → List α → List RtAct → Prop
  | idle (l : List α) : SgThread none l (actsAll (l.map enc))
  | busy {p : α} {w u : List U8} (r : List α) : enc p = w ++ u →
      SgThread (some (w, u)) (p :: r) (u.map RtAct.put ++ (RtAct.unlock :: actsAll (r.map enc)))

structure SgInv (header : List U8) (s : RtState) (order : List (Nat × α)) (rem : List (List α)) (cur : SgCur) : Prop where
  out : s.out = header ++ ((order.map fun x => enc x.2).flatten ++ cur.written)
  owner : s.owner = cur.map (·.1)
  len : s.threads.length = rem.length
  curLt : ∀ x, cur = some x → x.1 < rem.length
  thr : ∀ i l, rem[i]? = some l → ∃ a, s.threads[i]? = some a ∧ SgThread enc (cur.at i) l a

variable {enc}

theorem actsAll_cons (b : List U8) (l : List (List U8)) :
    actsAll (b :: l) = .lock :: (b.map .put ++ (.unlock :: actsAll l)) := by
  simp [actsAll, pointActs]

theorem sgInv_init (header : List U8) (threads : List (List α)) :
    SgInv enc header (RtState.init header (threads.map fun l => actsAll (l.map enc))) [] threads none where
  out := by simp [RtState.init, SgCur.written]
  owner := rfl
  len := by simp [RtState.init]
  curLt := by simp
  thr := by
    intro i l h
    refine ⟨actsAll (l.map enc), by simp [RtState.init, h], .idle l⟩

/-- One event that hits nobody within a point. -/
theorem sgInv_step {header : List U8} {threads : List (List α)} {s : RtState} {es : List (SgEvent (List α))}
    {order : List (Nat × α)} {rem : List (List α)} {cur : SgCur}
    (hr : SgReach threads es order rem) (h : SgInv enc header s order rem cur) (e : SgEvent (List α))
    (hin : e.InRange rem.length) (hsafe : ∀ i, e.Hits i → s.owner ≠ some i) :
    ∃ s' order' rem' cur', s.sgStep (e.map fun l => actsAll (l.map enc)) = .ok s' ∧
      SgReach threads (es ++ [e].filter SgEvent.isSignal) order' rem' ∧ SgInv enc header s' order' rem' cur' ∧
      rem'.length = rem.length := by
  cases e with
  | run i =>
    simp only [SgEvent.map, RtState.sgStep, SgEvent.isSignal, List.filter_cons, List.filter_nil, List.append_nil, Bool.false_eq_true, if_false]
    cases hi : rem[i]? with
    | none =>
      have : s.threads[i]? = none := by
        rw [List.getElem?_eq_none_iff] at hi ⊢
        rw [h.len]; exact hi
      exact ⟨s, order, rem, cur, by simp [RtState.step, this], hr, h, rfl⟩
    | some l =>
      have hlt : i < rem.length := (List.getElem?_eq_some_iff.mp hi).1
      have hlt' : i < s.threads.length := by rw [h.len]; exact hlt
      obtain ⟨a, ha, ht⟩ := h.thr i l hi
      generalize hc : cur.at i = c at ht
      cases ht with
      | idle =>
        cases l with
        | nil => exact ⟨s, order, rem, cur, by simp [RtState.step, ha, actsAll], hr, h, rfl⟩
        | cons p l =>
          rw [List.map_cons, actsAll_cons] at ha
          cases hcur : cur with
          | some x =>
            refine ⟨s, order, rem, cur, ?_, hr, h, rfl⟩
            have := h.owner
            rw [hcur] at this
            simp [RtState.step, ha, this]
          | none =>
            have ho : s.owner = none := by rw [h.owner, hcur]; rfl
            refine ⟨⟨s.out, some i, s.threads.set i ((enc p).map .put ++ (.unlock :: actsAll (l.map enc)))⟩, order, rem,
              some (i, [], enc p), by simp [RtState.step, ha, ho], hr, ⟨?_, rfl, by simp [h.len], ?_, ?_⟩, rfl⟩
            · have := h.out
              rw [hcur] at this
              exact this
            · intro x hx; cases hx; exact hlt
            · intro j m hj
              by_cases hij : i = j
              · subst hij
                rw [hi] at hj
                cases hj
                refine ⟨_, List.getElem?_set_self hlt', ?_⟩
                simp only [SgCur.at, if_true]
                exact .busy l rfl
              · obtain ⟨a', ha', ht'⟩ := h.thr j m hj
                refine ⟨a', by simp [hij, ha'], ?_⟩
                simp only [SgCur.at, hij, if_false]
                simpa [SgCur.at, hcur] using ht'
      | busy r hp =>
        rename_i p w u
        obtain ⟨x, rfl, hx⟩ : ∃ x, cur = some (i, x) ∧ x = (w, u) := by
          unfold SgCur.at at hc
          cases hcur : cur with
          | none => rw [hcur] at hc; simp at hc
          | some y =>
            obtain ⟨j, x⟩ := y
            rw [hcur] at hc
            simp only at hc
            split at hc
            · rename_i hji
              subst hji
              cases hc
              exact ⟨_, rfl, rfl⟩
            · simp at hc
        subst hx
        have ho : s.owner = some i := by rw [h.owner]; rfl
        cases u with
        | nil =>
          simp only [List.map_nil, List.nil_append] at ha
          refine ⟨⟨s.out, none, s.threads.set i (actsAll (r.map enc))⟩, order ++ [(i, p)], rem.set i r, none,
            by simp [RtState.step, ha, ho], .point hr hi, ⟨?_, rfl, by simp [h.len], by simp, ?_⟩, by simp⟩
          · have := h.out
            simp only [SgCur.written] at this
            simp [this, hp, SgCur.written]
          · intro j m hj
            by_cases hij : i = j
            · subst hij
              simp only [hlt, List.getElem?_set_self, Option.some.injEq] at hj
              subst hj
              exact ⟨_, by simp [hlt'], .idle _⟩
            · simp only [ne_eq, hij, not_false_eq_true, List.getElem?_set_ne] at hj
              obtain ⟨a', ha', ht'⟩ := h.thr j m hj
              refine ⟨a', by simp [hij, ha'], ?_⟩
              simpa [SgCur.at, hij] using ht'
        | cons b u =>
          simp only [List.map_cons, List.cons_append] at ha
          refine ⟨⟨s.out ++ [b], s.owner, s.threads.set i (u.map .put ++ (.unlock :: actsAll (r.map enc)))⟩, order, rem,
            some (i, w ++ [b], u), by simp [RtState.step, ha], hr, ⟨?_, by rw [ho]; rfl, by simp [h.len], ?_, ?_⟩, rfl⟩
          · have := h.out
            simp only [SgCur.written] at this
            simp [this, SgCur.written]
          · intro x hx; cases hx; exact hlt
          · intro j m hj
            by_cases hij : i = j
            · subst hij
              rw [hi] at hj
              cases hj
              refine ⟨_, List.getElem?_set_self hlt', ?_⟩
              simp only [SgCur.at, if_true]
              exact .busy r (by simp [hp])
            · obtain ⟨a', ha', ht'⟩ := h.thr j m hj
              refine ⟨a', by simp [hij, ha'], ?_⟩
              simpa [SgCur.at, hij] using ht'
  | signal i g =>
    have hlt : i < rem.length := hin
    have hlt' : i < s.threads.length := by rw [h.len]; exact hlt
    obtain ⟨a, ha, ht⟩ := h.thr i rem[i] (List.getElem?_eq_getElem hlt)
    refine ⟨⟨s.out, s.owner, s.threads.set i (actsAll (g.map enc) ++ a)⟩, order, rem.set i (g ++ rem[i]), cur,
      by simp [SgEvent.map, RtState.sgStep, ha], .signal hr (List.getElem?_eq_getElem hlt),
      ⟨h.out, h.owner, by simp [h.len], by simpa using h.curLt, ?_⟩, by simp⟩
    intro j m hj
    by_cases hij : i = j
    · subst hij
      simp only [hlt, List.getElem?_set_self, Option.some.injEq] at hj
      subst hj
      refine ⟨_, by simp [hlt']; rfl, ?_⟩
      by_cases hg : g = []
      · subst hg
        simpa [actsAll] using ht
      · have hn := hsafe i ⟨rfl, hg⟩
        have hat : cur.at i = none := by
          unfold SgCur.at
          cases hcur : cur with
          | none => rfl
          | some y =>
            simp only
            rw [if_neg]
            intro hyi
            rw [h.owner, hcur] at hn
            exact hn (by simp [hyi])
        rw [hat] at ht ⊢
        cases ht
        have : actsAll (g.map enc) ++ actsAll (rem[i].map enc) = actsAll ((g ++ rem[i]).map enc) := by
          simp [actsAll]
        rw [this]
        exact .idle _
    · simp only [ne_eq, hij, not_false_eq_true, List.getElem?_set_ne] at hj
      obtain ⟨a', ha', ht'⟩ := h.thr j m hj
      exact ⟨a', by simp [hij, ha'], ht'⟩
  | jump i g =>
    have hlt : i < rem.length := hin
    have hlt' : i < s.threads.length := by rw [h.len]; exact hlt
    refine ⟨⟨s.out, s.owner, s.threads.set i (actsAll (g.map enc))⟩, order, rem.set i g, cur,
      by simp [SgEvent.map, RtState.sgStep], .jump hr,
      ⟨h.out, h.owner, by simp [h.len], by simpa using h.curLt, ?_⟩, by simp⟩
    intro j m hj
    by_cases hij : i = j
    · subst hij
      simp only [hlt, List.getElem?_set_self, Option.some.injEq] at hj
      subst hj
      refine ⟨_, by simp [hlt']; rfl, ?_⟩
      have hn := hsafe i rfl
      have hat : cur.at i = none := by
        unfold SgCur.at
        cases hcur : cur with
        | none => rfl
        | some y =>
          simp only
          rw [if_neg]
          intro hyi
          rw [h.owner, hcur] at hn
          exact hn (by simp [hyi])
      rw [hat]
      exact .idle _
    · simp only [ne_eq, hij, not_false_eq_true, List.getElem?_set_ne] at hj
      obtain ⟨a', ha', ht'⟩ := h.thr j m hj
      exact ⟨a', by simp [hij, ha'], ht'⟩

theorem sgRun_append (s : RtState) (a b : List (SgEvent (List RtAct))) :
    s.sgRun (a ++ b) = s.sgRun a >>= fun s' => s'.sgRun b := by
  induction a generalizing s with
  | nil => rfl
  | cons e a ih =>
    simp only [List.cons_append, RtState.sgRun, ih]
    rw [Res.bind_assoc]

theorem sg_hits_map {i : Nat} {e : SgEvent (List α)} (h : e.Hits i) : (e.map fun l => actsAll (l.map enc)).Hits i := by
  cases e with
  | run => exact h
  | signal j g =>
    refine ⟨h.1, ?_⟩
    have := h.2
    cases g with
    | nil => exact absurd rfl this
    | cons p g => simp [actsAll_cons]
  | jump j g => exact h

theorem sgInv_run {header : List U8} {threads : List (List α)} (events : List (SgEvent (List α))) {s : RtState} {es : List (SgEvent (List α))}
    {order : List (Nat × α)} {rem : List (List α)} {cur : SgCur}
    (hr : SgReach threads es order rem) (h : SgInv enc header s order rem cur)
    (hin : ∀ e ∈ events, e.InRange rem.length)
    (hsafe : SgSafe s (events.map (SgEvent.map fun l => actsAll (l.map enc)))) :
    ∃ s' order' rem' cur', s.sgRun (events.map (SgEvent.map fun l => actsAll (l.map enc))) = .ok s' ∧
      SgReach threads (es ++ events.filter SgEvent.isSignal) order' rem' ∧ SgInv enc header s' order' rem' cur' ∧
      rem'.length = rem.length := by
  induction events generalizing s es order rem cur with
  | nil => exact ⟨s, order, rem, cur, rfl, by simpa using hr, h, rfl⟩
  | cons e events ih =>
    obtain ⟨s1, o1, r1, c1, h1, h2, h3, h4⟩ := sgInv_step hr h e (hin e (by simp))
      (fun i hi => hsafe [] _ _ s i rfl rfl (sg_hits_map hi))
    obtain ⟨s2, o2, r2, c2, h5, h6, h7, h8⟩ := ih h2 h3 (fun x hx => by rw [h4]; exact hin x (by simp [hx])) (by
      intro a x b s' i hab hrun hx
      refine hsafe (e.map (fun l => actsAll (l.map enc)) :: a) x b s' i (by simp [hab]) ?_ hx
      simp only [RtState.sgRun]
      rw [h1]
      exact hrun)
    refine ⟨s2, o2, r2, c2, ?_, ?_, h7, by rw [h8, h4]⟩
    · simp only [List.map_cons, RtState.sgRun]
      rw [h1]
      exact h5
    · have : (e :: events).filter SgEvent.isSignal = [e].filter SgEvent.isSignal ++ events.filter SgEvent.isSignal := by
        rw [← List.filter_append]; rfl
      rw [this, ← List.append_assoc]
      exact h6

theorem SgReach.nil_of_ended {s : RtState} {header : List U8} {order : List (Nat × α)} {rem : List (List α)} {cur : SgCur}
    (h : SgInv enc header s order rem cur) (he : s.Ended) : (∀ l ∈ rem, l = []) ∧ cur = none := by
  have hc : cur = none := by
    cases hcur : cur with
    | none => rfl
    | some x =>
      obtain ⟨i, w, u⟩ := x
      have hlt : i < rem.length := h.curLt _ hcur
      obtain ⟨a, ha, ht⟩ := h.thr i rem[i] (List.getElem?_eq_getElem hlt)
      have := he a (List.mem_of_getElem? ha)
      subst this
      rw [hcur] at ht
      simp only [SgCur.at, if_true] at ht
      generalize rem[i] = l at ht
      generalize hb : ([] : List RtAct) = b at ht
      cases ht
      cases u <;> simp at hb
  refine ⟨?_, hc⟩
  intro l hl
  obtain ⟨i, hi⟩ := List.mem_iff_getElem?.mp hl
  obtain ⟨a, ha, ht⟩ := h.thr i l hi
  have := he a (List.mem_of_getElem? ha)
  subst this
  rw [hc] at ht
  simp only [SgCur.at] at ht
  generalize hb : ([] : List RtAct) = b at ht
  cases ht
  cases l with
  | nil => rfl
  | cons p l => simp [actsAll_cons] at hb

theorem sgInv_progress {s : RtState} {header : List U8} {order : List (Nat × α)} {rem : List (List α)} {cur : SgCur}
    (h : SgInv enc header s order rem cur) (he : ¬ s.Ended) : ∃ i s', s.step i = .ok s' ∧ s'.left < s.left := by
  have key : ∀ i x r, s.threads[i]? = some (x :: r) → ∀ o w, (⟨o, w, s.threads.set i r⟩ : RtState).left < s.left := by
    intro i x r hi o w
    have := sum_set hi
    simp only [RtState.left]
    omega
  cases hcur : cur with
  | some x =>
    obtain ⟨i, w, u⟩ := x
    have hlt : i < rem.length := h.curLt _ hcur
    obtain ⟨a, ha, ht⟩ := h.thr i rem[i] (List.getElem?_eq_getElem hlt)
    rw [hcur] at ht
    simp only [SgCur.at, if_true] at ht
    generalize rem[i] = l at ht
    have ho : s.owner = some i := by rw [h.owner, hcur]; rfl
    cases ht with
    | busy r hp =>
      cases u with
      | nil =>
        simp only [List.map_nil, List.nil_append] at ha
        refine ⟨i, _, ?_, key i _ _ ha s.out none⟩
        simp [RtState.step, ha, ho]
      | cons b u =>
        simp only [List.map_cons, List.cons_append] at ha
        refine ⟨i, _, ?_, key i _ _ ha (s.out ++ [b]) s.owner⟩
        simp [RtState.step, ha]
  | none =>
    have ho : s.owner = none := by rw [h.owner, hcur]; rfl
    obtain ⟨a, ham, hne⟩ : ∃ a, a ∈ s.threads ∧ a ≠ [] := by
      refine Classical.byContradiction fun hx => he fun a ha => ?_
      refine Classical.byContradiction fun hy => hx ⟨a, ha, hy⟩
    obtain ⟨i, hi⟩ := List.mem_iff_getElem?.mp ham
    have hlt : i < rem.length := by rw [← h.len]; exact (List.getElem?_eq_some_iff.mp hi).1
    obtain ⟨a', ha, ht⟩ := h.thr i rem[i] (List.getElem?_eq_getElem hlt)
    rw [hi] at ha
    cases ha
    rw [hcur] at ht
    simp only [SgCur.at] at ht
    generalize rem[i] = l at ht
    cases ht
    cases l with
    | nil => exact absurd rfl hne
    | cons p l =>
      rw [List.map_cons, actsAll_cons] at hi
      refine ⟨i, _, ?_, key i _ _ hi s.out (some i)⟩
      simp [RtState.step, hi, ho]

theorem sgInv_finish {header : List U8} {threads : List (List α)} (n : Nat) {s : RtState} {es : List (SgEvent (List α))}
    {order : List (Nat × α)} {rem : List (List α)} {cur : SgCur}
    (hr : SgReach threads es order rem) (h : SgInv enc header s order rem cur) (hn : s.left ≤ n) :
    ∃ (more : List Nat) (s' : RtState), s.sgRun (more.map .run) = .ok s' ∧ s'.Ended := by
  induction n generalizing s es order rem cur with
  | zero =>
    refine ⟨[], s, rfl, ?_⟩
    refine Classical.byContradiction fun he => ?_
    obtain ⟨i, s', _, h2⟩ := sgInv_progress h he
    omega
  | succ n ih =>
    by_cases he : s.Ended
    · exact ⟨[], s, rfl, he⟩
    · obtain ⟨i, s', h1, h2⟩ := sgInv_progress h he
      obtain ⟨s1, o1, r1, c1, h3, h4, h5, _⟩ := sgInv_step hr h (.run i) trivial (fun _ hx => absurd hx id)
      have : s1 = s' := by
        simp only [SgEvent.map, RtState.sgStep, h1] at h3
        exact (Res.ok.inj h3).symm
      subst this
      obtain ⟨more, s2, h6, h7⟩ := ih h4 h5 (by omega)
      refine ⟨i :: more, s2, ?_, h7⟩
      simp only [List.map_cons, RtState.sgRun]
      have : s.sgStep (.run i) = .ok s1 := h1
      rw [this]
      exact h6

/-- Everybody waits for the mutex, and nobody will unlock it. -/
structure SgStuck (s : RtState) : Prop where
  owned : s.owner.isSome = true
  waits : ∀ a ∈ s.threads, a = [] ∨ ∃ r, a = .lock :: r

theorem actsAll_waits (l : List (List U8)) : actsAll l = [] ∨ ∃ r, actsAll l = .lock :: r := by
  cases l with
  | nil => exact .inl rfl
  | cons b l => exact .inr ⟨_, actsAll_cons b l⟩

theorem sgStuck_step {s : RtState} (h : SgStuck s) (e : SgEvent (List α)) :
    ∃ s', s.sgStep (e.map fun l => actsAll (l.map enc)) = .ok s' ∧ SgStuck s' ∧ s'.out = s.out ∧ s'.owner = s.owner ∧
      ((∀ i l, e ≠ .jump i l) → ∀ (i : Nat) (a : List RtAct), s.threads[i]? = some a → a ≠ [] → ∃ a', s'.threads[i]? = some a' ∧ a' ≠ []) := by
  cases e with
  | run i =>
    refine ⟨s, ?_, h, rfl, rfl, fun _ i a ha hne => ⟨a, ha, hne⟩⟩
    simp only [SgEvent.map, RtState.sgStep, RtState.step]
    cases hi : s.threads[i]? with
    | none => rfl
    | some a =>
      obtain ⟨o, ho⟩ := Option.isSome_iff_exists.mp h.owned
      rcases h.waits a (List.mem_of_getElem? hi) with rfl | ⟨r, rfl⟩
      · rfl
      · simp [ho]
  | signal i g =>
    simp only [SgEvent.map, RtState.sgStep]
    cases hi : s.threads[i]? with
    | none => exact ⟨s, rfl, h, rfl, rfl, fun _ i a ha hne => ⟨a, ha, hne⟩⟩
    | some a =>
      refine ⟨_, rfl, ⟨h.owned, ?_⟩, rfl, rfl, ?_⟩
      · intro b hb
        rcases List.mem_or_eq_of_mem_set hb with hb | rfl
        · exact h.waits b hb
        · rcases actsAll_waits (g.map enc) with hg | ⟨r, hg⟩
          · rw [hg]; exact h.waits a (List.mem_of_getElem? hi)
          · exact .inr ⟨r ++ a, by rw [hg]; rfl⟩
      · intro _ j b hj hne
        by_cases hij : i = j
        · subst hij
          rw [hi] at hj
          cases hj
          exact ⟨_, List.getElem?_set_self (List.getElem?_eq_some_iff.mp hi).1, by simp [hne]⟩
        · exact ⟨b, by simp [hij, hj], hne⟩
  | jump i g =>
    refine ⟨_, rfl, ⟨h.owned, ?_⟩, rfl, rfl, fun hx => absurd rfl (hx i g)⟩
    intro b hb
    rcases List.mem_or_eq_of_mem_set hb with hb | rfl
    · exact h.waits b hb
    · exact actsAll_waits _

theorem sgStuck_run (events : List (SgEvent (List α))) {s : RtState} (h : SgStuck s) :
    ∃ s', s.sgRun (events.map (SgEvent.map fun l => actsAll (l.map enc))) = .ok s' ∧ s'.out = s.out ∧ s'.owner = s.owner ∧
      ((∀ i l, SgEvent.jump i l ∉ events) → ∀ (i : Nat) (a : List RtAct), s.threads[i]? = some a → a ≠ [] →
        ∃ a', s'.threads[i]? = some a' ∧ a' ≠ []) := by
  induction events generalizing s with
  | nil => exact ⟨s, rfl, rfl, rfl, fun _ i a ha hne => ⟨a, ha, hne⟩⟩
  | cons e events ih =>
    obtain ⟨s1, h1, h2, h3, h4, h5⟩ := sgStuck_step (enc := enc) h e
    obtain ⟨s2, h6, h7, h8, h9⟩ := ih h2
    refine ⟨s2, ?_, by rw [h7, h3], by rw [h8, h4], ?_⟩
    · simp only [List.map_cons, RtState.sgRun]
      rw [h1]
      exact h6
    · intro hj i a ha hne
      obtain ⟨a', ha', hne'⟩ := h5 (fun i l hx => hj i l (by simp [hx])) i a ha hne
      exact h9 (fun i l hx => hj i l (by simp [hx])) i a' ha' hne'

/-- A thread is hit within a point. -/
theorem sgStuck_of_hit {s : RtState} {header : List U8} {order : List (Nat × α)} {rem : List (List α)} {cur : SgCur}
    (h : SgInv enc header s order rem cur) (e : SgEvent (List α)) (i : Nat) (hi : e.Hits i) (ho : s.owner = some i) :
    ∃ s', s.sgStep (e.map fun l => actsAll (l.map enc)) = .ok s' ∧ SgStuck s' ∧ (s'.out = s.out ∧ s'.owner = s.owner) ∧
      ((∃ g, e = .signal i g) → ∃ a, s'.threads[i]? = some a ∧ a ≠ []) ∧
      ∀ (j : Nat), j ≠ i → s'.threads[j]? = s.threads[j]? := by
  obtain ⟨x, hcur, rfl⟩ : ∃ x, cur = some x ∧ x.1 = i := by
    rw [h.owner] at ho
    simpa using ho
  obtain ⟨i, w, u⟩ := x
  have hlt : i < rem.length := h.curLt _ hcur
  have hlt' : i < s.threads.length := by rw [h.len]; exact hlt
  have hother : ∀ j, j ≠ i → ∀ a, s.threads[j]? = some a → a = [] ∨ ∃ r, a = .lock :: r := by
    intro j hj a ha
    have hlt : j < rem.length := by rw [← h.len]; exact (List.getElem?_eq_some_iff.mp ha).1
    obtain ⟨a', ha', ht⟩ := h.thr j rem[j] (List.getElem?_eq_getElem hlt)
    rw [ha] at ha'
    cases ha'
    rw [hcur] at ht
    simp only [SgCur.at, if_neg (Ne.symm hj)] at ht
    generalize rem[j] = l at ht
    cases ht
    exact actsAll_waits _
  have hwait : ∀ b, (b = [] ∨ ∃ r, b = RtAct.lock :: r) → ∀ a ∈ s.threads.set i b, a = [] ∨ ∃ r, a = .lock :: r := by
    intro b hb a ha
    obtain ⟨j, hj⟩ := List.mem_iff_getElem?.mp ha
    by_cases hij : i = j
    · subst hij
      rw [List.getElem?_set_self hlt'] at hj
      cases hj
      exact hb
    · rw [List.getElem?_set_ne hij] at hj
      exact hother j (Ne.symm hij) a hj
  have hown : s.owner.isSome = true := by rw [h.owner, hcur]; rfl
  cases e with
  | run j => exact absurd hi id
  | signal j g =>
    obtain ⟨rfl, hg⟩ := hi
    obtain ⟨p, g, rfl⟩ := List.exists_cons_of_ne_nil hg
    simp only [SgEvent.map, RtState.sgStep, List.getElem?_eq_getElem hlt', List.map_cons, actsAll_cons, List.cons_append]
    refine ⟨_, rfl, ⟨hown, hwait _ (.inr ⟨_, rfl⟩)⟩, ⟨rfl, rfl⟩, fun _ => ⟨_, List.getElem?_set_self hlt', by simp⟩, ?_⟩
    intro k hk
    exact List.getElem?_set_ne (Ne.symm hk)
  | jump j g =>
    have hji : j = i := hi
    subst hji
    refine ⟨_, rfl, ⟨hown, hwait _ (actsAll_waits _)⟩, ⟨rfl, rfl⟩, fun ⟨_, hx⟩ => (by cases hx), ?_⟩
    intro k hk
    exact List.getElem?_set_ne (Ne.symm hk)

end TraceDB
