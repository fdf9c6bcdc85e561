import Verif.Spec.SignalProject
import Verif.Proofs.ForkProject
import Verif.Props.Signals
/-
Helper lemmas for C106: what a program with signals has written, whenever the signals come, and
what reading a part of it gives.
-/
namespace TraceDB

variable {α β γ : Type}

/-! ### What has been recorded -/

/-- What was recorded first was recorded after the first events. -/
theorem SgReach.take {threads : List (List α)} {es : List (SgEvent (List α))} {order : List (Nat × α)} {rem : List (List α)}
    (h : SgReach threads es order rem) (j : Nat) :
    ∃ es' rem', es' <+: es ∧ SgReach threads es' (order.take j) rem' := by
  induction h with
  | start => exact ⟨[], threads, List.prefix_rfl, by simpa using SgReach.start⟩
  | @point es order rem i p l h hi ih =>
    by_cases hj : order.length < j
    · exact ⟨es, _, List.prefix_rfl, by
        rw [List.take_of_length_le (by simp; omega)]
        exact .point h hi⟩
    · obtain ⟨es', rem', h1, h2⟩ := ih
      exact ⟨es', rem', h1, by rw [List.take_append_of_le_length (by omega)]; exact h2⟩
  | signal _ _ ih =>
    obtain ⟨es', rem', h1, h2⟩ := ih
    exact ⟨es', rem', h1.trans (List.prefix_append _ _), h2⟩
  | jump _ ih =>
    obtain ⟨es', rem', h1, h2⟩ := ih
    exact ⟨es', rem', h1.trans (List.prefix_append _ _), h2⟩

theorem AllRel.set {R : α → β → Prop} {l : List α} {m : List β} (h : AllRel R l m) {a : α} {b : β} (hab : R a b) :
    ∀ i, AllRel R (l.set i a) (m.set i b) := by
  induction h with
  | nil => intro i; exact .nil
  | cons h _ ih =>
    intro i
    cases i with
    | zero => exact .cons hab ‹_›
    | succ i => exact .cons h (ih i)

theorem AllRel.getRight {R : α → β → Prop} {l : List α} {m : List β} (h : AllRel R l m) :
    ∀ {i : Nat} {b : β}, m[i]? = some b → ∃ a, l[i]? = some a ∧ R a b := by
  induction h with
  | nil => intro i b h; simp at h
  | cons h _ ih =>
    intro i b hb
    cases i with
    | zero => cases hb; exact ⟨_, rfl, h⟩
    | succ i => exact ih (by simpa using hb)

theorem AllRel.splitRight {R : α → β → Prop} : ∀ {m m' : List β} {l : List α}, AllRel R l (m ++ m') →
    ∃ l1 l2, l = l1 ++ l2 ∧ AllRel R l1 m ∧ AllRel R l2 m'
  | [], _, l, h => ⟨[], l, rfl, .nil, h⟩
  | _ :: _, _, _, h => by
    cases h with
    | cons h h' =>
      obtain ⟨l1, l2, rfl, h1, h2⟩ := AllRel.splitRight h'
      exact ⟨_ :: l1, l2, rfl, .cons h h1, h2⟩

theorem SgReach.lift {R : α → β → Prop} {tv : List (List α)} {tp : List (List β)} (ht : AllRel (AllRel R) tv tp)
    {es : List (SgEvent (List β))} {order : List (Nat × β)} {rem : List (List β)} (h : SgReach tp es order rem) :
    ∀ {ev : List (SgEvent (List α))}, AllRel (SgEvent.Rel (AllRel R)) ev es →
      ∃ ov rv, SgReach tv ev ov rv ∧ AllRel R (ov.map (·.2)) (order.map (·.2)) ∧ AllRel (AllRel R) rv rem := by
  induction h with
  | start =>
    intro ev hev
    cases hev
    exact ⟨[], tv, .start, .nil, ht⟩
  | point _ hi ih =>
    intro ev hev
    obtain ⟨ov, rv, h1, h2, h3⟩ := ih hev
    obtain ⟨l, hl, hr⟩ := h3.getRight hi
    cases hr with
    | cons hp hr =>
      exact ⟨_, _, .point h1 hl, by
        simp only [List.map_append, List.map_cons, List.map_nil]
        exact h2.append (.cons hp .nil), h3.set hr _⟩
  | signal _ hi ih =>
    intro ev hev
    obtain ⟨e1, e2, rfl, g1, g2⟩ := hev.splitRight
    obtain ⟨ov, rv, h1, h2, h3⟩ := ih g1
    cases g2 with
    | cons he g2 =>
      cases g2
      cases he with
      | signal i hg =>
        obtain ⟨l, hl, hr⟩ := h3.getRight hi
        exact ⟨_, _, .signal h1 hl, h2, h3.set (hg.append hr) _⟩
  | jump _ ih =>
    intro ev hev
    obtain ⟨e1, e2, rfl, g1, g2⟩ := hev.splitRight
    obtain ⟨ov, rv, h1, h2, h3⟩ := ih g1
    cases g2 with
    | cons he g2 =>
      cases g2
      cases he with
      | jump i hg => exact ⟨_, _, .jump h1, h2, h3.set hg _⟩

theorem sgRel_signals {R : α → β → Prop} {ev : List (SgEvent α)} {es : List (SgEvent β)} (h : AllRel (SgEvent.Rel R) ev es) :
    AllRel (SgEvent.Rel R) (ev.filter SgEvent.isSignal) (es.filter SgEvent.isSignal) := by
  induction h with
  | nil => exact .nil
  | cons h _ ih =>
    cases h with
    | run => exact ih
    | signal i h => exact AllRel.cons (.signal i h) ih
    | jump i h => exact AllRel.cons (.jump i h) ih

theorem AllRel.prefixRight {R : α → β → Prop} {l : List α} {m m' : List β} (h : AllRel R l m) (hp : m' <+: m) :
    ∃ l', l' <+: l ∧ AllRel R l' m' := by
  obtain ⟨m2, rfl⟩ := hp
  obtain ⟨l1, l2, rfl, h1, _⟩ := h.splitRight
  exact ⟨l1, List.prefix_append _ _, h1⟩

/-! ### Signals within points -/

theorem sg_hits_of_map {enc : α → List U8} {i : Nat} {e : SgEvent (List α)} (h : (e.map fun l => actsAll (l.map enc)).Hits i) :
    e.Hits i := by
  cases e with
  | run => exact h
  | signal j g =>
    refine ⟨h.1, ?_⟩
    rintro rfl
    exact h.2 rfl
  | jump j g => exact h

/-- Either no thread is hit within a point, or there is a first time. -/
theorem sg_safe_or (s : RtState) (steps : List (SgEvent (List RtAct))) :
    SgSafe s steps ∨ ∃ n e s' i, SgSafe s (steps.take n) ∧ s.sgRun (steps.take n) = .ok s' ∧ steps[n]? = some e ∧ e.Hits i ∧
      s'.owner = some i := by
  have key : ∀ m, SgSafe s (steps.take m) ∨ ∃ n e s' i, SgSafe s (steps.take n) ∧ s.sgRun (steps.take n) = .ok s' ∧
      steps[n]? = some e ∧ e.Hits i ∧ s'.owner = some i := by
    intro m
    induction m with
    | zero =>
      left
      intro a e b s' i h
      simp at h
    | succ m ih =>
      rcases ih with ih | ih
      · by_cases hm : m < steps.length
        · by_cases hbad : ∃ s' i, s.sgRun (steps.take m) = .ok s' ∧ steps[m].Hits i ∧ s'.owner = some i
          · obtain ⟨s', i, h1, h2, h3⟩ := hbad
            exact .inr ⟨m, steps[m], s', i, ih, h1, List.getElem?_eq_getElem hm, h2, h3⟩
          · left
            intro a e b s' i he hrun hh ho
            rw [List.take_succ_eq_append_getElem hm] at he
            rcases List.append_eq_append_iff.mp he with ⟨c, hc1, hc2⟩ | ⟨c, hc1, hc2⟩
            · cases c with
              | nil =>
                simp only [List.nil_append, List.cons.injEq] at hc2
                rw [List.append_nil] at hc1
                rw [hc1] at hrun
                exact hbad ⟨s', i, hrun, hc2.1 ▸ hh, ho⟩
              | cons x c => simp at hc2
            · cases c with
              | nil =>
                simp only [List.nil_append, List.cons.injEq] at hc2
                rw [List.append_nil] at hc1
                rw [← hc1] at hrun
                exact hbad ⟨s', i, hrun, hc2.1 ▸ hh, ho⟩
              | cons x c =>
                simp only [List.cons_append, List.cons.injEq] at hc2
                exact ih a x c s' i (by rw [hc1]) hrun (hc2.1 ▸ hh) ho
        · left
          rw [List.take_of_length_le (by omega)] at ih ⊢
          exact ih
      · exact .inr ih
  have := key steps.length
  rwa [List.take_length] at this

/-- Whenever signals come, the file holds points that were recorded one after the other, and
perhaps a part of a further one. -/
theorem sg_written {cf : CFloat} {mem : CMem} {names : List Name} {types : List TypeDesc} {header : List U8}
    {threads : List (List RecPoint)} {acts : List (List RtAct)} {events : List (SgEvent (List RecPoint))}
    {steps : List (SgEvent (List RtAct))} (hp : SgProgram cf mem names types threads acts events steps) :
    ∃ s order rem rest es, (RtState.init header acts).sgRun steps = .ok s ∧ es <+: events.filter SgEvent.isSignal ∧
      SgReach threads es order rem ∧
      s.out ++ rest = header ++ encodePoints types (order.map fun x => x.2.entries) ∧
      (SgSafe (RtState.init header acts) steps → s.Ended → es = events.filter SgEvent.isSignal ∧ rest = [] ∧ ∀ l ∈ rem, l = []) := by
  have step : ∀ {s : RtState} {order : List (Nat × RecPoint)} {rem : List (List RecPoint)} {es : List (SgEvent (List RecPoint))}
      {unfinished : List U8}, SgReach threads es order rem →
      s.out = header ++ (encodePoints types (order.map fun x => x.2.entries) ++ unfinished) →
      (unfinished = [] ∨ ∃ (i : Nat) (p : RecPoint) (l : List RecPoint), rem[i]? = some (p :: l) ∧
        unfinished <+: encodePoint types p.entries) →
      ∃ order rem rest, SgReach threads es order rem ∧
        s.out ++ rest = header ++ encodePoints types (order.map fun x => x.2.entries) := by
    intro s order rem es unfinished h1 h2 h3
    rcases h3 with rfl | ⟨i, p, l, hi, rest, hr⟩
    · exact ⟨order, rem, [], h1, by rw [h2]; simp⟩
    · refine ⟨_, _, rest, .point h1 hi, ?_⟩
      rw [h2, List.map_append, encodePoints_append]
      simp only [List.append_assoc, hr, List.map_cons, List.map_nil, encodePoints, List.flatMap_cons, List.flatMap_nil, List.append_nil]
  rcases sg_safe_or (RtState.init header acts) steps with hs | ⟨n, e, s', i, hs, hrun, he, hh, ho⟩
  · by_cases hend : ∃ s, (RtState.init header acts).sgRun steps = .ok s ∧ s.Ended
    · obtain ⟨s, hrun, hend⟩ := hend
      obtain ⟨rfl, rfl⟩ := hp.acts_eq
      obtain ⟨s', order, rem, cur, h1, h2, h3, _⟩ := sgInv_run (enc := fun p : RecPoint => encodePoint types p.entries) events
        .start (sgInv_init header threads) hp.range hs
      rw [hrun] at h1
      cases h1
      obtain ⟨h4, rfl⟩ := SgReach.nil_of_ended h3 hend
      simp only [List.nil_append] at h2
      refine ⟨s, order, rem, [], _, hrun, List.prefix_rfl, h2, ?_, fun _ _ => ⟨rfl, rfl, h4⟩⟩
      rw [h3.out]
      simp only [List.append_nil, SgCur.written, encodePoints, List.flatMap, List.map_map]
      rfl
    · obtain ⟨s, order, rem, unfinished, h1, h2, h3, h4⟩ := C88_between_points cf mem names types header threads acts events steps hp hs
      obtain ⟨order, rem, rest, h5, h6⟩ := step h2 h3 h4
      exact ⟨s, order, rem, rest, _, h1, List.prefix_rfl, h5, h6, fun _ h => absurd ⟨s, h1, h⟩ hend⟩
  · obtain ⟨c1, hc1, hc1'⟩ := hp.called
    obtain ⟨c2, hc2, hc2'⟩ := hp.handlers
    have hsub : SgProgram cf mem names types threads acts (events.take n) (steps.take n) :=
      ⟨hp.called, ⟨c2.take n, hc2.take n, hc2'.take n⟩, hp.typed, fun e he => hp.typed' e (List.mem_of_mem_take he),
        fun e he => hp.range e (List.mem_of_mem_take he)⟩
    obtain ⟨s1, order, rem, unfinished, h1, h2, h3, h4⟩ := C88_between_points cf mem names types header threads acts _ _ hsub hs
    rw [hrun] at h1
    cases h1
    obtain ⟨order, rem, rest, h5, h6⟩ := step h2 h3 h4
    obtain ⟨ev, hev, hhit⟩ : ∃ ev, events[n]? = some ev ∧ ev.Hits i := by
      have := hp.acts_eq.2
      rw [this, List.getElem?_map] at he
      cases hx : events[n]? with
      | none => rw [hx] at he; cases he
      | some ev =>
        rw [hx] at he
        cases he
        exact ⟨ev, rfl, sg_hits_of_map hh⟩
    obtain ⟨s2, g1, g2, _, _⟩ := C88_within_a_point cf mem names types header threads acts events steps hp n hs s' hrun ev hev i hhit ho
    refine ⟨s2, order, rem, rest, _, g1, ?_, h5, by rw [g2]; exact h6, ?_⟩
    · exact (List.take_prefix _ _).filter _
    · intro hsafe
      obtain ⟨hlt, _⟩ := List.getElem?_eq_some_iff.mp he
      exact absurd ho (hsafe (steps.take n) e (steps.drop (n + 1)) s' i (by
        obtain ⟨_, rfl⟩ := List.getElem?_eq_some_iff.mp he
        rw [← List.drop_eq_getElem_cons, List.take_append_drop]) hrun hh)

/-! ### Reading a part of a file -/

theorem threadPart_zero {order : List (Nat × α)} (h : ∀ x ∈ order, x.1 < 1) : threadPart 0 order = order.map (·.2) := by
  induction order with
  | nil => rfl
  | cons x order ih =>
    obtain ⟨i, a⟩ := x
    have : i = 0 := by have := h (i, a) (by simp); simp only at this; omega
    subst this
    rw [threadPart_cons, ih fun x hx => h x (by simp [hx])]
    simp

/-- Reading the first part of a file fails, or gives the first points. -/
theorem read_cut (env : Env) (io : Bool) (cf : CFloat) (mem : CMem) {names : List Name} {types : List TypeDesc} {rs : List RecPoint}
    {calls : List (U64 × List RtCall)} (hdr : HeaderOk names types) (hn : names.length < 2 ^ 32)
    (hcalls : AllRel (RecPoint.CalledAs cf mem) rs calls) (htyped : ∀ p ∈ rs, ∀ x ∈ p.items, x.Typed names types cf)
    (hsane : ∀ ty ∈ types, ty.Sane) (hres : ∀ p ∈ rs, ∀ r ∈ recSizes p.items, r.address ≠ u64Max)
    (henv : env.junk.isSome = true) (hal : ∀ n, env.canAlloc n = true) {header : List U8}
    (hheader : writeTraceHeader names types = .ok header) {T rest : List U8}
    (hcut : header ++ T ++ rest = header ++ encodePoints types (rs.map RecPoint.entries)) :
    ∃ j, (rest = [] → rs.length ≤ j) ∧ ∀ k : U64,
      (readTrace env k (gs io (header ++ T)) = .throw (endExn io) ∧ rest ≠ []) ∨
      readTrace env k (gs io (header ++ T)) = .ok ⟨names, types, recPoints 0 [] (limited k (rs.take j))⟩ := by
  have hc : AllRel (AllRel (RecPoint.CalledAs cf mem)) [rs] [calls] := .cons hcalls .nil
  have ht : ∀ l ∈ [rs], ∀ p ∈ l, ∀ x ∈ p.items, x.Typed names types cf := by simpa using htyped
  have hw := writes_of_called hc ht
  have hs : Steps cf mem [calls] [actsAll (rs.map fun p => encodePoint types p.entries)] := by
    refine .cons (thread_acts ?_) .nil
    cases hw with
    | cons h _ => exact h
  obtain ⟨sched, s, hrun, hend⟩ := C47_no_deadlock cf mem header _ _ _ hw hs []
  rw [List.nil_append] at hrun
  obtain ⟨order, ho, hout⟩ := C47_all_recorded cf mem header _ _ _ hw hs sched s hrun hend
  have hout' : s.out = header ++ encodePoints types (rs.map RecPoint.entries) := by
    rw [hout, ← threadPart_zero ho.1, ho.2 0 _ rfl]
    simp only [encodePoints, List.flatMap, List.map_map]
    rfl
  obtain ⟨order, h1, h2, h3, h4⟩ := C79_limit env io cf mem names types [rs] [calls] _ hdr hn hc hs ht hsane (by simpa using hres)
    henv hal sched header hheader s hrun T ⟨rest, by rw [hcut, hout']⟩
  have hpart := threadPart_zero (order := order) h1
  have hpre := h2 0 rs rfl
  rw [hpart] at hpre
  have htake : rs.take order.length = order.map (·.2) := by
    obtain ⟨more, rfl⟩ := hpre
    rw [List.take_left' (by simp)]
  have hfull : rest = [] → order.map (·.2) = rs := by
    rintro rfl
    rw [← hpart]
    refine h3 (by rw [hout', ← hcut, List.append_nil]) 0 rs rfl ?_
    obtain ⟨s', o', c', g1, g2⟩ := inv_run sched (inv_init header [rs.map fun p => encodePoint types p.entries])
    have hrun' := hrun
    rw [Steps.eq hw hs] at hrun'
    rw [show [rs].map (List.map fun p => encodePoint types p.entries) = [rs.map fun p => encodePoint types p.entries] from rfl, g1] at hrun'
    cases hrun'
    have hl := g2.len
    cases hx : s.threads with
    | nil => rw [hx] at hl; cases hl
    | cons a as => rw [hend a (by rw [hx]; simp)]; rfl
  refine ⟨order.length, fun h => ?_, fun k => ?_⟩
  · rw [← hfull h, List.length_map]; exact Nat.le_refl _
  · rw [htake]
    rcases h4 with h4 | ⟨⟨i, l, p, hi, hp⟩, h4⟩
    · exact .inr (h4 k)
    · rw [h4 k]
      split
      · exact .inr rfl
      · refine .inl ⟨rfl, fun h => ?_⟩
        cases i with
        | zero =>
          cases hi
          rw [hpart, hfull h] at hp
          have := hp.length_le
          simp at this
          omega
        | succ i => simp at hi

/-! ### The points of a program -/

theorem SgReach.length_le {threads : List (List α)} {es : List (SgEvent (List α))} {order : List (Nat × α)} {rem : List (List α)}
    (h : SgReach threads es order rem) :
    order.length + rem.flatten.length ≤ threads.flatten.length + (es.flatMap SgEvent.code).length := by
  have hset : ∀ (rem : List (List α)) (i : Nat) (l : List α), (rem.set i l).flatten.length + (rem[i]?.getD []).length ≤
      rem.flatten.length + l.length := by
    intro rem
    induction rem with
    | nil => intro i l; simp
    | cons x rem ih =>
      intro i l
      cases i with
      | zero => simp; omega
      | succ i =>
        have := ih i l
        simp only [List.set_cons_succ, List.flatten_cons, List.length_append, List.getElem?_cons_succ]
        omega
  induction h with
  | start => simp
  | @point es order rem i p l _ hi ih =>
    have := hset rem i l
    rw [hi] at this
    simp only [Option.getD_some, List.length_cons] at this
    simp only [List.length_append, List.length_cons, List.length_nil]
    omega
  | @signal es order rem i h l _ hi ih =>
    have := hset rem i (h ++ l)
    rw [hi] at this
    simp only [Option.getD_some, List.length_append] at this
    simp only [List.flatMap_append, List.flatMap_cons, List.flatMap_nil, List.append_nil, List.length_append, SgEvent.code]
    omega
  | @jump es order rem i l _ ih =>
    have := hset rem i l
    simp only [List.flatMap_append, List.flatMap_cons, List.flatMap_nil, List.append_nil, List.length_append, SgEvent.code]
    omega

theorem flatMap_length_le (f : α → List β) {l m : List α} (h : l.Sublist m) : (l.flatMap f).length ≤ (m.flatMap f).length := by
  induction h with
  | slnil => exact Nat.le_refl _
  | cons a _ ih => simp only [List.flatMap_cons, List.length_append]; omega
  | cons_cons a _ ih => simp only [List.flatMap_cons, List.length_append]; omega

theorem AllRel.mid {R : α → β → Prop} {P : α → β → γ → Prop} {l : List α} {m : List β} (h : AllRel R l m)
    (hp : ∀ a ∈ l, ∀ b, R a b → ∃ c, P a b c) :
    ∃ n : List γ, AllRel (fun a c => ∃ b, R a b ∧ P a b c) l n ∧ AllRel (fun c b => ∃ a, P a b c) n m := by
  induction h with
  | nil => exact ⟨[], .nil, .nil⟩
  | @cons a b _ _ hab _ ih =>
    obtain ⟨n, h1, h2⟩ := ih fun a ha => hp a (List.mem_cons_of_mem _ ha)
    obtain ⟨c, hc⟩ := hp a List.mem_cons_self b hab
    exact ⟨c :: n, .cons ⟨b, hab, hc⟩ h1, .cons ⟨a, hc⟩ h2⟩

theorem AllRel.midEach {R : α → β → Prop} {P : α → β → γ → Prop} {l : List (List α)} {m : List (List β)} (h : AllRel (AllRel R) l m)
    (hp : ∀ x ∈ l, ∀ a ∈ x, ∀ b, R a b → ∃ c, P a b c) :
    ∃ n : List (List γ), AllRel (AllRel fun a c => ∃ b, R a b ∧ P a b c) l n ∧ AllRel (AllRel fun c b => ∃ a, P a b c) n m := by
  induction h with
  | nil => exact ⟨[], .nil, .nil⟩
  | cons hab _ ih =>
    obtain ⟨n, h1, h2⟩ := ih fun x hx => hp x (List.mem_cons_of_mem _ hx)
    obtain ⟨c, hc1, hc2⟩ := hab.mid (hp _ List.mem_cons_self)
    exact ⟨c :: n, .cons hc1 h1, .cons hc2 h2⟩

theorem sgRel_mid {R : α → β → Prop} {P : α → β → γ → Prop} {l : List (SgEvent (List α))} {m : List (SgEvent (List β))}
    (h : AllRel (SgEvent.Rel (AllRel R)) l m) (hp : ∀ x ∈ l, ∀ a ∈ x.code, ∀ b, R a b → ∃ c, P a b c) :
    ∃ n : List (SgEvent (List γ)), AllRel (SgEvent.Rel (AllRel fun a c => ∃ b, R a b ∧ P a b c)) l n ∧
      AllRel (SgEvent.Rel (AllRel fun c b => ∃ a, P a b c)) n m := by
  induction h with
  | nil => exact ⟨[], .nil, .nil⟩
  | cons hab _ ih =>
    obtain ⟨n, h1, h2⟩ := ih fun x hx => hp x (List.mem_cons_of_mem _ hx)
    have hp := hp _ List.mem_cons_self
    cases hab with
    | run i => exact ⟨.run i :: n, .cons (.run i) h1, .cons (.run i) h2⟩
    | signal i hab =>
      obtain ⟨c, hc1, hc2⟩ := hab.mid hp
      exact ⟨.signal i c :: n, .cons (.signal i hc1) h1, .cons (.signal i hc2) h2⟩
    | jump i hab =>
      obtain ⟨c, hc1, hc2⟩ := hab.mid hp
      exact ⟨.jump i c :: n, .cons (.jump i hc1) h1, .cons (.jump i hc2) h2⟩

theorem sgRel_imp {R S : α → β → Prop} (hrs : ∀ a b, R a b → S a b) {l : List (SgEvent α)} {m : List (SgEvent β)}
    (h : AllRel (SgEvent.Rel R) l m) : AllRel (SgEvent.Rel S) l m := by
  refine h.imp fun x y h => ?_
  cases h with
  | run i => exact .run i
  | signal i h => exact .signal i (hrs _ _ h)
  | jump i h => exact .jump i (hrs _ _ h)

theorem sgRel_code {R : α → β → Prop} {l : List (SgEvent (List α))} {m : List (SgEvent (List β))}
    (h : AllRel (SgEvent.Rel (AllRel R)) l m) : ∀ e ∈ m, ∀ b ∈ e.code, ∃ a, R a b := by
  intro e he b hb
  obtain ⟨x, _, hx⟩ := h.mem_right e he
  cases hx with
  | run i => simp [SgEvent.code] at hb
  | signal i h => obtain ⟨a, _, ha⟩ := h.mem_right b hb; exact ⟨a, ha⟩
  | jump i h => obtain ⟨a, _, ha⟩ := h.mem_right b hb; exact ⟨a, ha⟩

theorem sgRel_code_left {R : α → β → Prop} {l : List (SgEvent (List α))} {m : List (SgEvent (List β))}
    (h : AllRel (SgEvent.Rel (AllRel R)) l m) : ∀ e ∈ l, ∀ a ∈ e.code, ∃ b, R a b := by
  intro e he a ha
  obtain ⟨x, _, hx⟩ := h.mem_left e he
  cases hx with
  | run i => simp [SgEvent.code] at ha
  | signal i h => obtain ⟨a, _, ha⟩ := h.mem_left a ha; exact ⟨a, ha⟩
  | jump i h => obtain ⟨a, _, ha⟩ := h.mem_left a ha; exact ⟨a, ha⟩

theorem sgRel_range {R : α → β → Prop} {l : List (SgEvent α)} {m : List (SgEvent β)} {n : Nat}
    (h : AllRel (SgEvent.Rel R) l m) (hr : ∀ e ∈ l, e.InRange n) : ∀ e ∈ m, e.InRange n := by
  intro e he
  obtain ⟨x, hx, hxe⟩ := h.mem_right e he
  have := hr x hx
  cases hxe <;> exact this

/-- The points of the run of a program with signals, and what a trace of them shows. -/
theorem signalled_known (env : Env) (cf : CFloat) (mem : CMem) (r : SigRun) (acts : List (List RtAct))
    (steps : List (SgEvent (List RtAct))) (hb : r.inOne.Built) (hd : r.Does cf mem acts steps) (hal : ∀ n, env.canAlloc n = true) :
    ∃ threads events, SgProgram cf mem r.header.names (r.header.types.map TypeRow.desc) threads acts events steps ∧
      AllRel (AllRel (r.inOne.Records cf mem)) r.threads threads ∧
      AllRel (SgEvent.Rel (AllRel (r.inOne.Records cf mem))) r.events events ∧
      HeaderOk r.header.names (r.header.types.map TypeRow.desc) ∧ r.header.names.length < 2 ^ 32 ∧
      (∀ ty ∈ r.header.types.map TypeRow.desc, ty.Sane) ∧
      ∀ vs rs, AllRel (r.inOne.Records cf mem) vs rs → (∀ v ∈ vs, v ∈ r.visits) →
        ∃ ps types, AllRel (ProjVisit.Shown (instrumentationFiles r.evolve)) vs ps ∧
          KnownTrace ⟨r.header.names, r.header.types.map TypeRow.desc, recPoints 0 [] rs⟩ types ps ∧
          ∀ n, r.header.HasType n → n ∈ types := by
  obtain ⟨hfit, hrange, ⟨calls, hc, hs⟩, calls', hc', hs'⟩ := hd
  have h1 : ∀ l ∈ r.threads, ∀ v ∈ l, v ∈ r.visits := fun l hl v hv =>
    List.mem_append_left _ (List.mem_flatten.mpr ⟨l, hl, hv⟩)
  have h2 : ∀ e ∈ r.events, ∀ v ∈ e.code, v ∈ r.visits := fun e he v hv =>
    List.mem_append_right _ (List.mem_flatMap.mpr ⟨e, he, hv⟩)
  obtain ⟨hdr, hn, hsane, hrec, hknown⟩ := visited_known env cf mem r.inOne _ hb rfl hfit (by
    intro v hv
    rcases List.mem_append.mp hv with hv | hv
    · obtain ⟨l, hl, hv⟩ := List.mem_flatten.mp hv
      obtain ⟨c, _, hlc⟩ := hc.mem_left l hl
      obtain ⟨c, _, hvc⟩ := hlc.mem_left v hv
      exact ⟨c, hvc⟩
    · obtain ⟨e, he, hv⟩ := List.mem_flatMap.mp hv
      exact sgRel_code_left hc' e he v hv) hal
  obtain ⟨threads, t1, t2⟩ := hc.midEach fun l hl v hv c hvc => hrec v (h1 l hl v hv) c hvc
  obtain ⟨events, e1, e2⟩ := sgRel_mid hc' fun e he v hv c hvc => hrec v (h2 e he v hv) c hvc
  refine ⟨threads, events, ⟨⟨calls, ?_, hs⟩, ⟨calls', ?_, hs'⟩, ?_, ?_, ?_⟩, t1, e1, hdr, hn, hsane, hknown⟩
  · exact t2.imp fun l m h => h.imp fun p c ⟨_, h, _⟩ => h
  · exact sgRel_imp (fun l m h => h.imp fun p c ⟨_, h, _⟩ => h) e2
  · intro l hl p hp
    obtain ⟨_, _, hx⟩ := t1.mem_right l hl
    obtain ⟨_, _, _, _, _, h, _⟩ := hx.mem_right p hp
    exact h
  · intro e he p hp
    obtain ⟨_, _, _, _, h, _⟩ := sgRel_code e1 e he p hp
    exact h
  · rw [← t1.length]
    exact sgRel_range e1 hrange

end TraceDB
