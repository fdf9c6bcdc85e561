import Verif.Spec.Fork
import Verif.Proofs.RuntimeThreads
import Verif.Proofs.InstrumentRun
/-
Programs that fork.
-/
namespace TraceDB

theorem Merged.assoc {α : Type} {a bc l : List α} (h : Merged a bc l) :
    ∀ {b c : List α}, Merged b c bc → ∃ m, Merged a b m ∧ Merged m c l := by
  induction h with
  | nil =>
    intro b c h
    cases h
    exact ⟨[], .nil, .nil⟩
  | @left x a bc l _ ih =>
    intro b c h
    obtain ⟨m, h1, h2⟩ := ih h
    exact ⟨x :: m, .left h1, .left h2⟩
  | @right x a bc l _ ih =>
    intro b c h
    cases h with
    | left h =>
      obtain ⟨m, h1, h2⟩ := ih h
      exact ⟨x :: m, .right h1, .left h2⟩
    | right h =>
      obtain ⟨m, h1, h2⟩ := ih h
      exact ⟨m, h1, .right h2⟩

/-- What several processes still record. -/
inductive FkRest {α : Type} (Q : List (FkItem α) → List α → Prop) : List (List (FkItem α)) → List α → Prop
  | nil : FkRest Q [] []
  | cons {q qs l m n} : Q q l → FkRest Q qs m → Merged l m n → FkRest Q (q :: qs) n

theorem FkRest.point {α : Type} {Q : List (FkItem α) → List α → Prop} {a : α} {rest : List (FkItem α)}
    (hQ : ∀ l, Q rest l → Q (.point a :: rest) (a :: l)) {progs : List (List (FkItem α))} :
    ∀ {i : Nat} {l : List α}, progs[i]? = some (.point a :: rest) → FkRest Q (progs.set i rest) l → FkRest Q progs (a :: l) := by
  induction progs with
  | nil => intro i l h; simp at h
  | cons q progs ih =>
    intro i l h hr
    cases i with
    | zero =>
      simp only [List.getElem?_cons_zero, Option.some.injEq] at h
      subst h
      simp only [List.set_cons_zero] at hr
      cases hr with
      | cons h1 h2 h3 => exact .cons (hQ _ h1) h2 (.left h3)
    | succ i =>
      simp only [List.getElem?_cons_succ] at h
      simp only [List.set_cons_succ] at hr
      cases hr with
      | cons h1 h2 h3 => exact .cons h1 (ih h h2) (.right h3)

theorem FkRest.forked {α : Type} {Q : List (FkItem α) → List α → Prop} {child rest : List (FkItem α)}
    (hQ : ∀ l m n, Q rest l → Q child m → Merged l m n → Q (.fork child :: rest) n) {progs : List (List (FkItem α))} :
    ∀ {i : Nat} {l : List α}, progs[i]? = some (.fork child :: rest) →
      FkRest Q (progs.take i ++ rest :: child :: progs.drop (i + 1)) l → FkRest Q progs l := by
  induction progs with
  | nil => intro i l h; simp at h
  | cons q progs ih =>
    intro i l h hr
    cases i with
    | zero =>
      simp only [List.getElem?_cons_zero, Option.some.injEq] at h
      subst h
      simp only [List.take_zero, List.nil_append, Nat.zero_add, List.drop_succ_cons, List.drop_zero] at hr
      cases hr with
      | cons h1 h2 h3 =>
        cases h2 with
        | cons h4 h5 h6 =>
          obtain ⟨m, h7, h8⟩ := h3.assoc h6
          exact .cons (hQ _ _ _ h1 h4 h7) h5 h8
    | succ i =>
      simp only [List.getElem?_cons_succ] at h
      simp only [List.take_succ_cons, List.cons_append, List.drop_succ_cons] at hr
      cases hr with
      | cons h1 h2 h3 => exact .cons h1 (ih h h2) h3

theorem FkRest.weaken {α : Type} {Q : List (FkItem α) → List α → Prop} {q q' : List (FkItem α)}
    (hQ : ∀ l, Q q l → Q q' l) {progs : List (List (FkItem α))} :
    ∀ {i : Nat} {l : List α}, progs[i]? = some q' → FkRest Q (progs.set i q) l → FkRest Q progs l := by
  induction progs with
  | nil => intro i l h; simp at h
  | cons p progs ih =>
    intro i l h hr
    cases i with
    | zero =>
      simp only [List.getElem?_cons_zero, Option.some.injEq] at h
      subst h
      simp only [List.set_cons_zero] at hr
      cases hr with
      | cons h1 h2 h3 => exact .cons (hQ _ h1) h2 h3
    | succ i =>
      simp only [List.getElem?_cons_succ] at h
      simp only [List.set_cons_succ] at hr
      cases hr with
      | cons h1 h2 h3 => exact .cons h1 (ih h h2) h3

theorem FkRest.soFar_nil {α : Type} (progs : List (List (FkItem α))) : FkRest FkSoFar progs [] := by
  induction progs with
  | nil => exact .nil
  | cons q progs ih => exact .cons (.stop q) ih .nil

theorem FkRest.all_nil {α : Type} (progs : List (List (FkItem α))) (h : ∀ q ∈ progs, q = []) : FkRest FkAll progs [] := by
  induction progs with
  | nil => exact .nil
  | cons q progs ih =>
    cases h q (by simp)
    exact .cons .nil (ih fun q hq => h q (by simp [hq])) .nil

/-! Actions -/

/-- What a process with given points and forks does: puts and a flush for each point. -/
inductive FkDoes {α : Type} (enc : α → List U8) : List (FkItem α) → List FkAct → Prop
  | nil : FkDoes enc [] [.exit]
  | point {p rest} {puts : List (List U8)} {acts} : puts.flatten = enc p → FkDoes enc rest acts →
      FkDoes enc (.point p :: rest) (puts.map .put ++ .flush :: acts)
  | fork {child c rest acts} : FkDoes enc child c → FkDoes enc rest acts → FkDoes enc (.fork child :: rest) (.fork c :: acts)

theorem fkCalls_items {cf : CFloat} {mem : CMem} {cs : List RtCall} (hcs : ∀ c ∈ cs, c ≠ .endEntry) {more : List RtCall}
    {acts : List FkAct} (h : fkCalls cf mem (cs ++ more) = .ok acts) {b : List U8} (hb : rtBytes cf mem (cs ++ more) = .ok b) :
    ∃ (puts : List (List U8)) (acts' : List FkAct) (b' : List U8), acts = puts.map .put ++ acts' ∧ fkCalls cf mem more = .ok acts' ∧ rtBytes cf mem more = .ok b' ∧
      b = puts.flatten ++ b' := by
  induction cs generalizing acts b with
  | nil => exact ⟨[], acts, b, rfl, h, hb, rfl⟩
  | cons c cs ih =>
    simp only [List.cons_append, fkCalls, rtBytes] at h hb
    obtain ⟨x, hx, h⟩ := Res.bind_eq_ok.mp h
    obtain ⟨m, hm, h⟩ := Res.bind_eq_ok.mp h
    rw [hx, Res.ok_bind] at hb
    obtain ⟨y, hy, hb⟩ := Res.bind_eq_ok.mp hb
    obtain ⟨puts, acts', b', rfl, h2, h3, rfl⟩ := ih (fun c hc => hcs c (by simp [hc])) hm hy
    rw [if_neg (hcs c (by simp))] at h
    cases h
    cases hb
    exact ⟨x :: puts, acts', b', rfl, h2, h3, by simp⟩

theorem fkCalls_point {cf : CFloat} {mem : CMem} {id : U64} {cs : List RtCall} (hcs : ∀ c ∈ cs, c ≠ .endEntry)
    {acts : List FkAct} (h : fkCalls cf mem (pointCalls id cs) = .ok acts) {b : List U8}
    (hb : rtBytes cf mem (pointCalls id cs) = .ok b) : ∃ puts : List (List U8), acts = puts.map .put ++ [.flush] ∧ puts.flatten = b := by
  have : pointCalls id cs = (.traceId id :: cs) ++ [.endEntry] := rfl
  rw [this] at h hb
  obtain ⟨puts, acts', b', rfl, h2, h3, rfl⟩ := fkCalls_items (by
    intro c hc
    rcases List.mem_cons.mp hc with rfl | hc
    · simp
    · exact hcs c hc) h hb
  simp only [fkCalls, RtCall.bytes, Res.ok_bind, if_true] at h2
  simp only [rtBytes, RtCall.bytes, Res.ok_bind] at h3
  cases h2
  cases h3
  exact ⟨puts ++ [[0]], by simp, by simp⟩

theorem fk_not_end {cf : CFloat} {mem : CMem} {p : RecPoint} {cs : U64 × List RtCall} (h : p.CalledAs cf mem cs) :
    ∀ c ∈ cs.2, c ≠ .endEntry := by
  have key : ∀ {l : List RecItem} {m : List RtCall}, AllRel (RecItem.CalledAs cf mem) l m → ∀ c ∈ m, c ≠ .endEntry := by
    intro l m h
    induction h with
    | nil => simp
    | @cons x y xs ys hx _ ih =>
      intro c hc
      rcases List.mem_cons.mp hc with rfl | hc
      · cases x with
        | buffer r => cases hx; simp
        | vars l => obtain ⟨n, args, rfl, _⟩ := hx; simp
        | blobs l => obtain ⟨n, args, rfl, _⟩ := hx; simp
      · exact ih c hc
  exact key h.2

theorem fkItems_does {cf : CFloat} {mem : CMem} {names : List Name} {types : List TypeDesc} {prog : List (FkItem RecPoint)}
    {calls : List (FkItem (U64 × List RtCall))} (h : FkRel (RecPoint.CalledAs cf mem) prog calls)
    (ht : FkEach (fun p => ∀ x ∈ p.items, x.Typed names types cf) prog) {acts : List FkAct} (ha : fkItems cf mem calls = .ok acts) :
    FkDoes (fun p => encodePoint types p.entries) prog acts := by
  induction h generalizing acts with
  | nil =>
    simp only [fkItems] at ha
    cases ha
    exact .nil
  | point hr _ ih =>
    cases ht with
    | point h1 h2 =>
      simp only [fkItems, FkItem.acts] at ha
      obtain ⟨x, hx, ha⟩ := Res.bind_eq_ok.mp ha
      obtain ⟨y, hy, ha⟩ := Res.bind_eq_ok.mp ha
      cases ha
      obtain ⟨puts, rfl, hp⟩ := fkCalls_point (fk_not_end hr) hx (point_bytes hr h1)
      rw [List.append_assoc]
      exact .point hp (ih h2 hy)
  | fork _ _ ih1 ih2 =>
    cases ht with
    | fork h1 h2 =>
      simp only [fkItems, FkItem.acts] at ha
      obtain ⟨x, hx, ha⟩ := Res.bind_eq_ok.mp ha
      obtain ⟨z, hz, hx⟩ := Res.bind_eq_ok.mp hx
      cases hx
      obtain ⟨y, hy, ha⟩ := Res.bind_eq_ok.mp ha
      cases ha
      exact .fork (ih1 h1 hz) (ih2 h2 hy)

/-! The invariant -/

/-- A process that has still to do what `items` says, perhaps in the middle of its first point. -/
inductive FkProcOk {α : Type} (enc : α → List U8) (size : Nat) : FkProc → List (FkItem α) → Prop
  | ended : FkProcOk enc size ⟨[], []⟩ []
  | idle {items acts} : FkDoes enc items acts → FkEach (fun p => (enc p).length ≤ size) items → FkProcOk enc size ⟨[], acts⟩ items
  | inside {buf p rest} {puts : List (List U8)} {acts} : buf ++ List.flatten puts = enc p → (enc p).length ≤ size → FkDoes enc rest acts →
      FkEach (fun p => (enc p).length ≤ size) rest → FkProcOk enc size ⟨buf, puts.map .put ++ .flush :: acts⟩ (.point p :: rest)

/-- After the first point: the file consists of complete points. -/
structure FkInv {α : Type} (enc : α → List U8) (size : Nat) (H : List U8) (prog : List (FkItem α)) (exact : Prop)
    (s : FkState) (don : List α) (progs : List (List (FkItem α))) : Prop where
  out : s.out = H ++ don.flatMap enc
  procs : AllRel (FkProcOk enc size) s.procs progs
  soFar : ∀ l, FkRest FkSoFar progs l → FkSoFar prog (don ++ l)
  all : exact → ∀ l, FkRest FkAll progs l → FkAll prog (don ++ l)

theorem AllRel.fkGet {α β : Type} {R : α → β → Prop} {l : List α} {m : List β} (h : AllRel R l m) :
    ∀ {i : Nat} {a : α}, l[i]? = some a → ∃ b, m[i]? = some b ∧ R a b := by
  induction h with
  | nil => intro i a h; simp at h
  | @cons x y xs ys hx _ ih =>
    intro i a h
    cases i with
    | zero => simp only [List.getElem?_cons_zero, Option.some.injEq] at h; subst h; exact ⟨y, rfl, hx⟩
    | succ i => exact ih h

theorem AllRel.fkSet {α β : Type} {R : α → β → Prop} {l : List α} {m : List β} (h : AllRel R l m) :
    ∀ (i : Nat) {a : α} {b : β}, R a b → AllRel R (l.set i a) (m.set i b) := by
  induction h with
  | nil => intro i a b _; exact .nil
  | @cons x y xs ys hx hr ih =>
    intro i a b hab
    cases i with
    | zero => exact .cons hab hr
    | succ i => exact .cons hx (ih i hab)

theorem AllRel.fkSplit {α β : Type} {R : α → β → Prop} {l : List α} {m : List β} (h : AllRel R l m) :
    ∀ (i : Nat) {a a' : α} {b b' : β}, R a b → R a' b' →
      AllRel R (l.take i ++ a :: a' :: l.drop (i + 1)) (m.take i ++ b :: b' :: m.drop (i + 1)) := by
  induction h with
  | nil => intro i a a' b b' h1 h2; simp only [List.take_nil, List.drop_nil, List.nil_append]; exact .cons h1 (.cons h2 .nil)
  | @cons x y xs ys hx hr ih =>
    intro i a a' b b' h1 h2
    cases i with
    | zero => exact .cons h1 (.cons h2 hr)
    | succ i => exact .cons hx (ih i h1 h2)

theorem FkProcOk.small {α : Type} {enc : α → List U8} {size : Nat} {p : FkProc} {items : List (FkItem α)}
    (h : FkProcOk enc size p items) : p.buf.length ≤ size := by
  cases h with
  | ended => simp
  | idle => simp
  | inside h1 h2 =>
    rw [← h1] at h2
    simp only [List.length_append] at h2
    simp only
    omega

/-- Being at the start of a point is being inside of it. -/
theorem FkProcOk.norm {α : Type} {enc : α → List U8} {size : Nat} {p : FkProc} {items : List (FkItem α)}
    (h : FkProcOk enc size p items) :
    (p = ⟨[], []⟩ ∧ items = []) ∨ (p = ⟨[], [.exit]⟩ ∧ items = []) ∨
    (∃ child c rest acts, p = ⟨[], .fork c :: acts⟩ ∧ items = .fork child :: rest ∧ FkProcOk enc size ⟨[], c⟩ child ∧
      FkProcOk enc size ⟨[], acts⟩ rest) ∨
    (∃ (buf : List U8) (q : α) (rest : List (FkItem α)) (puts : List (List U8)) (acts : List FkAct), p = ⟨buf, puts.map .put ++ .flush :: acts⟩ ∧ items = .point q :: rest ∧
      buf ++ List.flatten puts = enc q ∧ (enc q).length ≤ size ∧ FkDoes enc rest acts ∧
      FkEach (fun p => (enc p).length ≤ size) rest) := by
  cases h with
  | ended => exact .inl ⟨rfl, rfl⟩
  | idle h1 h2 =>
    cases h1 with
    | nil => exact .inr (.inl ⟨rfl, rfl⟩)
    | point h3 h4 =>
      cases h2 with
      | point h5 h6 => exact .inr (.inr (.inr ⟨[], _, _, _, _, rfl, rfl, h3, h5, h4, h6⟩))
    | fork h3 h4 =>
      cases h2 with
      | fork h5 h6 => exact .inr (.inr (.inl ⟨_, _, _, _, rfl, rfl, .idle h3 h5, .idle h4 h6⟩))
  | inside h1 h2 h3 h4 => exact .inr (.inr (.inr ⟨_, _, _, _, _, rfl, rfl, h1, h2, h3, h4⟩))

theorem FkInv.step {α : Type} {enc : α → List U8} {size : Nat} {H : List U8} {prog : List (FkItem α)} {exact : Prop}
    {s : FkState} {don : List α} {progs : List (List (FkItem α))} (h : FkInv enc size H prog exact s don progs)
    (e : FkEvent) (he : e.IsKill → ¬ exact) : ∃ don' progs', FkInv enc size H prog exact (s.step size e) don' progs' := by
  cases e with
  | run i =>
    simp only [FkState.step]
    cases hp : s.procs[i]? with
    | none => exact ⟨don, progs, h⟩
    | some p =>
      obtain ⟨items, hi, hok⟩ := h.procs.fkGet hp
      simp only
      rw [if_pos hok.small]
      rcases hok.norm with ⟨rfl, rfl⟩ | ⟨rfl, rfl⟩ | ⟨child, c, rest, acts, rfl, rfl, h1, h2⟩ |
        ⟨buf, q, rest, puts, acts, rfl, rfl, h1, h2, h3, h4⟩
      · exact ⟨don, progs, h⟩
      · simp only [List.append_nil]
        refine ⟨don, progs.set i [], h.out, h.procs.fkSet i .ended, fun l hl => h.soFar l (FkRest.weaken (fun _ h => h) hi hl),
          fun hx l hl => h.all hx l (FkRest.weaken (fun _ h => h) hi hl)⟩
      · exact ⟨don, progs.take i ++ rest :: child :: progs.drop (i + 1), h.out, h.procs.fkSplit i h2 h1,
          fun l hl => h.soFar l (FkRest.forked (fun _ _ _ => .fork) hi hl),
          fun hx l hl => h.all hx l (FkRest.forked (fun _ _ _ => .fork) hi hl)⟩
      · cases puts with
        | nil =>
          simp only [List.flatten_nil, List.append_nil] at h1
          subst h1
          simp only [List.map_nil, List.nil_append]
          refine ⟨don ++ [q], progs.set i rest, ?_, h.procs.fkSet i (.idle h3 h4), fun l hl => ?_, fun hx l hl => ?_⟩
          · simp [h.out]
          · rw [List.append_assoc]
            exact h.soFar _ (FkRest.point (fun _ => .point) hi hl)
          · rw [List.append_assoc]
            exact h.all hx _ (FkRest.point (fun _ => .point) hi hl)
        | cons b puts =>
          simp only [List.map_cons, List.cons_append]
          refine ⟨don, progs.set i (.point q :: rest), h.out, h.procs.fkSet i (.inside (by
            rw [← h1]; simp) h2 h3 h4), fun l hl => h.soFar l (FkRest.weaken (fun _ h => h) hi hl),
            fun hx l hl => h.all hx l (FkRest.weaken (fun _ h => h) hi hl)⟩
  | spill i k =>
    simp only [FkState.step]
    cases hp : s.procs[i]? with
    | none => exact ⟨don, progs, h⟩
    | some p =>
      obtain ⟨items, hi, hok⟩ := h.procs.fkGet hp
      simp only
      rw [if_pos hok.small]
      exact ⟨don, progs, h⟩
  | kill i =>
    simp only [FkState.step]
    by_cases hi : i < progs.length
    · refine ⟨don, progs.set i [], h.out, h.procs.fkSet i .ended, fun l hl => h.soFar l ?_, fun hx => absurd hx (he trivial)⟩
      refine FkRest.weaken (q := []) (fun l hl => ?_) (List.getElem?_eq_getElem hi) hl
      cases hl
      exact .stop _
    · refine ⟨don, progs, h.out, ?_, h.soFar, h.all⟩
      rw [List.set_eq_of_length_le (by rw [h.procs.length]; omega)]
      exact h.procs

theorem FkInv.run {α : Type} {enc : α → List U8} {size : Nat} {H : List U8} {prog : List (FkItem α)} {exact : Prop}
    (events : List FkEvent) (he : ∀ e ∈ events, e.IsKill → ¬ exact) :
    ∀ {s : FkState} {don : List α} {progs : List (List (FkItem α))}, FkInv enc size H prog exact s don progs →
      ∃ don' progs', FkInv enc size H prog exact (s.run size events) don' progs' := by
  induction events with
  | nil => intro s don progs h; exact ⟨don, progs, h⟩
  | cons e events ih =>
    intro s don progs h
    obtain ⟨don', progs', h'⟩ := h.step e (he e (by simp))
    exact ih (fun e h => he e (by simp [h])) h'

/-! Before the first point is complete -/

/-- The only process has put a part of the header and of the first point; `T` are all of these bytes. -/
structure FkFirst (T : List U8) (s : FkState) (acts : List FkAct) : Prop where
  split : ∃ (buf : List U8) (puts : List (List U8)), s.procs = [⟨buf, puts.map .put ++ .flush :: acts⟩] ∧ s.out ++ buf ++ List.flatten puts = T

/-- The only process was killed early. -/
structure FkGone (T : List U8) (s : FkState) : Prop where
  procs : s.procs = [⟨[], []⟩]
  out : s.out <+: T

theorem FkGone.step {T : List U8} {s : FkState} (h : FkGone T s) (size : Nat) (e : FkEvent) : FkGone T (s.step size e) := by
  obtain ⟨out, procs⟩ := s
  obtain ⟨hp, ho⟩ := h
  simp only at hp ho
  subst hp
  cases e with
  | run i =>
    cases i with
    | zero => exact ⟨rfl, ho⟩
    | succ i => exact ⟨rfl, ho⟩
  | spill i k =>
    cases i with
    | zero => simp only [FkState.step, List.getElem?_cons_zero, List.length_nil, Nat.zero_le, if_true]; exact ⟨rfl, ho⟩
    | succ i => exact ⟨rfl, ho⟩
  | kill i => exact ⟨by cases i <;> rfl, ho⟩

/-- One step before the first flush: the same, or killed, or the flush. -/
theorem FkFirst.step {T : List U8} {s : FkState} {acts : List FkAct} (h : FkFirst T s acts) (size : Nat) (e : FkEvent) :
    FkFirst T (s.step size e) acts ∨ (e.IsKill ∧ FkGone T (s.step size e)) ∨
      s.step size e = ⟨T, [⟨[], acts⟩]⟩ := by
  obtain ⟨out, procs⟩ := s
  obtain ⟨buf, puts, hp, ho⟩ := h.split
  simp only at hp ho
  subst hp
  cases e with
  | run i =>
    cases i with
    | succ i => exact .inl h
    | zero =>
      simp only [FkState.step, List.getElem?_cons_zero]
      split
      · cases puts with
        | nil =>
          refine .inr (.inr ?_)
          simp only [List.flatten_nil, List.append_nil] at ho
          simp only [List.map_nil, List.nil_append, List.set_cons_zero, ho]
        | cons b puts =>
          refine .inl ⟨buf ++ b, puts, rfl, ?_⟩
          rw [← ho]
          simp
      · exact .inl h
  | spill i k =>
    cases i with
    | succ i => exact .inl h
    | zero =>
      simp only [FkState.step, List.getElem?_cons_zero]
      split
      · exact .inl h
      · refine .inl ⟨buf.drop k, puts, rfl, ?_⟩
        rw [← ho]
        simp only [List.append_assoc]
        rw [← List.append_assoc (buf.take k), List.take_append_drop]
  | kill i =>
    cases i with
    | succ i => exact .inl h
    | zero => exact .inr (.inl ⟨trivial, rfl, ⟨buf ++ List.flatten puts, by rw [← ho]; simp [FkState.step]⟩⟩)

theorem FkFirst.prefix {T : List U8} {s : FkState} {acts : List FkAct} (h : FkFirst T s acts) : s.out <+: T := by
  obtain ⟨buf, puts, _, ho⟩ := h.split
  exact ⟨buf ++ List.flatten puts, by rw [← ho]; simp⟩

theorem FkGone.run {T : List U8} (size : Nat) (events : List FkEvent) : ∀ {s : FkState}, FkGone T s → FkGone T (s.run size events) := by
  induction events with
  | nil => intro s h; exact h
  | cons e events ih => intro s h; exact ih (h.step size e)

/-- The whole run. -/
theorem fk_run {α : Type} {enc : α → List U8} {size : Nat} {H : List U8} {a : α} {prog : List (FkItem α)} {acts : List FkAct}
    (hd : FkDoes enc prog acts) (hs : FkEach (fun p => (enc p).length ≤ size) prog) (exact : Prop)
    (events : List FkEvent) (he : ∀ e ∈ events, e.IsKill → ¬ exact) :
    ∀ {s : FkState}, FkFirst (H ++ enc a) s acts →
      (FkFirst (H ++ enc a) (s.run size events) acts ∨ (¬ exact ∧ FkGone (H ++ enc a) (s.run size events))) ∨
      ∃ don progs, FkInv enc size (H ++ enc a) prog exact (s.run size events) don progs := by
  induction events with
  | nil => intro s h; exact .inl (.inl h)
  | cons e events ih =>
    intro s h
    have he' : ∀ e ∈ events, e.IsKill → ¬ exact := fun e h => he e (by simp [h])
    rcases h.step size e with h | ⟨hk, h⟩ | h
    · exact ih he' h
    · exact .inl (.inr ⟨he e (by simp) hk, h.run size events⟩)
    · right
      have : FkInv enc size (H ++ enc a) prog exact (s.step size e) [] [prog] := by
        rw [h]
        refine ⟨by simp, .cons (.idle hd hs) .nil, fun l hl => ?_, fun _ l hl => ?_⟩
        all_goals
          cases hl with
          | cons h1 h2 h3 =>
            cases h2
            have : ∀ {l n : List α}, Merged l [] n → n = l := by
              intro l
              induction l with
              | nil => intro n h; cases h; rfl
              | cons x l ih => intro n h; cases h with | left h => rw [ih h]
            rw [this h3]
            exact h1
      exact FkInv.run events he' this

/-! All processes can end -/

mutual
/-- How much there is to do. -/
def FkAct.weight : FkAct → Nat
  | .fork c => fkWeight c + 1
  | _ => 1

def fkWeight : List FkAct → Nat
  | [] => 0
  | a :: l => a.weight + fkWeight l
end

theorem FkAct.weight_pos (a : FkAct) : 0 < a.weight := by cases a <;> simp [FkAct.weight]

/-- How much all processes have to do. -/
def fkLeft (procs : List FkProc) : Nat := (procs.map fun p => fkWeight p.todo).sum

theorem fkLeft_set {procs : List FkProc} {i : Nat} {p : FkProc} (h : procs[i]? = some p) (q : FkProc) :
    fkLeft (procs.set i q) + fkWeight p.todo = fkLeft procs + fkWeight q.todo := by
  induction procs generalizing i with
  | nil => simp at h
  | cons x procs ih =>
    cases i with
    | zero =>
      simp only [List.getElem?_cons_zero, Option.some.injEq] at h
      subst h
      simp only [fkLeft, List.set_cons_zero, List.map_cons, List.sum_cons]
      omega
    | succ i =>
      simp only [List.getElem?_cons_succ] at h
      have := ih h
      simp only [fkLeft, List.set_cons_succ, List.map_cons, List.sum_cons] at this ⊢
      omega

theorem fkLeft_split {procs : List FkProc} {i : Nat} {p : FkProc} (h : procs[i]? = some p) (q q' : FkProc) :
    fkLeft (procs.take i ++ q :: q' :: procs.drop (i + 1)) + fkWeight p.todo = fkLeft procs + fkWeight q.todo + fkWeight q'.todo := by
  induction procs generalizing i with
  | nil => simp at h
  | cons x procs ih =>
    cases i with
    | zero =>
      simp only [List.getElem?_cons_zero, Option.some.injEq] at h
      subst h
      simp only [fkLeft, List.take_zero, List.nil_append, Nat.zero_add, List.drop_succ_cons, List.drop_zero, List.map_cons, List.sum_cons]
      omega
    | succ i =>
      simp only [List.getElem?_cons_succ] at h
      have := ih h
      simp only [fkLeft, List.take_succ_cons, List.cons_append, List.drop_succ_cons, List.map_cons, List.sum_cons] at this ⊢
      omega

/-- A process that is not blocked goes on. -/
theorem fk_progress {size : Nat} {s : FkState} {i : Nat} {p : FkProc} (hp : s.procs[i]? = some p) (hb : p.buf.length ≤ size)
    (ht : p.todo ≠ []) : fkLeft (s.step size (.run i)).procs < fkLeft s.procs := by
  simp only [FkState.step, hp, if_pos hb]
  obtain ⟨buf, todo⟩ := p
  cases todo with
  | nil => exact absurd rfl ht
  | cons a r =>
    cases a with
    | put bs =>
      have := fkLeft_set hp ⟨buf ++ bs, r⟩
      simp only [fkWeight, FkAct.weight] at this ⊢
      omega
    | flush =>
      have := fkLeft_set hp ⟨[], r⟩
      simp only [fkWeight, FkAct.weight] at this ⊢
      omega
    | exit =>
      have := fkLeft_set hp ⟨[], []⟩
      simp only [fkWeight, FkAct.weight] at this ⊢
      omega
    | fork c =>
      have := fkLeft_split hp ⟨buf, r⟩ ⟨buf, c⟩
      simp only [fkWeight, FkAct.weight] at this ⊢
      omega

theorem fk_can_end (size : Nat) (s : FkState) : ∃ events, (∀ e ∈ events, ¬ e.IsKill) ∧ (s.run size events).Ended := by
  generalize hn : fkLeft s.procs = n
  induction n using Nat.strongRecOn generalizing s with
  | ind n ih =>
    by_cases hend : s.Ended
    · exact ⟨[], by simp, hend⟩
    · have : ∃ p ∈ s.procs, p.todo ≠ [] := by
        apply Classical.byContradiction
        intro h
        exact hend fun p hp => Classical.byContradiction fun hx => h ⟨p, hp, hx⟩
      obtain ⟨p, hp, ht⟩ := this
      obtain ⟨i, hi⟩ := List.mem_iff_getElem?.mp hp
      by_cases hb : p.buf.length ≤ size
      · obtain ⟨events, h1, h2⟩ := ih _ (by rw [← hn]; exact fk_progress hi hb ht) (s.step size (.run i)) rfl
        exact ⟨.run i :: events, by
          intro e he
          rcases List.mem_cons.mp he with rfl | he
          · exact id
          · exact h1 e he, h2⟩
      · have hs : s.step size (.spill i p.buf.length) = ⟨s.out ++ p.buf, s.procs.set i ⟨[], p.todo⟩⟩ := by
          simp only [FkState.step, hi, if_neg hb, List.take_length, List.drop_length]
        have hlt : i < s.procs.length := (List.getElem?_eq_some_iff.mp hi).1
        have hi' : (s.step size (.spill i p.buf.length)).procs[i]? = some ⟨[], p.todo⟩ := by
          rw [hs]
          simp [hlt]
        have hl : fkLeft (s.step size (.spill i p.buf.length)).procs = fkLeft s.procs := by
          rw [hs]
          have := fkLeft_set hi ⟨[], p.todo⟩
          simp only at this ⊢
          omega
        obtain ⟨events, h1, h2⟩ := ih _ (by rw [← hn, ← hl]; exact fk_progress hi' (by simp) ht)
          ((s.step size (.spill i p.buf.length)).step size (.run i)) rfl
        exact ⟨.spill i p.buf.length :: .run i :: events, by
          intro e he
          rcases List.mem_cons.mp he with rfl | he
          · exact id
          · rcases List.mem_cons.mp he with rfl | he
            · exact id
            · exact h1 e he, h2⟩

end TraceDB
