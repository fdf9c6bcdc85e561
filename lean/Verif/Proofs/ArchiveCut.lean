import Verif.Proofs.ArchiveDb
import Verif.Spec.ArchiveCut
/-
Loading the beginning of a text.
-/
namespace TraceDB

/-! What follows does not matter as long as something is left -/

/-- What is left is a part of the text; if something is left, text that follows does not
matter. -/
def Stable {α : Type} (l : Load α) : Prop :=
  ∀ (P : List U8) (a : ArchState) (y : α) (s : LoadState), l ⟨P, a⟩ = some (y, s) →
    s.rest <:+ P ∧ (s.rest ≠ [] → ∀ Q, l ⟨P ++ Q, a⟩ = some (y, ⟨s.rest ++ Q, s.arch⟩))

/-- Nothing can be loaded at the end of the text. -/
def Needs {α : Type} (l : Load α) : Prop := ∀ a, l ⟨[], a⟩ = none

theorem dropWhile_more {p : U8 → Bool} {P : List U8} (h : P.dropWhile p ≠ []) (Q : List U8) :
    (P ++ Q).dropWhile p = P.dropWhile p ++ Q := by
  rw [List.dropWhile_append]
  simp [h]

theorem takeWhile_more {p : U8 → Bool} {P : List U8} (h : P.dropWhile p ≠ []) (Q : List U8) :
    (P ++ Q).takeWhile p = P.takeWhile p := by
  rw [List.takeWhile_append]
  split
  · next e =>
    have := List.takeWhile_append_dropWhile (p := p) (l := P)
    have hl := congrArg List.length this
    rw [List.length_append] at hl
    exact absurd (List.length_eq_zero_iff.mp (by omega)) h
  · rfl

theorem dropWhile_ne {p : U8 → Bool} {P : List U8} (q : U8 → Bool) (h : (P.dropWhile p).dropWhile q ≠ []) :
    P.dropWhile p ≠ [] := fun e => h (by rw [e]; rfl)

theorem afterSign_suffix (text : List U8) : afterSign text <:+ text := by
  unfold afterSign
  split
  · exact List.drop_suffix _ _
  · exact List.suffix_refl _

theorem afterSign_ne {text : List U8} (h : (afterSign text).dropWhile isDigit ≠ []) : text ≠ [] := fun e => by
  subst e
  exact h rfl

theorem sign_more {text : List U8} (h : text ≠ []) (Q : List U8) :
    afterSign (text ++ Q) = afterSign text ++ Q ∧ (text ++ Q).head? = text.head? := by
  cases text with
  | nil => exact absurd rfl h
  | cons c cs =>
    refine ⟨?_, rfl⟩
    unfold afterSign
    simp only [List.cons_append, List.head?_cons, List.drop_succ_cons, List.drop_zero]
    split <;> rfl

theorem Stable.nat (max : Nat) : Stable (loadNat max) := by
  intro P a y s h
  unfold loadNat at h
  simp only at h
  split at h
  · cases h
  · next h1 =>
    split at h
    · cases h
    · next n h2 =>
      cases h
      refine ⟨(List.dropWhile_suffix _).trans ((afterSign_suffix _).trans (List.dropWhile_suffix _)), fun hne Q => ?_⟩
      simp only at hne
      have hs := afterSign_ne hne
      unfold loadNat
      simp only [dropWhile_more hs, sign_more hs, takeWhile_more hne, dropWhile_more hne, h1, h2, if_false]

theorem Stable.char : Stable loadChar := by
  intro P a y s h
  unfold loadChar at h
  simp only at h
  generalize hv : (if (P.dropWhile isSpace).head? = some 45 then _ else _ : Int) = v at h
  split at h
  · cases h
  · next h1 =>
    split at h
    · next h2 =>
      cases h
      refine ⟨(List.dropWhile_suffix _).trans ((afterSign_suffix _).trans (List.dropWhile_suffix _)), fun hne Q => ?_⟩
      simp only at hne
      have hs := afterSign_ne hne
      unfold loadChar
      simp only [dropWhile_more hs, sign_more hs, takeWhile_more hne, dropWhile_more hne, hv, h1, h2, if_false, if_true, and_self]
    · cases h

theorem Stable.str : Stable loadStr := by
  intro P a y s h
  unfold loadStr at h
  obtain ⟨⟨n, s1⟩, h1, h⟩ := Option.bind_eq_some_iff.mp h
  obtain ⟨g1, g2⟩ := Stable.nat _ P a n s1 h1
  cases h
  refine ⟨((List.drop_suffix _ _).trans (List.drop_suffix _ _)).trans g1, fun hne Q => ?_⟩
  simp only at hne
  have hne1 : s1.rest ≠ [] := fun e => hne (by rw [e]; simp)
  have hlen : n < (s1.rest.drop 1).length := by
    rcases Nat.lt_or_ge n (s1.rest.drop 1).length with h | h
    · exact h
    · exact absurd (List.drop_eq_nil_of_le h) hne
  unfold loadStr
  rw [g2 hne1 Q]
  have hpos : 1 ≤ s1.rest.length := by
    cases hr : s1.rest with
    | nil => exact absurd hr hne1
    | cons _ _ => simp
  have e1 : (s1.rest ++ Q).drop 1 = s1.rest.drop 1 ++ Q := List.drop_append_of_le_length hpos
  show some (((s1.rest ++ Q).drop 1).take n ++ List.replicate (n - ((s1.rest ++ Q).drop 1).length) 0,
    LoadState.mk (((s1.rest ++ Q).drop 1).drop n) s1.arch) = _
  rw [e1, List.take_append_of_le_length (by omega), List.drop_append_of_le_length (by omega)]
  have h2 : n - (List.drop 1 s1.rest ++ Q).length = 0 := by rw [List.length_append]; omega
  have h3 : n - (List.drop 1 s1.rest).length = 0 := by omega
  rw [h2, h3]

theorem Stable.pure {α : Type} (x : α) : Stable (Pure.pure x : Load α) := by
  intro P a y s h
  cases h
  exact ⟨List.suffix_refl _, fun _ Q => rfl⟩

theorem Stable.fail {α : Type} : Stable (fun _ => none : Load α) := fun P a y s h => by cases h

theorem bind_some {α β : Type} {l : Load α} {f : α → Load β} {st : LoadState} {z : β} {s : LoadState}
    (h : (l >>= f) st = some (z, s)) : ∃ x s1, l st = some (x, s1) ∧ f x s1 = some (z, s) := by
  have h : Load.bind l f st = some (z, s) := h
  unfold Load.bind at h
  cases hl : l st with
  | none => rw [hl] at h; cases h
  | some r => rw [hl] at h; exact ⟨r.1, r.2, rfl, h⟩

theorem bind_of {α β : Type} {l : Load α} {f : α → Load β} {st : LoadState} {x : α} {s1 : LoadState}
    (h : l st = some (x, s1)) : (l >>= f) st = f x s1 := by
  show Load.bind l f st = _
  unfold Load.bind
  rw [h]

theorem Stable.bind {α β : Type} {l : Load α} {f : α → Load β} (hl : Stable l) (hf : ∀ x, Stable (f x)) :
    Stable (l >>= f) := by
  intro P a z s h
  obtain ⟨x, s1, h1, h2⟩ := bind_some h
  obtain ⟨g1, g2⟩ := hl P a x s1 h1
  obtain ⟨g3, g4⟩ := hf x s1.rest s1.arch z s h2
  refine ⟨g3.trans g1, fun hne Q => ?_⟩
  have hne1 : s1.rest ≠ [] := fun e => hne (by rw [e] at g3; exact List.suffix_nil.mp g3)
  rw [bind_of (g2 hne1 Q)]
  exact g4 hne Q

theorem Stable.list {α : Type} {l : Load α} (h : Stable l) : ∀ n, Stable (loadList l n)
  | 0 => Stable.pure _
  | n + 1 => h.bind fun _ => (Stable.list h n).bind fun _ => Stable.pure _

theorem Stable.object {α : Type} {l : Load α} (c : Cls) (h : Stable l) : Stable (loadObject c l) := by
  intro P a z s e
  unfold loadObject at e ⊢
  by_cases hc : c ∈ a.seen
  · simp only [hc, if_true] at e ⊢
    exact h P a z s e
  · simp only [hc, if_false] at e ⊢
    exact (Stable.nat _).bind (fun _ => (Stable.nat _).bind fun _ => h) P _ z s e

theorem stable_type : Stable loadType :=
  Stable.object _ ((Stable.nat _).bind fun _ => (Stable.nat _).bind fun _ => (Stable.nat _).bind fun _ => Stable.pure _)

theorem stable_bufferSize : Stable loadBufferSize :=
  Stable.object _ ((Stable.nat _).bind fun _ => (Stable.nat _).bind fun _ => Stable.pure _)

theorem stable_value (f : TypeFormat) (n : Nat) : Stable (loadValue f n) := by
  unfold loadValue
  split
  · exact (Stable.char.list n).bind fun _ => Stable.pure _
  · exact (Stable.nat _).bind fun _ => Stable.pure _

theorem stable_var : Stable loadVar :=
  Stable.object _ ((Stable.nat _).bind fun _ => (Stable.nat _).bind fun _ => (Stable.nat _).bind fun _ =>
    (Stable.nat _).bind fun _ => (Stable.nat _).bind fun _ => (Stable.nat _).bind fun _ =>
      (stable_value _ _).bind fun _ => Stable.pure _)

theorem stable_body : Stable loadBody :=
  Stable.object _ ((Stable.nat _).bind fun _ => (Stable.nat _).bind fun _ => (Stable.nat _).bind fun _ =>
    (stable_bufferSize.list _).bind fun _ => (stable_var.list _).bind fun _ =>
      (((Stable.nat _).bind fun _ => Stable.pure _).list _).bind fun _ => Stable.pure _)

theorem stable_push (d : Body) : Stable (pushItem d) := by
  intro P a y s h
  cases h
  exact ⟨List.suffix_refl _, fun _ Q => rfl⟩

theorem stable_shared : Stable loadShared := by
  intro P a
  refine (Stable.nat (2 ^ 64 - 1)).bind (f := fun n =>
    match a.items[n]? with
    | some d => pure d
    | none =>
      if n = a.items.length then do
        let d ← loadBody
        pushItem d
        pure d
      else fun _ => none) (fun n => ?_) P a
  split
  · exact Stable.pure _
  · split
    · exact stable_body.bind fun _ => (stable_push _).bind fun _ => Stable.pure _
    · exact Stable.fail

theorem stable_point : Stable loadPoint :=
  Stable.object _ ((Stable.nat _).bind fun _ => (Stable.nat _).bind fun _ =>
    (Stable.object _ stable_shared).bind fun _ => Stable.pure _)

theorem stable_trace : Stable loadTrace :=
  Stable.object _ ((Stable.nat _).bind fun _ => (Stable.nat _).bind fun _ => (Stable.nat _).bind fun _ =>
    (stable_point.list _).bind fun _ => (Stable.str.list _).bind fun _ => (stable_type.list _).bind fun _ => Stable.pure _)

theorem stable_header : Stable loadHeader :=
  Stable.str.bind fun _ => (Stable.nat _).bind fun _ => by
    split
    · exact Stable.pure _
    · exact Stable.fail

/-! Nothing comes after the end -/

theorem Needs.nat (max : Nat) : Needs (loadNat max) := fun a => by simp [loadNat, afterSign]

theorem Needs.str : Needs loadStr := fun a => by
  unfold loadStr
  rw [Needs.nat]
  rfl

theorem Needs.bind {α β : Type} {l : Load α} (f : α → Load β) (h : Needs l) : Needs (l >>= f) := fun a => by
  cases hz : (l >>= f) ⟨[], a⟩ with
  | none => rfl
  | some r =>
    obtain ⟨x, s, h1, _⟩ := bind_some hz
    rw [h a] at h1
    cases h1

theorem Needs.later {α β : Type} {l : Load α} {f : α → Load β} (hl : Stable l) (h : ∀ x, Needs (f x)) :
    Needs (l >>= f) := fun a => by
  cases hz : (l >>= f) ⟨[], a⟩ with
  | none => rfl
  | some r =>
    obtain ⟨x, s, h1, h2⟩ := bind_some hz
    have := List.suffix_nil.mp (hl _ _ _ _ h1).1
    obtain ⟨rest, arch⟩ := s
    simp only at this
    subst this
    rw [h x arch] at h2
    cases h2

theorem Needs.list {α : Type} {l : Load α} (h : Needs l) {n : Nat} (hn : n ≠ 0) : Needs (loadList l n) := by
  cases n with
  | zero => exact absurd rfl hn
  | succ n => exact h.bind _

theorem Needs.object {α : Type} {l : Load α} (c : Cls) (h : Needs l) : Needs (loadObject c l) := fun a => by
  unfold loadObject
  split
  · exact h a
  · exact (Needs.nat _).bind _ _

theorem needs_type : Needs loadType := Needs.object _ ((Needs.nat _).bind _)

theorem needs_trace : Needs loadTrace := Needs.object _ ((Needs.nat _).bind _)

theorem needs_traces : Needs loadTraces := Needs.object _ ((Needs.nat _).bind _)

/-! Where a text can be cut -/

/-- Loading the beginning of a text uses it up. -/
theorem cut_rest {α : Type} {s : Save} {l : Load α} {x : α} {d : List Body} (h : Loads s l x d) (hs : Stable l)
    {st : ArchState} (hl : (addAll st.items d).length < 2 ^ 64) {P Q : List U8} (e : toksText (s st).1 = P ++ Q)
    {y : α} {r : LoadState} (hp : l ⟨P, st⟩ = some (y, r)) : r.rest = [] := by
  obtain ⟨_, h2⟩ := h st
  have h3 := h2 [] (.inl rfl) hl
  rw [List.append_nil, e] at h3
  by_cases hr : r.rest = []
  · exact hr
  · have := (hs P st y r hp).2 hr Q
    rw [h3] at this
    simp only [Option.some.injEq, Prod.mk.injEq, LoadState.mk.injEq] at this
    have := this.2.1
    simp at this
    exact absurd this.1 hr

/-- The text is `pre ++ tail`.  Without all of `pre` nothing is loaded; with `pre` and
`P` (a separator or nothing comes first) the result is `k P`. -/
structure EndsIn {α : Type} (s : Save) (l : Load α) (st : ArchState) (pre tail : List U8) (k : List U8 → Option α) : Prop where
  text : toksText (s st).1 = pre ++ tail
  full : ∀ P, Sep P → (l ⟨pre ++ P, st⟩).map (·.1) = k P
  less : ∀ P Q, pre = P ++ Q → Q ≠ [] → l ⟨P, st⟩ = none
  sep : Sep tail

theorem EndsIn.start {α : Type} (s : Save) (l : Load α) (st : ArchState) :
    EndsIn s l st [] (toksText (s st).1) (fun P => (l ⟨P, st⟩).map (·.1)) :=
  ⟨rfl, fun _ _ => rfl, fun P Q e hQ => absurd (List.append_eq_nil_iff.mp e.symm).2 hQ,
    by have := toksText_sep (s st).1 (rest := []) (.inl rfl); rwa [List.append_nil] at this⟩

theorem bind_none {α β : Type} {l : Load α} (f : α → Load β) {st : LoadState} (h : l st = none) : (l >>= f) st = none := by
  show Load.bind l f st = none
  unfold Load.bind
  rw [h]

theorem sep_of_text {ts : List Tok} {P Q : List U8} (e : toksText ts = P ++ Q) : Sep P := by
  have := toksText_sep ts (rest := []) (.inl rfl)
  rw [List.append_nil, e] at this
  cases P with
  | nil => exact .inl rfl
  | cons c P =>
    rcases this with h | ⟨r, h⟩
    · cases h
    · cases h
      exact .inr ⟨_, rfl⟩

/-- In a sequence, the cut is in the second part if the second part cannot be loaded from
nothing. -/
theorem EndsIn.seq {α β : Type} {a b : Save} {la : Load α} {f : α → Load β} {x : α} {d : List Body} (ha : Loads a la x d)
    (hs : Stable la) {st : ArchState} (hl : (addAll st.items d).length < 2 ^ 64) {pre tail : List U8}
    {k : List U8 → Option β} (hb : EndsIn b (f x) (a st).2 pre tail k)
    (hneeds : ∀ x' P0 Q0 r0, toksText (a st).1 = P0 ++ Q0 → la ⟨P0, st⟩ = some (x', r0) → Needs (f x')) :
    EndsIn (a.seq b) (la >>= f) st (toksText (a st).1 ++ pre) tail k := by
  have hseppre : ∀ P R, pre = P ++ R → Sep P := fun P R e =>
    sep_of_text (ts := (b (a st).2).1) (Q := R ++ tail) (by rw [hb.text, e, List.append_assoc])
  have hload : ∀ P, Sep P → la ⟨toksText (a st).1 ++ P, st⟩ = some (x, ⟨P, (a st).2⟩) := fun P hP => (ha st).2 P hP hl
  refine ⟨?_, fun P hP => ?_, fun P Q e hQ => ?_, hb.sep⟩
  · show toksText ((a st).1 ++ (b (a st).2).1) = _
    rw [toksText_append, hb.text, List.append_assoc]
  · rw [List.append_assoc, bind_of (hload _ ?_)]
    · exact hb.full P hP
    · rcases hseppre pre [] (by simp) with h | ⟨r, h⟩
      · rw [h]; exact hP
      · exact .inr ⟨r ++ P, by rw [h]; rfl⟩
  · rcases List.append_eq_append_iff.mp e with ⟨P', e1, e2⟩ | ⟨R, e1, e2⟩
    · rw [e1, bind_of (hload _ (hseppre _ _ e2))]
      exact hb.less P' Q e2 hQ
    · cases h1 : la ⟨P, st⟩ with
      | none => exact bind_none _ h1
      | some r =>
        have h3 := cut_rest ha hs hl e1 h1
        have h4 := hneeds r.1 P R r.2 e1 h1 r.2.arch
        rw [bind_of h1]
        obtain ⟨y, rest, arch⟩ := r
        simp only at h3 h4
        rw [h3]
        exact h4

theorem EndsIn.seq' {α β : Type} {a b : Save} {la : Load α} {f : α → Load β} {x : α} {d : List Body} (ha : Loads a la x d)
    (hs : Stable la) {st : ArchState} (hl : (addAll st.items d).length < 2 ^ 64) {pre tail : List U8}
    {k : List U8 → Option β} (hb : EndsIn b (f x) (a st).2 pre tail k) (hneeds : ∀ x', Needs (f x')) :
    EndsIn (a.seq b) (la >>= f) st (toksText (a st).1 ++ pre) tail k :=
  EndsIn.seq ha hs hl hb fun x' _ _ _ _ _ => hneeds x'

theorem EndsIn.map {α β : Type} {s : Save} {l : Load α} {st : ArchState} {pre tail : List U8} {k : List U8 → Option α}
    (h : EndsIn s l st pre tail k) (g : α → β) :
    EndsIn s (l >>= fun x => Pure.pure (g x)) st pre tail (fun P => (k P).map g) := by
  refine ⟨h.text, fun P hP => ?_, fun P Q e hQ => bind_none _ (h.less P Q e hQ), h.sep⟩
  have := h.full P hP
  rw [← this]
  cases hl : l ⟨pre ++ P, st⟩ with
  | none => rw [bind_none _ hl]; rfl
  | some r => rw [bind_of (s1 := r.2) hl]; rfl

/-- What follows an empty list. -/
theorem EndsIn.nil {α : Type} {s : Save} {l : Load α} {st : ArchState} {pre tail : List U8} {k : List U8 → Option α}
    (h : EndsIn s l st pre tail k) : EndsIn (s.seq Save.nil) l st pre tail k :=
  ⟨by show toksText ((s st).1 ++ []) = _; rw [List.append_nil, h.text], h.full, h.less, h.sep⟩

/-- In a list, the cut is in the last element. -/
theorem EndsIn.list {α β : Type} {f : α → Save} {lf : Load β} {g : α → β} {w : α → List Body} (hs : Stable lf) (hn : Needs lf)
    (last : α) {tail : List U8} {k : List U8 → Option β} : ∀ (as : List α), (∀ a ∈ as, Loads (f a) lf (g a) (w a)) →
    ∀ (st : ArchState), (addAll st.items (as.flatMap w)).length < 2 ^ 64 → ∀ (pre : List U8),
    EndsIn (f last) lf (saveList f as st).2 pre tail k →
    EndsIn (saveList f (as ++ [last])) (loadList lf (as.length + 1)) st (toksText (saveList f as st).1 ++ pre) tail
      (fun P => (k P).map fun y => as.map g ++ [y])
  | [], _, st, _, pre, h => by
    refine (h.map (fun y => [y])).nil
  | a :: as, hall, st, hl, pre, h => by
    have ha := hall a (List.mem_cons_self ..)
    rw [List.flatMap_cons, addAll_append] at hl
    have ih := EndsIn.list hs hn last as (fun b hb => hall b (List.mem_cons_of_mem _ hb)) (f a st).2
      (by rw [(ha st).1]; exact hl) pre h
    have := EndsIn.seq' (f := fun x => loadList lf (as.length + 1) >>= fun ys => Pure.pure (x :: ys)) ha hs
      (Nat.lt_of_le_of_lt (addAll_length _ _) hl) (ih.map (fun ys => g a :: ys))
      (fun _ => (hn.list (Nat.succ_ne_zero _)).bind _)
    have e : toksText (f a st).1 ++ (toksText (saveList f as (f a st).2).1 ++ pre) =
        toksText (saveList f (a :: as) st).1 ++ pre := by
      rw [← List.append_assoc, ← toksText_append]; rfl
    rw [e] at this
    have e2 : (fun P => ((k P).map fun y => as.map g ++ [y]).map fun ys => g a :: ys) =
        fun P => (k P).map fun y => (a :: as).map g ++ [y] := by
      funext P; rw [Option.map_map]; rfl
    rw [e2] at this
    exact this

/-- The class information before an object. -/
def objToks (c : Cls) (st : ArchState) : List Tok := if c ∈ st.seen then [] else [.num 0, .num 0]

/-- The state after the class information. -/
def objState (c : Cls) (st : ArchState) : ArchState := if c ∈ st.seen then st else { st with seen := c :: st.seen }

theorem objState_items (c : Cls) (st : ArchState) : (objState c st).items = st.items := by
  unfold objState; split <;> rfl

theorem EndsIn.object {α : Type} {s : Save} {l : Load α} (c : Cls) (hn : Needs l) {st : ArchState} {pre tail : List U8}
    {k : List U8 → Option α} (hl : st.items.length < 2 ^ 64) (h : EndsIn s l (objState c st) pre tail k) :
    EndsIn (saveObject c s) (loadObject c l) st (toksText (objToks c st) ++ pre) tail k := by
  by_cases hc : c ∈ st.seen
  · have e1 : objState c st = st := by unfold objState; rw [if_pos hc]
    have e2 : objToks c st = [] := by unfold objToks; rw [if_pos hc]
    rw [e1] at h
    rw [e2]
    refine ⟨?_, fun P hP => ?_, fun P Q e hQ => ?_, h.sep⟩
    · unfold saveObject; rw [if_pos hc]; exact h.text
    · unfold loadObject; simp only [hc, if_true]; exact h.full P hP
    · unfold loadObject; simp only [hc, if_true]; exact h.less P Q e hQ
  · have e1 : objState c st = { st with seen := c :: st.seen } := by unfold objState; rw [if_neg hc]
    have e2 : objToks c st = [.num 0, .num 0] := by unfold objToks; rw [if_neg hc]
    rw [e1] at h
    have h1 := EndsIn.seq' (Loads.nat (n := 0) (max := 2 ^ 32 - 1) (by decide)) (Stable.nat _)
      (f := fun _ => l) (st := { st with seen := c :: st.seen }) hl h (fun _ => hn)
    have h2 := EndsIn.seq' (Loads.nat (n := 0) (max := 1) (by decide)) (Stable.nat _)
      (f := fun _ => loadNat (2 ^ 32 - 1) >>= fun _ => l) (st := { st with seen := c :: st.seen }) hl h1
      (fun _ => (Needs.nat _).bind _)
    have e3 : toksText (objToks c st) ++ pre = toksText (saveNat 0 { st with seen := c :: st.seen }).1 ++
        (toksText (saveNat 0 { st with seen := c :: st.seen }).1 ++ pre) := by
      rw [e2, ← List.append_assoc, ← toksText_append]; rfl
    rw [e3]
    refine ⟨?_, fun P hP => ?_, fun P Q e hQ => ?_, h.sep⟩
    · rw [← h2.text]; unfold saveObject; rw [if_neg hc]; rfl
    · unfold loadObject; simp only [hc, if_false]; exact h2.full P hP
    · unfold loadObject; simp only [hc, if_false]; exact h2.less P Q e hQ

/-! Cut numbers -/

theorem decimalAux_acc' (fuel n : Nat) (acc : List U8) : decimalAux fuel n acc = decimalAux fuel n [] ++ acc := by
  induction fuel generalizing n acc with
  | zero => rfl
  | succ fuel ih =>
    simp only [decimalAux]
    split
    · rfl
    · rw [ih, ih (n / 10) [digitChar (n % 10)]]; simp

theorem decimalAux_fuel (fuel fuel' n : Nat) (acc : List U8) (h : n < fuel) (h' : n < fuel') :
    decimalAux fuel n acc = decimalAux fuel' n acc := by
  induction fuel generalizing fuel' n acc with
  | zero => omega
  | succ fuel ih =>
    cases fuel' with
    | zero => omega
    | succ fuel' =>
      simp only [decimalAux]
      split
      · rfl
      · exact ih fuel' (n / 10) _ (by omega) (by omega)

theorem decimalAux_acc (fuel fuel' n : Nat) (acc : List U8) (h : n < fuel) (h' : n < fuel') :
    decimalAux fuel n acc = decimalAux fuel' n [] ++ acc := by
  rw [decimalAux_acc', decimalAux_fuel fuel fuel' n [] h h']

theorem decimal_small {n : Nat} (h : n < 10) : decimal n = [digitChar n] := by
  simp [decimal, decimalAux, h]

theorem decimal_step {n : Nat} (h : 10 ≤ n) : decimal n = decimal (n / 10) ++ [digitChar (n % 10)] := by
  unfold decimal
  rw [decimalAux, if_neg (by omega), decimalAux_acc n (n / 10 + 1) _ _ (by omega) (by omega)]

theorem decimal_long (n k : Nat) (h : 10 ^ k ≤ n) : k < (decimal n).length := by
  induction k generalizing n with
  | zero => exact List.length_pos_iff.mpr (decimal_ne_nil n)
  | succ k ih =>
    have h10 : 10 ≤ n := Nat.le_trans (Nat.le_self_pow (Nat.succ_ne_zero k) 10) h
    rw [decimal_step h10, List.length_append]
    have := ih (n / 10) (by rw [Nat.le_div_iff_mul_le (by omega)]; rw [Nat.pow_succ] at h; exact h)
    simp; omega

theorem decimal_prefix (m : Nat) : ∀ (n : Nat) (d1 d2 : List U8), d2.length = m → decimal n = d1 ++ d2 → d1 ≠ [] →
    d1 = decimal (n / 10 ^ m) ∧ (d2 ≠ [] → 10 ^ m ≤ n) := by
  induction m with
  | zero =>
    intro n d1 d2 hm e h1
    have := List.length_eq_zero_iff.mp hm
    subst this
    exact ⟨by simpa using e.symm, fun h => absurd rfl h⟩
  | succ m ih =>
    intro n d1 d2 hm e h1
    have hne : d2 ≠ [] := fun e => by rw [e] at hm; cases hm
    rcases Nat.lt_or_ge n 10 with hn | hn
    · rw [decimal_small hn] at e
      have := congrArg List.length e
      rw [List.length_append, hm] at this
      have := List.length_pos_iff.mpr h1
      simp at *
      omega
    · obtain ⟨d, c, hd⟩ : ∃ d c, d2 = d ++ [c] := ⟨d2.dropLast, d2.getLast hne, (List.dropLast_concat_getLast hne).symm⟩
      subst hd
      rw [decimal_step hn, ← List.append_assoc] at e
      have e' := (List.append_inj' e rfl).1
      have hdm : d.length = m := by simpa using hm
      obtain ⟨g1, g2⟩ := ih (n / 10) d1 d hdm e' h1
      refine ⟨by rw [g1, Nat.div_div_eq_div_mul, Nat.pow_succ, Nat.mul_comm], fun _ => ?_⟩
      rw [Nat.pow_succ]
      by_cases hd : d = []
      · subst hd; rw [← hdm]; simpa using hn
      · have := g2 hd
        rwa [Nat.le_div_iff_mul_le (by omega)] at this

/-- A number of which the end is missing. -/
theorem nat_cut {n max : Nat} (hn : n ≤ max) {P Q : List U8} (e : 32 :: decimal n = P ++ Q) (a : ArchState) :
    loadNat max ⟨P, a⟩ = if Q = [] ∨ 10 ^ Q.length ≤ n then some (n / 10 ^ Q.length, ⟨[], a⟩) else none := by
  cases P with
  | nil =>
    have hlen := congrArg List.length e
    simp at hlen
    rw [if_neg, Needs.nat]
    rintro (h | h)
    · rw [h] at hlen; simp at hlen
    · have := decimal_long _ _ h; omega
  | cons c d1 =>
    rw [List.cons_append] at e
    have e0 := (List.cons.inj e).2
    have ec := (List.cons.inj e).1
    subst ec
    clear e
    have e := e0
    by_cases h1 : d1 = []
    · subst h1
      simp only [List.nil_append] at e
      rw [if_neg]
      · unfold loadNat; simp [isSpace, afterSign]
      · rintro (h | h)
        · rw [h] at e; exact decimal_ne_nil _ e
        · have := decimal_long _ _ h; rw [e] at this; omega
    · obtain ⟨g1, g2⟩ := decimal_prefix _ n d1 Q rfl e h1
      have hle : n / 10 ^ Q.length ≤ max := Nat.le_trans (Nat.div_le_self _ _) hn
      have := loadNat_text (n / 10 ^ Q.length) max hle [] (.inl rfl) a
      rw [List.append_nil, ← g1] at this
      rw [this, if_pos]
      by_cases h : Q = []
      · exact .inl h
      · exact .inr (g2 h)

/-- A cut count is not zero. -/
theorem count_cut {n max : Nat} (hn : n ≤ max) (h0 : n ≠ 0) (st : ArchState) (x' : Nat) (P0 Q0 : List U8) (r0 : LoadState)
    (e : toksText (saveNat n st).1 = P0 ++ Q0) (h : loadNat max ⟨P0, st⟩ = some (x', r0)) : x' ≠ 0 := by
  have e' : 32 :: decimal n = P0 ++ Q0 := by rw [← e]; simp [saveNat, toksText, tokText, intText]
  rw [nat_cut hn e'] at h
  split at h
  · next hc =>
    cases h
    rcases hc with rfl | hc
    · simpa using h0
    · have := Nat.div_pos hc (Nat.pow_pos (by decide : 0 < 10)); omega
  · cases h


/-! The last type, name and point -/

theorem natToks (n : Nat) (st : ArchState) : toksText (saveNat n st).1 = 32 :: decimal n := by
  simp [saveNat, toksText, tokText, intText]

theorem endsIn_type (ty : TypeDesc) (st : ArchState) (hl : st.items.length < 2 ^ 64) :
    ∃ pre k, EndsIn (saveType ty) loadType st pre (32 :: decimal ty.size.toNat) k ∧
      ∀ P Q, 32 :: decimal ty.size.toNat = P ++ Q → Q ≠ [] → k P = ty.without Q.length := by
  have hl' : (objState .typeDesc st).items.length < 2 ^ 64 := by rw [objState_items]; exact hl
  have h := EndsIn.object (st := st) .typeDesc ((Needs.nat _).bind _) hl
    (EndsIn.seq' (Loads.nat (u32_le ty.nameIndex)) (Stable.nat _) (st := objState .typeDesc st) hl'
      (f := fun n => loadNat (2 ^ 31 - 1) >>= fun f => loadNat (2 ^ 32 - 1) >>= fun s =>
        pure (⟨BitVec.ofNat 32 n, TypeFormat.ofCode f, BitVec.ofNat 32 s⟩ : TypeDesc))
      (EndsIn.seq' (Loads.nat (code_le ty.format)) (Stable.nat _) hl'
        ((EndsIn.start (saveNat ty.size.toNat) (loadNat (2 ^ 32 - 1)) _).map _) (fun _ => (Needs.nat _).bind _))
      (fun _ => (Needs.nat _).bind _))
  rw [natToks ty.size.toNat] at h
  refine ⟨_, _, h, fun P Q e hQ => ?_⟩
  simp only [nat_cut (u32_le ty.size) e, hQ, false_or, TypeDesc.without]
  split <;> simp [ofCode_code]

theorem str_cut (s : Name) (hs : s.length ≤ 2 ^ 64 - 1) {P Q : List U8} (e : tokText (.str s) = P ++ Q) (hQ : Q ≠ [])
    (a : ArchState) : (loadStr ⟨P, a⟩).map (·.1) = s.without Q.length := by
  have hQ0 : 0 < Q.length := List.length_pos_iff.mpr hQ
  have e : (32 :: decimal s.length) ++ (32 :: s) = P ++ Q := by rw [← e]; simp [tokText]
  rcases List.append_eq_append_iff.mp e with ⟨P', e1, e2⟩ | ⟨R, e1, e2⟩
  · cases P' with
    | nil =>
      simp only [List.append_nil] at e1
      simp only [List.nil_append] at e2
      unfold loadStr
      rw [e1, nat_cut (Q := []) hs (by simp), ← e2]
      simp [Name.without]
    | cons c P' =>
      rw [List.cons_append] at e2
      have hc := (List.cons.inj e2).1
      replace e2 := (List.cons.inj e2).2
      subst hc
      have hlen := congrArg List.length e2
      rw [List.length_append] at hlen
      unfold loadStr
      rw [e1, loadNat_text s.length _ hs _ (.inr ⟨_, rfl⟩)]
      have h1 : P'.take s.length = P' := List.take_of_length_le (by omega)
      have h2 : s.take (s.length - Q.length) = P' := by
        rw [show s.length - Q.length = P'.length by omega]
        rw [e2]; simp
      have h3 : s.length - P'.length = Q.length := by omega
      unfold Name.without
      rw [if_pos (by omega), h2]
      simp [h1, h3]
  · have hR : Q = R ++ 32 :: s := e2
    have hlen : Q.length = R.length + s.length + 1 := by rw [hR]; simp; omega
    unfold loadStr
    rw [nat_cut hs e1, Name.without, if_neg (show ¬ Q.length ≤ s.length by omega)]
    by_cases hR0 : R = []
    · subst hR0
      simp at hlen
      rw [if_pos hlen]
      simp
    · have : R.length ≠ 0 := fun h => hR0 (List.length_eq_zero_iff.mp h)
      rw [if_neg (show ¬ Q.length = s.length + 1 by omega), show Q.length - s.length - 1 = R.length by omega]
      simp only [hR0, false_or]
      split <;> simp

theorem name_long (s : Name) (m : Nat) (h : (tokText (.str s)).length ≤ m) : s.without m = none := by
  have hl : (tokText (.str s)).length = (decimal s.length).length + s.length + 2 := by simp [tokText]; omega
  unfold Name.without
  rw [if_neg (by omega), if_neg (by omega), if_neg]
  intro h'
  have := decimal_long _ _ h'
  omega

theorem type_long (ty : TypeDesc) (m : Nat) (h : (decimal ty.size.toNat).length ≤ m) : ty.without m = none := by
  unfold TypeDesc.without
  rw [if_neg]
  intro h'
  have := decimal_long _ _ h'
  omega

/-! The last trace -/

/-- What `Trace::load` reads after the counts. -/
def loadRest (np nn nt : Nat) : Load Trace :=
  loadList loadPoint np >>= fun ps => loadList loadStr nn >>= fun ns => loadList loadType nt >>= fun ts =>
    pure (⟨ns, ts, ps⟩ : Trace)

/-- What `Trace::save` writes after the counts. -/
def saveRest (t : Trace) : Save :=
  (saveList savePoint t.points).seq ((saveList (fun n st => ([.str n], st)) t.names).seq (saveList saveType t.types))

theorem needs_point : Needs loadPoint := Needs.object _ ((Needs.nat _).bind _)

theorem needs_rest {np nn nt : Nat} (h : np ≠ 0 ∨ nn ≠ 0 ∨ nt ≠ 0) : Needs (loadRest np nn nt) := by
  unfold loadRest
  by_cases h1 : np = 0
  · refine Needs.later (stable_point.list _) fun _ => ?_
    by_cases h2 : nn = 0
    · refine Needs.later (Stable.str.list _) fun _ => ?_
      have h3 : nt ≠ 0 := by
        rcases h with h | h | h
        · exact absurd h1 h
        · exact absurd h2 h
        · exact h
      exact (needs_type.list h3).bind _
    · exact (Needs.str.list h2).bind _
  · exact (needs_point.list h1).bind _

theorem endsIn_trace (t : Trace) (ht : t.Fits) (st : ArchState) (hl : st.items.length < 2 ^ 64) {pre tail : List U8}
    {k : List U8 → Option Trace}
    (h : EndsIn (saveRest t) (loadRest t.points.length t.names.length t.types.length) (objState .trace st) pre tail k)
    (hne : t.points ≠ [] ∨ t.names ≠ [] ∨ t.types ≠ []) : ∃ pre', EndsIn (saveTrace t) loadTrace st pre' tail k := by
  obtain ⟨hp, hn, ht, _, _⟩ := ht
  have hl' : (objState .trace st).items.length < 2 ^ 64 := by rw [objState_items]; exact hl
  have h1 := EndsIn.object (st := st) .trace ((Needs.nat _).bind _) hl
    (EndsIn.seq' (Loads.nat (show t.points.length ≤ 2 ^ 64 - 1 by omega)) (Stable.nat _) (st := objState .trace st) hl'
      (f := fun np => loadNat (2 ^ 32 - 1) >>= fun nn => loadNat (2 ^ 32 - 1) >>= fun nt => loadRest np nn nt)
      (EndsIn.seq' (Loads.nat (show t.names.length ≤ 2 ^ 32 - 1 by omega)) (Stable.nat _) hl'
        (EndsIn.seq (Loads.nat (show t.types.length ≤ 2 ^ 32 - 1 by omega)) (Stable.nat _) hl' h
          (fun x' P0 Q0 r0 e hx => needs_rest ?_)) (fun _ => (Needs.nat _).bind _))
      (fun _ => (Needs.nat _).bind _))
  · rw [← Nat.mod_eq_of_lt hp, ← Nat.mod_eq_of_lt hn, ← Nat.mod_eq_of_lt ht] at h1
    exact ⟨_, h1⟩
  · rcases hne with h | h | h
    · exact .inl fun e => h (List.length_eq_zero_iff.mp e)
    · exact .inr (.inl fun e => h (List.length_eq_zero_iff.mp e))
    · exact .inr (.inr (count_cut (by omega) (fun e' => h (List.length_eq_zero_iff.mp e')) _ _ _ _ _ e hx))

theorem loads_points (t : Trace) (ht : t.Fits) :
    Loads (saveList savePoint t.points) (loadList loadPoint t.points.length) t.points (t.points.map Point.body) := by
  have := Loads.list (g := fun p => p) fun p hp => loads_point p (ht.body p hp)
  simpa [List.flatMap_singleton', List.map_eq_flatMap] using this

theorem loads_names (t : Trace) (ht : t.Fits) :
    Loads (saveList (fun n st => ([.str n], st)) t.names) (loadList loadStr t.names.length) t.names [] := by
  have := Loads.list0 (f := fun (n : Name) st => ([Tok.str n], st)) (g := fun n => n) (as := t.names) fun n hn => Loads.str n (by have := ht.name n hn; omega)
  simpa using this

/-- A last trace with types. -/
theorem endsIn_types (names : List Name) (tys : List TypeDesc) (ty : TypeDesc) (points : List Point)
    (ht : Trace.Fits ⟨names, tys ++ [ty], points⟩) (st : ArchState)
    (hl : (addAll st.items (points.map Point.body)).length < 2 ^ 64) :
    ∃ pre k, EndsIn (saveTrace ⟨names, tys ++ [ty], points⟩) loadTrace st pre (32 :: decimal ty.size.toNat) k ∧
      ∀ P Q, 32 :: decimal ty.size.toNat = P ++ Q → Q ≠ [] →
        k P = (ty.without Q.length).map fun ty' => ⟨names, tys ++ [ty'], points⟩ := by
  have hp := loads_points _ ht
  have hn := loads_names _ ht
  simp only at hp hn
  let s1 := objState .trace st
  let s2 := (saveList savePoint points s1).2
  let s3 := (saveList (fun n st => ([.str n], st)) names s2).2
  have e1 : s1.items = st.items := objState_items _ _
  have e2 : s2.items = addAll st.items (points.map Point.body) := by rw [← e1]; exact (hp s1).1
  have e3 : s3.items = addAll st.items (points.map Point.body) := by rw [← e2]; exact (hn s2).1
  have e4 : ∀ s, (saveList saveType tys s).2.items = s.items := fun s =>
    (Loads.list0 (as := tys) (g := fun t => t) (fun t _ => loads_type t) s).1
  obtain ⟨pre, k, h, hk⟩ := endsIn_type ty (saveList saveType tys s3).2 (by rw [e4, e3]; exact hl)
  have h1 := EndsIn.list (g := fun t => t) (w := fun _ => []) stable_type needs_type ty tys (fun t _ => loads_type t) s3
    (by rw [e3, show tys.flatMap (fun _ => ([] : List Body)) = [] by simp]; exact hl) pre h
  have hlen : (tys ++ [ty]).length = tys.length + 1 := by simp
  have h2 := EndsIn.seq' hp (stable_point.list _) (st := s1) (by rw [e1]; exact hl)
    (f := fun ps => loadList loadStr names.length >>= fun ns => loadList loadType (tys.length + 1) >>= fun ts =>
      pure (⟨ns, ts, ps⟩ : Trace))
    (EndsIn.seq' hn (Stable.str.list _) (st := s2) (by rw [e2]; exact hl)
      (f := fun ns => loadList loadType (tys.length + 1) >>= fun ts => pure (⟨ns, ts, points⟩ : Trace))
      (h1.map fun ts => (⟨names, ts, points⟩ : Trace)) (fun _ => (needs_type.list (Nat.succ_ne_zero _)).bind _))
    (fun _ => Needs.later (Stable.str.list _) fun _ => (needs_type.list (Nat.succ_ne_zero _)).bind _)
  obtain ⟨pre', h3⟩ := endsIn_trace ⟨names, tys ++ [ty], points⟩ ht st (Nat.lt_of_le_of_lt (addAll_length _ _) hl)
    (by rw [hlen]; exact h2) (.inr (.inr (by simp)))
  refine ⟨pre', _, h3, fun P Q e hQ => ?_⟩
  simp only [hk P Q e hQ, Option.map_map, List.map_id']
  rfl

/-- A last trace with names and no types. -/
theorem endsIn_names (names : List Name) (name : Name) (points : List Point)
    (ht : Trace.Fits ⟨names ++ [name], [], points⟩) (st : ArchState)
    (hl : (addAll st.items (points.map Point.body)).length < 2 ^ 64) :
    ∃ pre k, EndsIn (saveTrace ⟨names ++ [name], [], points⟩) loadTrace st pre (tokText (.str name)) k ∧
      ∀ P Q, tokText (.str name) = P ++ Q → Q ≠ [] →
        k P = (name.without Q.length).map fun name' => ⟨names ++ [name'], [], points⟩ := by
  have hp := loads_points _ ht
  simp only at hp
  let s1 := objState .trace st
  let s2 := (saveList savePoint points s1).2
  have e1 : s1.items = st.items := objState_items _ _
  have e2 : s2.items = addAll st.items (points.map Point.body) := by rw [← e1]; exact (hp s1).1
  have hname : ∀ n ∈ names, Loads (fun st => ([.str n], st)) loadStr n [] := fun n hn =>
    Loads.str n (by have := ht.name n (List.mem_append_left _ hn); omega)
  have hs : name.length ≤ 2 ^ 64 - 1 := by have := ht.name name (by simp); omega
  have h := EndsIn.start (fun st => ([.str name], st)) loadStr (saveList (fun n st => ([.str n], st)) names s2).2
  have h1 := EndsIn.list (f := fun n st => ([.str n], st)) (g := fun t => t) (w := fun _ => []) Stable.str Needs.str name names hname s2
    (by rw [e2, show names.flatMap (fun _ => ([] : List Body)) = [] by simp]; exact hl) [] h
  have hlen : (names ++ [name]).length = names.length + 1 := by simp
  have h2 := EndsIn.seq' hp (stable_point.list _) (st := s1) (by rw [e1]; exact hl)
    (f := fun ps => loadList loadStr (names.length + 1) >>= fun ns => loadList loadType 0 >>= fun ts =>
      pure (⟨ns, ts, ps⟩ : Trace))
    ((h1.map fun ns => (⟨ns, [], points⟩ : Trace)).nil)
    (fun _ => (Needs.str.list (Nat.succ_ne_zero _)).bind _)
  obtain ⟨pre', h3⟩ := endsIn_trace ⟨names ++ [name], [], points⟩ ht st (Nat.lt_of_le_of_lt (addAll_length _ _) hl)
    (by rw [hlen]; exact h2) (.inr (.inl (by simp)))
  have e5 : ∀ s, toksText ((fun st => ([Tok.str name], st)) s : List Tok × ArchState).1 = tokText (.str name) := by
    intro s; simp [toksText]
  refine ⟨pre', _, by rw [← e5]; exact h3, fun P Q e hQ => ?_⟩
  simp only [str_cut name hs e hQ, Option.map_map, List.map_id']
  rfl

/-- A last trace with points only. -/
theorem endsIn_points (points : List Point) (p : Point) (ht : Trace.Fits ⟨[], [], points ++ [p]⟩) (st : ArchState)
    (hl : (addAll st.items ((points ++ [p]).map Point.body)).length < 2 ^ 64) :
    ∃ pre tail k, EndsIn (saveTrace ⟨[], [], points ++ [p]⟩) loadTrace st pre tail k ∧
      ∀ P t, k P = some t → ∃ d, t = ⟨[], [], points ++ [p.withBody d]⟩ := by
  let s1 := objState .trace st
  have e1 : s1.items = st.items := objState_items _ _
  have hp : ∀ q ∈ points, Loads (savePoint q) loadPoint q [q.body] := fun q hq =>
    loads_point q (ht.body q (List.mem_append_left _ hq))
  have hb : points.flatMap (fun q => [q.body]) = points.map Point.body := by
    rw [List.map_eq_flatMap]
  have hl1 : (addAll st.items (points.map Point.body)).length < 2 ^ 64 := by
    rw [List.map_append, addAll_append] at hl
    exact Nat.lt_of_le_of_lt (addAll_length _ _) hl
  let s2 := (saveList savePoint points s1).2
  have e2 : s2.items = addAll st.items (points.map Point.body) := by
    rw [← e1, ← hb]; exact (Loads.list (g := fun q => q) hp s1).1
  have hl2 : s2.items.length < 2 ^ 64 := by rw [e2]; exact hl1
  have hl3 : (objState .tracePoint s2).items.length < 2 ^ 64 := by rw [objState_items]; exact hl2
  have h := EndsIn.object (st := s2) .tracePoint ((Needs.nat _).bind _) hl2
    (EndsIn.seq' (Loads.nat (u64_le p.counter)) (Stable.nat _) (st := objState .tracePoint s2) hl3
      (f := fun c => loadNat (2 ^ 64 - 1) >>= fun s => loadObject .flyweight loadShared >>= fun d =>
        pure (⟨BitVec.ofNat 64 c, BitVec.ofNat 64 s, d.sizes, d.vars, d.aux⟩ : Point))
      (EndsIn.seq' (Loads.nat (u64_le p.statement)) (Stable.nat _) hl3
        ((EndsIn.start (saveObject .flyweight (saveShared p.body)) (loadObject .flyweight loadShared) _).map _)
        (fun _ => (Needs.object _ fun a => ?_).bind _))
      (fun _ => (Needs.nat _).bind _))
  · have h1 := EndsIn.list (g := fun q => q) stable_point needs_point p points hp s1
      (by rw [hb, e1]; exact hl1) _ h
    have hlen : (points ++ [p]).length = points.length + 1 := by simp
    have h2 := (h1.map fun ps => (⟨[], [], ps⟩ : Trace)).nil
    obtain ⟨pre', h3⟩ := endsIn_trace ⟨[], [], points ++ [p]⟩ ht st
      (Nat.lt_of_le_of_lt (addAll_length _ _) hl1) (by rw [hlen]; exact h2) (.inl (by simp))
    refine ⟨pre', _, _, h3, fun P t hk => ?_⟩
    simp only [Option.map_map, List.map_id'] at hk
    obtain ⟨y, _, hy⟩ := Option.map_eq_some_iff.mp hk
    refine ⟨y.1, hy ▸ ?_⟩
    simp [Point.withBody]
  · exact (Needs.nat _).bind _ a


/-! The whole text -/

/-- The state in which the last trace is written. -/
def lastState (ts : List Trace) : ArchState := (saveList saveTrace ts (objState .traceDB .init)).2

theorem lastState_items (ts : List Trace) (h : ∀ t ∈ ts, t.Fits) :
    (lastState ts).items = addAll [] (ts.flatMap fun t => t.points.map Point.body) :=
  (Loads.list (g := fun t => t) (fun t ht => loads_trace t (h t ht)) (objState .traceDB .init)).1

/-- What is loaded from a text. -/
def loaded (P : List U8) : Option (List Trace) :=
  ((do loadHeader; loadTraces : Load (List Trace)) ⟨P, .init⟩).map (·.1)

theorem loaded_space (P : List U8) : loaded (32 :: P) = loaded P := by
  have : ∀ (f : Unit → Load (List Trace)), (loadHeader >>= f) ⟨32 :: P, .init⟩ = (loadHeader >>= f) ⟨P, .init⟩ := by
    intro f
    show Load.bind loadHeader f _ = Load.bind loadHeader f _
    unfold Load.bind
    rw [loadHeader_space]
  unfold loaded
  rw [this]

theorem archiveText_space (version : Nat) (ts : List Trace) :
    32 :: archiveText version ts = toksText (.str archiveSignature :: .num version :: (saveTraces ts .init).1) := rfl

theorem deserialize_loaded (version : Nat) (ts : List Trace) (hn : ∀ t ∈ ts, t.NulFree) {P Q : List U8}
    (e : archiveText version ts = P ++ Q) : deserializeDb (P ++ [0]) = (loaded P).map Db.fresh := by
  have h0 : (0 : U8) ∉ P := fun h => archiveText_no_nul version ts hn (by rw [e]; exact List.mem_append_left _ h)
  unfold deserializeDb loaded
  rw [cStr_append_nul h0]
  cases (do loadHeader; loadTraces : Load (List Trace)) ⟨P, .init⟩ with
  | none => rfl
  | some r => rfl

theorem EndsIn.loaded {version : Nat} (hv : version < 2 ^ 32) {ts : List Trace} {pre tail : List U8}
    {k : List U8 → Option (List Trace)} (h : EndsIn (saveTraces ts) loadTraces .init pre tail k) {P Q : List U8}
    (e : archiveText version ts = P ++ Q) :
    (∃ P', tail = P' ++ Q ∧ loaded P = k P') ∨ (tail.length < Q.length ∧ loaded P = none) := by
  have h1 := EndsIn.seq' (f := fun _ => loadTraces) (loads_header version hv) stable_header (st := .init) (by decide) h
    (fun _ => needs_traces)
  rw [← loaded_space]
  have e1 : 32 :: archiveText version ts = 32 :: (P ++ Q) := by rw [e]
  rw [archiveText_space] at e1
  have e2 := h1.text
  have e2 : (32 :: P) ++ Q = _ := e1.symm.trans e2
  rcases List.append_eq_append_iff.mp e2 with ⟨R, e3, e4⟩ | ⟨P', e3, e4⟩
  · by_cases hR : R = []
    · subst hR
      simp only [List.append_nil, List.nil_append] at e3 e4
      refine .inl ⟨[], e4.symm, ?_⟩
      have := h1.full [] (.inl rfl)
      rw [List.append_nil, e3] at this
      exact this
    · refine .inr ⟨?_, ?_⟩
      · rw [e4, List.length_append]
        have := List.length_pos_iff.mpr hR
        omega
      · have := h1.less (32 :: P) R e3 hR
        show Option.map _ ((loadHeader >>= fun _ => loadTraces) ⟨32 :: P, .init⟩) = none
        rw [this]; rfl
  · refine .inl ⟨P', e4, ?_⟩
    have hP : Sep P' := by
      cases P' with
      | nil => exact .inl rfl
      | cons c P' =>
        rcases h.sep with h | ⟨r, h⟩
        · rw [e4] at h; cases h
        · rw [e4] at h; cases h; exact .inr ⟨_, rfl⟩
    have := h1.full P' hP
    rw [← e3] at this
    exact this

/-- The end of the text of a database is the end of its last trace. -/
theorem endsIn_db (ts : List Trace) (t : Trace) (hlen : (ts ++ [t]).length < 2 ^ 64) (hf : ∀ t ∈ ts, t.Fits)
    (hl : (addAll [] (ts.flatMap fun t => t.points.map Point.body)).length < 2 ^ 64) {pre tail : List U8}
    {k : List U8 → Option Trace} (h : EndsIn (saveTrace t) loadTrace (lastState ts) pre tail k) :
    ∃ pre', EndsIn (saveTraces (ts ++ [t])) loadTraces .init pre' tail (fun P => (k P).map fun t' => ts ++ [t']) := by
  have h1 := EndsIn.list (g := fun t => t) stable_trace needs_trace t ts (fun t ht => loads_trace t (hf t ht))
    (objState .traceDB .init) (by rw [objState_items]; exact hl) pre h
  have hn : (ts ++ [t]).length = ts.length + 1 := by simp
  have h2 := EndsIn.object (st := .init) .traceDB ((Needs.nat _).bind _) (by decide)
    (EndsIn.seq (Loads.nat (show (ts ++ [t]).length ≤ 2 ^ 64 - 1 by omega)) (Stable.nat _) (f := fun n => loadList loadTrace n)
      (st := objState .traceDB .init) (by decide) (by rw [hn]; exact h1)
      (fun x' P0 Q0 r0 e hx => needs_trace.list (count_cut (by omega) (by rw [hn]; exact Nat.succ_ne_zero _) _ _ _ _ _ e hx)))
  simp only [List.map_id'] at h2
  exact ⟨_, h2⟩

/-- The text of a database without traces. -/
theorem endsIn_empty : ∃ pre k, EndsIn (saveTraces []) loadTraces .init pre [32, 48] k ∧
    ∀ P Q, [32, 48] = P ++ Q → Q ≠ [] → k P = none := by
  have h := EndsIn.object (st := .init) .traceDB ((Needs.nat _).bind _) (by decide)
    (EndsIn.start ((saveNat 0).seq Save.nil) (loadNat (2 ^ 64 - 1) >>= fun n => loadList loadTrace n)
      (objState .traceDB .init))
  refine ⟨_, _, h, fun P Q e hQ => ?_⟩
  have hn : loadNat (2 ^ 64 - 1) ⟨P, objState .traceDB .init⟩ = none := by
    have := nat_cut (n := 0) (max := 2 ^ 64 - 1) (by decide) (P := P) (Q := Q) (by rw [← e]; rfl) (objState .traceDB .init)
    rw [this, if_neg]
    rintro (h | h)
    · exact hQ h
    · exact absurd h (by have := Nat.pow_pos (n := Q.length) (by decide : 0 < 10); omega)
  simp only [bind_none _ hn]
  rfl

/-- A last trace without points, names and types. -/
theorem endsIn_bare (st : ArchState) (hl : st.items.length < 2 ^ 64) :
    ∃ pre k, EndsIn (saveTrace ⟨[], [], []⟩) loadTrace st pre [32, 48] k ∧
      ∀ P Q, [32, 48] = P ++ Q → Q ≠ [] → k P = none := by
  have hl' : (objState .trace st).items.length < 2 ^ 64 := by rw [objState_items]; exact hl
  have h := EndsIn.object (st := st) .trace ((Needs.nat _).bind _) hl
    (EndsIn.seq' (Loads.nat (show 0 ≤ 2 ^ 64 - 1 by omega)) (Stable.nat _) (st := objState .trace st) hl'
      (f := fun np => loadNat (2 ^ 32 - 1) >>= fun nn => loadNat (2 ^ 32 - 1) >>= fun nt => loadRest np nn nt)
      (EndsIn.seq' (Loads.nat (show 0 ≤ 2 ^ 32 - 1 by omega)) (Stable.nat _) hl'
        (EndsIn.start ((saveNat 0).seq (saveRest ⟨[], [], []⟩)) (loadNat (2 ^ 32 - 1) >>= fun nt => loadRest 0 0 nt)
          (objState .trace st)) (fun _ => (Needs.nat _).bind _))
      (fun _ => (Needs.nat _).bind _))
  refine ⟨_, _, h, fun P Q e hQ => ?_⟩
  have hn : loadNat (2 ^ 32 - 1) ⟨P, objState .trace st⟩ = none := by
    have := nat_cut (n := 0) (max := 2 ^ 32 - 1) (by decide) (P := P) (Q := Q) (by rw [← e]; rfl) (objState .trace st)
    rw [this, if_neg]
    rintro (h | h)
    · exact hQ h
    · exact absurd h (by have := Nat.pow_pos (n := Q.length) (by decide : 0 < 10); omega)
  simp only [bind_none _ hn]
  rfl

end TraceDB
