import Verif.Spec.FailThreads
import Verif.Proofs.FailProject
import Verif.Proofs.ForkThreads
/-
When writing fails in a program with threads.
-/
namespace TraceDB

/-- What a thread does that records points. -/
inductive FmDoes {α : Type} (enc : α → List U8) : List α → List FtAct → Prop
  | nil : FmDoes enc [] []
  | point {p ps} {puts : List (List U8)} {acts} : puts.flatten = enc p → FmDoes enc ps acts →
      FmDoes enc (p :: ps) (.lock :: (puts.map .put ++ .flush :: .unlock :: acts))

/-- What is being recorded: nothing, a point by a thread with what it has still to put, or a thread has
flushed the stream and not yet unlocked the mutex. -/
inductive FmCur (α : Type) where
  | none
  | writing (i : Nat) (p : α) (puts : List (List U8))
  | flushed (i : Nat)

def FmCur.owner {α : Type} : FmCur α → Option Nat
  | .none => Option.none
  | .writing i _ _ => some i
  | .flushed i => some i

def FmCur.points {α : Type} : FmCur α → List (Nat × α)
  | .writing i p _ => [(i, p)]
  | _ => []

def FmCur.rem {α : Type} : FmCur α → List U8
  | .writing _ _ puts => puts.flatten
  | _ => []

def FmCur.actsOf {α : Type} (j : Nat) : FmCur α → List FtAct
  | .none => []
  | .writing i _ puts => if j = i then puts.map .put ++ [.flush, .unlock] else []
  | .flushed i => if j = i then [.unlock] else []

/-- The points in the order in which they were recorded, and what is being recorded. -/
structure FmShape {α : Type} (enc : α → List U8) (thr : List (List α)) (s : FmState) (order : List (Nat × α)) (cur : FmCur α) : Prop where
  owner : s.owner = cur.owner
  len : s.threads.length = thr.length
  lt : ∀ x ∈ order ++ cur.points, x.1 < thr.length
  ownerLt : ∀ i, cur.owner = some i → i < thr.length
  part : ∀ (i : Nat) (l : List α), thr[i]? = some l → ∃ rest acts, FmDoes enc rest acts ∧
    l = threadPart i (order ++ cur.points) ++ rest ∧ s.threads[i]? = some (cur.actsOf i ++ acts)

/-- The bytes of points. -/
def fmBytes {α : Type} (enc : α → List U8) (order : List (Nat × α)) : List U8 := order.flatMap fun x => enc x.2

theorem fmBytes_append {α : Type} (enc : α → List U8) (a b : List (Nat × α)) : fmBytes enc (a ++ b) = fmBytes enc a ++ fmBytes enc b := by
  simp [fmBytes]

/-- Nothing has been lost, except by being killed. -/
structure FmKept {α : Type} (enc : α → List U8) (header : List U8) (killed : Prop) (s : FmState) (order : List (Nat × α))
    (cur : FmCur α) : Prop where
  goesOn : s.ended = false → s.out ++ s.buf ++ cur.rem = header ++ fmBytes enc (order ++ cur.points)
  quiet : s.ended = false → order ≠ [] → cur.points = [] → s.buf = []
  over : s.ended = true → ∃ rest, s.out ++ rest = header ++ fmBytes enc (order ++ cur.points) ∧ (rest = cur.rem ∨ killed)

/-- Points were lost as a whole. -/
structure FmClean {α : Type} (enc : α → List U8) (header : List U8) (s : FmState) (shown : List (Nat × α)) (cur : FmCur α) : Prop where
  goesOn : s.ended = false → s.out = header ++ fmBytes enc shown ∧ s.buf ++ cur.rem = fmBytes enc cur.points
  over : s.ended = true → s.out = header ++ fmBytes enc shown ∨
    ∃ T, s.out = header ++ fmBytes enc shown ++ T ∧ T ++ cur.rem = fmBytes enc cur.points

theorem fm_none {α : Type} {enc : α → List U8} {header : List U8} {s : FmState} {order shown : List (Nat × α)} {cur : FmCur α}
    {Q : Prop} (h : FmClean enc header s shown cur) :
    ∃ x y : List (Nat × α), order = order ++ y ∧ x.Sublist y ∧ (Q → x = y) ∧ FmClean enc header s (shown ++ x) cur :=
  ⟨[], [], (List.append_nil _).symm, .slnil, fun _ => rfl, by rw [List.append_nil]; exact h⟩

/-- What a step does to the points and bytes. -/
structure FmStep {α : Type} (enc : α → List U8) (thr : List (List α)) (size : Nat) (e : FmEvent) (s : FmState)
    (order : List (Nat × α)) (cur : FmCur α) (s' : FmState) (order' : List (Nat × α)) (cur' : FmCur α) : Prop where
  shape : FmShape enc thr s' order' cur'
  grows : order ++ cur.points <+: order' ++ cur'.points
  kept : ∀ header killed, ¬ e.IsFail → (e.IsKill → killed) → FmKept enc header killed s order cur →
    FmKept enc header killed s' order' cur'
  failed : ∀ header killed, e.IsFail → FmKept enc header killed s order cur →
    ∃ rest, s'.out ++ rest = header ++ fmBytes enc (order ++ cur.points)
  clean : ∀ header shown, (∀ l ∈ thr, ∀ p ∈ l, (enc p).length ≤ size) → e.AllOrNothing size → FmClean enc header s shown cur →
    ∃ x y : List (Nat × α), order' = order ++ y ∧ x.Sublist y ∧ (¬ e.IsFail → x = y) ∧ FmClean enc header s' (shown ++ x) cur'

theorem FmStep.same {α : Type} {enc : α → List U8} {thr : List (List α)} {s : FmState} {order : List (Nat × α)} {cur : FmCur α}
    (size : Nat) (h : FmShape enc thr s order cur) (e : FmEvent) : FmStep enc thr size e s order cur s order cur where
  shape := h
  grows := List.prefix_rfl
  kept _ _ _ _ h := h
  failed header killed _ hk := by
    cases he : s.ended with
    | false => exact ⟨s.buf ++ cur.rem, by rw [← List.append_assoc]; exact hk.goesOn he⟩
    | true => obtain ⟨rest, hr, _⟩ := hk.over he; exact ⟨rest, hr⟩
  clean _ shown _ _ hc := fm_none hc

theorem fm_small {α : Type} {enc : α → List U8} {thr : List (List α)} {s : FmState} {order : List (Nat × α)} {cur : FmCur α}
    {size : Nat} (h : FmShape enc thr s order cur) (hs : ∀ l ∈ thr, ∀ p ∈ l, (enc p).length ≤ size) (header : List U8)
    (shown : List (Nat × α)) (he : s.ended = false) (hc : FmClean enc header s shown cur) : s.buf.length ≤ size := by
  obtain ⟨_, hb⟩ := hc.goesOn he
  have hlen := congrArg List.length hb
  rw [List.length_append] at hlen
  cases cur with
  | none => simp [FmCur.points, fmBytes] at hlen; simp [hlen.1]
  | flushed i => simp [FmCur.points, fmBytes] at hlen; simp [hlen.1]
  | writing i p puts =>
    have hi := h.lt (i, p) (by simp [FmCur.points])
    obtain ⟨rest, acts, _, hl, _⟩ := h.part i thr[i] (List.getElem?_eq_getElem hi)
    have hp : p ∈ thr[i] := by
      rw [hl]
      simp [threadPart, FmCur.points]
    have := hs _ (List.getElem_mem hi) p hp
    simp [FmCur.points, fmBytes] at hlen
    omega

/-- A step in which thread `i` goes on. -/
theorem FmShape.set {α : Type} {enc : α → List U8} {thr : List (List α)} {s : FmState} {order : List (Nat × α)} {cur : FmCur α}
    (h : FmShape enc thr s order cur) {i : Nat} (hi : i < thr.length) {order' : List (Nat × α)} {cur' : FmCur α} {out' buf' : List U8}
    {owner' : Option Nat} {r : List FtAct} {b : Bool} (ho : owner' = cur'.owner) (hol : ∀ j, cur'.owner = some j → j = i)
    (hlt : ∀ x ∈ order' ++ cur'.points, x ∈ order ++ cur.points ∨ x.1 = i)
    (hother : ∀ j, j ≠ i → threadPart j (order' ++ cur'.points) = threadPart j (order ++ cur.points) ∧ cur'.actsOf j = cur.actsOf j)
    (hi' : ∃ rest acts, FmDoes enc rest acts ∧ thr[i] = threadPart i (order' ++ cur'.points) ++ rest ∧ r = cur'.actsOf i ++ acts) :
    FmShape enc thr ⟨out', buf', owner', s.threads.set i r, b⟩ order' cur' where
  owner := ho
  len := by rw [List.length_set]; exact h.len
  lt := by
    intro x hx
    rcases hlt x hx with hx | hx
    · exact h.lt x hx
    · omega
  ownerLt := by
    intro j hj
    rw [hol j hj]
    exact hi
  part := by
    intro j l hl
    by_cases hj : j = i
    · subst hj
      obtain ⟨rest, acts, hd, h1, h2⟩ := hi'
      refine ⟨rest, acts, hd, ?_, ?_⟩
      · rw [List.getElem?_eq_getElem hi] at hl
        cases hl
        exact h1
      · rw [← h2]
        exact List.getElem?_set_self (by rw [h.len]; exact hi)
    · obtain ⟨rest, acts, hd, h1, h2⟩ := h.part j l hl
      obtain ⟨o1, o2⟩ := hother j hj
      refine ⟨rest, acts, hd, by rw [o1]; exact h1, ?_⟩
      rw [o2, ← h2]
      exact List.getElem?_set_ne (by omega)

/-- A step in which no thread goes on. -/
theorem FmShape.bytes {α : Type} {enc : α → List U8} {thr : List (List α)} {s : FmState} {order : List (Nat × α)} {cur : FmCur α}
    (h : FmShape enc thr s order cur) (out' buf' : List U8) (b : Bool) :
    FmShape enc thr ⟨out', buf', s.owner, s.threads, b⟩ order cur :=
  ⟨h.owner, h.len, h.lt, h.ownerLt, h.part⟩

theorem fm_lt {α : Type} {enc : α → List U8} {thr : List (List α)} {s : FmState} {order : List (Nat × α)} {cur : FmCur α}
    (h : FmShape enc thr s order cur) {i : Nat} {t : List FtAct} (ht : s.threads[i]? = some t) : i < thr.length := by
  rw [← h.len]
  exact (List.getElem?_eq_some_iff.mp ht).1

theorem fm_part {α : Type} {enc : α → List U8} {thr : List (List α)} {s : FmState} {order : List (Nat × α)} {cur : FmCur α}
    (h : FmShape enc thr s order cur) {i : Nat} {t : List FtAct} (ht : s.threads[i]? = some t) (hi : i < thr.length) :
    ∃ rest acts, FmDoes enc rest acts ∧ thr[i] = threadPart i (order ++ cur.points) ++ rest ∧ t = cur.actsOf i ++ acts := by
  obtain ⟨rest, acts, hd, h1, h2⟩ := h.part i thr[i] (List.getElem?_eq_getElem hi)
  rw [ht] at h2
  cases h2
  exact ⟨rest, acts, hd, h1, rfl⟩

/-- Where a thread is that has something to do. -/
theorem fm_where {α : Type} {enc : α → List U8} {thr : List (List α)} {s : FmState} {order : List (Nat × α)} {cur : FmCur α}
    (h : FmShape enc thr s order cur) {i : Nat} {a : FtAct} {t : List FtAct} (ht : s.threads[i]? = some (a :: t)) (hi : i < thr.length) :
    (cur.owner ≠ some i ∧ cur.actsOf i = [] ∧ a = .lock ∧ ∃ (p : α) (ps : List α) (puts : List (List U8)) (acts : List FtAct), FmDoes enc ps acts ∧ puts.flatten = enc p ∧
      thr[i] = threadPart i (order ++ cur.points) ++ p :: ps ∧ t = puts.map FtAct.put ++ .flush :: .unlock :: acts) ∨
    (∃ rest acts, FmDoes enc rest acts ∧ thr[i] = threadPart i (order ++ cur.points) ++ rest ∧
      ((cur = .flushed i ∧ a = .unlock ∧ t = acts) ∨
       (∃ p, cur = .writing i p [] ∧ a = .flush ∧ t = .unlock :: acts) ∨
       ∃ p b puts, cur = .writing i p (b :: puts) ∧ a = .put b ∧ t = puts.map FtAct.put ++ [.flush, .unlock] ++ acts)) := by
  obtain ⟨rest, acts, hd, h1, h2⟩ := fm_part h ht hi
  by_cases hc : cur.owner = some i
  · right
    refine ⟨rest, acts, hd, h1, ?_⟩
    cases cur with
    | none => simp [FmCur.owner] at hc
    | flushed j =>
      simp only [FmCur.owner, Option.some.injEq] at hc
      subst hc
      simp [FmCur.actsOf] at h2
      left
      exact ⟨rfl, h2.1, h2.2⟩
    | writing j p puts =>
      simp only [FmCur.owner, Option.some.injEq] at hc
      subst hc
      right
      cases puts with
      | nil =>
        simp [FmCur.actsOf] at h2
        left
        exact ⟨p, rfl, h2.1, h2.2⟩
      | cons b puts =>
        simp [FmCur.actsOf] at h2
        right
        exact ⟨p, b, puts, rfl, h2.1, by simp [h2.2]⟩
  · left
    have hn : cur.actsOf i = [] := by
      cases cur with
      | none => rfl
      | flushed j =>
        simp only [FmCur.owner, Option.some.injEq] at hc
        simp [FmCur.actsOf, Ne.symm hc]
      | writing j p puts =>
        simp only [FmCur.owner, Option.some.injEq] at hc
        simp [FmCur.actsOf, Ne.symm hc]
    rw [hn, List.nil_append] at h2
    subst h2
    cases hd with
    | point hp hd => exact ⟨hc, hn, rfl, _, _, _, _, hd, hp, h1, rfl⟩

theorem fm_other_none {α : Type} {j i : Nat} (hj : j ≠ i) (p : α) (puts : List (List U8)) :
    (FmCur.writing i p puts).actsOf j = [] := by simp [FmCur.actsOf, hj]

theorem fm_part_other {α : Type} {j i : Nat} (hj : j ≠ i) (p : α) (order : List (Nat × α)) :
    threadPart j (order ++ [(i, p)]) = threadPart j order := by
  simp [threadPart, Ne.symm hj]

theorem fm_lock {α : Type} {enc : α → List U8} {thr : List (List α)} {s : FmState} {order : List (Nat × α)} {cur : FmCur α}
    (size : Nat) (h : FmShape enc thr s order cur) {i : Nat} {t : List FtAct} (ht : s.threads[i]? = some (.lock :: t))
    (ho : s.owner = none) (he : s.ended = false) : ∃ order' cur',
    FmStep enc thr size (.run i) s order cur ⟨s.out, s.buf, some i, s.threads.set i t, false⟩ order' cur' := by
  have hi := fm_lt h ht
  have hcur : cur = .none := by
    have := h.owner
    rw [ho] at this
    cases cur <;> simp [FmCur.owner] at this
    rfl
  subst hcur
  rcases fm_where h ht hi with ⟨_, _, _, p, ps, puts, acts, hd, hp, h1, rfl⟩ | ⟨_, _, _, _, hx⟩
  · refine ⟨order, .writing i p puts, ?_, ⟨[(i, p)], by simp [FmCur.points]⟩, ?_, ?_, ?_⟩
    · refine h.set hi rfl (by intro j hj; simp only [FmCur.owner, Option.some.injEq] at hj; exact hj.symm) ?_ ?_ ?_
      · intro x hx
        simp [FmCur.points] at hx ⊢
        rcases hx with hx | rfl
        · exact Or.inl hx
        · exact Or.inr rfl
      · intro j hj
        simp [FmCur.points, fm_part_other hj, fm_other_none hj]
        rfl
      · refine ⟨ps, acts, hd, ?_, by simp [FmCur.actsOf]⟩
        rw [h1]
        simp [FmCur.points, threadPart]
    · intro header killed _ _ hk
      refine ⟨fun _ => ?_, fun _ _ hx => by simp [FmCur.points] at hx, fun hx => by simp at hx⟩
      have := hk.goesOn he
      simp only [FmCur.rem, FmCur.points, List.append_nil] at this ⊢
      rw [this, fmBytes_append, hp]
      simp [fmBytes]
    · intro _ _ hf
      exact hf.elim
    · intro header shown _ _ hc
      refine fm_none ⟨fun _ => ?_, fun hx => by simp at hx⟩
      obtain ⟨c1, c2⟩ := hc.goesOn he
      refine ⟨c1, ?_⟩
      simp [FmCur.rem, FmCur.points, fmBytes] at c2 ⊢
      rw [c2, hp, List.nil_append]
  · rcases hx with ⟨hx, _⟩ | ⟨_, hx, _⟩ | ⟨_, _, _, hx, _⟩ <;> cases hx

theorem fm_put {α : Type} {enc : α → List U8} {thr : List (List α)} {s : FmState} {order : List (Nat × α)} {cur : FmCur α}
    (size : Nat) (h : FmShape enc thr s order cur) {i : Nat} {bs : List U8} {t : List FtAct} (ht : s.threads[i]? = some (.put bs :: t))
    (he : s.ended = false) : ∃ order' cur',
    FmStep enc thr size (.run i) s order cur ⟨s.out, s.buf ++ bs, s.owner, s.threads.set i t, false⟩ order' cur' := by
  have hi := fm_lt h ht
  rcases fm_where h ht hi with ⟨_, _, hx, _⟩ | ⟨rest, acts, hd, h1, hx⟩
  · cases hx
  · rcases hx with ⟨_, hx, _⟩ | ⟨_, _, hx, _⟩ | ⟨p, b, puts, rfl, hx, rfl⟩
    · cases hx
    · cases hx
    cases hx
    refine ⟨order, .writing i p puts, ?_, List.prefix_rfl, ?_, ?_, ?_⟩
    · refine h.set hi h.owner (by intro j hj; simp only [FmCur.owner, Option.some.injEq] at hj; exact hj.symm) ?_ ?_ ?_
      · intro x hx
        exact Or.inl hx
      · intro j hj
        exact ⟨rfl, by simp [FmCur.actsOf, hj]⟩
      · exact ⟨rest, acts, hd, h1, by simp [FmCur.actsOf]⟩
    · intro header killed _ _ hk
      refine ⟨fun _ => ?_, fun _ _ hx => by simp [FmCur.points] at hx, fun hx => by simp at hx⟩
      have := hk.goesOn he
      simp only [FmCur.rem, FmCur.points, List.flatten_cons] at this ⊢
      rw [← this]
      simp
    · intro _ _ hf
      exact hf.elim
    · intro header shown _ _ hc
      refine fm_none ⟨fun _ => ?_, fun hx => by simp at hx⟩
      obtain ⟨c1, c2⟩ := hc.goesOn he
      refine ⟨c1, ?_⟩
      simp only [FmCur.rem, FmCur.points, List.flatten_cons] at c2 ⊢
      rw [← c2, List.append_assoc]

theorem fm_unlock {α : Type} {enc : α → List U8} {thr : List (List α)} {s : FmState} {order : List (Nat × α)} {cur : FmCur α}
    (size : Nat) (h : FmShape enc thr s order cur) {i : Nat} {t : List FtAct} (ht : s.threads[i]? = some (.unlock :: t))
    (he : s.ended = false) : s.owner = some i ∧ ∃ order' cur',
    FmStep enc thr size (.run i) s order cur ⟨s.out, s.buf, none, s.threads.set i t, false⟩ order' cur' := by
  have hi := fm_lt h ht
  rcases fm_where h ht hi with ⟨_, _, hx, _⟩ | ⟨rest, acts, hd, h1, hx⟩
  · cases hx
  · rcases hx with ⟨rfl, _, rfl⟩ | ⟨_, _, hx, _⟩ | ⟨_, _, _, _, hx, _⟩
    · refine ⟨h.owner, order, .none, ?_, List.prefix_rfl, ?_, ?_, ?_⟩
      · refine h.set hi rfl (by intro j hj; simp [FmCur.owner] at hj) ?_ ?_ ?_
        · intro x hx
          exact Or.inl hx
        · intro j hj
          exact ⟨rfl, by simp [FmCur.actsOf, hj]⟩
        · exact ⟨rest, t, hd, h1, rfl⟩
      · intro header killed _ _ hk
        exact ⟨fun _ => hk.goesOn he, fun _ => hk.quiet he, fun hx => by simp at hx⟩
      · intro _ _ hf
        exact hf.elim
      · intro header shown _ _ hc
        exact fm_none ⟨fun _ => hc.goesOn he, fun hx => by simp at hx⟩
    · cases hx
    · cases hx

theorem fm_flushed_shape {α : Type} {enc : α → List U8} {thr : List (List α)} {s : FmState} {order : List (Nat × α)} {i : Nat} {p : α}
    (h : FmShape enc thr s order (.writing i p [])) (hi : i < thr.length) {rest : List α} {acts : List FtAct} (hd : FmDoes enc rest acts)
    (h1 : thr[i] = threadPart i (order ++ [(i, p)]) ++ rest) (out' buf' : List U8) :
    FmShape enc thr ⟨out', buf', s.owner, s.threads.set i (.unlock :: acts), false⟩ (order ++ [(i, p)]) (.flushed i) := by
  refine h.set hi h.owner (by intro j hj; simp only [FmCur.owner, Option.some.injEq] at hj; exact hj.symm) ?_ ?_ ?_
  · intro x hx
    simp only [FmCur.points, List.append_nil] at hx
    exact Or.inl hx
  · intro j hj
    exact ⟨by simp [FmCur.points], by simp [FmCur.actsOf, hj]⟩
  · exact ⟨rest, acts, hd, by simpa [FmCur.points] using h1, by simp [FmCur.actsOf]⟩

theorem fm_flush {α : Type} {enc : α → List U8} {thr : List (List α)} {s : FmState} {order : List (Nat × α)} {cur : FmCur α}
    (size : Nat) (h : FmShape enc thr s order cur) {i : Nat} {t : List FtAct} (ht : s.threads[i]? = some (.flush :: t))
    (he : s.ended = false) :
    (∃ order' cur', FmStep enc thr size (.run i) s order cur ⟨s.out ++ s.buf, [], s.owner, s.threads.set i t, false⟩ order' cur') ∧
    ∀ k lost, ∃ order' cur', FmStep enc thr size (.fail i k lost) s order cur
      ⟨s.out ++ s.buf.take k, s.buf.drop (k + lost), s.owner, s.threads.set i t, false⟩ order' cur' := by
  have hi := fm_lt h ht
  rcases fm_where h ht hi with ⟨_, _, hx, _⟩ | ⟨rest, acts, hd, h1, hx⟩
  · cases hx
  · rcases hx with ⟨_, hx, _⟩ | ⟨p, rfl, _, rfl⟩ | ⟨_, _, _, _, hx, _⟩
    · cases hx
    · refine ⟨⟨order ++ [(i, p)], .flushed i, fm_flushed_shape h hi hd h1 _ _, ⟨[], by simp [FmCur.points]⟩, ?_, ?_, ?_⟩, fun k lost =>
        ⟨order ++ [(i, p)], .flushed i, fm_flushed_shape h hi hd h1 _ _, ⟨[], by simp [FmCur.points]⟩, ?_, ?_, ?_⟩⟩
      · intro header killed _ _ hk
        refine ⟨fun _ => ?_, fun _ _ _ => rfl, fun hx => by simp at hx⟩
        have := hk.goesOn he
        simp only [FmCur.rem, FmCur.points, List.append_nil, List.flatten_nil] at this ⊢
        exact this
      · intro _ _ hf
        exact hf.elim
      · intro header shown _ _ hc
        refine ⟨[(i, p)], [(i, p)], rfl, List.Sublist.refl _, fun _ => rfl, fun _ => ?_, fun hx => by simp at hx⟩
        obtain ⟨c1, c2⟩ := hc.goesOn he
        simp only [FmCur.rem, FmCur.points, List.append_nil, List.flatten_nil] at c2 ⊢
        rw [c1, c2, fmBytes_append, List.append_assoc]
        exact ⟨rfl, rfl⟩
      · intro _ _ hf
        exact absurd trivial hf
      · intro header killed _ hk
        have := hk.goesOn he
        refine ⟨s.buf.drop k, ?_⟩
        simp only [FmCur.rem, FmCur.points, List.append_nil, List.flatten_nil] at this ⊢
        rw [List.append_assoc, List.take_append_drop, this]
      · intro header shown hsm ha hc
        have hsmall := fm_small h hsm header shown he hc
        obtain ⟨rfl, hl⟩ := ha
        refine ⟨[], [(i, p)], rfl, List.nil_sublist _, fun hf => absurd trivial hf, ?_⟩
        rw [List.append_nil]
        refine ⟨fun _ => ?_, fun hx => by simp at hx⟩
        obtain ⟨c1, _⟩ := hc.goesOn he
        refine ⟨by simp [c1], ?_⟩
        simp only [FmCur.rem, FmCur.points, List.append_nil]
        rw [List.drop_eq_nil_of_le (by omega)]
        rfl
    · cases hx

theorem fm_spill {α : Type} {enc : α → List U8} {thr : List (List α)} {s : FmState} {order : List (Nat × α)} {cur : FmCur α}
    (size : Nat) (h : FmShape enc thr s order cur) (hb : ¬ s.buf.length ≤ size) (he : s.ended = false) :
    (∀ k, FmStep enc thr size (.spill k) s order cur ⟨s.out ++ s.buf.take k, s.buf.drop k, s.owner, s.threads, false⟩ order cur) ∧
    ∀ i k lost, FmStep enc thr size (.fail i k lost) s order cur
      ⟨s.out ++ s.buf.take k, s.buf.drop (k + lost), s.owner, s.threads, false⟩ order cur := by
  refine ⟨fun k => ⟨h.bytes _ _ _, List.prefix_rfl, ?_, fun _ _ hf => hf.elim, ?_⟩, fun i k lost => ⟨h.bytes _ _ _, List.prefix_rfl, fun _ _ hf => absurd trivial hf, ?_, ?_⟩⟩
  · intro header killed _ _ hk
    refine ⟨fun _ => ?_, fun _ ho hp => ?_, fun hx => by simp at hx⟩
    · rw [List.append_assoc s.out, List.take_append_drop]
      exact hk.goesOn he
    · show s.buf.drop k = []
      rw [hk.quiet he ho hp, List.drop_nil]
  · intro header shown hsm _ hc
    exact absurd (fm_small h hsm header shown he hc) hb
  · intro header killed _ hk
    refine ⟨s.buf.drop k ++ cur.rem, ?_⟩
    rw [← hk.goesOn he]
    show s.out ++ s.buf.take k ++ _ = _
    rw [List.append_assoc, ← List.append_assoc (s.buf.take k), List.take_append_drop, List.append_assoc]
  · intro header shown hsm _ hc
    exact absurd (fm_small h hsm header shown he hc) hb

theorem fm_exit {α : Type} {enc : α → List U8} {thr : List (List α)} {s : FmState} {order : List (Nat × α)} {cur : FmCur α}
    (size : Nat) (h : FmShape enc thr s order cur) (he : s.ended = false) :
    FmStep enc thr size .exit s order cur ⟨s.out ++ s.buf, [], s.owner, s.threads, true⟩ order cur ∧
    (∀ k, FmStep enc thr size (.exitFail k) s order cur ⟨s.out ++ s.buf.take k, [], s.owner, s.threads, true⟩ order cur) ∧
    FmStep enc thr size .kill s order cur ⟨s.out, [], s.owner, s.threads, true⟩ order cur := by
  refine ⟨⟨h.bytes _ _ _, List.prefix_rfl, ?_, fun _ _ hf => hf.elim, ?_⟩, fun k => ⟨h.bytes _ _ _, List.prefix_rfl, fun _ _ hf => absurd trivial hf, ?_, ?_⟩,
    h.bytes _ _ _, List.prefix_rfl, ?_, fun _ _ hf => hf.elim, ?_⟩
  · intro header killed _ _ hk
    exact ⟨fun hx => by simp at hx, fun hx => by simp at hx, fun _ => ⟨cur.rem, hk.goesOn he, Or.inl rfl⟩⟩
  · intro header shown _ _ hc
    refine fm_none ⟨fun hx => by simp at hx, fun _ => Or.inr ?_⟩
    obtain ⟨c1, c2⟩ := hc.goesOn he
    exact ⟨s.buf, by rw [c1], c2⟩
  · intro header killed _ hk
    refine ⟨s.buf.drop k ++ cur.rem, ?_⟩
    rw [← hk.goesOn he]
    show s.out ++ s.buf.take k ++ _ = _
    rw [List.append_assoc, ← List.append_assoc (s.buf.take k), List.take_append_drop, List.append_assoc]
  · intro header shown _ ha hc
    cases ha
    refine fm_none ⟨fun hx => by simp at hx, fun _ => Or.inl ?_⟩
    obtain ⟨c1, _⟩ := hc.goesOn he
    simp [c1]
  · intro header killed _ hkill hk
    exact ⟨fun hx => by simp at hx, fun hx => by simp at hx, fun _ => ⟨s.buf ++ cur.rem, by
      rw [← List.append_assoc]
      exact hk.goesOn he, Or.inr (hkill trivial)⟩⟩
  · intro header shown _ _ hc
    exact fm_none ⟨fun hx => by simp at hx, fun _ => Or.inl (hc.goesOn he).1⟩

theorem fm_step {α : Type} {enc : α → List U8} {thr : List (List α)} {s : FmState} {order : List (Nat × α)} {cur : FmCur α}
    (size : Nat) (h : FmShape enc thr s order cur) (e : FmEvent) :
    ∃ s' order' cur', s.step size e = .ok s' ∧ FmStep enc thr size e s order cur s' order' cur' := by
  unfold FmState.step
  cases he : s.ended with
  | true => exact ⟨s, order, cur, rfl, FmStep.same size h e⟩
  | false =>
    rw [if_neg (by simp)]
    cases e with
    | run i =>
      dsimp only
      by_cases hb : s.buf.length ≤ size
      · rw [if_pos hb]
        cases ht : s.threads[i]? with
        | none => exact ⟨s, order, cur, rfl, FmStep.same size h _⟩
        | some l =>
          cases l with
          | nil => exact ⟨s, order, cur, rfl, FmStep.same size h _⟩
          | cons a t =>
            cases a with
            | lock =>
              dsimp only
              cases ho : s.owner with
              | none =>
                obtain ⟨o, c, hs⟩ := fm_lock size h ht ho he
                exact ⟨_, o, c, rfl, hs⟩
              | some j => exact ⟨s, order, cur, rfl, FmStep.same size h _⟩
            | put bs =>
              obtain ⟨o, c, hs⟩ := fm_put size h ht he
              exact ⟨_, o, c, rfl, hs⟩
            | flush =>
              obtain ⟨o, c, hs⟩ := (fm_flush size h ht he).1
              exact ⟨_, o, c, rfl, hs⟩
            | unlock =>
              obtain ⟨ho, o, c, hs⟩ := fm_unlock size h ht he
              dsimp only
              rw [if_pos ho]
              exact ⟨_, o, c, rfl, hs⟩
            | _ => exact ⟨s, order, cur, rfl, FmStep.same size h _⟩
      · rw [if_neg hb]
        exact ⟨s, order, cur, rfl, FmStep.same size h _⟩
    | spill k =>
      dsimp only
      by_cases hb : s.buf.length ≤ size
      · rw [if_pos hb]
        exact ⟨s, order, cur, rfl, FmStep.same size h _⟩
      · rw [if_neg hb]
        exact ⟨_, order, cur, rfl, (fm_spill size h hb he).1 k⟩
    | fail i k lost =>
      dsimp only
      by_cases hb : s.buf.length ≤ size
      · rw [if_pos hb]
        cases ht : s.threads[i]? with
        | none => exact ⟨s, order, cur, rfl, FmStep.same size h _⟩
        | some l =>
          cases l with
          | nil => exact ⟨s, order, cur, rfl, FmStep.same size h _⟩
          | cons a t =>
            cases a with
            | flush =>
              obtain ⟨o, c, hs⟩ := (fm_flush size h ht he).2 k lost
              exact ⟨_, o, c, rfl, hs⟩
            | _ => exact ⟨s, order, cur, rfl, FmStep.same size h _⟩
      · rw [if_neg hb]
        exact ⟨_, order, cur, rfl, (fm_spill size h hb he).2 i k lost⟩
    | exit =>
      dsimp only
      by_cases hb : s.buf.length ≤ size
      · rw [if_pos hb]
        exact ⟨_, order, cur, rfl, (fm_exit size h he).1⟩
      · rw [if_neg hb]
        exact ⟨s, order, cur, rfl, FmStep.same size h _⟩
    | exitFail k =>
      dsimp only
      by_cases hb : s.buf.length ≤ size
      · rw [if_pos hb]
        exact ⟨_, order, cur, rfl, (fm_exit size h he).2.1 k⟩
      · rw [if_neg hb]
        exact ⟨s, order, cur, rfl, FmStep.same size h _⟩
    | kill => exact ⟨_, order, cur, rfl, (fm_exit size h he).2.2⟩

theorem fm_run {α : Type} {enc : α → List U8} {thr : List (List α)} (size : Nat) : ∀ (es : List FmEvent) {s : FmState}
    {order : List (Nat × α)} {cur : FmCur α}, FmShape enc thr s order cur →
    ∃ s' order' cur', s.run size es = .ok s' ∧ FmShape enc thr s' order' cur' ∧ order ++ cur.points <+: order' ++ cur'.points ∧
      (∀ header killed, (∀ e ∈ es, ¬ e.IsFail) → (∀ e ∈ es, e.IsKill → killed) → FmKept enc header killed s order cur →
        FmKept enc header killed s' order' cur') ∧
      ∀ header shown, (∀ l ∈ thr, ∀ p ∈ l, (enc p).length ≤ size) → (∀ e ∈ es, e.AllOrNothing size) → FmClean enc header s shown cur →
        ∃ x y : List (Nat × α), order' = order ++ y ∧ x.Sublist y ∧ ((∀ e ∈ es, ¬ e.IsFail) → x = y) ∧
          FmClean enc header s' (shown ++ x) cur'
  | [], s, order, cur, h => ⟨s, order, cur, rfl, h, List.prefix_rfl, fun _ _ _ _ hk => hk, fun _ _ _ _ hc => fm_none hc⟩
  | e :: es, s, order, cur, h => by
    obtain ⟨s1, o1, c1, e1, g⟩ := fm_step size h e
    obtain ⟨s2, o2, c2, e2, h2, p2, k2, d2⟩ := fm_run size es g.shape
    refine ⟨s2, o2, c2, by simp only [FmState.run, e1, Res.ok_bind]; exact e2, h2, g.grows.trans p2, ?_, ?_⟩
    · intro header killed hf hk hkept
      exact k2 header killed (fun e he => hf e (List.mem_cons_of_mem _ he)) (fun e he => hk e (List.mem_cons_of_mem _ he))
        (g.kept header killed (hf e (by simp)) (hk e (by simp)) hkept)
    · intro header shown hs ha hc
      obtain ⟨x, y, hy, hx, hq, hc⟩ := g.clean header shown hs (ha e (by simp)) hc
      obtain ⟨x', y', hy', hx', hq', hc⟩ := d2 header _ hs (fun e he => ha e (List.mem_cons_of_mem _ he)) hc
      exact ⟨x ++ x', y ++ y', by rw [hy', hy, List.append_assoc], hx.append hx',
        fun hf => by rw [hq (hf e (by simp)), hq' fun e he => hf e (List.mem_cons_of_mem _ he)], by rw [← List.append_assoc]; exact hc⟩

theorem fm_run_append (size : Nat) : ∀ (a b : List FmEvent) (s : FmState),
    s.run size (a ++ b) = s.run size a >>= fun s' => s'.run size b
  | [], _, _ => rfl
  | e :: a, b, s => by
    simp only [List.cons_append, FmState.run]
    cases s.step size e with
    | ok s1 => simp only [Res.ok_bind]; exact fm_run_append size a b s1
    | _ => rfl

/-- What is in the file stays there. -/
theorem fm_grows (size : Nat) : ∀ (es : List FmEvent) (s s' : FmState), s.run size es = .ok s' → s.out <+: s'.out
  | [], s, s', h => by
    simp only [FmState.run] at h
    cases h
    exact List.prefix_rfl
  | e :: es, s, s', h => by
    simp only [FmState.run] at h
    obtain ⟨s1, h1, h⟩ := Res.bind_eq_ok.mp h
    refine List.IsPrefix.trans ?_ (fm_grows size es s1 s' h)
    unfold FmState.step at h1
    (repeat' split at h1) <;> cases h1 <;> first
      | exact List.prefix_rfl
      | exact List.prefix_append _ _

theorem fm_start {α : Type} {enc : α → List U8} {thr : List (List α)} {acts : List (List FtAct)} (h : AllRel (FmDoes enc) thr acts)
    (header : List U8) (killed : Prop) :
    FmShape enc thr (FmState.start header acts) [] .none ∧ FmKept enc header killed (FmState.start header acts) [] .none := by
  refine ⟨⟨rfl, h.length.symm, by simp [FmCur.points], by simp [FmCur.owner], ?_⟩, fun _ => ?_, by simp, fun hx => by simp [FmState.start] at hx⟩
  · intro i l hl
    obtain ⟨a, ha, hd⟩ : ∃ a, acts[i]? = some a ∧ FmDoes enc l a := by
      rcases h.get_left i with ⟨hn, _⟩ | ⟨x, y, h1, h2, h3⟩
      · rw [hn] at hl
        cases hl
      · rw [h1] at hl
        cases hl
        exact ⟨y, h2, h3⟩
    exact ⟨l, a, hd, by simp [FmCur.points, threadPart], by simpa [FmCur.actsOf, FmState.start] using ha⟩
  · simp [FmState.start, FmCur.rem, FmCur.points, fmBytes]

theorem fm_whole {α : Type} {enc : α → List U8} {thr : List (List α)} {s : FmState} {order : List (Nat × α)} {cur : FmCur α}
    (g : FmShape enc thr s order cur) (h : ∀ t ∈ s.threads, t = []) : cur = .none ∧ Interleaves order thr := by
  have hcur : cur = .none := by
    cases cur with
    | none => rfl
    | writing i p puts =>
      obtain ⟨_, _, _, _, ht⟩ := g.part i _ (List.getElem?_eq_getElem (g.ownerLt i rfl))
      have := h _ (List.mem_of_getElem? ht)
      simp [FmCur.actsOf] at this
    | flushed i =>
      obtain ⟨_, _, _, _, ht⟩ := g.part i _ (List.getElem?_eq_getElem (g.ownerLt i rfl))
      have := h _ (List.mem_of_getElem? ht)
      simp [FmCur.actsOf] at this
  subst hcur
  refine ⟨rfl, fun x hx => g.lt x (by simpa [FmCur.points] using hx), ?_⟩
  intro i l hl
  obtain ⟨rest, acts, hd, e, ht⟩ := g.part i l hl
  have := h _ (List.mem_of_getElem? ht)
  simp only [FmCur.actsOf, List.nil_append] at this
  subst this
  cases hd
  rw [e, List.append_nil]
  simp [FmCur.points]

/-- Where the file is a beginning of the header and some points. -/
theorem fm_ever_from {α : Type} {enc : α → List U8} {thr : List (List α)} {s0 : FmState} {order0 : List (Nat × α)} {cur0 : FmCur α}
    {header : List U8} {killed : Prop} (size : Nat) (h1 : FmShape enc thr s0 order0 cur0) (h2 : FmKept enc header killed s0 order0 cur0)
    (events : List FmEvent) (hkill : ∀ e ∈ events, e.IsKill → killed) (hever : FmFailsForEver size s0 events) :
    ∃ s, s0.run size events = .ok s ∧ ∃ (order : List (Nat × α)) (rest : List U8), order0 ++ cur0.points <+: order ∧
      (∀ x ∈ order, x.1 < thr.length) ∧ (∀ (i : Nat) (l : List α), thr[i]? = some l → threadPart i order <+: l) ∧
      s.out ++ rest = header ++ fmBytes enc order ∧
      ((∀ e ∈ events, ¬ e.IsFail) → ¬ killed → s.ended = true → (∀ t ∈ s.threads, t = []) → rest = [] ∧ Interleaves order thr) := by
  have hpre : ∀ {s : FmState} {order : List (Nat × α)} {cur : FmCur α}, FmShape enc thr s order cur →
      ∀ (i : Nat) (l : List α), thr[i]? = some l → threadPart i (order ++ cur.points) <+: l := by
    intro s order cur hs i l hl
    obtain ⟨rest, _, _, e, _⟩ := hs.part i l hl
    exact ⟨rest, e.symm⟩
  by_cases hf : ∀ e ∈ events, ¬ e.IsFail
  · obtain ⟨s, order, cur, e1, g, hg, hk, _⟩ := fm_run size events h1
    have hk := hk header killed hf hkill h2
    refine ⟨s, e1, order ++ cur.points, ?_⟩
    cases hend : s.ended with
    | false =>
      refine ⟨s.buf ++ cur.rem, hg, g.lt, hpre g, by rw [← List.append_assoc]; exact hk.goesOn hend, ?_⟩
      intro _ _ hx
      cases hx
    | true =>
      obtain ⟨rest, hr, hr'⟩ := hk.over hend
      refine ⟨rest, hg, g.lt, hpre g, hr, ?_⟩
      intro _ hnk _ hw
      obtain ⟨hcur, hi⟩ := fm_whole g hw
      subst hcur
      simp only [FmCur.points, List.append_nil]
      refine ⟨?_, hi⟩
      rcases hr' with hr' | hr'
      · exact hr'
      · exact absurd hr' hnk
  · have hsplit : ∀ es : List FmEvent, (¬ ∀ e ∈ es, ¬ e.IsFail) → ∃ a e b, es = a ++ e :: b ∧ e.IsFail ∧ ∀ x ∈ a, ¬ x.IsFail := by
      intro es
      induction es with
      | nil => simp
      | cons e es ih =>
        intro hn
        by_cases he : e.IsFail
        · exact ⟨[], e, es, rfl, he, by simp⟩
        · obtain ⟨a, x, b, rfl, h1, h2⟩ := ih (by
            intro hall
            apply hn
            intro x hx
            rcases List.mem_cons.mp hx with rfl | hx
            · exact he
            · exact hall x hx)
          refine ⟨e :: a, x, b, rfl, h1, ?_⟩
          intro y hy
          rcases List.mem_cons.mp hy with rfl | hy
          · exact he
          · exact h2 y hy
    obtain ⟨a, e, b, hab, he, ha⟩ := hsplit events hf
    obtain ⟨s1, o1, c1, e1, g1, p1, k1, _⟩ := fm_run size a h1
    obtain ⟨s2, o2, c2, e2, g2⟩ := fm_step size g1 e
    obtain ⟨s3, o3, c3, e3, g3, _, _, _⟩ := fm_run size b g2.shape
    have hk := k1 header killed ha (by
      intro x hx
      exact hkill x (by rw [hab]; simp [hx])) h2
    obtain ⟨rest, hr⟩ := g2.failed header _ he hk
    have hone : s0.run size (a ++ [e]) = .ok s2 := by
      rw [fm_run_append, e1, Res.ok_bind]
      simp only [FmState.run, e2, Res.ok_bind]
    have hall : s0.run size events = .ok s3 := by
      rw [hab, fm_run_append, e1, Res.ok_bind]
      simp only [FmState.run, e2, Res.ok_bind]
      exact e3
    refine ⟨s3, hall, o1 ++ c1.points, rest, p1, g1.lt, hpre g1, ?_, ?_⟩
    · rw [hever a e b s2 s3 hab he hone hall]
      exact hr
    · intro hw
      exact absurd he (hw e (by rw [hab]; simp))

theorem fm_for_ever {α : Type} {enc : α → List U8} {thr : List (List α)} {acts : List (List FtAct)} (h : AllRel (FmDoes enc) thr acts)
    (header : List U8) (size : Nat) (events : List FmEvent) (hever : FmFailsForEver size (FmState.start header acts) events) :
    ∃ s, (FmState.start header acts).run size events = .ok s ∧ ∃ (order : List (Nat × α)) (rest : List U8),
      (∀ x ∈ order, x.1 < thr.length) ∧ (∀ (i : Nat) (l : List α), thr[i]? = some l → threadPart i order <+: l) ∧
      s.out ++ rest = header ++ fmBytes enc order ∧ (FmWhole events s → rest = [] ∧ Interleaves order thr) := by
  obtain ⟨h1, h2⟩ := fm_start h header (¬ ∀ e ∈ events, ¬ e.IsKill)
  obtain ⟨s, e1, order, rest, _, g1, g2, g3, g4⟩ := fm_ever_from size h1 h2 events (fun e he hk hall => hall e he hk) hever
  exact ⟨s, e1, order, rest, g1, g2, g3, fun hw => g4 (fun e he => (hw.1 e he).1) (fun hx => hx fun e he => (hw.1 e he).2) hw.2.1 hw.2.2⟩

/-- What is in the file while nothing has failed and no thread is recording. -/
theorem fm_idle {α : Type} {enc : α → List U8} {thr : List (List α)} {acts : List (List FtAct)} (h : AllRel (FmDoes enc) thr acts)
    (header : List U8) (size : Nat) (killed : Prop) (before : List FmEvent) (hbefore : ∀ e ∈ before, ¬ e.IsFail)
    (hkill : ∀ e ∈ before, e.IsKill → killed) (s1 : FmState)
    (hs1 : (FmState.start header acts).run size before = .ok s1) (hidle : s1.owner = none) (hon : s1.ended = false)
    (hthere : header <+: s1.out) :
    ∃ first : List (Nat × α), FmShape enc thr s1 first .none ∧ FmKept enc header killed s1 first .none ∧
      s1.out = header ++ fmBytes enc first ∧ s1.buf = [] := by
  obtain ⟨h1, h2⟩ := fm_start h header killed
  obtain ⟨t1, order, cur, e1, g1, _, k1, _⟩ := fm_run size before h1
  rw [hs1] at e1
  cases e1
  have hk := k1 header killed hbefore hkill h2
  have hcur : cur = .none := by
    have := g1.owner
    rw [hidle] at this
    cases cur <;> simp [FmCur.owner] at this
    rfl
  subst hcur
  have hgo := hk.goesOn hon
  simp only [FmCur.rem, FmCur.points, List.append_nil] at hgo
  have hbuf : s1.buf = [] := by
    by_cases hne : order = []
    · subst hne
      obtain ⟨T, hT⟩ := hthere
      rw [← hT, List.append_assoc] at hgo
      have := List.append_cancel_left hgo
      simp [fmBytes] at this
      exact this.2
    · exact hk.quiet hon hne rfl
  rw [hbuf, List.append_nil] at hgo
  exact ⟨order, g1, hk, hgo, hbuf⟩

/-- What is in the file at such a moment stays its beginning. -/
theorem fm_kept_for_ever {α : Type} {enc : α → List U8} {thr : List (List α)} {acts : List (List FtAct)} (h : AllRel (FmDoes enc) thr acts)
    (header : List U8) (size : Nat) (before after : List FmEvent) (hbefore : ∀ e ∈ before, ¬ e.IsFail) (s1 : FmState)
    (hs1 : (FmState.start header acts).run size before = .ok s1) (hidle : s1.owner = none) (hon : s1.ended = false)
    (hthere : header <+: s1.out) (hever : FmFailsForEver size s1 after) :
    ∃ s, (FmState.start header acts).run size (before ++ after) = .ok s ∧ ∃ (first later : List (Nat × α)) (T rest : List U8),
      s1.out = header ++ fmBytes enc first ∧
      (∀ x ∈ first ++ later, x.1 < thr.length) ∧
      (∀ (i : Nat) (l : List α), thr[i]? = some l → threadPart i (first ++ later) <+: l) ∧
      s.out = header ++ fmBytes enc first ++ T ∧ T ++ rest = fmBytes enc later ∧
      (FmWhole (before ++ after) s → rest = [] ∧ Interleaves (first ++ later) thr) := by
  have hkill : ∀ e ∈ before ++ after, e.IsKill → ¬ ∀ e ∈ before ++ after, ¬ e.IsKill := fun e he hk hall => hall e he hk
  obtain ⟨first, g1, hk, hgo, _⟩ := fm_idle h header size _ before hbefore (fun e he => hkill e (List.mem_append_left _ he)) s1 hs1 hidle
    hon hthere
  obtain ⟨s, e1, order, rest, ⟨later, hl⟩, q1, q2, q3, q4⟩ := fm_ever_from size g1 hk after (fun e he => hkill e (List.mem_append_right _ he)) hever
  simp only [FmCur.points, List.append_nil] at hl
  subst hl
  obtain ⟨T, hT⟩ := fm_grows size after s1 s e1
  refine ⟨s, by rw [fm_run_append, hs1, Res.ok_bind]; exact e1, first, later, T, rest, hgo, q1, q2, by rw [← hgo, hT], ?_, ?_⟩
  · rw [← hT, hgo, fmBytes_append, List.append_assoc, ← List.append_assoc header, List.append_assoc] at q3
    simp only [List.append_assoc] at q3
    exact List.append_cancel_left (List.append_cancel_left q3)
  · intro hw
    exact q4 (fun e he => (hw.1 e (List.mem_append_right _ he)).1) (fun hx => hx fun e he => (hw.1 e he).2) hw.2.1 hw.2.2

/-- Where points are lost as a whole. -/
theorem fm_for_a_time {α : Type} {enc : α → List U8} {thr : List (List α)} {acts : List (List FtAct)} (h : AllRel (FmDoes enc) thr acts)
    (header : List U8) (size : Nat) (hsmall : ∀ l ∈ thr, ∀ p ∈ l, (enc p).length ≤ size) (before after : List FmEvent)
    (hbefore : ∀ e ∈ before, ¬ e.IsFail) (hafter : ∀ e ∈ after, e.AllOrNothing size) (s1 : FmState)
    (hs1 : (FmState.start header acts).run size before = .ok s1) (hidle : s1.owner = none) (hon : s1.ended = false)
    (hthere : header <+: s1.out) :
    ∃ s, (FmState.start header acts).run size (before ++ after) = .ok s ∧
      ∃ (first later torn : List (Nat × α)) (T rest : List U8),
      s1.out = header ++ fmBytes enc first ∧
      (∀ x ∈ first ++ later ++ torn, x.1 < thr.length) ∧
      (∀ (i : Nat) (l : List α), thr[i]? = some l →
        ∃ more, l = threadPart i first ++ more ∧ (threadPart i (later ++ torn)).Sublist more) ∧
      s.out = header ++ fmBytes enc (first ++ later) ++ T ∧ T ++ rest = fmBytes enc torn ∧ torn.length ≤ 1 ∧
      (torn ≠ [] → s.ended = true ∧ s.owner.isSome = true) ∧
      (FmWhole (before ++ after) s → torn = [] ∧ Interleaves (first ++ later) thr) := by
  obtain ⟨order, g1, _, hgo, hbuf⟩ := fm_idle h header size True before hbefore (fun _ _ _ => trivial) s1 hs1 hidle hon hthere
  have hc : FmClean enc header s1 order .none :=
    ⟨fun _ => ⟨hgo, by rw [hbuf]; rfl⟩, fun hx => by rw [hon] at hx; cases hx⟩
  obtain ⟨s, order', cur', e2, g2, _, _, d2⟩ := fm_run size after g1
  obtain ⟨x, y, rfl, hx, hxy, hc'⟩ := d2 header order hsmall hafter hc
  have hparts : ∀ (z : List (Nat × α)), z.Sublist (y ++ cur'.points) → ∀ (i : Nat) (l : List α), thr[i]? = some l →
      ∃ more, l = threadPart i order ++ more ∧ (threadPart i z).Sublist more := by
    intro z hz i l hl
    obtain ⟨rest, _, _, e, _⟩ := g2.part i l hl
    refine ⟨threadPart i (y ++ cur'.points) ++ rest, ?_, ?_⟩
    · rw [e, List.append_assoc order]
      simp [threadPart]
    · exact ((hz.filter _).map _).trans (List.sublist_append_left _ _)
  have hlt : ∀ (z : List (Nat × α)), z.Sublist (y ++ cur'.points) → ∀ w ∈ order ++ z, w.1 < thr.length := by
    intro z hz w hw
    apply g2.lt
    rw [List.append_assoc]
    rcases List.mem_append.mp hw with hw | hw
    · exact List.mem_append_left _ hw
    · exact List.mem_append_right _ (hz.subset hw)
  have hx1 : (x ++ []).Sublist (y ++ cur'.points) := by
    rw [List.append_nil]
    exact hx.trans (List.sublist_append_left _ _)
  have hx2 : (x ++ cur'.points).Sublist (y ++ cur'.points) := hx.append (List.Sublist.refl _)
  have hall : FmWhole (before ++ after) s → cur' = .none ∧ Interleaves (order ++ x) thr := by
    intro hw
    rw [hxy fun e he => (hw.1 e (List.mem_append_right _ he)).1]
    exact fm_whole g2 hw.2.2
  refine ⟨s, by rw [fm_run_append, hs1, Res.ok_bind]; exact e2, order, x, ?_⟩
  have plain : s.out = header ++ fmBytes enc (order ++ x) → ∃ (torn : List (Nat × α)) (T rest : List U8),
      s1.out = header ++ fmBytes enc order ∧
      (∀ w ∈ order ++ x ++ torn, w.1 < thr.length) ∧
      (∀ (i : Nat) (l : List α), thr[i]? = some l →
        ∃ more, l = threadPart i order ++ more ∧ (threadPart i (x ++ torn)).Sublist more) ∧
      s.out = header ++ fmBytes enc (order ++ x) ++ T ∧ T ++ rest = fmBytes enc torn ∧ torn.length ≤ 1 ∧
      (torn ≠ [] → s.ended = true ∧ s.owner.isSome = true) ∧
      (FmWhole (before ++ after) s → torn = [] ∧ Interleaves (order ++ x) thr) :=
    fun ho => ⟨[], [], [], hgo, by rw [List.append_assoc]; exact hlt _ hx1, hparts _ hx1, by rw [List.append_nil]; exact ho, rfl,
      by simp, by simp, fun hw => ⟨rfl, (hall hw).2⟩⟩
  cases hend : s.ended with
  | false =>
    rw [hend] at plain
    exact plain (hc'.goesOn hend).1
  | true =>
    rw [hend] at plain
    rcases hc'.over hend with ho | ⟨T, ho, hT⟩
    · exact plain ho
    · refine ⟨cur'.points, T, cur'.rem, hgo, by rw [List.append_assoc]; exact hlt _ hx2, hparts _ hx2, ho, hT, ?_, ?_, ?_⟩
      · cases cur' <;> simp [FmCur.points]
      · intro hr
        refine ⟨rfl, ?_⟩
        rw [g2.owner]
        cases cur' with
        | none => exact absurd rfl hr
        | flushed i => rfl
        | writing i p puts => rfl
      · intro hw
        obtain ⟨hn, hi⟩ := hall hw
        subst hn
        exact ⟨rfl, hi⟩

/-! ### Programs built from a project -/

/-- A statement passed, the point recorded, and the calls that record it. -/
abbrev FmPoint := ProjVisit × RecPoint × (U64 × List RtCall)

/-- The bytes of a point. -/
def FmPoint.enc (r : ProjRun) (x : FmPoint) : List U8 := encodePoint (r.header.types.map TypeRow.desc) x.2.1.entries

/-- The point is what the program built from the project records. -/
def FmPoint.Ok (cf : CFloat) (mem : CMem) (r : ProjRun) (x : FmPoint) : Prop :=
  x.1.RunsAs cf mem (r.project.plain ++ r.project.mains) x.2.2 ∧ x.2.1.CalledAs cf mem x.2.2 ∧
    (∀ y ∈ x.2.1.items, y.Typed r.header.names (r.header.types.map TypeRow.desc) cf) ∧ recSizes x.2.1.items = []

theorem fm_thread {cf : CFloat} {mem : CMem} {r : ProjRun} : ∀ (l : List FmPoint), (∀ x ∈ l, x.Ok cf mem r) → ∀ acts,
    ftItems cf mem [] ((l.map (·.2.2)).map .point) = .ok acts → FmDoes (FmPoint.enc r) l acts
  | [], _, acts, h => by
    simp only [List.map_nil, ftItems] at h
    cases h
    exact .nil
  | x :: l, hx, acts, h => by
    simp only [List.map_cons, ftItems, FtItem.acts] at h
    obtain ⟨a, ha, h⟩ := Res.bind_eq_ok.mp h
    obtain ⟨b, hb, h⟩ := Res.bind_eq_ok.mp h
    cases h
    obtain ⟨_, hc, ht, _⟩ := hx x (by simp)
    obtain ⟨puts, rfl, hp⟩ := ftCalls_point (ft_plain hc) ha (point_bytes hc ht)
    have := FmDoes.point (enc := FmPoint.enc r) (p := x) hp (fm_thread l (fun y hy => hx y (List.mem_cons_of_mem _ hy)) b hb)
    simpa using this

theorem failThreads_known (env : Env) (cf : CFloat) (mem : CMem) (r : ProjRun) (calls : List (List (U64 × List RtCall))) (acts : List (List FtAct))
    (hb : r.Built) (hd : r.DoesThreads cf mem calls acts) (hal : ∀ n, env.canAlloc n = true) :
    ∃ thr : List (List FmPoint), r.threads = thr.map (List.map (·.1)) ∧ calls = thr.map (List.map (·.2.2)) ∧
      (∀ l ∈ thr, ∀ x ∈ l, x.Ok cf mem r) ∧ AllRel (FmDoes (FmPoint.enc r)) thr acts ∧
      HeaderOk r.header.names (r.header.types.map TypeRow.desc) ∧ r.header.names.length < 2 ^ 32 ∧
      (∀ ty ∈ r.header.types.map TypeRow.desc, ty.Sane) ∧
      ∀ vs rs, AllRel (r.Records cf mem) vs rs → (∀ v ∈ vs, v ∈ r.threads.flatten) →
        ∃ ps types, AllRel (ProjVisit.Shown (instrumentationFiles r.evolve)) vs ps ∧
          KnownTrace ⟨r.header.names, r.header.types.map TypeRow.desc, recPoints 0 [] rs⟩ types ps ∧
          ∀ n, r.header.HasType n → n ∈ types := by
  obtain ⟨hfit, hr, hacts⟩ := hd
  have hone : (⟨r.evolve, r.other, r.project, r.header, [r.threads.flatten], r.limit⟩ : ProjRun).Built := by
    obtain ⟨b1, b2, b3, b4, b5, b6⟩ := hb
    refine ⟨b1, b2, b3, b4, ?_, b6⟩
    rcases b5 with ⟨p, o, ho, hh, hv⟩ | hm
    · refine .inl ⟨p, o, ho, hh, ?_⟩
      intro l hl v hv'
      rw [List.mem_singleton.mp hl] at hv'
      obtain ⟨l', hl', hv'⟩ := List.mem_flatten.mp hv'
      exact hv l' hl' v hv'
    · exact .inr hm
  have hin : ∀ l ∈ r.threads, ∀ v ∈ l, v ∈ r.threads.flatten := fun l hl v hv => List.mem_flatten.mpr ⟨l, hl, hv⟩
  obtain ⟨hdr, hn, hsane, hrec, hknown⟩ := visited_known env cf mem _ _ hone rfl (by
    intro v hv
    obtain ⟨l, hl, hv⟩ := List.mem_flatten.mp hv
    exact hfit l hl v hv) (by
    intro v hv
    obtain ⟨l, hl, hv⟩ := List.mem_flatten.mp hv
    obtain ⟨cs, _, hcs⟩ := hr.mem_left l hl
    obtain ⟨c, _, hc⟩ := hcs.mem_left v hv
    exact ⟨c, hc⟩) hal
  obtain ⟨thr, h1, h2⟩ := hr.midEach (P := fun v c (x : FmPoint) => x.1 = v ∧ x.2.2 = c ∧ x.Ok cf mem r) (by
    intro l hl v hv c hc
    obtain ⟨p, hp⟩ := hrec v (hin l hl v hv) c hc
    exact ⟨(v, p, c), rfl, rfl, hc, hp⟩)
  have same : ∀ {l : List ProjVisit} {m : List FmPoint}, AllRel (fun v (x : FmPoint) => ∃ c, v.RunsAs cf mem (r.project.plain ++ r.project.mains) c ∧
      x.1 = v ∧ x.2.2 = c ∧ x.Ok cf mem r) l m → l = m.map (·.1) ∧ ∀ x ∈ m, x.Ok cf mem r := by
    intro l m h
    induction h with
    | nil => simp
    | cons h _ ih =>
      obtain ⟨_, _, rfl, _, ho⟩ := h
      refine ⟨by rw [List.map_cons, ← ih.1], ?_⟩
      intro x hx
      rcases List.mem_cons.mp hx with rfl | hx
      · exact ho
      · exact ih.2 x hx
  have samec : ∀ {m : List FmPoint} {l : List (U64 × List RtCall)}, AllRel (fun (x : FmPoint) c => ∃ v : ProjVisit, x.1 = v ∧ x.2.2 = c ∧ x.Ok cf mem r) m l →
      l = m.map (·.2.2) := by
    intro m l h
    induction h with
    | nil => rfl
    | cons h _ ih =>
      obtain ⟨_, _, rfl, _⟩ := h
      rw [List.map_cons, ← ih]
  have hok : ∀ l ∈ thr, ∀ x ∈ l, x.Ok cf mem r := by
    intro l hl
    obtain ⟨vs, _, hvs⟩ := h1.mem_right l hl
    exact (same hvs).2
  have hthr : r.threads = thr.map (List.map (·.1)) := by
    have : ∀ {a : List (List ProjVisit)} {b : List (List FmPoint)}, AllRel (AllRel (fun v (x : FmPoint) =>
        ∃ c, v.RunsAs cf mem (r.project.plain ++ r.project.mains) c ∧ x.1 = v ∧ x.2.2 = c ∧ x.Ok cf mem r)) a b → a = b.map (List.map (·.1)) := by
      intro a b h
      induction h with
      | nil => rfl
      | cons h _ ih => rw [List.map_cons, ← ih, (same h).1]
    exact this h1
  have hcalls : calls = thr.map (List.map (·.2.2)) := by
    have : ∀ {b : List (List FmPoint)} {a : List (List (U64 × List RtCall))}, AllRel (AllRel (fun (x : FmPoint) c =>
        ∃ v : ProjVisit, x.1 = v ∧ x.2.2 = c ∧ x.Ok cf mem r)) b a → a = b.map (List.map (·.2.2)) := by
      intro b a h
      induction h with
      | nil => rfl
      | cons h _ ih => rw [List.map_cons, ← ih, ← samec h]
    exact this h2
  refine ⟨thr, hthr, hcalls, hok, ?_, hdr, hn, hsane, fun vs rs h hv => hknown vs rs h hv⟩
  rw [hcalls] at hacts
  clear hthr hcalls h1 h2
  have : ∀ (thr : List (List FmPoint)), (∀ l ∈ thr, ∀ x ∈ l, x.Ok cf mem r) → ∀ acts,
      AllRel (fun (l : List (U64 × List RtCall)) a => ftItems cf mem [] (l.map .point) = .ok a) (thr.map (List.map (·.2.2))) acts →
      AllRel (FmDoes (FmPoint.enc r)) thr acts := by
    intro thr
    induction thr with
    | nil => intro _ acts h; cases h; exact .nil
    | cons l thr ih =>
      intro hok acts h
      cases h with
      | cons h1 h2 => exact .cons (fm_thread l (hok l (by simp)) _ h1) (ih (fun l hl => hok l (List.mem_cons_of_mem _ hl)) _ h2)
  exact this thr hok acts hacts

/-- What is known about points recorded in some order. -/
theorem fm_order {cf : CFloat} {mem : CMem} {r : ProjRun} {thr : List (List FmPoint)} (hthr : r.threads = thr.map (List.map (·.1)))
    (hok : ∀ l ∈ thr, ∀ x ∈ l, x.Ok cf mem r) {order : List (Nat × FmPoint)} (hlt : ∀ x ∈ order, x.1 < thr.length)
    (hsub : ∀ (i : Nat) (l : List FmPoint), thr[i]? = some l → (threadPart i order).Sublist l) :
    (∀ x ∈ order, x.2.Ok cf mem r ∧ x.2.1 ∈ r.threads.flatten) ∧ order.length ≤ r.threads.flatten.length ∧
      AllRel (r.Records cf mem) (order.map (·.2.1)) (order.map (·.2.2.1)) := by
  have h1 : ∀ x ∈ order, x.2.Ok cf mem r ∧ x.2.1 ∈ r.threads.flatten := by
    intro x hx
    have hi := hlt x hx
    have hm : x.2 ∈ thr[x.1] := by
      apply (hsub x.1 _ (List.getElem?_eq_getElem hi)).subset
      unfold threadPart
      refine List.mem_map.mpr ⟨x, List.mem_filter.mpr ⟨hx, by simp⟩, rfl⟩
    refine ⟨hok _ (List.getElem_mem hi) _ hm, ?_⟩
    rw [hthr]
    exact List.mem_flatten.mpr ⟨_, List.mem_map.mpr ⟨_, List.getElem_mem hi, rfl⟩, List.mem_map.mpr ⟨_, hm, rfl⟩⟩
  refine ⟨h1, ?_, ?_⟩
  · have : thr.flatten.length = r.threads.flatten.length := by
      rw [hthr, ← List.map_flatten, List.length_map]
    rw [← this, order_length thr.length order hlt]
    exact range_sum_le _ thr fun i l hl => (hsub i l hl).length_le
  · clear hsub hlt
    induction order with
    | nil => exact .nil
    | cons x order ih =>
      exact .cons ⟨_, (h1 x (by simp)).1⟩ (ih fun y hy => h1 y (List.mem_cons_of_mem _ hy))

/-- Reading a file that ends within the points. -/
theorem fm_read (env : Env) (io : Bool) {cf : CFloat} {mem : CMem} {r : ProjRun} {order : List (Nat × FmPoint)}
    (hok : ∀ x ∈ order, x.2.Ok cf mem r) (hdr : HeaderOk r.header.names (r.header.types.map TypeRow.desc))
    (hn : r.header.names.length < 2 ^ 32) (hsane : ∀ ty ∈ r.header.types.map TypeRow.desc, ty.Sane)
    (henv : env.junk.isSome = true) (hal : ∀ n, env.canAlloc n = true) {header : List U8}
    (hheader : writeTraceHeader r.header.names (r.header.types.map TypeRow.desc) = .ok header) {out rest : List U8}
    (hthere : header <+: out) (hcut : out ++ rest = header ++ fmBytes (FmPoint.enc r) order) :
    ∃ j, (rest = [] → order.length ≤ j) ∧
      ((readTrace env r.limit ⟨out, io, .good⟩ = .throw (endExn io) ∧ rest ≠ []) ∨
      readTrace env r.limit ⟨out, io, .good⟩ =
        .ok ⟨r.header.names, r.header.types.map TypeRow.desc, recPoints 0 [] (limited r.limit ((order.take j).map (·.2.2.1)))⟩) := by
  obtain ⟨T, rfl⟩ := hthere
  have hcalls : AllRel (RecPoint.CalledAs cf mem) (order.map (·.2.2.1)) (order.map (·.2.2.2)) := by
    clear hcut
    induction order with
    | nil => exact .nil
    | cons x order ih => exact .cons (hok x (by simp)).2.1 (ih fun y hy => hok y (List.mem_cons_of_mem _ hy))
  obtain ⟨j, h1, h2⟩ := read_cut env io cf mem (rs := order.map (·.2.2.1)) (T := T) (rest := rest) hdr hn hcalls (by
      intro p hp
      obtain ⟨x, hx, rfl⟩ := List.mem_map.mp hp
      exact (hok x hx).2.2.1) hsane (by
      intro p hp
      obtain ⟨x, hx, rfl⟩ := List.mem_map.mp hp
      rw [(hok x hx).2.2.2]
      simp) henv hal hheader (by
      rw [hcut]
      simp only [fmBytes, encodePoints, List.flatMap, List.map_map]
      rfl)
  rw [List.length_map] at h1
  refine ⟨j, h1, ?_⟩
  rw [List.map_take]
  exact h2 r.limit

theorem recPoints_length : ∀ (i : Nat) (H : List BufferSize) (ps : List RecPoint), (recPoints i H ps).length = ps.length
  | _, _, [] => rfl
  | i, H, p :: ps => by simp [recPoints, recPoints_length]

/-- Reading points and a part of another one. -/
theorem read_torn (env : Env) (io : Bool) (cf : CFloat) (mem : CMem) {names : List Name} {types : List TypeDesc} {rs torn : List RecPoint}
    {calls : List (U64 × List RtCall)} (hdr : HeaderOk names types) (hn : names.length < 2 ^ 32)
    (hcalls : AllRel (RecPoint.CalledAs cf mem) (rs ++ torn) calls) (htyped : ∀ p ∈ rs ++ torn, ∀ x ∈ p.items, x.Typed names types cf)
    (hsane : ∀ ty ∈ types, ty.Sane) (hres : ∀ p ∈ rs ++ torn, ∀ r ∈ recSizes p.items, r.address ≠ u64Max)
    (henv : env.junk.isSome = true) (hal : ∀ n, env.canAlloc n = true) {header : List U8}
    (hheader : writeTraceHeader names types = .ok header) {T rest : List U8}
    (hcut : T ++ rest = encodePoints types (torn.map RecPoint.entries)) (k : U64) :
    (readTrace env k (gs io (header ++ (encodePoints types (rs.map RecPoint.entries) ++ T))) = .throw (endExn io) ∧ rest ≠ [] ∧
      (k = 0 ∨ rs.length < k.toNat)) ∨
    ∃ qs, qs <+: torn ∧ (rest = [] → qs = torn) ∧ readTrace env k (gs io (header ++ (encodePoints types (rs.map RecPoint.entries) ++ T))) =
      .ok ⟨names, types, recPoints 0 [] (limited k (rs ++ qs))⟩ := by
  have hh : header = encodeHeader names types := by
    rw [writeTraceHeader_ok hdr hn] at hheader
    cases hheader
    rfl
  have hwf : ∀ p ∈ rs ++ torn, ∀ e ∈ p.entries, e.WF names types := by
    intro p hp e he
    rcases List.mem_cons.mp he with rfl | he
    · trivial
    · obtain ⟨x, hx, he⟩ := List.mem_flatMap.mp he
      exact recorded_wf (htyped p hp x hx) e he
  have hbytes : encodePoints types (rs.map RecPoint.entries) ++ T ++ rest = encodePoints types ((rs ++ torn).map RecPoint.entries) := by
    rw [List.append_assoc, hcut, List.map_append, encodePoints_append]
  obtain ⟨j, hj, hread⟩ := read_cut env io cf mem (rs := rs ++ torn) (T := encodePoints types (rs.map RecPoint.entries) ++ T) (rest := rest)
    hdr hn hcalls htyped hsane hres henv hal hheader (by rw [List.append_assoc, hbytes])
  have enough : rs.length ≤ j → (k = 0 ∨ rs.length < k.toNat) → (readTrace env k (gs io (header ++ (encodePoints types (rs.map RecPoint.entries) ++ T))) = .throw (endExn io) ∧ rest ≠ [] ∧ (k = 0 ∨ rs.length < k.toNat)) ∨
      ∃ qs, qs <+: torn ∧ (rest = [] → qs = torn) ∧ readTrace env k (gs io (header ++ (encodePoints types (rs.map RecPoint.entries) ++ T))) = .ok ⟨names, types, recPoints 0 [] (limited k (rs ++ qs))⟩ := by
    intro hle hk
    rcases hread k with ⟨hx, hr⟩ | hx
    · exact .inl ⟨hx, hr, hk⟩
    · rw [List.take_append, List.take_of_length_le hle] at hx
      refine .inr ⟨_, List.take_prefix _ _, ?_, hx⟩
      intro hr
      have := hj hr
      rw [List.length_append] at this
      exact List.take_of_length_le (by omega)
  -- a limit that the complete points reach
  have limit : ∀ k : U64, k ≠ 0 → k.toNat ≤ rs.length → readTrace env k (gs io (header ++ (encodePoints types (rs.map RecPoint.entries) ++ T))) =
      .ok ⟨names, types, recPoints 0 [] (limited k rs)⟩ := by
    intro k hk hle
    have hsplit : encodePoints types (rs.map RecPoint.entries) =
        encodePoints types ((rs.take k.toNat).map RecPoint.entries) ++ encodePoints types ((rs.drop k.toNat).map RecPoint.entries) := by
      rw [← encodePoints_append, ← List.map_append, List.take_append_drop]
    have hm : ∀ q ∈ (rs.take k.toNat).map RecPoint.entries, ∃ p ∈ rs ++ torn, q = p.entries := by
      intro q hq
      obtain ⟨p, hp, rfl⟩ := List.mem_map.mp hq
      exact ⟨p, List.mem_append_left _ (List.mem_of_mem_take hp), rfl⟩
    rw [hh, hsplit, List.append_assoc, C08_limit_ignores_damage env io k hk names types _ _ hdr hal (by
      intro q hq
      obtain ⟨p, hp, rfl⟩ := hm q hq
      exact hwf p hp) (by simp [hle]) (by
      intro q hq
      obtain ⟨p, _, rfl⟩ := hm q hq
      rw [entryStmt_point]; rfl) (reservedOk_of_unused (by
      intro r hr
      obtain ⟨q, hq, hr⟩ := List.mem_flatMap.mp hr
      obtain ⟨p, hp, rfl⟩ := hm q hq
      rw [entrySizes_point] at hr
      exact hres p hp r hr))]
    rw [pointsOf_recorded (cf := cf) (names := names) 0 (rs.take k.toNat) 0 [] (by
      intro p hp
      exact htyped p (List.mem_append_left _ (List.mem_of_mem_take hp)))]
    unfold limited
    rw [if_neg hk]
  by_cases hk : k = 0
  · subst hk
    rcases hread 0 with ⟨hx, hr⟩ | hx
    · exact .inl ⟨hx, hr, .inl rfl⟩
    · refine enough ?_ (.inl rfl)
      obtain ⟨k', h1, h2, _, h4⟩ := C03_cut_trace_yields_complete_points env io names types ((rs ++ torn).map RecPoint.entries)
        (encodePoints types (rs.map RecPoint.entries) ++ T) rest hdr (by
          intro q hq
          obtain ⟨p, hp, rfl⟩ := List.mem_map.mp hq
          exact hwf p hp) (by
          intro q hq
          obtain ⟨p, _, rfl⟩ := List.mem_map.mp hq
          rw [entryStmt_point]; rfl) hbytes _ (by rw [← hh]; exact hx)
      have hk' : rs.length ≤ k' := by
        apply Nat.le_of_not_lt
        intro hlt
        apply h4 (by rw [List.length_map, List.length_append]; omega)
        refine List.IsPrefix.trans ?_ (List.prefix_append _ _)
        rw [← List.map_take, List.take_append_of_le_length (by omega)]
        refine ⟨encodePoints types ((rs.drop (k' + 1)).map RecPoint.entries), ?_⟩
        rw [← encodePoints_append, ← List.map_append, List.take_append_drop]
      have hpts := congrArg (fun t : Trace => t.points.length) h2
      dsimp only at hpts
      rw [← List.map_take, pointsOf_recorded (cf := cf) (names := names) 0 _ 0 [] (by
        intro p hp
        exact htyped p (List.mem_of_mem_take hp)), recPoints_length, recPoints_length] at hpts
      simp only [limited, if_pos, List.length_take] at hpts
      rw [List.length_map] at h1
      omega
  · by_cases hle : k.toNat ≤ rs.length
    · refine .inr ⟨torn, List.prefix_rfl, fun _ => rfl, ?_⟩
      rw [limit k hk hle, limited, limited, if_neg hk, if_neg hk, List.take_append_of_le_length hle]
    · refine enough ?_ (.inr (by omega))
      by_cases hz : rs.length = 0
      · omega
      · have hto : (BitVec.ofNat 64 rs.length).toNat = rs.length := by
          rw [BitVec.toNat_ofNat, Nat.mod_eq_of_lt]
          have := k.isLt
          omega
        have hne : BitVec.ofNat 64 rs.length ≠ 0 := by
          intro hx
          rw [hx] at hto
          exact hz hto.symm
        have h1 := limit (BitVec.ofNat 64 rs.length) hne (by omega)
        rcases hread (BitVec.ofNat 64 rs.length) with ⟨hx, _⟩ | hx
        · rw [h1] at hx
          cases hx
        · rw [h1] at hx
          have hx := congrArg (fun r : Res Trace => match r with | .ok t => t.points.length | _ => 0) hx
          dsimp only at hx
          rw [recPoints_length, recPoints_length] at hx
          simp only [limited, if_neg hne, List.length_take, hto] at hx
          omega

/-- Reading a file that ends within a point. -/
theorem fm_read_torn (env : Env) (io : Bool) {cf : CFloat} {mem : CMem} {r : ProjRun} {order torn : List (Nat × FmPoint)}
    (hok : ∀ x ∈ order ++ torn, x.2.Ok cf mem r) (hdr : HeaderOk r.header.names (r.header.types.map TypeRow.desc))
    (hn : r.header.names.length < 2 ^ 32) (hsane : ∀ ty ∈ r.header.types.map TypeRow.desc, ty.Sane)
    (henv : env.junk.isSome = true) (hal : ∀ n, env.canAlloc n = true) {header : List U8}
    (hheader : writeTraceHeader r.header.names (r.header.types.map TypeRow.desc) = .ok header) {T rest : List U8}
    (hcut : T ++ rest = fmBytes (FmPoint.enc r) torn) :
    (readTrace env r.limit ⟨header ++ fmBytes (FmPoint.enc r) order ++ T, io, .good⟩ = .throw (endExn io) ∧ rest ≠ [] ∧
      (r.limit = 0 ∨ order.length < r.limit.toNat)) ∨
    ∃ qs, qs <+: torn ∧ (rest = [] → qs = torn) ∧ readTrace env r.limit ⟨header ++ fmBytes (FmPoint.enc r) order ++ T, io, .good⟩ =
      .ok ⟨r.header.names, r.header.types.map TypeRow.desc, recPoints 0 [] (limited r.limit ((order ++ qs).map (·.2.2.1)))⟩ := by
  have hcalls : AllRel (RecPoint.CalledAs cf mem) ((order ++ torn).map (·.2.2.1)) ((order ++ torn).map (·.2.2.2)) := by
    generalize order ++ torn = o at hok
    induction o with
    | nil => exact .nil
    | cons x order ih => exact .cons (hok x (by simp)).2.1 (ih fun y hy => hok y (List.mem_cons_of_mem _ hy))
  have henc : ∀ o : List (Nat × FmPoint), fmBytes (FmPoint.enc r) o =
      encodePoints (r.header.types.map TypeRow.desc) ((o.map (·.2.2.1)).map RecPoint.entries) := by
    intro o
    simp only [fmBytes, encodePoints, List.flatMap, List.map_map]
    rfl
  rw [List.map_append] at hcalls
  have hmem : ∀ p ∈ order.map (·.2.2.1) ++ torn.map (·.2.2.1), ∃ x ∈ order ++ torn, x.2.2.1 = p := by
    intro p hp
    rw [← List.map_append] at hp
    exact List.mem_map.mp hp
  have key := read_torn env io cf mem (rs := order.map (·.2.2.1)) (torn := torn.map (·.2.2.1)) (T := T) (rest := rest) hdr hn hcalls (by
      intro p hp
      obtain ⟨x, hx, rfl⟩ := hmem p hp
      exact (hok x hx).2.2.1) hsane (by
      intro p hp
      obtain ⟨x, hx, rfl⟩ := hmem p hp
      rw [(hok x hx).2.2.2]
      simp) henv hal hheader (by rw [hcut, henc]) r.limit
  rw [← henc, ← List.append_assoc] at key
  rw [List.length_map] at key
  rcases key with hx | ⟨qs, hq, hr, hx⟩
  · exact .inl hx
  · obtain ⟨more, hq⟩ := hq
    refine .inr ⟨torn.take qs.length, List.take_prefix _ _, ?_, ?_⟩
    · intro h
      rw [hr h, List.length_map, List.take_length]
    · rw [List.map_append, List.map_take, ← hq, List.take_left]
      exact hx

end TraceDB
