import Verif.Spec.ForeignBytes
import Verif.Proofs.Bytes
/-
Lemmas about memory as bytes.
-/
namespace TraceDB

theorem BMem.get_length (m : BMem) (a n : Nat) : (m.get a n).length = n := by simp [BMem.get]

theorem BMem.get_congr {m m' : BMem} {a n : Nat} (h : ∀ x, InRange a n x → m' x = m x) : m'.get a n = m.get a n := by
  unfold BMem.get
  apply List.map_congr_left
  intro i hi
  have := List.mem_range.mp hi
  exact h _ ⟨by omega, by omega⟩

theorem BMem.getNat_congr {m m' : BMem} {a n : Nat} (h : ∀ x, InRange a n x → m' x = m x) :
    m'.getNat a n = m.getNat a n := by
  unfold BMem.getNat
  rw [BMem.get_congr h]

theorem BMem.put_other {m : BMem} {a : Nat} {bs : List U8} {x : Nat} (h : ¬ InRange a bs.length x) : m.put a bs x = m x := by
  unfold BMem.put
  exact if_neg h

theorem BMem.get_put (m : BMem) (a : Nat) (bs : List U8) : (m.put a bs).get a bs.length = bs := by
  apply List.ext_getElem
  · rw [BMem.get_length]
  · intro i h1 h2
    simp only [BMem.get, List.getElem_map, List.getElem_range, BMem.put]
    rw [if_pos ⟨by omega, by omega⟩]
    have e : a + i - a = i := by omega
    rw [e]
    simp [h2]

theorem BMem.putNat_other {m : BMem} {a n v x : Nat} (h : ¬ InRange a n x) : m.putNat a n v x = m x := by
  unfold BMem.putNat
  exact BMem.put_other (by rw [leBytes_length]; exact h)

theorem BMem.getNat_putNat {m : BMem} {a n v : Nat} (h : v < 256 ^ n) : (m.putNat a n v).getNat a n = v := by
  unfold BMem.putNat BMem.getNat
  have := BMem.get_put m a (leBytes n v)
  rw [leBytes_length] at this
  rw [this, leNat_leBytes_of_lt h]

theorem BMem.getNat_putNat_disj {m : BMem} {a n b k v : Nat} (h : a + n ≤ b ∨ b + k ≤ a) :
    (m.putNat b k v).getNat a n = m.getNat a n :=
  BMem.getNat_congr fun x hx => BMem.putNat_other (by unfold InRange at *; omega)

theorem BMem.getNat_lt (m : BMem) (a n : Nat) : m.getNat a n < 256 ^ n := by
  have := leNat_lt (m.get a n)
  rw [BMem.get_length] at this
  exact this

/-- The low bytes of a number. -/
theorem BMem.getNat_low {m : BMem} {a k v n : Nat} (h : k ≤ n) : (m.putNat a n v).getNat a k = v % 256 ^ k := by
  have h0 := leNat_leBytes k v
  rw [← h0]
  unfold BMem.getNat
  congr 1
  apply List.ext_getElem
  · rw [BMem.get_length, leBytes_length]
  · intro i h1 h2
    rw [leBytes_length] at h2
    simp only [BMem.get, List.getElem_map, List.getElem_range, BMem.putNat, BMem.put, leBytes_length]
    rw [if_pos ⟨by omega, by omega⟩]
    have e : a + i - a = i := by omega
    rw [e]
    have key : ∀ (n k i v : Nat) (h1 : i < k) (_ : k ≤ n), (leBytes n v).getD i 0 = (leBytes k v)[i]'(by rw [leBytes_length]; exact h1) := by
      intro n
      induction n with
      | zero => intro k i v h1 h2; omega
      | succ n ih =>
        intro k i v h1 h2
        cases k with
        | zero => omega
        | succ k =>
          cases i with
          | zero => rfl
          | succ i =>
            simp only [leBytes, List.getD_cons_succ, List.getElem_cons_succ]
            exact ih k i _ (by omega) (by omega)
    exact key n k i v h2 h

/-! Layouts -/

theorem roundUp_eq_adjust (off a : Nat) (h : 0 < a) : roundUp off a = cffiAdjust off a := by
  unfold roundUp cffiAdjust
  have h0 := Nat.div_add_mod off a
  have h1 := Nat.mod_lt off h
  generalize off / a = q at h0
  generalize off % a = r at h0 h1
  subst h0
  split
  · rename_i hr
    subst hr
    have e : a * q + 0 + a - 1 = a * q + (a - 1) := by omega
    rw [e, Nat.mul_add_div h, Nat.div_eq_of_lt (by omega), Nat.add_zero, Nat.mul_comm]
    omega
  · rename_i hr
    have e : a * q + r + a - 1 = a * (q + 1) + (r - 1) := by rw [Nat.mul_add]; omega
    rw [e, Nat.mul_add_div h, Nat.div_eq_of_lt (by omega), Nat.add_zero, Nat.add_mul, Nat.mul_comm q a]
    omega

theorem cLayout_eq_cffi : ∀ (ms : List (Member × Nat × Nat)) (off : Nat), (∀ m ∈ ms, 0 < m.2.2) →
    cLayout off ms = cffiLayout off ms
  | [], _, _ => rfl
  | (x, n, a) :: ms, off, h => by
    simp only [cLayout, cffiLayout]
    rw [roundUp_eq_adjust off a (h _ (List.mem_cons_self ..)), cLayout_eq_cffi ms _ fun m hm => h m (List.mem_cons_of_mem _ hm)]

theorem cSizeof_eq_cffi (ms : List (Member × Nat × Nat)) (h : ∀ m ∈ ms, 0 < m.2.2) : cSizeof ms = cffiSizeof ms := by
  unfold cSizeof cffiSizeof
  have h1 : ∀ (l : List (Member × Nat × Nat)) (off : Nat), (∀ m ∈ l, 0 < m.2.2) →
      l.foldl (fun off m => roundUp off m.2.2 + m.2.1) off = l.foldl (fun off m => cffiAdjust off m.2.2 + m.2.1) off := by
    intro l
    induction l with
    | nil => intro _ _; rfl
    | cons m l ih =>
      intro off hl
      simp only [List.foldl_cons]
      rw [roundUp_eq_adjust _ _ (hl m (List.mem_cons_self ..))]
      exact ih _ fun m' hm => hl m' (List.mem_cons_of_mem _ hm)
  have h2 : ∀ (l : List (Member × Nat × Nat)) (a : Nat), 0 < a → 0 < l.foldl (fun a m => max a m.2.2) a := by
    intro l
    induction l with
    | nil => intro a ha; exact ha
    | cons m l ih => intro a ha; exact ih _ (Nat.lt_of_lt_of_le ha (Nat.le_max_left ..))
  rw [h1 ms 0 h]
  exact roundUp_eq_adjust _ _ (h2 ms 1 (by omega))

/-! Allocation -/

theorem InUse.append_left {bs bs' : List (Nat × Nat)} {x : Nat} (h : InUse bs x) : InUse (bs ++ bs') x := by
  obtain ⟨b, hb, hx⟩ := h
  exact ⟨b, List.mem_append_left _ hb, hx⟩

theorem OnlyNew.refl (s : FState) : OnlyNew s s :=
  ⟨⟨[], by simp, by simp⟩, fun _ _ => rfl, fun _ _ => rfl⟩

theorem OnlyNew.use {s s' : FState} (h : OnlyNew s s') {x : Nat} (hx : InUse s.blocks x) : InUse s'.blocks x := by
  obtain ⟨new, e, _⟩ := h.blocks
  rw [e]
  exact hx.append_left

theorem OnlyNew.trans {a b c : FState} (h : OnlyNew a b) (h' : OnlyNew b c) : OnlyNew a c := by
  obtain ⟨n1, e1, p1⟩ := h.blocks
  obtain ⟨n2, e2, p2⟩ := h'.blocks
  refine ⟨⟨n1 ++ n2, by rw [e2, e1, List.append_assoc], ?_⟩, ?_, ?_⟩
  · intro x hx
    rcases List.mem_append.mp hx with hx | hx
    · exact p1 x hx
    · obtain ⟨q1, q2, q3⟩ := p2 x hx
      exact ⟨q1, q2, fun y hy hu => q3 y hy (h.use hu)⟩
  · intro x hx
    rw [h'.same x (h.use hx), h.same x hx]
  · intro x hx
    rw [h'.free x hx, h.free x fun hu => hx (h'.use hu)]

theorem OnlyNew.keeps {s s' : FState} (h : OnlyNew s s') {a : Nat} {bs : List U8} (hk : s.Keeps a bs) : s'.Keeps a bs :=
  ⟨hk.pos, hk.bound, fun x hx => h.use (hk.used x hx), by
    rw [BMem.get_congr (m := s.mem) fun x hx => h.same x (hk.used x hx)]
    exact hk.bytes⟩

theorem OnlyNew.kept {s s' : FState} (h : OnlyNew s s') {place : TraceAt} {t : Trace} {points : List Point}
    (hk : place.Kept t points s) : place.Kept t points s' :=
  ⟨fun i n hn => h.keeps (hk.name i n hn), fun p hp v hv bs e => h.keeps (hk.blob p hp v hv bs e)⟩

/-- Changes of bytes that are not in use. -/
theorem OnlyNew.write {s s' : FState} (h : OnlyNew s s') {m : BMem}
    (hm : ∀ x, (InUse s.blocks x ∨ ¬ InUse s'.blocks x) → m x = s'.mem x) : OnlyNew s ⟨m, s'.blocks⟩ :=
  ⟨h.blocks, fun x hx => (hm x (Or.inl hx)).trans (h.same x hx), fun x hx => (hm x (Or.inr hx)).trans (h.free x hx)⟩

theorem FState.alloc_new {pl : Placing} (hpl : pl.Sound) (n : Nat) (zero : Bool) (s : FState) :
    OnlyNew s (s.alloc pl n zero).2 ∧
      ((s.alloc pl n zero).1 = 0 ∨
        ((s.alloc pl n zero).2.blocks = s.blocks ++ [((s.alloc pl n zero).1, n)] ∧
          0 < (s.alloc pl n zero).1 ∧ (s.alloc pl n zero).1 + n < 2 ^ 64 ∧
          ∀ x, InRange (s.alloc pl n zero).1 n x → ¬ InUse s.blocks x)) := by
  unfold FState.alloc
  split
  · exact ⟨OnlyNew.refl s, Or.inl rfl⟩
  · rename_i a ha
    obtain ⟨h1, h2, h3⟩ := hpl _ _ _ ha
    refine ⟨⟨⟨[(a, n)], rfl, ?_⟩, ?_, ?_⟩, Or.inr ⟨rfl, h1, h2, h3⟩⟩
    · intro b hb
      rw [List.mem_singleton.mp hb]
      exact ⟨h1, h2, h3⟩
    · intro x hx
      dsimp only
      split
      · exact BMem.put_other (by rw [List.length_replicate]; exact fun hr => h3 x hr hx)
      · rfl
    · intro x hx
      dsimp only
      split
      · refine BMem.put_other ?_
        rw [List.length_replicate]
        exact fun hr => hx ⟨(a, n), by simp, hr⟩
      · rfl

theorem FState.alloc_use {pl : Placing} {n : Nat} {zero : Bool} {s : FState}
    (h : (s.alloc pl n zero).2.blocks = s.blocks ++ [((s.alloc pl n zero).1, n)]) {x : Nat}
    (hx : InRange (s.alloc pl n zero).1 n x) : InUse (s.alloc pl n zero).2.blocks x := by
  rw [h]
  exact ⟨_, List.mem_append_right _ (List.mem_singleton.mpr rfl), hx⟩

end TraceDB
