import Verif.Props.Runtime
import Verif.Props.Crash
/-
Lemmas for C79: the points in the file of a multi-threaded program.
-/
namespace TraceDB

theorem threadPart_of_take {α : Type} (i k : Nat) (order : List (Nat × α)) :
    threadPart i (order.take k) <+: threadPart i order := by
  refine ⟨threadPart i (order.drop k), ?_⟩
  unfold threadPart
  rw [← List.map_append, ← List.filter_append, List.take_append_drop]

theorem prefix_lift {α β : Type} (f : α → β) {order : List (Nat × β)} {threads : List (List α)}
    (hlt : ∀ x ∈ order, x.1 < threads.length)
    (h : ∀ (i : Nat) (l : List α), threads[i]? = some l → threadPart i order <+: l.map f) :
    ∃ order' : List (Nat × α), order = order'.map (fun x => (x.1, f x.2)) ∧
      (∀ x ∈ order', x.1 < threads.length) ∧
      ∀ (i : Nat) (l : List α), threads[i]? = some l → threadPart i order' = l.take (threadPart i order).length := by
  obtain ⟨o, h1, h2⟩ := order_lift f order
    (fun i => (threads[i]?.getD []).take (threadPart i order).length) (by
    intro i
    cases hi : threads[i]? with
    | some l =>
      have := List.prefix_iff_eq_take.mp (h i l hi)
      rw [Option.getD_some, List.map_take]
      exact this
    | none =>
      have hle : threads.length ≤ i := List.getElem?_eq_none_iff.mp hi
      simp only [Option.getD_none, List.take_nil, List.map_nil, threadPart, List.map_eq_nil_iff, List.filter_eq_nil_iff, beq_iff_eq]
      intro x hx hxi
      have := hlt x hx
      omega)
  refine ⟨o, h1, ?_, ?_⟩
  · intro x hx
    exact hlt (x.1, f x.2) (by rw [h1]; exact List.mem_map_of_mem hx)
  · intro i l hl
    rw [h2, hl]; rfl

theorem writes_of_called {cf : CFloat} {mem : CMem} {names : List Name} {types : List TypeDesc}
    {threads : List (List RecPoint)} {calls : List (List (U64 × List RtCall))}
    (hcalls : AllRel (AllRel (RecPoint.CalledAs cf mem)) threads calls)
    (htyped : ∀ l ∈ threads, ∀ p ∈ l, ∀ x ∈ p.items, x.Typed names types cf) :
    Writes cf mem calls (threads.map (List.map fun p => encodePoint types p.entries)) := by
  have hitem : ∀ (x : RecItem) (c : RtCall), x.CalledAs cf mem c → c.IsItem := by
    intro x c h
    cases x with
    | buffer r => cases h; trivial
    | vars l => obtain ⟨n, a, rfl, _⟩ := h; trivial
    | blobs l => obtain ⟨n, a, rfl, _⟩ := h; trivial
  have hitems : ∀ (l : List RecItem) (cs : List RtCall), AllRel (RecItem.CalledAs cf mem) l cs →
      ∀ c ∈ cs, c.IsItem := by
    intro l cs h
    induction h with
    | nil => simp
    | cons hx _ ih =>
      intro c hc
      rcases List.mem_cons.mp hc with rfl | hc
      · exact hitem _ _ hx
      · exact ih c hc
  unfold Writes
  refine AllRel.map_right ((hcalls.mono (S := fun x y => AllRel _ y (x.map fun p => encodePoint types p.entries)) ?_).flip)
  intro l hl cs h
  refine AllRel.map_right ((h.mono (S := fun x y => (∀ c ∈ y.2, RtCall.IsItem c) ∧
    rtBytes cf mem (pointCalls y.1 y.2) = .ok (encodePoint types x.entries)) ?_).flip)
  intro p hp c hc
  exact ⟨hitems _ _ hc.2, point_bytes hc (htyped l hl p hp)⟩

/-- All points in the file, including the one being written, and what is known of
them. -/
theorem reached_order {cf : CFloat} {mem : CMem} {types : List TypeDesc} {header : List U8}
    {threads : List (List RecPoint)} {calls : List (List (U64 × List RtCall))} {acts : List (List RtAct)}
    (hw : Writes cf mem calls (threads.map (List.map fun p => encodePoint types p.entries)))
    (hs : Steps cf mem calls acts) {sched : List Nat} {s : RtState}
    (hrun : (RtState.init header acts).run sched = .ok s) :
    ∃ (order : List (Nat × RecPoint)) (n : Nat) (more : List U8),
      s.out ++ more = header ++ encodePoints types (order.map fun x => x.2.entries) ∧
      header ++ encodePoints types ((order.take n).map fun x => x.2.entries) <+: s.out ∧
      (∀ x ∈ order, x.1 < threads.length) ∧
      (∀ (i : Nat) (l : List RecPoint), threads[i]? = some l → threadPart i order <+: l) ∧
      ∀ (i : Nat) (l : List RecPoint), threads[i]? = some l → s.threads[i]? = some [] →
        threadPart i (order.take n) = l := by
  rw [Steps.eq hw hs] at hrun
  obtain ⟨s', order, cur, h1, h2⟩ := inv_run sched (inv_init header _)
  rw [hrun] at h1
  cases h1
  have hbytes : ∀ o : List (Nat × RecPoint),
      encodePoints types (o.map fun x => x.2.entries) =
        ((o.map fun x : Nat × RecPoint => (x.1, encodePoint types x.2.entries)).map (·.2)).flatten := by
    intro o
    simp only [List.map_map, encodePoints, List.flatMap]
    rfl
  have hget : ∀ (i : Nat) (l : List RecPoint), threads[i]? = some l →
      (threads.map (List.map fun p => encodePoint types p.entries))[i]? =
        some (l.map fun p => encodePoint types p.entries) := by
    intro i l h; simp [h]
  have hend : ∀ (i : Nat) (l : List RecPoint), threads[i]? = some l → s.threads[i]? = some [] →
      l.length = (threadPart i order).length ∧ cur.points i = [] := by
    intro i l hl he
    obtain ⟨rest, h3, h4⟩ := h2.part i _ (hget i l hl)
    rw [he] at h4
    have h5 : cur.acts i ++ actsAll rest = [] := (Option.some.inj h4).symm
    rw [List.append_eq_nil_iff] at h5
    have h6 : rest = [] := by
      cases rest with
      | nil => rfl
      | cons b r => simp [actsAll, pointActs] at h5
    have h7 : cur.points i = [] := by
      unfold Cur.acts at h5
      unfold Cur.points
      cases cur with
      | none => rfl
      | some x =>
        obtain ⟨j, w, u⟩ := x
        simp only at h5 ⊢
        split
        · rename_i hij
          rw [if_pos hij] at h5
          simp at h5
        · rfl
    rw [h6, h7] at h3
    have := congrArg List.length h3
    simp only [List.append_nil, List.length_map] at this
    exact ⟨this, h7⟩
  cases cur with
  | none =>
    obtain ⟨o, rfl, h4, h5⟩ := prefix_lift (fun p : RecPoint => encodePoint types p.entries)
      (order := order) (threads := threads) (by simpa using h2.orderLt) (by
        intro i l hl
        obtain ⟨rest, h3, _⟩ := h2.part i _ (hget i l hl)
        rw [h3]; exact List.prefix_append _ _)
    refine ⟨o, o.length, [], ?_, ?_, h4, ?_, ?_⟩
    · rw [h2.out, hbytes]; simp [Cur.written]
    · rw [List.take_length, h2.out, hbytes]; simp [Cur.written]
    · intro i l hl
      rw [h5 i l hl]
      exact List.take_prefix _ _
    · intro i l hl he
      rw [List.take_length, h5 i l hl, ← (hend i l hl he).1, List.take_length]
  | some x =>
    obtain ⟨j, w, u⟩ := x
    have hj : j < threads.length := by simpa using h2.curLt _ rfl
    obtain ⟨o, h3, h4, h5⟩ := prefix_lift (fun p : RecPoint => encodePoint types p.entries)
      (order := order ++ [(j, w ++ u)]) (threads := threads) (by
        intro x hx
        rcases List.mem_append.mp hx with hx | hx
        · simpa using h2.orderLt x hx
        · rw [List.mem_singleton.mp hx]; exact hj) (by
        intro i l hl
        obtain ⟨rest, h3, _⟩ := h2.part i _ (hget i l hl)
        rw [h3, threadPart_append]
        simp only [Cur.points]
        rw [← List.append_assoc]
        exact List.prefix_append _ _)
    have hlen : o.length = order.length + 1 := by
      have := congrArg List.length h3
      simpa using this.symm
    have hfst : order = (o.take order.length).map fun x : Nat × RecPoint => (x.1, encodePoint types x.2.entries) := by
      rw [List.map_take, ← h3]; simp
    refine ⟨o, order.length, u, ?_, ?_, h4, ?_, ?_⟩
    · rw [h2.out, hbytes, ← h3]; simp [Cur.written]
    · rw [hbytes, ← hfst, h2.out, ← List.append_assoc]
      exact List.prefix_append _ _
    · intro i l hl
      rw [h5 i l hl]
      exact List.take_prefix _ _
    · intro i l hl he
      obtain ⟨h6, h7⟩ := hend i l hl he
      have hij : i ≠ j := by
        rintro rfl
        simp [Cur.points] at h7
      have h8 : threadPart i o = l := by
        rw [h5 i l hl, threadPart_append, if_neg hij, List.append_nil, ← h6, List.take_length]
      have h9 : ∃ y, o = o.take order.length ++ [(j, y)] := by
        have hl2 : order.length < o.length := by omega
        refine ⟨o[order.length].2, ?_⟩
        have h10 : o[order.length].1 = j := by
          have := congrArg (fun l => l[order.length]?) h3
          simp [List.getElem?_eq_getElem hl2] at this
          exact this.1.symm
        have h11 : o.drop order.length = [o[order.length]] := by
          rw [List.drop_eq_getElem_cons hl2, List.drop_eq_nil_of_le (by omega)]
        conv => lhs; rw [← List.take_append_drop order.length o, h11]
        rw [← h10]
      obtain ⟨y, hy⟩ := h9
      rw [hy, threadPart_append, if_neg hij, List.append_nil] at h8
      exact h8

/-- The first recorded points. -/
theorem recPoints_take : ∀ (n i : Nat) (H : List BufferSize) (ps : List RecPoint),
    (recPoints i H ps).take n = recPoints i H (ps.take n)
  | 0, _, _, ps => by cases ps <;> rfl
  | _ + 1, _, _, [] => rfl
  | n + 1, i, H, p :: ps => by
    simp only [recPoints, List.take_succ_cons]
    rw [recPoints_take n]

end TraceDB
