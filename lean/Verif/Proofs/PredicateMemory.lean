import Verif.Spec.PredicateMemory
import Verif.Proofs.Sharing
/-
Lemmas about predicates in memory.
-/
namespace TraceDB

/-- The heap after the blocks `bs` have been freed. -/
def killed (h : PHeap) (bs : List Nat) : PHeap :=
  h.mapIdx fun i blk => if i ∈ bs then { blk with live := false } else blk

theorem killed_nil (h : PHeap) : killed h [] = h := by
  apply List.ext_getElem?
  intro i
  simp [killed]

theorem killed_length (h : PHeap) (bs : List Nat) : (killed h bs).length = h.length := by
  simp [killed]

theorem killed_getElem? (h : PHeap) (bs : List Nat) (i : Nat) :
    (killed h bs)[i]? = (h[i]?).map fun blk => if i ∈ bs then { blk with live := false } else blk := by
  simp [killed, List.getElem?_mapIdx]

theorem killed_other (h : PHeap) (bs : List Nat) (i : Nat) (hi : i ∉ bs) : (killed h bs)[i]? = h[i]? := by
  rw [killed_getElem?]
  cases h[i]? <;> simp [hi]

theorem killed_append (h : PHeap) (bs bs' : List Nat) : killed (killed h bs) bs' = killed h (bs ++ bs') := by
  apply List.ext_getElem?
  intro i
  simp only [killed_getElem?, List.mem_append]
  cases h[i]? with
  | none => rfl
  | some blk => by_cases h1 : i ∈ bs <;> by_cases h2 : i ∈ bs' <;> simp [h1, h2]

theorem killed_congr (h : PHeap) (bs bs' : List Nat) (hm : ∀ i, i ∈ bs ↔ i ∈ bs') : killed h bs = killed h bs' := by
  apply List.ext_getElem?
  intro i
  simp only [killed_getElem?, hm i]

/-- `free` of a live block. -/
theorem free_killed (h : PHeap) (b : Nat) (cells : List CPred) (hb : h[b]? = some ⟨true, cells⟩) :
    h.free (some b) = .ok (killed h [b]) := by
  simp only [PHeap.free, hb, if_true]
  congr 1
  apply List.ext_getElem?
  intro i
  rw [killed_getElem?, List.getElem?_set]
  by_cases hi : b = i
  · subst hi
    have hlt : b < h.length := (List.getElem?_eq_some_iff.mp hb).1
    rw [if_pos rfl, if_pos hlt, hb]
    simp
  · have hi' : i ≠ b := fun e => hi e.symm
    simp only [hi, if_false, List.mem_singleton, hi']
    cases h[i]? <;> rfl

theorem load_ok (h : PHeap) (b : Nat) (cells : List CPred) (hb : h[b]? = some ⟨true, cells⟩) (i : Nat) (c : CPred)
    (hc : cells[i]? = some c) : h.load b i = .ok c := by
  simp [PHeap.load, hb, hc]

mutual
/-- Freeing a structure frees exactly its blocks. -/
theorem freePred_ok {h0 : PHeap} {c : CPred} {p : Pred} {bs : List Nat} (hs : Shape h0 c p bs) (h : PHeap)
    (fuel : Nat) (hsame : ∀ i ∈ bs, h[i]? = h0[i]?) (hn : bs.Nodup) (hf : bs.length < fuel) :
    freePred fuel c h = .ok (killed h bs) := by
  match fuel, hf with
  | fuel + 1, hf =>
  match hs with
  | .leaf hk hc =>
    have : c.kind.isLeaf = true := by
      simp only [List.mem_cons, List.not_mem_nil, or_false] at hk
      rcases hk with e | e | e | e <;> rw [e] <;> rfl
    simp only [freePred, this, if_true, killed_nil]
  | .node (b := b) (cells := cells) (bs := bs) hk hc hb hlt hnc hall =>
    have hleaf : c.kind.isLeaf = false := by
      simp only [List.mem_cons, List.not_mem_nil, or_false] at hk
      cases e : c.kind <;> simp_all [PKind.isLeaf]
    have hnot : ¬ (2 ^ 32 ≤ c.nChildren.toNat) := by omega
    have hn' := List.nodup_cons.mp hn
    have hb' : h[b]? = some ⟨true, cells⟩ := by rw [hsame b (by simp), hb]
    simp only [freePred, hleaf, hc, hnc]
    have := freeChildren_ok hall h fuel b [] hb' hn'.1 (fun i hi => hsame i (by simp [hi])) hn'.2
      (by simp only [List.length_cons] at hf; omega)
    simp only [List.length_nil] at this
    rw [if_neg (by simp), if_neg (by omega), this, Res.ok_bind]
    rw [free_killed (killed h bs) b cells (by rw [killed_other h bs b hn'.1, hb']), killed_append]
    congr 1
    apply killed_congr
    intro i
    simp [or_comm]

theorem freeChildren_ok {h0 : PHeap} {cells : List CPred} {ps : List Pred} {bs : List Nat}
    (hs : ShapeAll h0 cells ps bs) (h : PHeap) (fuel b : Nat) (pre : List CPred)
    (hb : h[b]? = some ⟨true, pre ++ cells⟩) (hnb : b ∉ bs) (hsame : ∀ i ∈ bs, h[i]? = h0[i]?)
    (hn : bs.Nodup) (hf : bs.length < fuel) :
    freeChildren (freePred fuel) (some b) pre.length cells.length h = .ok (killed h bs) := by
  match hs with
  | .nil => simp only [List.length_nil, freeChildren, killed_nil]
  | .cons (c := c) (cs := cs) (bs := bs1) (bs' := bs2) h1 h2 =>
    simp only [List.mem_append, not_or] at hnb
    have hn' := List.nodup_append.mp hn
    simp only [List.length_append] at hf
    simp only [List.length_cons, freeChildren]
    rw [load_ok h b _ hb pre.length c (by simp), Res.ok_bind,
      freePred_ok h1 h fuel (fun i hi => hsame i (by simp [hi])) hn'.1 (by omega), Res.ok_bind]
    have := freeChildren_ok h2 (killed h bs1) fuel b (pre ++ [c])
      (by rw [killed_other h bs1 b hnb.1, hb]; simp) hnb.2
      (fun i hi => by
        rw [killed_other h bs1 i (fun hi1 => hn'.2.2 i hi1 i hi rfl)]
        exact hsame i (by simp [hi])) hn'.2.1 (by omega)
    rw [List.length_append, List.length_singleton] at this
    rw [this, killed_append]
end

mutual
/-- Making a predicate object of a structure gives the tree it holds. -/
theorem createPred_ok {h : PHeap} {c : CPred} {p : Pred} {bs : List Nat} (hs : Shape h c p bs)
    (fuel : Nat) (hf : bs.length < fuel) : createPred h fuel c = .ok p ∧ p.kind ≠ .null := by
  match fuel, hf with
  | fuel + 1, hf =>
  match hs with
  | .leaf hk hc =>
    simp only [createPred, hc]
    refine ⟨?_, ?_⟩
    · congr 2
      unfold CPred.data
      simp only [List.mem_cons, List.not_mem_nil, or_false] at hk
      rcases hk with e | e | e | e <;> rw [e] <;> rfl
    · show c.kind ≠ .null
      intro e
      rw [e] at hk
      simp at hk
  | .node (b := b) (cells := cells) (bs := bs) hk hc hb hlt hnc hall =>
    have hnot : ¬ (2 ^ 32 ≤ c.nChildren.toNat) := by omega
    have := createChildren_ok hall fuel b [] hb (by simp only [List.length_cons] at hf; omega)
    simp only [List.length_nil] at this
    simp only [createPred, hc, hnot, if_false, hnc, this, Res.ok_bind, Res.pure_eq]
    refine ⟨?_, ?_⟩
    · congr 2
      unfold CPred.data
      simp only [List.mem_cons, List.not_mem_nil, or_false] at hk
      cases e : c.kind <;> simp_all
    · show c.kind ≠ .null
      intro e
      rw [e] at hk
      simp at hk

theorem createChildren_ok {h : PHeap} {cells : List CPred} {ps : List Pred} {bs : List Nat}
    (hs : ShapeAll h cells ps bs) (fuel b : Nat) (pre : List CPred)
    (hb : h[b]? = some ⟨true, pre ++ cells⟩) (hf : bs.length < fuel) :
    createChildren (createPred h fuel) h b pre.length cells.length = .ok ps := by
  match hs with
  | .nil => simp only [List.length_nil, createChildren]
  | .cons (c := c) (cs := cs) (bs := bs1) (bs' := bs2) h1 h2 =>
    simp only [List.length_append] at hf
    simp only [List.length_cons, createChildren]
    obtain ⟨e1, e2⟩ := createPred_ok h1 fuel (by omega)
    have := createChildren_ok h2 fuel b (pre ++ [c]) (by rw [hb]; simp) (by omega)
    rw [List.length_append, List.length_singleton] at this
    rw [load_ok h b _ hb pre.length c (by simp), Res.ok_bind, e1, Res.ok_bind, this]
    simp [e2]
end

mutual
/-- The blocks of a structure are in the heap. -/
theorem Shape.mem {h : PHeap} {c : CPred} {p : Pred} {bs : List Nat} (hs : Shape h c p bs) :
    ∀ i ∈ bs, i < h.length := by
  match hs with
  | .leaf _ _ => simp
  | .node _ _ hb _ _ hall =>
    intro i hi
    rcases List.mem_cons.mp hi with rfl | hi
    · exact (List.getElem?_eq_some_iff.mp hb).1
    · exact hall.mem i hi
theorem ShapeAll.mem {h : PHeap} {cs : List CPred} {ps : List Pred} {bs : List Nat} (hs : ShapeAll h cs ps bs) :
    ∀ i ∈ bs, i < h.length := by
  match hs with
  | .nil => simp
  | .cons h1 h2 =>
    intro i hi
    rcases List.mem_append.mp hi with hi | hi
    · exact h1.mem i hi
    · exact h2.mem i hi
end

mutual
/-- A structure stays as it is when its blocks do. -/
theorem Shape.frame {h h' : PHeap} {c : CPred} {p : Pred} {bs : List Nat} (hs : Shape h c p bs)
    (hsame : ∀ i ∈ bs, h'[i]? = h[i]?) : Shape h' c p bs := by
  match hs with
  | .leaf hk hc => exact .leaf hk hc
  | .node hk hc hb hlt hnc hall =>
    exact .node hk hc (by rw [hsame _ (by simp), hb]) hlt hnc (hall.frame fun i hi => hsame i (by simp [hi]))
theorem ShapeAll.frame {h h' : PHeap} {cs : List CPred} {ps : List Pred} {bs : List Nat}
    (hs : ShapeAll h cs ps bs) (hsame : ∀ i ∈ bs, h'[i]? = h[i]?) : ShapeAll h' cs ps bs := by
  match hs with
  | .nil => exact .nil
  | .cons h1 h2 =>
    exact .cons (h1.frame fun i hi => hsame i (by simp [hi])) (h2.frame fun i hi => hsame i (by simp [hi]))
end

theorem nodup_length_le_of_lt {bs : List Nat} {n : Nat} (hn : bs.Nodup) (hlt : ∀ i ∈ bs, i < n) : bs.length ≤ n := by
  have := nodup_length_le (l := bs) (l' := List.range n) hn (fun a ha => List.mem_range.mpr (hlt a ha))
  simpa using this

/-- Freeing a predicate. -/
theorem freeCPredicate_ok {h : PHeap} {ptr : Option Nat} {p : Pred} {bs : List Nat} (hp : PredAt h ptr p bs) :
    freeCPredicate ptr h = .ok (killed h bs) := by
  cases ptr with
  | none => rw [hp.2]; simp [freeCPredicate, killed_nil]
  | some b =>
    obtain ⟨c, bs', hb, rfl, hn, hs⟩ := hp
    have hn' := List.nodup_cons.mp hn
    have hle := nodup_length_le_of_lt hn'.2 hs.mem
    simp only [freeCPredicate]
    rw [load_ok h b _ hb 0 c rfl, Res.ok_bind,
      freePred_ok hs h (h.length + 1) (fun _ _ => rfl) hn'.2 (by omega), Res.ok_bind,
      free_killed _ b [c] (by rw [killed_other h bs' b hn'.1, hb]), killed_append]
    congr 1
    apply killed_congr
    intro i
    simp [or_comm]

/-- Making a predicate object. -/
theorem createPredicateObj_ok {h : PHeap} {ptr : Option Nat} {p : Pred} {bs : List Nat} (hp : PredAt h ptr p bs) :
    createPredicateObj h ptr = .ok p := by
  cases ptr with
  | none => rw [hp.1]; rfl
  | some b =>
    obtain ⟨c, bs', hb, rfl, hn, hs⟩ := hp
    have hn' := List.nodup_cons.mp hn
    have hle := nodup_length_le_of_lt hn'.2 hs.mem
    simp only [createPredicateObj]
    rw [load_ok h b _ hb 0 c rfl, Res.ok_bind]
    exact (createPred_ok hs _ (by omega)).1

end TraceDB
