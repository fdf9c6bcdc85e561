import Verif.Model.Reader
import Verif.Proofs.AllocSpec
/-
The reader with the skip list behaves like the reader with a plain list of
allocation records.
-/
namespace TraceDB

/-- The memory map as the list of records received so far. -/
@[reducible] def MapImpl.history : MapImpl where
  M := List BufferSize
  empty := []
  update := fun H r =>
    if r.freesReserved ∧ MemMap.reservedCount H = 0 then .ub .badFree else .ok (H ++ [r])
  lookup := fun H a => .ok (lookupSize H a)

namespace MapImpl

/-- Forward simulation between two memory map implementations. -/
structure Sim (I J : MapImpl) where
  R : I.M → J.M → Prop
  empty : R I.empty J.empty
  update : ∀ {m n} r, R m n →
    (∃ m' n', I.update m r = .ok m' ∧ J.update n r = .ok n' ∧ R m' n') ∨
    (∃ k, I.update m r = .ub k ∧ J.update n r = .ub k)
  lookup : ∀ {m n} a, R m n → I.lookup m a = J.lookup n a

/-- The skip list simulates the history. -/
def simHistory (coin : Nat → Nat → Bool) : Sim (skipList coin) history where
  R := fun m H => ∃ base, MemMap.Rep H m base
  empty := ⟨[], MemMap.Rep.construct⟩
  update := by
    rintro m H r ⟨base, h⟩
    have hs := h.step coin r
    by_cases hb : r.freesReserved ∧ MemMap.reservedCount H = 0
    · right
      exact ⟨.badFree, hs.2 hb, by simp only [history]; rw [if_pos hb]⟩
    · left
      obtain ⟨m', base', h1, h2⟩ := hs.1 hb
      exact ⟨m', List.append H [r], h1, by simp only [history]; rw [if_neg hb]; rfl, base', h2⟩
  lookup := by
    rintro m H a ⟨base, h⟩
    exact h.computeBufferSize a

variable {I J : MapImpl} (S : Sim I J) (env : Env) (names : List Name) (types : List TypeDesc)

include S in
theorem readVarInfo_sim {m : I.M} {n : J.M} (h : S.R m n) (s : IStream) :
    readVarInfo I env names types m s = readVarInfo J env names types n s := by
  unfold readVarInfo
  simp only [fun v => S.lookup v h]

/-- Results of the entry loop correspond. -/
def EntriesRel : Res (IStream × I.M × PointAcc) → Res (IStream × J.M × PointAcc) → Prop
  | .ok (s, m, p), .ok (s', n, p') => s = s' ∧ S.R m n ∧ p = p'
  | .throw e, .throw e' => e = e'
  | .abort, .abort => True
  | .ub k, .ub k' => k = k'
  | .hang, .hang => True
  | _, _ => False

theorem EntriesRel.bind {α : Type} {x : Res α} {f : α → Res (IStream × I.M × PointAcc)}
    {g : α → Res (IStream × J.M × PointAcc)} (h : ∀ a, x = .ok a → EntriesRel S (f a) (g a)) :
    EntriesRel S (x >>= f) (x >>= g) := by
  cases x with
  | ok a => exact h a rfl
  | throw e => rfl
  | abort => trivial
  | ub k => rfl
  | hang => trivial

theorem readEntries_sim : ∀ (fuel : Nat) (s : IStream) (m : I.M) (n : J.M) (acc : PointAcc), S.R m n →
    EntriesRel S (readEntries I env names types fuel s m acc) (readEntries J env names types fuel s n acc)
  | 0, _, _, _, _, _ => trivial
  | fuel + 1, s, m, n, acc, h => by
    unfold readEntries
    apply EntriesRel.bind
    rintro ⟨c, s⟩ _
    simp only
    split
    · exact ⟨rfl, h, rfl⟩
    · split
      · apply EntriesRel.bind
        rintro ⟨got, s⟩ _
        exact readEntries_sim fuel _ _ _ _ h
      · rw [readVarInfo_sim S env names types h]
        apply EntriesRel.bind
        rintro ⟨info, s⟩ _
        exact readEntries_sim fuel _ _ _ _ h
      · apply EntriesRel.bind
        rintro ⟨size, s⟩ _
        simp only
        rcases S.update size h with ⟨m', n', h1, h2, h3⟩ | ⟨k, h1, h2⟩
        · rw [h1, h2]
          exact readEntries_sim fuel _ _ _ _ h3
        · rw [h1, h2]
          rfl
      · apply EntriesRel.bind
        rintro ⟨v, s⟩ _
        exact readEntries_sim fuel _ _ _ _ h
      · rfl

theorem readPoints_sim (maxPoints : U64) : ∀ (fuel i : Nat) (s : IStream) (m : I.M) (n : J.M)
    (acc : List Point), S.R m n →
    readPoints I env names types maxPoints fuel i s m acc =
    readPoints J env names types maxPoints fuel i s n acc
  | 0, _, _, _, _, _, _ => rfl
  | fuel + 1, i, s, m, n, acc, h => by
    unfold readPoints
    split
    · have hs := readEntries_sim S env names types (entryFuel s) s m n .empty h
      cases h1 : readEntries I env names types (entryFuel s) s m .empty <;>
      cases h2 : readEntries J env names types (entryFuel s) s n .empty <;>
      rw [h1, h2] at hs <;> try exact False.elim hs
      · rename_i a b
        obtain ⟨s1, m1, p1⟩ := a
        obtain ⟨s2, n2, p2⟩ := b
        obtain ⟨rfl, hR, rfl⟩ := hs
        simp only [Res.ok_bind]
        split
        · cases finishStatement env p1.statement with
          | ok v => exact readPoints_sim maxPoints fuel _ _ _ _ _ hR
          | throw e => rfl
          | abort => rfl
          | ub k => rfl
          | hang => rfl
        · exact readPoints_sim maxPoints fuel _ _ _ _ _ hR
      · exact congrArg Res.throw hs
      · rfl
      · exact congrArg Res.ub hs
      · rfl
    · rfl

include S in
theorem readTraceWith_sim (maxPoints : U64) (s : IStream) :
    readTraceWith I env maxPoints s = readTraceWith J env maxPoints s := by
  unfold readTraceWith
  simp only [fun names types f i s => readPoints_sim S env names types maxPoints f i s _ _ [] S.empty]

end MapImpl

/-- The reader may be run on the history of allocation records. -/
theorem readTrace_eq_history (env : Env) (maxPoints : U64) (s : IStream) :
    readTrace env maxPoints s = readTraceWith MapImpl.history env maxPoints s :=
  MapImpl.readTraceWith_sim (MapImpl.simHistory env.coin) env maxPoints s

end TraceDB
