import Verif.Proofs.Size
import Verif.Proofs.ArchiveDb
import Verif.Props.RoundTrip
/-
C90: the size of a trace and of its file.
-/
namespace TraceDB

/-! C90 -/

/-- C90.  A trace that was read is no bigger than its file: every name, type, point,
allocation record, auxiliary value and variable has its own bytes there, and so has every
byte of every value.  This holds for every file, with every limit. -/
theorem C90_bounded (env : Env) (io : Bool) (k : U64) (bs : List U8) (t : Trace)
    (h : readTrace env k (gs io bs) = .ok t) : t.space ≤ bs.length := by
  have := read_space h 0 (.inl rfl)
  simpa [Trace.space, charCount] using this

theorem sum_map_le {α : Type} {f g : α → Nat} : ∀ {l : List α}, (∀ a ∈ l, f a ≤ g a) → (l.map f).sum ≤ (l.map g).sum
  | [], _ => Nat.le_refl _
  | a :: l, h => by
    have := sum_map_le (l := l) fun b hb => h b (by simp [hb])
    have := h a (by simp)
    simp only [List.map_cons, List.sum_cons]
    omega

theorem length_flatMap_le {α : Type} {f : α → List U8} {g : α → Nat} {l : List α} (h : ∀ a ∈ l, (f a).length ≤ g a) :
    (l.flatMap f).length ≤ (l.map g).sum := by
  rw [List.length_flatMap]
  exact sum_map_le h

theorem sum_twice {α : Type} (f : α → Nat) : ∀ l : List α, (l.map fun a => 2 * f a).sum = 2 * (l.map f).sum
  | [] => rfl
  | a :: l => by
    simp only [List.map_cons, List.sum_cons, sum_twice f l]
    omega

theorem length_flatMap_const {α : Type} {f : α → List U8} {c : Nat} : ∀ {l : List α}, (∀ a ∈ l, (f a).length = c) →
    (l.flatMap f).length = c * l.length
  | [], _ => rfl
  | a :: l, h => by
    simp only [List.flatMap_cons, List.length_append, h a (by simp), List.length_cons,
      length_flatMap_const (l := l) fun b hb => h b (by simp [hb]), Nat.mul_add]
    omega

/-- The blocks of a trace that was read are no more either: the bytes of all blobs fit into
the file. -/
theorem C90_blobs (env : Env) (io : Bool) (k : U64) (bs : List U8) (t : Trace)
    (h : readTrace env k (gs io bs) = .ok t) :
    (t.points.map fun p => (p.vars.map fun v => v.value.bytes.length).sum).sum + 8 ≤ bs.length := by
  have h1 := C90_bounded env io k bs t h
  have h2 : (t.points.map fun p => (p.vars.map fun v => v.value.bytes.length).sum).sum ≤ (t.points.map Point.space).sum := by
    refine sum_map_le fun p hp => ?_
    have := sum_map_le (l := p.vars) (f := fun v => v.value.bytes.length) (g := VarInfo.space) fun v hv => by
      have hs := (accepted_canonical h p hp v hv).sized
      unfold VarInfo.Sized at hs
      unfold VarInfo.space VarValue.bytes
      split <;> rename_i e <;> rw [e] at hs
      · simp
      · omega
    unfold Point.space
    omega
  unfold Trace.space at h1
  omega

/-- Saving the trace again at most doubles the file (pointers are always written with eight
bytes and blobs always with their length), if the file gives every point a statement. -/
theorem C90_rewritten (env : Env) (io : Bool) (k : U64) (bs : List U8) (t : Trace) (hj : env.junk = none)
    (h : readTrace env k (gs io bs) = .ok t) : (writeTrace t).length ≤ 2 * bs.length := by
  have h1 := read_space h 9 (.inr ⟨rfl, hj⟩)
  have h2 : (t.points.flatMap writePoint).length ≤ (t.points.map fun p => 2 * (9 + p.space)).sum := by
    refine length_flatMap_le fun p hp => ?_
    have hv : (p.vars.flatMap fun v => [2] ++ writeVarInfo v).length ≤ (p.vars.map fun v => 2 * v.space).sum := by
      refine length_flatMap_le fun v hv => ?_
      have hs := (accepted_canonical h p hp v hv).sized
      have := writeVarInfo_length v (by
        unfold VarInfo.Sized at hs
        unfold VarValue.bytes
        split <;> rename_i e <;> rw [e] at hs
        · simp
        · omega)
      unfold VarInfo.space
      omega
    have hz : (p.sizes.flatMap fun b => [3] ++ writeBufferSize b).length = 17 * p.sizes.length :=
      length_flatMap_const fun b _ => by simp [writeBufferSize, leBytes_length]
    have ha : (p.aux.flatMap fun a => [4] ++ leBytes 8 a.toNat).length = 9 * p.aux.length :=
      length_flatMap_const fun a _ => by simp [leBytes_length]
    rw [sum_twice] at hv
    unfold writePoint Point.space
    simp only [List.length_append, List.length_singleton, leBytes_length]
    omega
  rw [sum_twice] at h2
  have h3 : (t.types.flatMap writeType).length = 12 * t.types.length :=
    length_flatMap_const fun a _ => by simp [writeType, leBytes_length]
  have h4 : (t.names.flatMap fun n => n ++ [0]).length = charCount t.names := flatNames_length t.names
  unfold writeTrace
  simp only [List.length_append, leBytes_length]
  omega

/-- The memory that is asked for while a file is read is not bounded by the file.  A file of
eight bytes makes the reader ask for `n` bytes for the names, a file of twelve bytes for `n`
types, and the first 35 bytes of a trace with a blob type followed by a length for a blob of
any length, which is then used without looking whether there is one. -/
theorem C90_asked (env : Env) (io : Bool) (k : U64) (n : Nat) (hn : 0 < n) :
    (n < 2 ^ 63 → (readTrace env k (gs io (leBytes 8 n)) = .throw .alloc ↔ env.canAlloc n = false)) ∧
    (n < 2 ^ 32 → (readTrace env k (gs io (leBytes 8 0 ++ leBytes 4 n)) = .throw .alloc ↔ env.canAlloc (12 * n) = false)) ∧
    (n < 2 ^ 32 → env.canAlloc 2 = true → env.canAlloc 12 = true →
      (readTrace env k (gs io (encodeHeader [[120]] [⟨0, .blob, 0⟩] ++ (2 :: (leBytes 4 0 ++ (leBytes 4 0 ++ leBytes 4 n))))) =
        .ub .nullDeref ↔ env.canAlloc n = false)) := by
  refine ⟨fun h => ?_, fun h => ?_, fun h h2 h12 => ?_⟩
  · rw [readTrace_eq_history, readTraceWith_eq]
    unfold readHeader readNameTable
    have e := readUInt_le (io := io) (n := 8) (old := 0) (v := n) (r := []) (by omega)
    rw [List.append_nil] at e
    rw [e]
    simp only [Res.ok_bind, if_pos hn, Env.canNew, h, decide_true, Bool.true_and]
    cases ha : env.canAlloc n
    · simp
    · simp only [Bool.not_true, Bool.false_eq_true, if_false]
      rw [binaryRead_short (by simpa using hn)]
      simp only [Res.ok_bind, Env.fillUninit]
      split
      · simp at *; omega
      · cases env.junk with
        | none => simp
        | some f =>
          simp only [Res.ok_bind]
          rcases readNames_cases ((overlay ((List.range n).map f) []).length + 1) (overlay ((List.range n).map f) []) (by omega) with
            ⟨ns, _, _, _, e'⟩ | ⟨e', _⟩
          · rw [e']
            simp [endExn]
            cases io <;> simp
          · rw [e']; simp
  · rw [readTrace_eq_history, readTraceWith_eq]
    unfold readHeader
    have e := readNameTable_ok (env := env) (io := io) (names := []) (R := leBytes 4 n) (by simp) (by simp [charCount]) (by simp [charCount])
    simp only [charCount, flatNames, List.map_nil, List.sum_nil, List.flatMap_nil, List.nil_append] at e
    rw [e]
    simp only [Res.ok_bind, readTypeTable]
    have e := readUInt_le (io := io) (n := 4) (old := 0) (v := n) (r := []) (by omega)
    rw [List.append_nil] at e
    rw [e]
    have h' : 12 * n < 2 ^ 63 := by omega
    simp only [Res.ok_bind, hn, h', Env.canNew, decide_true, Bool.true_and]
    cases ha : env.canAlloc (12 * n)
    · simp
    · simp only [Bool.not_true, Bool.false_eq_true, if_false]
      obtain ⟨m, rfl⟩ : ∃ m, n = m + 1 := ⟨n - 1, by omega⟩
      rw [readTypes]
      have : readType (gs io []) = .throw (endExn io) := by
        simp [readType, readUInt_short (io := io) (n := 4) (b := []) (by decide)]
      rw [this]
      simp [endExn]
      cases io <;> simp
  · rw [readTrace_eq_history, readTraceWith_eq]
    have hh := readHeader_ok (env := env) (io := io) (names := [[120]]) (types := [⟨0, .blob, 0⟩])
      (R := 2 :: (leBytes 4 0 ++ (leBytes 4 0 ++ leBytes 4 n)))
      ⟨by decide, by decide, by decide, by decide⟩ ⟨fun _ => h2, fun _ => h12⟩
    rw [hh]
    simp only [Res.ok_bind]
    rw [show (2 :: (leBytes 4 0 ++ (leBytes 4 0 ++ leBytes 4 n)) : List U8).length + 3 = 15 + 1 by simp [leBytes_length]]
    unfold readPoints
    have hc : ((gs io (2 :: (leBytes 4 0 ++ (leBytes 4 0 ++ leBytes 4 n)))).isGood &&
        (decide (0 < k.toNat) || k == 0)) = true := by
      rw [gs_isGood, Bool.true_and]
      exact within_cond.mpr (by
        by_cases h0 : k = 0
        · exact .inl h0
        · refine .inr (Nat.pos_of_ne_zero fun h => h0 ?_)
          exact BitVec.eq_of_toNat_eq (by simpa using h))
    rw [if_pos hc]
    rw [show entryFuel (gs io (2 :: (leBytes 4 0 ++ (leBytes 4 0 ++ leBytes 4 n)))) = 14 + 1 by simp [entryFuel, leBytes_length]]
    unfold readEntries
    have e1 := readUInt_le (io := io) (n := 1) (old := 5) (v := 2) (r := leBytes 4 0 ++ (leBytes 4 0 ++ leBytes 4 n)) (by decide)
    rw [show leBytes 1 2 = [2] from rfl, List.singleton_append] at e1
    rw [e1]
    simp only [Res.ok_bind]
    have e2 : readVarInfo MapImpl.history env [[120]] [⟨0, .blob, 0⟩] MapImpl.history.empty
        (gs io (leBytes 4 0 ++ (leBytes 4 0 ++ leBytes 4 n))) =
        (readBlob env (gs io []) n >>= fun r => pure (⟨.blob r.1, 0, 0, .blob, BitVec.ofNat 32 n, 0, false⟩, r.2)) := by
      have e3 := readUInt_le (io := io) (n := 4) (old := 0) (v := n) (r := []) (by omega)
      rw [List.append_nil] at e3
      unfold readVarInfo
      rw [readUInt_le (by decide)]
      simp only [Res.ok_bind]
      rw [readUInt_le (by decide)]
      simp only [Res.ok_bind, List.getElem?_cons_zero, List.length_singleton, ge_iff_le, if_true]
      rw [e3]
      rfl
    have hz : ((2 : Nat) == 0) = false := rfl
    simp only [gs_isGood, Bool.not_true, Bool.false_or, hz, Bool.false_eq_true, if_false]
    rw [e2]
    unfold readBlob
    rw [binaryRead_short (by simpa using hn)]
    simp only [Res.ok_bind]
    cases ha : env.canAlloc n
    · simp [hn]
    · simp only [Bool.true_eq_false, iff_false]
      have hu : ∃ r, env.fillUninit n [] = r ∧ (r = .ub .uninit ∨ ∃ l, r = .ok l) := by
        unfold Env.fillUninit
        rw [if_neg (show ¬ n ≤ ([] : List U8).length by simp; omega)]
        cases env.junk with
        | none => exact ⟨_, rfl, .inl rfl⟩
        | some f => exact ⟨_, rfl, .inr ⟨_, rfl⟩⟩
      obtain ⟨r, hr, rfl | ⟨l, rfl⟩⟩ := hu
      · rw [hr]
        simp
      · rw [hr]
        simp only [Res.ok_bind, Res.pure_eq, not_true_eq_false, and_false, if_false]
        have : ∀ fuel (acc : PointAcc), readEntries MapImpl.history env [[120]] [⟨0, .blob, 0⟩] (fuel + 1) (ended io)
            MapImpl.history.empty acc = .throw (endExn io) := by
          intro fuel acc
          unfold readEntries
          simp
        rw [show MapImpl.history.empty = ([] : List BufferSize) from rfl] at this
        rw [this 13]
        simp

/-- The example trace: all bytes of its file are accounted for, apart from the
number of types, the statements of the two points and the length of the blob. -/
example : readTrace exStrict 0 (gs false exBytes) = .ok exTrace ∧ exTrace.space = exBytes.length - (4 + 2 * 9 + 4) ∧
    (writeTrace exTrace).length = exBytes.length := by decide +kernel

/-- A pointer of one byte is written with eight: the file with its point grows. -/
def smallPointer : List U8 :=
  encodeHeader [[120]] [⟨0, .pointer, 1⟩] ++ encodePoints [⟨0, .pointer, 1⟩] [[.stmt 7, .var 0 0 [5]]]

example : exStrict.junk = none ∧ smallPointer.length = 46 ∧
    (readTrace exStrict 0 (gs false smallPointer) >>= fun t => .ok (writeTrace t).length) = .ok 53 := by decide +kernel

/-- A machine that cannot give a hundred bytes. -/
example : readTrace exPoor 0 (gs false (leBytes 8 100)) = .throw .alloc ∧
    readTrace exPoor 0 (gs false (leBytes 8 99)) ≠ .throw .alloc ∧
    readTrace exPoor 0 (gs false (encodeHeader [[120]] [⟨0, .blob, 0⟩] ++ (2 :: (leBytes 4 0 ++ (leBytes 4 0 ++ leBytes 4 100))))) =
      .ub .nullDeref := by decide +kernel

end TraceDB
