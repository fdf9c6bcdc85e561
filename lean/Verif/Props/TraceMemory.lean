import Verif.Proofs.TraceMemory
import Verif.Props.Reader
/-
C89: memory while traces are added.
-/
namespace TraceDB

/-- If no allocation is refused, `add_trace` is as it was described before. -/
theorem C89_enough_memory (grow : Nat → Nat) (env : Env) (db : Db) (src : Source) (maxPoints : U64) (mem : TmMem)
    (hm : mem.Tidy) :
    (tmAddTrace grow env (fun _ => false) db src maxPoints mem).1 = addTraceApi grow env db src maxPoints := by
  cases src with
  | none => rfl
  | some s =>
    rcases (tmAddTrace_run grow env (fun _ => false) db s maxPoints mem hm _ rfl).2.1 with h | ⟨_, j, _, _, h⟩
    · exact h
    · cases h

/-- Whatever allocations are refused: the call answers as with enough memory, or it answers 0
and the database is unchanged, or it stores through the null pointer.  The latter two only
happen if one of its allocations was refused. -/
theorem C89_refused (grow : Nat → Nat) (env : Env) (refuse : Nat → Bool) (db : Db) (src : Source) (maxPoints : U64)
    (mem : TmMem) (hm : mem.Tidy) :
    let out := tmAddTrace grow env refuse db src maxPoints mem
    out.1 = addTraceApi grow env db src maxPoints ∨
      ((out.1 = .ok (0, db) ∨ out.1 = .ub .nullDeref) ∧ ∃ j, mem.count ≤ j ∧ j < out.2.count ∧ refuse j = true) := by
  cases src with
  | none => exact .inl rfl
  | some s => exact (tmAddTrace_run grow env refuse db s maxPoints mem hm _ rfl).2.1

/-- What is left in memory after a call that returns.  The blocks that were there stay; the
stream, its buffer and the nodes of the map are freed. -/
theorem C89_left (grow : Nat → Nat) (env : Env) (refuse : Nat → Bool) (db : Db) (s : IStream) (maxPoints : U64)
    (mem : TmMem) (hm : mem.Tidy) (r : Nat × Db)
    (hr : (tmAddTrace grow env refuse db (some s) maxPoints mem).1 = .ok r) :
    let after := (tmAddTrace grow env refuse db (some s) maxPoints mem).2
    after.Tidy ∧ ∃ extra, after.loose = mem.loose ++ extra ∧ (∀ b ∈ extra, mem.count ≤ b.1) ∧
      ((∃ t, readTrace env maxPoints s = .ok t ∧ r = (1, db.addTrace grow t) ∧ TmLeftByTrace maxPoints t (extra.map (·.2))) ∨
        (r = (0, db) ∧ TmLeftByFailure refuse s (extra.map (·.2)))) :=
  (tmAddTrace_run grow env refuse db s maxPoints mem hm _ rfl).2.2 r hr

/-- Databases that are made, filled and freed over and over leave the bytes of their blobs
each time. -/
theorem C89_grows (grow : Nat → Nat) (env : Env) (s : IStream) (maxPoints : U64) (t : Trace)
    (ht : readTrace env maxPoints s = .ok t) : ∀ (n : Nat) (mem : TmMem), mem.Tidy →
    let out := tmCycles grow env (fun _ => false) (some s) maxPoints n mem
    out.1 = .ok () ∧ out.2.Tidy ∧ mem.loose.length + n * (tmKinds t.allVars).length ≤ out.2.loose.length
  | 0, mem, hm => ⟨rfl, hm, by simp [tmCycles, pure]⟩
  | n + 1, mem, hm => by
    have h1 := C89_enough_memory grow env Db.create (some s) maxPoints mem hm
    have h2 : addTraceApi grow env Db.create (some s) maxPoints = .ok (1, Db.create.addTrace grow t) := by
      simp only [addTraceApi, ht]
    rw [h2] at h1
    obtain ⟨h3, extra, h4, _, h5⟩ := C89_left grow env (fun _ => false) Db.create s maxPoints mem hm _ h1
    have h6 := C89_grows grow env s maxPoints t ht n _ h3
    have h7 : (tmKinds t.allVars).length ≤ extra.length := by
      rcases h5 with ⟨t', h5, _, d, h8, _⟩ | ⟨h5, _⟩
      · rw [ht] at h5
        cases h5
        have := congrArg List.length h8
        simp only [List.length_map, List.length_append] at this
        omega
      · cases h5
    have h9 : tmCycles grow env (fun _ => false) (some s) maxPoints (n + 1) mem =
        tmCycles grow env (fun _ => false) (some s) maxPoints n (tmAddTrace grow env (fun _ => false) Db.create (some s) maxPoints mem).2 := by
      show TmM.bind _ _ mem = _
      simp only [TmM.bind]
      generalize tmAddTrace grow env (fun _ => false) Db.create (some s) maxPoints mem = x at h1 ⊢
      obtain ⟨o, m⟩ := x
      simp only at h1
      rw [h1]
    simp only
    rw [h9]
    refine ⟨h6.1, h6.2.1, ?_⟩
    have h10 := h6.2.2
    rw [h4, List.length_append] at h10
    rw [Nat.succ_mul]
    omega

/-! ### Examples -/

/-- A file with a buffer and a blob of four bytes. -/
def tmBytes : List U8 :=
  [2, 0, 0, 0, 0, 0, 0, 0, 97, 0, 1, 0, 0, 0, 0, 0, 0, 0, 4, 0, 0, 0, 4, 0, 0, 0,
    1, 7, 0, 0, 0, 0, 0, 0, 0, 3, 16, 0, 0, 0, 0, 0, 0, 0, 8, 0, 0, 0, 0, 0, 0, 0,
    2, 0, 0, 0, 0, 0, 0, 0, 0, 1, 2, 3, 4, 0]

/-- The blocks after a call. -/
def tmShow (refuse : Nat → Bool) (bytes : List U8) : Option Nat × List TmKind :=
  let out := tmAddTrace (fun _ => 0) exEnv refuse Db.create (some (IStream.ofBytes bytes)) 0 TmMem.start
  (match out.1 with | .ok r => some r.1 | _ => none, out.2.loose.map (·.2))

example : TmMem.start.Tidy := by
  refine ⟨by simp [TmMem.start], ?_⟩
  intro p hp
  simp [TmMem.start, MemMap.construct, hp]

/-- with enough memory the blob is left -/
example : tmShow (fun _ => false) tmBytes = (some 1, [.blob 4]) := by decide +kernel
/-- a cut file: the blob of the last point is left although the point is not in the trace -/
example : tmShow (fun _ => false) (tmBytes.take (tmBytes.length - 1)) = (some 1, [.blob 4]) := by decide +kernel
/-- the buffer of names is left after the end of the file in the first number -/
example : tmShow (fun _ => false) [2, 0, 0] = (some 0, [.nameBuf]) := by decide +kernel
/-- the tower of a node is refused: the node is left -/
example : ∃ k, tmShow (fun j => j == k) tmBytes = (some 0, [.node]) := ⟨7, by decide +kernel⟩
/-- the bytes of the blob are refused -/
example : ∃ k, tmShow (fun j => j == k) tmBytes = (none, [.fileBuf, .stream]) := ⟨9, by decide +kernel⟩

/-- Each round of making a database, adding this file and freeing the database leaves a
block. -/
theorem C89_grows_example (n : Nat) :
    n ≤ (tmCycles (fun _ => 0) exEnv (fun _ => false) (some (IStream.ofBytes tmBytes)) 0 n TmMem.start).2.loose.length := by
  have hm : TmMem.start.Tidy := by
    refine ⟨by simp [TmMem.start], ?_⟩
    intro p hp
    simp [TmMem.start, MemMap.construct, hp]
  have ht : ∃ t, readTrace exEnv 0 (IStream.ofBytes tmBytes) = .ok t ∧ (tmKinds t.allVars).length = 1 := by
    refine ⟨⟨[[97]], [⟨0, .blob, 4⟩], [⟨0, 7, [⟨16, 8⟩], [⟨.blob [1, 2, 3, 4], 0, 0, .blob, 4, 0, false⟩], []⟩]⟩, ?_, ?_⟩ <;> decide +kernel
  obtain ⟨t, ht, hl⟩ := ht
  have := (C89_grows (fun _ => 0) exEnv (IStream.ofBytes tmBytes) 0 t ht n TmMem.start hm).2.2
  rw [hl] at this
  omega

end TraceDB
