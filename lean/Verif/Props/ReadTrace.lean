import Verif.Proofs.ReadTrace
/-
Properties of reading a trace without a database: C81.
-/
namespace TraceDB

/-- `read-binary-trace` returns what `add-trace` into any database followed by `get-trace`
of the newest trace returns, for timeouts that both functions accept: the same points, `nil` if
adding fails, and the same error, crash or endless wait otherwise. -/
theorem C81_as_add_trace {σ : Type} (w : QueryWorld σ) (grow : Nat → Nat) (db : Db) (os : OsEnv) (content : IStream)
    (timeout maxPoints : Int) (m : ReadMem) (hfit : FitsMemory w content maxPoints) (ht : timeout < 2 ^ 31) :
    (readBinaryTrace w os content timeout maxPoints m).1 =
      (addTraceLisp grow w.env os m.fds db content timeout maxPoints >>= newestPoints) := by
  unfold readBinaryTrace addTraceLisp
  by_cases h1 : timeout < 0
  · simp [h1]
  by_cases h2 : maxPoints < 0
  · simp [h1, h2]
  have e : inCRange timeout (2 ^ 32) = true ∧ inCRange timeout (2 ^ 31) = true := by
    simp only [inCRange_true]; omega
  rw [if_neg h1, if_neg h2, if_neg h1, if_neg h2, e.1, e.2]
  by_cases h3 : inCRange maxPoints (2 ^ 64) = true
  · rw [h3]
    simp only [Bool.and_self, Bool.not_true, Bool.false_eq_true, if_false]
    unfold readTraceC addTraceFile addTraceApi
    cases ho : openWithTimeout os (BitVec.ofInt 32 timeout).toNat m.fds with
    | ok r =>
      obtain ⟨fd, fds⟩ := r
      cases fd with
      | none => simp [newestPoints]
      | some n =>
        cases hr : readTrace w.env (BitVec.ofInt 64 maxPoints) content with
        | ok t =>
          obtain ⟨g1, g2⟩ := hfit.exportable hr
          obtain ⟨m', a, r, c1, _⟩ := C71_get_trace w t none m.mem g1 g2
          simp [hr, c1, newestPoints, addTrace_last]
        | throw e => simp [hr, newestPoints]
        | _ => simp [hr]
    | _ => simp
  · simp [h3]

/-- A file that holds a trace: the result is that of `get-trace` on it, the descriptor is
closed, what the conversion allocates is freed unless there is an error.  The `Trace` object
stays allocated in any case. -/
theorem C81_leak {σ : Type} (w : QueryWorld σ) (j : ReadJob) (t : Trace) (m : ReadMem) (h : j.Holds w.env t)
    (hfit : FitsMemory w j.content j.maxPoints) :
    ∃ m' a r, readBinaryTrace w j.os j.content j.timeout j.maxPoints m = (lispGetTrace t none, m') ∧
      m'.fds = m.fds ∧ m'.traces = m.traces ++ [⟨true, t⟩] ∧ m.mem.Adds m'.mem a [] r ∧ Released a [] ∧
      (if (lispGetTrace t none).isOk then ∀ b ∈ r, b.live = false else ∀ b ∈ r, b.live = true) := by
  obtain ⟨g1, g2⟩ := hfit.exportable h.content
  obtain ⟨m', a, r, c1, c2, c3, c4⟩ := C71_get_trace w t none m.mem g1 g2
  refine ⟨⟨m.fds, m.traces ++ [⟨true, t⟩], m'⟩, a, r, ?_, rfl, rfl, c2, c3, c4⟩
  rw [readBinaryTrace_holds w h, c1]

/-- A file that does not open in time or holds no trace, or arguments out of range: a normal
return is `nil`, an exception is a Lisp error, and nothing stays allocated or open. -/
theorem C81_no_trace {σ : Type} (w : QueryWorld σ) (j : ReadJob) (m : ReadMem) (h : ∀ t, ¬ j.Holds w.env t) :
    let out := readBinaryTrace w j.os j.content j.timeout j.maxPoints m
    (∀ l, out.1 = .ok l → l = [] ∧ out.2 = m) ∧ (∀ e, out.1 = .throw e → e = .lisp ∧ out.2 = m) := by
  obtain ⟨h1, h2, h3⟩ := readBinaryTrace_other w h m
  refine ⟨fun l hl => ?_, fun e he => ?_⟩
  · obtain rfl := h2 l hl
    exact ⟨rfl, h1 (Or.inl hl)⟩
  · obtain rfl := h3 e he
    exact ⟨rfl, h1 (Or.inr he)⟩

/-- `nil` is also the result for a trace without points: it does not tell a failure from an
empty trace. -/
theorem C81_nil {σ : Type} (w : QueryWorld σ) (j : ReadJob) (t : Trace) (m : ReadMem) (h : j.Holds w.env t)
    (hfit : FitsMemory w j.content j.maxPoints) :
    (readBinaryTrace w j.os j.content j.timeout j.maxPoints m).1 = .ok [] ↔ t.points = [] := by
  obtain ⟨m', a, r, e, _⟩ := C81_leak w j t m h hfit
  rw [e]
  unfold lispGetTrace ofFile
  constructor
  · intro h
    obtain ⟨ps, h1, h2⟩ := Res.bind_eq_ok.mp h
    cases h2
    have := lispPoints_length h1
    exact List.length_eq_zero_iff.mp this.symm
  · intro h
    rw [h]
    rfl

/-- The pointer returned by `read_trace` can be given to `free_trace`, once; then everything
is as before the two calls, except for the number of the next object. -/
theorem C81_free_trace (env : Env) (j : ReadJob) (t : Trace) (m : ReadMem) (h : j.Holds env t) :
    ∃ p m' m'', readTraceC env j.os j.content (BitVec.ofInt 32 j.timeout) (BitVec.ofInt 64 j.maxPoints) m =
        (.ok (some p), m') ∧ freeTraceC p m' = (.ok (), m'') ∧ (freeTraceC p m'').1 = .ub .badFree ∧
      m''.fds = m.fds ∧ m''.mem = m.mem ∧ m''.traces.filter (·.live) = m.traces.filter (·.live) := by
  refine ⟨m.traces.length, { m with traces := m.traces ++ [⟨true, t⟩] }, { m with traces := m.traces ++ [⟨false, t⟩] },
    readTraceC_holds h m, ?_, ?_, rfl, rfl, ?_⟩
  · simp [freeTraceC]
  · simp [freeTraceC]
  · simp

/-- Timeouts from 2^31 to 2^32 - 1 seconds: `add-trace` signals an error whatever the file,
`read-binary-trace` waits that long. -/
theorem C81_long_timeouts {σ : Type} (w : QueryWorld σ) (grow : Nat → Nat) (db : Db) (fds : List Nat) (j : ReadJob)
    (t : Trace) (m : ReadMem) (h : j.Holds w.env t) (hlong : 2 ^ 31 ≤ j.timeout)
    (hfit : FitsMemory w j.content j.maxPoints) :
    addTraceLisp grow w.env j.os fds db j.content j.timeout j.maxPoints = .throw .lisp ∧
      (readBinaryTrace w j.os j.content j.timeout j.maxPoints m).1 = lispGetTrace t none := by
  constructor
  · have h1 := h.timeout
    have h2 := h.limit
    have e : inCRange j.timeout (2 ^ 31) = false := by
      simp [inCRange]; omega
    unfold addTraceLisp
    rw [if_neg (by omega), if_neg (by omega), e]
    rfl
  · obtain ⟨m', a, r, e, _⟩ := C81_leak w j t m h hfit
    rw [e]

/-- Reading files in a loop: after any number of calls one `Trace` object is allocated for
each file that held a trace. -/
theorem C81_leaks_add_up {σ : Type} (w : QueryWorld σ) (js : List ReadJob) (ts : List Trace) (h : HeldBy w.env js ts) :
    ∀ m m' : ReadMem, readFiles w js m = (.ok (), m') →
      m'.fds = m.fds ∧ m'.traces = m.traces ++ ts.map fun t => ⟨true, t⟩ := by
  induction h with
  | nil => intro m m' e; cases e; simp
  | @trace j t js ts hj _ ih =>
    intro m m' e
    rw [readFiles, readBinaryTrace_holds w hj] at e
    obtain ⟨h1, h2⟩ := ih _ _ (goOn_ok e).1
    exact ⟨h1, by rw [h2]; simp⟩
  | @other j js ts hj _ ih =>
    intro m m' e
    obtain ⟨h1, h2, h3⟩ := readBinaryTrace_other w hj m
    rw [readFiles] at e
    obtain ⟨e, h4⟩ := goOn_ok e
    have h5 : (readBinaryTrace w j.os j.content j.timeout j.maxPoints m).2 = m := by
      rcases h4 with ⟨l, h4⟩ | h4
      · exact h1 (Or.inl (by rw [h4, h2 l h4]))
      · exact h1 (Or.inr h4)
    rw [h5] at e
    exact ih _ _ e

/-! ### Examples -/

/-- The environment of the examples for reading, with the memory of `C71`. -/
def rWorld : QueryWorld Unit := { fWorld with env := exEnv }

/-- A file with the example trace, in a pipe. -/
def rJob : ReadJob := ⟨exPipe, IStream.ofBytes exBytes, 3, 0⟩

/-- A file that cannot be opened in time. -/
def rLate : ReadJob := { rJob with timeout := 2 }

def rMem : ReadMem := ⟨[1, 2], [], fMem⟩

theorem rJob_holds : rJob.Holds rWorld.env exTrace :=
  ⟨by decide, by decide, ⟨5, rfl, by decide, 3, rfl, Or.inr (by decide), fun s h => by cases h⟩, by decide +kernel⟩

theorem rJob_fits : FitsMemory rWorld rJob.content rJob.maxPoints := by
  refine ⟨by decide, fun _ => rfl, fun t ht => ?_⟩
  have : readTrace rWorld.env (BitVec.ofInt 64 rJob.maxPoints) rJob.content = .ok exTrace := by decide +kernel
  rw [this] at ht
  cases ht
  decide +kernel

theorem rLate_holds_none : ∀ t, ¬ rLate.Holds rWorld.env t := by
  intro t h
  obtain ⟨n, _, _, r, h1, h2, _⟩ := h.opens
  cases h1
  rcases h2 with h2 | h2 <;> exact absurd h2 (by decide)

/-- Reading the file gives two points; one block more is in use, the trace. -/
example : (readBinaryTrace rWorld rJob.os rJob.content 3 0 rMem).1.isOk = true ∧
    (readBinaryTrace rWorld rJob.os rJob.content 3 0 rMem).2.mem.inUse = fMem.inUse ∧
    (readBinaryTrace rWorld rJob.os rJob.content 3 0 rMem).2.traces = [⟨true, exTrace⟩] ∧ exTrace.points.length ≠ 0 := by
  refine ⟨by decide +kernel, by decide +kernel, by decide +kernel, by decide⟩

/-- Adding the same file to a database. -/
example : (addTraceLisp (fun n => n) exEnv exPipe [1, 2] Db.create (IStream.ofBytes exBytes) 3 0 >>= newestPoints) =
    (readBinaryTrace rWorld rJob.os rJob.content 3 0 rMem).1 :=
  (C81_as_add_trace rWorld (fun n => n) Db.create exPipe (IStream.ofBytes exBytes) 3 0 rMem rJob_fits (by decide)).symm

/-- The late file gives `nil`. -/
example : readBinaryTrace rWorld rLate.os rLate.content rLate.timeout 0 rMem = (.ok [], rMem) := by decide +kernel

/-- An empty trace gives `nil` too, and stays allocated. -/
example : (readBinaryTrace rWorld exPipe (IStream.ofBytes (encodeHeader exNames exTypes)) 3 0 rMem).1 = .ok [] ∧
    (readBinaryTrace rWorld exPipe (IStream.ofBytes (encodeHeader exNames exTypes)) 3 0 rMem).2.traces =
      [⟨true, ⟨exNames, exTypes, []⟩⟩] := by decide +kernel

/-- A long timeout. -/
example : ({ rJob with timeout := 2 ^ 31 } : ReadJob).Holds rWorld.env exTrace :=
  ⟨by decide, by decide, ⟨5, rfl, by decide, 3, rfl, Or.inr (by decide), fun s h => by cases h⟩, by decide +kernel⟩

/-- Three calls, two of which leave an object. -/
example : HeldBy rWorld.env [rJob, rLate, rJob] [exTrace, exTrace] ∧
    (readFiles rWorld [rJob, rLate, rJob] rMem).1 = .ok () :=
  ⟨.trace rJob_holds (.other rLate_holds_none (.trace rJob_holds .nil)), by decide +kernel⟩

end TraceDB
