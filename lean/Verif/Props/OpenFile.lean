import Verif.Proofs.OpenFile
import Verif.Props.Reader
/-
Properties of opening a trace file with a timeout: C54.
-/
namespace TraceDB

/-- Opening succeeds exactly when the file opens with a descriptor that fits into an
`fd_set` and becomes readable within the timeout, before any signal. -/
theorem C54_succeeds_iff (os : OsEnv) (T : Nat) (fds : List Nat) :
    (∃ n fds', openWithTimeout os T fds = .ok (some n, fds')) ↔
      ∃ n, os.fd = some n ∧ n < 1024 ∧ os.InTime T := by
  cases hfd : os.fd with
  | none =>
    rw [openWithTimeout_none os T fds hfd]
    constructor
    · rintro ⟨n, fds', h⟩
      split at h
      · split at h <;> simp at h
      · simp at h
    · rintro ⟨n, h, _⟩; exact absurd h (by simp)
  | some n =>
    by_cases hn : n < 1024
    · rcases openWithTimeout_some os T fds n hfd hn with ⟨h, e⟩ | ⟨h, _, e⟩ | ⟨h, _, e⟩ <;> rw [e]
      · exact ⟨fun _ => ⟨n, rfl, hn, h⟩, fun _ => ⟨n, _, rfl⟩⟩
      · exact ⟨fun ⟨_, _, h'⟩ => by simp at h', fun ⟨_, _, _, h'⟩ => absurd h' h⟩
      · exact ⟨fun ⟨_, _, h'⟩ => by simp at h', fun ⟨_, _, _, h'⟩ => absurd h' h⟩
    · rw [openWithTimeout_large os T fds n hfd (by omega)]
      constructor
      · rintro ⟨_, _, h'⟩; simp at h'
      · rintro ⟨m, h1, h2, _⟩
        cases h1
        exact absurd h2 hn

/-- On success the descriptor is the file's, and it is the only new open one; otherwise,
when the wait ends by the timeout or a signal, the error is reported and no descriptor
stays open. -/
theorem C54_opened_or_error (os : OsEnv) (T : Nat) (fds : List Nat) (n : Nat) (hfd : os.fd = some n)
    (hn : n < 1024) :
    (os.InTime T → openWithTimeout os T fds = .ok (some n, n :: fds)) ∧
    (¬ os.InTime T → os.GivesUp T → openWithTimeout os T fds = .ok (none, fds)) ∧
    (¬ os.InTime T → ¬ os.GivesUp T → openWithTimeout os T fds = .hang) := by
  rcases openWithTimeout_some os T fds n hfd hn with ⟨h, e⟩ | ⟨h, g, e⟩ | ⟨h, g, e⟩
  · exact ⟨fun _ => e, fun h' => absurd h h', fun h' => absurd h h'⟩
  · exact ⟨fun h' => absurd h' h, fun _ _ => e, fun _ h' => absurd g h'⟩
  · exact ⟨fun h' => absurd h' h, fun _ g' => absurd g' g, fun _ _ => e⟩

/-- A pipe whose writer appears after three seconds. -/
def exPipe : OsEnv := ⟨some 5, some 3, none, false⟩

example : exPipe.InTime 3 ∧ exPipe.InTime 0 ∧ ¬ exPipe.InTime 2 ∧ exPipe.GivesUp 2 ∧
    openWithTimeout exPipe 3 [1] = .ok (some 5, [5, 1]) ∧ openWithTimeout exPipe 2 [1] = .ok (none, [1]) := by
  refine ⟨⟨3, rfl, by decide, fun s h => by simp [exPipe] at h⟩, ⟨3, rfl, by decide, fun s h => by simp [exPipe] at h⟩,
    ?_, Or.inl (by decide), by decide +kernel, by decide +kernel⟩
  rintro ⟨r, hr, h, _⟩
  simp only [exPipe, Option.some.injEq] at hr
  omega

/-- A file that cannot be opened is not reported as an error by itself: descriptor -1
is used in `FD_SET`, which is undefined; on platforms where that does no harm the error
is reported only after the whole timeout or at a signal, and with timeout 0 and no
signal the call never returns. -/
theorem C54_missing_file (os : OsEnv) (T : Nat) (fds : List Nat) (hfd : os.fd = none) :
    (os.lenient = false → openWithTimeout os T fds = .ub .oobWrite) ∧
    (os.lenient = true → os.GivesUp T → openWithTimeout os T fds = .ok (none, fds)) ∧
    (os.lenient = true → ¬ os.GivesUp T → openWithTimeout os T fds = .hang) := by
  rw [openWithTimeout_none os T fds hfd]
  have e : os.GivesUp T ↔ (T ≠ 0 ∨ os.signalAt.isSome) := by
    unfold OsEnv.GivesUp
    cases os.signalAt <;> simp
  refine ⟨fun h => by simp [h], fun h g => ?_, fun h g => ?_⟩
  · rw [h, if_pos rfl, if_pos (e.1 g)]
  · rw [h, if_pos rfl, if_neg (fun h' => g (e.2 h'))]

example : openWithTimeout ⟨none, none, none, true⟩ 0 [] = .hang ∧
    openWithTimeout ⟨none, none, none, true⟩ 10 [] = .ok (none, []) ∧
    openWithTimeout ⟨none, none, none, false⟩ 10 [] = .ub .oobWrite := by
  refine ⟨by decide +kernel, by decide +kernel, by decide +kernel⟩

/-- A process with more than 1024 open descriptors gets undefined behaviour for a file
that opens and is readable at once. -/
theorem C54_many_descriptors (os : OsEnv) (T : Nat) (fds : List Nat) (n : Nat) (hfd : os.fd = some n)
    (hn : 1024 ≤ n) : openWithTimeout os T fds = .ub .oobWrite :=
  openWithTimeout_large os T fds n hfd hn

example : (⟨some 1024, some 0, none, true⟩ : OsEnv).InTime 0 ∧
    openWithTimeout ⟨some 1024, some 0, none, true⟩ 0 [] = .ub .oobWrite := by
  exact ⟨⟨0, rfl, Or.inl rfl, fun s h => by simp at h⟩, by decide +kernel⟩

/-- `add_trace` of a file that opens: in time, it is reading the content; too late, it
returns 0 and the database stays as it is.  Either way, when it returns, the open
descriptors are those from before the call. -/
theorem C54_add_trace (grow : Nat → Nat) (env : Env) (os : OsEnv) (fds : List Nat) (db : Db) (content : IStream)
    (timeout : U32) (maxPoints : U64) (n : Nat) (hfd : os.fd = some n) (hn : n < 1024) :
    (os.InTime timeout.toNat → addTraceFile grow env os fds db content timeout maxPoints =
      (addTraceApi grow env db (some content) maxPoints >>= fun r => .ok (r.1, r.2, fds))) ∧
    (¬ os.InTime timeout.toNat → os.GivesUp timeout.toNat →
      addTraceFile grow env os fds db content timeout maxPoints = .ok (0, db, fds)) ∧
    (∀ r db' fds', addTraceFile grow env os fds db content timeout maxPoints = .ok (r, db', fds') → fds' = fds) := by
  have a : os.InTime timeout.toNat → addTraceFile grow env os fds db content timeout maxPoints =
      (addTraceApi grow env db (some content) maxPoints >>= fun r => .ok (r.1, r.2, fds)) := by
    intro h
    simp [addTraceFile, (C54_opened_or_error os timeout.toNat fds n hfd hn).1 h]
  have b : ¬ os.InTime timeout.toNat → os.GivesUp timeout.toNat →
      addTraceFile grow env os fds db content timeout maxPoints = .ok (0, db, fds) := by
    intro h g
    simp [addTraceFile, (C54_opened_or_error os timeout.toNat fds n hfd hn).2.1 h g, addTraceApi]
  refine ⟨a, b, fun r db' fds' e => ?_⟩
  by_cases h : os.InTime timeout.toNat
  · rw [a h, Res.bind_eq_ok] at e
    obtain ⟨x, _, e⟩ := e
    simp only [Res.ok.injEq, Prod.mk.injEq] at e
    exact e.2.2.symm
  · by_cases g : os.GivesUp timeout.toNat
    · rw [b h g] at e
      simp only [Res.ok.injEq, Prod.mk.injEq] at e
      exact e.2.2.symm
    · simp [addTraceFile, (C54_opened_or_error os timeout.toNat fds n hfd hn).2.2 h g] at e

example : addTraceFile (fun n => n) exEnv exPipe [1] Db.create (IStream.ofBytes exBytes) 3 0 =
      .ok (1, Db.create.addTrace (fun n => n) exTrace, [1]) ∧
    addTraceFile (fun n => n) exEnv exPipe [1] Db.create (IStream.ofBytes exBytes) 2 0 = .ok (0, Db.create, [1]) := by
  refine ⟨by decide +kernel, by decide +kernel⟩

end TraceDB
