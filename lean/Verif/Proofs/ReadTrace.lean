import Verif.Spec.ReadTrace
import Verif.Proofs.OpenFile
import Verif.Props.OpenFile
import Verif.Props.QueryMemory
/-
Lemmas about reading a trace without a database.
-/
namespace TraceDB

theorem toNat_ofInt_32 {x : Int} (h : 0 ≤ x ∧ x < 2 ^ 32) : (BitVec.ofInt 32 x).toNat = x.toNat := by
  rw [BitVec.toNat_ofInt]; omega

theorem inCRange_true {x : Int} {b : Nat} : inCRange x b = true ↔ 0 ≤ x ∧ x < b := by
  simp [inCRange]

theorem addTrace_last (grow : Nat → Nat) (db : Db) (t : Trace) : (db.addTrace grow t).traces = db.traces ++ [t] := by
  unfold Db.addTrace; split <;> rfl

/-- Traces that were read can be exported. -/
theorem FitsMemory.exportable {σ : Type} {w : QueryWorld σ} {content : IStream} {maxPoints : Int} {t : Trace}
    (h : FitsMemory w content maxPoints) (ht : readTrace w.env (BitVec.ofInt 64 maxPoints) content = .ok t) :
    TraceExportable w t ∧ t.points.length * w.abi.sizeVar < 2 ^ (8 * w.abi.ptr.1) := by
  obtain ⟨h1, h2⟩ := h.points t ht
  refine ⟨⟨h.sizes, h.memory, fun p hp => ⟨fun v hv => ?_, h2 p hp⟩⟩, h1⟩
  obtain ⟨_, ty, hty, _⟩ := C09_variables_valid w.env _ _ t ht p hp v hv
  exact (List.getElem?_eq_some_iff.mp hty).1

/-- The result of opening comes with the descriptors from before, once the file's own is
closed. -/
theorem openWithTimeout_fds {os : OsEnv} {T : Nat} {fds fds' : List Nat} {r : Option Nat}
    (h : openWithTimeout os T fds = .ok (r, fds')) : (match r with | some n => fds'.erase n | none => fds') = fds := by
  cases hfd : os.fd with
  | none =>
    rw [openWithTimeout_none os T fds hfd] at h
    split at h
    · split at h <;> simp at h <;> obtain ⟨rfl, rfl⟩ := h <;> rfl
    · simp at h
  | some n =>
    by_cases hn : n < 1024
    · rcases openWithTimeout_some os T fds n hfd hn with ⟨_, e⟩ | ⟨_, _, e⟩ | ⟨_, _, e⟩ <;> rw [e] at h <;> simp at h <;>
        obtain ⟨rfl, rfl⟩ := h <;> simp
    · rw [openWithTimeout_large os T fds n hfd (by omega)] at h
      simp at h

/-- What `read_trace` does with a file that holds a trace. -/
theorem readTraceC_holds {env : Env} {j : ReadJob} {t : Trace} (h : j.Holds env t) (m : ReadMem) :
    readTraceC env j.os j.content (BitVec.ofInt 32 j.timeout) (BitVec.ofInt 64 j.maxPoints) m =
      (.ok (some m.traces.length), { m with traces := m.traces ++ [⟨true, t⟩] }) := by
  obtain ⟨n, h1, h2, h3⟩ := h.opens
  unfold readTraceC
  rw [toNat_ofInt_32 h.timeout, (C54_opened_or_error j.os _ m.fds n h1 h2).1 h3]
  simp [h.content]

/-- What `read-binary-trace` does with a file that holds a trace. -/
theorem readBinaryTrace_holds {σ : Type} (w : QueryWorld σ) {j : ReadJob} {t : Trace} (h : j.Holds w.env t) (m : ReadMem) :
    readBinaryTrace w j.os j.content j.timeout j.maxPoints m =
      ((lispGetTraceM w t none m.mem).1,
        ⟨m.fds, m.traces ++ [⟨true, t⟩], (lispGetTraceM w t none m.mem).2⟩) := by
  have h1 := h.timeout
  have h2 := h.limit
  have e : (inCRange j.timeout (2 ^ 32) && inCRange j.maxPoints (2 ^ 64)) = true := by
    simp only [Bool.and_eq_true, inCRange_true]; omega
  unfold readBinaryTrace
  rw [if_neg (by omega), if_neg (by omega), e, readTraceC_holds h]
  simp

/-- Opening succeeds only as described in C54. -/
theorem opened_inTime {os : OsEnv} {T n : Nat} {fds fds' : List Nat} (h : openWithTimeout os T fds = .ok (some n, fds')) :
    ∃ n, os.fd = some n ∧ n < 1024 ∧ os.InTime T := (C54_succeeds_iff os T fds).mp ⟨n, fds', h⟩

/-- What `read-binary-trace` does with any other file. -/
theorem readBinaryTrace_other {σ : Type} (w : QueryWorld σ) {j : ReadJob} (h : ∀ t, ¬ j.Holds w.env t) (m : ReadMem) :
    let out := readBinaryTrace w j.os j.content j.timeout j.maxPoints m
    (out.1 = .ok [] ∨ out.1 = .throw .lisp → out.2 = m) ∧
    (∀ l, out.1 = .ok l → l = []) ∧ (∀ e, out.1 = .throw e → e = .lisp) := by
  unfold readBinaryTrace
  by_cases h1 : j.timeout < 0
  · simp [h1]
  by_cases h2 : j.maxPoints < 0
  · simp [h1, h2]
  by_cases h3 : (inCRange j.timeout (2 ^ 32) && inCRange j.maxPoints (2 ^ 64)) = true
  · rw [if_neg h1, if_neg h2, h3]
    simp only [Bool.not_true, Bool.false_eq_true, if_false]
    simp only [Bool.and_eq_true, inCRange_true] at h3
    unfold readTraceC
    cases ho : openWithTimeout j.os (BitVec.ofInt 32 j.timeout).toNat m.fds with
    | ok r =>
      obtain ⟨fd, fds⟩ := r
      have hf := openWithTimeout_fds ho
      cases fd with
      | none => simp at hf; simp [hf]
      | some n =>
        simp only at hf
        cases hr : readTrace w.env (BitVec.ofInt 64 j.maxPoints) j.content with
        | ok t =>
          refine absurd ⟨by omega, by omega, ?_, hr⟩ (h t)
          have := opened_inTime ho
          rwa [toNat_ofInt_32 (by omega)] at this
        | throw e => simp [hf]
        | _ => simp
    | throw e =>
      exfalso
      cases hfd : j.os.fd with
      | none => rw [openWithTimeout_none _ _ _ hfd] at ho; split at ho <;> (try split at ho) <;> cases ho
      | some n =>
        by_cases hn : n < 1024
        · rcases openWithTimeout_some j.os _ m.fds n hfd hn with ⟨_, e⟩ | ⟨_, _, e⟩ | ⟨_, _, e⟩ <;> rw [e] at ho <;> cases ho
        · rw [openWithTimeout_large _ _ _ n hfd (by omega)] at ho; cases ho
    | _ => simp
  · simp [h1, h2, h3]

/-- The number of points is kept by the conversion. -/
theorem lispPoints_length {t : Trace} : ∀ {ps : List Point} {ls : List LPoint}, lispPoints t ps = .ok ls →
    ls.length = ps.length
  | [], _, h => by cases h; rfl
  | p :: ps, _, h => by
    simp only [lispPoints] at h
    obtain ⟨x, _, h⟩ := Res.bind_eq_ok.mp h
    obtain ⟨xs, h2, h⟩ := Res.bind_eq_ok.mp h
    cases h
    simp [lispPoints_length h2]

theorem goOn_ok {α : Type} {out : Res α × ReadMem} {k : ReadMem → Res Unit × ReadMem} {m' : ReadMem}
    (h : goOn out k = (.ok (), m')) : k out.2 = (.ok (), m') ∧ ((∃ a, out.1 = .ok a) ∨ out.1 = .throw .lisp) := by
  unfold goOn at h
  split at h
  · exact ⟨h, Or.inl ⟨_, by assumption⟩⟩
  · exact ⟨h, Or.inr (by assumption)⟩
  all_goals cases h

end TraceDB
