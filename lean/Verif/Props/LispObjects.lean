import Verif.Proofs.LispObjects
import Verif.Props.LispDb
/-
C66: databases as Lisp objects.
-/
namespace TraceDB

/-- **C66, points.**  Take any history of making databases, restricting objects to
files, adding files and points through any object, reading, querying, and storing and
restoring.  If it returns, then all answers are, apart from metadata, those of lists of
traces: objects that restrict a database show its traces, whoever added them, with their
own file unless another one is asked for; copies have the traces of the original at that
time, and from then on only what is added to them. -/
theorem C66_points {μ σ : Type} (w : World) (version : Nat) (hv : version < 2 ^ 32) (ev : Evaluator σ) (s s' : σ)
    (ops : List (ObjOp μ)) (xs : List (LispAnswer μ)) (h : LispHeap μ) (hn : ∀ op ∈ ops, op.NamesNulFree)
    (hs : (SpecHeap.after w.env ⟨[], []⟩ ops).Small)
    (e : lispRun w version ev ⟨[], []⟩ s ops = .ok (xs, h, s')) :
    ∃ xs', SpecHeap.run w ev ⟨[], []⟩ s ops = .ok (xs', s') ∧ AllRel LispAnswer.SamePoints xs xs' :=
  (lispRun_points hv ops heapInv_empty good_empty hn hs e).2

/-- **C66, metadata.**  If all additions are files and go to the databases themselves, not
to objects that restrict them, then the whole history ends exactly as it should, with
the metadata that was given for each trace, also through restrictions of restrictions
and in copies of copies. -/
theorem C66_exact {μ σ : Type} (w : World) (version : Nat) (hv : version < 2 ^ 32) (ev : Evaluator σ) (s : σ)
    (ops : List (ObjOp μ)) (hd : ∀ op ∈ ops, op.Direct (SpecHeap.after w.env ⟨[], []⟩ ops))
    (hs : (SpecHeap.after w.env ⟨[], []⟩ ops).Small) :
    (lispRun w version ev ⟨[], []⟩ s ops >>= fun r => .ok (r.1, r.2.2)) = SpecHeap.run w ev ⟨[], []⟩ s ops := by
  have h := lispRun_same (w := w) hv (ev := ev) ops s heapInv_empty metaInv_empty good_empty hd hs
  have := h.eq (fun r => (r.1, r.2.2)) id fun a b hab => Prod.ext hab.1 hab.2
  rw [this]
  cases SpecHeap.run w ev ⟨[], []⟩ s ops <;> rfl

/-- **C66, additions through restrictions.**  This does not hold for additions through an
object that restricts a database: the new trace is in the database, but its metadata
only in that object.  Reading it from the database is an error, and once another trace
was added there, it has the metadata of that one. -/
theorem C66_lost_metadata {μ σ : Type} (w : World) (version : Nat) (ev : Evaluator σ) (s : σ) (src : IStream) (k : U64)
    (t : Trace) (ht : readTrace w.env k src = .ok t) (ps qs : List LPoint) (f : Nat) (m m' : μ)
    (hps : lispGetTrace t none = .ok ps) (hqs : lispGetTrace t (some f) = .ok qs) :
    (lispRun w version ev ⟨[], []⟩ s
        [.create, .restrict 0 f, .add 1 (.trace (some src) k m), .get 1 0 none] >>= fun r => .ok r.1) =
      .ok [.object 0, .object 1, .done, .trace qs m] ∧
    lispRun w version ev ⟨[], []⟩ s
        [.create, .restrict 0 f, .add 1 (.trace (some src) k m), .get 0 0 none] = .throw .lisp ∧
    (lispRun w version ev ⟨[], []⟩ s
        [.create, .restrict 0 f, .add 1 (.trace (some src) k m), .add 0 (.trace (some src) k m'), .get 0 0 none] >>=
      fun r => .ok r.1) = .ok [.object 0, .object 1, .done, .done, .trace ps m'] := by
  have h1 : (Db.create.addTrace w.grow t).traces = [t] := by rw [addTrace_traces]; rfl
  have h2 : ((Db.create.addTrace w.grow t).addTrace w.grow t).traces = [t, t] := by
    rw [addTrace_traces, h1]; rfl
  have n1 : 0 < (nTracesApi (Db.create.addTrace w.grow t)).toNat := by unfold nTracesApi; rw [h1]; exact Nat.zero_lt_one
  have n2 : 0 < (nTracesApi ((Db.create.addTrace w.grow t).addTrace w.grow t)).toNat := by
    unfold nTracesApi; rw [h2]; show 0 < (BitVec.ofNat 32 2).toNat; decide
  generalize hd1 : Db.create.addTrace w.grow t = d1 at *
  generalize hd2 : d1.addTrace w.grow t = d2 at *
  refine ⟨?_, ?_, ?_⟩
  · simp [lispRun, lispStep, LispHeap.add, addTraceApi, ht, LispHeap.get, hd1, n1, h1, LispHeap.metadata, metadataFrom,
      fileInForce, hqs, Res.pure_eq]
  · simp [lispRun, lispStep, LispHeap.add, addTraceApi, ht, LispHeap.get, hd1, n1, h1, LispHeap.metadata, metadataFrom,
      fileInForce, hps, Res.pure_eq]
  · simp [lispRun, lispStep, LispHeap.add, addTraceApi, ht, LispHeap.get, hd1, hd2, n2, h2, LispHeap.metadata, metadataFrom,
      fileInForce, hps, Res.pure_eq]

/-- **C66, storing restrictions.**  Storing an object that restricts a database loses it:
restoring gives `nil`, whatever happened before. -/
theorem C66_restrictions_not_stored {μ σ : Type} (w : World) (version : Nat) (ev : Evaluator σ) (s : σ) (h : LispHeap μ)
    (i f : Nat) (o : LispObj μ) (ho : h.objs[i]? = some o) :
    (lispRun w version ev h s [.restrict i f, .copy h.objs.length] >>= fun r => .ok r.1) =
      .ok [.object h.objs.length, .nil] := by
  simp [lispRun, lispStep, ho, Res.pure_eq]

/-! A history: a database with the trace of C02 twice, a restriction to file 3 of a
restriction to file 2, a copy, additions to both, reading and a query. -/

def objWorld : World := ⟨(2 * ·), qEnv, fun _ _ => 0⟩
def objOps : List (ObjOp Nat) :=
  [.create, .add 0 (.trace (some (IStream.ofBytes exBytes)) 0 1), .restrict 0 2, .restrict 1 3, .copy 0,
   .add 0 (.trace (some (IStream.ofBytes exBytes)) 0 2), .add 3 (.trace (some (IStream.ofBytes [1, 2, 3])) 0 9),
   .add 3 (.trace (some (IStream.ofBytes exBytes)) 0 4), .get 0 1 none, .get 2 1 none, .get 2 0 none, .get 3 1 (some 3),
   .copy 2, .query 2 1 ⟨[], .nullPred, [], 0, none, none⟩]


/-- What it leaves according to the specification. -/
theorem objOps_after : SpecHeap.after objWorld.env ⟨[], []⟩ objOps =
    ⟨[[(exTrace, 1), (exTrace, 2)], [(exTrace, 1), (exTrace, 4)]], [(0, none), (0, some 2), (0, some 3), (1, none)]⟩ := by
  decide +kernel

/-- The hypotheses hold for it. -/
example : (∀ op ∈ objOps, op.Direct (SpecHeap.after objWorld.env ⟨[], []⟩ objOps)) ∧
    (∀ op ∈ objOps, op.NamesNulFree) ∧ (SpecHeap.after objWorld.env ⟨[], []⟩ objOps).Small := by
  rw [objOps_after]
  have ht : exTrace.Counts := by
    refine ⟨by decide +kernel, by decide +kernel, by decide +kernel, by decide +kernel, by decide +kernel,
      by decide +kernel, by decide +kernel⟩
  refine ⟨?_, ?_, ?_, by decide +kernel, ?_⟩
  · intro op hop
    simp only [objOps, List.mem_cons, List.not_mem_nil, or_false] at hop
    rcases hop with rfl | rfl | rfl | rfl | rfl | rfl | rfl | rfl | rfl | rfl | rfl | rfl | rfl | rfl <;>
      simp [ObjOp.Direct, LispAdd.isFile]
  · intro op hop
    simp only [objOps, List.mem_cons, List.not_mem_nil, or_false] at hop
    rcases hop with rfl | rfl | rfl | rfl | rfl | rfl | rfl | rfl | rfl | rfl | rfl | rfl | rfl | rfl <;>
      simp [ObjOp.NamesNulFree]
  · simp
  · intro l hl x hx
    simp only [List.mem_cons, List.not_mem_nil, or_false] at hl
    rcases hl with rfl | rfl <;>
    · simp only [List.mem_cons, List.not_mem_nil, or_false] at hx
      rcases hx with rfl | rfl <;> exact ht

/-- The history runs to its end; metadata 2 is found through the restrictions, metadata 4
in the copy. -/
example : (lispRun objWorld 17 (plainEval exFloats) ⟨[], []⟩ () objOps >>= fun r =>
    .ok (r.1.map fun x => match x with | .trace _ m => some m | .results _ m => m | _ => none)) =
    .ok [none, none, none, none, none, none, none, none, some 2, some 2, some 1, some 4, none, some 2] := by decide +kernel

example : (lispGetTrace exTrace none).isOk = true ∧ (lispGetTrace exTrace (some 3)).isOk = true ∧
    readTrace objWorld.env 0 (IStream.ofBytes exBytes) = .ok exTrace := by
  refine ⟨by decide +kernel, by decide +kernel, by decide +kernel⟩

end TraceDB
