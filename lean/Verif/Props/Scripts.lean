import Verif.Proofs.Scripts
import Verif.Props.LispObjects
/-
C117: Lisp programs that handle errors, and whose filters use databases.
-/
namespace TraceDB

variable {μ : Type}

/-- **C117, errors.**  Take any history in which errors are handled.  Its answers, without the errors, and
the objects and traces it leaves are those of the history of the operations that signalled no error.  Moreover,
an operation signals an error if and only if it does so after only those operations before it that signalled none. -/
theorem C117_errors (w : World) (version : Nat) (ev : Evaluator Unit) (ops : List (ObjOp μ))
    (xs : List (Option (LispAnswer μ))) (h1 : LispHeap μ) (e : handledRun w version ev ops ⟨[], []⟩ = .ok (xs, h1)) :
    xs.length = ops.length ∧
    (∃ h2 : LispHeap μ, lispRun w version ev ⟨[], []⟩ () (succeeded ops xs) = .ok (xs.filterMap id, h2, ()) ∧ h1.Alike h2) ∧
    ∀ (pre : List (ObjOp μ)) (op : ObjOp μ) (post : List (ObjOp μ)), ops = pre ++ op :: post →
      ∃ (ys : List (Option (LispAnswer μ))) (x : Option (LispAnswer μ)) (zs : List (Option (LispAnswer μ))),
        xs = ys ++ x :: zs ∧ ys.length = pre.length ∧
        (x = none ↔ lispRun w version ev ⟨[], []⟩ () (succeeded pre ys ++ [op]) = .throw .lisp) := by
  have a : LispHeap.Alike (⟨[], []⟩ : LispHeap μ) ⟨[], []⟩ := ⟨rfl, .nil⟩
  obtain ⟨hl, hr⟩ := handledRun_lispRun w version ev ops _ _ xs h1 a e
  refine ⟨hl, hr, ?_⟩
  rintro pre op post rfl
  exact handledRun_errors w version ev pre op post _ _ a xs h1 e

/-- **C117, other ends.**  A history in which errors are handled ends otherwise only where the operations that
signalled no error, and the next one, end in the same way. -/
theorem C117_ends (w : World) (version : Nat) (ev : Evaluator Unit) (ops : List (ObjOp μ))
    (e : (handledRun w version ev ops ⟨[], []⟩).isOk = false) :
    ∃ (pre : List (ObjOp μ)) (op : ObjOp μ) (post : List (ObjOp μ)) (ys : List (Option (LispAnswer μ))) (g : LispHeap μ),
      ops = pre ++ op :: post ∧ handledRun w version ev pre ⟨[], []⟩ = .ok (ys, g) ∧
      (lispRun w version ev ⟨[], []⟩ () (succeeded pre ys ++ [op]) >>= fun _ => Res.ok ()) =
        (handledRun w version ev ops ⟨[], []⟩ >>= fun _ => Res.ok ()) :=
  handledRun_ends w version ev ops _ _ ⟨rfl, .nil⟩ e

/-- **C117, meaning.**  So if the additions that signalled no error are files and go to the databases themselves, then
the answers are those of lists of traces with their metadata. -/
theorem C117_meaning (w : World) (version : Nat) (hv : version < 2 ^ 32) (ev : Evaluator Unit) (ops : List (ObjOp μ))
    (xs : List (Option (LispAnswer μ))) (h1 : LispHeap μ) (e : handledRun w version ev ops ⟨[], []⟩ = .ok (xs, h1))
    (hd : ∀ op ∈ succeeded ops xs, op.Direct (SpecHeap.after w.env ⟨[], []⟩ (succeeded ops xs)))
    (hs : (SpecHeap.after w.env ⟨[], []⟩ (succeeded ops xs)).Small) :
    SpecHeap.run w ev ⟨[], []⟩ () (succeeded ops xs) = .ok (xs.filterMap id, ()) := by
  obtain ⟨-, ⟨h2, e2, -⟩, -⟩ := C117_errors w version ev ops xs h1 e
  rw [← C66_exact w version hv ev () (succeeded ops xs) hd hs, e2]
  rfl

/-- **C117, caches.**  No program sees what queries leave in the databases: programs started with the same objects
and traces, after whatever queries, get the same answers in the same order and end alike. -/
theorem C117_caches (w : World) (version : Nat) (ev : Evaluator Unit) (p : Script μ) (h h' : LispHeap μ)
    (log : List (Option (LispAnswer μ))) (a : h.Alike h') :
    Res.Rel (fun x y => x.1 = y.1 ∧ x.2.1.Alike y.2.1 ∧ x.2.2 = y.2.2) (p.run w version ev (h, log)) (p.run w version ev (h', log)) :=
  script_alike w version ev p h h' log a

/-- **C117, nothing is lost.**  Whatever a program does, with errors at any place, also in filters: afterwards each
object shows the database it showed, which has at least the traces it had, under the same numbers. -/
theorem C117_kept (w : World) (version : Nat) (ev : Evaluator Unit) (p : Script μ) (h h1 : LispHeap μ)
    (log log1 : List (Option (LispAnswer μ))) (r : Option Bool) (a : h.Alike h)
    (e : p.run w version ev (h, log) = .ok (r, h1, log1)) : h.Kept h1 ∧ h1.Alike h1 ∧ log <+: log1 :=
  script_kept w version ev p h log r h1 log1 a e

/-- **C117, programs.**  A program that decides by the answers what it does next, and whose queries have functions as
filters, ends with `r` and these answers if and only if it chooses, when it gets these answers, operations that
as a history give them.  So `C117_errors` holds for it. -/
theorem C117_programs (w : World) (version : Nat) (ev : Evaluator Unit) (p : Script μ) (hp : p.NoFilters) (h h1 : LispHeap μ)
    (xs : List (Option (LispAnswer μ))) (r : Option Bool) :
    p.run w version ev (h, []) = .ok (r, h1, xs) ↔
      ∃ ops : List (ObjOp μ), p.Chooses ops xs r ∧ handledRun w version ev ops h = .ok (xs, h1) := by
  constructor
  · intro e
    obtain ⟨ops, ys, hc, hl, hr⟩ := script_runs w version ev p h h1 [] xs r e hp
    rw [List.nil_append] at hl
    subst hl
    exact ⟨ops, hc, hr⟩
  · rintro ⟨ops, hc, hr⟩
    have := script_chooses w version ev hc h h1 [] hr
    rwa [List.nil_append] at this

/-- **C117, filters.**  A query whose filter is a program, in any state: if it gets to the end, then all results
for the trace as it was when the query began were given to the filter in their order, each in the state that the
filter left before, whatever it did to the database; those it accepted are returned without duplicates.  The
metadata is that found after the last call of the filter.  If an error was signalled, then because a type, variable or
file is wrong or the trace does not exist, before the filter was called; or by the filter, or by a result that
cannot be converted, and then the filter was called for the results before it. -/
theorem C117_filter (w : World) (version : Nat) (ev : Evaluator Unit) (i idx : Nat) (q : LQuery) (filter : LPoint → Script μ)
    (k : Option (LispAnswer μ) → Script μ) (h : LispHeap μ) (log : List (Option (LispAnswer μ))) (a : h.Alike h)
    (o : LispObj μ) (ho : h.objs[i]? = some o) (db : Db) (hdb : h.dbs[o.db]? = some db)
    (r : Option Bool × LispHeap μ × List (Option (LispAnswer μ)))
    (e : (Script.query i idx q filter k).run w version ev (h, log) = .ok r) :
    ∃ (x : Option (LispAnswer μ)) (h2 : LispHeap μ) (log2 : List (Option (LispAnswer μ))),
      (k x).run w version ev (h2, log2 ++ [x]) = .ok r ∧
      (((db.traces.length % 2 ^ 32 ≤ idx ∨ ∃ t, db.traces[idx]? = some t ∧
            lispQueryArgs t { q with file := fileInForce q.file o, filter := some fun _ => true } = .throw .lisp) ∧
          x = none ∧ h2 = h ∧ log2 = log) ∨
        ∃ (t : Trace) (args : Query) (rs : List Point) (c : PointsCache) (g : LispHeap μ),
          db.traces[idx]? = some t ∧
          lispQueryArgs t { q with file := fileInForce q.file o, filter := some fun _ => true } = .ok args ∧
          queryTrace w.env w.pick ev t args true [] () = .ok (rs, c, ()) ∧ h.Alike g ∧
          ((∃ ls ks : List LPoint, lispPoints t rs = .ok ls ∧
              FiltersRun (fun l => (filter l).run w version ev) ls (g, log) ks (h2, log2) ∧
              x = some (.results (removeDuplicates sameBindings ks) (h2.metadata i)[idx]?)) ∨
           (x = none ∧ ∃ (qs : List Point) (p : Point) (rest : List Point) (ls ks : List LPoint)
              (s1 : LispHeap μ × List (Option (LispAnswer μ))), rs = qs ++ p :: rest ∧ lispPoints t qs = .ok ls ∧
              FiltersRun (fun l => (filter l).run w version ev) ls (g, log) ks s1 ∧
              ((∃ l, lispPoint t p = .ok l ∧ (filter l).run w version ev s1 = .ok (none, h2, log2)) ∨
               (lispPoint t p = .throw .lisp ∧ (h2, log2) = s1))))) := by
  unfold Script.run at e
  rw [ho] at e
  dsimp only at e
  rw [hdb] at e
  dsimp only at e
  cases hr : h.results w ev o db idx { q with filter := some fun _ => true } with
  | ok y =>
    obtain ⟨x, g⟩ := y
    rw [hr] at e
    simp only [Res.ok_bind] at e
    have hf := results_found w ev a o hdb idx _ hr
    cases x with
    | none =>
      obtain ⟨-, rfl, hf⟩ := hf
      exact ⟨none, g, log, e, .inl ⟨hf, rfl, rfl, rfl⟩⟩
    | some x =>
      obtain ⟨t, rs⟩ := x
      obtain ⟨hA, ht, args, c, ha, hq⟩ := hf
      dsimp only at e
      cases hc : filterResults t (fun l => Script.run w version ev (filter l)) rs (g, log) with
      | ok z =>
        obtain ⟨ls, g1, log2⟩ := z
        rw [hc] at e
        simp only [Res.ok_bind] at e
        have he := filterResults_ends t _ rs _ _ ls hc
        cases ls with
        | some ks =>
          obtain ⟨ls, e2, e3⟩ := he
          exact ⟨_, g1, log2, e, .inr ⟨t, args, rs, c, g, ht, ha, hq, hA, .inl ⟨ls, ks, e2, e3, rfl⟩⟩⟩
        | none =>
          obtain ⟨qs, p, rest, ls, ks, s1, e1, e2, e3, e4⟩ := he
          exact ⟨none, g1, log2, e, .inr ⟨t, args, rs, c, g, ht, ha, hq, hA, .inr ⟨rfl, qs, p, rest, ls, ks, s1, e1, e2, e3, e4⟩⟩⟩
      | _ => rw [hc] at e; cases e
  | _ => rw [hr] at e; cases e

/-- **C117, filters that only look.**  If the calls of the filter that return accept the points that `g` accepts, then, whatever
else they do (queries, additions to the database being queried, ...), the query answers like one with `g` to a
database with only that trace, to which no query was made before. -/
theorem C117_filter_function (w : World) (version : Nat) (ev : Evaluator Unit) (i idx : Nat) (q : LQuery) (filter : LPoint → Script μ)
    (k : Option (LispAnswer μ) → Script μ) (h : LispHeap μ) (log : List (Option (LispAnswer μ))) (a : h.Alike h)
    (o : LispObj μ) (ho : h.objs[i]? = some o) (db : Db) (hdb : h.dbs[o.db]? = some db) (t : Trace) (ht : db.traces[idx]? = some t)
    (hn : idx < db.traces.length % 2 ^ 32) (g : LPoint → Bool)
    (hg : ∀ l s b s1, (filter l).run w version ev s = .ok (b, s1) → b = some (g l))
    (r : Option Bool × LispHeap μ × List (Option (LispAnswer μ)))
    (e : (Script.query i idx q filter k).run w version ev (h, log) = .ok r) :
    ∃ (x : Option (LispAnswer μ)) (h2 : LispHeap μ) (log2 : List (Option (LispAnswer μ))),
      (k x).run w version ev (h2, log2 ++ [x]) = .ok r ∧ h.Kept h2 ∧
      match lispQuery w.env w.pick ev t { q with file := fileInForce q.file o, filter := some g } [] () with
      | .ok (ls, _) => x = some (.results ls (h2.metadata i)[idx]?)
      | y => x = none ∧ y = .throw .lisp := by
  obtain ⟨x, h2, log2, e1, hc⟩ := C117_filter w version ev i idx q filter k h log a o ho db hdb r e
  have along : ∀ (l1 k1 : List LPoint) (s s2 : LispHeap μ × List (Option (LispAnswer μ))), s.1.Alike s.1 →
      FiltersRun (fun l => (filter l).run w version ev) l1 s k1 s2 → s.1.Kept s2.1 ∧ s2.1.Alike s2.1 := by
    intro l1 k1 s s2 ha hrun
    induction hrun with
    | nil s => exact ⟨.refl _, ha⟩
    | keep h1 _ ih =>
      have k1 := C117_kept w version ev _ _ _ _ _ _ ha h1
      exact ⟨k1.1.trans (ih k1.2.1).1, (ih k1.2.1).2⟩
    | drop h1 _ ih =>
      have k1 := C117_kept w version ev _ _ _ _ _ _ ha h1
      exact ⟨k1.1.trans (ih k1.2.1).1, (ih k1.2.1).2⟩
  have args_same : lispQueryArgs t { q with file := fileInForce q.file o, filter := some g } =
      lispQueryArgs t { q with file := fileInForce q.file o, filter := some fun _ => true } := rfl
  rw [lispQuery_args, args_same]
  refine ⟨x, h2, log2, e1, ?_⟩
  rcases hc with ⟨h1 | ⟨t', ht', h1⟩, rfl, rfl, rfl⟩ | ⟨t', args, rs, c, g0, ht', ha, hq, hA, hc⟩
  · omega
  · rw [ht] at ht'; cases ht'
    rw [h1]
    exact ⟨.refl _, rfl, rfl⟩
  · rw [ht] at ht'; cases ht'
    rw [ha, Res.ok_bind]
    simp only [Option.isSome_some]
    rw [hq, Res.ok_bind]
    rcases hc with ⟨ls, ks, e2, e3, rfl⟩ | ⟨rfl, qs, p, rest, ls, ks, s1, rfl, e2, e3, e4⟩
    · refine ⟨hA.kept.trans (along _ _ _ _ hA.right e3).1, ?_⟩
      rw [e2, Res.ok_bind, e3.pure hg]
    · rcases e4 with ⟨l, -, e4⟩ | ⟨e4, e5⟩
      · cases hg _ _ _ _ e4
      · cases e5
        refine ⟨hA.kept.trans (along _ _ _ _ hA.right e3).1, ?_⟩
        have : lispPoints t (qs ++ p :: rest) = .throw .lisp := lispPoints_throw e2 e4 rest
        rw [this]
        exact ⟨rfl, rfl⟩

/-! A history with errors: reading from a database without traces, from an object that is not there, a query to a
trace that is not there, and one with a file number that is too large. -/

def hdOps : List (ObjOp Nat) :=
  [.create, .get 0 0 none, .add 0 (.trace (some (IStream.ofBytes exBytes)) 0 1), .get 3 0 none,
   .query 0 1 ⟨[], .nullPred, [], 0, none, none⟩, .query 0 0 ⟨[], .nullPred, [], 0, some (2 ^ 40), none⟩, .restrict 0 2,
   .query 1 0 ⟨[], .nullPred, [], 0, none, some fun _ => true⟩, .get 0 0 none]

/-- It runs to its end, with four errors. -/
example : (handledRun objWorld 17 (plainEval exFloats) hdOps ⟨[], []⟩ >>= fun r => .ok (r.1.map fun x => match x with
      | some (.trace ps m) => some (some m, ps.length)
      | some (.results ps m) => some (m, ps.length)
      | some _ => some (none, 0)
      | none => none)) =
    .ok [some (none, 0), none, some (none, 0), none, none, none, some (none, 0), some (some 1, 0), some (some 1, 2)] := by
  decide +kernel

/-- What is left of it. -/
def hdLeft : List (ObjOp Nat) :=
  [.create, .add 0 (.trace (some (IStream.ofBytes exBytes)) 0 1), .restrict 0 2,
   .query 1 0 ⟨[], .nullPred, [], 0, none, some fun _ => true⟩, .get 0 0 none]

/-- The hypotheses of `C117_meaning` hold for it. -/
example : (∃ xs h1, handledRun objWorld 17 (plainEval exFloats) hdOps ⟨[], []⟩ = .ok (xs, h1) ∧ succeeded hdOps xs = hdLeft) ∧
    (∀ op ∈ hdLeft, op.Direct (SpecHeap.after objWorld.env ⟨[], []⟩ hdLeft)) ∧
    (SpecHeap.after objWorld.env ⟨[], []⟩ hdLeft).Small := by
  have hafter : SpecHeap.after objWorld.env ⟨[], []⟩ hdLeft = ⟨[[(exTrace, 1)]], [(0, none), (0, some 2)]⟩ := by decide +kernel
  have hpat : (handledRun objWorld 17 (plainEval exFloats) hdOps ⟨[], []⟩ >>= fun r => .ok (r.1.map Option.isSome)) =
      .ok [true, false, true, false, false, false, true, true, true] := by decide +kernel
  refine ⟨?_, ?_, ?_⟩
  · cases hr : handledRun objWorld 17 (plainEval exFloats) hdOps ⟨[], []⟩ with
    | ok r =>
      rw [hr] at hpat
      simp only [Res.ok_bind, Res.ok.injEq] at hpat
      obtain ⟨xs, h1⟩ := r
      refine ⟨xs, h1, rfl, ?_⟩
      dsimp only at hpat
      match xs, hpat with
      | [some _, none, some _, none, none, none, some _, some _, some _], _ => rfl
    | _ => rw [hr] at hpat; cases hpat
  · rw [hafter]
    intro op hop
    simp only [hdLeft, List.mem_cons, List.not_mem_nil, or_false] at hop
    rcases hop with rfl | rfl | rfl | rfl | rfl <;> simp [ObjOp.Direct, LispAdd.isFile]
  · rw [hafter]
    have ht : exTrace.Counts := by
      refine ⟨by decide +kernel, by decide +kernel, by decide +kernel, by decide +kernel, by decide +kernel,
        by decide +kernel, by decide +kernel⟩
    refine ⟨by simp, by decide +kernel, ?_⟩
    intro l hl x hx
    simp only [List.mem_cons, List.not_mem_nil, or_false] at hl
    subst hl
    simp only [List.mem_cons, List.not_mem_nil, or_false] at hx
    subst hx
    exact ht

/-! Programs: a database with one trace, and a query with a filter. -/

def scrProg (f : LPoint → Script Nat) : Script Nat :=
  .call .create fun _ => .call (.add 0 (.trace (some (IStream.ofBytes exBytes)) 0 1)) fun _ =>
    .query 0 0 ⟨[], .nullPred, [], 0, none, none⟩ f fun _ => .done (some true)

/-- Metadata and number of points of all results of queries. -/
def scrResults (r : Res (Option Bool × LispHeap Nat × List (Option (LispAnswer Nat)))) : Res (List (Option (Option Nat × Nat))) :=
  r >>= fun r => .ok (r.2.2.filterMap fun x => match x with
    | some (.results ps m) => some (some (m, ps.length))
    | some _ => none
    | none => some none)

/-- **C117, metadata.**  A filter that adds points changes what the running query returns: its results are still those of the
first trace, but their metadata is that given for the points the filter added. -/
theorem C117_metadata_of_others :
    scrResults ((scrProg fun _ => .done (some true)).run objWorld 17 (plainEval exFloats) (⟨[], []⟩, [])) =
      .ok [some (some 1, 2)] ∧
    scrResults ((scrProg fun _ => .call (.add 0 (.points [] [] 7)) fun _ => .done (some true)).run objWorld 17
      (plainEval exFloats) (⟨[], []⟩, [])) = .ok [some (some 7, 2)] := by
  constructor <;> decide +kernel

/-- A filter that makes a query with a filter to the same trace, in which that filter gets both points, and then signals
an error: the outer query is an error too. -/
example : scrResults ((scrProg fun l => .query 0 0 ⟨[], .nullPred, [], 0, none, none⟩ (fun m => .done (some (l.c == m.c)))
    fun _ => .done none).run objWorld 17 (plainEval exFloats) (⟨[], []⟩, [])) = .ok [some (some 1, 1), none] := by decide +kernel

/-- A filter to which `C117_filter_function` applies although it adds files. -/
def scrAdds (l : LPoint) : Script Nat :=
  .call (.add 0 (.trace (some (IStream.ofBytes exBytes)) 0 9)) fun _ => .done (some (l.c == 8))

example : (∀ l s b s1, (scrAdds l).run objWorld 17 (plainEval exFloats) s = .ok (b, s1) → b = some (l.c == 8)) ∧
    scrResults ((scrProg scrAdds).run objWorld 17 (plainEval exFloats) (⟨[], []⟩, [])) = .ok [some (some 1, 1)] := by
  refine ⟨?_, by decide +kernel⟩
  rintro l ⟨h, log⟩ b s1 e
  unfold scrAdds Script.run at e
  cases hx : handledStep objWorld 17 (plainEval exFloats) (.add 0 (.trace (some (IStream.ofBytes exBytes)) 0 9)) h with
  | ok y => rw [hx] at e; cases e; rfl
  | _ => rw [hx] at e; cases e

/-- A history that ends otherwise, after an error: a comparison without arguments runs into an assertion. -/
example : (handledRun objWorld 17 (plainEval exFloats) [.create, .get 0 0 none, .add 0 (.trace (some (IStream.ofBytes exBytes)) 0 1),
    .query 0 0 ⟨[], .node .greaterThan 0 [], [], 0, none, none⟩] (⟨[], []⟩ : LispHeap Nat) >>= fun _ => .ok ()) = .abort := by
  decide +kernel

/-- A program that reads the first trace and, if that is an error, adds a file and tries again. -/
example : (scrResults ((Script.call (μ := Nat) .create fun _ => .call (.get 0 0 none) fun x => match x with
      | some _ => .done (some false)
      | none => .call (.add 0 (.trace (some (IStream.ofBytes exBytes)) 0 1)) fun _ =>
        .call (.query 0 0 ⟨[], .nullPred, [], 0, none, none⟩) fun y => .done (some y.isSome)).run objWorld 17
      (plainEval exFloats) (⟨[], []⟩, []))) = .ok [none, some (some 1, 2)] := by decide +kernel

/-- Heaps that differ in caches only. -/
example : LispHeap.Alike (⟨[Db.create.addTrace (2 * ·) exTrace], [⟨0, none, [1]⟩]⟩ : LispHeap Nat)
    ⟨[{ Db.create.addTrace (2 * ·) exTrace with caches := [[((0, 0), exTrace.points)]] }], [⟨0, none, [1]⟩]⟩ := by
  have ht : (Db.create.addTrace (2 * ·) exTrace).traces[0]? = some exTrace := by decide +kernel
  have h0 : Db.Ok (Db.create.addTrace (2 * ·) exTrace) := addTrace_ok _ _ _ dbOk_create
  have hc := (getPoints_ok exTrace.points [] (by intro k ps hk; simp at hk) 0 0).2
  have := h0.setCache ht hc
  refine ⟨rfl, .cons ⟨rfl, h0, ?_⟩ .nil⟩
  have e : (Db.create.addTrace (2 * ·) exTrace).caches.set 0 (getPoints exTrace.points [] 0 0).2 =
      [[((0, 0), exTrace.points)]] := by decide +kernel
  rw [e] at this
  exact this

end TraceDB
