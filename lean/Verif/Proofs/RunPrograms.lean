import Verif.Proofs.Scripts
/-
Lemmas for C120: the answers do not depend on what earlier queries left.
-/
namespace TraceDB

variable {μ : Type}

theorem handledStep_of_alike (w : World) (version : Nat) (ev : Evaluator Unit) {h1 h2 g : LispHeap μ} (a : h1.Alike h2)
    {op : ObjOp μ} {x : LispAnswer μ} (e : lispStep w version ev h2 () op = .ok (x, g, ())) :
    ∃ g1, handledStep w version ev op h1 = .ok (some x, g1) ∧ lispStep w version ev h1 () op = .ok (x, g1, ()) := by
  have k2 := handledStep_lispStep w version ev a.right op
  have k1 := handledStep_lispStep w version ev a.left op
  have kk := handledStep_alike w version ev a op
  rw [e] at k2
  generalize handledStep w version ev op h2 = r2 at k2 kk
  generalize handledStep w version ev op h1 = r1 at k1 kk
  cases r2 with
  | ok r2 =>
    obtain ⟨y, g2⟩ := r2
    cases y with
    | none => cases k2.1
    | some y =>
      cases k2.1
      cases r1 with
      | ok r1 =>
        obtain ⟨z, g1⟩ := r1
        cases kk.1
        exact ⟨g1, rfl, k1.1⟩
      | _ => cases kk
  | _ => cases k2

/-- What a query that succeeds finds. -/
theorem lispStep_query_found (w : World) (version : Nat) (ev : Evaluator Unit) {h g : LispHeap μ} (a : h.Alike h)
    {i idx : Nat} {q : LQuery} {rs : List LPoint} {m : Option μ}
    (e : lispStep w version ev h () (.query i idx q) = .ok (.results rs m, g, ())) :
    ∃ o db t c, h.objs[i]? = some o ∧ h.dbs[o.db]? = some db ∧ db.traces[idx]? = some t ∧ idx < db.traces.length % 2 ^ 32 ∧
      lispQuery w.env w.pick ev t { q with file := fileInForce q.file o } [] () = .ok (rs, c, ()) := by
  unfold lispStep at e
  dsimp only at e
  split at e
  · cases e
  · rename_i o ho
    split at e
    · cases e
    · rename_i db hdb
      unfold LispHeap.query at e
      split at e
      · rename_i hi
        split at e
        · rename_i t c ht hc
          obtain ⟨⟨ps, c', s'⟩, hq, e⟩ := Res.bind_eq_ok.mp e
          cases e
          have hd : db.Ok := by
            rcases a.db o.db with ⟨h1, _⟩ | ⟨x, y, h1, _, hy⟩
            · rw [hdb] at h1; cases h1
            · rw [hdb] at h1; cases h1; exact hy.left
          have hr := lispQuery_cache w ev t { q with file := fileInForce q.file o } c (hd.2 idx t c ht hc) ()
          rw [hq] at hr
          refine ⟨o, db, t, ?_⟩
          generalize lispQuery w.env w.pick ev t { q with file := fileInForce q.file o } [] () = r at hr
          cases r with
          | ok r =>
            obtain ⟨ps2, c2, s2⟩ := r
            cases hr.1
            exact ⟨c2, ho, hdb, ht, by simpa [nTracesApi] using hi, rfl⟩
          | _ => cases hr
        · cases e
      · cases e

end TraceDB
