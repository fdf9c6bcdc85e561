import Verif.Model.Scripts
import Verif.Proofs.SameAnswers
import Verif.Spec.Runtime
/-
What Lisp programs that use databases can rely on.
-/
namespace TraceDB

/-- Heaps with the same objects and traces; their databases may have other caches, which are correct. -/
structure LispHeap.Alike {μ : Type} (h h' : LispHeap μ) : Prop where
  objs : h.objs = h'.objs
  dbs : AllRel Db.Alike h.dbs h'.dbs

/-- The operations that did not signal an error. -/
def succeeded {μ : Type} (ops : List (ObjOp μ)) (xs : List (Option (LispAnswer μ))) : List (ObjOp μ) :=
  (ops.zip xs).filterMap fun x => x.2.map fun _ => x.1

/-- A filter was called for these points in this order, starting and ending in these states, and kept the points in
the second list. -/
inductive FiltersRun {S : Type} (f : LPoint → S → Res (Option Bool × S)) : List LPoint → S → List LPoint → S → Prop
  | nil (s : S) : FiltersRun f [] s [] s
  | keep {l : LPoint} {ls ks : List LPoint} {s s1 s2 : S} : f l s = .ok (some true, s1) → FiltersRun f ls s1 ks s2 →
      FiltersRun f (l :: ls) s (l :: ks) s2
  | drop {l : LPoint} {ls ks : List LPoint} {s s1 s2 : S} : f l s = .ok (some false, s1) → FiltersRun f ls s1 ks s2 →
      FiltersRun f (l :: ls) s ks s2

/-- Nothing was lost: objects show the databases they showed, and databases have at least the traces they had, under
the same numbers. -/
def LispHeap.Kept {μ : Type} (h h' : LispHeap μ) : Prop :=
  (∀ (i : Nat) (o : LispObj μ), h.objs[i]? = some o → ∃ o' : LispObj μ, h'.objs[i]? = some o' ∧ o'.db = o.db ∧ o'.view = o.view) ∧
  ∀ (d : Nat) (x : Db), h.dbs[d]? = some x → ∃ x' : Db, h'.dbs[d]? = some x' ∧ x.traces <+: x'.traces

/-- A program without filters chooses these operations if it gets these answers, and ends with `r`. -/
inductive Script.Chooses {μ : Type} : Script μ → List (ObjOp μ) → List (Option (LispAnswer μ)) → Option Bool → Prop
  | done (r : Option Bool) : Chooses (.done r) [] [] r
  | call {op : ObjOp μ} {k : Option (LispAnswer μ) → Script μ} {x : Option (LispAnswer μ)} {ops : List (ObjOp μ)}
      {xs : List (Option (LispAnswer μ))} {r : Option Bool} : Chooses (k x) ops xs r → Chooses (.call op k) (op :: ops) (x :: xs) r

/-- Queries of the program have functions as filters, or none. -/
def Script.NoFilters {μ : Type} : Script μ → Prop
  | .done _ => True
  | .call _ k => ∀ x, (k x).NoFilters
  | .query .. => False

end TraceDB
