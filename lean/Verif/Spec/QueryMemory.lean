import Verif.Model.QueryMemory
import Verif.Spec.PredicateMemory
/-
What a call may do to foreign memory, and which tree an s-expression stands for.
-/
namespace TraceDB

/-- From `m` to `m'` only blocks were added: arrays `a`, predicates `p` and results `r`.
Everything older is as it was. -/
def FMem.Adds (m m' : FMem) (a : List ABlock) (p : List PBlock) (r : List Block) : Prop :=
  m'.arrays = m.arrays ++ a ∧ m'.preds = m.preds ++ p ∧ m'.results = m.results ++ r

/-- Nothing of what was added is still allocated, among arrays and predicates. -/
def Released (a : List ABlock) (p : List PBlock) : Prop :=
  (∀ b ∈ a, b.live = false) ∧ ∀ b ∈ p, b.live = false

/-- How many blocks are allocated. -/
def FMem.inUse (m : FMem) : Nat :=
  (m.arrays.filter (·.live)).length + (m.preds.filter (·.live)).length + (m.results.filter (·.live)).length

mutual
/-- The predicate object that an s-expression stands for. -/
inductive SexpTree (names : List Nat) : SExp → Pred → Prop
  | nat {n : U64} : SexpTree names (.int n.toNat) (.node .unsignedValue n [])
  | negative {n : U64} : n.toInt < 0 → SexpTree names (.int n.toInt) (.node .signedValue n [])
  | float {bits : U64} : SexpTree names (.float bits) (.node .floatValue bits [])
  | var {x i : Nat} : IsVar names x i → SexpTree names (.sym x) (.node .varReference (BitVec.ofNat 64 i) [])
  | call {op : LispOp} {k : PKind} {args : List SExp} {ps : List Pred} : op.kind = some k →
      args.length < 2 ^ 32 → SexpTrees names args ps →
      SexpTree names (.call op args) (.node k (BitVec.ofNat 64 args.length) ps)
/-- The same for lists. -/
inductive SexpTrees (names : List Nat) : List SExp → List Pred → Prop
  | nil : SexpTrees names [] []
  | cons {s : SExp} {ss : List SExp} {p : Pred} {ps : List Pred} : SexpTree names s p → SexpTrees names ss ps →
      SexpTrees names (s :: ss) (p :: ps)
end

/-- The predicate object for an argument of `query-trace`: `nil` is no predicate. -/
def SexpRoot (names : List Nat) (s : SExp) (p : Pred) : Prop :=
  (s = .nil ∧ p = .nullPred) ∨ SexpTree names s p

/-- The predicate objects for the soft predicates. -/
def SexpRoots (names : List Nat) : List SExp → List Pred → Prop
  | [], [] => True
  | s :: ss, p :: ps => SexpRoot names s p ∧ SexpRoots names ss ps
  | _, _ => False

/-- An expression that `build-predicate` refuses. -/
def SExp.Refused (names : List Nat) (s : SExp) : Prop := s ≠ .nil ∧ ¬ s.Wf names

/-- The query that is meant, with trees for the expressions and a filter that does not
fail. -/
def FQuery.meant (q : FQuery) (hard : Pred) (softs : List Pred) (filter : Option (LPoint → Bool)) : LQuery :=
  ⟨q.varTypes, hard, softs, q.seed, q.file, filter⟩

/-- The conditions for a query to reach the C interface: all types exist in the trace, the
predicates stand for trees, there are names if there are predicates. -/
structure FQuery.Fine (q : FQuery) (types : List (List U8)) (hard : Pred) (softs : List Pred) : Prop where
  types : ∀ ts ∈ q.varTypes, ∀ n ∈ ts, n ∈ types
  names : (q.predicate = .nil ∧ q.softs = []) ∨ q.varNames ≠ []
  hard : SexpRoot q.varNames q.predicate hard
  softs : SexpRoots q.varNames q.softs softs
  small : q.varTypes.length < 2 ^ 32 ∧ (∀ ts ∈ q.varTypes, ts.length < 2 ^ 32) ∧ q.varNames.length < 2 ^ 64

/-- The conditions for exporting what a trace holds: the machine has the memory, sizes fit,
and the trace is consistent. -/
structure TraceExportable {σ : Type} (w : QueryWorld σ) (t : Trace) : Prop where
  sizes : 0 < w.abi.sizePoint ∧ w.abi.sizePoint ≤ w.abi.sizeVar
  memory : ∀ n, w.alloc.canAlloc n = true
  points : ∀ p ∈ t.points, (∀ v ∈ p.vars, v.typeIndex.toNat < t.types.length) ∧
    p.vars.length < 2 ^ 32 ∧ p.aux.length < 2 ^ 32

/-- A cache of filtered points holds points of the trace. -/
def CacheOf (t : Trace) (cache : PointsCache) : Prop := ∀ e ∈ cache, ∀ p ∈ e.2, p ∈ t.points

/-- The array for the results of the query is smaller than the address space. -/
def ResultsFit {σ : Type} (w : QueryWorld σ) (t : Trace) (q : FQuery) (types : List (List U8)) (hard : Pred)
    (softs : List Pred) (cache : PointsCache) (s : σ) : Prop :=
  ∀ fvs mask stmt rs c s', freeVars types q.varTypes = .ok fvs → fileArgs q.file = .ok (mask, stmt) →
    queryTrace w.env w.pick w.ev t ⟨fvs, hard, softs, q.seed, mask, stmt⟩ q.filter.isSome cache s = .ok (rs, c, s') →
    rs.length * w.abi.sizeVar < 2 ^ (8 * w.abi.ptr.1)

end TraceDB
