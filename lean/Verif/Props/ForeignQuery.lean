import Verif.Spec.ForeignQuery
import Verif.Proofs.ForeignQuery
import Verif.Props.ForeignBytes
import Verif.Props.QueryMemory
/-
Properties of queries from Lisp, byte by byte: C109.
-/
namespace TraceDB

/-! Example data. -/

/-- Where the example trace keeps its names; it has no blobs. -/
def fqPlace : TraceAt := ⟨fun _ => 64, fun i => 80 + 4 * i⟩
/-- Memory with these in it. -/
def fqState : FState :=
  ⟨BMem.put (BMem.put (BMem.put (fun _ => 170) 80 [120, 0]) 84 [105, 0]) 88 [88, 0], [(80, 2), (84, 2), (88, 2)]⟩

theorem fqPlace_kept : fqPlace.Kept cTrace cTrace.points fqState := by
  have h1 : fqState.Keeps 80 [120, 0] := ⟨by decide, by decide, fun x hx => ⟨(80, 2), by decide, hx⟩, by decide +kernel⟩
  have h2 : fqState.Keeps 84 [105, 0] := ⟨by decide, by decide, fun x hx => ⟨(84, 2), by decide, hx⟩, by decide +kernel⟩
  have h3 : fqState.Keeps 88 [88, 0] := ⟨by decide, by decide, fun x hx => ⟨(88, 2), by decide, hx⟩, by decide +kernel⟩
  constructor
  · intro i n hi
    match i with
    | 0 => cases hi; exact h1
    | 1 => cases hi; exact h2
    | 2 => cases hi; exact h3
    | i + 3 => cases hi
  · intro p hp v hv bs hb
    simp only [cTrace, List.mem_cons, List.not_mem_nil, or_false] at hp
    subst hp
    simp only [List.mem_cons, List.not_mem_nil, or_false] at hv
    rcases hv with rfl | rfl <;> cases hb

theorem cTrace_fits : FitForeign cTrace cTrace.points := by
  refine ⟨by decide, by decide, by decide, by decide, by decide, ?_⟩
  intro p hp v hv
  simp only [cTrace, List.mem_cons, List.not_mem_nil, or_false] at hp
  subst hp
  simp only [List.mem_cons, List.not_mem_nil, or_false] at hv
  rcases hv with rfl | rfl <;> simp [VarInfo.Sized, qVar]

mutual
/-- The nodes of a predicate from the root on, each with its number of children. -/
def Pred.listed : Pred → List (PKind × U64 × Nat)
  | .node k d cs => (k, d, cs.length) :: Pred.listedAll cs
def Pred.listedAll : List Pred → List (PKind × U64 × Nat)
  | [] => []
  | p :: ps => p.listed ++ Pred.listedAll ps
end

/-! C109 -/

/-- A predicate that Lisp writes into memory is the one C makes an object of, whatever was
in memory and whatever is allocated and written in between. -/
theorem C109_predicates (pl : Placing) (hpl : pl.Sound) (names : List Nat) (e : SExp) (p : Pred) (s : FState)
    (h : SexpRoot names e p) :
    buildPredicateB pl names e s = .throw .lisp ∨
    ∃ a s', buildPredicateB pl names e s = .ok (a, s') ∧ a < 2 ^ 64 ∧ OnlyNew s s' ∧
      ∀ s'', OnlyNew s' s'' → createObjB s''.mem (s''.blocks.length + 1) a = .ok p := by
  rcases buildPredicateB_ok hpl s h with e | ⟨a, s', e1, a1, n1, r1⟩
  · exact .inl e
  · exact .inr ⟨a, s', e1, a1, n1, fun s'' hs => r1 s''.mem _ (fun x hx _ => hs.same x hx) (by have := hs.length; omega)⟩

/-- Expressions outside the documented syntax never reach C. -/
theorem C109_refused (pl : Placing) (names : List Nat) (e : SExp) (h : e.Refused names) (s : FState) :
    buildPredicateB pl names e s = .throw .lisp :=
  buildPredicateB_refused h pl s

/-- An expression with all kinds of numbers, variables and nested operators. -/
example : upwards.Sound ∧ SexpTree [1, 2] fLess fTree ∧
    (SExp.call .lt [.call .vValue [.sym 1], .sym 3]).Refused [1, 2] ∧
    (buildPredicateB upwards [1, 2] fLess fqState >>= fun r => createObjB r.2.mem (r.2.blocks.length + 1) r.1 >>=
      fun p => .ok p.listed) = .ok fTree.listed ∧
    (buildPredicateB upwards [1, 2] (.call .and [.call .gt [.int (-1), .int 18446744073709551615],
        .call .equal [.float 4607182418800017408, .sym 2], .call .or []]) fqState >>=
      fun r => createObjB r.2.mem (r.2.blocks.length + 1) r.1 >>= fun p => .ok p.listed) =
      .ok [(.and, 3, 3), (.greaterThan, 2, 2), (.signedValue, -1, 0), (.unsignedValue, -1, 0), (.equal, 2, 2),
        (.floatValue, 4607182418800017408, 0), (.varReference, 1, 0), (.or, 0, 0)] ∧
    (buildPredicateB upwards [1, 2] (.int 18446744073709551616) fqState >>= fun r => .ok r.1) = .throw .lisp := by
  refine ⟨upwards_sound, fLess_tree, ⟨by simp, by simp [SExp.Wf, SExp.WfAll]⟩, by decide +kernel, by decide +kernel, by decide +kernel⟩

/-- The types allowed for the free variables arrive as they are. -/
theorem C109_free_variables (pl : Placing) (hpl : pl.Sound) (fvs : List FreeVar) (s : FState) :
    freeVarsB pl fvs s = .throw .lisp ∨
    ∃ a s', freeVarsB pl fvs s = .ok (a, s') ∧ a < 2 ^ 64 ∧ OnlyNew s s' ∧
      ∀ s'', OnlyNew s' s'' → readFreeVarsB s''.mem a 0 fvs.length = fvs := by
  rcases freeVarsB_ok hpl fvs s with e | ⟨a, s', e1, a1, n1, r1⟩
  · exact .inl e
  · exact .inr ⟨a, s', e1, a1, n1, fun s'' hs => r1 s''.mem fun x hx _ => hs.same x hx⟩

/-- Three variables, one of which allows no type. -/
example : (freeVarsB upwards [[0, 4294967295], [], [7]] fqState >>= fun r => .ok (readFreeVarsB r.2.mem r.1 0 3)) =
    .ok [[0, 4294967295], [], [7]] := by decide +kernel

/-- A query from Lisp, with everything that goes between Lisp and C passing through bytes in
memory and registers, gives the answer of the query that is meant; memory that was in use
before is unchanged.  Otherwise memory was short: Lisp signals an error, or C writes to
NULL. -/
theorem C109_query {σ : Type} (pl : Placing) (hpl : pl.Sound) (place : TraceAt) (env : Env) (pick : U32 → Nat → Nat)
    (ev : Evaluator σ) (db index : U64) (junk : List U64) (t : Trace) (q : FQuery) (hard : Pred) (softs : List Pred)
    (filter : Option (LPoint → Bool)) (st : FState) (cache cache' : PointsCache) (s s' : σ) (l : List LPoint)
    (hk : place.Kept t t.points st) (hf : FitForeign t t.points) (hc : CacheOf t cache)
    (hnames : (q.predicate = .nil ∧ q.softs = []) ∨ q.varNames ≠ []) (hh : SexpRoot q.varNames q.predicate hard)
    (hs : SexpRoots q.varNames q.softs softs) (hfilter : q.filter = filter.map fun g p => some (g p))
    (hvars : q.varTypes.length < 2 ^ 32)
    (hfit : AnswerFits env pick ev t q hard softs cache s)
    (h : lispQuery env pick ev t (q.meant hard softs filter) cache s = .ok (l, cache', s')) :
    lispQueryB pl place env pick ev db index junk t q st cache s = .throw .lisp ∨
    lispQueryB pl place env pick ev db index junk t q st cache s = .ub .nullDeref ∨
    ∃ st', lispQueryB pl place env pick ev db index junk t q st cache s = .ok (l, st', cache', s') ∧ OnlyNew st st' := by
  unfold lispQuery FQuery.meant at h
  dsimp only at h
  obtain ⟨types, h1, h⟩ := Res.bind_eq_ok.mp h
  obtain ⟨fvs, h2, h⟩ := Res.bind_eq_ok.mp h
  obtain ⟨⟨mask, stmt⟩, h3, h⟩ := Res.bind_eq_ok.mp h
  obtain ⟨⟨rs, c, s1⟩, h4, h⟩ := Res.bind_eq_ok.mp h
  obtain ⟨ps, h5, h⟩ := Res.bind_eq_ok.mp h
  dsimp only at h4 h5 h
  have hsome : q.filter.isSome = filter.isSome := by rw [hfilter]; cases filter <;> rfl
  rcases lispQueryB_call (env := env) (pick := pick) (ev := ev) (db := db) (index := index) (junk := junk) (cache := cache)
    (s := s) hpl hk hf.types hnames hh hs h1 h2 h3 with e | e | ⟨st', out, nOut, n, u1, u2, hd, e⟩
  · exact .inl e
  · exact .inr (.inl e)
  rw [hsome, h4, Res.ok_bind, hfilter] at e
  have hfrom := queryTrace_from hc h4
  dsimp only at hfrom
  have hlen := freeVars_length h2
  have hf' := results_fit hf (n := fvs.length) (by omega) (hfit _ _ _ _ _ _ _ h1 h2 h3 (by rw [hfilter, Option.isSome_map]; exact h4)) hfrom
  rcases answerB_ok (filter := filter) (c := c) (s := s1) hpl (results_kept hk hfrom) hf' n u1 u2 hd h5 with e' | ⟨st2, e', n2⟩
  · exact .inr (.inl (e.trans e'))
  · refine .inr (.inr ⟨st2, ?_, n2⟩)
    rw [e, e']
    cases filter with
    | none => cases h; rfl
    | some g => cases h; rfl

/-- If the query itself does not return — it fails an assertion, for example — neither does
the call from Lisp. -/
theorem C109_failures {σ : Type} (pl : Placing) (hpl : pl.Sound) (place : TraceAt) (env : Env) (pick : U32 → Nat → Nat)
    (ev : Evaluator σ) (db index : U64) (junk : List U64) (t : Trace) (q : FQuery) (hard : Pred) (softs : List Pred)
    (st : FState) (cache : PointsCache) (s : σ) (types : List (List U8)) (fvs : List FreeVar) (mask stmt : U64)
    (hk : place.Kept t t.points st) (hf : FitForeign t t.points)
    (hnames : (q.predicate = .nil ∧ q.softs = []) ∨ q.varNames ≠ []) (hh : SexpRoot q.varNames q.predicate hard)
    (hs : SexpRoots q.varNames q.softs softs) (h1 : getTypes t = .ok types) (h2 : freeVars types q.varTypes = .ok fvs)
    (h3 : fileArgs q.file = .ok (mask, stmt))
    (h4 : queryTrace env pick ev t ⟨fvs, hard, softs, q.seed, mask, stmt⟩ q.filter.isSome cache s = .abort) :
    lispQueryB pl place env pick ev db index junk t q st cache s = .throw .lisp ∨
    lispQueryB pl place env pick ev db index junk t q st cache s = .ub .nullDeref ∨
    lispQueryB pl place env pick ev db index junk t q st cache s = .abort := by
  rcases lispQueryB_call (env := env) (pick := pick) (ev := ev) (db := db) (index := index) (junk := junk) (cache := cache)
    (s := s) hpl hk hf.types hnames hh hs h1 h2 h3 with e | e | ⟨st', out, nOut, n, u1, u2, hd, e⟩
  · exact .inl e
  · exact .inr (.inl e)
  · rw [h4] at e
    exact .inr (.inr e)

theorem fQuery_fits : AnswerFits qEnv (fun _ _ => 0) (plainEval exFloats) cTrace fQuery fTree [fTree, .nullPred] [] () := by
  intro types fvs mask stmt rs c s' h0 h1 h2 h3
  have e0 : getTypes cTrace = .ok [[105]] := by decide +kernel
  rw [e0] at h0
  cases h0
  exact fQuery_fit none fvs mask stmt rs c s' h1 h2 h3

/-- The hypotheses hold for the example: a query with a predicate and two soft predicates,
one of which is `nil`, with garbage in the registers.  A filter changes the answer, and a
predicate of the wrong type ends the process. -/
example : upwards.Sound ∧ fqPlace.Kept cTrace cTrace.points fqState ∧ FitForeign cTrace cTrace.points ∧ CacheOf cTrace [] ∧
    AnswerFits qEnv (fun _ _ => 0) (plainEval exFloats) cTrace fQuery fTree [fTree, .nullPred] [] () ∧
    SexpRoot fQuery.varNames fQuery.predicate fTree ∧ SexpRoots fQuery.varNames fQuery.softs [fTree, .nullPred] ∧
    (lispQueryB upwards fqPlace qEnv (fun _ _ => 0) (plainEval exFloats) 12345 0 (List.replicate 13 (-1)) cTrace fQuery fqState []
      () >>= fun r => .ok r.1) = .ok [⟨7, none, [⟨[120], [105], .int 1, none⟩, ⟨[88], [105], .int 5, none⟩], []⟩] ∧
    (lispQueryB upwards fqPlace qEnv (fun _ _ => 0) (plainEval exFloats) 12345 0 (List.replicate 13 (-1)) cTrace
      { fQuery with filter := some fun p => some (p.scopes.length != 2) } fqState [] () >>= fun r => .ok r.1) = .ok [] ∧
    (lispQueryB upwards fqPlace qEnv (fun _ _ => 0) (plainEval exFloats) 12345 0 [] cTrace
      { fQuery with predicate := .int 1 } fqState [] () >>= fun r => .ok r.1) = .abort := by
  have hq := fQuery_fine none
  refine ⟨upwards_sound, fqPlace_kept, cTrace_fits, by simp [CacheOf], fQuery_fits, hq.hard, hq.softs, by decide +kernel, by decide +kernel,
    by decide +kernel⟩

end TraceDB
