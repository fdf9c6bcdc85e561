import Verif.Proofs.ForeignVars
import Verif.Proofs.ForeignNames
import Verif.Proofs.ForeignCalls
import Verif.Proofs.QueryMemoryConvert
/-
A whole query byte by byte.
-/
namespace TraceDB

theorem resUb_bind {α β : Type} (k : UBKind) (f : α → Res β) : (Res.ub k >>= f) = .ub k := rfl
theorem resThrow_bind {α β : Type} (e : Exn) (f : α → Res β) : (Res.throw e >>= f) = .throw e := rfl

theorem freeVars_length {types : List (List U8)} : ∀ {tss : List (List (List U8))} {fvs : List FreeVar},
    freeVars types tss = .ok fvs → fvs.length = tss.length
  | [], fvs, h => by simp only [freeVars, Res.ok.injEq] at h; subst h; rfl
  | ts :: tss, fvs, h => by
    simp only [freeVars] at h
    obtain ⟨x, h1, h⟩ := Res.bind_eq_ok.mp h
    obtain ⟨xs, h2, h⟩ := Res.bind_eq_ok.mp h
    cases h
    simp [freeVars_length h2]

theorem filterConverted_total (g : LPoint → Bool) : ∀ ps : List LPoint,
    filterConverted (fun p => some (g p)) ps = .ok (ps.filter g)
  | [] => rfl
  | p :: ps => by
    simp only [filterConverted, filterConverted_total g ps, Res.ok_bind, List.filter_cons]
    cases g p <;> rfl

theorem FQuery.hasNames_of {q : FQuery} (hnames : (q.predicate = .nil ∧ q.softs = []) ∨ q.varNames ≠ []) : q.hasNames = true := by
  unfold FQuery.hasNames
  rcases hnames with ⟨e1, e2⟩ | hne
  · rw [e1, e2]
  · have : (!q.varNames.isEmpty) = true := by
      cases h : q.varNames with
      | nil => exact absurd h hne
      | cons _ _ => rfl
    split
    · rfl
    · exact this

theorem outCellsB_ok {pl : Placing} (hpl : pl.Sound) (s : FState) :
    outCellsB pl s = .throw .lisp ∨
    ∃ out nOut s', outCellsB pl s = .ok ((out, nOut), s') ∧ OnlyNew s s' ∧
      (∀ x, InRange out 8 x → InUse s'.blocks x ∧ ¬ InUse s.blocks x) ∧
      (∀ x, InRange nOut 8 x → InUse s'.blocks x ∧ ¬ InUse s.blocks x) ∧ (out + 8 ≤ nOut ∨ nOut + 8 ≤ out) := by
  unfold outCellsB
  rcases lispAlloc_ok hpl FTy.pointer.bytes s with e | ⟨out, s6, e6, p6, a6, n6, _, u6⟩
  · left; rw [e]; exact resThrow_bind _ _
  rw [e6, Res.ok_bind]
  dsimp only
  have n6' : OnlyNew s ⟨s6.mem.putNat out FTy.pointer.bytes 0, s6.blocks⟩ :=
    n6.fill n6 (OnlyNew.refl _) u6 fun x hx => BMem.putNat_other hx
  rcases lispAlloc_ok hpl FTy.uint64.bytes ⟨s6.mem.putNat out FTy.pointer.bytes 0, s6.blocks⟩ with
    e | ⟨nOut, s7, e7, p7, a7, n7, _, u7⟩
  · left; rw [e]; exact resThrow_bind _ _
  rw [e7, Res.ok_bind]
  have n7' : OnlyNew ⟨s6.mem.putNat out FTy.pointer.bytes 0, s6.blocks⟩ ⟨s7.mem.putNat nOut FTy.uint64.bytes 0, s7.blocks⟩ :=
    n7.fill n7 (OnlyNew.refl _) u7 fun x hx => BMem.putNat_other hx
  right
  refine ⟨out, nOut, _, rfl, n6'.trans n7', ?_, ?_, ?_⟩
  · intro x hx
    have := u6 x hx
    exact ⟨n7'.use this.1, this.2⟩
  · intro x hx
    exact ⟨(u7 x hx).1, fun h => (u7 x hx).2 (n6.use h)⟩
  · by_cases h : out + 8 ≤ nOut ∨ nOut + 8 ≤ out
    · exact h
    · exfalso
      have hA : InRange out 8 (max out nOut) := by unfold InRange; omega
      have hB : InRange nOut 8 (max out nOut) := by unfold InRange; omega
      exact (u7 _ hB).2 (u6 _ hA).1

/-- What C reads in the memory prepared by Lisp. -/
structure ReadsQuery (m : BMem) (fuel : Nat) (p : Prepared) (fvs : List FreeVar) (hard : Pred) (softs : List Pred) : Prop where
  hard : createObjB m fuel p.pred = .ok hard
  vars : readFreeVarsB m p.vars 0 fvs.length = fvs
  softs : createSoftsB m fuel p.softs 0 p.nSofts = .ok softs

theorem prepareB_ok {pl : Placing} (hpl : pl.Sound) {place : TraceAt} {t : Trace} {q : FQuery} {hard : Pred} {softs : List Pred}
    {st : FState} {types : List (List U8)} {fvs : List FreeVar}
    (hk : place.Kept t t.points st) (htypes : t.types.length < 2 ^ 32) (hh : SexpRoot q.varNames q.predicate hard)
    (hs : SexpRoots q.varNames q.softs softs) (h1 : getTypes t = .ok types) (h2 : freeVars types q.varTypes = .ok fvs) :
    prepareB pl place t q st = .throw .lisp ∨ prepareB pl place t q st = .ub .nullDeref ∨
    ∃ p st', prepareB pl place t q st = .ok (p, st') ∧ OnlyNew st st' ∧ ReadsQuery st'.mem (st'.blocks.length + 1) p fvs hard softs ∧
      (∀ x, InRange p.out 8 x → InUse st'.blocks x ∧ ¬ InUse st.blocks x) ∧
      (∀ x, InRange p.nOut 8 x → InUse st'.blocks x ∧ ¬ InUse st.blocks x) ∧ (p.out + 8 ≤ p.nOut ∨ p.nOut + 8 ≤ p.out) := by
  unfold prepareB
  rcases lispTypesB_ok hpl hk htypes h1 with e | ⟨s1, e1, n1⟩
  · right; left; rw [e]; exact resUb_bind _ _
  rw [e1, Res.ok_bind]
  dsimp only
  rw [h2, Res.ok_bind]
  rcases freeVarsB_ok hpl fvs s1 with e | ⟨vars, s2, e2, a2, n2, r2⟩
  · left; rw [e]; exact resThrow_bind _ _
  rw [e2, Res.ok_bind]
  dsimp only
  rcases buildPredicateB_ok hpl s2 hh with e | ⟨pred, s3, e3, a3, n3, r3⟩
  · left; rw [e]; exact resThrow_bind _ _
  rw [e3, Res.ok_bind]
  dsimp only
  rcases buildSoftsB_ok hpl q.softs softs s3 hs with e | ⟨as, s4, e4, l4, a4, n4, r4⟩
  · left; rw [e]; exact resThrow_bind _ _
  rw [e4, Res.ok_bind]
  dsimp only
  rcases createArrayB_ok hpl (n := FTy.pointer.bytes) (.inr rfl) as s4
    (fun v hv => by have := a4 v hv; simpa [FTy.bytes] using this) with e | ⟨arr, s5, e5, a5, n5, r5⟩
  · left; rw [e]; exact resThrow_bind _ _
  rw [e5, Res.ok_bind]
  dsimp only
  rcases outCellsB_ok hpl s5 with e | ⟨out, nOut, st', e6, n6, u6, u7, hd⟩
  · left; rw [e]; exact resThrow_bind _ _
  rw [e6, Res.ok_bind]
  right; right
  have n05 := (((n1.trans n2).trans n3).trans n4).trans n5
  have n35 := (n4.trans n5).trans n6
  have ag : ∀ {a b : FState}, OnlyNew b st' → Agrees a b st'.mem := fun h x hx _ => h.same x hx
  refine ⟨_, st', rfl, n05.trans n6, ⟨?_, ?_, ?_⟩, fun x hx => ⟨(u6 x hx).1, fun h => (u6 x hx).2 (n05.use h)⟩,
    fun x hx => ⟨(u7 x hx).1, fun h => (u7 x hx).2 (n05.use h)⟩, hd⟩
  · exact r3 st'.mem (st'.blocks.length + 1) (ag n35) (by have := n35.length; omega)
  · exact r2 st'.mem (ag (n3.trans n35))
  · exact createSoftsB_ok (m := st'.mem) (arr := arr) as softs 0
      (r4 st'.mem (st'.blocks.length + 1) (ag (n5.trans n6)) (by have := (n5.trans n6).length; omega))
      (fun k v hk => by rw [Nat.zero_add]; exact r5 st'.mem (ag n6) k v hk)

/-- What `query_trace` does after the query was answered. -/
def returnB {σ : Type} (pl : Placing) (place : TraceAt) (t : Trace) (out nOut : Nat) (st : FState)
    (r : List Point × PointsCache × σ) : Res (FState × PointsCache × σ) := do
  let (a, st) ← pointsToArrayB pl place t.types r.1 ⟨st.mem.putNat nOut CTy.uint64.bytes r.1.length, st.blocks⟩
  pure (⟨st.mem.putNat out CTy.pointer.bytes a, st.blocks⟩, r.2.1, r.2.2)

theorem ofInt32_toNat (u : U32) : BitVec.ofInt 32 (u.toNat : Int) = u := by
  rw [BitVec.ofInt_natCast, BitVec.ofNat_toNat, BitVec.setWidth_eq]
theorem ofInt64_toNat (u : U64) : BitVec.ofInt 64 (u.toNat : Int) = u := by
  rw [BitVec.ofInt_natCast, ofNat64_toNat]
theorem decide_flag (b : Bool) : decide ((if b = true then (1 : Int) else 0) ≠ 0) = b := by cases b <;> rfl

theorem queryTraceB_at {σ : Type} {pl : Placing} {place : TraceAt} {env : Env} {pick : U32 → Nat → Nat}
    {ev : Evaluator σ} {t : Trace} {seed : U32} {keep : Bool} {mask stmt : U64} {vars nVars pred softs nSofts out nOut : Nat}
    {st : FState} {cache : PointsCache} {s : σ} {x1 x2 y1 y2 y3 y4 y5 y6 y7 y8 y9 y10 y11 : Int}
    (h1 : BitVec.ofInt 32 y6 = seed) (h2 : decide (y7 ≠ 0) = keep) (h3 : BitVec.ofInt 64 y8 = mask) (h4 : BitVec.ofInt 64 y9 = stmt)
    (e1 : y1.toNat = vars) (e2 : y2.toNat = nVars) (e3 : y3.toNat = pred) (e4 : y4.toNat = softs) (e5 : y5.toNat = nSofts)
    (e6 : y10.toNat = out) (e7 : y11.toNat = nOut) :
    queryTraceB pl place env pick ev t [x1, x2, y1, y2, y3, y4, y5, y6, y7, y8, y9, y10, y11] st cache s =
      queryTraceC pl place env pick ev t vars nVars pred softs nSofts seed keep mask stmt out nOut st cache s := by
  subst h1 h2 h3 h4 e1 e2 e3 e4 e5 e6 e7
  rfl

theorem queryTraceB_eq {σ : Type} {pl : Placing} {place : TraceAt} {env : Env} {pick : U32 → Nat → Nat}
    {ev : Evaluator σ} {db index : U64} {t : Trace} {seed : U32} {keep : Bool} {mask stmt : U64} {vars nVars pred softs nSofts out nOut : Nat}
    {st : FState} {cache : PointsCache} {s : σ} :
    queryTraceB pl place env pick ev t (queryArgs db index vars nVars pred softs nSofts seed keep mask stmt out nOut) st cache s =
      queryTraceC pl place env pick ev t vars nVars pred softs nSofts seed keep mask stmt out nOut st cache s := by
  unfold queryArgs
  exact queryTraceB_at (ofInt32_toNat seed) (decide_flag keep) (ofInt64_toNat mask) (ofInt64_toNat stmt)
    (Int.toNat_natCast vars) (Int.toNat_natCast nVars) (Int.toNat_natCast pred) (Int.toNat_natCast softs)
    (Int.toNat_natCast nSofts) (Int.toNat_natCast out) (Int.toNat_natCast nOut)

theorem queryTraceC_ok {σ : Type} {pl : Placing} {place : TraceAt} {env : Env} {pick : U32 → Nat → Nat}
    {ev : Evaluator σ} {t : Trace} {seed : U32} {keep : Bool} {mask stmt : U64} {p : Prepared}
    {fvs : List FreeVar} {hard : Pred} {softs : List Pred} {st : FState} {cache : PointsCache} {s : σ}
    (hr : ReadsQuery st.mem (st.blocks.length + 1) p fvs hard softs) :
    queryTraceC pl place env pick ev t p.vars fvs.length p.pred p.softs p.nSofts seed keep mask stmt p.out
        p.nOut st cache s =
      (queryTrace env pick ev t ⟨fvs, hard, softs, seed, mask, stmt⟩ keep cache s >>= returnB pl place t p.out p.nOut st) := by
  unfold queryTraceC
  rw [hr.hard, Res.ok_bind, hr.vars, hr.softs, Res.ok_bind]
  rfl

theorem callArgsB_ok {σ : Type} {pl : Placing} {place : TraceAt} {env : Env} {pick : U32 → Nat → Nat}
    {ev : Evaluator σ} {junk : List U64} {t : Trace} {args : List Int} {st : FState} {cache : PointsCache} {s : σ} :
    callArgsB pl place env pick ev junk t args st cache s = .throw .lisp ∨
    callArgsB pl place env pick ev junk t args st cache s = queryTraceB pl place env pick ev t args st cache s := by
  unfold callArgsB
  cases hc : lispCall CFun.queryTrace.imported.2 args junk with
  | none => left; rfl
  | some slots =>
    right
    have hp := cParams_ok false CFun.queryTrace.declared.2 CFun.queryTrace.imported.2 _ junk slots (call_agrees .queryTrace)
      (fun h => by cases h) hc
    dsimp only
    rw [hp]

theorem callQueryB_ok {σ : Type} {pl : Placing} {place : TraceAt} {env : Env} {pick : U32 → Nat → Nat}
    {ev : Evaluator σ} {db index : U64} {junk : List U64} {t : Trace} {q : FQuery} {mask stmt : U64} {p : Prepared}
    {fvs : List FreeVar} {hard : Pred} {softs : List Pred} {st : FState} {cache : PointsCache} {s : σ}
    (h3 : fileArgs q.file = .ok (mask, stmt)) (hl : fvs.length = q.varTypes.length)
    (hr : ReadsQuery st.mem (st.blocks.length + 1) p fvs hard softs) :
    callQueryB pl place env pick ev db index junk t q p st cache s = .throw .lisp ∨
    callQueryB pl place env pick ev db index junk t q p st cache s =
      (queryTrace env pick ev t ⟨fvs, hard, softs, q.seed, mask, stmt⟩ q.filter.isSome cache s >>=
        returnB pl place t p.out p.nOut st) := by
  unfold callQueryB
  rw [h3, Res.ok_bind, ← hl, ← queryTraceC_ok hr, ← queryTraceB_eq (db := db) (index := index)]
  exact callArgsB_ok

/-- Everything up to the query itself. -/
theorem lispQueryB_call {σ : Type} {pl : Placing} (hpl : pl.Sound) {place : TraceAt} {env : Env} {pick : U32 → Nat → Nat}
    {ev : Evaluator σ} {db index : U64} {junk : List U64} {t : Trace} {q : FQuery} {hard : Pred} {softs : List Pred}
    {st : FState} {cache : PointsCache} {s : σ} {types : List (List U8)} {fvs : List FreeVar} {mask stmt : U64}
    (hk : place.Kept t t.points st) (htypes : t.types.length < 2 ^ 32)
    (hnames : (q.predicate = .nil ∧ q.softs = []) ∨ q.varNames ≠ []) (hh : SexpRoot q.varNames q.predicate hard)
    (hs : SexpRoots q.varNames q.softs softs) (h1 : getTypes t = .ok types) (h2 : freeVars types q.varTypes = .ok fvs)
    (h3 : fileArgs q.file = .ok (mask, stmt)) :
    lispQueryB pl place env pick ev db index junk t q st cache s = .throw .lisp ∨
    lispQueryB pl place env pick ev db index junk t q st cache s = .ub .nullDeref ∨
    ∃ st' out nOut, OnlyNew st st' ∧ (∀ x, InRange out 8 x → InUse st'.blocks x ∧ ¬ InUse st.blocks x) ∧
      (∀ x, InRange nOut 8 x → InUse st'.blocks x ∧ ¬ InUse st.blocks x) ∧ (out + 8 ≤ nOut ∨ nOut + 8 ≤ out) ∧
      lispQueryB pl place env pick ev db index junk t q st cache s =
        (queryTrace env pick ev t ⟨fvs, hard, softs, q.seed, mask, stmt⟩ q.filter.isSome cache s >>= fun r =>
          returnB pl place t out nOut st' r >>= fun x =>
            resultsB pl place t q.filter out nOut x.1 >>= fun y => .ok (y.1, y.2, x.2.1, x.2.2)) := by
  unfold lispQueryB
  rw [if_pos (FQuery.hasNames_of hnames)]
  rcases prepareB_ok hpl hk htypes hh hs h1 h2 with e | e | ⟨p, st', e, n, hr, u1, u2, hd⟩
  · left; rw [e]; exact resThrow_bind _ _
  · right; left; rw [e]; exact resUb_bind _ _
  rw [e, Res.ok_bind]
  dsimp only
  rcases callQueryB_ok (pl := pl) (place := place) (env := env) (pick := pick) (ev := ev) (db := db) (index := index)
    (junk := junk) (t := t) (cache := cache) (s := s) h3 (freeVars_length h2) hr with e | e
  · left; rw [e]; exact resThrow_bind _ _
  right; right
  refine ⟨st', p.out, p.nOut, n, u1, u2, hd, ?_⟩
  rw [e]
  cases queryTrace env pick ev t ⟨fvs, hard, softs, q.seed, mask, stmt⟩ q.filter.isSome cache s with
  | ok r => rfl
  | _ => rfl

/-- The answer, if the results can be converted. -/
theorem answerB_ok {σ : Type} {pl : Placing} (hpl : pl.Sound) {place : TraceAt} {t : Trace} {st0 st : FState} {out nOut : Nat}
    {filter : Option (LPoint → Bool)} {rs : List Point} {c : PointsCache} {s : σ} {l : List LPoint}
    (hk : place.Kept t rs st0) (hf : FitForeign t rs) (hn : OnlyNew st0 st)
    (ho : ∀ x, InRange out 8 x → InUse st.blocks x ∧ ¬ InUse st0.blocks x)
    (hnO : ∀ x, InRange nOut 8 x → InUse st.blocks x ∧ ¬ InUse st0.blocks x) (hd : out + 8 ≤ nOut ∨ nOut + 8 ≤ out)
    (hl : lispPoints t rs = .ok l) :
    (returnB pl place t out nOut st (rs, c, s) >>= fun x =>
        resultsB pl place t (filter.map fun g p => some (g p)) out nOut x.1 >>= fun y => .ok (y.1, y.2, x.2.1, x.2.2)) =
      .ub .nullDeref ∨
    ∃ st', (returnB pl place t out nOut st (rs, c, s) >>= fun x =>
        resultsB pl place t (filter.map fun g p => some (g p)) out nOut x.1 >>= fun y => .ok (y.1, y.2, x.2.1, x.2.2)) =
        .ok (match filter with
          | some g => removeDuplicates sameBindings (l.filter g)
          | none => l, st', c, s) ∧ OnlyNew st0 st' := by
  have nA : OnlyNew st0 ⟨st.mem.putNat nOut 8 rs.length, st.blocks⟩ :=
    hn.fill hn (OnlyNew.refl _) hnO fun x hx => BMem.putNat_other hx
  unfold returnB
  simp only [CTy.bytes]
  rcases pointsToArrayB_ok hpl (nA.kept hk) hf hl with e | ⟨a, s1, e1, a1, n1, r1⟩
  · left; rw [e]; rfl
  rw [e1, Res.ok_bind]
  dsimp only
  rw [Res.pure_eq, Res.ok_bind]
  have nB : OnlyNew st0 ⟨s1.mem.putNat out 8 a, s1.blocks⟩ :=
    (nA.trans n1).fill nA n1 ho fun x hx => BMem.putNat_other hx
  have g1 : (s1.mem.putNat out 8 a).getNat out 8 = a := BMem.getNat_putNat (by simpa using a1)
  have hrs : rs.length < 256 ^ 8 := by have := hf.count; omega
  have g2 : (s1.mem.putNat out 8 a).getNat nOut 8 = rs.length := by
    rw [BMem.getNat_putNat_disj (by omega), BMem.getNat_congr (m := st.mem.putNat nOut 8 rs.length) fun x hx => n1.same x (hnO x hx).1,
      BMem.getNat_putNat hrs]
  unfold resultsB
  simp only [FTy.bytes]
  rw [g1, g2]
  rcases lispNamesB_ok hpl (nB.kept hk) hf.names with e | ⟨s2, e2, n2⟩
  · left; rw [e]; rfl
  right
  rw [e2, Res.ok_bind]
  dsimp only
  rw [r1 s2.mem, Res.ok_bind]
  · cases filter with
    | none => exact ⟨s2, rfl, nB.trans n2⟩
    | some g =>
      dsimp only [Option.map_some]
      rw [filterConverted_total, Res.ok_bind]
      exact ⟨s2, rfl, nB.trans n2⟩
  · intro x hx hnu
    rw [n2.same x hx]
    exact BMem.putNat_other fun h => hnu (ho x h).1
  · intro p hp v hv bs e
    exact (n2.keeps (nB.keeps (hk.blob p hp v hv bs e))).bytes

/-- Results of a query are as good as the points of the trace. -/
theorem results_fit {t : Trace} {n : Nat} {rs : List Point} (hf : FitForeign t t.points) (hn : n < 2 ^ 32)
    (hc : rs.length * 40 < 2 ^ 64) (h : ∀ r ∈ rs, ∃ p ∈ t.points, FromPoint n p r) : FitForeign t rs := by
  refine ⟨hc, hf.names, hf.types, ?_, ?_, ?_⟩
  · intro r hr
    obtain ⟨p, hp, h1, h2, h3⟩ := h r hr
    omega
  · intro r hr
    obtain ⟨p, hp, h1, h2, h3⟩ := h r hr
    have := hf.aux p hp
    omega
  · intro r hr v hv
    obtain ⟨p, hp, h1, h2, h3⟩ := h r hr
    exact hf.sized p hp v (h1 v hv)

theorem results_kept {place : TraceAt} {t : Trace} {n : Nat} {rs : List Point} {s : FState} (hk : place.Kept t t.points s)
    (h : ∀ r ∈ rs, ∃ p ∈ t.points, FromPoint n p r) : place.Kept t rs s :=
  ⟨hk.name, fun r hr v hv bs e => by
    obtain ⟨p, hp, h1, _⟩ := h r hr
    exact hk.blob p hp v (h1 v hv) bs e⟩

end TraceDB
