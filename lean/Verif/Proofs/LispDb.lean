import Verif.Spec.LispDb
import Verif.Proofs.Database
import Verif.Proofs.LispIds
/-
Metadata histories and selections by file.
-/
namespace TraceDB

variable {μ : Type}

/-- One addition: traces are appended; metadata is appended for files and put in
front for points. -/
theorem LispDb.add_spec {grow : Nat → Nat} {env : Env} {d d' : LispDb μ} {a : LispAdd μ}
    (h : d.add grow env a = .ok d') :
    d'.db.traces = d.db.traces ++ (a.stores env).toList ∧
    d'.metadata = (if a.isFile then d.metadata ++ ((a.stores env).map fun _ => a.meta).toList
      else a.meta :: d.metadata) ∧
    (a.isFile = false → (a.stores env).isSome = true) := by
  cases a with
  | trace src k m =>
    simp only [LispDb.add, addTraceApi] at h
    cases src with
    | none =>
      simp only [Res.ok_bind, if_true, Res.pure_eq] at h
      cases h
      simp [LispAdd.stores, LispAdd.isFile]
    | some s =>
      simp only [] at h
      cases hr : readTrace env k s with
      | ok t =>
        rw [hr] at h
        simp only [Res.ok_bind, Nat.one_ne_zero, if_false, Res.pure_eq] at h
        cases h
        simp [LispAdd.stores, LispAdd.isFile, hr, addTrace_traces, LispAdd.meta]
      | throw e =>
        rw [hr] at h
        simp only [Res.ok_bind, if_true, Res.pure_eq] at h
        cases h
        simp [LispAdd.stores, LispAdd.isFile, hr]
      | abort => rw [hr] at h; cases h
      | ub e => rw [hr] at h; cases h
      | hang => rw [hr] at h; cases h
  | points ps names m =>
    simp only [LispDb.add, addTracePointsApi] at h
    cases hr : traceOfPoints ps names with
    | ok t =>
      rw [hr] at h
      simp only [Res.ok_bind, Res.pure_eq] at h
      cases h
      simp [LispAdd.stores, LispAdd.isFile, hr, addTrace_traces, LispAdd.meta]
    | throw e => rw [hr] at h; cases h
    | abort => rw [hr] at h; cases h
    | ub e => rw [hr] at h; cases h
    | hang => rw [hr] at h; cases h

/-- A whole history: metadata of points, newest first, then metadata of files, oldest
first. -/
theorem LispDb.addAll_spec {grow : Nat → Nat} {env : Env} : ∀ {as : List (LispAdd μ)} {d d' : LispDb μ},
    d.addAll grow env as = .ok d' →
    d'.db.traces = d.db.traces ++ (storedWith env as).map (·.1) ∧
    d'.metadata = ((as.filter fun a => !a.isFile).map LispAdd.meta).reverse ++ d.metadata ++
      (storedWith env (as.filter fun a => a.isFile)).map (·.2)
  | [], d, d', h => by cases h; simp [storedWith]
  | a :: as, d, d', h => by
    simp only [LispDb.addAll] at h
    obtain ⟨d1, h1, h2⟩ := Res.bind_eq_ok.mp h
    obtain ⟨e1, e2, e3⟩ := LispDb.add_spec h1
    obtain ⟨i1, i2⟩ := LispDb.addAll_spec h2
    constructor
    · rw [i1, e1]
      cases hs : a.stores env <;> simp [storedWith, List.filterMap_cons, hs]
    · rw [i2, e2]
      cases hf : a.isFile with
      | true =>
        cases hs : a.stores env <;> simp [storedWith, List.filterMap_cons, hs, hf]
      | false =>
        simp [hf]

theorem sexp_addAll (as : List (SexpAdd μ)) (d : SexpDb μ) :
    (as.foldl SexpDb.add d).traces = ((as.filterMap SexpAdd.stores).map (·.1)).reverse ++ d.traces ∧
    (as.foldl SexpDb.add d).metadata = ((as.filterMap SexpAdd.stores).map (·.2)).reverse ++ d.metadata := by
  induction as generalizing d with
  | nil => simp
  | cons a as ih =>
    rw [List.foldl_cons, (ih _).1, (ih _).2]
    cases a with
    | trace r m => cases r <;> simp [SexpDb.add, SexpAdd.stores, List.filterMap_cons]
    | points ps m => simp [SexpDb.add, SexpAdd.stores]

/-- Conversion of points keeps their file and order. -/
theorem lispPoints_f {t : Trace} : ∀ {ps : List Point} {ls : List LPoint}, lispPoints t ps = .ok ls →
    ls.length = ps.length ∧ ∀ (i : Nat) (p : Point) (l : LPoint), ps[i]? = some p → ls[i]? = some l →
      lispPoint t p = .ok l
  | [], ls, h => by cases h; simp
  | p :: ps, ls, h => by
    simp only [lispPoints] at h
    obtain ⟨x, hx, h⟩ := Res.bind_eq_ok.mp h
    obtain ⟨xs, hxs, h⟩ := Res.bind_eq_ok.mp h
    cases h
    obtain ⟨i1, i2⟩ := lispPoints_f hxs
    refine ⟨by simp [i1], fun i q l hq hl => ?_⟩
    cases i with
    | zero =>
      simp only [List.getElem?_cons_zero, Option.some.injEq] at hq hl
      subst hq; subst hl; exact hx
    | succ i =>
      simp only [List.getElem?_cons_succ] at hq hl
      exact i2 i q l hq hl

theorem lispPoint_f {t : Trace} {p : Point} {l : LPoint} (h : lispPoint t p = .ok l) :
    l.f = unpackF p.statement ∧ l.c = unpackC p.statement ∧ l.aux = p.aux ∧ lispVars t p.vars = .ok l.scopes := by
  simp only [lispPoint] at h
  obtain ⟨x, hx, h⟩ := Res.bind_eq_ok.mp h
  cases h
  exact ⟨rfl, rfl, rfl, hx⟩

/-- Filtering before and after the conversion. -/
theorem lispPoints_filter {t : Trace} {g : Point → Bool} {g' : LPoint → Bool}
    (hg : ∀ p l, lispPoint t p = .ok l → g p = g' l) : ∀ {ps : List Point} {ls : List LPoint},
    lispPoints t ps = .ok ls → lispPoints t (ps.filter g) = .ok (ls.filter g')
  | [], ls, h => by cases h; rfl
  | p :: ps, ls, h => by
    simp only [lispPoints] at h
    obtain ⟨x, hx, h⟩ := Res.bind_eq_ok.mp h
    obtain ⟨xs, hxs, h⟩ := Res.bind_eq_ok.mp h
    cases h
    have ih := lispPoints_filter hg hxs
    have e := hg p x hx
    cases hgp : g p with
    | true =>
      rw [hgp] at e
      simp only [List.filter_cons, hgp, ← e, if_true, lispPoints, hx, ih, Res.ok_bind, Res.pure_eq]
    | false =>
      rw [hgp] at e
      simp only [List.filter_cons, hgp, ← e, Bool.false_eq_true, if_false, ih]

theorem lispVars_with (t : Trace) (ps : List Point) : ∀ vs : List VarInfo,
    lispVars { t with points := ps } vs = lispVars t vs
  | [] => rfl
  | v :: vs => by simp only [lispVars, lispVar, lispVars_with t ps vs]

/-- The points of the trace do not matter for the conversion. -/
theorem lispPoints_with (t : Trace) (ps : List Point) : ∀ l : List Point,
    lispPoints { t with points := ps } l = lispPoints t l
  | [] => rfl
  | p :: l => by simp only [lispPoints, lispPoint, lispPoints_with t ps l, lispVars_with]

end TraceDB
