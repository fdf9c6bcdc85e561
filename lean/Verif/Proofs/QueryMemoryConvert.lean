import Verif.Spec.QueryMemory
import Verif.Props.Export
import Verif.Proofs.PredicateCache
/-
Conversion of exported results back to Lisp data.
-/
namespace TraceDB

/-- Conversion of cells that were read. -/
def lispCells (names : List (List U8)) : List Cell → Res (List LVar)
  | [] => .ok []
  | c :: cs => do
    let x ← lispCell names c
    let xs ← lispCells names cs
    pure (x :: xs)

theorem lispScopes_eq {names : List (List U8)} {p : Nat} {h : Heap} {n i : Nat} {cells : List Cell}
    (e : readCells p i n h = .ok cells) : lispScopes names p h i n = lispCells names cells := by
  induction n generalizing i cells with
  | zero => simp only [readCells] at e; cases e; rfl
  | succ n ih =>
    simp only [readCells] at e
    obtain ⟨c, h1, e⟩ := Res.bind_eq_ok.mp e
    obtain ⟨cs, h2, e⟩ := Res.bind_eq_ok.mp e
    cases e
    simp only [lispScopes, h1, Res.ok_bind, lispCells, ih h2]

theorem lispAux_eq {p : Nat} {h : Heap} {n i : Nat} {us : List U64}
    (e : readCells p i n h = .ok (us.map .word)) : lispAux p h i n = .ok us := by
  induction n generalizing i us with
  | zero =>
    simp only [readCells] at e
    cases us with
    | nil => rfl
    | cons => simp at e
  | succ n ih =>
    simp only [readCells] at e
    obtain ⟨c, h1, e⟩ := Res.bind_eq_ok.mp e
    obtain ⟨cs, h2, e⟩ := Res.bind_eq_ok.mp e
    cases us with
    | nil => simp at e
    | cons u us =>
      simp only [Res.pure_eq, List.map_cons, Res.ok.injEq, List.cons.injEq] at e
      obtain ⟨rfl, rfl⟩ := e
      simp only [lispAux, h1, Res.ok_bind, ih h2, Res.pure_eq]

theorem lispCell_eq {t : Trace} {v : VarInfo} {c : Cell} (h : SeenVar t.types v c) :
    lispCell (getNames t) c = lispVar t v := by
  obtain ⟨ty, hty, rfl⟩ := h
  simp only [lispCell, lispVar, hty, getNames, List.getElem?_map]
  cases h1 : t.names[v.nameIndex.toNat]? with
  | none => rfl
  | some n =>
    cases h2 : t.names[ty.nameIndex.toNat]? with
    | none => rfl
    | some n' => rfl

theorem lispCells_eq {t : Trace} {vs : List VarInfo} {cs : List Cell} (hl : cs.length = vs.length)
    (h : ∀ (i : Nat) (v : VarInfo) (c : Cell), vs[i]? = some v → cs[i]? = some c → SeenVar t.types v c) :
    lispCells (getNames t) cs = lispVars t vs := by
  induction vs generalizing cs with
  | nil => cases cs with
    | nil => rfl
    | cons => simp at hl
  | cons v vs ih => cases cs with
    | nil => simp at hl
    | cons c cs =>
      have h0 := h 0 v c rfl rfl
      have hr := ih (cs := cs) (by simpa using hl) (fun i v c hv hc => h (i + 1) v c (by simpa using hv) (by simpa using hc))
      simp only [lispCells, lispVars, lispCell_eq h0, hr]

/-- What conversion with a filter does to points. -/
def convertPoints (t : Trace) (filter : LPoint → Option Bool) : List Point → Res (List LPoint)
  | [] => .ok []
  | p :: ps => do
    let x ← lispPoint t p
    match filter x with
    | none => .throw .lisp
    | some keep => do
      let xs ← convertPoints t filter ps
      pure (if keep then x :: xs else xs)

theorem lispPointAt_eq {t : Trace} {ptr i : Nat} {h : Heap} {c : Cell} {s : Seen} {p : Point}
    (hc : loadCell ptr i h = .ok c) (hs : readSeen c h = .ok s) (hp : SeenPoint t.types p s) :
    lispPointAt (getNames t) ptr i h = lispPoint t p := by
  simp only [lispPointAt, hc, Res.ok_bind]
  cases c with
  | point c =>
    simp only [readSeen] at hs
    obtain ⟨vs, h1, hs⟩ := Res.bind_eq_ok.mp hs
    obtain ⟨us, h2, hs⟩ := Res.bind_eq_ok.mp hs
    cases hs
    obtain ⟨e1, e2, e3, e4⟩ := hp
    simp only at e1 e2 e3 e4
    subst e2
    simp only [lispScopes_eq h1, lispAux_eq h2, lispCells_eq e3 e4, lispPoint]
    cases lispVars t p.vars <;> simp [e1]
  | var c => simp [readSeen] at hs
  | word c => simp [readSeen] at hs

theorem convertLoop_eq {t : Trace} {filter : LPoint → Option Bool} {ptr : Nat} {h : Heap} {ps : List Point}
    {seen : List Seen} {i : Nat} (hr : readArray ptr i ps.length h = .ok seen)
    (hs : ∀ (i : Nat) (p : Point) (s : Seen), ps[i]? = some p → seen[i]? = some s → SeenPoint t.types p s) :
    convertLoop (getNames t) filter ptr h i ps.length = convertPoints t filter ps := by
  induction ps generalizing i seen with
  | nil => rfl
  | cons p ps ih =>
    simp only [List.length_cons, readArray] at hr
    obtain ⟨c, h1, hr⟩ := Res.bind_eq_ok.mp hr
    obtain ⟨s, h2, hr⟩ := Res.bind_eq_ok.mp hr
    obtain ⟨rest, h3, hr⟩ := Res.bind_eq_ok.mp hr
    cases hr
    have hp := hs 0 p s rfl rfl
    have hrest := ih h3 (fun i p s hv hc => hs (i + 1) p s (by simpa using hv) (by simpa using hc))
    simp only [List.length_cons, convertLoop, convertPoints, lispPointAt_eq h1 h2 hp]
    cases lispPoint t p with
    | ok x =>
      simp only [Res.ok_bind, hrest]
      cases filter x <;> rfl
    | _ => rfl

/-- With a filter that does not fail conversion is that of the list of points. -/
theorem convertPoints_total (t : Trace) (g : LPoint → Bool) (ps : List Point) :
    convertPoints t (fun p => some (g p)) ps = (lispPoints t ps >>= fun xs => .ok (xs.filter g)) := by
  induction ps with
  | nil => rfl
  | cons p ps ih =>
    simp only [convertPoints, lispPoints, ih]
    cases lispPoint t p with
    | ok x =>
      cases lispPoints t ps with
      | ok xs => cases hg : g x <;> simp [List.filter, hg]
      | _ => rfl
    | _ => rfl

theorem convertPoints_all (t : Trace) (ps : List Point) :
    convertPoints t (fun _ => some true) ps = lispPoints t ps := by
  rw [convertPoints_total t (fun _ => true)]
  cases lispPoints t ps with
  | ok xs => simp only [Res.ok_bind, Res.ok.injEq]; exact List.filter_eq_self.mpr (by simp)
  | _ => rfl

/-! Where results come from -/

theorem lookupVars_mem {vars vs : List VarInfo} {b : List Nat} (h : lookupVars vars b = .ok vs) :
    (∀ v ∈ vs, v ∈ vars) ∧ vs.length = b.length := by
  induction b generalizing vs with
  | nil => simp only [lookupVars] at h; cases h; simp
  | cons i is ih =>
    simp only [lookupVars] at h
    obtain ⟨v, h1, h⟩ := Res.bind_eq_ok.mp h
    obtain ⟨rest, h2, h⟩ := Res.bind_eq_ok.mp h
    cases h
    obtain ⟨a, b⟩ := ih h2
    have hv : v ∈ vars := by
      unfold varAt at h1
      split at h1
      · rename_i w hw
        cases h1
        exact List.mem_of_getElem? hw
      · cases h1
    refine ⟨fun x hx => ?_, by simp [b]⟩
    rcases List.mem_cons.mp hx with rfl | hx
    · exact hv
    · exact a x hx

/-- A result is made of a point and has no more than one variable for each free variable. -/
def FromPoint (n : Nat) (p r : Point) : Prop :=
  (∀ v ∈ r.vars, v ∈ p.vars) ∧ r.vars.length ≤ n ∧ r.aux.length ≤ p.aux.length

theorem hardLoop_from {σ : Type} {ev : Evaluator σ} {hard : Pred} {point : Point} {bs : List (List Nat)} {n : Nat}
    (hb : ∀ b ∈ bs, b.length ≤ n) {s s' : σ} {rs : List Point} (h : hardLoop ev hard point bs s = .ok (rs, s')) :
    ∀ r ∈ rs, FromPoint n point r := by
  induction bs generalizing s s' rs with
  | nil => simp only [hardLoop] at h; cases h; simp
  | cons b bs ih =>
    simp only [hardLoop] at h
    obtain ⟨⟨sat, s1⟩, h1, h⟩ := Res.bind_eq_ok.mp h
    have hb' : ∀ b ∈ bs, b.length ≤ n := fun b h => hb b (List.mem_cons_of_mem _ h)
    cases sat with
    | false => exact ih hb' h
    | true =>
      simp only [if_true] at h
      obtain ⟨vars, h2, h⟩ := Res.bind_eq_ok.mp h
      obtain ⟨⟨rest, s2⟩, h3, h⟩ := Res.bind_eq_ok.mp h
      cases h
      obtain ⟨a, c⟩ := lookupVars_mem h2
      simp only [List.mem_cons]
      rintro r (rfl | hr)
      · exact ⟨a, by have := hb b (List.mem_cons_self ..); simp only; omega, Nat.le_refl _⟩
      · exact ih hb' h3 r hr

theorem keepMax_mem {counts : List Nat} {rs : List Point} : ∀ r ∈ keepMax counts rs, r ∈ rs := by
  intro r hr
  simp only [keepMax, List.mem_map, List.mem_filter] at hr
  obtain ⟨⟨a, b⟩, ⟨h1, _⟩, rfl⟩ := hr
  exact (List.of_mem_zip h1).1

theorem collectResults_from {σ : Type} {env : Env} {ev : Evaluator σ} {point : Point} {variables : List FreeVar}
    {hard : Pred} {soft : List Pred} {s s' : σ} {rs : List Point}
    (h : collectResults env ev point variables hard soft s = .ok (rs, s')) :
    ∀ r ∈ rs, FromPoint variables.length point r := by
  unfold collectResults at h
  obtain ⟨first, h1, h⟩ := Res.bind_eq_ok.mp h
  split at h
  · cases h
  · obtain ⟨bs, h2, h⟩ := Res.bind_eq_ok.mp h
    obtain ⟨⟨found, s1⟩, h3, h⟩ := Res.bind_eq_ok.mp h
    have hb : ∀ b ∈ bs, b.length ≤ variables.length := fun b hb => by
      have := (cartesian_bindings h2 b hb).1
      omega
    have hf := hardLoop_from hb h3
    have hfirst : ∀ r ∈ first, FromPoint variables.length point r := by
      unfold firstResults at h1
      split at h1
      · split at h1
        · cases h1
          simp [FromPoint, emptyResult]
        · cases h1
      · cases h1; simp
    have hall : ∀ r ∈ first ++ found, FromPoint variables.length point r := by
      intro r hr
      rcases List.mem_append.mp hr with hr | hr
      · exact hfirst r hr
      · exact hf r hr
    simp only at h
    split at h
    · cases h; exact hall
    · obtain ⟨⟨counts, s2⟩, h4, h⟩ := Res.bind_eq_ok.mp h
      simp only at h
      split at h
      · cases h
      · cases h
        exact fun r hr => hall r (keepMax_mem r hr)

theorem queryAll_from {σ : Type} {env : Env} {ev : Evaluator σ} {variables : List FreeVar}
    {hard : Pred} {soft : List Pred} {ps : List Point} {s s' : σ} {rs : List Point}
    (h : queryAll env ev variables hard soft ps s = .ok (rs, s')) :
    ∀ r ∈ rs, ∃ p ∈ ps, FromPoint variables.length p r := by
  induction ps generalizing s s' rs with
  | nil => simp only [queryAll] at h; cases h; simp
  | cons p ps ih =>
    simp only [queryAll] at h
    obtain ⟨⟨r1, s1⟩, h1, h⟩ := Res.bind_eq_ok.mp h
    obtain ⟨⟨r2, s2⟩, h2, h⟩ := Res.bind_eq_ok.mp h
    cases h
    intro r hr
    rcases List.mem_append.mp hr with hr | hr
    · exact ⟨p, List.mem_cons_self .., collectResults_from h1 r hr⟩
    · obtain ⟨q, hq, hf⟩ := ih h2 r hr
      exact ⟨q, List.mem_cons_of_mem _ hq, hf⟩

theorem dedupLoop_mem (set ps : List Point) : ∀ r ∈ dedupLoop set ps, r ∈ ps := by
  induction ps generalizing set with
  | nil => simp [dedupLoop]
  | cons p ps ih =>
    intro r hr
    simp only [dedupLoop] at hr
    split at hr
    · exact List.mem_cons_of_mem _ (ih _ r hr)
    · rcases List.mem_cons.mp hr with rfl | hr
      · exact List.mem_cons_self ..
      · exact List.mem_cons_of_mem _ (ih _ r hr)

theorem getPoints_mem {t : Trace} {cache : PointsCache} (hc : CacheOf t cache) (mask stmt : U64) :
    ∀ p ∈ (getPoints t.points cache mask stmt).1, p ∈ t.points := by
  intro p hp
  unfold getPoints at hp
  split at hp
  · rename_i ps hps
    obtain ⟨k, hk⟩ : ∃ k, (k, ps) ∈ cache := by
      clear hc hp
      induction cache with
      | nil => simp at hps
      | cons e cache ih =>
        obtain ⟨k, v⟩ := e
        simp only [List.lookup_cons] at hps
        split at hps
        · cases hps; exact ⟨k, List.mem_cons_self ..⟩
        · obtain ⟨k', hk'⟩ := ih hps
          exact ⟨k', List.mem_cons_of_mem _ hk'⟩
    exact hc _ hk p hp
  · simp only [filterPoints] at hp
    exact (List.mem_filter.mp hp).1

/-- Results of a query consist of recorded data. -/
theorem queryTrace_from {σ : Type} {env : Env} {pick : U32 → Nat → Nat} {ev : Evaluator σ} {t : Trace} {q : Query}
    {keep : Bool} {cache cache' : PointsCache} {s s' : σ} {rs : List Point} (hc : CacheOf t cache)
    (h : queryTrace env pick ev t q keep cache s = .ok (rs, cache', s')) :
    ∀ r ∈ rs, ∃ p ∈ t.points, FromPoint q.variables.length p r := by
  unfold queryTrace query at h
  have hm := getPoints_mem hc q.mask q.stmt
  generalize getPoints t.points cache q.mask q.stmt = g at h hm
  obtain ⟨points, c⟩ := g
  obtain ⟨⟨r1, c1, s1⟩, h1, h⟩ := Res.bind_eq_ok.mp h
  obtain ⟨⟨r2, s2⟩, h2, h1⟩ := Res.bind_eq_ok.mp h1
  cases h1
  have hq : ∀ r ∈ r1, ∃ p ∈ t.points, FromPoint q.variables.length p r := by
    unfold queryPoints at h2
    split at h2
    · split at h2
      · cases h2; simp
      · split at h2
        · cases h2
        · rename_i p hp
          intro r hr
          exact ⟨p, hm p (List.mem_of_getElem? hp), collectResults_from h2 r hr⟩
    · intro r hr
      obtain ⟨p, hp, hf⟩ := queryAll_from h2 r hr
      exact ⟨p, hm p hp, hf⟩
  cases h
  intro r hr
  split at hr
  · exact hq r hr
  · exact hq r (dedupLoop_mem _ _ r hr)

/-- Such results can be exported. -/
theorem exportable_results {σ : Type} {w : QueryWorld σ} {t : Trace} (ht : TraceExportable w t) {n : Nat}
    (hn : n < 2 ^ 32) {rs : List Point} (h : ∀ r ∈ rs, ∃ p ∈ t.points, FromPoint n p r) :
    ∀ p ∈ rs, (∀ v ∈ p.vars, v.typeIndex.toNat < t.types.length) ∧
      p.vars.length < 2 ^ 32 ∧ p.aux.length < 2 ^ 32 ∧
      w.alloc.canAlloc (p.vars.length * w.abi.sizeVar) = true ∧ w.alloc.canAlloc (p.aux.length * 8) = true := by
  intro r hr
  obtain ⟨p, hp, h1, h2, h3⟩ := h r hr
  obtain ⟨a, b, c⟩ := ht.points p hp
  exact ⟨fun v hv => a v (h1 v hv), by omega, by omega, ht.memory _, ht.memory _⟩

end TraceDB
