import Verif.Spec.LispPick
import Verif.Proofs.LispPick
import Verif.Model.SexpObjects
/-
C93: queries with `pick` from Lisp.
-/
namespace TraceDB

/-- C93.  A query with `pick`, for every random number but 0, is the query without `pick` on
a trace with one point: a point the query is about, if there is one.  Which point that is
depends neither on the types nor the predicates nor the filter.  So the answer may be empty
although others of the points have results. -/
theorem C93_one_point {σ : Type} (env : Env) (rng : U32 → Nat → Nat) (ev : Evaluator σ) (t : Trace) (random : Nat)
    (h0 : 0 < random) (h32 : random < 2 ^ 32) (hrng : ∀ n, 0 < n → rng (BitVec.ofNat 32 random) n < n)
    (file : Option Nat) (hfile : FilesTold t file) :
    ∃ choice : Option Point, (choice = none ↔ queriedPoints t file = []) ∧
      (∀ p, choice = some p → p ∈ queriedPoints t file) ∧
      ∀ (q : LQuery) (s : σ), q.file = file →
        (lispQuery env rng ev t (q.picking true random) [] s >>= fun r => .ok (r.1, r.2.2)) =
          (lispQuery env rng ev { t with points := choice.toList } { q.picking false random with file := none } [] s >>=
            fun r => .ok (r.1, r.2.2)) := by
  have hseed : BitVec.ofNat 32 random ≠ 0 := by
    intro e
    have := congrArg BitVec.toNat e
    simp only [BitVec.toNat_ofNat, Nat.mod_eq_of_lt h32] at this
    simp at this
    omega
  obtain ⟨choice, c1, c2, c3⟩ := query_picked env rng ev { t with points := queriedPoints t file } _ hseed hrng
  refine ⟨choice, c1, c2, fun q s hq => ?_⟩
  have key : (lispQuery env rng ev t (q.picking true random) [] s >>= fun r => .ok (r.1, r.2.2)) =
      (lispQuery env rng ev { t with points := queriedPoints t file } { q.picking true random with file := none } [] s >>=
        fun r => .ok (r.1, r.2.2)) := by
    cases file with
    | none =>
      obtain ⟨_, _, _, _, _, _⟩ := q
      subst hq
      rfl
    | some f =>
      obtain ⟨hf, hids⟩ := hfile f rfl
      exact (C49_points_of_file env rng ev t (q.picking true random) f s hf hq hids).1
  rw [key, lispQuery_split, lispQuery_split]
  rw [show getTypes { t with points := queriedPoints t file } = getTypes t from rfl,
    show getTypes { t with points := choice.toList } = getTypes t from rfl]
  refine congrArg (fun k => getTypes t >>= k) (funext fun types => ?_)
  refine congrArg (fun k => freeVars types q.varTypes >>= k) (funext fun fvs => ?_)
  simp only [show fileArgs none = .ok (0, 0) from rfl, Res.ok_bind]
  have := c3 fvs q.hard q.soft s
  simp only [LQuery.picking, if_true, Bool.false_eq_true, if_false] at this ⊢
  rw [this]
  simp only [lispPoints_with]

/-- Its results have the statement, names and types of results of the query without `pick`
(up to case, if there is a filter). -/
theorem C93_represented (fs : FloatSys) (env : Env) (rng : U32 → Nat → Nat) (t : Trace) (random : Nat)
    (hrng : ∀ n, 0 < n → rng (BitVec.ofNat 32 random) n < n) (q : LQuery) (rs all : List LPoint) (c c' : PointsCache)
    (hall : lispQuery env rng (plainEval fs) t (q.picking false random) [] () = .ok (all, c, ()))
    (hrs : lispQuery env rng (plainEval fs) t (q.picking true random) [] () = .ok (rs, c', ())) :
    (q.filter = none → ∀ r ∈ rs, ∃ a ∈ all, exactKey r = exactKey a) ∧
    ∀ r ∈ rs, ∃ a ∈ all, foldedKey r = foldedKey a := by
  by_cases hseed : BitVec.ofNat 32 random = 0
  · have : q.picking true random = q.picking false random := by
      simp [LQuery.picking, hseed]
    rw [this, hall] at hrs
    cases hrs
    exact ⟨fun _ r hr => ⟨r, hr, rfl⟩, fun r hr => ⟨r, hr, rfl⟩⟩
  have e1 := lispQuery_split env rng (plainEval fs) t (q.picking false random) ()
  have e2 := lispQuery_split env rng (plainEval fs) t (q.picking true random) ()
  rw [hall] at e1
  rw [hrs] at e2
  simp only [Res.ok_bind] at e1 e2
  obtain ⟨types, ht, e1⟩ := Res.bind_eq_ok.mp e1.symm
  obtain ⟨fvs, hf, e1⟩ := Res.bind_eq_ok.mp e1
  obtain ⟨a, ha, e1⟩ := Res.bind_eq_ok.mp e1
  obtain ⟨⟨all0, _⟩, hq1, e1⟩ := Res.bind_eq_ok.mp e1
  obtain ⟨as, hc1, e1⟩ := Res.bind_eq_ok.mp e1
  have ha' : fileArgs (q.picking true random).file = .ok a := ha
  have hf' : freeVars types (q.picking true random).varTypes = .ok fvs := hf
  rw [ht, Res.ok_bind, hf', Res.ok_bind, ha', Res.ok_bind] at e2
  obtain ⟨⟨rs0, _⟩, hq2, e2⟩ := Res.bind_eq_ok.mp e2.symm
  obtain ⟨ls, hc2, e2⟩ := Res.bind_eq_ok.mp e2
  obtain ⟨⟨a1, a2, a3⟩, g1, g2⟩ := Res.bind_eq_ok.mp hq1
  obtain ⟨⟨b1, b2, b3⟩, g3, g4⟩ := Res.bind_eq_ok.mp hq2
  cases g2
  cases g4
  obtain ⟨x, hx, hin⟩ := C27_contiguous fs env rng t ⟨fvs, q.hard, q.soft, BitVec.ofNat 32 random, a.1, a.2⟩ hseed hrng
    a1 (by
      have g1' : query env rng (plainEval fs) t ⟨fvs, q.hard, q.soft, 0, a.1, a.2⟩ [] () = .ok (a1, a2, ()) := g1
      rw [g1']; rfl)
  have g3' : query env rng (plainEval fs) t ⟨fvs, q.hard, q.soft, BitVec.ofNat 32 random, a.1, a.2⟩ [] () =
      .ok (b1, b2, ()) := g3
  rw [g3'] at hx
  cases hx
  have hsub : ∀ p ∈ b1, p ∈ a1 := fun p hp => hin.subset hp
  have hfl : (q.picking true random).filter = q.filter := rfl
  have hfl' : (q.picking false random).filter = q.filter := rfl
  rw [hfl] at hc2 e2
  rw [hfl'] at hc1 e1
  cases hfil : q.filter with
  | none =>
    rw [hfil] at hc1 hc2 e1 e2
    cases e1
    cases e2
    have := dedup_represented hsub hc2 hc1
    exact ⟨fun _ => this, fun r hr => (this r hr).elim fun a h => ⟨a, h.1, foldedKey_of_exactKey h.2⟩⟩
  | some g =>
    rw [hfil] at hc1 hc2 e1 e2
    cases e1
    cases e2
    exact ⟨by simp, filtered_represented hsub g hc2 hc1⟩

/-- Three points: `x` with the values 1 and 2 at statement 7, and no variable at statement 9
of file 3. -/
def pkTrace : Trace :=
  ⟨[[120], [105]], [⟨1, .unsigned, 8⟩], [⟨0, 7, [], [qVar 0 0 1], []⟩, ⟨1, 7, [], [qVar 0 0 2], []⟩,
    ⟨2, BitVec.ofNat 64 (packId (some 3) 9), [], [], []⟩]⟩

/-- All variables of type `i`. -/
def pkQuery : LQuery := ⟨[[[105]]], .nullPred, [], 0, none, none⟩

/-- The values are not those of the query without `pick`: that returns the first of two
bindings of the same variable at the same statement, with `pick` the second may be
returned. -/
theorem C93_values :
    (lispQuery qEnv (fun s n => s.toNat % n) (plainEval exFloats) pkTrace (pkQuery.picking false 4) [] () >>=
      fun r => .ok (r.1.map fun p => p.scopes.map LVar.value)) = .ok [[.int 1]] ∧
    (lispQuery qEnv (fun s n => s.toNat % n) (plainEval exFloats) pkTrace (pkQuery.picking true 4) [] () >>=
      fun r => .ok (r.1.map fun p => p.scopes.map LVar.value)) = .ok [[.int 2]] := by
  refine ⟨by decide +kernel, by decide +kernel⟩

/-- The random number 0, which `random` may return, is the seed of queries without `pick`:
all results are returned, also those of several points. -/
theorem C93_zero :
    (∀ {σ : Type} (env : Env) (rng : U32 → Nat → Nat) (ev : Evaluator σ) (t : Trace) (q : LQuery) (s : σ)
      (cache : PointsCache) (other : Nat),
      lispQuery env rng ev t (q.picking true 0) cache s = lispQuery env rng ev t (q.picking false other) cache s) ∧
    (lispQuery qEnv (fun s n => s.toNat % n) (plainEval exFloats) fTrace (pkQuery.picking true 0) [] () >>=
      fun r => .ok (r.1.map LPoint.c)) = .ok [12, 13, 14] := by
  refine ⟨fun _ _ _ _ _ _ _ _ => rfl, by decide +kernel⟩

-- The other points: a result for 6, none for 5; for 0 all.
example : ([6, 5, 0].map fun n =>
      lispQuery qEnv (fun s n => s.toNat % n) (plainEval exFloats) pkTrace (pkQuery.picking true n) [] () >>=
        fun r => .ok (r.1.map fun p => p.scopes.map LVar.value)) = [.ok [[.int 1]], .ok [], .ok [[.int 1]]] ∧
    (lispQuery qEnv (fun s n => s.toNat % n) (plainEval exFloats) fTrace (pkQuery.picking true 1) [] () >>=
      fun r => .ok (r.1.map LPoint.c)) = .ok [13] := by
  refine ⟨by decide +kernel, by decide +kernel⟩

-- The hypotheses of `C93_one_point` and `C93_represented` hold here, with and without file.
example : FilesTold pkTrace none ∧ FilesTold pkTrace (some 3) ∧ (queriedPoints pkTrace (some 3)).length = 1 ∧
    ∀ random n, 0 < n → (fun (s : U32) n => s.toNat % n) (BitVec.ofNat 32 random) n < n := by
  refine ⟨by simp [FilesTold], ?_, by decide +kernel, fun random n hn => Nat.mod_lt _ hn⟩
  intro f hf
  cases hf
  refine ⟨by omega, ?_⟩
  decide +kernel

/-- Both databases on the same points: if they pick the same point, they return the same
results up to case, except for those of the binary one in which two free variables are
bound to the same variable. -/
theorem C93_agree (fs : FloatSys) (env : Env) (rng : U32 → Nat → Nat) (t : Trace) (types : List (List U8))
    (lpts : List LPoint) (q q' : LQuery) (f : Form) (random : Nat) (h0 : 0 < random) (h32 : random < 2 ^ 32)
    (hrng : ∀ n, 0 < n → rng (BitVec.ofNat 32 random) n < n) (hpts : t.points ≠ [])
    (htypes : getTypes t = .ok types) (hnodup : types.Nodup)
    (hsmall : types.length < 2 ^ 32) (hconv : lispPoints t t.points = .ok lpts) (hne : q.varTypes ≠ [])
    (hknown : ∀ ts ∈ q.varTypes, ∀ n ∈ ts, n ∈ types) (hsoft : q.soft = [])
    (hfile : q.file = none) (hcan : ∀ p ∈ t.points, ∀ v ∈ p.vars, v.Canonical)
    (hform : ReadsForm q.varTypes.length q.hard f)
    (hsize : ∀ p ∈ t.points, p.vars.length < 2 ^ 32 ∧ ∀ fvs, freeVars types q.varTypes = .ok fvs →
      combinations fvs p.vars < 2 ^ 64 ∧ env.canAlloc (24 * combinations fvs p.vars) = true)
    (hsame : q'.varTypes = q.varTypes) (hsoft' : q'.soft = [])
    (hfilter : ∀ p ∈ t.points, ∀ (l : LPoint) (b : List Nat), lispPoint t p = .ok l →
      IsNamedBinding q.varTypes l.scopes b →
      (q'.filter.getD fun _ => true) (namedResult l b) =
        (f.holds (lowFloat fs) (boundVars p.vars b) && (q.filter.getD fun _ => true) (namedResult l b))) :
    ∃ (k : Nat) (l : LPoint), lpts[k]? = some l ∧ ∀ n, n % lpts.length = k →
      ∃ rs c ls, lispQuery env rng (plainEval fs) t (q.picking true random) [] () = .ok (rs, c, ()) ∧
        sexpQueryAt lpts q' (some n) = .ok ls ∧
        (∀ x ∈ ls, ∃ r ∈ rs, foldedKey r = foldedKey x) ∧
        (∀ r ∈ rs, (∃ x ∈ ls, foldedKey x = foldedKey r) ∨
          ∃ b : List Nat, IsNamedBinding q.varTypes l.scopes b ∧ ¬ b.Nodup ∧ r = namedResult l b) := by
  obtain ⟨choice, c1, c2, c3⟩ := C93_one_point env rng (plainEval fs) t random h0 h32 hrng none (by simp [FilesTold])
  cases choice with
  | none => exact absurd (c1.mp rfl) hpts
  | some p =>
    have hp : p ∈ t.points := c2 p rfl
    obtain ⟨k, hk, ek⟩ := List.getElem_of_mem hp
    have hlen := (lispPoints_f hconv).1
    have hkl : k < lpts.length := by omega
    have hl : lispPoint t p = .ok lpts[k] :=
      (lispPoints_f hconv).2 k p lpts[k] (by rw [List.getElem?_eq_getElem hk, ek]) (List.getElem?_eq_getElem hkl)
    refine ⟨k, lpts[k], List.getElem?_eq_getElem hkl, fun n hn => ?_⟩
    have hl1 : ∀ (ps : List Point) (x : Point), lispPoint { t with points := ps } x = lispPoint t x := by
      intro ps x
      simp only [lispPoint, lispVars_with]
    have hconv1 : lispPoints { t with points := [p] } [p] = .ok [lpts[k]] := by
      simp only [lispPoints, hl1, hl, Res.ok_bind, Res.pure_eq]
    obtain ⟨rs, c, ls, a1, a2, a3, a4⟩ := C58_agree fs env rng { t with points := [p] } types [lpts[k]]
      { q.picking false random with file := none } q' f htypes hnodup hsmall hconv1 hne hknown hsoft rfl rfl
      (fun x hx => hcan x (by rw [List.mem_singleton.mp hx]; exact hp)) hform
      (fun x hx => hsize x (by rw [List.mem_singleton.mp hx]; exact hp)) hsame hsoft'
      (fun x hx l b e1 e2 => hfilter x (by rw [List.mem_singleton.mp hx]; exact hp) l b ((hl1 _ _).symm.trans e1) e2)
    have hq := c3 q () hfile
    simp only [Option.toList_some] at hq
    rw [a1] at hq
    obtain ⟨⟨rs', c', _⟩, b1, b2⟩ := Res.bind_eq_ok.mp hq
    cases b2
    refine ⟨rs, c', ls, b1, ?_, a3, fun r hr => ?_⟩
    · simp only [sexpQueryAt, hn, List.getElem?_eq_getElem hkl, Option.toList_some]
      exact a2
    · rcases a4 r hr with h | ⟨l, hl, b, e1, e2, e3⟩
      · exact .inl h
      · rw [List.mem_singleton.mp hl] at e1 e3
        exact .inr ⟨b, e1, e2, e3⟩

/-- `C93_agree` applied to `(< v0 v1)` on `cTrace`, where 5 is the random number. -/
example : ∃ (k : Nat) (l : LPoint),
    [(⟨7, none, [⟨[120], [105], .int 1, none⟩, ⟨[88], [105], .int 5, none⟩], []⟩ : LPoint)][k]? = some l ∧
    ∃ rs c ls, lispQuery qEnv (fun _ _ => 0) (plainEval exFloats) cTrace (cQuery.picking true 5) [] () = .ok (rs, c, ()) ∧
      sexpQueryAt [⟨7, none, [⟨[120], [105], .int 1, none⟩, ⟨[88], [105], .int 5, none⟩], []⟩]
        { cQuery with filter := some increasing } (some k) = .ok ls ∧
      (∀ x ∈ ls, ∃ r ∈ rs, foldedKey r = foldedKey x) := by
  have h := C93_agree exFloats qEnv (fun _ _ => 0) cTrace [[105]]
    [⟨7, none, [⟨[120], [105], .int 1, none⟩, ⟨[88], [105], .int 5, none⟩], []⟩] cQuery
    { cQuery with filter := some increasing } (.cmp .lt (.value 0) (.value 1)) 5 (by omega) (by omega)
    (fun n hn => hn) (by decide)
    (by decide +kernel) (by decide) (by decide) (by decide +kernel) (by decide) (by decide) rfl rfl
    (by decide +kernel) qLess_reads ?_ rfl rfl ?_
  · obtain ⟨k, l, hk, h⟩ := h
    have hlt := (List.getElem?_eq_some_iff.mp hk).1
    obtain ⟨rs, c, ls, h1, h2, h3, _⟩ := h k (Nat.mod_eq_of_lt hlt)
    exact ⟨k, l, hk, rs, c, ls, h1, h2, h3⟩
  · intro p hp
    refine ⟨?_, fun fvs hf => ?_⟩
    · revert p; decide
    · have : fvs = [[0], [0]] := by
        have h : freeVars [[105]] cQuery.varTypes = .ok [[0], [0]] := by decide +kernel
        rw [h] at hf
        cases hf
        rfl
      subst this
      revert p
      decide +kernel
  · intro p hp l b hl hb
    have hp : p = ⟨0, 7, [], [qVar 0 0 1, qVar 2 0 5], []⟩ := by simpa [cTrace] using hp
    have hl' : lispPoint cTrace p =
        .ok ⟨7, none, [⟨[120], [105], .int 1, none⟩, ⟨[88], [105], .int 5, none⟩], []⟩ := by
      subst hp; decide +kernel
    rw [hl'] at hl
    cases hl
    obtain ⟨hlen, hb⟩ := hb
    match b, hlen with
    | [i, j], _ =>
      obtain ⟨v, hv, _⟩ := hb 0 _ i rfl rfl
      obtain ⟨w, hw, _⟩ := hb 1 _ j rfl rfl
      have hi := (List.getElem?_eq_some_iff.mp hv).1
      have hj := (List.getElem?_eq_some_iff.mp hw).1
      simp only [List.length_cons, List.length_nil] at hi hj
      subst hp
      have hi : i = 0 ∨ i = 1 := by omega
      have hj : j = 0 ∨ j = 1 := by omega
      rcases hi with rfl | rfl <;> rcases hj with rfl | rfl <;> decide +kernel

end TraceDB
