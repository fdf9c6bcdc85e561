import Verif.Proofs.PredicateBuild
import Verif.Props.Query
/-
Properties of predicates on their way from Lisp to the query engine: C51 and C52.
-/
namespace TraceDB

/-- `(and (> (v/value x) -1) (not (distinct-vars x y)) (= (v/size y) (+ 12 4)))` with
x = 7 and y = 8. -/
def exSexp : SExp :=
  .call .and [.call .gt [.call .vValue [.sym 7], .int (-1)], .call .not [.call .distinctVars [.sym 7, .sym 8]],
    .call .eqSign [.call .vSize [.sym 8], .call .plus [.int 12, .int 4]]]

/-- A heap in which something is stored already. -/
def exHeap : PHeap := [⟨true, []⟩]

/-! C52 -/

/-- `free_c_predicate` on every predicate tree in memory: all blocks of the tree are
freed, no block is freed twice (that would be undefined), and all other blocks stay as
they are. -/
theorem C52_free_exact (h : PHeap) (ptr : Option Nat) (p : Pred) (bs : List Nat) (hp : PredAt h ptr p bs) :
    ∃ h', freeCPredicate ptr h = .ok h' ∧ h'.length = h.length ∧
      (∀ i ∈ bs, ∃ blk blk', h[i]? = some blk ∧ blk.live = true ∧ h'[i]? = some blk' ∧ blk'.live = false) ∧
      ∀ i, i ∉ bs → h'[i]? = h[i]? := by
  refine ⟨killed h bs, freeCPredicate_ok hp, killed_length h bs, fun i hi => ?_, fun i hi => killed_other h bs i hi⟩
  have hl := predAt_live hp i hi
  obtain ⟨blk, e, hlive⟩ := hl
  exact ⟨blk, { blk with live := false }, e, hlive, by simp [killed_getElem?, e, hi], rfl⟩

/-- Building a predicate from any accepted s-expression and freeing it: everything
allocated in between is freed, everything older is untouched. -/
theorem C52_built_and_freed (names : List Nat) (s : SExp) (h : PHeap) (hw : s.Wf names ∨ s = .nil) (hsm : s.Small) :
    ∃ ptr h' h'', buildPredicate names s h = some (ptr, h') ∧ freeCPredicate ptr h' = .ok h'' ∧
      h''.length = h'.length ∧ (∀ i, i < h.length → h''[i]? = h[i]?) ∧
      ∀ i, h.length ≤ i → i < h''.length → ∃ blk, h''[i]? = some blk ∧ blk.live = false := by
  obtain ⟨ptr, new, bs, e, hp, hm⟩ := buildPredicate_ok names s h hw hsm
  obtain ⟨h'', e', hlen, hdead, hother⟩ := C52_free_exact _ _ _ _ hp
  refine ⟨ptr, h ++ new, h'', e, e', hlen, fun i hi => ?_, fun i h1 h2 => ?_⟩
  · rw [hother i (fun hb => by have := (hm i).1 hb; omega)]
    exact List.getElem?_append_left hi
  · rw [hlen, List.length_append] at h2
    obtain ⟨_, blk, _, _, e2, e3⟩ := hdead i ((hm i).2 ⟨h1, h2⟩)
    exact ⟨blk, e2, e3⟩

/-- The example needs nine blocks. -/
example : exSexp.Wf [7, 8] ∧ exSexp.Small ∧
    (buildPredicate [7, 8] exSexp exHeap).map (fun r => (r.1, r.2.length)) = some (some 9, 10) ∧
    ((buildPredicate [7, 8] exSexp exHeap).map fun r =>
      freeCPredicate r.1 r.2 >>= fun h => .ok (h.map (·.live))) =
        some (.ok (true :: List.replicate 9 false)) := by
  refine ⟨by simp [exSexp, SExp.Wf, SExp.WfAll], by simp [exSexp, SExp.Small, SExp.SmallAll],
    by decide +kernel, by decide +kernel⟩

/-! C51 -/

/-- A predicate of the documented grammar is translated without error, the engine makes
a predicate object of it, and for every assignment of the variables the engine computes
the truth value the s-expression denotes. -/
theorem C51_translation (names : List Nat) (s : SExp) (f : Form) (h : PHeap) (hf : SexpPredicate names s f)
    (hl : names.length < 2 ^ 64) :
    ∃ ptr h' p, buildPredicate names s h = some (ptr, h') ∧ createPredicateObj h' ptr = .ok p ∧
      ∀ (fs : FloatSys) (vs : List VarInfo), (∀ v ∈ vs, v.Canonical) → names.length ≤ vs.length →
        predicateSatisfied fs vs p = .ok (f.holds (lowFloat fs) vs) := by
  obtain ⟨ptr, new, bs, e, hp, _, hr⟩ := sexpPredicate_built names s f h hf hl
  exact ⟨ptr, h ++ new, transl names s, e, createPredicateObj_ok hp,
    fun fs vs hvs hn => satisfied_reads fs hn hvs hr⟩

/-- The results of a query with such a predicate at a point: exactly the bindings for
which the s-expression is true. -/
theorem C51_query (names : List Nat) (s : SExp) (f : Form) (h : PHeap) (hf : SexpPredicate names s f)
    (variables : List FreeVar) (hnames : names.length = variables.length) (hne : variables ≠ []) (hl : names.length < 2 ^ 64) :
    ∃ ptr h' p, buildPredicate names s h = some (ptr, h') ∧ createPredicateObj h' ptr = .ok p ∧
      ∀ (fs : FloatSys) (env : Env) (point : Point), (∀ v ∈ point.vars, v.Canonical) →
        point.vars.length < 2 ^ 32 → combinations variables point.vars < 2 ^ 64 →
        env.canAlloc (24 * combinations variables point.vars) = true →
        ∃ rs, collectResults env (plainEval fs) point variables p [] () = .ok (rs, ()) ∧
          ∀ r, r ∈ rs ↔ ∃ b, IsBinding variables point.vars b ∧
            f.holds (lowFloat fs) (boundVars point.vars b) = true ∧ r = resultOf point b := by
  obtain ⟨ptr, new, bs, e, hp, _, hr⟩ := sexpPredicate_built names s f h hf hl
  rw [hnames] at hr
  exact ⟨ptr, h ++ new, transl names s, e, createPredicateObj_ok hp,
    fun fs env point hcan hsize hcount halloc =>
      C21_sound_and_complete fs env point variables _ f hne hcan hr hsize hcount halloc⟩

/-- What the example denotes. -/
def exSexpForm : Form :=
  .conj (.cmp .gt (.value 0) (.integer (-1))) (.conj (.neg (.distinct 0 1))
    (.conj (.cmp .eq (.size 1) (.add (.nat 12) (.nat 4))) .tt))

theorem exSexp_denotes : SexpPredicate [7, 8] exSexp exSexpForm := by
  have hx : IsVar [7, 8] 7 0 := ⟨rfl, fun j hj => absurd hj (by omega)⟩
  have hy : IsVar [7, 8] 8 1 := ⟨rfl, fun j hj => by
    have : j = 0 := by omega
    subst this
    simp⟩
  refine .form (.and (by decide) (.cons (.cmp .gt (.value hx) ?_) (.cons (.not (.distinct hx hy))
    (.cons (.cmp .eqSign (.size hy) (.add ?_ ?_)) .nil))))
  · exact SexpTerm.negative (n := -1) (by decide)
  · exact SexpTerm.nat (n := 12)
  · exact SexpTerm.nat (n := 4)

/-- For x = y = the pointer with 16 bytes the example is true, for x = -5 it is not. -/
example :
    ((buildPredicate [7, 8] exSexp exHeap).map fun r => createPredicateObj r.2 r.1 >>= fun p =>
      predicateSatisfied exFloats [exPointer, exPointer] p) = some (.ok true) ∧
    ((buildPredicate [7, 8] exSexp exHeap).map fun r => createPredicateObj r.2 r.1 >>= fun p =>
      predicateSatisfied exFloats [exSigned, exPointer] p) = some (.ok false) ∧
    exSexpForm.holds (lowFloat exFloats) [exPointer, exPointer] = true ∧
    exSexpForm.holds (lowFloat exFloats) [exSigned, exPointer] = false := by
  refine ⟨by decide +kernel, by decide +kernel, by decide +kernel, by decide +kernel⟩

/-- Exactly the expressions with known operators, known variables, numbers in range and
no empty list inside are accepted. -/
theorem C51_accepted_iff (names : List Nat) (s : SExp) (h : PHeap) (hsm : s.Small) :
    (∃ r, buildPredicate names s h = some r) ↔ s.Wf names ∨ s = .nil := by
  constructor
  · rintro ⟨r, e⟩
    by_cases hs : s = .nil
    · exact Or.inr hs
    · left
      cases hb : buildHelper names s h with
      | none => cases s <;> simp_all [buildPredicate]
      | some q => exact buildHelper_wf names s h q hb
  · intro hw
    obtain ⟨ptr, new, _, e, _⟩ := buildPredicate_ok names s h hw hsm
    exact ⟨_, e⟩

/-- An unknown variable, an unknown operator, and `nil` as an argument are errors. -/
example : (buildPredicate [7] (.call .vValue [.sym 8]) []).isNone ∧ (buildPredicate [7] (.call (.other 3) []) []).isNone ∧
    (buildPredicate [7] (.call .and [.nil]) []).isNone ∧ (buildPredicate [7] .nil []) = some (none, []) := by
  decide +kernel

end TraceDB
