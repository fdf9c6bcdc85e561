import Verif.Proofs.EndToEndTables
import Verif.Props.PredicateMemory
/-
C77: queries answer about the states of the program.
-/
namespace TraceDB

/-- **C77.**  Take any single-file program, instrument it, run it through any sequence
of statements in any states that fit the types, load the trace, and query it with any
predicate of the documented grammar, any free variables with types that are recorded
somewhere, with or without file and filter.  If types that print alike are treated alike,
the query succeeds; each result is a statement visited, with variables recorded there of
the types asked for, such that the predicate is true of their values in that state; and
for each such choice there is a result with the same statement and names (up to case if
there is a filter). -/
theorem C77_queries (fs : FloatSys) (env : Env) (pick : U32 → Nat → Nat) (io : Bool) (cf : CFloat) (mem : CMem)
    (sites : List Site) (gens : List GenSite) (tabs : Tables)
    (hok : ∀ x ∈ sites, x.Ok) (hins : instrumentSites .equal sites Tables.empty = (gens, tabs))
    (hn : tabs.emitNames.length < 2 ^ 32) (hch : (tabs.emitNames.map fun n => n.length + 1).sum < 2 ^ 63)
    (hr : (tabs.emitTypes .equal).length < 2 ^ 32)
    (visits : List Visit) (calls : List (U64 × List RtCall)) (hruns : AllRel (Visit.RunsAs cf mem gens) visits calls)
    (hfit : ∀ v ∈ visits, v.Fits cf sites) (hal : ∀ n, env.canAlloc n = true) (hone : OneTypePerName sites)
    (names : List Nat) (s : SExp) (f : Form) (h : PHeap) (hf : SexpPredicate names s f)
    (varTypes : List (List (List U8))) (hlen : names.length = varTypes.length) (hl : names.length < 2 ^ 64)
    (hne : varTypes ≠ []) (hknown : ∀ ts ∈ varTypes, ∀ n ∈ ts, TypeRecorded sites n) (file : Option Nat)
    (hfile : ∀ i, file = some i → i < 2 ^ 23 ∧ ∀ x ∈ sites, x.file ≠ none ∨ (0 < i ∧ x.ast < 2 ^ 40))
    (filter : Option (LPoint → Bool)) (hq : QueryFits sites visits varTypes) :
    ∃ bs t ptr h' p rs c,
      rtRun cf mem tabs.emitNames ((tabs.emitTypes .equal).map TypeRow.desc) calls = .ok bs ∧
      readTrace env 0 (gs io bs) = .ok t ∧
      buildPredicate names s h = some (ptr, h') ∧ createPredicateObj h' ptr = .ok p ∧
      lispQuery env pick (plainEval fs) t ⟨varTypes, p, [], 0, file, filter⟩ [] () = .ok (rs, c, ()) ∧
      (∀ r ∈ rs, ProgramAnswers fs sites visits varTypes file filter f r) ∧
      (filter = none → ∀ a, ProgramAnswers fs sites visits varTypes file filter f a → ∃ r ∈ rs, exactKey r = exactKey a) ∧
      (filter ≠ none →
        (∀ a, ProgramAnswers fs sites visits varTypes file filter f a → ∃ r ∈ rs, foldedKey r = foldedKey a) ∧
        rs.Pairwise fun a b => foldedKey a ≠ foldedKey b) := by
  obtain ⟨bs, t, ls, b1, b2, n1, t1, l1, l2, d1⟩ := instrumented_trace env io cf mem hok hins hn hch hr hruns hfit hal
  obtain ⟨tn, types, ty1, ty2, ty3, ty4⟩ := tablesFor hok hins hn
  obtain ⟨ptr, new, _, e, hp, _, hread⟩ := sexpPredicate_built names s f h hf hl
  rw [hlen] at hread
  have hshown : ∀ l ∈ ls, ∃ v ∈ visits, v.Shown .equal sites l := l2.mem_right
  have hids : ∀ i, file = some i → i < 2 ^ 23 ∧
      ∀ p ∈ t.points, (unpackF p.statement).isSome ∨ (0 < i ∧ p.statement.toNat < 2 ^ 40) := by
    intro i hi
    obtain ⟨h1, h2⟩ := hfile i hi
    refine ⟨h1, fun p hp => ?_⟩
    obtain ⟨l, hl, hpl⟩ := l1.mem_left p hp
    obtain ⟨v, _, x, hx, hc, hxf, _⟩ := hshown l hl
    obtain ⟨e1, e2, _⟩ := lispPoint_f hpl
    rw [← e1, hxf]
    rcases h2 x (List.mem_of_getElem? hx) with h | ⟨h, h'⟩
    · left
      cases hf : x.file with
      | none => exact absurd hf h
      | some j => rfl
    · cases hf : x.file with
      | some j => exact .inl rfl
      | none =>
        right
        refine ⟨h, ?_⟩
        have hnone : unpackF p.statement = none := by rw [← e1, hxf, hf]
        have hc' : unpackC p.statement = x.ast := by rw [← e2, hc]
        unfold unpackF at hnone
        unfold unpackC at hc'
        split at hnone
        · cases hnone
        · rename_i hs
          rw [if_neg hs] at hc'
          omega
  obtain ⟨rs, c, q1, q2, q3, q4⟩ := query_file fs env pick (t := t) (types := types) (by rw [n1]; exact tn)
    (by unfold getTypes; rw [n1, t1]; exact ty1) (ty2 hone) (by rw [ty3]; exact hr) l1 d1 (accepted_canonical b2)
    (q := ⟨varTypes, transl names s, [], 0, file, filter⟩) (f := f) hne (fun ts hts n hn' => ty4 n (hknown ts hts n hn'))
    rfl rfl hids hread hal (fun l hl => by
      obtain ⟨v, hv, hs⟩ := hshown l hl
      exact hq v hv l hs)
  have hiff : ∀ r, PointsAnswer fs (ls.filter fun l => decide (∀ i, file = some i → l.f = some i))
      ⟨varTypes, transl names s, [], 0, file, filter⟩ f r ↔ ProgramAnswers fs sites visits varTypes file filter f r := by
    intro r
    constructor
    · rintro ⟨l, hl, b, h1, h2, h3, rfl⟩
      obtain ⟨hl, hlf⟩ := List.mem_filter.mp hl
      obtain ⟨v, hv, hs⟩ := hshown l hl
      exact ⟨v, hv, l, b, hs, of_decide_eq_true hlf, h1, h2, h3, rfl⟩
    · rintro ⟨v, hv, l, b, hs, hlf, h1, h2, h3, rfl⟩
      obtain ⟨l', hl', hs'⟩ := l2.mem_left v hv
      rw [visit_shown_unique hs hs'] at hlf h1 h2 h3 ⊢
      exact ⟨l', List.mem_filter.mpr ⟨hl', decide_eq_true hlf⟩, b, h1, h2, h3, rfl⟩
  exact ⟨bs, t, ptr, h ++ new, transl names s, rs, c, b1, b2, e, createPredicateObj_ok hp, q1,
    fun r hr => (hiff r).mp (q2 r hr), fun hf a ha => q3 hf a ((hiff a).mpr ha),
    fun hf => ⟨fun a ha => (q4 hf).1 a ((hiff a).mpr ha), (q4 hf).2⟩⟩

/-! A program with `int x, y` at one statement, visited twice, and the query for two
variables of type `int` of which the first is less than the second. -/

def endX : ScopeVar := insX
def endY : ScopeVar := { insX with name := ascii "y" }
def endSites : List Site := [⟨none, 9, [(false, [endX, endY])]⟩]
def endState (x y : Int) : CEnv := ⟨fun n => if n = ascii "x" then .signed .four x else .signed .four y, fun _ => []⟩
def endVisits : List Visit := [⟨0, endState (-2) 5⟩, ⟨0, endState 7 5⟩]
def endGens : List GenSite := [⟨9, [.variables [⟨1, 0, 4, .signed, endX⟩, ⟨2, 0, 4, .signed, endY⟩]]⟩]
def endNames : List Name := [ascii "int", ascii "x", ascii "y"]
def endRows : List TypeRow := [⟨0, .signed, 4⟩]
def endCalls : List (U64 × List RtCall) :=
  [(9, [.variables 2 [.gp 1, .gp 0, .gp 4, .gp 1, .gp 0xfffffffe, .gp 2, .gp 0, .gp 4, .gp 1, .gp 5]]),
   (9, [.variables 2 [.gp 1, .gp 0, .gp 4, .gp 1, .gp 7, .gp 2, .gp 0, .gp 4, .gp 1, .gp 5]])]
def endSexp : SExp := .call .lt [.call .vValue [.sym 0], .call .vValue [.sym 1]]
def endForm : Form := .cmp .lt (.value 0) (.value 1)
def endTypes : List (List (List U8)) := [[ascii "int"], [ascii "int"]]

theorem endSites_ok : ∀ x ∈ endSites, x.Ok := by
  have hx : endX.Ok := ⟨⟨by simp [endX, insX], fun s hs => Specifier.plain_of (by revert s; decide +kernel)⟩,
    by decide +kernel, by decide +kernel⟩
  have hy : endY.Ok := ⟨⟨by simp [endY, insX], fun s hs => Specifier.plain_of (by revert s; decide +kernel)⟩,
    by decide +kernel, by decide +kernel⟩
  intro x hx'
  rw [List.mem_singleton.mp hx']
  refine ⟨?_, by simp, by simp⟩
  intro part hp v hv
  rw [List.mem_singleton.mp hp] at hv
  simp only [List.mem_cons, List.not_mem_nil, or_false] at hv
  rcases hv with rfl | rfl <;> assumption

theorem endSites_code : (instrumentSites .equal endSites Tables.empty).1 = endGens ∧
    (instrumentSites .equal endSites Tables.empty).2.emitNames = endNames ∧
    (instrumentSites .equal endSites Tables.empty).2.emitTypes .equal = endRows := by
  refine ⟨by decide +kernel, by decide +kernel, by decide +kernel⟩

theorem endCalls_ok : AllRel (Visit.RunsAs exFloat exMem endGens) endVisits endCalls := by
  have c : ∀ (w : U64) (v : U32), w.setWidth 32 = v → (Slot.gp w).Carries32 v := fun _ _ h => Slot.carries h
  refine .cons ⟨_, rfl, rfl, .cons ⟨_, _, rfl, rfl, ?_⟩ .nil⟩ (.cons ⟨_, rfl, rfl, .cons ⟨_, _, rfl, rfl, ?_⟩ .nil⟩ .nil)
  · exact .cons (l := [_, _, _, _, _]) ⟨_, _, _, _, _, rfl, c _ _ (by decide), c _ _ (by decide), c _ _ (by decide),
      c _ _ (by decide), c _ _ (by decide)⟩ (.cons (l := [_, _, _, _, _]) ⟨_, _, _, _, _, rfl, c _ _ (by decide),
      c _ _ (by decide), c _ _ (by decide), c _ _ (by decide), c _ _ (by decide)⟩ .nil)
  · exact .cons (l := [_, _, _, _, _]) ⟨_, _, _, _, _, rfl, c _ _ (by decide), c _ _ (by decide), c _ _ (by decide),
      c _ _ (by decide), c _ _ (by decide)⟩ (.cons (l := [_, _, _, _, _]) ⟨_, _, _, _, _, rfl, c _ _ (by decide),
      c _ _ (by decide), c _ _ (by decide), c _ _ (by decide), c _ _ (by decide)⟩ .nil)

theorem end_x (x y : Int) : (endState x y).scalar endX.name = .signed .four x := by
  simp only [endState]
  rw [if_pos (by decide +kernel)]

theorem end_y (x y : Int) : (endState x y).scalar endY.name = .signed .four y := by
  simp only [endState]
  rw [if_neg (by decide +kernel)]

theorem endVisits_fit : ∀ v ∈ endVisits, v.Fits exFloat endSites := by
  have key : ∀ x y : Int, -100 ≤ x ∧ x < 100 → -100 ≤ y ∧ y < 100 → Visit.Fits exFloat endSites ⟨0, endState x y⟩ := by
    intro x y hx hy s hs part hp v hv
    simp only [endSites, List.getElem?_cons_zero, Option.some.injEq] at hs
    subst hs
    rw [List.mem_singleton.mp hp] at hv ⊢
    simp only [List.mem_cons, List.not_mem_nil, or_false] at hv
    rcases hv with rfl | rfl
    · refine ⟨fun _ => ⟨.signed "int" .four x rfl (by unfold CType.Named; decide +kernel) (by decide +kernel), ?_, trivial⟩,
        fun _ => by simp [endState]⟩
      rw [end_x]
      simp only [CValue.InRange, IntSize.bytes]
      omega
    · refine ⟨fun _ => ⟨.signed "int" .four y rfl (by unfold CType.Named; decide +kernel) (by decide +kernel), ?_, trivial⟩,
        fun _ => by simp [endState]⟩
      rw [end_y]
      simp only [CValue.InRange, IntSize.bytes]
      omega
  intro v hv
  simp only [endVisits, List.mem_cons, List.not_mem_nil, or_false] at hv
  rcases hv with rfl | rfl
  · exact key _ _ (by decide) (by decide)
  · exact key _ _ (by decide) (by decide)

theorem no_text {v : ScopeVar} : ¬ v.AsText false := fun h => Bool.noConfusion h.1

theorem end_scalar : endX.AsScalar false ∧ endY.AsScalar false := by
  refine ⟨⟨no_text, .signed .four 0, ?_⟩, ⟨no_text, .signed .four 0, ?_⟩⟩ <;>
  exact .signed "int" .four 0 rfl (by unfold CType.Named; decide +kernel) (by decide +kernel)

theorem end_shown (x y : Int) (l : LPoint) (h : Visit.Shown .equal endSites ⟨0, endState x y⟩ l) :
    l.scopes = [⟨ascii "x", ascii "int", .int x, none⟩, ⟨ascii "y", ascii "int", .int y, none⟩] := by
  have h' : Visit.Shown .equal endSites ⟨0, endState x y⟩
      ⟨9, none, [⟨ascii "x", ascii "int", .int x, none⟩, ⟨ascii "y", ascii "int", .int y, none⟩], []⟩ := by
    have et : typeTraceString endX.type = ascii "int" ∧ typeTraceString endY.type = ascii "int" := by
      refine ⟨by decide +kernel, by decide +kernel⟩
    refine ⟨_, rfl, rfl, rfl, rfl, [[_, _]], rfl, .cons ⟨[endX, endY], [], [_, _], [], rfl,
      .keep end_scalar.1 (.keep end_scalar.2 .nil), .skip no_text (.skip no_text .nil),
      .cons ⟨?_, ?_, ?_, rfl⟩ (.cons ⟨?_, ?_, ?_, rfl⟩ .nil), .nil⟩ .nil⟩
    · exact beq_self_eq_true _
    · rw [et.1]; exact beq_self_eq_true _
    · exact congrArg CValue.lisp (end_x x y).symm
    · exact beq_self_eq_true _
    · rw [et.2]; exact beq_self_eq_true _
    · exact congrArg CValue.lisp (end_y x y).symm
  rw [visit_shown_unique h h']

/-- The hypotheses of `C77_queries` hold for this program and query. -/
example : ∃ gens tabs, instrumentSites .equal endSites Tables.empty = (gens, tabs) ∧ (∀ x ∈ endSites, x.Ok) ∧
    tabs.emitNames.length < 2 ^ 32 ∧ (tabs.emitNames.map fun n => n.length + 1).sum < 2 ^ 63 ∧
    (tabs.emitTypes .equal).length < 2 ^ 32 ∧ AllRel (Visit.RunsAs exFloat exMem gens) endVisits endCalls ∧
    (∀ v ∈ endVisits, v.Fits exFloat endSites) ∧ OneTypePerName endSites ∧ SexpPredicate [0, 1] endSexp endForm ∧
    (∀ ts ∈ endTypes, ∀ n ∈ ts, TypeRecorded endSites n) ∧ QueryFits endSites endVisits endTypes := by
  refine ⟨(instrumentSites .equal endSites Tables.empty).1, (instrumentSites .equal endSites Tables.empty).2, rfl,
    endSites_ok, by rw [endSites_code.2.1]; decide +kernel, by rw [endSites_code.2.1]; decide +kernel,
    by rw [endSites_code.2.2]; decide +kernel, by rw [endSites_code.1]; exact endCalls_ok, endVisits_fit, ?_, ?_, ?_, ?_⟩
  · intro x hx part hp v hv y hy part' hp' w hw _ _ _
    rw [List.mem_singleton.mp hx] at hp
    rw [List.mem_singleton.mp hy] at hp'
    rw [List.mem_singleton.mp hp, List.mem_singleton.mp hp']
    exact ⟨⟨fun h => absurd h no_text, fun h => absurd h no_text⟩, fun h => absurd h no_text⟩
  · have hx : IsVar [0, 1] 0 0 := ⟨rfl, fun j hj => absurd hj (by omega)⟩
    have hy : IsVar [0, 1] 1 1 := ⟨rfl, fun j hj => by
      have : j = 0 := by omega
      subst this
      simp⟩
    exact .form (.cmp .lt (.value hx) (.value hy))
  · intro ts hts n hn
    simp only [endTypes, List.mem_cons, List.not_mem_nil, or_false, or_self] at hts
    rw [hts, List.mem_singleton] at hn
    subst hn
    exact ⟨_, List.mem_singleton.mpr rfl, _, List.mem_singleton.mpr rfl, endX, by simp, .inl end_scalar.1, by decide +kernel⟩
  · intro v hv l hl
    have hsc : ∃ x y, l.scopes = [⟨ascii "x", ascii "int", .int x, none⟩, ⟨ascii "y", ascii "int", .int y, none⟩] := by
      simp only [endVisits, List.mem_cons, List.not_mem_nil, or_false] at hv
      rcases hv with rfl | rfl
      · exact ⟨_, _, end_shown _ _ l hl⟩
      · exact ⟨_, _, end_shown _ _ l hl⟩
    obtain ⟨x, y, hsc⟩ := hsc
    rw [hsc]
    refine ⟨by simp, ?_, ?_⟩
    · simp only [choices, endTypes]
      generalize ascii "int" = t
      simp
    · intro z hz _ _ _ b
      simp only [List.mem_cons, List.not_mem_nil, or_false] at hz
      rcases hz with rfl | rfl <;> simp

/-- The names and values in the results of a query on the trace of a run. -/
def endAnswers (names : List Name) (rows : List TypeRow) (calls : List (U64 × List RtCall)) (vars : List Nat) (s : SExp)
    (varTypes : List (List (List U8))) : Option (Res (List (List (Name × LValue)))) :=
  (buildPredicate vars s []).map fun b => do
    let bs ← rtRun exFloat exMem names (rows.map TypeRow.desc) calls
    let t ← readTrace exEnv 0 (gs false bs)
    let p ← createPredicateObj b.2 b.1
    let r ← lispQuery qEnv (fun _ _ => 0) (plainEval exFloats) t ⟨varTypes, p, [], 0, none, none⟩ [] ()
    pure (r.1.map fun l => l.scopes.map fun v => (v.name, v.value))

/-- What the query returns: `x` and `y` from the first visit, `y` and `x` from the
second one. -/
example : endAnswers endNames endRows endCalls [0, 1] endSexp endTypes =
    some (.ok [[(ascii "x", .int (-2)), (ascii "y", .int 5)], [(ascii "y", .int 5), (ascii "x", .int 7)]]) := by
  decide +kernel

/-! What the hypotheses exclude. -/

/-- Two `char` pointers printed as strings whose types get different marks: the query
for their type finds only the first one, although it puts no condition on them. -/
theorem C77_split_types (sites : List Site)
    (hs : sites = [⟨none, 1, [(true, [insS, { insS with name := ascii "t", mark := 4 }])]⟩]) :
    ¬ OneTypePerName sites ∧
    let r := instrumentSites .equal sites Tables.empty
    r.1.map (·.calls) = [[.blobs [⟨1, 0, insS⟩, ⟨2, 1, { insS with name := ascii "t", mark := 4 }⟩]]] ∧
    endAnswers r.2.emitNames (r.2.emitTypes .equal)
      [(1, [.blobs 2 [.gp 1, .gp 0, .gp 2, .gp 0x2000, .gp 2, .gp 1, .gp 2, .gp 0x2000]])] [0] .nil [[ascii "*const char"]] =
      some (.ok [[(ascii "s", .blob [104, 105])]]) := by
  subst hs
  refine ⟨fun h => ?_, by decide +kernel, by decide +kernel⟩
  have ht : insS.AsText true := asText_iff.mpr (by decide +kernel)
  have ht' : ScopeVar.AsText true { insS with name := ascii "t", mark := 4 } := asText_iff.mpr (by decide +kernel)
  have := (h _ (List.mem_singleton.mpr rfl) _ (List.mem_singleton.mpr rfl) insS (by simp) _ (List.mem_singleton.mpr rfl) _
    (List.mem_singleton.mpr rfl) { insS with name := ascii "t", mark := 4 } (by simp) (.inr ht) (.inr ht') rfl).2 ht
  exact absurd this (by decide)

/-- A variable `double d` with the value 1.0: the query for variables equal to 1.0
finds nothing. -/
theorem C77_doubles (d : ScopeVar) (hd : d = ⟨ascii "d", ⟨[], [⟨.base, ascii "double"⟩]⟩, 0⟩) :
    let r := instrumentSites .equal [⟨none, 1, [(false, [d])]⟩] Tables.empty
    r.1.map (·.calls) = [[.variables [⟨1, 0, 8, .float, d⟩]]] ∧
    endAnswers r.2.emitNames (r.2.emitTypes .equal)
      [(1, [.variables 1 [.gp 1, .gp 0, .gp 8, .gp 2, .fp 0x3FF0000000000000]])] [0]
      (.call .equal [.call .vValue [.sym 0], .float 0x3FF0000000000000]) [[ascii "double"]] = some (.ok []) ∧
    endAnswers r.2.emitNames (r.2.emitTypes .equal)
      [(1, [.variables 1 [.gp 1, .gp 0, .gp 8, .gp 2, .fp 0x3FF0000000000000]])] [0] .nil [[ascii "double"]] =
        some (.ok [[(ascii "d", .double 0x3FF0000000000000)]]) := by
  subst hd
  refine ⟨by decide +kernel, by decide +kernel, by decide +kernel⟩

end TraceDB
