import Verif.Proofs.InstrumentRun
/-
C61: from the instrumentation to the trace in Lisp.
-/
namespace TraceDB

/-- **C61.**  Take any list of statements with any variables, instrument them
with one set of tables, run the resulting program through any sequence of statements in
any states that fit the types, and load what it wrote.  Then there is one trace point
per visit with the statement and file visited, and for each instrumentation function it
shows exactly the variables with a supported type, the scalars before the strings, each
with its name and type (up to case), its value and no size. -/
theorem C61_trace_shows_visits (env : Env) (io : Bool) (cf : CFloat) (mem : CMem) (te : TableTests)
    (hte : te = .equal ∨ te = .equalp) (sites : List Site) (gens : List GenSite) (tabs : Tables)
    (hok : ∀ x ∈ sites, x.Ok) (hins : instrumentSites te sites Tables.empty = (gens, tabs))
    (hn : tabs.emitNames.length < 2 ^ 32) (hch : (tabs.emitNames.map fun n => n.length + 1).sum < 2 ^ 63)
    (hr : (tabs.emitTypes te).length < 2 ^ 32)
    (visits : List Visit) (calls : List (U64 × List RtCall)) (hruns : AllRel (Visit.RunsAs cf mem gens) visits calls)
    (hfit : ∀ v ∈ visits, v.Fits cf sites) (hal : ∀ n, env.canAlloc n = true) :
    ∃ bs t ps, rtRun cf mem tabs.emitNames ((tabs.emitTypes te).map TypeRow.desc) calls = .ok bs ∧
      readTrace env 0 (gs io bs) = .ok t ∧ lispGetTrace t none = .ok ps ∧ AllRel (Visit.Shown te sites) visits ps := by
  rcases hte with rfl | rfl
  · refine instrumented TableTests.equal_lawful ?_ env io cf mem hok hins hn hch hr hruns hfit hal
    intro a b h
    rw [beq_iff_eq.mp (show (a == b) = true from h)]
    exact TableTests.equalp_lawful.type_refl b
  · exact instrumented TableTests.equalp_lawful (fun _ _ h => h) env io cf mem hok hins hn hch hr hruns hfit hal

/-- **C61, single files.**  With exact comparison of names what is shown is determined
completely: the conversion returns the only list of points that shows the visits. -/
theorem C61_single_file (env : Env) (io : Bool) (cf : CFloat) (mem : CMem) (sites : List Site) (gens : List GenSite)
    (tabs : Tables) (hok : ∀ x ∈ sites, x.Ok) (hins : instrumentSites .equal sites Tables.empty = (gens, tabs))
    (hn : tabs.emitNames.length < 2 ^ 32) (hch : (tabs.emitNames.map fun n => n.length + 1).sum < 2 ^ 63)
    (hr : (tabs.emitTypes .equal).length < 2 ^ 32)
    (visits : List Visit) (calls : List (U64 × List RtCall)) (hruns : AllRel (Visit.RunsAs cf mem gens) visits calls)
    (hfit : ∀ v ∈ visits, v.Fits cf sites) (hal : ∀ n, env.canAlloc n = true) :
    ∃ bs t, rtRun cf mem tabs.emitNames ((tabs.emitTypes .equal).map TypeRow.desc) calls = .ok bs ∧
      readTrace env 0 (gs io bs) = .ok t ∧
      ∀ ps, lispGetTrace t none = .ok ps ↔ AllRel (Visit.Shown .equal sites) visits ps := by
  obtain ⟨bs, t, ps, h1, h2, h3, h4⟩ :=
    C61_trace_shows_visits env io cf mem .equal (.inl rfl) sites gens tabs hok hins hn hch hr visits calls hruns hfit hal
  refine ⟨bs, t, h1, h2, fun ps' => ?_⟩
  rw [h3, Res.ok.injEq]
  exact ⟨fun h => h ▸ h4, fun h => allRel_unique (R := Visit.Shown .equal sites) (fun _ _ _ a b => visit_shown_unique a b) h4 h⟩

/-! A program: `int x; const char *s; struct y;` at one statement with strings printed,
then `s` as a pointer; another statement without variables. -/

def insX : ScopeVar := ⟨ascii "x", ⟨[], [⟨.base, ascii "int"⟩]⟩, 0⟩
def insS : ScopeVar := ⟨ascii "s", ⟨[.pointer], [⟨.qualifier, ascii "const"⟩, ⟨.base, ascii "char"⟩]⟩, 3⟩
def insY : ScopeVar := ⟨ascii "y", ⟨[], [⟨.base, ascii "struct"⟩]⟩, 0⟩
def insSites : List Site := [⟨some 2, 9, [(true, [insX, insS, insY]), (false, [insS])]⟩, ⟨some 1, 4, []⟩]
def insState : CEnv := ⟨fun n => if n = ascii "x" then .signed .four (-2) else .pointer 0x2000, fun _ => [104, 105]⟩
/-- The generated code. -/
def insGens : List GenSite :=
  [⟨packId (some 2) 9, [.variables [⟨1, 0, 4, .signed, insX⟩], .blobs [⟨3, 1, insS⟩],
      .variables [⟨3, 2, 8, .pointer, insS⟩]]⟩,
   ⟨packId (some 1) 4, []⟩]
def insNames : List Name := [ascii "int", ascii "x", ascii "*const char", ascii "s"]
def insRows : List TypeRow := [⟨0, .signed, 4⟩, ⟨2, .blob, 0⟩, ⟨2, .pointer, 8⟩]
/-- A run: the second statement, then the first one twice. -/
def insVisits : List Visit := [⟨1, insState⟩, ⟨0, insState⟩, ⟨0, insState⟩]
def insCall : U64 × List RtCall :=
  (BitVec.ofNat 64 (packId (some 2) 9),
   [.variables 1 [.gp 1, .gp 0xdead00000000, .gp 4, .gp 1, .gp 0xdeadbeeffffffffe],
    .blobs 1 [.gp 3, .gp 1, .gp 2, .gp 0x2000], .variables 1 [.gp 3, .gp 2, .gp 8, .gp 3, .gp 0x2000]])
def insCalls : List (U64 × List RtCall) := [(BitVec.ofNat 64 (packId (some 1) 4), []), insCall, insCall]

theorem insSites_ok : ∀ x ∈ insSites, x.Ok := by
  have hx : insX.Ok := ⟨⟨by simp [insX], fun s hs => Specifier.plain_of (by revert s; decide +kernel)⟩, by decide +kernel,
    by decide +kernel⟩
  have hs : insS.Ok := ⟨⟨by simp [insS], fun s hs => Specifier.plain_of (by revert s; decide +kernel)⟩, by decide +kernel,
    by decide +kernel⟩
  have hy : insY.Ok := ⟨⟨by simp [insY], fun s hs => Specifier.plain_of (by revert s; decide +kernel)⟩, by decide +kernel,
    by decide +kernel⟩
  intro x hx'
  simp only [insSites, List.mem_cons, List.not_mem_nil, or_false] at hx'
  rcases hx' with rfl | rfl
  · refine ⟨?_, by simp, by simp⟩
    intro part hp v hv
    simp only [List.mem_cons, List.not_mem_nil, or_false] at hp
    rcases hp with rfl | rfl <;> simp only [List.mem_cons, List.not_mem_nil, or_false] at hv
    · rcases hv with rfl | rfl | rfl <;> assumption
    · rw [hv]; exact hs
  · exact ⟨by simp, by simp, by simp⟩

theorem insSites_code : (instrumentSites .equal insSites Tables.empty).1 = insGens ∧
    (instrumentSites .equal insSites Tables.empty).2.emitNames = insNames ∧
    (instrumentSites .equal insSites Tables.empty).2.emitTypes .equal = insRows := by
  refine ⟨by decide +kernel, by decide +kernel, by decide +kernel⟩

theorem insCalls_ok : AllRel (Visit.RunsAs exFloat exMem insGens) insVisits insCalls := by
  have c : ∀ (w : U64) (v : U32), w.setWidth 32 = v → (Slot.gp w).Carries32 v := fun _ _ h => Slot.carries h
  have h0 : Visit.RunsAs exFloat exMem insGens ⟨0, insState⟩ insCall := by
    refine ⟨_, rfl, rfl, .cons ⟨_, _, rfl, rfl, ?_⟩ (.cons ⟨_, _, rfl, rfl, ?_⟩ (.cons ⟨_, _, rfl, rfl, ?_⟩ .nil))⟩
    · exact .cons (l := [_, _, _, _, _]) ⟨_, _, _, _, _, rfl, c _ _ (by decide), c _ _ (by decide), c _ _ (by decide),
        c _ _ (by decide), c _ _ (by decide)⟩ .nil
    · exact .cons (l := [_, _, _, _]) ⟨_, _, _, _, rfl, c _ _ (by decide), c _ _ (by decide), c _ _ (by decide), rfl⟩ .nil
    · exact .cons (l := [_, _, _, _, _]) ⟨_, _, _, _, _, rfl, c _ _ (by decide), c _ _ (by decide), c _ _ (by decide),
        c _ _ (by decide), rfl⟩ .nil
  exact .cons ⟨_, rfl, rfl, .nil⟩ (.cons h0 (.cons h0 .nil))

theorem insVisits_fit : ∀ v ∈ insVisits, v.Fits exFloat insSites := by
  have hx : insX.Fits exFloat true insState :=
    ⟨fun _ => ⟨.signed "int" .four (-2) rfl (by unfold CType.Named; decide +kernel) (by decide +kernel),
      by simp [insState, insX, CValue.InRange, IntSize.bytes], trivial⟩, fun _ => by simp [insState]⟩
  have hs : ∀ ps, insS.Fits exFloat ps insState := fun ps => by
    have e : insState.scalar insS.name = .pointer 0x2000 := by decide +kernel
    refine ⟨fun _ => ?_, fun _ => by simp [insState]⟩
    rw [e]
    exact ⟨.pointer _ (by simp [insS]), trivial, trivial⟩
  have hy : insY.Fits exFloat true insState := by
    have e := not_asScalar_of (v := insY) (ps := true) (by decide +kernel)
    exact ⟨fun h => absurd h e.1, fun _ => by simp [insState]⟩
  have h0 : Visit.Fits exFloat insSites ⟨0, insState⟩ := by
    intro x hx' part hp v hv
    simp only [insSites, List.getElem?_cons_zero, Option.some.injEq] at hx'
    subst hx'
    simp only [List.mem_cons, List.not_mem_nil, or_false] at hp
    rcases hp with rfl | rfl <;> simp only [List.mem_cons, List.not_mem_nil, or_false] at hv
    · rcases hv with rfl | rfl | rfl
      · exact hx
      · exact hs true
      · exact hy
    · rw [hv]; exact hs false
  intro v hv
  simp only [insVisits, List.mem_cons, List.not_mem_nil, or_false] at hv
  rcases hv with rfl | rfl | rfl
  · intro x hx'
    simp only [insSites, List.getElem?_cons_succ, List.getElem?_cons_zero, Option.some.injEq] at hx'
    subst hx'
    simp
  · exact h0
  · exact h0

/-- The hypotheses hold for this program. -/
example : ∃ gens tabs, instrumentSites .equal insSites Tables.empty = (gens, tabs) ∧ (∀ x ∈ insSites, x.Ok) ∧
    tabs.emitNames.length < 2 ^ 32 ∧ (tabs.emitNames.map fun n => n.length + 1).sum < 2 ^ 63 ∧
    (tabs.emitTypes .equal).length < 2 ^ 32 ∧ AllRel (Visit.RunsAs exFloat exMem gens) insVisits insCalls ∧
    ∀ v ∈ insVisits, v.Fits exFloat insSites :=
  ⟨(instrumentSites .equal insSites Tables.empty).1, (instrumentSites .equal insSites Tables.empty).2, rfl, insSites_ok, by rw [insSites_code.2.1]; decide +kernel, by rw [insSites_code.2.1]; decide +kernel,
    by rw [insSites_code.2.2]; decide +kernel, by rw [insSites_code.1]; exact insCalls_ok, insVisits_fit⟩

/-- What is shown for it. -/
example : (rtRun exFloat exMem insNames (insRows.map TypeRow.desc) insCalls >>= fun bs =>
      readTrace exEnv 0 (gs false bs) >>= fun t => lispGetTrace t none) =
    .ok [⟨4, some 1, [], []⟩,
      ⟨9, some 2, [⟨ascii "x", ascii "int", .int (-2), none⟩, ⟨ascii "s", ascii "*const char", .blob [104, 105], none⟩,
        ⟨ascii "s", ascii "*const char", .int 0x2000, none⟩], []⟩,
      ⟨9, some 2, [⟨ascii "x", ascii "int", .int (-2), none⟩, ⟨ascii "s", ascii "*const char", .blob [104, 105], none⟩,
        ⟨ascii "s", ascii "*const char", .int 0x2000, none⟩], []⟩] := by decide +kernel

/-- In a project the name shown need not be the name of the variable: of `x` and `X`
both are shown as the one seen first, even in different files. -/
theorem C61_case_lost : ∃ x X : ScopeVar, x.name = ascii "x" ∧ X.name = ascii "X" ∧ x.Ok ∧ X.Ok ∧
    (let r := instrumentSites .equalp [⟨some 0, 1, [(false, [x])]⟩, ⟨some 1, 2, [(false, [X])]⟩] Tables.empty
     r.1.map (·.calls) = [[.variables [⟨1, 0, 4, .signed, x⟩]], [.variables [⟨1, 0, 4, .signed, X⟩]]] ∧
     r.2.emitNames = [ascii "int", ascii "x"]) := by
  refine ⟨insX, { insX with name := ascii "X" }, rfl, rfl, ?_, ?_, by decide +kernel, by decide +kernel⟩ <;>
  exact ⟨⟨by simp [insX], fun s hs => Specifier.plain_of (by revert s; decide +kernel)⟩, by decide +kernel,
    by decide +kernel⟩

/-- The code takes every pointer type over `char` for a string, however many pointers it
has: for `char **argv` it generates `strlen(argv)` and writes that many bytes of the
table of pointers. -/
theorem C61_pointer_tables_as_text (n : Nat) (hn : 0 < n) (te : TableTests) (name : Name) (mark : Nat) (s : Tables) :
    let t : CType := ⟨List.replicate n .pointer, [⟨.base, ascii "char"⟩]⟩
    formatAndSize t true = some (.blob, 0) ∧
    ∃ b, b.var = ⟨name, t, mark⟩ ∧ (instrumentExprs te true [⟨name, t, mark⟩] s).1 = [.blobs [b]] := by
  intro t
  have hc : t.isCString = true := by
    unfold CType.isCString
    rw [Bool.and_eq_true]
    refine ⟨by show (baseTypename ⟨[], [⟨.base, ascii "char"⟩]⟩ == _) = true; decide +kernel, ?_⟩
    have h1 : t.isArray = false := by
      unfold CType.isArray
      simp [t]
    have h2 : t.isPointer = true := by
      unfold CType.isPointer
      simp only [t, List.any_eq_true, List.mem_replicate]
      exact ⟨.pointer, ⟨by omega, rfl⟩, rfl⟩
    rw [h1, h2]
    rfl
  have hf : formatAndSize t true = some (.blob, 0) := by
    unfold formatAndSize CType.isString
    rw [hc]
    rfl
  refine ⟨hf, ⟨((s.request te (.type (ScopeVar.key ⟨name, t, mark⟩ true) .blob 0)).2.request te (.name name)).1,
    (s.request te (.type (ScopeVar.key ⟨name, t, mark⟩ true) .blob 0)).1, ⟨name, t, mark⟩⟩, rfl, ?_⟩
  unfold instrumentExprs
  simp only [genExprs, hf, hc, Bool.and_self, if_true]
  rfl

example : formatAndSize ⟨[.pointer, .pointer], [⟨.base, ascii "char"⟩]⟩ true = some (.blob, 0) :=
  (C61_pointer_tables_as_text 2 (by decide) .equal [] 0 Tables.empty).1

/-- If the object that marks a string type differs between declarations (the code puts
whatever `xor` returns into the key), there are two types with the same name, and then
queries for that name miss the variables of the second one
(`C58_shared_type_names`). -/
theorem C61_marks_split_types : (instrumentSites .equal
    [⟨none, 1, [(true, [insS, { insS with name := ascii "t", mark := 4 }])]⟩] Tables.empty).2.emitTypes .equal =
      [⟨0, .blob, 0⟩, ⟨0, .blob, 0⟩] := by decide +kernel

end TraceDB
