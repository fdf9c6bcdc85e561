import Verif.Spec.AddMemory
import Verif.Spec.Archive
import Verif.Proofs.AddMemory
import Verif.Props.Archive
/-
C92: the foreign memory used to add points and to store databases from Lisp.
-/
namespace TraceDB

/-- C92.  `add-trace-points` gives C the addresses of arrays that hold what C reads from
them: whatever the points and whatever memory there is, it ends as it does when the points
are passed by value (C63), so C reads no element that was not stored, none past the end of
an array, and no block that was freed.  The blocks there were stay as they were, and no new
one is freed, whether points are added or an error is signalled. -/
theorem C92_added {μ : Type} (grow : Nat → Nat) (env : Env) (d : LispDb μ) (trace : List LPoint) (m : μ)
    (h : ApHeap) (hc : ApCounts trace) :
    ∃ new : List ApBlock, d.addPointsM grow env trace m h = (d.addPoints grow env trace m, h ++ new) ∧
      ∀ b ∈ new, b.live = true :=
  addPointsM_eq grow env d trace m h hc

/-- When points are added, a block for each point and for each name, and two more, stay
allocated; this is their size. -/
theorem C92_leak {μ : Type} (grow : Nat → Nat) (env : Env) (d d' : LispDb μ) (trace : List LPoint) (m : μ)
    (h h' : ApHeap) (hc : ApCounts trace) (e : d.addPointsM grow env trace m h = (.ok d', h')) :
    ∃ new : List ApBlock, h' = h ++ new ∧ (∀ b ∈ new, b.live = true) ∧ new.length = apBlocksOf trace ∧
      ∀ abi : Abi, apBytes abi new = apBytesOf abi trace := by
  obtain ⟨new, e1, _⟩ := addPointsM_eq grow env d trace m h hc
  rw [e1] at e
  obtain ⟨e2, e3⟩ := Prod.mk.injEq .. ▸ e
  obtain ⟨hs, hid⟩ := addPoints_ok grow env d d' trace m hc e2
  rw [addPointsM_ok grow env d trace m h hc hs hid] at e1
  have e4 := (Prod.mk.injEq .. ▸ e1 : _ ∧ _).2
  refine ⟨apNew trace h.length, by rw [← e3, e4], apNew_live _ _, apNew_length _ _, fun abi => apNew_bytes abi _ _⟩

/-- Errors leave blocks as well.  Where `pre` are the points before the first with a
variable that cannot be stored: a value that is no number is noticed before the array of
its point is allocated, a number that does not fit after that, and a statement that does
not fit only when all arrays of variables and the array of points are there.  In each case
the database is as before. -/
theorem C92_error {μ : Type} (grow : Nat → Nat) (env : Env) (d : LispDb μ) (m : μ) (h : ApHeap) :
    (∀ (pre : List LPoint) (p : LPoint) (post : List LPoint), ApCounts (pre ++ p :: post) →
      (∀ q ∈ pre, ∀ v ∈ q.scopes, v.Storable) → (∃ v ∈ p.scopes, ¬ v.Storable) →
      ∃ new : List ApBlock, d.addPointsM grow env (pre ++ p :: post) m h = (.throw .lisp, h ++ new) ∧
        (∀ b ∈ new, b.live = true) ∧ ((∀ v ∈ p.scopes, v.Numeric) → new.length = pre.length + 1) ∧
        ((∃ v ∈ p.scopes, ¬ v.Numeric) → new.length = pre.length)) ∧
    (∀ trace : List LPoint, ApCounts trace → (∀ p ∈ trace, ∀ v ∈ p.scopes, v.Storable) →
      (∃ p ∈ trace, 2 ^ 64 ≤ packId p.f p.c) →
      ∃ new : List ApBlock, d.addPointsM grow env trace m h = (.throw .lisp, h ++ new) ∧
        (∀ b ∈ new, b.live = true) ∧ new.length = trace.length + 1) := by
  have hv : ∀ (ps : List LPoint) (names : List (List U8)), ∀ b ∈ ps.map (apVarBlock names), b.live = true := by
    intro ps names b hb
    obtain ⟨p, _, rfl⟩ := List.mem_map.mp hb
    rfl
  refine ⟨fun pre p post hc hs hb => ?_, fun trace hc hs hb => ?_⟩
  · by_cases hn : ∀ v ∈ p.scopes, v.Numeric
    · obtain ⟨b, hl, e⟩ := addPointsM_numeric grow env d pre p post m h hc hs hn hb
      refine ⟨_, e, fun x hx => ?_, fun _ => by simp, fun ⟨v, hv, hnn⟩ => absurd (hn v hv) hnn⟩
      rcases List.mem_append.mp hx with hx | hx
      · exact hv _ _ x hx
      · rw [List.mem_singleton.mp hx]; exact hl
    · have hn' : ∃ v ∈ p.scopes, ¬ v.Numeric :=
        Classical.byContradiction fun hh => hn fun v hv => Classical.byContradiction fun hs => hh ⟨v, hv, hs⟩
      exact ⟨_, addPointsM_not_numeric grow env d pre p post m h hc hs hn', hv _ _, fun hh => absurd hh hn, fun _ => by simp⟩
  · obtain ⟨b, hl, e⟩ := addPointsM_statement grow env d trace m h hc hs hb
    refine ⟨_, e, fun x hx => ?_, by simp⟩
    rcases List.mem_append.mp hx with hx | hx
    · exact hv _ _ x hx
    · rw [List.mem_singleton.mp hx]; exact hl

/-- Storing a database: if `malloc` succeeds, Lisp gets a string that restores the traces
of the database, with its metadata; the block of C, with the string and a NUL after it,
stays allocated.  If `malloc` fails, C writes to `NULL`. -/
theorem C92_store {μ : Type} (canAlloc : Nat → Bool) (version : Nat) (hv : version < 2 ^ 32) (d : LispDb μ)
    (h : ApHeap) (hc : d.db.Counts) (hn : ∀ t ∈ d.db.traces, t.NulFree)
    (hs : ∀ t ∈ d.db.traces, ∀ p ∈ t.points, ∀ v ∈ p.vars, v.Sized) :
    ∃ text : List U8, (0 : U8) ∉ text ∧ (∃ db', deserializeDb (text ++ [0]) = some db' ∧ db'.traces = d.db.traces) ∧
      d.storeM canAlloc version h =
        if canAlloc (text.length + 1) then (.ok (text, d.metadata), h ++ [⟨true, .text (text ++ [0])⟩])
        else (.ub .nullDeref, h) := by
  obtain ⟨db', h1, h2⟩ := C40_round_trip version hv d.db hc hn hs
  refine ⟨archiveText version d.db.traces, archiveText_no_nul version _ hn, ⟨db', h1, h2⟩, ?_⟩
  have hlen : (archiveText version d.db.traces).length + 1 = (serializeDb version d.db).length := by
    simp [serializeDb]
  rw [hlen]
  by_cases ha : canAlloc (serializeDb version d.db).length = true
  · rw [if_pos ha, storeM_eq canAlloc version d h ha]
    unfold serializeDb
    rw [cStr_append_nul (archiveText_no_nul version _ hn)]
  · rw [if_neg ha]
    unfold LispDb.storeM
    simp only [ha, Bool.false_eq_true, if_false]

/-- C92.  Whatever a program does with a database, adding points and storing it in any
order and as often as it likes: the memory only grows.  While it goes on, each addition
leaves the blocks of `C92_leak` and each storing one block. -/
theorem C92_history {μ : Type} (grow : Nat → Nat) (env : Env) (canAlloc : Nat → Bool) (version : Nat)
    (ops : List (ApOp μ)) (hc : ∀ op ∈ ops, ∀ trace m, op = .add trace m → ApCounts trace) (d : LispDb μ) (h : ApHeap) :
    ∃ new : List ApBlock, (apRun grow env canAlloc version d h ops).2 = h ++ new ∧ (∀ b ∈ new, b.live = true) ∧
      ∀ d' xs, (apRun grow env canAlloc version d h ops).1 = .ok (d', xs) → new.length = (ops.map ApOp.blocks).sum := by
  induction ops generalizing d h with
  | nil => exact ⟨[], by simp [apRun], by simp, by simp⟩
  | cons op ops ih =>
    have ih := fun d h => ih (fun op hop => hc op (List.mem_cons_of_mem _ hop)) d h
    cases op with
    | add trace m =>
      have hct := hc _ List.mem_cons_self trace m rfl
      obtain ⟨new, e, hl⟩ := addPointsM_eq grow env d trace m h hct
      cases er : d.addPoints grow env trace m with
      | ok d1 =>
        rw [er] at e
        obtain ⟨new', e1, hl1, hlen, _⟩ := C92_leak grow env d d1 trace m h _ hct e
        obtain ⟨new2, e2, hl2, hlen2⟩ := ih d1 (h ++ new)
        have hnew := List.append_cancel_left e1
        subst hnew
        refine ⟨new ++ new2, ?_, ?_, ?_⟩
        · simp only [apRun, e, e2, List.append_assoc]
        · intro b hb
          rcases List.mem_append.mp hb with hb | hb
          · exact hl b hb
          · exact hl2 b hb
        · intro d' xs hr
          simp only [apRun, e] at hr
          simp only [List.length_append, List.map_cons, List.sum_cons, hlen, hlen2 d' xs hr]
          rfl
      | throw _ | abort | ub _ | hang =>
        rw [er] at e
        exact ⟨new, by simp only [apRun, e], hl, fun d' xs hr => by simp [apRun, e] at hr⟩
    | store =>
      by_cases ha : canAlloc (serializeDb version d.db).length = true
      · have e := storeM_eq canAlloc version d h ha
        obtain ⟨new2, e2, hl2, hlen2⟩ := ih d (h ++ [⟨true, .text (serializeDb version d.db)⟩])
        refine ⟨⟨true, .text (serializeDb version d.db)⟩ :: new2, ?_, ?_, ?_⟩
        · have : (apRun grow env canAlloc version d h (.store :: ops)).2 =
              (apRun grow env canAlloc version d (h ++ [⟨true, .text (serializeDb version d.db)⟩]) ops).2 := by
            simp only [apRun, e]
            split <;> simp_all
          rw [this, e2, List.append_assoc]
          rfl
        · intro b hb
          rcases List.mem_cons.mp hb with rfl | hb
          · rfl
          · exact hl2 b hb
        · intro d' xs hr
          simp only [apRun, e] at hr
          have : ∃ d' xs, (apRun grow env canAlloc version d (h ++ [⟨true, .text (serializeDb version d.db)⟩]) ops).1 =
              .ok (d', xs) := by
            split at hr
            · rename_i heq
              exact ⟨_, _, by rw [heq]⟩
            · exact ⟨_, _, hr⟩
          obtain ⟨d'', xs', hr'⟩ := this
          simp only [List.length_cons, List.map_cons, List.sum_cons, hlen2 d'' xs' hr', ApOp.blocks]
          omega
      · have e : d.storeM canAlloc version h = (.ub .nullDeref, h) := by
          unfold LispDb.storeM
          simp only [ha, Bool.false_eq_true, if_false]
        exact ⟨[], by simp [apRun, e], by simp, fun d' xs hr => by simp [apRun, e] at hr⟩

/-! Concrete cases -/

/-- Two points; the first has two variables, one of which has a size. -/
def apTrace : List LPoint :=
  [⟨1, some 2, [⟨[120], [105], .int 5, none⟩, ⟨[121], [105], .int 7, some 8⟩], []⟩, ⟨1, none, [], []⟩]

example : ApCounts apTrace := by
  refine ⟨by decide +kernel, by decide +kernel⟩

-- Seven blocks: two arrays of variables, one of points, one of names, three names.
example : ((LispDb.empty (μ := Unit)).addPointsM (fun n => n) exEnv apTrace () [⟨false, .text [1]⟩]).2.map
      (fun b => (b.live, b.bytes .lp64)) =
    [(false, 1), (true, 80), (true, 0), (true, 80), (true, 24), (true, 2), (true, 2), (true, 2)] ∧
    apBlocksOf apTrace = 7 ∧ apBytesOf .lp64 apTrace = 190 := by decide +kernel

-- The hypotheses of `C92_leak` hold for it.
example : (match ((LispDb.empty (μ := Unit)).addPointsM (fun n => n) exEnv apTrace () []).1 with
    | .ok d => d.db.traces.map (fun t => t.points.length) | _ => []) = [2] := by decide +kernel

/-- A point whose variable has the given value. -/
def apBad (v : LValue) : LPoint := ⟨1, none, [⟨[120], [105], v, none⟩], []⟩

-- The three cases of `C92_error`: a string, a negative number, a statement that is too large.
example : (∀ q ∈ [apBad (.int 1)], ∀ v ∈ q.scopes, v.Storable) ∧
    (∃ v ∈ (apBad (.blob [1])).scopes, ¬ v.Storable ∧ ¬ v.Numeric) ∧
    (∃ v ∈ (apBad (.int (-1))).scopes, ¬ v.Storable) ∧ (∀ v ∈ (apBad (.int (-1))).scopes, v.Numeric) := by
  refine ⟨?_, ⟨_, List.mem_singleton.mpr rfl, ?_, ?_⟩, ⟨_, List.mem_singleton.mpr rfl, ?_⟩, ?_⟩
  · intro q hq v hv
    rw [List.mem_singleton.mp hq] at hv
    rw [List.mem_singleton.mp hv]
    exact ⟨⟨1, by omega, rfl⟩, by simp⟩
  · rintro ⟨⟨i, _, e⟩, _⟩
    cases e
  · intro hn
    exact hn _ rfl
  · rintro ⟨⟨i, _, e⟩, _⟩
    exact absurd (LValue.int.inj e) (by omega)
  · intro v hv bytes
    rw [List.mem_singleton.mp hv]
    simp

example : let d : LispDb Unit := LispDb.empty
    (d.addPointsM (fun n => n) exEnv [apBad (.int 1), apBad (.blob [1]), apBad (.int 1)] () []).2.length = 1 ∧
    (d.addPointsM (fun n => n) exEnv [apBad (.int 1), apBad (.int (-1)), apBad (.int 1)] () []).2.length = 2 ∧
    (d.addPointsM (fun n => n) exEnv [apBad (.int 1), ⟨2 ^ 64, none, [], []⟩, apBad (.int 1)] () []).2.length = 4 := by
  decide +kernel

-- Storing the empty database twice leaves two blocks of 35 bytes; without memory, C writes to `NULL`.
example : ((apRun (μ := Unit) (fun n => n) exEnv (fun _ => true) 17 LispDb.empty [] [.store, .store]).2.map
      fun b => (b.live, b.bytes .lp64)) = [(true, 35), (true, 35)] ∧
    ((LispDb.empty (μ := Unit)).storeM (fun _ => false) 17 []).2 = [] := by decide +kernel

end TraceDB
