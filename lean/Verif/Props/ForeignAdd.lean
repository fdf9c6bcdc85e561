import Verif.Proofs.ForeignAdd
import Verif.Props.ForeignQuery
import Verif.Props.AddMemory
import Verif.Props.LispPoints
/-
Properties of strings and points from Lisp, byte by byte: C110.
-/
namespace TraceDB

/-! Example data. -/

/-- A database with the points of `lpTrace`, which have an id of a file, a value above 2^63, a
buffer size and an auxiliary value. -/
def faDb : Res (LispDb Nat × FState) :=
  (LispDb.empty (μ := Nat)).addPointsB upwards (fun n => n) exEnv 4096 [-1, -1, -1, -1, -1] lpTrace 77 fqState

/-! C110 -/

/-- A string that Lisp passes to C is read there up to its first NUL, whatever is in memory
and whatever is allocated and written in between. -/
theorem C110_strings (pl : Placing) (hpl : pl.Sound) (bs : List U8) (s : FState) :
    lispStringAllocB pl bs s = .throw .lisp ∨
    ∃ a s', lispStringAllocB pl bs s = .ok (a, s') ∧ OnlyNew s s' ∧
      ∀ s'', OnlyNew s' s'' → readStringB s''.mem a = .ok (bs.takeWhile (· ≠ 0)) := by
  rcases lispStringAllocB_ok hpl bs s with e | ⟨a, s', e1, _, _, n1, r1⟩
  · exact .inl e
  · exact .inr ⟨a, s', e1, n1, fun s'' hs => r1 s''.mem fun x hx _ => hs.same x hx⟩

example : (lispStringAllocB upwards [104, 105] fqState >>= fun r => readStringB r.2.mem r.1) = .ok [104, 105] ∧
    (lispStringAllocB upwards [104, 0, 105] fqState >>= fun r => readStringB r.2.mem r.1) = .ok [104] ∧
    (lispStringAllocB upwards [] fqState >>= fun r => readStringB r.2.mem r.1) = .ok [] := by
  refine ⟨by decide +kernel, by decide +kernel, by decide +kernel⟩

/-- Adding points from Lisp, with all structures passing through bytes in memory, ends as it
does when the points are given as they are (C63), and memory in use before is unchanged;
unless Lisp signals an error. -/
theorem C110_points {μ : Type} (pl : Placing) (hpl : pl.Sound) (grow : Nat → Nat) (env : Env) (db : U64) (junk : List U64)
    (d : LispDb μ) (trace : List LPoint) (m : μ) (s : FState) :
    d.addPointsB pl grow env db junk trace m s = .throw .lisp ∨
    ∃ s', OnlyNew s s' ∧ d.addPointsB pl grow env db junk trace m s = (d.addPoints grow env trace m >>= fun d' => .ok (d', s')) :=
  addPointsB_ok hpl grow env db junk d trace m s

/-- Points given to Lisp come back from `get-trace` byte by byte: with the same ids, names,
types, buffer sizes and values (those from 2^63 up as negative numbers). -/
theorem C110_points_returned {μ : Type} (pl : Placing) (hpl : pl.Sound) (grow : Nat → Nat) (env : Env) (db : U64)
    (junk : List U64) (d : LispDb μ) (trace : List LPoint) (m : μ) (s : FState) (hall : ∀ p ∈ trace, p.Addable)
    (hlen : (lispAddNames trace).length ≤ 2 ^ 32) :
    d.addPointsB pl grow env db junk trace m s = .throw .lisp ∨
    ∃ d' t s', d.addPointsB pl grow env db junk trace m s = .ok (d', s') ∧ OnlyNew s s' ∧ d'.db.traces = d.db.traces ++ [t] ∧
      ∀ place s1, place.Kept t t.points s1 → FitForeign t t.points →
        lispGetTraceB pl place t none s1 = .ub .nullDeref ∨
        ∃ s2, lispGetTraceB pl place t none s1 = .ok (trace.map LPoint.wrapped, s2) ∧ OnlyNew s1 s2 := by
  obtain ⟨d', t, h1, h2, h3⟩ := C63_points_returned grow env d trace m hall hlen
  rcases addPointsB_ok hpl grow env db junk d trace m s with e | ⟨s', n, e⟩
  · exact .inl e
  · rw [h1, Res.ok_bind] at e
    exact .inr ⟨d', t, s', e, n, h2, fun place s1 hk hf => C108_get_trace pl hpl place t none s1 hk hf _ h3⟩

theorem lpTrace_addable : ∀ p ∈ lpTrace, p.Addable := by
  intro p hp
  simp only [lpTrace, List.mem_cons, List.not_mem_nil, or_false] at hp
  rcases hp with rfl | rfl
  · refine ⟨by decide, ?_⟩
    intro v hv
    simp only [List.mem_cons, List.not_mem_nil, or_false] at hv
    rcases hv with rfl | rfl
    · exact ⟨by decide, by decide, ⟨5, by decide, rfl⟩, by simp⟩
    · exact ⟨by decide, by decide, ⟨2 ^ 64 - 1, by decide, rfl⟩, by simp⟩
  · exact ⟨by decide, by simp⟩

/-- With garbage in the registers, the points arrive and memory before is as it was; a
negative value is refused. -/
example : upwards.Sound ∧ (∀ p ∈ lpTrace, p.Addable) ∧
    (faDb >>= fun r => .ok (r.1.metadata, r.1.db.traces.map (·.names), r.2.mem.get 80 12)) =
      .ok ([77], [[[120], [121], [105, 110, 116]]], [120, 0, 170, 170, 105, 0, 170, 170, 88, 0, 170, 170]) ∧
    (faDb >>= fun r => (LispDb.empty (μ := Nat)).addPoints (fun n => n) exEnv lpTrace 77 >>= fun d =>
      .ok (r.1.db.traces == d.db.traces)) = .ok true ∧
    ((LispDb.empty (μ := Nat)).addPointsB upwards (fun n => n) exEnv 4096 [] [apBad (.int (-1))] 77 fqState >>=
      fun r => .ok r.1.metadata) = .throw .lisp := by
  refine ⟨upwards_sound, lpTrace_addable, by decide +kernel, by decide +kernel, by decide +kernel⟩

/-- Storing a database: Lisp gets the text and the metadata, and memory in use before is
unchanged, or `malloc` fails and C writes to NULL. -/
theorem C110_store {μ : Type} (pl : Placing) (hpl : pl.Sound) (version : Nat) (d : LispDb μ) (junk : U64) (s : FState)
    (hn : ∀ t ∈ d.db.traces, t.NulFree) :
    d.storeB pl version junk s = .ub .nullDeref ∨
    ∃ text s', serializeDb version d.db = text ++ [0] ∧ d.storeB pl version junk s = .ok ((text, d.metadata), s') ∧ OnlyNew s s' := by
  rcases storeB_ok hpl version d junk s hn with e | ⟨s', e, n⟩
  · exact .inl e
  · exact .inr ⟨_, s', rfl, e, n⟩

/-- What is stored in one process is restored in any other, byte by byte: the traces and the
metadata, unless there is no memory for the text. -/
theorem C110_store_restore {μ : Type} (pl pl' : Placing) (hpl : pl.Sound) (hpl' : pl'.Sound) (version : Nat)
    (hv : version < 2 ^ 32) (d : LispDb μ) (junk : U64) (junk' : List U64) (s s1 s' : FState) (stored : List U8 × List μ)
    (hc : d.db.Counts) (hn : ∀ t ∈ d.db.traces, t.NulFree)
    (hs : ∀ t ∈ d.db.traces, ∀ p ∈ t.points, ∀ v ∈ p.vars, v.Sized) (h : d.storeB pl version junk s = .ok (stored, s1)) :
    LispDb.restoreB pl' junk' stored s' = .throw .lisp ∨
    ∃ d' s2, LispDb.restoreB pl' junk' stored s' = .ok (d', s2) ∧ d'.db.traces = d.db.traces ∧ d'.metadata = d.metadata ∧
      OnlyNew s' s2 := by
  rcases storeB_ok hpl version d junk s hn with e | ⟨s2, e, n⟩
  · rw [e] at h; cases h
  rw [e] at h
  cases h
  obtain ⟨db', h1, h2⟩ := C40_round_trip version hv d.db hc hn hs
  have hnul := archiveText_no_nul version d.db.traces hn
  have hd : deserializeDb (cStr (archiveText version d.db.traces)) = some db' := by
    rw [← h1]
    unfold deserializeDb serializeDb
    rw [cStr_append_nul hnul, cStr_of_nulFree hnul, cStr_of_nulFree hnul]
  have hne : archiveText version d.db.traces ≠ [] := by
    intro h0
    rw [h0] at hd
    have h1 : (deserializeDb (cStr [])).isNone = true := by decide +kernel
    rw [hd] at h1
    cases h1
  rcases restoreB_ok hpl' junk' _ d.metadata s' hne with e | ⟨s3, n3, e⟩
  · exact .inl e
  · right
    unfold restored at e
    rw [hd] at e
    exact ⟨_, s3, e, h2, rfl, n3⟩

theorem cStr_no_nul : ∀ l : List U8, (0 : U8) ∉ cStr l
  | [] => by simp [cStr]
  | b :: l => by
    unfold cStr
    rw [List.takeWhile_cons]
    split
    · rename_i h
      intro h0
      rcases List.mem_cons.mp h0 with h0 | h0
      · rw [← h0] at h; simp at h
      · exact cStr_no_nul l h0
    · simp

/-- Restoring any other text either gives a database or ends the process; Lisp's memory is
unchanged in both cases. -/
theorem C110_restore {μ : Type} (pl : Placing) (hpl : pl.Sound) (junk : List U64) (text : List U8) (ms : List μ) (s : FState)
    (hne : text ≠ []) :
    LispDb.restoreB pl junk (text, ms) s = .throw .lisp ∨
    (deserializeDb text = none ∧ LispDb.restoreB pl junk (text, ms) s = .abort) ∨
    ∃ db s', deserializeDb text = some db ∧ LispDb.restoreB pl junk (text, ms) s = .ok (⟨db, ms⟩, s') ∧ OnlyNew s s' := by
  have hcc : deserializeDb (cStr text) = deserializeDb text := by
    unfold deserializeDb
    rw [show cStr (cStr text) = cStr text from cStr_of_nulFree (cStr_no_nul text)]
  rcases restoreB_ok hpl junk text ms s hne with e | ⟨s3, n3, e⟩
  · exact .inl e
  · right
    unfold restored at e
    rw [hcc] at e
    cases hd : deserializeDb text with
    | none => rw [hd] at e; exact .inl ⟨rfl, e⟩
    | some db => rw [hd] at e; exact .inr ⟨db, s3, rfl, e, n3⟩

/-- The database stored with garbage in the register and restored in an empty memory; a text
that is cut off ends the process. -/
example : (faDb >>= fun r => r.1.storeB upwards 17 (-1) r.2 >>= fun x => LispDb.restoreB upwards [-1] x.1 ⟨fun _ => 1, []⟩ >>=
      fun y => .ok (y.1.db.traces == r.1.db.traces, y.1.metadata)) = .ok (true, [77]) ∧
    (faDb >>= fun r => r.1.storeB upwards 17 (-1) r.2 >>= fun x =>
      LispDb.restoreB upwards [-1] (x.1.1.dropLast.dropLast.dropLast, x.1.2) ⟨fun _ => 1, []⟩ >>= fun y => .ok y.1.metadata) = .abort := by
  refine ⟨by decide +kernel, by decide +kernel⟩

end TraceDB
