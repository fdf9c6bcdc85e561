import Verif.Proofs.Process
import Verif.Props.Archive
/-
C97: a process with several databases.
-/
namespace TraceDB

/-- The process does what its shelves say: same answers up to addresses, same traces at the end, and it fails
exactly when and how they do. -/
theorem C97_refines (w : World) (fs : FloatSys) (ce : CacheEnv) (version : Nat) (calls : List PCall) (hd : DeadConsistent ce)
    (hnc : NoCollision fs ce fun p vs => ∃ tq ∈ asked w fs version [] calls, QueryKeys tq.1 tq.2 p vs) :
    (runProc w (cachedEval fs ce) nextQuery version ⟨[], ⟨[], 0, 0⟩⟩ calls >>= fun r =>
      .ok (r.1.map PAnswer.plain, r.2.shelf)) = runShelf w fs version [] calls := by
  have h := runProc_sim (cachedEval_sim hd hnc) (next := nextQuery) (fun _ h => h) w version calls
    ⟨[], ⟨[], 0, 0⟩⟩ ⟨by simp, by intro e he; cases he⟩ (fun tq h q vs hk => ⟨tq, h, hk⟩)
  have := Res.Rel.eq h (fun r => (r.1.map PAnswer.plain, r.2.shelf)) id (fun a b hab => by
    simp only [id]; rw [hab.1, hab.2.1])
  rw [this]
  show (runShelf w fs version [] calls >>= fun b => Res.ok b) = _
  cases runShelf w fs version [] calls <;> rfl

/-- The run of the shelves that goes with a run of the process. -/
theorem runProc_shelf (w : World) (fs : FloatSys) (ce : CacheEnv) (version : Nat) (calls : List PCall) (hd : DeadConsistent ce)
    (hnc : NoCollision fs ce fun p vs => ∃ tq ∈ asked w fs version [] calls, QueryKeys tq.1 tq.2 p vs)
    (answers : List PAnswer) (p : DbProc CacheState)
    (h : runProc w (cachedEval fs ce) nextQuery version ⟨[], ⟨[], 0, 0⟩⟩ calls = .ok (answers, p)) :
    runShelf w fs version [] calls = .ok (answers.map PAnswer.plain, p.shelf) := by
  rw [← C97_refines w fs ce version calls hd hnc, h]
  rfl

/-- Every database of a process that runs to its end holds the traces it was made with and those added to it,
in order, whatever happened to the others; exactly the freed ones are gone; and every answer is the one for the traces
its database had at that time. -/
theorem C97_databases (w : World) (fs : FloatSys) (ce : CacheEnv) (version : Nat) (calls : List PCall) (hd : DeadConsistent ce)
    (hnc : NoCollision fs ce fun p vs => ∃ tq ∈ asked w fs version [] calls, QueryKeys tq.1 tq.2 p vs)
    (answers : List PAnswer) (p : DbProc CacheState)
    (h : runProc w (cachedEval fs ce) nextQuery version ⟨[], ⟨[], 0, 0⟩⟩ calls = .ok (answers, p)) :
    p.dbs.length = (madeBy calls).length ∧ answers.length = calls.length ∧
    (∀ d db, p.dbs[d]? = some (some db) → db.traces = tracesOf w.env d calls) ∧
    (∀ d, p.dbs[d]? = some none ↔ PCall.free d ∈ calls) ∧
    (∀ (i d : Nat) (c : Call) (a : PAnswer), calls[i]? = some (.on d c) → answers[i]? = some a →
      ∃ b, a = .call b ∧ Answers w fs (tracesOf w.env d (calls.take i)) c b) ∧
    (∀ (i : Nat) (c : PCall) (a : PAnswer), calls[i]? = some c → answers[i]? = some a → (madeBy [c]).length = 1 →
      a = .handle (madeBy (calls.take i)).length) := by
  have hs := runProc_shelf w fs ce version calls hd hnc answers p h
  obtain ⟨f1, f2, f3, _⟩ := runShelf_traces w fs version calls.reverse _ _ (by rw [List.reverse_reverse]; exact hs)
  rw [List.reverse_reverse] at f1 f2 f3
  rw [shelf_length] at f1
  refine ⟨f1, by simpa using runShelf_length w fs version _ _ _ _ hs, ?_, ?_, ?_, ?_⟩
  · intro d db hdb
    exact f2 d db.traces (by simp [shelf_get, hdb])
  · intro d
    rw [← f3, shelf_get]
    cases p.dbs[d]? with
    | none => simp
    | some o => cases o <;> simp
  · intro i d c a hc ha
    obtain ⟨as1, sh1, sh2, h1, h2⟩ := runShelf_at w fs version calls _ _ hs i (.on d c) a.plain hc (by simp [ha])
    obtain ⟨_, g2, _⟩ := runShelf_traces w fs version (calls.take i).reverse _ _ (by rw [List.reverse_reverse]; exact h1)
    rw [List.reverse_reverse] at g2
    simp only [shelfStep] at h2
    split at h2
    · rename_i ts hts
      obtain ⟨⟨b, ts'⟩, h3, h4⟩ := Res.bind_eq_ok.mp h2
      injection h4 with h4
      injection h4 with h4 _
      have hans := (shelfCall_answers w fs ts ts' c b h3).2
      rw [g2 d ts hts] at hans
      cases a with
      | call x =>
        refine ⟨x, rfl, ?_⟩
        cases x with
        | int n => cases h4; exact hans
        | points ps => cases h4; exact hans
        | ptr q =>
          cases h4
          cases c with
          | getTrace j =>
            obtain ⟨k1, gen, k2⟩ := hans
            simp only [Answer.ptr.injEq, TracePtr.mk.injEq] at k2
            refine ⟨k1, q.gen, ?_⟩
            rw [← k2.2]
          | addTrace _ _ => cases hans
          | addTracePoints _ _ => cases hans
          | nTraces => cases hans
          | query _ _ _ => obtain ⟨_, _, _, _, k, _⟩ := hans; cases k
      | handle _ => cases h4
      | done => cases h4
      | text _ => cases h4
    · cases h2
    · cases h2
  · intro i c a hc ha hm
    obtain ⟨as1, sh1, sh2, h1, h2⟩ := runShelf_at w fs version calls _ _ hs i c a.plain hc (by simp [ha])
    obtain ⟨g1, _⟩ := runShelf_traces w fs version (calls.take i).reverse _ _ (by rw [List.reverse_reverse]; exact h1)
    rw [List.reverse_reverse] at g1
    have key : ∀ n, a.plain = .handle n → a = .handle n := by
      intro n hn
      cases a with
      | call x => cases x <;> cases hn
      | _ => exact hn
    cases c with
    | create =>
      simp only [shelfStep, Res.ok.injEq, Prod.mk.injEq] at h2
      rw [← g1]
      exact key _ h2.1.symm
    | load text =>
      simp only [shelfStep] at h2
      split at h2
      · simp only [Res.ok.injEq, Prod.mk.injEq] at h2
        rw [← g1]
        exact key _ h2.1.symm
      · cases h2
    | free _ => cases hm
    | on _ _ => cases hm
    | store _ => cases hm

/-- A text stored from a database and loaded at any later time makes a database with the traces the first one had
when it was stored. -/
theorem C97_store_load (w : World) (fs : FloatSys) (ce : CacheEnv) (version : Nat) (calls : List PCall) (hd : DeadConsistent ce)
    (hnc : NoCollision fs ce fun p vs => ∃ tq ∈ asked w fs version [] calls, QueryKeys tq.1 tq.2 p vs)
    (answers : List PAnswer) (p : DbProc CacheState)
    (h : runProc w (cachedEval fs ce) nextQuery version ⟨[], ⟨[], 0, 0⟩⟩ calls = .ok (answers, p))
    (hv : version < 2 ^ 32) (i j d : Nat) (text : List U8) (hi : calls[i]? = some (.store d)) (ht : answers[i]? = some (.text text))
    (hj : calls[j]? = some (.load text))
    (hc : ∀ db : Db, db.traces = tracesOf w.env d (calls.take i) → db.Counts)
    (hn : ∀ t ∈ tracesOf w.env d (calls.take i), t.NulFree)
    (hsz : ∀ t ∈ tracesOf w.env d (calls.take i), ∀ p ∈ t.points, ∀ v ∈ p.vars, v.Sized) :
    ∃ e, answers[j]? = some (.handle e) ∧ (madeBy calls)[e]? = some (tracesOf w.env d (calls.take i)) := by
  obtain ⟨_, hlen, _, _, _, hhandle⟩ := C97_databases w fs ce version calls hd hnc answers p h
  have hs := runProc_shelf w fs ce version calls hd hnc answers p h
  obtain ⟨as1, sh1, sh2, h1, h2⟩ := runShelf_at w fs version calls _ _ hs i (.store d) (.text text) hi (by simp [ht, PAnswer.plain])
  obtain ⟨_, g2, _⟩ := runShelf_traces w fs version (calls.take i).reverse _ _ (by rw [List.reverse_reverse]; exact h1)
  rw [List.reverse_reverse] at g2
  have htext : text = archiveText version (tracesOf w.env d (calls.take i)) ++ [0] := by
    simp only [shelfStep] at h2
    split at h2
    · rename_i ts hts
      cases h2
      rw [g2 d ts hts]
    · cases h2
    · cases h2
  generalize tracesOf w.env d (calls.take i) = ts at hc hn hsz htext
  obtain ⟨db', k1, k2⟩ := C40_round_trip version hv ⟨ts, [], 0, 0⟩ (hc _ rfl) hn hsz
  have hload : deserializeDb text = some db' := by rw [htext]; exact k1
  have hjl := (List.getElem?_eq_some_iff.mp hj).1
  have hm : madeBy [PCall.load text] = [ts] := by
    simp only [madeBy, List.filterMap_cons, hload, Option.map_some, List.filterMap_nil, k2]
  obtain ⟨a, ha⟩ : ∃ a, answers[j]? = some a := ⟨_, List.getElem?_eq_getElem (by omega)⟩
  have := hhandle j _ a hj ha (by rw [hm]; rfl)
  refine ⟨_, this ▸ ha, ?_⟩
  have hsplit : calls = calls.take j ++ PCall.load text :: calls.drop (j + 1) := by
    have hget := (List.getElem?_eq_some_iff.mp hj).2
    rw [← hget, ← List.drop_eq_getElem_cons hjl, List.take_append_drop]
  have hmade : madeBy calls = madeBy (calls.take j) ++ (madeBy [PCall.load text] ++ madeBy (calls.drop (j + 1))) := by
    have e1 : ∀ l m, madeBy (l ++ m) = madeBy l ++ madeBy m := fun l m => List.filterMap_append
    rw [← e1, ← e1]
    exact congrArg madeBy hsplit
  rw [hmade, hm, List.getElem?_append_right (Nat.le_refl _), Nat.sub_self]
  rfl

/-- The calls that are given a database. -/
def PCall.target : PCall → Option Nat
  | .free d | .on d _ | .store d => some d
  | _ => none

/-- A process that uses or frees a database after freeing it does not run to its end. -/
theorem C97_after_free (w : World) (fs : FloatSys) (ce : CacheEnv) (version : Nat) (calls : List PCall) (hd : DeadConsistent ce)
    (hnc : NoCollision fs ce fun p vs => ∃ tq ∈ asked w fs version [] calls, QueryKeys tq.1 tq.2 p vs)
    (i j d : Nat) (c : PCall) (hij : i < j) (hi : calls[i]? = some (.free d)) (hj : calls[j]? = some c) (hc : c.target = some d) :
    ∀ r, runProc w (cachedEval fs ce) nextQuery version ⟨[], ⟨[], 0, 0⟩⟩ calls ≠ .ok r := by
  rintro ⟨answers, p⟩ h
  have hs := runProc_shelf w fs ce version calls hd hnc answers p h
  have hlen := runShelf_length w fs version _ _ _ _ hs
  have hjl := (List.getElem?_eq_some_iff.mp hj).1
  obtain ⟨a, ha⟩ : ∃ a, (answers.map PAnswer.plain)[j]? = some a := ⟨_, List.getElem?_eq_getElem (by omega)⟩
  obtain ⟨as1, sh1, sh2, h1, h2⟩ := runShelf_at w fs version calls _ _ hs j c a hj ha
  obtain ⟨_, _, g3, _⟩ := runShelf_traces w fs version (calls.take j).reverse _ _ (by rw [List.reverse_reverse]; exact h1)
  rw [List.reverse_reverse] at g3
  have hmem : PCall.free d ∈ calls.take j := by
    refine List.mem_of_getElem? (i := i) ?_
    rw [List.getElem?_take]
    simp [hij, hi]
  have hnone := (g3 d).mpr hmem
  cases c with
  | free e => cases hc; simp [shelfStep, hnone] at h2
  | on e x => cases hc; simp [shelfStep, hnone] at h2
  | store e => cases hc; simp [shelfStep, hnone] at h2
  | create => cases hc
  | load _ => cases hc

namespace C97

/-- A hash by outcome, so that keys with different outcomes have different hashes. -/
def outcomeHash (fs : FloatSys) : CacheEnv :=
  { hash := fun _ p vs => match predicateSatisfied fs vs p with
      | .ok true => 0
      | .ok false => 1
      | .abort => 2
      | .hang => 3
      | .throw .eof => 4
      | .throw .trace => 5
      | .throw .alloc => 6
      | .throw .lisp => 7
      | .ub .oobRead => 8
      | .ub .oobWrite => 9
      | .ub .uninit => 10
      | .ub .nullDeref => 11
      | .ub .badFree => 12
      | .ub .dangling => 13
      | .ub .misuse => 14
    dead := some fun _ _ _ => true }

theorem outcomeHash_ok (fs : FloatSys) (K : Pred → List VarInfo → Prop) :
    DeadConsistent (outcomeHash fs) ∧ NoCollision fs (outcomeHash fs) K := by
  refine ⟨⟨fun _ _ => true, rfl⟩, ?_⟩
  intro t t' p vs p' vs' _ _ h
  simp only [outcomeHash] at h
  generalize predicateSatisfied fs vs p = x at h
  generalize predicateSatisfied fs vs' p' = y at h
  have key : ∀ x y : Res Bool, (match x with
      | .ok true => (0 : U64) | .ok false => 1 | .abort => 2 | .hang => 3
      | .throw .eof => 4 | .throw .trace => 5 | .throw .alloc => 6 | .throw .lisp => 7
      | .ub .oobRead => 8 | .ub .oobWrite => 9 | .ub .uninit => 10 | .ub .nullDeref => 11
      | .ub .badFree => 12 | .ub .dangling => 13 | .ub .misuse => 14) = (match y with
      | .ok true => (0 : U64) | .ok false => 1 | .abort => 2 | .hang => 3
      | .throw .eof => 4 | .throw .trace => 5 | .throw .alloc => 6 | .throw .lisp => 7
      | .ub .oobRead => 8 | .ub .oobWrite => 9 | .ub .uninit => 10 | .ub .nullDeref => 11
      | .ub .badFree => 12 | .ub .dangling => 13 | .ub .misuse => 14) → x = y := by
    intro x y h
    rcases x with (_ | _) | (_ | _ | _ | _) | _ | (_ | _ | _ | _ | _ | _ | _) | _ <;>
      rcases y with (_ | _) | (_ | _ | _ | _) | _ | (_ | _ | _ | _ | _ | _ | _) | _ <;>
      first
      | rfl
      | exact absurd h (by decide)
  exact key x y h

/-- Two databases; the second one is freed after its text was taken. -/
def session : List PCall :=
  [.create, .create, .on 1 (.addTracePoints dPoints []), .on 0 (.addTrace (some (IStream.ofBytes [1, 2, 3])) 0),
   .on 1 (.query 0 ⟨[[0]], .nullPred, [], 0, 0, 0⟩ true), .on 1 (.query 0 ⟨[[0]], .nullPred, [], 0, 0, 0⟩ true),
   .store 1, .free 1, .on 0 .nTraces]

example : DeadConsistent (outcomeHash exFloats) ∧
    NoCollision exFloats (outcomeHash exFloats)
      (fun p vs => ∃ tq ∈ asked dWorld exFloats 17 [] session, QueryKeys tq.1 tq.2 p vs) ∧
    (runProc dWorld (cachedEval exFloats (outcomeHash exFloats)) nextQuery 17 ⟨[], ⟨[], 0, 0⟩⟩ session).isOk = true ∧
    (asked dWorld exFloats 17 [] session).length = 2 ∧ madeBy session = [[], []] ∧
    (tracesOf dWorld.env 1 session).length = 1 ∧ tracesOf dWorld.env 0 session = [] :=
  ⟨(outcomeHash_ok _ fun _ _ => True).1, (outcomeHash_ok _ _).2, by decide +kernel⟩

/-- The text of the empty database. -/
def emptyText : List U8 := archiveText 17 [] ++ [0]

/-- Storing, freeing, and loading again. -/
example : (runProc dWorld (cachedEval exFloats (outcomeHash exFloats)) nextQuery 17 ⟨[], ⟨[], 0, 0⟩⟩
      [.create, .store 0, .free 0, .load emptyText, .on 1 .nTraces] >>= fun r => .ok r.1) =
    .ok [.handle 0, .text emptyText, .done, .handle 1, .call (.int 0)] ∧
    (∀ db : Db, db.traces = tracesOf dWorld.env 0 [.create] → db.Counts) := by
  refine ⟨by decide +kernel, ?_⟩
  intro db h
  have h : db.traces = [] := h
  constructor <;> simp [h]

/-- Using a freed database. -/
example : (runProc dWorld (cachedEval exFloats (outcomeHash exFloats)) nextQuery 17 ⟨[], ⟨[], 0, 0⟩⟩
      [.create, .free 0, .on 0 .nTraces] >>= fun r => .ok r.1) = .ub .dangling ∧
    (runProc dWorld (cachedEval exFloats (outcomeHash exFloats)) nextQuery 17 ⟨[], ⟨[], 0, 0⟩⟩
      [.create, .free 0, .free 0] >>= fun r => .ok r.1) = .ub .badFree ∧
    ([.create, .free 0, .on 0 .nTraces] : List PCall)[1]? = some (.free 0) ∧
    (PCall.on 0 .nTraces).target = some 0 := by
  refine ⟨by decide +kernel, by decide +kernel, rfl, rfl⟩

end C97

end TraceDB
