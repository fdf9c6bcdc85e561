import Verif.Proofs.ArchiveAny
import Verif.Proofs.IndexSafety
import Verif.Props.ArchiveCut
/-
C121: databases from arbitrary texts.
-/
namespace TraceDB

/-! C121 -/

/-- C121.  Whatever text a database was loaded from (written by this library or by another program,
edited, damaged, or cut off), its counts fit the integers they are stored in and each blob has the
bytes its size says.  A text is shorter than 2^64 bytes. -/
theorem C121_counts (text : List U8) (hl : text.length < 2 ^ 64) (db : Db) (h : deserializeDb text = some db) :
    db.Counts ∧ ∀ t ∈ db.traces, ∀ p ∈ t.points, ∀ v ∈ p.vars, v.Sized := by
  obtain ⟨_, h1, h2, h3, _⟩ := deserialize_some h
  refine ⟨⟨h1, by omega, fun t ht => ?_⟩, fun t ht p hp => ((h3 t ht).body p hp).sized⟩
  have f := h3 t ht
  exact ⟨f.points, f.names, f.types, f.name, fun p hp => (f.body p hp).sizes, fun p hp => (f.body p hp).nvars,
    fun p hp => (f.body p hp).naux⟩

/-- Its names are C strings, but the last one, if it is the last thing in the text: it may be
padded with NULs. -/
theorem C121_names (text : List U8) (db : Db) (h : deserializeDb text = some db)
    (hnul : ∃ t ∈ db.traces, ∃ n ∈ t.names, (0 : U8) ∈ n) :
    ∃ (ts : List Trace) (t : Trace) (names : List Name) (base : Name) (k : Nat), db.traces = ts ++ [t] ∧
      (∀ u ∈ ts, u.NulFree) ∧ t.types = [] ∧ t.names = names ++ [base ++ List.replicate (k + 1) 0] ∧
      (∀ n ∈ names, (0 : U8) ∉ n) ∧ (0 : U8) ∉ base := by
  obtain ⟨_, _, _, _, hn⟩ := deserialize_some h
  rcases hn with hn | ⟨_, us, names, base, k, points, e, hu, hn, hb⟩
  · obtain ⟨t, ht, n, hm, h0⟩ := hnul
    exact absurd h0 (hn t ht n hm)
  · exact ⟨us, _, names, base, k, e, hu, rfl, rfl, hn, hb⟩

/-- C121.  A database that could be loaded, from whatever text, can be stored and loaded again, any
number of times, and is the same again. -/
theorem C121_store_again (text : List U8) (hl : text.length < 2 ^ 64) (db : Db) (h : deserializeDb text = some db)
    (version : Nat) (hv : version < 2 ^ 32) : deserializeDb (serializeDb version db) = some db := by
  obtain ⟨hc, hs⟩ := C121_counts text hl db h
  obtain ⟨hfresh, _, _, hf, hn⟩ := deserialize_some h
  rcases hn with hn | ⟨_, us, names, base, k, points, e, hu, hn, hb⟩
  · rw [deserialize_serialize version hv db hf hn hc.traces hc.points]
    exact congrArg some hfresh.symm
  · obtain ⟨X, _, hX, hall⟩ := archiveText_nuls version us hu names hn base hb (k + 1) points
    obtain ⟨z, R, e0, hR⟩ := hall []
    obtain ⟨P, e1, h0⟩ : ∃ P, archiveText version (us ++ [⟨names ++ [base ++ List.replicate (k + 1) 0], [], points⟩]) =
        P ++ List.replicate (k + 1) 0 ∧ (0 : U8) ∉ P := by
      rw [hR rfl, List.append_nil, List.append_nil] at e0
      generalize toksText (dbStart version (us.length + 1 + ([] : List Trace).length)) = S at z e0
      cases hS : S ++ X with
      | nil => rw [hS] at e0; simp [List.replicate_succ] at e0
      | cons b P =>
        rw [hS] at e0
        simp only [List.cons_append, List.cons.injEq] at e0
        refine ⟨P, e0.2, fun hm => ?_⟩
        have : (0 : U8) ∈ S ++ X := by rw [hS]; exact List.mem_cons_of_mem _ hm
        rcases List.mem_append.mp this with h | h
        · exact z h
        · exact hX h
    have e2 : serializeDb version db = P ++ 0 :: (List.replicate k 0 ++ [0]) := by
      unfold serializeDb
      rw [e, e1, List.replicate_succ, List.append_assoc]
      rfl
    have e3 : deserializeDb (serializeDb version db) = (loaded P).map Db.fresh := by
      unfold deserializeDb loaded
      rw [e2, cStr_nuls h0]
      cases (do loadHeader; loadTraces : Load (List Trace)) ⟨P, .init⟩ with
      | none => rfl
      | some r => rfl
    obtain ⟨hl1, hl2⟩ := cut_items hc e
    have hlen := hc.traces
    rw [e] at hf hlen
    have hfts : ∀ t ∈ us, t.Fits := fun t ht => hf t (List.mem_append_left _ ht)
    obtain ⟨pre, f, g, hk⟩ := endsIn_names names (base ++ List.replicate (k + 1) 0) points (hf _ (by simp)) (lastState us)
      (by rw [lastState_items us hfts]; exact hl2)
    obtain ⟨pre', g'⟩ := endsIn_db us _ hlen hfts hl1 g
    have hw : (base ++ List.replicate (k + 1) 0 : Name).without (List.replicate (k + 1) (0 : U8)).length =
        some (base ++ List.replicate (k + 1) 0) := by
      unfold Name.without
      rw [if_pos (by simp)]
      simp
    rw [e3]
    rcases g'.loaded hv e1 with ⟨P', et, hP⟩ | ⟨hlt, _⟩
    · rw [hP, hk P' _ et (by simp), hw]
      show some (Db.fresh (us ++ _)) = some db
      rw [← e]
      exact congrArg some hfresh.symm
    · exfalso
      simp [tokText] at hlt
      omega

/-- C121.  Also after it was used: if its names are C strings, then after every sequence of calls
the traces come back from the text. -/
theorem C121_used (text : List U8) (db : Db) (h : deserializeDb text = some db)
    (hn : ∀ t ∈ db.traces, t.NulFree) {σ : Type} (w : World) (ev : Evaluator σ) (calls : List Call)
    (hcalls : ∀ c ∈ calls, c.NamesNulFree) (s s' : σ) (answers : List Answer) (db' : Db)
    (hr : runCalls w ev db s calls = .ok (answers, db', s')) (hc : db'.Counts) (version : Nat) (hv : version < 2 ^ 32) :
    ∃ db'', deserializeDb (serializeDb version db') = some db'' ∧ db''.traces = db.traces ++ added w.env calls := by
  obtain ⟨hfresh, _, _, hf, _⟩ := deserialize_some h
  obtain ⟨_, ht⟩ := runCalls_db w ev calls db (by rw [hfresh]; exact fresh_ok _) answers db' s s' hr
  have hg := added_good w.env calls hcalls
  obtain ⟨db'', h1, h2⟩ := C40_round_trip version hv db' hc
    (fun t hm => by
      rw [ht] at hm
      rcases List.mem_append.mp hm with hm | hm
      · exact hn t hm
      · exact (hg t hm).1)
    (fun t hm => by
      rw [ht] at hm
      rcases List.mem_append.mp hm with hm | hm
      · exact fun p hp => ((hf t hm).body p hp).sized
      · exact (hg t hm).2)
  exact ⟨db'', h1, h2.trans ht⟩

/-- `22 serialization::archive 17`, a new line, `0 0 01 0 0 1 1 0 0  0 +5 -06 0 0 0 0 0 0 0 1 -1 3 a:b END`:
other white space, numbers with signs and zeros before them, and more text at the end. -/
def strangeText : List U8 :=
  [50, 50, 32, 115, 101, 114, 105, 97, 108, 105, 122, 97, 116, 105, 111, 110, 58, 58, 97, 114, 99, 104, 105, 118,
   101, 32, 49, 55, 10, 48, 32, 48, 32, 48, 49, 32, 48, 32, 48, 32, 49, 32, 49, 32, 48, 32, 48, 32,
   32, 48, 32, 43, 53, 32, 45, 48, 54, 32, 48, 32, 48, 32, 48, 32, 48, 32, 48, 32, 48, 32, 48, 32, 49,
   32, 45, 49, 32, 51, 32, 97, 58, 98, 32, 69, 78, 68]

/-- It is loaded, and what was loaded has another text. -/
example : strangeText.length < 2 ^ 64 ∧
    deserializeDb strangeText = some (Db.fresh [⟨[[97, 58, 98]], [], [⟨5, 0xfffffffffffffffa, [], [], [0xffffffffffffffff]⟩]⟩]) ∧
    serializeDb 17 (Db.fresh [⟨[[97, 58, 98]], [], [⟨5, 0xfffffffffffffffa, [], [], [0xffffffffffffffff]⟩]⟩]) ≠ strangeText ∧
    ∀ t ∈ (Db.fresh [⟨[[97, 58, 98]], [], [⟨5, 0xfffffffffffffffa, [], [], [0xffffffffffffffff]⟩]⟩]).traces, ∀ n ∈ t.names, (0 : U8) ∉ n := by
  decide +kernel

/-- A text that ends inside a name. -/
example : deserializeDb ((serializeDb 17 (Db.fresh [⟨[[97, 98]], [], []⟩])).dropLast.dropLast ++ [0]) =
      some (Db.fresh [⟨[[97, 0]], [], []⟩]) ∧
    ∃ t ∈ (Db.fresh [⟨[[97, 0]], [], []⟩]).traces, ∃ n ∈ t.names, (0 : U8) ∈ n := by
  refine ⟨by decide +kernel, _, List.mem_singleton.mpr rfl, _, List.mem_singleton.mpr rfl, by decide⟩

/-- C121.  The condition on names in `C121_used` is needed: if a text ended inside a name, the
database can be stored and loaded again, but once calls have added a trace its text cannot be loaded
any more: all its traces are lost. -/
theorem C121_padded_lost (text : List U8) (hl : text.length < 2 ^ 64) (db : Db) (h : deserializeDb text = some db)
    (hnul : ∃ t ∈ db.traces, ∃ n ∈ t.names, (0 : U8) ∈ n) {σ : Type} (w : World) (ev : Evaluator σ) (calls : List Call)
    (s s' : σ) (answers : List Answer) (db' : Db) (hr : runCalls w ev db s calls = .ok (answers, db', s'))
    (hadd : db'.traces.length ≠ db.traces.length) (hlen : db'.traces.length < 2 ^ 64) (version : Nat) (hv : version < 2 ^ 32) :
    deserializeDb (serializeDb version db) = some db ∧ deserializeDb (serializeDb version db') = none := by
  have again := C121_store_again text hl db h version hv
  obtain ⟨hfresh, _⟩ := deserialize_some h
  obtain ⟨_, ht⟩ := runCalls_db w ev calls db (by rw [hfresh]; exact fresh_ok _) answers db' s s' hr
  obtain ⟨ts, t, names, base, k, e, hu, h1, h2, hn, hb⟩ := C121_names text db h hnul
  obtain ⟨_, _, points⟩ := t
  simp only at h1 h2
  subst h1 h2
  refine ⟨again, padded_lost version hv ts hu names hn base hb k points (added w.env calls) (fun h0 => ?_) db db' e
    (by rw [ht, e]) hlen (by rw [again]; exact congrArg some hfresh)⟩
  rw [ht, h0, List.append_nil] at hadd
  exact hadd rfl

example : ∃ (text : List U8) (db db' : Db) (answers : List Answer),
    deserializeDb text = some db ∧ db.traces = [⟨[[97, 0]], [], []⟩] ∧
    runCalls dWorld (plainEval exFloats) db () [.addTracePoints [⟨1, [⟨7, 0, 0, 0, false⟩], []⟩] [[98]]] = .ok (answers, db', ()) ∧
    db'.traces.length = 2 ∧ deserializeDb (serializeDb 17 db) = some db ∧ deserializeDb (serializeDb 17 db') = none := by
  refine ⟨(serializeDb 17 (Db.fresh [⟨[[97, 98]], [], []⟩])).dropLast.dropLast ++ [0], Db.fresh [⟨[[97, 0]], [], []⟩],
    dbAfter (runCalls dWorld (plainEval exFloats) (Db.fresh [⟨[[97, 0]], [], []⟩]) ()
      [.addTracePoints [⟨1, [⟨7, 0, 0, 0, false⟩], []⟩] [[98]]]), [.int 1], ?_⟩
  decide +kernel

end TraceDB
