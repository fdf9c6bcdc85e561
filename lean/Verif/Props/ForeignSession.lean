import Verif.Proofs.ForeignSession
import Verif.Props.Reader
/-
Properties of sessions with a database, byte by byte: C112.
-/
namespace TraceDB

/-! Example data. -/

/-- Everything that does not belong to the database is freed and overwritten. -/
def fsScribble (owned : List (Nat × Nat)) (s : FState) : FState :=
  ⟨fun x => if owned.any fun b => decide (b.1 ≤ x ∧ x < b.1 + b.2) then s.mem x else 7, owned⟩

theorem fsScribble_leaves : LeavesAlone fsScribble := by
  intro owned s h
  refine ⟨fun b hb => hb, fun x hx => ?_⟩
  obtain ⟨b, hb, hr⟩ := hx
  exact if_pos (List.any_eq_true.mpr ⟨b, hb, decide_eq_true (p := b.1 ≤ x ∧ x < b.1 + b.2) hr⟩)

/-- There is one file, `f`, with the trace of `exBytes`. -/
def fsWorld : FsWorld Unit where
  pl := upwards
  grow n := 2 * n
  env := exEnv
  pick _ _ := 0
  ev := plainEval exFloats
  version := 17
  files path _ := if path = [102] then some (IStream.ofBytes exBytes) else none
  db := 12288

/-- The trace of the points of `lpTrace`. -/
def fsTrace : Trace :=
  ⟨[[120], [121], [105, 110, 116]], [⟨2, .signed, 8⟩],
   [⟨0, 0x8000030000000009, [], [⟨.word 5, 0, 0, .signed, 8, 0, false⟩, ⟨.word (-1), 1, 0, .signed, 8, 16, true⟩], []⟩, ⟨1, 4, [], [], []⟩]⟩

/-- The points of `exTrace` in Lisp. -/
def fsPoints : List LPoint :=
  [⟨7, none, [⟨[120], [105, 110, 116], .int (-2), none⟩, ⟨[112], [105, 110, 116], .int 4101, some 11⟩], []⟩,
   ⟨8, none, [⟨[120], [105, 110, 116], .blob [104, 105], none⟩, ⟨[120], [105, 110, 116], .int 65535, none⟩], [42]⟩]

/-- A query for all points without variables. -/
def fsQuery : FQuery := ⟨[], [], .nil, [], 0, none, none⟩

/-- A file with a NUL in its name, a file that does not exist, points, everything else in
memory overwritten, and so on; at the end the database is stored and emptied. -/
def fsOps : List (List U64 × FsOp Nat) :=
  [([-1, -1, -1, -1], .addFile [102, 0, 103] 5 0 1), ([], .addFile [103] 5 0 2), ([-1], .addPoints lpTrace 77),
   ([], .other fsScribble), ([-1, -1], .getTrace 0 none), ([-1], .traceTypes 1), ([5], .query 1 fsQuery), ([], .query 1 fsQuery),
   ([-1], .store), ([], .restore ([], [3]))]

/-- The answers. -/
def fsAnswers : List (FsAns Nat) :=
  [.added true, .added false, .nothing, .nothing, .points fsPoints 77, .types [[105, 110, 116]],
   .results [⟨9, some 3, [], []⟩, ⟨4, none, [], []⟩], .results [⟨9, some 3, [], []⟩, ⟨4, none, [], []⟩],
   .stored (archiveText 17 [exTrace, fsTrace], [77, 1]), .nothing]

theorem exTrace_fits : FitForeign exTrace exTrace.points := by
  refine ⟨by decide, by decide, by decide, by decide, by decide, ?_⟩
  intro p hp v hv
  simp only [exTrace, List.mem_cons, List.not_mem_nil, or_false] at hp
  rcases hp with rfl | rfl
  · simp only [List.mem_cons, List.not_mem_nil, or_false] at hv
    rcases hv with rfl | rfl <;> simp [VarInfo.Sized]
  · simp only [List.mem_cons, List.not_mem_nil, or_false] at hv
    rcases hv with rfl | rfl <;> simp [VarInfo.Sized]

theorem fsTrace_fits : FitForeign fsTrace fsTrace.points := by
  refine ⟨by decide, by decide, by decide, by decide, by decide, ?_⟩
  intro p hp v hv
  simp only [fsTrace, List.mem_cons, List.not_mem_nil, or_false] at hp
  rcases hp with rfl | rfl
  · simp only [List.mem_cons, List.not_mem_nil, or_false] at hv
    rcases hv with rfl | rfl <;> simp [VarInfo.Sized]
  · simp at hv

theorem fsQuery_result : (queryTrace exEnv (fun _ _ => 0) (plainEval exFloats) fsTrace ⟨[], .nullPred, [], 0, 0, 0⟩ false [] () >>=
    fun r => .ok r.1) = .ok [⟨0, 0x8000030000000009, [], [], []⟩, ⟨1, 4, [], [], []⟩] := by decide +kernel

theorem fsQuery_fits : AnswerFits exEnv (fun _ _ => 0) (plainEval exFloats) fsTrace fsQuery .nullPred [] [] () := by
  intro types fvs mask stmt rs c s' h0 h1 h2 h3
  have e1 : freeVars types fsQuery.varTypes = .ok [] := rfl
  have e2 : fileArgs fsQuery.file = .ok (0, 0) := by decide
  rw [e1] at h1
  rw [e2] at h2
  cases h1
  cases h2
  have := fsQuery_result
  have e3 := h3
  simp only [fsQuery, Option.isSome_none] at e3
  rw [e3] at this
  cases this
  decide

theorem fsQuery_means (ms : List Nat) : FsMeans fsWorld ⟨[exTrace, fsTrace], ms, ()⟩ (.query 1 fsQuery)
    (.results [⟨9, some 3, [], []⟩, ⟨4, none, [], []⟩]) ⟨[exTrace, fsTrace], ms, ()⟩ := by
  have hr : (lispQuery exEnv (fun _ _ => 0) (plainEval exFloats) fsTrace (fsQuery.meant .nullPred [] none) [] () >>=
      fun r => .ok r.1) = .ok [⟨9, some 3, [], []⟩, ⟨4, none, [], []⟩] := by decide +kernel
  obtain ⟨⟨l, c, s'⟩, h1, h2⟩ := Res.bind_eq_ok.mp hr
  cases h2
  exact .query _ _ _ _ _ fsTrace _ .nullPred [] none c _ (by decide) rfl fsTrace_fits (.inl ⟨rfl, rfl⟩) (.inl ⟨rfl, rfl⟩) trivial rfl
    (by decide) fsQuery_fits h1

/-- What the session means. -/
theorem fsOps_means : FsMeansAll fsWorld ⟨[], [], ()⟩ fsOps fsAnswers ⟨[], [3], ()⟩ := by
  refine .cons _ _ _ _ _ _ _ _ (.fileAdded _ _ _ _ 5 0 _ (IStream.ofBytes exBytes) exTrace (by decide) (by decide) (by decide +kernel)
    (by decide +kernel)) ?_
  refine .cons _ _ _ _ _ _ _ _ (.fileNot _ _ 5 0 _ (by decide) (by decide) (.inl (by decide +kernel))) ?_
  obtain ⟨ps, h1, h2⟩ := Res.bind_eq_ok.mp (show (lispInPoints (lispAddNames lpTrace) lpTrace >>= fun ps =>
    traceOfPoints ps ((lispAddNames lpTrace).map cStr)) = .ok fsTrace from by decide +kernel)
  refine .cons _ _ _ _ _ _ _ _ (.points _ _ _ _ _ ps fsTrace h1 h2) ?_
  refine .cons _ _ _ _ _ _ _ _ (.other _ _ fsScribble_leaves) ?_
  refine .cons _ _ _ _ _ _ _ _ (.getTrace _ _ _ exTrace _ _ (by decide) rfl rfl exTrace_fits (by decide +kernel)) ?_
  refine .cons _ _ _ _ _ _ _ _ (.traceTypes _ _ fsTrace _ (by decide) rfl fsTrace_fits (by decide +kernel)) ?_
  refine .cons _ _ _ _ _ _ _ _ (fsQuery_means _) ?_
  refine .cons _ _ _ _ _ _ _ _ (fsQuery_means _) ?_
  refine .cons _ _ _ _ _ _ _ _ (.store _ (show ∀ t ∈ [exTrace, fsTrace], ∀ n ∈ t.names, (0 : U8) ∉ n from by
    decide +kernel)) ?_
  refine .cons _ _ _ _ _ _ _ _ (.restoreNone _ _) ?_
  exact .nil _

/-! C112 -/

/-- A new database holds nothing, whatever is in memory. -/
theorem C112_new {μ σ : Type} (s : σ) (mem : FState) : (FsState.start (μ := μ) s mem).Holds ⟨[], [], s⟩ := by
  refine ⟨rfl, rfl, rfl, ?_, rfl, rfl, ?_, ?_⟩
  · intro b hb; cases hb
  · intro i t p ht; simp [FsState.start, LispDb.empty, Db.create] at ht
  · intro i t p ht; simp [FsState.start, LispDb.empty, Db.create] at ht

/-- Whatever Lisp does with a database, in whatever order and with whatever else going on in
the memory of the process: every answer is the one that is meant and the database holds what is
meant, until memory is short. -/
theorem C112_session {μ σ : Type} (w : FsWorld σ) (hpl : w.pl.Sound) (ops : List (List U64 × FsOp μ)) (as : List (FsAns μ))
    (x : FsState μ σ) (y z : FsMeant μ σ) (h : x.Holds y) (hm : FsMeansAll w y ops as z) :
    MemoryShort (byteSession w ops x) ∨ ∃ x', byteSession w ops x = .ok (as, x') ∧ x'.Holds z := by
  induction hm generalizing x with
  | nil y => exact .inr ⟨x, rfl, h⟩
  | cons y y1 z junk op a ops as h1 h2 ih =>
    unfold byteSession
    rcases byteStep_ok w hpl junk op a x y y1 h h1 with e | ⟨x1, e, hx⟩
    · exact .inl (e.bind _)
    rw [e, Res.ok_bind]
    dsimp only
    rcases ih x1 hx with e2 | ⟨x2, e2, hx2⟩
    · exact .inl (e2.bind _)
    · rw [e2, Res.ok_bind]
      exact .inr ⟨x2, rfl, hx2⟩

/-- The example session, in a memory with other data, gives all its answers.  (The metadata of
the points comes first, so the trace from the file gets it: C50.) -/
example : fsWorld.pl.Sound ∧ FsMeansAll fsWorld ⟨[], [], ()⟩ fsOps fsAnswers ⟨[], [3], ()⟩ ∧
    (byteSession fsWorld fsOps (FsState.start () fqState) >>= fun r => .ok (r.1, r.2.d.metadata)) = .ok (fsAnswers, [3]) := by
  exact ⟨upwards_sound, fsOps_means, by decide +kernel⟩

/-- The meaning says what the answers are: there is only one. -/
theorem C112_one_meaning {μ σ : Type} (w : FsWorld σ) (op : FsOp μ) (a a' : FsAns μ) (x y y' : FsMeant μ σ)
    (h : FsMeans w x op a y) (h' : FsMeans w x op a' y') : a = a' ∧ y = y' := by
  cases h with
  | fileAdded ts ms s path timeout k m st t ht hk hf hr =>
    cases h' with
    | fileAdded _ _ _ _ _ _ _ st' t' _ _ hf' hr' =>
      rw [hf] at hf'; cases hf'
      rw [hr] at hr'; cases hr'
      exact ⟨rfl, rfl⟩
    | fileNot _ _ _ _ _ _ _ hf' =>
      rcases hf' with hf' | ⟨st', e, hf', hr'⟩
      · rw [hf] at hf'; cases hf'
      · rw [hf] at hf'; cases hf'
        rw [hr] at hr'; cases hr'
  | fileNot _ path timeout k m ht hk hf =>
    cases h' with
    | fileAdded _ _ _ _ _ _ _ st' t' _ _ hf' hr' =>
      rcases hf with hf | ⟨st, e, hf, hr⟩
      · rw [hf] at hf'; cases hf'
      · rw [hf] at hf'; cases hf'
        rw [hr] at hr'; cases hr'
    | fileNot _ _ _ _ _ _ _ hf' => exact ⟨rfl, rfl⟩
  | points ts ms s trace m ps t hps ht =>
    cases h' with
    | points _ _ _ _ _ ps' t' hps' ht' =>
      rw [hps] at hps'; cases hps'
      rw [ht] at ht'; cases ht'
      exact ⟨rfl, rfl⟩
  | getTrace _ i file t m l hlen hi hm hf hl =>
    cases h' with
    | getTrace _ _ _ t' m' l' _ hi' hm' _ hl' =>
      rw [hi] at hi'; cases hi'
      rw [hm] at hm'; cases hm'
      rw [hl] at hl'; cases hl'
      exact ⟨rfl, rfl⟩
  | traceTypes _ i t l hlen hi hf hl =>
    cases h' with
    | traceTypes _ _ t' l' _ hi' _ hl' =>
      rw [hi] at hi'; cases hi'
      rw [hl] at hl'; cases hl'
      exact ⟨rfl, rfl⟩
  | query ts ms s s' i t q hard softs filter cache l _ hi _ _ hh hs hf _ _ hl =>
    cases h' with
    | query _ _ _ s2 _ t2 _ hard2 softs2 filter2 cache2 l2 _ hi2 _ _ hh2 hs2 hf2 _ _ hl2 =>
      rw [hi] at hi2; cases hi2
      have e1 := hh.unique hh2
      have e2 := hs.unique hs2
      rw [hf] at hf2
      have e3 := filter_unique hf2
      subst e1 e2 e3
      rw [hl] at hl2; cases hl2
      exact ⟨rfl, rfl⟩
  | store _ hn => cases h' with | store => exact ⟨rfl, rfl⟩
  | restore _ text ms db hne hd =>
    cases h' with
    | restore _ _ _ db' _ hd' =>
      rw [hd] at hd'; cases hd'
      exact ⟨rfl, rfl⟩
    | restoreNone => exact absurd rfl hne
  | restoreNone _ ms =>
    cases h' with
    | restore _ _ _ db' hne hd' => exact absurd rfl hne
    | restoreNone => exact ⟨rfl, rfl⟩
  | other _ f hf => cases h' with | other => exact ⟨rfl, rfl⟩

/-- What was stored can be restored, at any later time, over any other contents. -/
theorem C112_stored {μ σ : Type} (w : FsWorld σ) (hv : w.version < 2 ^ 32) (x y z : FsMeant μ σ) (stored : List U8 × List μ)
    (h : FsMeans w x .store (.stored stored) y) (hc : (⟨x.traces, x.traces.map fun _ => [], x.traces.length, 0⟩ : Db).Counts)
    (hs : ∀ t ∈ x.traces, ∀ p ∈ t.points, ∀ v ∈ p.vars, v.Sized) :
    FsMeans w z (.restore stored) .nothing ⟨x.traces, x.metadata, z.s⟩ := by
  cases h with
  | store _ hn =>
    obtain ⟨db', h1, h2⟩ := C40_round_trip w.version hv ⟨x.traces, x.traces.map fun _ => [], x.traces.length, 0⟩ hc hn hs
    have hnul := archiveText_no_nul w.version x.traces hn
    have hd : deserializeDb (archiveText w.version x.traces) = some db' := by
      rw [← h1]
      unfold deserializeDb serializeDb
      dsimp only
      rw [cStr_append_nul hnul, cStr_of_nulFree hnul]
    have hne : archiveText w.version x.traces ≠ [] := by
      intro h0
      rw [h0] at hd
      have h1 : (deserializeDb []).isNone = true := by decide +kernel
      rw [hd] at h1
      cases h1
    have := FsMeans.restore (w := w) z (archiveText w.version x.traces) x.metadata db' hne hd
    rw [h2] at this
    exact this

/-- An index that is too large is an error in Lisp and changes nothing. -/
theorem C112_bad_index {μ σ : Type} (w : FsWorld σ) (junk : List U64) (x : FsState μ σ) (y : FsMeant μ σ) (h : x.Holds y) (i : Nat)
    (hi : y.traces.length ≤ i) (file : Option Nat) (q : FQuery) :
    byteStep w junk (.getTrace i file) x = .throw .lisp ∧ byteStep w junk (.traceTypes i) x = .throw .lisp ∧
    byteStep w junk (.query i q) x = .throw .lisp := by
  have e : callGetTraceB w junk x.d i = .throw .lisp := by
    unfold callGetTraceB
    refine if_neg ?_
    unfold nTracesApi
    rw [BitVec.toNat_ofNat, h.traces]
    have := Nat.mod_le y.traces.length (2 ^ 32)
    omega
  refine ⟨?_, ?_, ?_⟩ <;> unfold byteStep <;> dsimp only <;> rw [e] <;> exact resThrow_bind _ _

/-- So are negative numbers for the time or the number of points. -/
theorem C112_negative {μ σ : Type} (w : FsWorld σ) (junk : List U64) (x : FsState μ σ) (path : List U8) (timeout k : Int) (m : μ)
    (h : timeout < 0 ∨ k < 0) : byteStep w junk (.addFile path timeout k m) x = .throw .lisp := by
  unfold byteStep addFileB
  dsimp only
  rw [if_pos h]
  exact resThrow_bind _ _

/-- After the first two operations of the session there is one trace: the index 0 can be used,
the index 1 cannot; the stored text of the session's traces can be restored. -/
example : (byteSession fsWorld (fsOps.take 2 ++ [([], .getTrace 0 (some 3))]) (FsState.start () fqState) >>= fun r => .ok r.1) =
      .ok [.added true, .added false, .points [] 1] ∧
    (byteSession fsWorld (fsOps.take 2 ++ [([], .getTrace 1 none)]) (FsState.start () fqState) >>= fun r => .ok r.1) = .throw .lisp ∧
    (byteSession fsWorld [([], .addFile [102] (-1) 0 1)] (FsState.start () fqState) >>= fun r => .ok r.1) = .throw .lisp ∧
    (byteSession fsWorld (fsOps ++ [([], .restore (archiveText 17 [exTrace, fsTrace], [77, 1])), ([], .getTrace 0 none)])
        (FsState.start () fqState) >>= fun r => .ok (r.1.drop 11)) = .ok [.points fsPoints 77] := by
  exact ⟨by decide +kernel, by decide +kernel, by decide +kernel, by decide +kernel⟩

end TraceDB
