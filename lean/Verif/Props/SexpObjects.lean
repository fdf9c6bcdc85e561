import Verif.Proofs.SexpObjects
import Verif.Model.TypeString
/-
C72: list-based databases as objects.
-/
namespace TraceDB

/-- Reading returns the accepted objects at the beginning of the file, at most as many as
asked for.  It takes one object more from the file than it returns, and if that one cannot be
read, the error is signalled although the limit was reached. -/
theorem C72_reading {α : Type} (ig : Bool) (accept : α → Bool) (s : List (SForm α)) :
    readStream ig accept none 0 s =
      (if !ig && brokenForms accept s then .throw .lisp
       else .ok (goodForms accept s, s.drop ((goodForms accept s).length + 1))) ∧
    ∀ k, readStream ig accept (some k) 0 s =
      if !ig && brokenForms accept s && decide ((goodForms accept s).length ≤ k) then .throw .lisp
      else .ok ((goodForms accept s).take k, s.drop (min (goodForms accept s).length k + 1)) :=
  ⟨readStream_all ig accept s 0, fun k => readStream_max ig accept k s 0 (Nat.zero_le k)⟩

/-- In every history all answers but for the metadata are as specified: traces are kept newest
first, a restriction shows what was in its parent when it was made, failed additions and
additions of nothing change nothing, and a restriction is not stored. -/
theorem C72_points {μ : Type} (ig : Bool) (ops : List (SexpOp μ)) :
    (sexpRun ig [] ops).1.map sexpPoints = (specSexpRun ig [] ops).map sexpPoints :=
  sexpRun_points ig sexpRel_nil ops

/-- If nothing is added to restrictions or to databases that have been restricted, every trace
comes with its own metadata too. -/
theorem C72_exact {μ : Type} (ig : Bool) (ops : List (SexpOp μ)) (hu : SexpUntouched ig [] ops) :
    (sexpRun ig [] ops).1 = specSexpRun ig [] ops :=
  sexpRun_exact ig sexpRel_nil metaRel_nil ops hu

/-- A database that is not a restriction gives every trace its own metadata in every
history. -/
theorem C72_own_metadata {μ : Type} (ig : Bool) (ops : List (SexpOp μ)) (op : SexpOp μ) (i : Nat)
    (hi : op.object = some i) (hv : ∀ o, (specSexpAfter ig [] ops)[i]? = some o → o.view = none) :
    (sexpStep ig (sexpRun ig [] ops).2 op).1 = specSexpAnswer ig (specSexpAfter ig [] ops) op := by
  have h := sexpRun_rel ig (sexpRel_nil (μ := μ)) ops
  refine (sexpStep_answer ig h op).2 ?_
  intro i' hi' s hs
  rw [hi] at hi'
  cases hi'
  rcases h.both i with ⟨_, hn⟩ | ⟨o, s', ho, hs'⟩
  · simp [hn] at hs
  · rw [hs] at hs'
    cases hs'
    obtain ⟨_, b, c, _⟩ := h.item i o s ho hs
    have hv' : o.view = none := by rw [b]; exact hv s hs
    rw [sexpMeta_root i o ho hv', c hv']

/-- A restriction gives the trace with an index the metadata its parent has for that index,
whatever has been added to either. -/
theorem C72_metadata_of_parent {μ : Type} (ig : Bool) (ops : List (SexpOp μ)) (r p f idx : Nat) (o : SpecSexp μ)
    (ho : (specSexpAfter ig [] ops)[r]? = some o) (hv : o.view = some (p, f)) (file file' : Option Nat) :
    ∃ ps m, (sexpStep ig (sexpRun ig [] ops).2 (.get r idx file)).1 = .ok (.trace (o.at idx).1 m) ∧
      (sexpStep ig (sexpRun ig [] ops).2 (.get p idx file')).1 = .ok (.trace ps m) := by
  have h := sexpRun_rel ig (sexpRel_nil (μ := μ)) ops
  generalize hobjs : (sexpRun ig [] ops).2 = objs at h
  rcases h.both r with ⟨_, hn⟩ | ⟨x, s, hx, hs⟩
  · simp [hn] at ho
  · rw [ho] at hs
    cases hs
    obtain ⟨a, b, _, d⟩ := h.item r x o hx ho
    rw [hv] at b
    have hp := d p f b
    have hlt := (List.getElem?_eq_some_iff.1 hx).1
    have hpo : objs[p]? = some objs[p] := List.getElem?_eq_getElem (by omega)
    refine ⟨if objs[p].view.isSome then objs[p].traces[idx]?.getD [] else ofFile file' (objs[p].traces[idx]?.getD []),
      (sexpMeta objs p)[idx]?, ?_, ?_⟩
    · simp only [sexpStep, hx, b, Option.isSome_some, ↓reduceIte, sexpMeta_view h r x p f hx b, a, at_fst]
    · simp only [sexpStep, hpo]

/-- So after additions to a restricted database its restriction gives the old traces the
metadata of the new ones: the trace with index `idx` comes with the metadata of what is
`idx`-th in the parent now, while its own are at `idx` plus the number of additions. -/
theorem C72_metadata_shifts {μ : Type} (ig : Bool) (ops : List (SexpOp μ)) (i f idx : Nat) (o : SpecSexp μ)
    (ho : (specSexpAfter ig [] ops)[i]? = some o) (hv : o.view = none) (adds : List (List LPoint × μ)) (file : Option Nat) :
    (sexpStep ig
      (sexpRun ig [] (ops ++ .restrict i f :: adds.map fun x => .addPoints i x.1 x.2)).2
      (.get (specSexpAfter ig [] ops).length idx file)).1 =
    .ok (.trace (ofFile (some f) (o.at idx).1) ((adds.reverse ++ o.items).map (·.2))[idx]?) := by
  generalize hS : specSexpAfter ig [] ops = S at *
  have hafter : ∀ (adds : List (List LPoint × μ)) (l : List (List LPoint × μ)) (T : List (SpecSexp μ)), T[i]? = some ⟨l, none⟩ →
      (specSexpAfter ig T (adds.map fun x => .addPoints i x.1 x.2))[i]? = some ⟨adds.reverse ++ l, none⟩ ∧
      ∀ j, j ≠ i → (specSexpAfter ig T (adds.map fun x => .addPoints i x.1 x.2))[j]? = T[j]? := by
    intro adds
    induction adds with
    | nil => intro l T h; exact ⟨h, fun _ _ => rfl⟩
    | cons x adds ih =>
      intro l T h
      have hst : specSexpStep ig T (.addPoints i x.1 x.2) = T.modify i fun o => { o with items := (x.1, x.2) :: o.items } := rfl
      simp only [specSexpAfter, List.map_cons, List.foldl_cons] at ih ⊢
      rw [hst]
      obtain ⟨h1, h2⟩ := ih (x :: l) (T.modify i fun o => { o with items := (x.1, x.2) :: o.items })
        (by rw [List.getElem?_modify]; simp [h])
      refine ⟨by rw [h1]; simp, ?_⟩
      intro j hj
      rw [h2 j hj, List.getElem?_modify]
      simp [Ne.symm hj]
  obtain ⟨l, v⟩ := o
  simp only at hv
  subst hv
  have hi : i < S.length := (List.getElem?_eq_some_iff.1 ho).1
  have hsplit : specSexpAfter ig [] (ops ++ SexpOp.restrict i f :: adds.map fun x => .addPoints i x.1 x.2) =
      specSexpAfter ig (S ++ [⟨l.map fun x => (ofFile (some f) x.1, x.2), some (i, f)⟩])
        (adds.map fun x => .addPoints i x.1 x.2) := by
    rw [← hS]
    simp only [specSexpAfter, List.foldl_append, List.foldl_cons]
    congr 1
    have : (List.foldl (specSexpStep ig) [] ops)[i]? = some ⟨l, none⟩ := by
      have := hS
      simp only [specSexpAfter] at this
      rw [this, ho]
    simp only [specSexpStep, this]
  obtain ⟨h1, h2⟩ := hafter adds l (S ++ [⟨l.map fun x => (ofFile (some f) x.1, x.2), some (i, f)⟩])
    (by rw [List.getElem?_append_left hi, ho])
  rw [← hsplit] at h1 h2
  have h3 := h2 S.length (by omega)
  rw [List.getElem?_append_right (Nat.le_refl _)] at h3
  simp only [Nat.sub_self, List.getElem?_cons_zero] at h3
  obtain ⟨ps, m, e1, e2⟩ := C72_metadata_of_parent ig _ S.length i f idx _ h3 rfl file none
  have e3 := C72_own_metadata ig _ (.get i idx none) i rfl (by intro o ho; rw [h1] at ho; cases ho; rfl)
  rw [e1]
  rw [e2] at e3
  simp only [specSexpAnswer, SexpOp.object, h1, specSexpOf, Res.ok.injEq, SexpAnswer.trace.injEq] at e3
  rw [e3.2, at_snd]
  have ef : (SpecSexp.at ⟨l.map fun x => (ofFile (some f) x.1, x.2), some (i, f)⟩ idx).1 =
      ofFile (some f) (SpecSexp.at ⟨l, none⟩ idx).1 := by
    simp only [SpecSexp.at, List.getElem?_map]
    cases l[idx]? <;> simp [ofFile]
  rw [ef]

/-- What is added to a restriction is the first of its traces, but the metadata given with it
are returned nowhere: the restriction returns the same metadata as before. -/
theorem C72_metadata_lost {μ : Type} (ig : Bool) (ops : List (SexpOp μ)) (r p f : Nat) (o : SpecSexp μ)
    (ho : (specSexpAfter ig [] ops)[r]? = some o) (hv : o.view = some (p, f)) (ps : List LPoint) (m : μ)
    (idx : Nat) (file : Option Nat) :
    ∃ m' : Option μ,
      (sexpStep ig (sexpRun ig [] ops).2 (.get r idx file)).1 = .ok (.trace (o.at idx).1 m') ∧
      (sexpStep ig (sexpRun ig [] (ops ++ [.addPoints r ps m])).2 (.get r idx file)).1 =
        .ok (.trace (((ps :: o.items.map (·.1))[idx]?).getD []) m') := by
  have h := sexpRun_rel ig (sexpRel_nil (μ := μ)) ops
  have hrun : ∀ (ops : List (SexpOp μ)) (objs : List (SexpObj μ)) (op : SexpOp μ),
      (sexpRun ig objs (ops ++ [op])).2 = (sexpStep ig (sexpRun ig objs ops).2 op).2 := by
    intro ops
    induction ops with
    | nil => intro objs op; rfl
    | cons x ops ih => intro objs op; simp only [List.cons_append, sexpRun, ih]
  rw [hrun]
  generalize hobjs : (sexpRun ig [] ops).2 = objs at h
  rcases h.both r with ⟨_, hn⟩ | ⟨x, s, hx, hs⟩
  · simp [hn] at ho
  · rw [ho] at hs
    cases hs
    obtain ⟨a, b, _, d⟩ := h.item r x o hx ho
    rw [hv] at b
    have hp := d p f b
    have hlt := (List.getElem?_eq_some_iff.1 hx).1
    have hr := h.push r x hx ps m
    have hx' : (sexpPush objs r x ps m)[r]? = some { x with traces := ps :: x.traces, slot := m :: sexpMeta objs r } := by
      simp [sexpPush, hlt]
    have hm : sexpMeta (sexpPush objs r x ps m) r = sexpMeta objs r := by
      rw [sexpMeta_view hr r _ p f hx' b, sexpMeta_view h r x p f hx b]
      -- the parents have smaller numbers
      have : ∀ n q, q < r → sexpMetaFrom (sexpPush objs r x ps m) n q = sexpMetaFrom objs n q := by
        intro n
        induction n with
        | zero => intro q _; rfl
        | succ n ih =>
          intro q hq
          have hqo : (sexpPush objs r x ps m)[q]? = objs[q]? := by
            rw [sexpPush, List.getElem?_set_ne (by omega)]
          simp only [sexpMetaFrom, hqo]
          rcases h.both q with ⟨hn, _⟩ | ⟨y, t, hy, ht⟩
          · simp [hn]
          · rcases hyv : y.view with _ | ⟨p', f'⟩
            · simp [hy, hyv]
            · have := (h.item q y t hy ht).2.2.2 p' f' hyv
              simp only [hy, hyv]
              exact ih p' (by omega)
      exact this _ p hp
    refine ⟨(sexpMeta objs r)[idx]?, ?_, ?_⟩
    · simp only [sexpStep, hx, b, Option.isSome_some, ↓reduceIte, a, at_fst]
    · simp only [sexpStep, hx, hx', b, Option.isSome_some, ↓reduceIte, hm, a]

/-- The types of a trace: each that occurs at a variable, once. -/
theorem C72_types (ps : List LPoint) :
    (sexpTypes ps).Nodup ∧ ∀ n, n ∈ sexpTypes ps ↔ ∃ p ∈ ps, ∃ v ∈ p.scopes, v.type = n := by
  have key : ∀ l : List (List U8), (removeDuplicates (· == ·) l).Nodup ∧ ∀ n, n ∈ removeDuplicates (· == ·) l ↔ n ∈ l := by
    intro l
    induction l with
    | nil => simp [removeDuplicates]
    | cons x l ih =>
      simp only [removeDuplicates]
      split
      · rename_i h
        simp only [List.any_eq_true, beq_iff_eq, exists_eq_right'] at h
        refine ⟨ih.1, fun n => ?_⟩
        rw [ih.2, List.mem_cons]
        exact ⟨.inr, fun h' => h'.elim (fun e => e ▸ h) id⟩
      · rename_i h
        simp only [List.any_eq_true, beq_iff_eq, exists_eq_right'] at h
        refine ⟨List.nodup_cons.2 ⟨fun h' => h ((ih.2 x).1 h'), ih.1⟩, fun n => ?_⟩
        rw [List.mem_cons, List.mem_cons, ih.2]
  refine ⟨(key _).1, fun n => ?_⟩
  rw [sexpTypes, (key _).2]
  simp [List.mem_flatMap, List.mem_map]

/-- With `pick` a query of a trace that is not empty is that of one of its points, and every
point may be the one. -/
theorem C72_pick (trace : List LPoint) (q : LQuery) (h : trace ≠ []) :
    (∀ n, ∃ p ∈ trace, sexpQueryAt trace q (some n) = sexpQuery [p] q) ∧
    ∀ p ∈ trace, ∃ n, sexpQueryAt trace q (some n) = sexpQuery [p] q := by
  have hpos : 0 < trace.length := List.length_pos_iff.2 h
  constructor
  · intro n
    have hlt : n % trace.length < trace.length := Nat.mod_lt _ hpos
    refine ⟨trace[n % trace.length], List.getElem_mem hlt, ?_⟩
    simp [sexpQueryAt, List.getElem?_eq_getElem hlt]
  · intro p hp
    obtain ⟨n, hn, rfl⟩ := List.getElem_of_mem hp
    refine ⟨n, ?_⟩
    simp [sexpQueryAt, Nat.mod_eq_of_lt hn, List.getElem?_eq_getElem hn]

/-! Examples -/

/-- Points of the files 1 and 2. -/
def sxP : LPoint := ⟨10, some 1, [⟨ascii "x", ascii "int", .int 5, none⟩, ⟨ascii "y", ascii "int", .int 6, none⟩], []⟩
def sxQ : LPoint := ⟨11, some 2, [⟨ascii "z", ascii "char", .int 7, none⟩], []⟩

/-- Reading with a limit of one takes two objects, and an error in the second is signalled. -/
example : readStream false Option.isSome (some 1) 0 [.form (some sxP), .form (some sxQ), .form (some sxP)] =
      .ok ([some sxP], [.form (some sxP)]) ∧
    readStream false Option.isSome (some 1) 0 [.form (some sxP), .malformed] = .throw .lisp ∧
    readStream true Option.isSome (some 1) 0 [.form (some sxP), .malformed] = .ok ([some sxP], []) ∧
    readStream false Option.isSome none 0 [.form (some sxP), .form none, .form (some sxQ)] =
      .ok ([some sxP], [.form (some sxQ)]) := by
  refine ⟨by decide +kernel, by decide +kernel, by decide +kernel, by decide +kernel⟩

/-- A history without additions to restricted databases. -/
def sxOps : List (SexpOp Nat) :=
  [.create, .add 0 (some [.form (some sxP), .form (some sxQ)]) none 1, .add 0 (some [.form (some sxP), .malformed]) none 9,
   .add 0 (some [.form (some sxP)]) (some 0) 8, .add 0 none none 7, .addPoints 0 [sxQ] 2, .restrict 0 1, .restrict 1 2,
   .get 1 1 none, .get 1 0 none, .get 0 1 (some 2), .count 1, .size 1 1, .types 0 1, .copy 1, .copy 0, .addPoints 3 [] 3,
   .count 3, .count 0, .get 0 5 none]

example : SexpUntouched false [] sxOps := by
  simp only [sxOps, SexpUntouched, and_true]
  refine ⟨?_, ?_, ?_, ?_, ?_, ?_, ?_, ?_, ?_, ?_, ?_, ?_, ?_, ?_, ?_, ?_, ?_, ?_, ?_, ?_⟩
  all_goals intro i ps m h
  all_goals simp [SexpOp.stored, readFails, fileBroken, readPointsOf, filePoints] at h
  all_goals obtain ⟨rfl, rfl, rfl⟩ := h
  all_goals refine ⟨?_, ?_⟩
  all_goals simp [specSexpStep, SexpOp.stored, readFails, fileBroken, readPointsOf, filePoints, List.modify_cons]
  all_goals intro j o f h e
  · match j with
    | 0 => simp only [List.getElem?_cons_zero, Option.some.injEq] at h; simp [← h] at e
    | j + 1 => simp at h
  · match j with
    | 0 => simp only [List.getElem?_cons_zero, Option.some.injEq] at h; simp [← h] at e
    | j + 1 => simp at h
  · match j with
    | 0 | 1 | 2 | 3 =>
      simp only [List.getElem?_cons_zero, List.getElem?_cons_succ, Option.some.injEq] at h
      simp [← h] at e
    | j + 4 => simp at h

example : (sexpRun false [] sxOps).1 =
    [.ok (.object 0), .ok .done, .throw .lisp, .ok .nil, .ok .nil, .ok .done, .ok (.object 1), .ok (.object 2),
     .ok (.trace [sxP] (some 1)), .ok (.trace [] (some 2)), .ok (.trace [sxQ] (some 1)), .ok (.number 2), .ok (.number 1),
     .ok (.names [ascii "int", ascii "char"]), .ok .nil, .ok (.object 3), .ok .done, .ok (.number 3), .ok (.number 2),
     .ok (.trace [] none)] := by decide +kernel

/-- The old trace with the new metadata, and what is added to the restriction. -/
example : (sexpRun false [] [.create, .addPoints 0 [sxP] 1, .restrict 0 1, .addPoints 0 [sxQ] 2, .get 1 0 none,
      .addPoints 1 [sxQ] 3, .get 1 0 none, .get 1 1 none, .get 1 2 none, .get 0 0 none]).1.drop 4 =
    [.ok (.trace [sxP] (some 2)), .ok .done, .ok (.trace [sxQ] (some 2)), .ok (.trace [sxP] (some 1)),
     .ok (.trace [] none), .ok (.trace [sxQ] (some 2))] := by decide +kernel

example : (specSexpAfter false [] [.create, .addPoints 0 [sxP] 1, .restrict 0 1])[0]? = some ⟨[([sxP], 1)], none⟩ ∧
    (specSexpAfter false [] [.create, .addPoints 0 [sxP] 1, .restrict 0 1])[1]? = some ⟨[([sxP], 1)], some (0, 1)⟩ := by
  refine ⟨by decide +kernel, by decide +kernel⟩

/-- Queries with `pick` at the two points of a trace. -/
example : (sexpQueryAt [sxP, sxQ] ⟨[[ascii "int"]], .nullPred, [], 0, none, none⟩ (some 3) >>= fun l => .ok l.length) = .ok 0 ∧
    (sexpQueryAt [sxP, sxQ] ⟨[[ascii "int"]], .nullPred, [], 0, none, none⟩ (some 4) >>= fun l => .ok l.length) = .ok 2 := by
  refine ⟨by decide +kernel, by decide +kernel⟩

end TraceDB
