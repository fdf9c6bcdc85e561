import Verif.Spec.LispPoints
import Verif.Proofs.LispQuery
import Verif.Proofs.InstrumentRun
import Verif.Props.Reader
import Verif.Proofs.Database
import Verif.Proofs.LispIds
/-
Lemmas on points as Lisp data.
-/
namespace TraceDB

theorem showsId_unpack (s : U64) (scopes : List LVar) (aux : List U64) :
    ShowsId s ⟨unpackC s, unpackF s, scopes, aux⟩ := by
  unfold ShowsId
  rw [unpackF_eq, unpackC_eq]
  simp only []
  have := s.isLt
  by_cases h : 2 ^ 63 ≤ s.toNat
  · right
    refine ⟨s.toNat / 2 ^ 40 % 2 ^ 23, by omega, ?_, ?_, ?_⟩
    · rw [if_pos h]; omega
    · rw [if_pos h]
    · rw [if_pos h]; omega
  · left
    rw [if_neg h, if_neg h]
    exact ⟨by omega, rfl, rfl⟩

theorem lispVar_entry {names : List Name} {types : List TypeDesc} (hnul : ∀ n ∈ names, (0 : U8) ∉ n)
    (htn : ∀ ty ∈ types, ty.nameIndex.toNat < names.length) (pts : List Point) {H : List BufferSize} {n ti : U32}
    {payload : List U8} {ty : TypeDesc} (hn : n.toNat < names.length) (hty : types[ti.toNat]? = some ty)
    (hp : PayloadOk ty payload) :
    ∃ l, lispVar ⟨names, types, pts⟩ (decodeVar ty H n ti payload) = .ok l ∧
      ShowsEntry names types (H, n, ti, payload) l := by
  have h1 : names[n.toNat]? = some names[n.toNat] := List.getElem?_eq_getElem hn
  have ht := htn ty (List.mem_of_getElem? hty)
  have h2 : names[ty.nameIndex.toNat]? = some names[ty.nameIndex.toNat] := List.getElem?_eq_getElem ht
  have c1 := cStr_nulFree (hnul _ (List.getElem_mem hn))
  have c2 := cStr_nulFree (hnul _ (List.getElem_mem ht))
  have idx : (decodeVar ty H n ti payload).nameIndex = n ∧ (decodeVar ty H n ti payload).typeIndex = ti := by
    unfold decodeVar
    cases ty.format <;> simp only <;> first | exact ⟨trivial, trivial⟩ | (split <;> exact ⟨rfl, rfl⟩)
  have val : ∃ x, lispValue (decodeVar ty H n ti payload) = .ok x ∧ ShowsValue ty payload x := by
    have small : payload.length ≤ 8 → (BitVec.ofNat 64 (leNat payload)).toNat = leNat payload := by
      intro hl
      rw [BitVec.toNat_ofNat]
      apply Nat.mod_eq_of_lt
      have h5 := leNat_lt payload
      have h6 : 256 ^ payload.length ≤ 256 ^ 8 := Nat.pow_le_pow_right (by omega) (by omega)
      omega
    unfold PayloadOk at hp
    unfold ShowsValue decodeVar
    cases hf : ty.format with
    | unsigned =>
      rw [hf] at hp
      exact ⟨_, rfl, by rw [small (by have := hp; simp only at this; omega)]⟩
    | signed =>
      rw [hf] at hp
      have hl : 0 < payload.length ∧ payload.length ≤ 8 := by
        rcases hp with ⟨hh | hh | hh | hh, h5⟩ <;> rw [hh] at h5 <;> rw [h5] <;> decide
      exact ⟨_, rfl, by rw [toInt_ofInt_signedOf hl.1 hl.2]⟩
    | float =>
      refine ⟨_, rfl, ?_⟩
      simp only []
      split
      · congr 1
        apply BitVec.eq_of_toNat_eq
        rw [BitVec.toNat_setWidth, BitVec.toNat_ofNat, BitVec.toNat_ofNat]
        omega
      · rfl
    | pointer =>
      rw [hf] at hp
      simp only []
      split
      · exact ⟨_, rfl, by rw [small (by have := hp; simp only at this; omega)]⟩
      · exact ⟨_, rfl, by rw [small (by have := hp; simp only at this; omega)]⟩
    | blob => exact ⟨_, rfl, rfl⟩
    | invalid => rw [hf] at hp; exact hp.elim
  obtain ⟨x, hx, hv⟩ := val
  refine ⟨⟨names[n.toNat], names[ty.nameIndex.toNat], x,
    if (decodeVar ty H n ti payload).hasBufferSize then some (decodeVar ty H n ti payload).bufferSize.toNat else none⟩,
    ?_, ty, hty, h1, h2, hv, ?_⟩
  · unfold lispVar
    simp only [idx.1, idx.2, hty, h1, h2]
    rw [hx, Res.ok_bind, c1, c2]
    rfl
  · unfold ShowsSize
    simp only []
    by_cases hf : ty.format = .pointer
    · left
      refine ⟨hf, lookupSize H (BitVec.ofNat 64 (leNat payload)), lookupSize_spec _ _, ?_⟩
      unfold decodeVar
      rw [hf]
      simp only []
      split <;> simp_all
    · right
      refine ⟨hf, ?_⟩
      unfold decodeVar
      cases hff : ty.format <;> simp only
      · rfl
      · rfl
      · rfl
      · exact absurd hff hf
      · rfl
      · rfl

theorem lispVars_entries {names : List Name} {types : List TypeDesc} (hnul : ∀ n ∈ names, (0 : U8) ∉ n)
    (htn : ∀ ty ∈ types, ty.nameIndex.toNat < names.length) (pts : List Point) :
    ∀ (es : List Entry) (H : List BufferSize), (∀ e ∈ es, e.WF names types) →
    ∃ ls, lispVars ⟨names, types, pts⟩ (entryVars types H es) = .ok ls ∧
      AllRel (ShowsEntry names types) (varEntries H es) ls
  | [], H, _ => ⟨[], rfl, .nil⟩
  | .stmt x :: es, H, hwf => lispVars_entries hnul htn pts es H fun e he => hwf e (by simp [he])
  | .aux x :: es, H, hwf => lispVars_entries hnul htn pts es H fun e he => hwf e (by simp [he])
  | .size r :: es, H, hwf => lispVars_entries hnul htn pts es (H ++ [r]) fun e he => hwf e (by simp [he])
  | .var n t p :: es, H, hwf => by
    obtain ⟨hn, ty, hty, hp⟩ := hwf (.var n t p) (by simp)
    obtain ⟨ls, h1, h2⟩ := lispVars_entries hnul htn pts es H fun e he => hwf e (by simp [he])
    obtain ⟨l, h3, h4⟩ := lispVar_entry (H := H) hnul htn pts hn hty hp
    refine ⟨l :: ls, ?_, .cons h4 h2⟩
    simp only [entryVars, hty]
    rw [lispVars, h3, Res.ok_bind, h1, Res.ok_bind]
    rfl

theorem lispPoints_of_entries {names : List Name} {types : List TypeDesc} (hnul : ∀ n ∈ names, (0 : U8) ∉ n)
    (htn : ∀ ty ∈ types, ty.nameIndex.toNat < names.length) (pts : List Point) (ns : U64) :
    ∀ (ps : List (List Entry)) (i : Nat) (H : List BufferSize), (∀ p ∈ ps, ∀ e ∈ p, e.WF names types) →
    ∃ ls, lispPoints ⟨names, types, pts⟩ (pointsOf types ns i H ps) = .ok ls ∧ ls.length = ps.length ∧
      ∀ (k : Nat) (es : List Entry) (l : LPoint), ps[k]? = some es → ls[k]? = some l →
        ShowsPoint names types (H ++ (ps.take k).flatMap entrySizes) es l
  | [], i, H, _ => ⟨[], rfl, rfl, by simp⟩
  | p :: ps, i, H, hwf => by
    obtain ⟨ls, h1, h2, h3⟩ := lispPoints_of_entries hnul htn pts ns ps (i + 1) (H ++ entrySizes p)
      fun q hq => hwf q (by simp [hq])
    obtain ⟨vs, h4, h5⟩ := lispVars_entries hnul htn pts p H (hwf p (by simp))
    refine ⟨⟨unpackC ((entryStmt p).getD ns), unpackF ((entryStmt p).getD ns), vs, entryAux p⟩ :: ls, ?_, by
      rw [List.length_cons, List.length_cons, h2], ?_⟩
    · rw [pointsOf, lispPoints, lispPoint]
      unfold pointOf
      simp only []
      rw [h4, Res.ok_bind, Res.pure_eq, Res.ok_bind, h1, Res.ok_bind]
      rfl
    · intro k es l hk hl
      cases k with
      | zero =>
        simp only [List.getElem?_cons_zero, Option.some.injEq] at hk hl
        subst hk hl
        refine ⟨fun s hs => ?_, rfl, by simpa using h5⟩
        rw [hs]
        exact showsId_unpack s _ _
      | succ k =>
        have := h3 k es l (by simpa using hk) (by simpa using hl)
        simpa [List.append_assoc] using this

/-! Adding points -/

theorem findIdx_mem {l : List (List U8)} {x : List U8} (h : x ∈ l) :
    l.findIdx (· == x) < l.length ∧ l[l.findIdx (· == x)]? = some x := by
  have hlt : l.findIdx (· == x) < l.length := List.findIdx_lt_length.mpr ⟨x, h, beq_self_eq_true x⟩
  refine ⟨hlt, ?_⟩
  rw [List.getElem?_eq_getElem hlt]
  have := List.findIdx_getElem (w := hlt)
  rw [beq_iff_eq.mp this]

theorem mem_lispAddNames {trace : List LPoint} {p : LPoint} {v : LVar} (hp : p ∈ trace) (hv : v ∈ p.scopes) :
    v.name ∈ lispAddNames trace ∧ v.type ∈ lispAddNames trace := by
  have spec := removeDuplicates_spec (fun a b : List U8 => a == b) id (fun a b => beq_iff_eq)
    (trace.flatMap fun p => p.scopes.flatMap fun v => [v.name, v.type])
  have key : ∀ x, x ∈ [v.name, v.type] → x ∈ lispAddNames trace := by
    intro x hx
    obtain ⟨y, h1, h2⟩ := spec.2.1 x (List.mem_flatMap.mpr ⟨p, hp, List.mem_flatMap.mpr ⟨v, hv, hx⟩⟩)
    have h2 : y = x := h2
    rw [h2] at h1
    exact h1
  exact ⟨key _ (by simp), key _ (by simp)⟩

theorem lispAddNames_nulFree {trace : List LPoint} (h : ∀ p ∈ trace, p.Addable) : ∀ n ∈ lispAddNames trace, (0 : U8) ∉ n := by
  intro n hn
  have spec := removeDuplicates_spec (fun a b : List U8 => a == b) id (fun a b => beq_iff_eq)
    (trace.flatMap fun p => p.scopes.flatMap fun v => [v.name, v.type])
  obtain ⟨p, hp, h1⟩ := List.mem_flatMap.mp (spec.1 n hn)
  obtain ⟨v, hv, h2⟩ := List.mem_flatMap.mp h1
  have := (h p hp).vars v hv
  simp only [List.mem_cons, List.not_mem_nil, or_false] at h2
  rcases h2 with rfl | rfl
  · exact this.1
  · exact this.2.1

/-- The C structure made for a variable. -/
def givenVar (names : List (List U8)) (v : LVar) : InVar :=
  ⟨BitVec.ofNat 64 (match v.value with
      | .int i => i.toNat
      | _ => 0),
    BitVec.ofNat 32 (names.findIdx (· == v.name)),
    BitVec.ofNat 32 (names.findIdx (· == v.type)), BitVec.ofNat 64 (v.size.getD 0), v.size.isSome⟩

def givenPoint (names : List (List U8)) (p : LPoint) : InPoint :=
  ⟨BitVec.ofNat 64 (packId p.f p.c), p.scopes.map (givenVar names), []⟩

theorem lispInVars_eq {names : List (List U8)} (hn : names.length ≤ 2 ^ 32) : ∀ vs : List LVar,
    (∀ v ∈ vs, (∃ i : Nat, i < 2 ^ 64 ∧ v.value = .int i) ∧ ∀ z, v.size = some z → z < 2 ^ 64) →
    lispInVars names vs = .ok (vs.map (givenVar names))
  | [], _ => rfl
  | v :: vs, h => by
    obtain ⟨⟨i, hi, hv⟩, hz⟩ := h v (by simp)
    have hz' : v.size.getD 0 < 2 ^ 64 := by
      cases hs : v.size with
      | none => simp
      | some z => exact hz z hs
    have : lispInVar names v = .ok (givenVar names v) := by
      unfold lispInVar givenVar
      rw [hv]
      simp only []
      rw [if_pos ⟨by omega, by omega, hz', hn⟩]
    rw [lispInVars, this, Res.ok_bind, lispInVars_eq hn vs fun w hw => h w (by simp [hw]), Res.ok_bind]
    rfl

theorem packId_lt {p : LPoint} (h : p.Addable) : packId p.f p.c < 2 ^ 64 := by
  have := h.id
  cases hf : p.f with
  | none => rw [hf] at this; show p.c < _; simp only at this; omega
  | some f => rw [hf] at this; exact (C48_round_trip f p.c this.1 this.2).1

theorem lispInPoints_eq {names : List (List U8)} (hn : names.length ≤ 2 ^ 32) : ∀ trace : List LPoint,
    (∀ p ∈ trace, p.Addable) → lispInPoints names trace = .ok (trace.map (givenPoint names))
  | [], _ => rfl
  | p :: ps, h => by
    have hp := h p (by simp)
    have : lispInPoint names p = .ok (givenPoint names p) := by
      unfold lispInPoint
      rw [lispInVars_eq hn p.scopes fun v hv => ⟨(hp.vars v hv).2.2.1, (hp.vars v hv).2.2.2⟩, Res.ok_bind,
        if_pos (packId_lt hp)]
      rfl
    rw [lispInPoints, this, Res.ok_bind, lispInPoints_eq hn ps fun q hq => h q (by simp [hq]), Res.ok_bind]
    rfl

theorem unpack_given {p : LPoint} (h : p.Addable) : unpackC (BitVec.ofNat 64 (packId p.f p.c)) = p.c ∧
    unpackF (BitVec.ofNat 64 (packId p.f p.c)) = p.f := by
  have := h.id
  cases hf : p.f with
  | none => rw [hf] at this; exact ⟨(C48_without_file p.c this).2, (C48_without_file p.c this).1⟩
  | some f => rw [hf] at this; exact ⟨(C48_round_trip f p.c this.1 this.2).2.2, (C48_round_trip f p.c this.1 this.2).2.1⟩

theorem lispVar_given {trace : List LPoint} (hall : ∀ p ∈ trace, p.Addable) (hlen : (lispAddNames trace).length ≤ 2 ^ 32)
    {p : LPoint} {v : LVar} (hp : p ∈ trace) (hv : v ∈ p.scopes) (pts : List Point) :
    lispVar ⟨(lispAddNames trace).map cStr, typesOf (noteFormats (trace.map (givenPoint (lispAddNames trace)))), pts⟩
      (madeVar (trace.map (givenPoint (lispAddNames trace))) (givenVar (lispAddNames trace) v)) =
      .ok { v with value := v.value.wrapped } := by
  obtain ⟨h1, h2, ⟨i, hi, hval⟩, hz⟩ := (hall p hp).vars v hv
  have hnames : (lispAddNames trace).map cStr = lispAddNames trace := by
    conv => rhs; rw [← List.map_id (lispAddNames trace)]
    exact List.map_congr_left fun n hn => cStr_nulFree (lispAddNames_nulFree hall n hn)
  rw [hnames]
  have hmem : givenVar (lispAddNames trace) v ∈ allInVars (trace.map (givenPoint (lispAddNames trace))) :=
    mem_allInVars _ _ (List.mem_map_of_mem hp) _ (List.mem_map_of_mem hv)
  have hty := (inVar_eq _ _ hmem).2
  obtain ⟨m1, m2⟩ := mem_lispAddNames hp hv
  obtain ⟨n1, n2⟩ := findIdx_mem m1
  obtain ⟨t1, t2⟩ := findIdx_mem m2
  have e1 : (BitVec.ofNat 32 ((lispAddNames trace).findIdx (· == v.name))).toNat = (lispAddNames trace).findIdx (· == v.name) := by
    rw [BitVec.toNat_ofNat]; exact Nat.mod_eq_of_lt (by omega)
  have e2 : (BitVec.ofNat 32 ((lispAddNames trace).findIdx (· == v.type))).toNat = (lispAddNames trace).findIdx (· == v.type) := by
    rw [BitVec.toNat_ofNat]; exact Nat.mod_eq_of_lt (by omega)
  unfold lispVar
  simp only [hty]
  have a1 : (lispAddNames trace)[(madeVar (trace.map (givenPoint (lispAddNames trace)))
      (givenVar (lispAddNames trace) v)).nameIndex.toNat]? = some v.name := by
    show (lispAddNames trace)[(BitVec.ofNat 32 ((lispAddNames trace).findIdx (· == v.name))).toNat]? = _
    rw [e1, n2]
  have a2 : (lispAddNames trace)[(givenVar (lispAddNames trace) v).typeNameIndex.toNat]? = some v.type := by
    show (lispAddNames trace)[(BitVec.ofNat 32 ((lispAddNames trace).findIdx (· == v.type))).toNat]? = _
    rw [e2, t2]
  simp only [a1, a2]
  have hw : (givenVar (lispAddNames trace) v).value = BitVec.ofNat 64 i := by
    unfold givenVar
    rw [hval]
    simp
  have hlv : lispValue (madeVar (trace.map (givenPoint (lispAddNames trace))) (givenVar (lispAddNames trace) v)) =
      .ok v.value.wrapped := by
    have ht := BitVec.toInt_eq_toNat_cond (BitVec.ofNat 64 i)
    rw [BitVec.toNat_ofNat, Nat.mod_eq_of_lt hi] at ht
    by_cases hneg : ∃ w ∈ allInVars (trace.map (givenPoint (lispAddNames trace))),
        w.typeNameIndex = (givenVar (lispAddNames trace) v).typeNameIndex ∧ w.value.toInt < 0
    · unfold lispValue madeVar formatOf
      rw [if_pos hneg, hw, hval]
      simp only [LValue.wrapped]
      rw [Res.ok.injEq, LValue.int.injEq, ht]
      split <;> split <;> omega
    · have hno : ¬ (BitVec.ofNat 64 i).toInt < 0 := fun hh => hneg ⟨_, hmem, rfl, by rw [hw]; exact hh⟩
      unfold lispValue madeVar formatOf
      rw [if_neg hneg, hw, hval]
      simp only [LValue.wrapped]
      rw [Res.ok.injEq, LValue.int.injEq, BitVec.toNat_ofNat, Nat.mod_eq_of_lt hi]
      rw [ht] at hno
      split at hno <;> split <;> omega
  rw [hlv, Res.ok_bind, cStr_nulFree h1, cStr_nulFree h2]
  show Res.ok (LVar.mk v.name v.type v.value.wrapped
    (if v.size.isSome = true then some (BitVec.ofNat 64 (v.size.getD 0)).toNat else none)) = _
  congr 2
  cases hs : v.size with
  | none => rfl
  | some z =>
    show some (BitVec.ofNat 64 z).toNat = some z
    rw [BitVec.toNat_ofNat, Nat.mod_eq_of_lt (hz z hs)]

theorem lispPoints_given {trace : List LPoint} (hall : ∀ p ∈ trace, p.Addable) (hlen : (lispAddNames trace).length ≤ 2 ^ 32)
    (pts : List Point) : ∀ (l : List LPoint) (i : Nat), (∀ p ∈ l, p ∈ trace) →
    lispPoints ⟨(lispAddNames trace).map cStr, typesOf (noteFormats (trace.map (givenPoint (lispAddNames trace)))), pts⟩
      (madePoints (trace.map (givenPoint (lispAddNames trace))) i (l.map (givenPoint (lispAddNames trace)))) =
      .ok (l.map LPoint.wrapped)
  | [], _, _ => rfl
  | p :: l, i, h => by
    have hp := h p (by simp)
    have hv : ∀ vs : List LVar, (∀ v ∈ vs, v ∈ p.scopes) →
        lispVars ⟨(lispAddNames trace).map cStr, typesOf (noteFormats (trace.map (givenPoint (lispAddNames trace)))), pts⟩
          ((vs.map (givenVar (lispAddNames trace))).map (madeVar (trace.map (givenPoint (lispAddNames trace))))) =
        .ok (vs.map fun v => { v with value := v.value.wrapped }) := by
      intro vs
      induction vs with
      | nil => intro _; rfl
      | cons v vs ih =>
        intro hvs
        rw [List.map_cons, List.map_cons, lispVars, lispVar_given hall hlen hp (hvs v (by simp)) pts, Res.ok_bind,
          ih fun w hw => hvs w (by simp [hw]), Res.ok_bind]
        rfl
    rw [List.map_cons, madePoints, lispPoints, lispPoint]
    show (lispVars _ ((p.scopes.map (givenVar (lispAddNames trace))).map _) >>= _) >>= _ = _
    rw [hv p.scopes fun _ h => h, Res.ok_bind, Res.pure_eq, Res.ok_bind,
      lispPoints_given hall hlen pts l (i + 1) fun q hq => h q (by simp [hq]), Res.ok_bind, Res.pure_eq]
    simp only [List.map_cons]
    congr 2
    unfold LPoint.wrapped
    show LPoint.mk (unpackC (BitVec.ofNat 64 (packId p.f p.c))) (unpackF (BitVec.ofNat 64 (packId p.f p.c))) _ _ = _
    rw [(unpack_given (hall p hp)).1, (unpack_given (hall p hp)).2]

end TraceDB
