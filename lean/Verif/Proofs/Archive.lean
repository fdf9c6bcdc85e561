import Verif.Model.Archive
import Verif.Spec.Archive
/-
Text archives read back what was written.
-/
namespace TraceDB

/-- The end of the text or a space. -/
def Sep (rest : List U8) : Prop := rest = [] ∨ ∃ r, rest = 32 :: r

theorem tokText_sep (t : Tok) : ∃ r, tokText t = 32 :: r := by
  cases t <;> exact ⟨_, rfl⟩

theorem toksText_sep (ts : List Tok) {rest : List U8} (h : Sep rest) : Sep (toksText ts ++ rest) := by
  cases ts with
  | nil => simpa [toksText] using h
  | cons t ts =>
    obtain ⟨r, hr⟩ := tokText_sep t
    exact .inr ⟨r ++ (toksText ts ++ rest), by simp [toksText, hr]⟩

/-! Decimal numbers -/

theorem digitChar_toNat {d : Nat} (h : d < 10) : (digitChar d).toNat = 48 + d := by
  simp only [digitChar, BitVec.toNat_ofNat]; omega

theorem digitChar_digit {d : Nat} (h : d < 10) : isDigit (digitChar d) = true := by
  simp only [isDigit, digitChar_toNat h]; simp; omega

theorem digit_not_space {b : U8} (h : isDigit b = true) : isSpace b = false := by
  simp only [isDigit, Bool.and_eq_true, decide_eq_true_eq] at h
  simp only [isSpace, Bool.or_eq_false_iff, decide_eq_false_iff_not, Bool.and_eq_false_iff]
  refine ⟨fun e => ?_, .inr (by omega)⟩
  rw [e] at h; simp at h

theorem decimalAux_spec (fuel n : Nat) (acc : List U8) (h : n < fuel) :
    (∀ b ∈ decimalAux fuel n acc, isDigit b = true ∨ b ∈ acc) ∧
    decimalAux fuel n acc ≠ [] ∧
    (decimalAux fuel n acc).foldl (fun n d => 10 * n + (d.toNat - 48)) 0 =
      acc.foldl (fun n d => 10 * n + (d.toNat - 48)) n := by
  induction fuel generalizing n acc with
  | zero => omega
  | succ fuel ih =>
    simp only [decimalAux]
    split
    · rename_i hn
      refine ⟨?_, by simp, ?_⟩
      · intro b hb
        rcases List.mem_cons.mp hb with rfl | hb
        · exact .inl (digitChar_digit hn)
        · exact .inr hb
      · simp [digitChar_toNat hn]
    · rename_i hn
      obtain ⟨h1, h2, h3⟩ := ih (n / 10) (digitChar (n % 10) :: acc) (by omega)
      refine ⟨?_, h2, ?_⟩
      · intro b hb
        rcases h1 b hb with h | h
        · exact .inl h
        · rcases List.mem_cons.mp h with rfl | h
          · exact .inl (digitChar_digit (by omega))
          · exact .inr h
      · rw [h3, List.foldl_cons, digitChar_toNat (by omega)]
        congr 1
        omega

theorem decimal_digits (n : Nat) : ∀ b ∈ decimal n, isDigit b = true := by
  intro b hb
  rcases (decimalAux_spec (n + 1) n [] (by omega)).1 b hb with h | h
  · exact h
  · simp at h

theorem decimal_ne_nil (n : Nat) : decimal n ≠ [] := (decimalAux_spec (n + 1) n [] (by omega)).2.1

theorem digitsValue_decimal (n : Nat) : digitsValue (decimal n) = n :=
  (decimalAux_spec (n + 1) n [] (by omega)).2.2

theorem takeWhile_digits {ds rest : List U8} (h : ∀ b ∈ ds, isDigit b = true) (hr : Sep rest) :
    (ds ++ rest).takeWhile isDigit = ds ∧ (ds ++ rest).dropWhile isDigit = rest := by
  have hd : isDigit 32 = false := by decide
  induction ds with
  | nil =>
    rcases hr with rfl | ⟨r, rfl⟩
    · simp
    · simp only [List.nil_append, List.takeWhile, List.dropWhile, hd, and_self]
  | cons d ds ih =>
    have := ih fun b hb => h b (List.mem_cons_of_mem _ hb)
    have hd' := h d (List.mem_cons_self ..)
    simp [hd', this]

theorem dropSpace_decimal (n : Nat) (rest : List U8) :
    (32 :: decimal n ++ rest).dropWhile isSpace = decimal n ++ rest := by
  obtain ⟨d, ds, hds⟩ := List.exists_cons_of_ne_nil (decimal_ne_nil n)
  have hd : isSpace d = false := digit_not_space (decimal_digits n d (by rw [hds]; simp))
  have h32 : isSpace 32 = true := by decide
  rw [hds, List.cons_append, List.dropWhile_cons, if_pos h32, List.cons_append, List.dropWhile_cons, if_neg (by simp [hd])]

theorem sign_decimal (n : Nat) (rest : List U8) :
    afterSign (decimal n ++ rest) = decimal n ++ rest ∧ (decimal n ++ rest).head? ≠ some 45 := by
  obtain ⟨d, ds, hds⟩ := List.exists_cons_of_ne_nil (decimal_ne_nil n)
  have hd := decimal_digits n d (by rw [hds]; simp)
  have hd45 : d ≠ 45 := fun e => by rw [e] at hd; exact absurd hd (by decide)
  have hd43 : d ≠ 43 := fun e => by rw [e] at hd; exact absurd hd (by decide)
  unfold afterSign
  rw [hds]
  simp
  exact ⟨⟨hd45, hd43⟩, hd45⟩

theorem loadNat_text (n max : Nat) (hn : n ≤ max) (rest : List U8) (hr : Sep rest) (a : ArchState) :
    loadNat max ⟨32 :: decimal n ++ rest, a⟩ = some (n, ⟨rest, a⟩) := by
  have hm : ((decimal n ++ rest).head? == some 45) = false := by simpa using (sign_decimal n rest).2
  unfold loadNat numberRead
  simp only [dropSpace_decimal, (sign_decimal n rest).1, takeWhile_digits (decimal_digits n) hr, decimal_ne_nil, if_false,
    digitsValue_decimal, hn, hm, if_true]

theorem loadChar_text (b : U8) (rest : List U8) (hr : Sep rest) (a : ArchState) :
    loadChar ⟨tokText (.num b.toInt) ++ rest, a⟩ = some (b, ⟨rest, a⟩) := by
  have hb : BitVec.ofInt 8 b.toInt = b := BitVec.ofInt_toInt
  have h1 := BitVec.le_toInt b
  have h2 := @BitVec.toInt_lt 8 b
  have h45 : isSpace 45 = false := by decide
  have h32 : isSpace 32 = true := by decide
  unfold loadChar tokText
  generalize b.toInt = i at *
  cases i with
  | ofNat n =>
    simp only [intText, dropSpace_decimal, (sign_decimal n rest).1, (sign_decimal n rest).2,
      takeWhile_digits (decimal_digits n) hr, decimal_ne_nil, if_false, digitsValue_decimal]
    simp only [Int.ofNat_eq_natCast] at *
    have : (-32768 : Int) ≤ n ∧ (n : Int) ≤ 32767 := by omega
    simp [this, hb]
  | negSucc n =>
    simp only [intText, List.cons_append, List.dropWhile_cons, h32, if_true, h45, Bool.false_eq_true, if_false]
    have htw := takeWhile_digits (decimal_digits (n + 1)) hr
    simp only [afterSign, List.head?_cons, true_or, List.drop_succ_cons, List.drop_zero, if_true, htw, digitsValue_decimal,
      decimal_ne_nil, if_false]
    have hneg : -((n + 1 : Nat) : Int) = Int.negSucc n := rfl
    rw [hneg]
    have : (-32768 : Int) ≤ Int.negSucc n ∧ Int.negSucc n ≤ 32767 := by omega
    rw [if_pos this, hb]

theorem loadStr_text (s : Name) (hs : s.length ≤ 2 ^ 64 - 1) (rest : List U8) (a : ArchState) :
    loadStr ⟨tokText (.str s) ++ rest, a⟩ = some (s, ⟨rest, a⟩) := by
  unfold loadStr tokText
  have : 32 :: decimal s.length ++ 32 :: s ++ rest = 32 :: decimal s.length ++ (32 :: (s ++ rest)) := by simp
  rw [this, loadNat_text s.length _ hs _ (.inr ⟨_, rfl⟩)]
  simp

/-! Saving and loading in step -/

/-- Numbering objects that have no number yet. -/
def addAll (items : List Body) (ds : List Body) : List Body :=
  ds.foldl (fun l d => if d ∈ l then l else l ++ [d]) items

theorem addAll_append (items a b : List Body) : addAll items (a ++ b) = addAll (addAll items a) b := by
  simp [addAll, List.foldl_append]

theorem addAll_length (items ds : List Body) : items.length ≤ (addAll items ds).length := by
  induction ds generalizing items with
  | nil => exact Nat.le_refl _
  | cons d ds ih =>
    simp only [addAll, List.foldl_cons]
    refine Nat.le_trans ?_ (ih _)
    split
    · exact Nat.le_refl _
    · simp

theorem addAll_length_le (items ds : List Body) : (addAll items ds).length ≤ items.length + ds.length := by
  induction ds generalizing items with
  | nil => exact Nat.le_refl _
  | cons d ds ih =>
    simp only [addAll, List.foldl_cons, List.length_cons]
    refine Nat.le_trans (ih _) ?_
    split
    · omega
    · simp; omega

/-- Loading gives `x` from what `save` writes, and ends in the same state; the new
numbered objects are those of `ds`. -/
def Loads {α : Type} (save : Save) (load : Load α) (x : α) (ds : List Body) : Prop :=
  ∀ (st : ArchState), (save st).2.items = addAll st.items ds ∧
    ∀ (rest : List U8), Sep rest → (addAll st.items ds).length < 2 ^ 64 →
      load ⟨toksText (save st).1 ++ rest, st⟩ = some (x, ⟨rest, (save st).2⟩)

theorem toksText_append (a b : List Tok) : toksText (a ++ b) = toksText a ++ toksText b := by
  simp [toksText]

theorem Loads.seq {α β : Type} {a b : Save} {la : Load α} {f : α → Load β} {x : α} {y : β} {d e : List Body}
    (ha : Loads a la x d) (hb : Loads b (f x) y e) : Loads (a.seq b) (la >>= f) y (d ++ e) := by
  intro st
  obtain ⟨h1, h2⟩ := ha st
  obtain ⟨h3, h4⟩ := hb (a st).2
  refine ⟨?_, ?_⟩
  · show (b (a st).2).2.items = _
    rw [h3, h1, addAll_append]
  · intro rest hr hl
    rw [addAll_append] at hl
    show Load.bind la f _ = _
    unfold Load.bind
    simp only [Save.seq, toksText_append, List.append_assoc]
    rw [h2 _ (toksText_sep _ hr) (Nat.lt_of_le_of_lt (addAll_length _ _) hl)]
    exact h4 rest hr (by rw [h1]; exact hl)

/-- The same when nothing is added first. -/
theorem Loads.seq0 {α β : Type} {a b : Save} {la : Load α} {f : α → Load β} {x : α} {y : β} {e : List Body}
    (ha : Loads a la x []) (hb : Loads b (f x) y e) : Loads (a.seq b) (la >>= f) y e := ha.seq hb

theorem Loads.map {α β : Type} {a : Save} {la : Load α} {x : α} {d : List Body} (ha : Loads a la x d) (g : α → β) :
    Loads a (la >>= fun x => pure (g x)) (g x) d := by
  intro st
  obtain ⟨h1, h2⟩ := ha st
  refine ⟨h1, fun rest hr hl => ?_⟩
  show Load.bind la _ _ = _
  unfold Load.bind
  rw [h2 rest hr hl]
  rfl

theorem Loads.nat {n max : Nat} (h : n ≤ max) : Loads (saveNat n) (loadNat max) n [] := by
  refine fun st => ⟨rfl, fun rest hr _ => ?_⟩
  have : toksText (saveNat n st).1 ++ rest = 32 :: decimal n ++ rest := by
    simp [saveNat, toksText, tokText, intText]
  rw [this]
  exact loadNat_text n max h rest hr st

theorem Loads.char (b : U8) : Loads (fun st => ([.num b.toInt], st)) loadChar b [] := by
  refine fun st => ⟨rfl, fun rest hr _ => ?_⟩
  have : toksText [Tok.num b.toInt] ++ rest = tokText (.num b.toInt) ++ rest := by simp [toksText]
  rw [this]
  exact loadChar_text b rest hr st

theorem Loads.str (s : Name) (h : s.length ≤ 2 ^ 64 - 1) : Loads (fun st => ([.str s], st)) loadStr s [] := by
  refine fun st => ⟨rfl, fun rest hr _ => ?_⟩
  have : toksText [Tok.str s] ++ rest = tokText (.str s) ++ rest := by simp [toksText]
  rw [this]
  exact loadStr_text s h rest st

theorem Loads.list {α β : Type} {f : α → Save} {lf : Load β} {g : α → β} {w : α → List Body} {as : List α}
    (h : ∀ a ∈ as, Loads (f a) lf (g a) (w a)) :
    Loads (saveList f as) (loadList lf as.length) (as.map g) (as.flatMap w) := by
  induction as with
  | nil => exact fun st => ⟨rfl, fun rest hr _ => rfl⟩
  | cons a as ih =>
    exact (h a (List.mem_cons_self ..)).seq ((ih fun b hb => h b (List.mem_cons_of_mem _ hb)).map _)

theorem Loads.list0 {α β : Type} {f : α → Save} {lf : Load β} {g : α → β} {as : List α}
    (h : ∀ a ∈ as, Loads (f a) lf (g a) []) :
    Loads (saveList f as) (loadList lf as.length) (as.map g) [] := by
  induction as with
  | nil => exact fun st => ⟨rfl, fun rest hr _ => rfl⟩
  | cons a as ih =>
    exact (h a (List.mem_cons_self ..)).seq0 ((ih fun b hb => h b (List.mem_cons_of_mem _ hb)).map _)

theorem Loads.object {α : Type} {data : Save} {ldata : Load α} {x : α} {d : List Body} (c : Cls)
    (h : Loads data ldata x d) : Loads (saveObject c data) (loadObject c ldata) x d := by
  intro st
  unfold saveObject loadObject
  by_cases hc : c ∈ st.seen
  · simp only [hc, if_true]; exact h st
  · simp only [hc, if_false]
    obtain ⟨h1, h2⟩ := ((Loads.nat (n := 0) (max := 1) (by decide)).seq0
      (f := fun _ => loadNat (2 ^ 32 - 1) >>= fun _ => ldata)
      ((Loads.nat (n := 0) (max := 2 ^ 32 - 1) (by decide)).seq0 h)) { st with seen := c :: st.seen }
    refine ⟨h1, fun rest hr hl => ?_⟩
    have := h2 rest hr hl
    simpa [Save.seq, saveNat] using this

theorem u32_le (x : U32) : x.toNat ≤ 2 ^ 32 - 1 := by have := x.isLt; omega
theorem u64_le (x : U64) : x.toNat ≤ 2 ^ 64 - 1 := by have := x.isLt; omega

theorem code_le (f : TypeFormat) : f.code ≤ 2 ^ 31 - 1 := by cases f <;> decide

theorem ofCode_code (f : TypeFormat) : TypeFormat.ofCode f.code = f := by cases f <;> rfl

theorem loads_type (t : TypeDesc) : Loads (saveType t) loadType t [] := by
  refine Loads.object _ ?_
  have := (Loads.nat (u32_le t.nameIndex)).seq0 (f := fun n => loadNat (2 ^ 31 - 1) >>= fun f => loadNat (2 ^ 32 - 1) >>= fun s =>
      pure (⟨BitVec.ofNat 32 n, TypeFormat.ofCode f, BitVec.ofNat 32 s⟩ : TypeDesc))
    ((Loads.nat (code_le t.format)).seq0 ((Loads.nat (u32_le t.size)).map _))
  simpa [ofCode_code] using this

theorem loads_bufferSize (b : BufferSize) : Loads (saveBufferSize b) loadBufferSize b [] := by
  refine Loads.object _ ?_
  have := (Loads.nat (u64_le b.address)).seq0 (f := fun a => loadNat (2 ^ 64 - 1) >>= fun s =>
      pure (⟨BitVec.ofNat 64 a, BitVec.ofNat 64 s⟩ : BufferSize))
    ((Loads.nat (u64_le b.size)).map _)
  simpa using this

theorem loads_value (v : VarInfo) (h : v.Sized) : Loads (saveValue v) (loadValue v.format v.size.toNat) v.value [] := by
  unfold saveValue loadValue
  unfold VarInfo.Sized at h
  cases hv : v.value with
  | blob bs =>
    rw [hv] at h
    simp only at h ⊢
    rw [if_pos h.1, h.2, List.take_length]
    have := (Loads.list0 (f := fun (b : U8) st => ([Tok.num b.toInt], st)) (g := fun b => b) (as := bs)
      (fun b _ => Loads.char b)).map VarValue.blob
    simpa using this
  | word u =>
    rw [hv] at h
    simp only at h ⊢
    rw [if_neg h]
    have := (Loads.nat (u64_le u)).map (fun u => VarValue.word (BitVec.ofNat 64 u))
    simpa using this

theorem loads_var (v : VarInfo) (h : v.Sized) : Loads (saveVar v) loadVar v [] := by
  refine Loads.object _ ?_
  have hb : (if v.hasBufferSize then 1 else 0) ≤ 1 := by split <;> omega
  have := (Loads.nat (u32_le v.nameIndex)).seq0 (f := fun n => loadNat (2 ^ 32 - 1) >>= fun t =>
      loadNat (2 ^ 31 - 1) >>= fun f => loadNat (2 ^ 32 - 1) >>= fun s => loadNat (2 ^ 64 - 1) >>= fun b => loadNat 1 >>= fun h =>
      loadValue (TypeFormat.ofCode f) s >>= fun v =>
      pure (⟨v, BitVec.ofNat 32 n, BitVec.ofNat 32 t, TypeFormat.ofCode f, BitVec.ofNat 32 s, BitVec.ofNat 64 b, h == 1⟩ : VarInfo))
    ((Loads.nat (u32_le v.typeIndex)).seq0 ((Loads.nat (code_le v.format)).seq0 ((Loads.nat (u32_le v.size)).seq0
      ((Loads.nat (u64_le v.bufferSize)).seq0 ((Loads.nat hb).seq0
        (Loads.map (la := loadValue (TypeFormat.ofCode v.format.code) v.size.toNat) (x := v.value)
          (by rw [ofCode_code]; exact loads_value v h) _))))))
  have hh : ((if v.hasBufferSize then 1 else 0 : Nat) == 1) = v.hasBufferSize := by cases v.hasBufferSize <;> rfl
  simpa [ofCode_code, hh] using this

theorem loads_body (d : Body) (h : d.Fits) : Loads (saveBody d) loadBody d [] := by
  refine Loads.object _ ?_
  obtain ⟨h1, h2, h3, h4⟩ := h
  have la := Loads.list0 (as := d.aux) (f := fun a : U64 => saveNat a.toNat)
    (lf := (do let a ← loadNat (2 ^ 64 - 1); pure (BitVec.ofNat 64 a))) (g := fun a => BitVec.ofNat 64 a.toNat)
    (fun a _ => (Loads.nat (u64_le a)).map _)
  have := (Loads.nat (show d.sizes.length ≤ 2 ^ 64 - 1 by omega)).seq0 (f := fun ns => loadNat (2 ^ 64 - 1) >>= fun nv =>
      loadNat (2 ^ 64 - 1) >>= fun na => loadList loadBufferSize ns >>= fun ss => loadList loadVar nv >>= fun vs =>
      loadList (do let a ← loadNat (2 ^ 64 - 1); pure (BitVec.ofNat 64 a)) na >>= fun as => pure (⟨ss, vs, as⟩ : Body))
    ((Loads.nat (show d.vars.length ≤ 2 ^ 64 - 1 by omega)).seq0 ((Loads.nat (show d.aux.length ≤ 2 ^ 64 - 1 by omega)).seq0
      ((Loads.list0 (g := fun b => b) fun b _ => loads_bufferSize b).seq0
        ((Loads.list0 (g := fun v => v) fun v hv => loads_var v (h4 v hv)).seq0 (la.map _)))))
  simpa using this

theorem loads_shared (d : Body) (h : d.Fits) : Loads (saveShared d) loadShared d [d] := by
  intro st
  have hle : st.items.findIdx (· == d) ≤ st.items.length := List.findIdx_le_length
  obtain ⟨b1, b2⟩ := loads_body d h st
  have b1 : (saveBody d st).2.items = st.items := b1
  have hmem : d ∈ st.items ↔ st.items.findIdx (· == d) < st.items.length := by
    rw [List.findIdx_lt_length]; simp
  unfold saveShared loadShared
  simp only
  split
  · rename_i hn
    have hadd : addAll st.items [d] = st.items := by simp [addAll, hmem.mpr hn]
    rw [hadd]
    refine ⟨rfl, fun rest hr hlen => ?_⟩
    have hget : st.items[st.items.findIdx (· == d)]? = some d := by
      rw [List.getElem?_eq_getElem hn]
      have := List.findIdx_getElem (w := hn)
      simp at this
      rw [this]
    have := ((Loads.nat (n := st.items.findIdx (· == d)) (max := 2 ^ 64 - 1) (by omega)) st).2 rest hr hlen
    show Load.bind _ _ _ = _
    unfold Load.bind
    simp only [saveNat] at this
    rw [this]
    simp only [hget]
    rfl
  · rename_i hn
    have hadd : addAll st.items [d] = st.items ++ [d] := by
      have : d ∉ st.items := fun hm => hn (hmem.mp hm)
      simp [addAll, this]
    rw [hadd]
    refine ⟨by simp only [b1], fun rest hr hlen => ?_⟩
    simp only [List.length_append, List.length_cons, List.length_nil] at hlen
    have heq : st.items.findIdx (· == d) = st.items.length := by omega
    have h1 := ((Loads.nat (n := st.items.length) (max := 2 ^ 64 - 1) (by omega)) st).2
      (toksText (saveBody d st).1 ++ rest) (toksText_sep _ hr) (by show st.items.length < _; omega)
    show Load.bind _ _ _ = _
    unfold Load.bind
    simp only [saveNat] at h1
    rw [heq]
    have htext : toksText (Tok.num (st.items.length : Nat) :: (saveBody d st).1) ++ rest =
        toksText [Tok.num (st.items.length : Nat)] ++ (toksText (saveBody d st).1 ++ rest) := by
      simp [toksText]
    rw [htext, h1]
    have hnone : st.items[st.items.length]? = none := by simp
    simp only [hnone, if_true]
    show Load.bind _ _ _ = _
    unfold Load.bind
    rw [b2 rest hr (by show st.items.length < _; omega)]
    rfl

theorem loads_point (p : Point) (h : p.body.Fits) : Loads (savePoint p) loadPoint p [p.body] := by
  refine Loads.object _ ?_
  have := (Loads.nat (u64_le p.counter)).seq0 (f := fun c => loadNat (2 ^ 64 - 1) >>= fun s =>
      loadObject .flyweight loadShared >>= fun d =>
      pure (⟨BitVec.ofNat 64 c, BitVec.ofNat 64 s, d.sizes, d.vars, d.aux⟩ : Point))
    ((Loads.nat (u64_le p.statement)).seq0 ((Loads.object .flyweight (loads_shared p.body h)).map _))
  simpa [Point.body] using this

theorem loads_trace (t : Trace) (h : t.Fits) :
    Loads (saveTrace t) loadTrace t (t.points.map Point.body) := by
  refine Loads.object _ ?_
  obtain ⟨hp, hn, ht, hl, hf⟩ := h
  rw [Nat.mod_eq_of_lt hp, Nat.mod_eq_of_lt hn, Nat.mod_eq_of_lt ht]
  have := (Loads.nat (show t.points.length ≤ 2 ^ 64 - 1 by omega)).seq0 (f := fun np => loadNat (2 ^ 32 - 1) >>= fun nn =>
      loadNat (2 ^ 32 - 1) >>= fun nt => loadList loadPoint np >>= fun ps => loadList loadStr nn >>= fun ns =>
      loadList loadType nt >>= fun ts => pure (⟨ns, ts, ps⟩ : Trace))
    ((Loads.nat (show t.names.length ≤ 2 ^ 32 - 1 by omega)).seq0 ((Loads.nat (show t.types.length ≤ 2 ^ 32 - 1 by omega)).seq0
      ((Loads.list (g := fun p => p) fun p hp => loads_point p (hf p hp)).seq
        ((Loads.list0 (g := fun n => n) fun n hn => Loads.str n (by have := hl n hn; omega)).seq0
          ((Loads.list0 (g := fun t => t) fun t _ => loads_type t).map _)))))
  have hfm : t.points.flatMap (fun p => [p.body]) = t.points.map Point.body := by
    induction t.points with
    | nil => rfl
    | cons p ps ih => rw [List.flatMap_cons, ih]; rfl
  simpa [hfm] using this

theorem loads_traces (ts : List Trace) (hlen : ts.length < 2 ^ 64) (h : ∀ t ∈ ts, t.Fits) :
    Loads (saveTraces ts) loadTraces ts (ts.flatMap fun t => t.points.map Point.body) := by
  refine Loads.object _ ?_
  have := (Loads.nat (show ts.length ≤ 2 ^ 64 - 1 by omega)).seq0 (f := fun n => loadList loadTrace n)
    (Loads.list (g := fun t => t) fun t ht => loads_trace t (h t ht))
  simpa using this

theorem loads_header (version : Nat) (hv : version < 2 ^ 32) :
    Loads (fun st => ([.str archiveSignature, .num version], st)) loadHeader () [] := by
  have := (Loads.str archiveSignature (by decide)).seq0 (f := fun s => loadNat (2 ^ 32 - 1) >>= fun _ =>
      if s = archiveSignature then pure () else fun _ => none) (b := saveNat version) (y := ()) (e := []) ?_
  · exact this
  · have := (Loads.nat (n := version) (max := 2 ^ 32 - 1) (by omega)).map (fun _ => ())
    simpa using this

/-- Skipping the space before the first token. -/
theorem loadHeader_space (r : List U8) (a : ArchState) : loadHeader ⟨32 :: r, a⟩ = loadHeader ⟨r, a⟩ := by
  have h32 : isSpace 32 = true := by decide
  have : ∀ m, loadNat m ⟨32 :: r, a⟩ = loadNat m ⟨r, a⟩ := by
    intro m
    unfold loadNat
    simp only [List.dropWhile_cons, h32, if_true]
  show Load.bind loadStr _ _ = Load.bind loadStr _ _
  unfold Load.bind loadStr
  rw [this]

theorem load_archiveText_items (version : Nat) (hv : version < 2 ^ 32) (ts : List Trace) (hlen : ts.length < 2 ^ 64)
    (h : ∀ t ∈ ts, t.Fits) (hitems : (ts.map (·.points.length)).sum < 2 ^ 64) :
    ∃ st, (do loadHeader; loadTraces : Load (List Trace)) ⟨archiveText version ts, .init⟩ = some (ts, st) ∧
      st.rest = [] ∧ st.arch.items = addAll [] (ts.flatMap fun t => t.points.map Point.body) := by
  obtain ⟨h1, h2⟩ := ((loads_header version hv).seq0 (f := fun _ => loadTraces) (loads_traces ts hlen h)) .init
  have hbound : (addAll [] (ts.flatMap fun t => t.points.map Point.body)).length < 2 ^ 64 := by
    refine Nat.lt_of_le_of_lt (addAll_length_le _ _) ?_
    simpa [List.length_flatMap] using hitems
  have h2 := h2 [] (.inl rfl) hbound
  refine ⟨_, Eq.trans ?_ h2, rfl, h1⟩
  show Load.bind _ _ _ = Load.bind _ _ _
  unfold Load.bind
  have htext : ∃ r, toksText (.str archiveSignature :: .num version :: (saveTraces ts .init).1) = 32 :: r := ⟨_, rfl⟩
  obtain ⟨r, hr⟩ := htext
  have e1 : archiveText version ts = r := by
    unfold archiveText; rw [hr]; rfl
  have e2 : toksText (Save.seq (fun st => ([.str archiveSignature, .num version], st)) (saveTraces ts) .init).1 ++ [] = 32 :: r := by
    rw [List.append_nil]; exact hr
  rw [e1, e2, loadHeader_space]

theorem load_archiveText (version : Nat) (hv : version < 2 ^ 32) (ts : List Trace) (hlen : ts.length < 2 ^ 64)
    (h : ∀ t ∈ ts, t.Fits) (hitems : (ts.map (·.points.length)).sum < 2 ^ 64) :
    ∃ st, (do loadHeader; loadTraces : Load (List Trace)) ⟨archiveText version ts, .init⟩ = some (ts, st) := by
  obtain ⟨st, h, _⟩ := load_archiveText_items version hv ts hlen h hitems
  exact ⟨st, h⟩

/-! The text has no NUL bytes -/

theorem decimal_no_nul (n : Nat) : (0 : U8) ∉ decimal n := fun h => absurd (decimal_digits n 0 h) (by decide)

theorem intText_no_nul (i : Int) : (0 : U8) ∉ intText i := by
  cases i with
  | ofNat n => exact decimal_no_nul n
  | negSucc n =>
    simp only [intText, List.mem_cons, not_or]
    exact ⟨by decide, decimal_no_nul _⟩

/-- Tokens whose strings have no NUL. -/
def Clean (ts : List Tok) : Prop := ∀ s, Tok.str s ∈ ts → (0 : U8) ∉ s

theorem toksText_no_nul {ts : List Tok} (h : Clean ts) : (0 : U8) ∉ toksText ts := by
  intro h0
  obtain ⟨t, ht, h0⟩ := List.mem_flatMap.mp h0
  cases t with
  | num i =>
    simp only [tokText, List.mem_cons] at h0
    rcases h0 with h0 | h0
    · exact absurd h0 (by decide)
    · exact intText_no_nul i h0
  | str s =>
    simp only [tokText, List.mem_cons, List.cons_append, List.mem_append] at h0
    rcases h0 with h0 | h0 | h0 | h0
    · exact absurd h0 (by decide)
    · exact decimal_no_nul _ h0
    · exact absurd h0 (by decide)
    · exact h s ht h0

/-- A save writing clean tokens. -/
def CleanSave (s : Save) : Prop := ∀ st, Clean (s st).1

theorem Clean.append {a b : List Tok} (ha : Clean a) (hb : Clean b) : Clean (a ++ b) := fun s hs => by
  rcases List.mem_append.mp hs with h | h
  · exact ha s h
  · exact hb s h

theorem Clean.num {i : Int} {a : List Tok} (ha : Clean a) : Clean (.num i :: a) := fun s hs => by
  rcases List.mem_cons.mp hs with h | h
  · cases h
  · exact ha s h

theorem Clean.nil : Clean [] := fun _ h => by simp at h

theorem CleanSave.seq {a b : Save} (ha : CleanSave a) (hb : CleanSave b) : CleanSave (a.seq b) :=
  fun st => (ha st).append (hb _)

theorem CleanSave.nat (n : Nat) : CleanSave (saveNat n) := fun _ => Clean.nil.num

theorem CleanSave.list {α : Type} {f : α → Save} {as : List α} (h : ∀ a ∈ as, CleanSave (f a)) :
    CleanSave (saveList f as) := by
  induction as with
  | nil => exact fun _ => Clean.nil
  | cons a as ih => exact (h a (List.mem_cons_self ..)).seq (ih fun b hb => h b (List.mem_cons_of_mem _ hb))

theorem CleanSave.object {s : Save} (c : Cls) (h : CleanSave s) : CleanSave (saveObject c s) := by
  intro st
  unfold saveObject
  split
  · exact h st
  · exact (h _).num.num

theorem cleanSave_body (d : Body) : CleanSave (saveBody d) := by
  have hv : ∀ v, CleanSave (saveValue v) := by
    intro v
    unfold saveValue
    split
    · exact .list fun b _ st => Clean.nil.num
    · exact .nat _
  exact .object _ (.seq (.nat _) (.seq (.nat _) (.seq (.nat _) (.seq (.list fun b _ => .object _ (.seq (.nat _) (.nat _)))
    (.seq (.list fun v _ => .object _ (.seq (.nat _) (.seq (.nat _) (.seq (.nat _) (.seq (.nat _) (.seq (.nat _)
      (.seq (.nat _) (hv v)))))))) (.list fun a _ => .nat _))))))

theorem cleanSave_traces (ts : List Trace) (h : ∀ t ∈ ts, ∀ n ∈ t.names, (0 : U8) ∉ n) : CleanSave (saveTraces ts) := by
  refine .object _ (.seq (.nat _) (.list fun t ht => .object _ (.seq (.nat _) (.seq (.nat _) (.seq (.nat _) (.seq
    (.list fun p _ => .object _ (.seq (.nat _) (.seq (.nat _) (.object _ fun st => ?_))))
    (.seq (.list fun n hn st s hs => ?_) (.list fun ty _ => .object _ (.seq (.nat _) (.seq (.nat _) (.nat _)))))))))))
  · unfold saveShared
    simp only
    split
    · exact Clean.nil.num
    · exact (cleanSave_body _ _).num
  · simp at hs
    rw [hs]; exact h t ht n hn

theorem archiveText_no_nul (version : Nat) (ts : List Trace) (h : ∀ t ∈ ts, ∀ n ∈ t.names, (0 : U8) ∉ n) :
    (0 : U8) ∉ archiveText version ts := by
  intro h0
  refine toksText_no_nul ?_ (List.mem_of_mem_tail h0)
  intro s hs
  simp only [List.mem_cons, reduceCtorEq, false_or] at hs
  rcases hs with hs | hs
  · cases hs; decide
  · exact cleanSave_traces ts h .init s hs

theorem cStr_append_nul {l : List U8} (h : (0 : U8) ∉ l) : cStr (l ++ [0]) = l := by
  unfold cStr
  rw [List.takeWhile_append_of_pos]
  · simp
  · intro b hb
    have : b ≠ 0 := fun e => h (e ▸ hb)
    simpa using this

end TraceDB
