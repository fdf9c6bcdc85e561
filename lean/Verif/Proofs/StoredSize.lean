import Verif.Spec.StoredSize
import Verif.Proofs.ArchiveDb
/-
Counting what is written to an archive.
-/
namespace TraceDB

/-- How many numbers there are. -/
def numCount : List Tok → Nat
  | [] => 0
  | .num _ :: ts => 1 + numCount ts
  | .str _ :: ts => numCount ts

/-- The strings. -/
def strsOf : List Tok → List Name
  | [] => []
  | .num _ :: ts => strsOf ts
  | .str s :: ts => s :: strsOf ts

theorem numCount_append (a b : List Tok) : numCount (a ++ b) = numCount a + numCount b := by
  induction a with
  | nil => simp [numCount]
  | cons t a ih => cases t <;> simp only [List.cons_append, numCount, ih] <;> omega

theorem strsOf_append (a b : List Tok) : strsOf (a ++ b) = strsOf a ++ strsOf b := by
  induction a with
  | nil => simp [strsOf]
  | cons t a ih => cases t <;> simp [strsOf, ih]

/-- The classes of the objects in the data of a point. -/
def Body.classes (d : Body) : List Cls :=
  .pointData :: ((if d.sizes = [] then [] else [.bufferSize]) ++ (if d.vars = [] then [] else [.varInfo]))

/-- The classes in data with a number have been written. -/
def ArchOk (st : ArchState) : Prop := ∀ d ∈ st.items, ∀ c ∈ d.classes, c ∈ st.seen

/-- Numbers for data. -/
def bodySum (l : List Body) : Nat := (l.map Body.numbers).sum

/-- What is written: `n` numbers besides those for new data and new classes, the names, the
data and the classes. -/
structure Wrote (s : Save) (n : Nat) (names : List Name) (ds : List Body) (cs : List Cls) : Prop where
  sub : ∀ d ∈ ds, ∀ c ∈ d.classes, c ∈ cs
  items : ∀ st, ArchOk st → (s st).2.items = addAll st.items ds
  seen : ∀ st, ArchOk st → ∀ c, c ∈ (s st).2.seen ↔ c ∈ st.seen ∨ c ∈ cs
  nodup : ∀ st, ArchOk st → st.seen.Nodup → (s st).2.seen.Nodup
  count : ∀ st, ArchOk st →
    numCount (s st).1 + 2 * st.seen.length + bodySum st.items = n + 2 * (s st).2.seen.length + bodySum (s st).2.items
  strs : ∀ st, ArchOk st → strsOf (s st).1 = names
  small : ∀ st, ArchOk st → (s st).2.items.length < 2 ^ 64 → ∀ i, Tok.num i ∈ (s st).1 → -128 ≤ i ∧ i < 2 ^ 64

theorem Wrote.ok {s : Save} {n : Nat} {names : List Name} {ds : List Body} {cs : List Cls} (h : Wrote s n names ds cs)
    {st : ArchState} (hst : ArchOk st) : ArchOk (s st).2 := by
  intro d hd c hc
  rw [h.items st hst, mem_addAll] at hd
  rw [h.seen st hst]
  rcases hd with hd | hd
  · exact .inl (hst d hd c hc)
  · exact .inr (h.sub d hd c hc)

theorem Wrote.nil : Wrote Save.nil 0 [] [] [] where
  sub := by simp
  items := fun st _ => rfl
  seen := fun st _ c => by simp [Save.nil]
  nodup := fun st _ h => h
  count := fun st _ => by simp [Save.nil, numCount]
  strs := fun st _ => rfl
  small := fun st _ _ i hi => by simp [Save.nil] at hi

theorem Wrote.nat {k : Nat} (hk : k < 2 ^ 64) : Wrote (saveNat k) 1 [] [] [] where
  sub := by simp
  items := fun st _ => rfl
  seen := fun st _ c => by simp [saveNat]
  nodup := fun st _ h => h
  count := fun st _ => by simp [saveNat, numCount]
  strs := fun st _ => rfl
  small := fun st _ _ i hi => by
    simp only [saveNat, List.mem_cons, List.not_mem_nil, or_false, Tok.num.injEq] at hi
    omega

theorem Wrote.char (b : U8) : Wrote (fun st => ([.num b.toInt], st)) 1 [] [] [] where
  sub := by simp
  items := fun st _ => rfl
  seen := fun st _ c => by simp
  nodup := fun st _ h => h
  count := fun st _ => by simp [numCount]
  strs := fun st _ => rfl
  small := fun st _ _ i hi => by
    simp only [List.mem_cons, List.not_mem_nil, or_false, Tok.num.injEq] at hi
    have h1 := BitVec.toInt_lt (x := b)
    have h2 := BitVec.le_toInt (x := b)
    omega

theorem Wrote.str (n : Name) : Wrote (fun st => ([.str n], st)) 0 [n] [] [] where
  sub := by simp
  items := fun st _ => rfl
  seen := fun st _ c => by simp
  nodup := fun st _ h => h
  count := fun st _ => by simp [numCount]
  strs := fun st _ => rfl
  small := fun st _ _ i hi => by simp at hi

theorem Wrote.seq {a b : Save} {n m : Nat} {ns ms : List Name} {ds es : List Body} {cs bs : List Cls}
    (ha : Wrote a n ns ds cs) (hb : Wrote b m ms es bs) : Wrote (a.seq b) (n + m) (ns ++ ms) (ds ++ es) (cs ++ bs) where
  sub := fun d hd c hc => by
    rcases List.mem_append.mp hd with hd | hd
    · exact List.mem_append_left _ (ha.sub d hd c hc)
    · exact List.mem_append_right _ (hb.sub d hd c hc)
  items := fun st h => by
    show (b (a st).2).2.items = _
    rw [hb.items _ (ha.ok h), ha.items st h, addAll_append]
  seen := fun st h c => by
    show c ∈ (b (a st).2).2.seen ↔ _
    rw [hb.seen _ (ha.ok h), ha.seen st h, List.mem_append, or_assoc]
  nodup := fun st h hn => hb.nodup _ (ha.ok h) (ha.nodup st h hn)
  count := fun st h => by
    have h1 := ha.count st h
    have h2 := hb.count _ (ha.ok h)
    show numCount ((a st).1 ++ (b (a st).2).1) + _ + _ = _ + 2 * (b (a st).2).2.seen.length + bodySum (b (a st).2).2.items
    rw [numCount_append]
    omega
  strs := fun st h => by
    show strsOf ((a st).1 ++ (b (a st).2).1) = _
    rw [strsOf_append, ha.strs st h, hb.strs _ (ha.ok h)]
  small := fun st h hl i hi => by
    have hl' : (b (a st).2).2.items.length < 2 ^ 64 := hl
    have hle := addAll_length (a st).2.items es
    rw [← hb.items _ (ha.ok h)] at hle
    rcases List.mem_append.mp (show Tok.num i ∈ (a st).1 ++ (b (a st).2).1 from hi) with hi | hi
    · exact ha.small st h (by omega) i hi
    · exact hb.small _ (ha.ok h) hl' i hi

theorem Wrote.list {α : Type} {f : α → Save} {n : α → Nat} {ns : α → List Name} {ds : α → List Body} {cs : α → List Cls}
    {as : List α} (h : ∀ a ∈ as, Wrote (f a) (n a) (ns a) (ds a) (cs a)) :
    Wrote (saveList f as) (as.map n).sum (as.flatMap ns) (as.flatMap ds) (as.flatMap cs) := by
  induction as with
  | nil => exact .nil
  | cons a as ih =>
    have := (h a List.mem_cons_self).seq (ih fun b hb => h b (List.mem_cons_of_mem _ hb))
    simpa only [saveList, List.map_cons, List.sum_cons, List.flatMap_cons] using this

theorem Wrote.object {s : Save} {n : Nat} {ns : List Name} {ds : List Body} {cs : List Cls} (c : Cls)
    (h : Wrote s n ns ds cs) : Wrote (saveObject c s) n ns ds (c :: cs) := by
  have e1 : ∀ st, c ∈ st.seen → saveObject c s st = s st := fun st hc => by unfold saveObject; rw [if_pos hc]
  have e2 : ∀ st, c ∉ st.seen → saveObject c s st =
      (.num 0 :: .num 0 :: (s { st with seen := c :: st.seen }).1, (s { st with seen := c :: st.seen }).2) := fun st hc => by
    unfold saveObject; rw [if_neg hc]
  have hok : ∀ st, ArchOk st → ArchOk { st with seen := c :: st.seen } := fun st hst d hd x hx =>
    List.mem_cons_of_mem _ (hst d hd x hx)
  constructor
  · exact fun d hd x hx => List.mem_cons_of_mem _ (h.sub d hd x hx)
  · intro st hst
    by_cases hc : c ∈ st.seen
    · rw [e1 st hc]; exact h.items st hst
    · rw [e2 st hc]; exact h.items _ (hok st hst)
  · intro st hst x
    by_cases hc : c ∈ st.seen
    · rw [e1 st hc, h.seen st hst, List.mem_cons]
      constructor
      · rintro (h1 | h1)
        · exact .inl h1
        · exact .inr (.inr h1)
      · rintro (h1 | h1 | h1)
        · exact .inl h1
        · subst h1; exact .inl hc
        · exact .inr h1
    · rw [e2 st hc]
      show x ∈ (s _).2.seen ↔ _
      rw [h.seen _ (hok st hst)]
      simp only [List.mem_cons]
      constructor
      · rintro ((h1 | h1) | h1)
        · exact .inr (.inl h1)
        · exact .inl h1
        · exact .inr (.inr h1)
      · rintro (h1 | h1 | h1)
        · exact .inl (.inr h1)
        · exact .inl (.inl h1)
        · exact .inr h1
  · intro st hst hn
    by_cases hc : c ∈ st.seen
    · rw [e1 st hc]; exact h.nodup st hst hn
    · rw [e2 st hc]; exact h.nodup _ (hok st hst) (List.nodup_cons.mpr ⟨hc, hn⟩)
  · intro st hst
    by_cases hc : c ∈ st.seen
    · rw [e1 st hc]; exact h.count st hst
    · rw [e2 st hc]
      have := h.count _ (hok st hst)
      simp only [List.length_cons, numCount] at this ⊢
      omega
  · intro st hst
    by_cases hc : c ∈ st.seen
    · rw [e1 st hc]; exact h.strs st hst
    · rw [e2 st hc]; exact h.strs _ (hok st hst)
  · intro st hst hl i hi
    by_cases hc : c ∈ st.seen
    · rw [e1 st hc] at hl hi; exact h.small st hst hl i hi
    · rw [e2 st hc] at hl hi
      simp only [List.mem_cons, Tok.num.injEq] at hi
      rcases hi with hi | hi | hi
      · omega
      · omega
      · exact h.small _ (hok st hst) hl i hi

theorem u32_lt64 (x : U32) : x.toNat < 2 ^ 64 := by have := x.isLt; omega

/-- The same with other descriptions. -/
theorem Wrote.same {s : Save} {n n' : Nat} {ns ns' : List Name} {ds ds' : List Body} {cs cs' : List Cls}
    (h : Wrote s n ns ds cs) (hn : n = n') (hs : ns = ns') (hd : ds = ds') (hc : ∀ c, c ∈ cs ↔ c ∈ cs') : Wrote s n' ns' ds' cs' := by
  subst hn hs hd
  exact ⟨fun d hd c hcc => (hc c).mp (h.sub d hd c hcc), h.items, fun st hst c => by rw [h.seen st hst, hc], h.nodup, h.count,
    h.strs, h.small⟩

theorem flatMap_none {α β : Type} (as : List α) : (as.flatMap fun _ => ([] : List β)) = [] := by
  induction as with
  | nil => rfl
  | cons a as ih => rw [List.flatMap_cons, ih]; rfl

theorem sum_const {α : Type} (k : Nat) (as : List α) : (as.map fun _ => k).sum = k * as.length := by
  induction as with
  | nil => rfl
  | cons a as ih => rw [List.map_cons, List.sum_cons, ih, List.length_cons, Nat.mul_succ]; omega

theorem mem_flatMap_const {α β : Type} (as : List α) (c x : β) : x ∈ (as.flatMap fun _ => [c]) ↔ as ≠ [] ∧ x = c := by
  cases as with
  | nil => simp
  | cons a as =>
    simp only [List.mem_flatMap, List.mem_singleton]
    exact ⟨fun ⟨_, _, h⟩ => ⟨by simp, h⟩, fun h => ⟨a, List.mem_cons_self, h.2⟩⟩

theorem wrote_type (t : TypeDesc) : Wrote (saveType t) 3 [] [] [.typeDesc] :=
  .object _ ((Wrote.nat (u32_lt64 _)).seq ((Wrote.nat (by cases t.format <;> decide)).seq (Wrote.nat (u32_lt64 _))))

theorem wrote_bufferSize (b : BufferSize) : Wrote (saveBufferSize b) 2 [] [] [.bufferSize] :=
  .object _ ((Wrote.nat b.address.isLt).seq (Wrote.nat b.size.isLt))

theorem wrote_value (v : VarInfo) : Wrote (saveValue v) (v.numbers - 6) [] [] [] := by
  unfold saveValue VarInfo.numbers
  cases v.value with
  | blob bs =>
    refine (Wrote.list (n := fun _ => 1) (ns := fun _ => []) (ds := fun _ => []) (cs := fun _ => [])
      fun b _ => Wrote.char b).same ?_ (flatMap_none _) (flatMap_none _) fun c => by rw [flatMap_none]
    rw [sum_const, List.length_take]
    dsimp only
    omega
  | word u => exact .nat u.isLt

theorem wrote_var (v : VarInfo) : Wrote (saveVar v) v.numbers [] [] [.varInfo] := by
  have hb : (if v.hasBufferSize then 1 else 0) < 2 ^ 64 := by split <;> decide
  refine (Wrote.object .varInfo ((Wrote.nat (u32_lt64 _)).seq ((Wrote.nat (u32_lt64 _)).seq ((Wrote.nat (by cases v.format <;> decide)).seq
    ((Wrote.nat (u32_lt64 _)).seq ((Wrote.nat v.bufferSize.isLt).seq ((Wrote.nat hb).seq (wrote_value v)))))))).same ?_ rfl rfl
    fun c => Iff.rfl
  have : 6 ≤ v.numbers := Nat.le_add_right _ _
  omega

theorem wrote_body (d : Body) (h1 : d.sizes.length < 2 ^ 64) (h2 : d.vars.length < 2 ^ 64) (h3 : d.aux.length < 2 ^ 64) :
    Wrote (saveBody d) d.numbers [] [] d.classes := by
  have hs := Wrote.list (as := d.sizes) fun b _ => wrote_bufferSize b
  have hv := Wrote.list (as := d.vars) fun v _ => wrote_var v
  have ha := Wrote.list (as := d.aux) (f := fun a => saveNat a.toNat) fun a _ => Wrote.nat a.isLt
  refine (Wrote.object .pointData ((Wrote.nat h1).seq ((Wrote.nat h2).seq ((Wrote.nat h3).seq (hs.seq (hv.seq ha)))))).same ?_ ?_ ?_ ?_
  · rw [sum_const, sum_const]
    unfold Body.numbers
    have : (d.vars.map fun v => v.numbers) = d.vars.map VarInfo.numbers := rfl
    rw [this]
    omega
  · simp only [flatMap_none, List.append_nil]
  · simp only [flatMap_none, List.append_nil]
  · intro c
    unfold Body.classes
    simp only [flatMap_none, List.append_nil, List.nil_append, List.mem_cons, List.mem_append, mem_flatMap_const]
    by_cases e1 : d.sizes = [] <;> by_cases e2 : d.vars = [] <;> simp [e1, e2]

theorem bodySum_append (a b : List Body) : bodySum (a ++ b) = bodySum a + bodySum b := by
  simp [bodySum]

theorem wrote_shared (d : Body) (h1 : d.sizes.length < 2 ^ 64) (h2 : d.vars.length < 2 ^ 64) (h3 : d.aux.length < 2 ^ 64) :
    Wrote (saveShared d) 1 [] [d] d.classes := by
  have hb := wrote_body d h1 h2 h3
  have hmem : ∀ st : ArchState, d ∈ st.items ↔ st.items.findIdx (· == d) < st.items.length := fun st => by
    rw [List.findIdx_lt_length]; simp
  have e1 : ∀ st : ArchState, d ∈ st.items → saveShared d st = ([.num (st.items.findIdx (· == d) : Nat)], st) := fun st hd => by
    unfold saveShared
    simp only [if_pos ((hmem st).mp hd)]
  have e2 : ∀ st : ArchState, d ∉ st.items → saveShared d st = (.num (st.items.findIdx (· == d) : Nat) :: (saveBody d st).1,
      { (saveBody d st).2 with items := (saveBody d st).2.items ++ [d] }) := fun st hd => by
    unfold saveShared
    simp only [if_neg (fun hh => hd ((hmem st).mpr hh))]
  have a1 : ∀ st : ArchState, d ∈ st.items → addAll st.items [d] = st.items := fun st hd => by simp [addAll, hd]
  have a2 : ∀ st : ArchState, d ∉ st.items → addAll st.items [d] = st.items ++ [d] := fun st hd => by simp [addAll, hd]
  have b1 : ∀ st, ArchOk st → (saveBody d st).2.items = st.items := fun st hst => hb.items st hst
  constructor
  · intro d' hd' c hc
    rw [List.mem_singleton.mp hd'] at hc
    exact hc
  · intro st hst
    by_cases hd : d ∈ st.items
    · rw [e1 st hd, a1 st hd]
    · rw [e2 st hd, a2 st hd, b1 st hst]
  · intro st hst c
    by_cases hd : d ∈ st.items
    · rw [e1 st hd]
      exact ⟨.inl, fun h => h.elim id (hst d hd c)⟩
    · rw [e2 st hd]
      exact hb.seen st hst c
  · intro st hst hn
    by_cases hd : d ∈ st.items
    · rw [e1 st hd]; exact hn
    · rw [e2 st hd]; exact hb.nodup st hst hn
  · intro st hst
    by_cases hd : d ∈ st.items
    · rw [e1 st hd]; simp only [numCount]
    · rw [e2 st hd]
      have := hb.count st hst
      rw [b1 st hst] at this
      simp only [numCount, b1 st hst, bodySum_append]
      have hd1 : bodySum [d] = d.numbers := by simp [bodySum]
      rw [hd1]
      omega
  · intro st hst
    by_cases hd : d ∈ st.items
    · rw [e1 st hd]; rfl
    · rw [e2 st hd]; exact hb.strs st hst
  · intro st hst hl i hi
    have hle : st.items.findIdx (· == d) ≤ st.items.length := List.findIdx_le_length
    by_cases hd : d ∈ st.items
    · rw [e1 st hd] at hl hi
      simp only [List.mem_cons, List.not_mem_nil, or_false, Tok.num.injEq] at hi hl
      omega
    · rw [e2 st hd] at hl hi
      simp only [List.length_append, List.length_cons, List.length_nil, b1 st hst] at hl
      simp only [List.mem_cons, Tok.num.injEq] at hi
      rcases hi with hi | hi
      · omega
      · exact hb.small st hst (by rw [b1 st hst]; omega) i hi

/-- The classes of a point's objects. -/
def Point.classes (p : Point) : List Cls := .tracePoint :: .flyweight :: p.body.classes

theorem wrote_point (p : Point) (h1 : p.sizes.length < 2 ^ 64) (h2 : p.vars.length < 2 ^ 64) (h3 : p.aux.length < 2 ^ 64) :
    Wrote (savePoint p) 3 [] [p.body] p.classes :=
  .object _ ((Wrote.nat p.counter.isLt).seq ((Wrote.nat p.statement.isLt).seq (.object .flyweight (wrote_shared p.body h1 h2 h3))))

/-- The classes of a trace's objects. -/
def Trace.classes (t : Trace) : List Cls :=
  .trace :: (t.points.flatMap Point.classes ++ t.types.flatMap fun _ => [.typeDesc])

theorem flatMap_single {α β : Type} (g : α → β) (as : List α) : (as.flatMap fun a => [g a]) = as.map g := by
  induction as with
  | nil => rfl
  | cons a as ih => rw [List.flatMap_cons, ih]; rfl

theorem wrote_trace (t : Trace) (h : t.Counts) :
    Wrote (saveTrace t) t.numbers t.names (t.points.map Point.body) t.classes := by
  have hp := Wrote.list (as := t.points) fun p hp => wrote_point p (h.sizes p hp) (h.vars p hp) (h.aux p hp)
  have hn := Wrote.list (as := t.names) fun n _ => Wrote.str n
  have ht := Wrote.list (as := t.types) fun x _ => wrote_type x
  refine (Wrote.object .trace ((Wrote.nat (Nat.mod_lt _ (by decide))).seq
    ((Wrote.nat (Nat.lt_trans (Nat.mod_lt _ (show 0 < 2 ^ 32 by decide)) (by decide))).seq
      ((Wrote.nat (Nat.lt_trans (Nat.mod_lt _ (show 0 < 2 ^ 32 by decide)) (by decide))).seq (hp.seq (hn.seq ht)))))).same ?_ ?_ ?_ ?_
  · simp only [sum_const]
    unfold Trace.numbers
    omega
  · simp only [flatMap_none, flatMap_single, List.append_nil, List.nil_append, List.map_id']
  · simp only [flatMap_none, flatMap_single, List.append_nil, List.nil_append]
  · intro c
    unfold Trace.classes
    simp only [flatMap_none, List.nil_append]

theorem wrote_traces (ts : List Trace) (hl : ts.length < 2 ^ 64) (h : ∀ t ∈ ts, t.Counts) :
    Wrote (saveTraces ts) (1 + (ts.map Trace.numbers).sum) (storedNames ts) (ts.flatMap fun t => t.points.map Point.body)
      (.traceDB :: ts.flatMap Trace.classes) :=
  .object _ ((Wrote.nat hl).seq (Wrote.list fun t ht => wrote_trace t (h t ht)))

/-! The classes -/

/-- The classes that occur. -/
def occurs (ts : List Trace) : Cls → Bool
  | .traceDB => true
  | .trace => !ts.isEmpty
  | .tracePoint | .flyweight | .pointData => !(allPoints ts).isEmpty
  | .bufferSize => (allPoints ts).any fun p => !p.sizes.isEmpty
  | .varInfo => (allPoints ts).any fun p => !p.vars.isEmpty
  | .typeDesc => ts.any fun t => !t.types.isEmpty

/-- All classes. -/
def allCls : List Cls := [.traceDB, .trace, .tracePoint, .flyweight, .pointData, .bufferSize, .varInfo, .typeDesc]

theorem kinds_eq (ts : List Trace) : (allCls.filter (occurs ts)).length = kinds ts := by
  unfold kinds allCls
  simp only [List.filter, occurs]
  cases !ts.isEmpty <;> cases !(allPoints ts).isEmpty <;> cases (allPoints ts).any fun p => !p.sizes.isEmpty <;>
    cases (allPoints ts).any fun p => !p.vars.isEmpty <;> cases ts.any fun t => !t.types.isEmpty <;> rfl

theorem mem_body_classes (d : Body) (c : Cls) : c ∈ d.classes ↔
    c = .pointData ∨ (d.sizes ≠ [] ∧ c = .bufferSize) ∨ (d.vars ≠ [] ∧ c = .varInfo) := by
  unfold Body.classes
  by_cases e1 : d.sizes = [] <;> by_cases e2 : d.vars = [] <;> simp [e1, e2]

theorem mem_classes (ts : List Trace) (c : Cls) : c ∈ Cls.traceDB :: ts.flatMap Trace.classes ↔ occurs ts c = true := by
  have hpts : ts.flatMap (·.points) ≠ [] ↔ ∃ t ∈ ts, ∃ p, p ∈ t.points := by
    constructor
    · intro h
      obtain ⟨p, hp⟩ := List.exists_mem_of_ne_nil _ h
      obtain ⟨t, ht, hp⟩ := List.mem_flatMap.mp hp
      exact ⟨t, ht, p, hp⟩
    · rintro ⟨t, ht, p, hp⟩ h
      have : p ∈ ts.flatMap (·.points) := List.mem_flatMap.mpr ⟨t, ht, hp⟩
      rw [h] at this
      simp at this
  have hne : ∀ {α : Type} (l : List α), (!l.isEmpty) = true ↔ l ≠ [] := fun l => by cases l <;> simp
  cases c <;> simp only [occurs, List.mem_cons, List.mem_flatMap, Trace.classes, Point.classes, List.mem_append, mem_body_classes,
    reduceCtorEq, false_or, or_false, and_false, true_or, or_true, and_true, List.any_eq_true, hne, allPoints,
    List.not_mem_nil, exists_false]
  · constructor
    · rintro ⟨t, ht⟩ rfl
      simp at ht
    · exact List.exists_mem_of_ne_nil _
  · exact hpts.symm
  · exact hpts.symm
  · exact hpts.symm
  · exact ⟨fun ⟨t, ht, p, hp, h⟩ => ⟨p, ⟨t, ht, hp⟩, h⟩, fun ⟨p, ⟨t, ht, hp⟩, h⟩ => ⟨t, ht, p, hp, h⟩⟩
  · exact ⟨fun ⟨t, ht, p, hp, h⟩ => ⟨p, ⟨t, ht, hp⟩, h⟩, fun ⟨p, ⟨t, ht, hp⟩, h⟩ => ⟨t, ht, p, hp, h⟩⟩
  · constructor
    · rintro ⟨t, ht, x, hx⟩
      exact ⟨t, ht, fun e => by rw [e] at hx; simp at hx⟩
    · rintro ⟨t, ht, h⟩
      exact ⟨t, ht, List.exists_mem_of_ne_nil _ h⟩

/-! Bytes -/

theorem decimalAux_length (fuel : Nat) : ∀ (k n : Nat) (acc : List U8), n < 10 ^ (k + 1) →
    (decimalAux fuel n acc).length ≤ k + 1 + acc.length := by
  induction fuel with
  | zero => intro k n acc _; simp only [decimalAux]; omega
  | succ fuel ih =>
    intro k n acc h
    unfold decimalAux
    split
    · simp only [List.length_cons]; omega
    · rename_i hn
      cases k with
      | zero => omega
      | succ k =>
        have : n / 10 < 10 ^ (k + 1) := by
          rw [Nat.div_lt_iff_lt_mul (by decide)]
          rw [Nat.pow_succ] at h
          exact h
        have := ih k (n / 10) (digitChar (n % 10) :: acc) this
        simp only [List.length_cons] at this
        omega

theorem decimal_length {n : Nat} (h : n < 2 ^ 64) : 1 ≤ (decimal n).length ∧ (decimal n).length ≤ 20 := by
  refine ⟨List.length_pos_iff.mpr (decimal_ne_nil n), ?_⟩
  have := decimalAux_length (n + 1) 19 n [] (Nat.lt_trans h (by decide))
  exact this

theorem intText_length {i : Int} (h1 : -128 ≤ i) (h2 : i < 2 ^ 64) : 1 ≤ (intText i).length ∧ (intText i).length ≤ 20 := by
  cases i with
  | ofNat n =>
    refine decimal_length (n := n) ?_
    have : (n : Int) < 2 ^ 64 := h2
    omega
  | negSucc n =>
    unfold intText
    have hn : n + 1 < 10 ^ (2 + 1) := by omega
    have := decimalAux_length (n + 1 + 1) 2 (n + 1) [] hn
    simp only [List.length_cons, List.length_nil] at this ⊢
    unfold decimal
    omega

theorem toksText_length (ts : List Tok) (h1 : ∀ i, Tok.num i ∈ ts → -128 ≤ i ∧ i < 2 ^ 64)
    (h2 : ∀ n ∈ strsOf ts, n.length < 2 ^ 64) :
    2 * numCount ts + 3 * (strsOf ts).length + nameBytes (strsOf ts) ≤ (toksText ts).length ∧
    (toksText ts).length ≤ 21 * numCount ts + 22 * (strsOf ts).length + nameBytes (strsOf ts) := by
  induction ts with
  | nil => simp [toksText, numCount, strsOf, nameBytes]
  | cons t ts ih =>
    have hc : (toksText (t :: ts)).length = (tokText t).length + (toksText ts).length := by
      simp only [toksText, List.flatMap_cons, List.length_append]
    rw [hc]
    cases t with
    | num i =>
      obtain ⟨g1, g2⟩ := ih (fun i hi => h1 i (List.mem_cons_of_mem _ hi)) h2
      obtain ⟨a1, a2⟩ := h1 i List.mem_cons_self
      obtain ⟨b1, b2⟩ := intText_length a1 a2
      simp only [numCount, strsOf, tokText, List.length_cons]
      omega
    | str s =>
      obtain ⟨g1, g2⟩ := ih (fun i hi => h1 i (List.mem_cons_of_mem _ hi)) fun n hn => h2 n (List.mem_cons_of_mem _ hn)
      obtain ⟨b1, b2⟩ := decimal_length (h2 s List.mem_cons_self)
      simp only [numCount, strsOf, tokText, List.length_cons, List.length_append, nameBytes, List.map_cons, List.sum_cons] at *
      omega

theorem archOk_init : ArchOk .init := fun d hd => by simp [ArchState.init] at hd

theorem addAll_total (ts : List Trace) (hp : (ts.map fun t => t.points.length).sum < 2 ^ 64) :
    (addAll [] (ts.flatMap fun t => t.points.map Point.body)).length < 2 ^ 64 := by
  have h := addAll_length_le [] (ts.flatMap fun t => t.points.map Point.body)
  rw [List.length_flatMap] at h
  simp only [List.length_map, List.length_nil, Nat.zero_add] at h
  exact Nat.lt_of_le_of_lt h hp

/-- What the text of a database is made of. -/
theorem saved_counts (db : Db) (hc : db.Counts) (ds : List Body) (hd : DifferentData db.traces ds) :
    numCount (saveTraces db.traces .init).1 + 1 = storedNumbers db.traces ds ∧
    strsOf (saveTraces db.traces .init).1 = storedNames db.traces ∧
    ∀ i, Tok.num i ∈ (saveTraces db.traces .init).1 → -128 ≤ i ∧ i < 2 ^ 64 := by
  have w := wrote_traces db.traces hc.traces hc.each
  have hit := w.items .init archOk_init
  refine ⟨?_, w.strs _ archOk_init, w.small _ archOk_init (by rw [hit]; exact addAll_total db.traces hc.points)⟩
  have hcount := w.count _ archOk_init
  have hseen : ((saveTraces db.traces .init).2.seen).length = kinds db.traces := by
    rw [← kinds_eq]
    refine List.Perm.length_eq ((List.perm_ext_iff_of_nodup (w.nodup _ archOk_init List.nodup_nil) ?_).mpr fun c => ?_)
    · exact List.Pairwise.filter _ (show allCls.Nodup by decide)
    · rw [w.seen _ archOk_init, mem_classes, List.mem_filter]
      have : c ∈ allCls := by cases c <;> decide
      simp [this, ArchState.init]
  have hsum : bodySum (saveTraces db.traces .init).2.items = (ds.map Body.numbers).sum := by
    rw [hit]
    refine List.Perm.sum_nat (List.Perm.map _ ((List.perm_ext_iff_of_nodup (addAll_nodup _ _ List.nodup_nil) hd.once).mpr fun d => ?_))
    rw [mem_addAll, hd.exactly]
    simp only [List.not_mem_nil, false_or, List.mem_flatMap, List.mem_map]
  rw [hseen, hsum] at hcount
  unfold storedNumbers
  simp only [ArchState.init, List.length_nil, bodySum, List.map_nil, List.sum_nil] at hcount
  simp only [ArchState.init]
  omega

theorem archiveText_length (version : Nat) (ts : List Trace) :
    (archiveText version ts).length = 25 + (1 + (decimal version).length) + (toksText (saveTraces ts .init).1).length := by
  unfold archiveText
  rw [List.length_tail]
  simp only [toksText, List.flatMap_cons, List.length_append, tokText, List.length_cons]
  have h1 : (decimal archiveSignature.length).length = 2 := by decide
  have h2 : archiveSignature.length = 22 := by decide
  have h3 : (intText (version : Nat)).length = (decimal version).length := rfl
  rw [h1, h2, h3]
  omega

/-! One more trace -/

theorem saveList_snoc {α : Type} (f : α → Save) (as : List α) (a : α) (st : ArchState) :
    saveList f (as ++ [a]) st = (saveList f as).seq (f a) st := by
  induction as generalizing st with
  | nil =>
    show (f a).seq Save.nil st = Save.nil.seq (f a) st
    simp [Save.seq, Save.nil]
  | cons b as ih =>
    show (f b).seq (saveList f (as ++ [a])) st = ((f b).seq (saveList f as)).seq (f a) st
    simp only [Save.seq, ih, List.append_assoc]

theorem saveTraces_init (ts : List Trace) : (saveTraces ts .init).1 =
    .num 0 :: .num 0 :: .num (ts.length : Nat) :: (saveList saveTrace ts ⟨[.traceDB], []⟩).1 := by
  simp [saveTraces, saveObject, ArchState.init, Save.seq, saveNat]

theorem addAll_known (items : List Body) : ∀ (ds : List Body), (∀ d ∈ ds, d ∈ items) → addAll items ds = items
  | [], _ => rfl
  | d :: ds, h => by
    have hd := h d List.mem_cons_self
    have := addAll_known items ds fun x hx => h x (List.mem_cons_of_mem _ hx)
    simp only [addAll, List.foldl_cons, if_pos hd] at this ⊢
    exact this

theorem nodup_cls_length {l : List Cls} (h : l.Nodup) : l.length ≤ 8 := by
  have : (allCls.filter (· ∈ l)).Perm l :=
    (List.perm_ext_iff_of_nodup (List.Pairwise.filter _ (show allCls.Nodup by decide)) h).mpr fun c => by
      have : c ∈ allCls := by cases c <;> decide
      simp [this]
  rw [← this.length_eq]
  exact List.length_filter_le _ _

theorem toksText_cons_length (x : Tok) (l : List Tok) : (toksText (x :: l)).length = (tokText x).length + (toksText l).length := by
  simp only [toksText, List.flatMap_cons, List.length_append]

theorem one_more_length (ts : List Trace) (t : Trace) (hl : ts.length + 1 < 2 ^ 64) (hc : ∀ x ∈ ts, x.Counts) (ht : t.Counts)
    (hp : (ts.map fun t => t.points.length).sum < 2 ^ 64)
    (hk : ∀ p ∈ t.points, ∃ x ∈ ts, ∃ q ∈ x.points, q.body = p.body) :
    (toksText (saveTraces (ts ++ [t]) .init).1).length ≤ (toksText (saveTraces ts .init).1).length +
      21 * (t.numbers + 17) + 22 * t.names.length + nameBytes t.names := by
  have w1 := Wrote.list fun x hx => wrote_trace x (hc x hx)
  have w2 := wrote_trace t ht
  have ok0 : ArchOk ⟨[.traceDB], []⟩ := fun d hd => by simp at hd
  have ok1 := w1.ok ok0
  have hi1 := w1.items _ ok0
  rw [saveTraces_init, saveTraces_init, saveList_snoc]
  simp only [Save.seq]
  generalize hst : (saveList saveTrace ts ⟨[.traceDB], []⟩).2 = st at *
  have hknown : (saveTrace t st).2.items = st.items := by
    rw [w2.items st ok1]
    refine addAll_known _ _ fun d hd => ?_
    obtain ⟨p, hpp, rfl⟩ := List.mem_map.mp hd
    obtain ⟨x, hx, q, hq, e⟩ := hk p hpp
    rw [hi1, mem_addAll, ← e]
    exact .inr (List.mem_flatMap.mpr ⟨x, hx, List.mem_map.mpr ⟨q, hq, rfl⟩⟩)
  have hn1 : st.seen.Nodup := by rw [← hst]; exact w1.nodup _ ok0 (by simp)
  have hn2 := nodup_cls_length (w2.nodup st ok1 hn1)
  have hcount := w2.count st ok1
  rw [hknown] at hcount
  have hsm := w2.small st ok1 (by rw [hknown, hi1]; exact addAll_total ts hp)
  have hstr := w2.strs st ok1
  have hlen := (toksText_length (saveTrace t st).1 hsm (by rw [hstr]; exact ht.name)).2
  rw [hstr] at hlen
  have d1 := (decimal_length hl).2
  have d2 := (decimal_length (show ts.length < 2 ^ 64 by omega)).1
  have e1 : (toksText (.num 0 :: .num 0 :: .num ((ts ++ [t]).length : Nat) :: ((saveList saveTrace ts ⟨[.traceDB], []⟩).1 ++ (saveTrace t st).1))).length =
      4 + (1 + (decimal (ts.length + 1)).length) + (toksText (saveList saveTrace ts ⟨[.traceDB], []⟩).1).length + (toksText (saveTrace t st).1).length := by
    have z : (tokText (.num 0)).length = 2 := by decide
    have z' : (tokText (.num ((ts ++ [t]).length : Nat))).length = 1 + (decimal (ts.length + 1)).length := by
      rw [List.length_append]
      show (32 :: decimal _).length = _
      rw [List.length_cons (a := (32 : U8)), List.length_cons (a := t), List.length_nil, Nat.add_comm]
    rw [toksText_cons_length, toksText_cons_length, toksText_cons_length, toksText_append, List.length_append (bs := toksText (saveTrace t st).1), z, z']
    omega
  have e2 : (toksText (.num 0 :: .num 0 :: .num (ts.length : Nat) :: (saveList saveTrace ts ⟨[.traceDB], []⟩).1)).length =
      4 + (1 + (decimal ts.length).length) + (toksText (saveList saveTrace ts ⟨[.traceDB], []⟩).1).length := by
    have z : (tokText (.num 0)).length = 2 := by decide
    have z' : (tokText (.num (ts.length : Nat))).length = 1 + (decimal ts.length).length := by
      show (32 :: decimal _).length = _
      rw [List.length_cons]
      omega
    rw [toksText_cons_length, toksText_cons_length, toksText_cons_length, z, z']
    omega
  rw [e1, e2]
  omega

end TraceDB
