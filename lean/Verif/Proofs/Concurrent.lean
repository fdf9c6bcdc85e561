import Verif.Spec.Concurrent
import Verif.Proofs.SameAnswers
/-
Lemmas about concurrent additions of traces.
-/
namespace TraceDB

/-! Ends of a process under arbitrary interference -/

/-- The process can end with `r` when loads of the static variable give arbitrary
values. -/
inductive Proc.Ends {α : Type} : Proc α → Res α → Prop
  | done {r : Res α} : Proc.Ends (.done r) r
  | store {got : List U8} {k : Proc α} {r : Res α} : Proc.Ends k r → Proc.Ends (.store got k) r
  | load {k : U64 → Proc α} {v : U64} {r : Res α} : Proc.Ends (k v) r → Proc.Ends (.load k) r

/-- All ends of `p` are related to `x`. -/
def Proc.Refines {α β : Type} (R : α → β → Prop) (p : Proc α) (x : Res β) : Prop :=
  ∀ r, p.Ends r → Res.Rel R r x

theorem Proc.refines_done {α β : Type} {R : α → β → Prop} {r : Res α} {x : Res β} (h : Res.Rel R r x) :
    Proc.Refines R (.done r) x := by
  intro r' hr
  cases hr
  exact h

theorem Proc.refines_store {α β : Type} {R : α → β → Prop} {got : List U8} {k : Proc α} {x : Res β}
    (h : Proc.Refines R k x) : Proc.Refines R (.store got k) x := by
  intro r hr
  cases hr with
  | store hr => exact h r hr

theorem Proc.refines_load {α β : Type} {R : α → β → Prop} {k : U64 → Proc α} {x : Res β}
    (h : ∀ v, Proc.Refines R (k v) x) : Proc.Refines R (.load k) x := by
  intro r hr
  cases hr with
  | load hr => exact h _ r hr

theorem Proc.refines_bind {α β γ δ : Type} {R : α → β → Prop} {S : γ → δ → Prop} {f : α → Proc γ} {g : β → Res δ}
    (p : Proc α) (x : Res β) (h : Proc.Refines R p x) (hf : ∀ a b, R a b → Proc.Refines S (f a) (g b)) :
    Proc.Refines S (p.bind f) (x >>= g) := by
  induction p with
  | done r =>
    have h' := h r .done
    cases r <;> cases x <;> simp only [Res.Rel] at h'
    · exact hf _ _ h'
    · exact Proc.refines_done (by simp [Res.Rel, h'])
    · exact Proc.refines_done (by simp [Res.Rel])
    · exact Proc.refines_done (by simp [Res.Rel, h'])
    · exact Proc.refines_done (by simp [Res.Rel])
  | store got k ih => exact Proc.refines_store (ih fun r hr => h r (.store hr))
  | load k ih => exact Proc.refines_load fun v => ih v fun r hr => h r (.load hr)

/-- Binding a computation that does not touch the static variable. -/
theorem Proc.refines_done_bind {α γ δ : Type} {S : γ → δ → Prop} {f : α → Proc γ} {g : α → Res δ} (x : Res α)
    (hf : ∀ a, Proc.Refines S (f a) (g a)) : Proc.Refines S ((Proc.done x).bind f) (x >>= g) :=
  Proc.refines_bind (R := Eq) _ _ (Proc.refines_done (Res.Rel.refl (fun _ => rfl) x)) (fun a b e => e ▸ hf a)

/-- Equal except for the auxiliary values. -/
def PointAcc.Like (a b : PointAcc) : Prop :=
  a.statement = b.statement ∧ a.sizes = b.sizes ∧ a.vars = b.vars ∧ a.aux.length = b.aux.length

theorem readEntriesP_refines (I : MapImpl) (env : Env) (names : List Name) (types : List TypeDesc) (fuel : Nat)
    (s : IStream) (map : I.M) (a b : PointAcc) (hab : a.Like b) :
    Proc.Refines (fun x y => x.1 = y.1 ∧ x.2.1 = y.2.1 ∧ x.2.2.Like y.2.2)
      (readEntriesP I env names types fuel s map a) (readEntries I env names types fuel s map b) := by
  induction fuel generalizing s map a b with
  | zero => exact Proc.refines_done (by simp [Res.Rel, readEntries])
  | succ fuel ih =>
    unfold readEntriesP readEntries
    refine Proc.refines_done_bind _ ?_
    rintro ⟨c, s⟩
    simp only
    split
    · exact Proc.refines_done ⟨rfl, rfl, hab⟩
    · split
      · refine Proc.refines_done_bind _ ?_
        rintro ⟨got, s⟩
        simp only
        split
        · exact ih _ _ _ _ ⟨rfl, hab.2.1, hab.2.2.1, hab.2.2.2⟩
        · exact ih _ _ _ _ hab
      · refine Proc.refines_done_bind _ ?_
        rintro ⟨info, s⟩
        exact ih _ _ _ _ ⟨hab.1, hab.2.1, by simp [hab.2.2.1], hab.2.2.2⟩
      · refine Proc.refines_done_bind _ ?_
        rintro ⟨size, s⟩
        refine Proc.refines_done_bind _ ?_
        intro map
        exact ih _ _ _ _ ⟨hab.1, by simp [hab.2.1], hab.2.2.1, hab.2.2.2⟩
      · simp only [readUInt, Res.bind_assoc, Res.pure_eq]
        refine Proc.refines_done_bind _ ?_
        rintro ⟨got, s⟩
        refine Proc.refines_store (Proc.refines_load fun v => ?_)
        exact ih _ _ _ _ ⟨hab.1, hab.2.1, hab.2.2.1, by simp [hab.2.2.2]⟩
      · split <;> first | exact Proc.refines_done rfl | simp_all

theorem readPointsP_refines (I : MapImpl) (env : Env) (names : List Name) (types : List TypeDesc) (maxPoints : U64)
    (fuel i : Nat) (s : IStream) (map : I.M) (a b : List Point) (hab : a.map Point.forgetAux = b.map Point.forgetAux) :
    Proc.Refines (fun x y => x.map Point.forgetAux = y.map Point.forgetAux)
      (readPointsP I env names types maxPoints fuel i s map a) (readPoints I env names types maxPoints fuel i s map b) := by
  induction fuel generalizing i s map a b with
  | zero => exact Proc.refines_done (by simp [Res.Rel, readPoints])
  | succ fuel ih =>
    unfold readPointsP readPoints
    split
    · refine Proc.refines_bind _ _ (readEntriesP_refines I env names types _ s map .empty .empty ⟨rfl, rfl, rfl, rfl⟩) ?_
      rintro ⟨s1, map1, p1⟩ ⟨s2, map2, p2⟩ ⟨h1, h2, h3⟩
      simp only at h1 h2 h3
      subst h1; subst h2
      simp only
      split
      · rw [h3.1]
        refine Proc.refines_done_bind _ ?_
        intro st
        refine ih _ _ _ _ _ ?_
        have haux : ∀ (l l' : List U64), l.length = l'.length → l.map (fun _ => (0 : U64)) = l'.map fun _ => 0 := by
          intro l l' h
          rw [List.map_const', List.map_const', h]
        simp only [List.map_append, hab, List.map_cons, List.map_nil, Point.forgetAux, h3.2.1, h3.2.2.1,
          haux _ _ h3.2.2.2]
      · exact ih _ _ _ _ _ hab
    · exact Proc.refines_done hab

theorem readTraceP_refines (env : Env) (maxPoints : U64) (s : IStream) :
    Proc.Refines SameButAux (readTraceP env maxPoints s) (readTrace env maxPoints s) := by
  unfold readTraceP readTrace readTraceWith
  refine Proc.refines_done_bind _ ?_
  rintro ⟨names, s⟩
  refine Proc.refines_done_bind _ ?_
  rintro ⟨types, s⟩
  refine Proc.refines_bind _ _ (readPointsP_refines _ env names types maxPoints _ 0 s _ [] [] rfl) ?_
  intro a b hab
  exact Proc.refines_done ⟨rfl, rfl, hab⟩

/-! A process running alone -/

/-- Result and final contents of the static variable when nobody else uses it. -/
def Proc.alone {α : Type} : U64 → Proc α → Res α × U64
  | a, .done r => (r, a)
  | a, .store got k => k.alone (storeBytes a got)
  | a, .load k => (k a).alone a

theorem Proc.alone_bind {α β γ : Type} (p : Proc α) (f : α → Proc β) (x : Res α) (g : α → Res γ) (a : U64)
    (R : β → γ → Prop) (hp : (p.alone a).1 = x) (hf : ∀ v a', Res.Rel R ((f v).alone a').1 (g v)) :
    Res.Rel R ((p.bind f).alone a).1 (x >>= g) := by
  induction p generalizing a with
  | done r =>
    simp only [Proc.alone] at hp
    subst hp
    cases r
    · exact hf _ _
    all_goals simp [Proc.bind, Proc.alone, Res.Rel]
  | store got k ih =>
    simp only [Proc.alone] at hp
    exact ih _ hp
  | load k ih =>
    simp only [Proc.alone] at hp
    exact ih _ _ hp

theorem Res.rel_eq {α : Type} {x y : Res α} (h : Res.Rel Eq x y) : x = y := by
  cases x <;> cases y <;> simp_all [Res.Rel]

theorem Proc.alone_bind_eq {α β : Type} (p : Proc α) (f : α → Proc β) (x : Res α) (g : α → Res β) (a : U64)
    (hp : (p.alone a).1 = x) (hf : ∀ v a', ((f v).alone a').1 = g v) :
    ((p.bind f).alone a).1 = (x >>= g) :=
  Res.rel_eq (Proc.alone_bind p f x g a Eq hp fun v a' => by
    rw [hf v a']; exact Res.Rel.refl (fun _ => rfl) _)

/-- On a stream that is not good the loop does not look at what was read so far. -/
theorem readEntries_not_good (I : MapImpl) (env : Env) (names : List Name) (types : List TypeDesc) (fuel : Nat)
    (s : IStream) (map : I.M) (a b : PointAcc) (hs : s.st ≠ .good) :
    readEntries I env names types fuel s map a = readEntries I env names types fuel s map b := by
  cases fuel with
  | zero => rfl
  | succ fuel =>
    unfold readEntries readUInt binaryRead
    cases h : s.st with
    | good => exact absurd h hs
    | eof => rfl
    | bad => rfl

theorem leBytes_length' (n v : Nat) : (leBytes n v).length = n := by
  induction n generalizing v with
  | zero => rfl
  | succ n ih => simp [leBytes, ih]

theorem readEntriesP_alone (I : MapImpl) (env : Env) (names : List Name) (types : List TypeDesc) (fuel : Nat)
    (s : IStream) (map : I.M) (acc : PointAcc) (a : U64) :
    ((readEntriesP I env names types fuel s map acc).alone a).1 = readEntries I env names types fuel s map acc := by
  induction fuel generalizing s map acc a with
  | zero => rfl
  | succ fuel ih =>
    unfold readEntriesP readEntries
    refine Proc.alone_bind_eq _ _ _ _ _ rfl ?_
    rintro ⟨c, s⟩ a
    simp only
    split
    · rfl
    · split
      · refine Proc.alone_bind_eq _ _ _ _ _ rfl ?_
        rintro ⟨got, s⟩ a
        exact ih _ _ _ _
      · refine Proc.alone_bind_eq _ _ _ _ _ rfl ?_
        rintro ⟨info, s⟩ a
        exact ih _ _ _ _
      · refine Proc.alone_bind_eq _ _ _ _ _ rfl ?_
        rintro ⟨size, s⟩ a
        refine Proc.alone_bind_eq _ _ _ _ _ rfl ?_
        intro map a
        exact ih _ _ _ _
      · simp only [readUInt, Res.bind_assoc, Res.pure_eq, Res.ok_bind]
        cases hb : binaryRead s 8 with
        | ok q =>
          obtain ⟨got, s'⟩ := q
          simp only [Proc.bind, Proc.alone, Res.ok_bind]
          rw [ih]
          by_cases hl : got.length = 8
          · congr 3
            unfold storeBytes overlay
            rw [List.drop_of_length_le (by rw [leBytes_length', hl]; exact Nat.le_refl 8),
              List.drop_of_length_le (by rw [leBytes_length', hl]; exact Nat.le_refl 8)]
          · refine readEntries_not_good I env names types fuel s' map _ _ ?_
            unfold binaryRead at hb
            cases hst : s.st with
            | good =>
              rw [hst] at hb
              simp only [IStream.read, Res.ok.injEq] at hb
              split at hb
              · simp only [Prod.mk.injEq] at hb
                rw [← hb.1] at hl
                exact absurd (by simp; omega) hl
              · simp only [Prod.mk.injEq] at hb
                rw [← hb.2]
                simp only
                split <;> simp
            | eof => rw [hst] at hb; simp at hb
            | bad => rw [hst] at hb; simp at hb
        | throw e => rfl
        | abort => rfl
        | ub k => rfl
        | hang => rfl
      · split <;> first | rfl | simp_all

theorem readPointsP_alone (I : MapImpl) (env : Env) (names : List Name) (types : List TypeDesc) (maxPoints : U64)
    (fuel i : Nat) (s : IStream) (map : I.M) (acc : List Point) (a : U64) :
    ((readPointsP I env names types maxPoints fuel i s map acc).alone a).1 =
      readPoints I env names types maxPoints fuel i s map acc := by
  induction fuel generalizing i s map acc a with
  | zero => rfl
  | succ fuel ih =>
    unfold readPointsP readPoints
    split
    · refine Proc.alone_bind_eq _ _ _ _ _ (readEntriesP_alone I env names types _ s map .empty a) ?_
      rintro ⟨s, map, p⟩ a
      simp only
      split
      · refine Proc.alone_bind_eq _ _ _ _ _ rfl ?_
        intro st a
        exact ih _ _ _ _ _
      · exact ih _ _ _ _ _
    · rfl

theorem readTraceP_alone (env : Env) (maxPoints : U64) (s : IStream) (a : U64) :
    ((readTraceP env maxPoints s).alone a).1 = readTrace env maxPoints s := by
  unfold readTraceP readTrace readTraceWith
  refine Proc.alone_bind_eq _ _ _ _ _ rfl ?_
  rintro ⟨names, s⟩ a
  refine Proc.alone_bind_eq _ _ _ _ _ rfl ?_
  rintro ⟨types, s⟩ a
  refine Proc.alone_bind_eq _ _ _ _ _ (readPointsP_alone _ env names types maxPoints _ 0 s _ [] a) ?_
  intro points a
  rfl

end TraceDB
