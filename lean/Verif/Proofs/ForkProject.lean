import Verif.Spec.ForkProject
import Verif.Proofs.RunQuery
import Verif.Props.ForkThreads
/-
Helper lemmas for C105: programs of the same shape, and the points of programs that fork.
-/
namespace TraceDB

variable {α β γ : Type}

mutual
theorem FtItem.points_each {P : α → Prop} : ∀ {x : FtItem α} {rest : List (FkItem α)}, (∀ a ∈ x.points, P a) → FkEach P rest →
    FkEach P (x.asFork :: rest)
  | .point a, _, h, hr => by
    simp only [FtItem.points, List.mem_singleton, forall_eq] at h
    simp only [FtItem.asFork]
    exact .point h hr
  | .fork c, _, h, hr => by
    simp only [FtItem.points] at h
    simp only [FtItem.asFork]
    exact .fork (ftPoints_each h) hr
  | .spawn c, _, h, hr => by
    simp only [FtItem.points] at h
    simp only [FtItem.asFork]
    exact .fork (ftPoints_each h) hr
theorem ftPoints_each {P : α → Prop} : ∀ {l : List (FtItem α)}, (∀ a ∈ ftPoints l, P a) → FkEach P (ftAsFork l)
  | [], _ => by
    simp only [ftAsFork]
    exact .nil
  | x :: xs, h => by
    simp only [ftPoints, List.mem_append] at h
    simp only [ftAsFork]
    exact FtItem.points_each (fun a ha => h a (.inl ha)) (ftPoints_each fun a ha => h a (.inr ha))
end

theorem FtRel.mid {R : α → β → Prop} {P : α → β → γ → Prop} {l : List (FtItem α)} {m : List (FtItem β)} (h : FtRel R l m)
    (hp : ∀ a ∈ ftPoints l, ∀ b, R a b → ∃ c, P a b c) :
    ∃ n : List (FtItem γ), FtRel (fun a c => ∃ b, R a b ∧ P a b c) l n ∧ FtRel (fun c b => ∃ a, P a b c) n m := by
  induction h with
  | nil => exact ⟨[], .nil, .nil⟩
  | @point a b _ _ hab _ ih =>
    simp only [ftPoints, FtItem.points, List.mem_append, List.mem_singleton] at hp
    obtain ⟨n, h1, h2⟩ := ih fun a ha => hp a (.inr ha)
    obtain ⟨c, hc⟩ := hp a (.inl rfl) b hab
    exact ⟨.point c :: n, .point ⟨b, hab, hc⟩ h1, .point ⟨a, hc⟩ h2⟩
  | fork _ _ ih1 ih2 =>
    simp only [ftPoints, FtItem.points, List.mem_append] at hp
    obtain ⟨n, h1, h2⟩ := ih1 fun a ha => hp a (.inl ha)
    obtain ⟨n', h1', h2'⟩ := ih2 fun a ha => hp a (.inr ha)
    exact ⟨.fork n :: n', .fork h1 h1', .fork h2 h2'⟩
  | spawn _ _ ih1 ih2 =>
    simp only [ftPoints, FtItem.points, List.mem_append] at hp
    obtain ⟨n, h1, h2⟩ := ih1 fun a ha => hp a (.inl ha)
    obtain ⟨n', h1', h2'⟩ := ih2 fun a ha => hp a (.inr ha)
    exact ⟨.spawn n :: n', .spawn h1 h1', .spawn h2 h2'⟩

theorem FtRel.swap {R : α → β → Prop} {l : List (FtItem α)} {m : List (FtItem β)} (h : FtRel R l m) :
    FtRel (fun b a => R a b) m l := by
  induction h with
  | nil => exact .nil
  | point h _ ih => exact .point h ih
  | fork _ _ ih1 ih2 => exact .fork ih1 ih2
  | spawn _ _ ih1 ih2 => exact .spawn ih1 ih2

mutual
theorem FtItem.each_points {P : α → Prop} : ∀ {x : FtItem α} {rest : List (FkItem α)}, FkEach P (x.asFork :: rest) →
    (∀ a ∈ x.points, P a) ∧ FkEach P rest
  | .point a, _, h => by
    simp only [FtItem.asFork] at h
    simp only [FtItem.points, List.mem_singleton, forall_eq]
    cases h with
    | point h hr => exact ⟨h, hr⟩
  | .fork c, _, h => by
    simp only [FtItem.asFork] at h
    simp only [FtItem.points]
    cases h with
    | fork h hr => exact ⟨ftEach_points h, hr⟩
  | .spawn c, _, h => by
    simp only [FtItem.asFork] at h
    simp only [FtItem.points]
    cases h with
    | fork h hr => exact ⟨ftEach_points h, hr⟩
theorem ftEach_points {P : α → Prop} : ∀ {l : List (FtItem α)}, FkEach P (ftAsFork l) → ∀ a ∈ ftPoints l, P a
  | [], _ => by simp [ftPoints]
  | x :: xs, h => by
    simp only [ftAsFork] at h
    simp only [ftPoints, List.mem_append]
    obtain ⟨h1, h2⟩ := FtItem.each_points h
    rintro a (ha | ha)
    · exact h1 a ha
    · exact ftEach_points h2 a ha
end

theorem AllRel.take {R : α → β → Prop} {l : List α} {m : List β} (h : AllRel R l m) : ∀ k, AllRel R (l.take k) (m.take k) := by
  induction h with
  | nil => intro k; simpa using AllRel.nil
  | cons h _ ih =>
    intro k
    cases k with
    | zero => exact .nil
    | succ k => exact .cons h (ih k)

theorem AllRel.between {R : α → β → Prop} {S : α → γ → β → Prop} {l : List α} {m : List γ}
    (h : AllRel (fun a c => ∃ b, R a b ∧ S a c b) l m) : ∃ n, AllRel R l n ∧ AllRel (fun c b => ∃ a, S a c b) m n := by
  induction h with
  | nil => exact ⟨[], .nil, .nil⟩
  | @cons a _ _ _ h _ ih =>
    obtain ⟨n, h1, h2⟩ := ih
    obtain ⟨b, g1, g2⟩ := h
    exact ⟨b :: n, .cons g1 h1, .cons ⟨a, g2⟩ h2⟩

theorem FtRel.impl {R S : α → β → Prop} {l : List (FtItem α)} {m : List (FtItem β)} (h : FtRel R l m)
    (hrs : ∀ a b, R a b → S a b) : FtRel S l m := by
  induction h with
  | nil => exact .nil
  | point h _ ih => exact .point (hrs _ _ h) ih
  | fork _ _ ih1 ih2 => exact .fork ih1 ih2
  | spawn _ _ ih1 ih2 => exact .spawn ih1 ih2

theorem Merged.lift {R : α → β → Prop} {l m n : List β} (h : Merged l m n) : ∀ {l' m' : List α}, AllRel R l' l → AllRel R m' m →
    ∃ n', Merged l' m' n' ∧ AllRel R n' n := by
  induction h with
  | nil => intro l' m' h1 h2; cases h1; cases h2; exact ⟨[], .nil, .nil⟩
  | left _ ih =>
    intro l' m' h1 h2
    cases h1 with
    | cons h h1 =>
      obtain ⟨n', g1, g2⟩ := ih h1 h2
      exact ⟨_, .left g1, .cons h g2⟩
  | right _ ih =>
    intro l' m' h1 h2
    cases h2 with
    | cons h h2 =>
      obtain ⟨n', g1, g2⟩ := ih h1 h2
      exact ⟨_, .right g1, .cons h g2⟩

theorem FkRel.soFar {R : α → β → Prop} {p : List (FkItem α)} {q : List (FkItem β)} (h : FkRel R p q) : ∀ {l : List β},
    FkSoFar q l → ∃ l', FkSoFar p l' ∧ AllRel R l' l := by
  induction h with
  | nil =>
    intro l hl
    cases hl
    exact ⟨[], .stop _, .nil⟩
  | point hab _ ih =>
    intro l hl
    cases hl with
    | stop => exact ⟨[], .stop _, .nil⟩
    | point hl =>
      obtain ⟨l', h1, h2⟩ := ih hl
      exact ⟨_, .point h1, .cons hab h2⟩
  | fork _ _ ih1 ih2 =>
    intro l hl
    cases hl with
    | stop => exact ⟨[], .stop _, .nil⟩
    | fork hr hc hm =>
      obtain ⟨l1, g1, g2⟩ := ih1 hc
      obtain ⟨l2, k1, k2⟩ := ih2 hr
      obtain ⟨n, m1, m2⟩ := hm.lift k2 g2
      exact ⟨n, .fork k1 g1 m1, m2⟩

theorem FkRel.all {R : α → β → Prop} {p : List (FkItem α)} {q : List (FkItem β)} (h : FkRel R p q) : ∀ {l : List β},
    FkAll q l → ∃ l', FkAll p l' ∧ AllRel R l' l := by
  induction h with
  | nil =>
    intro l hl
    cases hl
    exact ⟨[], .nil, .nil⟩
  | point hab _ ih =>
    intro l hl
    cases hl with
    | point hl =>
      obtain ⟨l', h1, h2⟩ := ih hl
      exact ⟨_, .point h1, .cons hab h2⟩
  | fork _ _ ih1 ih2 =>
    intro l hl
    cases hl with
    | fork hr hc hm =>
      obtain ⟨l1, g1, g2⟩ := ih1 hc
      obtain ⟨l2, k1, k2⟩ := ih2 hr
      obtain ⟨n, m1, m2⟩ := hm.lift k2 g2
      exact ⟨n, .fork k1 g1 m1, m2⟩

theorem Merged.length {l m n : List α} (h : Merged l m n) : n.length = l.length + m.length := by
  induction h with
  | nil => rfl
  | left _ ih => simp only [List.length_cons, ih]; omega
  | right _ ih => simp only [List.length_cons, ih]; omega

theorem FkSoFar.length_le {p : List (FtItem α)} {l : List α} (h : FkSoFar (ftAsFork p) l) : l.length ≤ (ftPoints p).length := by
  generalize hq : ftAsFork p = q at h
  induction h generalizing p with
  | stop => simp
  | point _ ih =>
    cases p with
    | nil => simp only [ftAsFork] at hq; cases hq
    | cons x xs =>
      simp only [ftAsFork] at hq
      obtain ⟨h1, h2⟩ := List.cons.inj hq
      have := ih h2
      cases x <;> simp only [FtItem.asFork] at h1 <;> cases h1
      simp only [ftPoints, FtItem.points, List.singleton_append, List.length_cons]
      omega
  | fork _ _ hm ih1 ih2 =>
    cases p with
    | nil => simp only [ftAsFork] at hq; cases hq
    | cons x xs =>
      simp only [ftAsFork] at hq
      obtain ⟨h1, h2⟩ := List.cons.inj hq
      have k1 := ih1 h2
      rw [hm.length]
      cases x <;> simp only [FtItem.asFork] at h1 <;> cases h1 <;>
      · have k2 := ih2 rfl
        simp only [ftPoints, FtItem.points, List.length_append]
        omega

theorem FkSoFar.mem {p : List (FtItem α)} {l : List α} (h : FkSoFar (ftAsFork p) l) : ∀ a ∈ l, a ∈ ftPoints p :=
  fun a ha => h.each (ftPoints_each fun _ h => h) a ha

/-- A point records the visit of a statement. -/
def ProjRun.Records (cf : CFloat) (mem : CMem) (r : ProjRun) (v : ProjVisit) (p : RecPoint) : Prop :=
  ∃ c, v.RunsAs cf mem (r.project.plain ++ r.project.mains) c ∧ (p.CalledAs cf mem c ∧
    (∀ x ∈ p.items, x.Typed r.header.names (r.header.types.map TypeRow.desc) cf) ∧ recSizes p.items = [])

/-- The points of the statements that a program passes, and what a trace of them shows. -/
theorem visited_known (env : Env) (cf : CFloat) (mem : CMem) (r : ProjRun) (visits : List ProjVisit) (hb : r.Built)
    (hthreads : r.threads = [visits]) (hfit : ∀ v ∈ visits, v.Fits cf (instrumentationFiles r.evolve))
    (hruns : ∀ v ∈ visits, ∃ c, v.RunsAs cf mem (r.project.plain ++ r.project.mains) c) (hal : ∀ n, env.canAlloc n = true) :
    HeaderOk r.header.names (r.header.types.map TypeRow.desc) ∧ r.header.names.length < 2 ^ 32 ∧
      (∀ ty ∈ r.header.types.map TypeRow.desc, ty.Sane) ∧
      (∀ v ∈ visits, ∀ c, v.RunsAs cf mem (r.project.plain ++ r.project.mains) c → ∃ p : RecPoint, p.CalledAs cf mem c ∧
        (∀ x ∈ p.items, x.Typed r.header.names (r.header.types.map TypeRow.desc) cf) ∧ recSizes p.items = []) ∧
      ∀ vs rs, AllRel (r.Records cf mem) vs rs → (∀ v ∈ vs, v ∈ visits) →
        ∃ ps types, AllRel (ProjVisit.Shown (instrumentationFiles r.evolve)) vs ps ∧
          KnownTrace ⟨r.header.names, r.header.types.map TypeRow.desc, recPoints 0 [] rs⟩ types ps ∧
          ∀ n, r.header.HasType n → n ∈ types := by
  obtain ⟨hok, hlen, ⟨isched, hp, hstore⟩, hsmall, hmain, hone⟩ := hb
  rw [hthreads] at hmain
  have hperm := (C65_files r.evolve).1
  have hone' : OneTypePerFoldedName (instrumentationFiles r.evolve) := fun x hx s hs part hp v hv y hy =>
    hone x (hperm.mem_iff.mp hx) s hs part hp v hv y (hperm.mem_iff.mp hy)
  have hok' : ∀ f ∈ instrumentationFiles r.evolve, f.Ok := fun f hf => hok f (hperm.mem_iff.mp hf)
  have hlen' : (instrumentationFiles r.evolve).length ≤ 2 ^ 23 := by rw [hperm.length_eq]; exact hlen
  obtain ⟨n, reqs, told, hmv⟩ := parallel_main hok hlen hp hstore r.header visits (fun v hv => by
      obtain ⟨c, o, g, ho, _⟩ := hruns v hv
      exact (List.getElem?_eq_some_iff.mp ho).1) (by
    rcases hmain with ⟨p, o, ho, hh, hv⟩ | hm
    · exact .inl ⟨p, o, ho, hh, fun v hvm => hv _ (List.mem_singleton.mpr rfl) v hvm⟩
    · exact .inr hm)
  have hdr := header_ok told hsmall
  refine ⟨hdr, hsmall.names, ?_, fun v hv c hc => recorded_each cf mem told hok' hlen' hsmall v c hc (hmv v hv) (hfit v hv), ?_⟩
  · rw [told.header]
    exact emitted_sane TableTests.equalp_lawful told.ok
  · intro vs rs hvs hin
    obtain ⟨cs, g1, g2⟩ := AllRel.between (S := fun _ p c => RecPoint.CalledAs cf mem p c ∧
      (∀ x ∈ p.items, x.Typed r.header.names (r.header.types.map TypeRow.desc) cf) ∧ recSizes p.items = []) hvs
    have hrs : ∀ p ∈ rs, (∀ x ∈ p.items, x.Typed r.header.names (r.header.types.map TypeRow.desc) cf) ∧ recSizes p.items = [] := by
      intro p hp
      obtain ⟨v, _, _, _, _, h2⟩ := hvs.mem_right p hp
      exact h2
    obtain ⟨bs, b1, b2⟩ := C02_recorded_is_read env false cf mem r.header.names (r.header.types.map TypeRow.desc) rs cs hdr
      hsmall.names (g2.imp fun p c ⟨_, h⟩ => h.1) (fun p hp => (hrs p hp).1) (by
        have : (rs.flatMap fun p => recSizes p.items) = [] := by
          rw [List.flatMap_eq_nil_iff]
          exact fun p hp => (hrs p hp).2
        rw [this]
        exact reservedOk_of_unused (by simp)) hal
    obtain ⟨bs', t', ps, types, d1, d2, d3, d4, d5⟩ := told_known env false cf mem told hok' hlen' hsmall vs cs g1
      (fun v hv => hmv v (hin v hv)) (fun v hv => hfit v (hin v hv)) hal hone'
    rw [b1] at d1
    cases d1
    rw [b2] at d2
    cases d2
    exact ⟨ps, types, d3, d4, d5⟩

/-- The points of the run of a program that forks, and what a trace of them shows. -/
theorem forked_known (env : Env) (cf : CFloat) (mem : CMem) (size : Nat) (r : ForkRun) (acts : List FtAct) (hb : r.inOne.Built)
    (hd : r.Does cf mem size acts) (hal : ∀ n, env.canAlloc n = true) :
    ∃ p0 prog, FtProgram cf mem r.header.names (r.header.types.map TypeRow.desc) size p0 prog acts ∧
      r.inOne.Records cf mem r.first p0 ∧ FtRel (r.inOne.Records cf mem) r.prog prog ∧
      ∀ vs rs, AllRel (r.inOne.Records cf mem) vs rs → (∀ v ∈ vs, v ∈ r.first :: ftPoints r.prog) →
        ∃ ps types, AllRel (ProjVisit.Shown (instrumentationFiles r.evolve)) vs ps ∧
          KnownTrace ⟨r.header.names, r.header.types.map TypeRow.desc, recPoints 0 [] rs⟩ types ps ∧
          ∀ n, r.header.HasType n → n ∈ types := by
  obtain ⟨hfit, c0, calls, hc0, hruns, hbuf, hacts⟩ := hd
  have hrunsOf : ∀ v ∈ ftPoints r.prog, ∃ c, v.RunsAs cf mem (r.project.plain ++ r.project.mains) c := by
    have : FkEach (fun v : ProjVisit => ∃ c, v.RunsAs cf mem (r.project.plain ++ r.project.mains) c) (ftAsFork r.prog) :=
      FtRel.each (R := fun c v => ProjVisit.RunsAs cf mem (r.project.plain ++ r.project.mains) v c) (fun c v h => ⟨c, h⟩) hruns.swap
    exact ftEach_points this
  obtain ⟨hdr, hn, _, hrec, hknown⟩ := visited_known env cf mem r.inOne _ hb rfl hfit (by
    intro v hv
    rcases List.mem_cons.mp hv with rfl | hv
    · exact ⟨c0, hc0⟩
    · exact hrunsOf v hv) hal
  obtain ⟨p0, h0⟩ := hrec r.first (by simp) c0 hc0
  obtain ⟨prog, hr1, hr2⟩ := hruns.mid fun v hv c hc => hrec v (List.mem_cons_of_mem _ hv) c hc
  have hall : FkEach (fun p : RecPoint => (∀ x ∈ p.items, x.Typed r.header.names (r.header.types.map TypeRow.desc) cf) ∧
      recSizes p.items = []) (ftAsFork prog) := FtRel.each (fun v p ⟨_, _, _, h2⟩ => h2) hr1
  have hall' := ftEach_points hall
  refine ⟨p0, prog, ⟨hdr, hn, h0.2.1, ftPoints_each fun p hp => (hall' p hp).1, ?_, ftPoints_each fun p hp => ?_,
    c0, calls, h0.1, hr2.impl fun p c ⟨_, h1, _⟩ => h1, ?_, hacts⟩, ⟨c0, hc0, h0⟩, hr1, hknown⟩
  · rw [h0.2.2]
    simp
  · rw [(hall' p hp).2]
    simp
  · exact ftPoints_each hbuf

/-- With a limit, only the first points are read. -/
theorem read_limited {env : Env} {s : IStream} {names : List Name} {types : List TypeDesc} {rs : List RecPoint}
    (h : readTrace env 0 s = .ok ⟨names, types, recPoints 0 [] rs⟩) (k : U64) :
    readTrace env k s = .ok ⟨names, types, recPoints 0 [] (limited k rs)⟩ := by
  unfold limited
  split
  · rename_i hk
    rw [hk]
    exact h
  · rename_i hk
    rw [(C08_limit_is_prefix env s k hk _).1 h]
    simp only [recPoints_take]

end TraceDB
