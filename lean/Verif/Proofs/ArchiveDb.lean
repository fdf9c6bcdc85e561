import Verif.Proofs.Archive
import Verif.Proofs.Canonical
import Verif.Proofs.Database
import Verif.Proofs.Sharing
/-
Databases made by the interface can be serialised.
-/
namespace TraceDB

theorem VarInfo.Canonical.sized {v : VarInfo} (h : v.Canonical) : v.Sized := by
  unfold VarInfo.Canonical at h
  unfold VarInfo.Sized
  cases hv : v.value with
  | word u => rw [hv] at h; exact h.1
  | blob bs => rw [hv] at h; exact h

theorem Trace.Counts.fits {t : Trace} (h : t.Counts) (hc : ∀ p ∈ t.points, ∀ v ∈ p.vars, v.Sized) : t.Fits :=
  ⟨h.points, h.names, h.types, h.name, fun p hp => ⟨h.sizes p hp, h.vars p hp, h.aux p hp, hc p hp⟩⟩

theorem readNames_nulFree (fuel : Nat) (buf : List U8) (names : List Name) (h : readNames fuel buf = .ok names) :
    ∀ n ∈ names, (0 : U8) ∉ n := by
  induction fuel generalizing buf names with
  | zero => cases h
  | succ fuel ih =>
    rw [readNames] at h
    cases hs : splitName buf with
    | none => rw [hs] at h; cases h
    | some q =>
      obtain ⟨n, R⟩ := q
      rw [hs] at h
      obtain ⟨_, h2⟩ := splitName_some hs
      simp only at h
      split at h
      · cases h; simpa using h2
      · obtain ⟨ns, h3, h4⟩ := Res.bind_eq_ok.mp h
        cases h4
        intro m hm
        rcases List.mem_cons.mp hm with rfl | hm
        · exact h2
        · exact ih _ _ h3 m hm

theorem readTrace_nulFree {env : Env} {maxPoints : U64} {s : IStream} {t : Trace}
    (h : readTrace env maxPoints s = .ok t) : t.NulFree := by
  unfold readTrace readTraceWith at h
  obtain ⟨⟨names, s1⟩, h1, h⟩ := Res.bind_eq_ok.mp h
  obtain ⟨⟨types, s2⟩, _, h⟩ := Res.bind_eq_ok.mp h
  obtain ⟨points, _, h⟩ := Res.bind_eq_ok.mp h
  cases h
  unfold readNameTable at h1
  obtain ⟨⟨nc, s3⟩, _, h1⟩ := Res.bind_eq_ok.mp h1
  simp only at h1
  split at h1
  · split at h1
    · cases h1
    · obtain ⟨⟨got, s4⟩, _, h1⟩ := Res.bind_eq_ok.mp h1
      obtain ⟨buf, _, h1⟩ := Res.bind_eq_ok.mp h1
      obtain ⟨names', h2, h1⟩ := Res.bind_eq_ok.mp h1
      cases h1
      exact readNames_nulFree _ _ _ h2
  · cases h1
    intro n hn
    simp at hn

theorem traceOfPoints_names {ps : List InPoint} {names : List Name} {t : Trace} (h : traceOfPoints ps names = .ok t) :
    t.names = names := by
  unfold traceOfPoints at h
  obtain ⟨_, _, h⟩ := Res.bind_eq_ok.mp h
  cases h
  rfl

/-- Traces added by calls have C strings as names and canonical variables. -/
theorem added_good (env : Env) (calls : List Call) (hn : ∀ c ∈ calls, c.NamesNulFree) :
    ∀ t ∈ added env calls, t.NulFree ∧ ∀ p ∈ t.points, ∀ v ∈ p.vars, v.Sized := by
  intro t ht
  obtain ⟨c, hc, hct⟩ := List.mem_filterMap.mp ht
  cases c with
  | addTrace src k =>
    cases src with
    | none => cases hct
    | some s =>
      simp only [Call.adds] at hct
      split at hct
      · rename_i t' h'
        cases hct
        exact ⟨readTrace_nulFree h', fun p hp v hv => (accepted_canonical h' p hp v hv).sized⟩
      · cases hct
  | addTracePoints ps names =>
    simp only [Call.adds] at hct
    split at hct
    · rename_i t' h'
      cases hct
      have := hn _ hc
      refine ⟨?_, fun p hp v hv => (recorded_canonical (.made _ _ _ h' p hp) v hv).sized⟩
      unfold Trace.NulFree
      rw [traceOfPoints_names h']
      exact this
    · cases hct
  | _ => cases hct

theorem deserialize_serialize (version : Nat) (hv : version < 2 ^ 32) (db : Db) (h : ∀ t ∈ db.traces, t.Fits)
    (hn : ∀ t ∈ db.traces, t.NulFree) (hlen : db.traces.length < 2 ^ 64)
    (hitems : (db.traces.map fun t => t.points.length).sum < 2 ^ 64) :
    deserializeDb (serializeDb version db) =
      some ⟨db.traces, db.traces.map fun _ => [], db.traces.length, 0⟩ := by
  obtain ⟨st, hst⟩ := load_archiveText version hv db.traces hlen h hitems
  unfold deserializeDb serializeDb
  rw [cStr_append_nul (archiveText_no_nul version db.traces hn), hst]
  rfl

theorem addAll_nodup (items ds : List Body) (h : items.Nodup) : (addAll items ds).Nodup := by
  induction ds generalizing items with
  | nil => exact h
  | cons d ds ih =>
    simp only [addAll, List.foldl_cons]
    apply ih
    split
    · exact h
    · rename_i hd
      rw [List.nodup_append]
      refine ⟨h, by simp, ?_⟩
      intro a ha b hb
      simp at hb
      subst hb
      exact fun e => hd (e ▸ ha)

theorem mem_addAll (items ds : List Body) (d : Body) : d ∈ addAll items ds ↔ d ∈ items ∨ d ∈ ds := by
  induction ds generalizing items with
  | nil => simp [addAll]
  | cons x ds ih =>
    have e : addAll items (x :: ds) = addAll (if x ∈ items then items else items ++ [x]) ds := rfl
    rw [e, ih]
    split
    · rename_i hx
      simp only [List.mem_cons]
      constructor
      · rintro (h | h)
        · exact .inl h
        · exact .inr (.inr h)
      · rintro (h | rfl | h)
        · exact .inl h
        · exact .inl hx
        · exact .inr h
    · simp [List.mem_append, or_assoc]

end TraceDB
