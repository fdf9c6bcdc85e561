import Verif.Proofs.Sharing
import Verif.Model.Archive
/-
Factories hold no value twice.
-/
namespace TraceDB

variable {α : Type}

/-- No value is held twice. -/
def Pool.Distinct (pool : Pool α) : Prop := (pool.map (·.val)).Nodup

theorem map_val_refs (pool : Pool α) (f : Shared α → Nat) :
    (pool.map fun x => { x with refs := f x }).map (·.val) = pool.map (·.val) := by
  simp [List.map_map, Function.comp_def]

theorem intern_distinct {F : Factory α} {pool : Pool α} {v : α} (hrefl : F.same v v = true) (h : pool.Distinct) :
    (pool.intern F v).2.Distinct := by
  unfold Pool.intern
  cases hf : pool.find? (fun e => F.same e.val v) with
  | some e =>
    simp only [if_refs (fun x : Shared α => x.addr = e.addr) (· + 1)]
    unfold Pool.Distinct
    rw [map_val_refs]
    exact h
  | none =>
    simp only [Pool.Distinct, List.map_cons, List.nodup_cons]
    refine ⟨fun hv => ?_, h⟩
    obtain ⟨e, he, hev⟩ := List.mem_map.mp hv
    have := List.find?_eq_none.mp hf e he
    rw [hev] at this
    exact this hrefl

theorem release_distinct {pool : Pool α} (a : Nat) (h : pool.Distinct) : (pool.release a).Distinct := by
  unfold Pool.release
  rw [if_refs (fun x : Shared α => x.addr = a) (· - 1)]
  unfold Pool.Distinct
  refine List.Sublist.nodup ((List.filter_sublist ..).map _) ?_
  rw [map_val_refs]
  exact h

theorem releaseVars_distinct (as : List Nat) {pool : Pool VarInfo} (h : pool.Distinct) : (releaseVars as pool).Distinct := by
  unfold releaseVars
  induction as generalizing pool with
  | nil => exact h
  | cons a as ih => exact ih (release_distinct a h)

theorem varFactory_refl (se : ShareEnv) (v : VarInfo) : (varFactory se.H se.freshVar).same v v = true := by
  simp [varFactory, VarInfo.eqv_refl]

theorem dataFactory_refl (se : ShareEnv) (d : PointData) : (dataFactory se.H se.freshData).same d d = true := by
  simp [dataFactory, (PointData.eqv_iff_eq d d).mpr rfl]

theorem internVars_distinct (se : ShareEnv) (vs : List VarInfo) {pool : Pool VarInfo} (h : pool.Distinct) :
    (internVars se vs pool).2.Distinct := by
  induction vs generalizing pool with
  | nil => exact h
  | cons v vs ih => exact ih (intern_distinct (varFactory_refl se v) h)

theorem runShare_distinct (se : ShareEnv) (ops : List ShareOp) (live : List PointRef) (sh : Sharing)
    (hv : sh.vars.Distinct) (hd : sh.data.Distinct) :
    (runShare se ops live sh).2.vars.Distinct ∧ (runShare se ops live sh).2.data.Distinct := by
  induction ops generalizing live sh with
  | nil => exact ⟨hv, hd⟩
  | cons op ops ih =>
    cases op with
    | make p =>
      apply ih
      · show Pool.Distinct (if _ then _ else _)
        split
        · exact internVars_distinct se _ hv
        · exact releaseVars_distinct _ (internVars_distinct se _ hv)
      · exact intern_distinct (dataFactory_refl se _) hd
    | drop k =>
      simp only [runShare]
      split
      · apply ih
        · unfold dropPoint
          simp only
          split
          · exact releaseVars_distinct _ hv
          · exact hv
        · unfold dropPoint
          simp only
          split <;> exact release_distinct _ hd
      · exact ih _ _ hv hd

theorem Pool.Distinct.eq {pool : Pool α} (h : pool.Distinct) {e e' : Shared α} (he : e ∈ pool) (he' : e' ∈ pool)
    (hv : e.val = e'.val) : e = e' := by
  unfold Pool.Distinct at h
  induction pool with
  | nil => simp at he
  | cons x pool ih =>
    rw [List.map_cons, List.nodup_cons] at h
    rcases List.mem_cons.mp he with h1 | h1 <;> rcases List.mem_cons.mp he' with h2 | h2
    · rw [h1, h2]
    · exact absurd (List.mem_map.mpr ⟨e', h2, by rw [← hv, h1]⟩) h.1
    · exact absurd (List.mem_map.mpr ⟨e, h1, by rw [hv, h2]⟩) h.1
    · exact ih h.2 h1 h2

theorem Pool.Distinct.addr {pool : Pool α} (h : pool.Distinct) {a b : Nat} {v : α} (ha : pool.get a = some v)
    (hb : pool.get b = some v) : a = b := by
  obtain ⟨e, he, rfl, hev⟩ := Pool.mem_of_get ha
  obtain ⟨e', he', rfl, hev'⟩ := Pool.mem_of_get hb
  rw [h.eq he he' (hev.trans hev'.symm)]

theorem mapM_get_inj {pool : Pool α} (h : pool.Distinct) (as bs : List Nat) (vs : List α)
    (ha : as.mapM pool.get = some vs) (hb : bs.mapM pool.get = some vs) : as = bs := by
  induction as generalizing bs vs with
  | nil =>
    simp at ha; subst ha
    cases bs with
    | nil => rfl
    | cons b bs =>
      simp only [List.mapM_cons, Option.bind_eq_bind, Option.bind_eq_some_iff] at hb
      obtain ⟨_, _, _, _, hb⟩ := hb
      simp at hb
  | cons a as ih =>
    simp only [List.mapM_cons, Option.bind_eq_bind, Option.bind_eq_some_iff] at ha
    obtain ⟨v, hv, vs', hvs, e⟩ := ha
    simp at e; subst e
    cases bs with
    | nil => simp at hb
    | cons b bs =>
      simp only [List.mapM_cons, Option.bind_eq_bind, Option.bind_eq_some_iff] at hb
      obtain ⟨w, hw, ws', hws, e⟩ := hb
      simp at e
      obtain ⟨rfl, rfl⟩ := e
      rw [h.addr hv hw, ih bs _ hvs hws]

theorem readPoint_same {sh : Sharing} (hv : sh.vars.Distinct) (hd : sh.data.Distinct) {r r' : PointRef} {p p' : Point}
    (h : readPoint sh r = some p) (h' : readPoint sh r' = some p') : r.data = r'.data ↔ p.body = p'.body := by
  simp only [readPoint, Option.bind_eq_bind, Option.bind_eq_some_iff] at h h'
  obtain ⟨d, hd1, vs, hvs, e⟩ := h
  obtain ⟨d', hd1', vs', hvs', e'⟩ := h'
  simp at e e'
  subst e e'
  simp only [Point.body, Body.mk.injEq]
  constructor
  · intro hr
    rw [hr, hd1'] at hd1
    cases hd1
    rw [hvs] at hvs'
    cases hvs'
    exact ⟨rfl, rfl, rfl⟩
  · rintro ⟨h1, h2, h3⟩
    subst h2
    have := mapM_get_inj hv _ _ _ hvs hvs'
    have hdd : d = d' := by cases d; cases d'; simp_all
    subst hdd
    exact hd.addr hd1 hd1'

end TraceDB
