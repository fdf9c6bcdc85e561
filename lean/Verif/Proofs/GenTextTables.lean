import Verif.Proofs.GenTextSetup
/-
Helper lemmas: the tables made by the instrumentation can be written as C text.
-/
namespace TraceDB

theorem mem_of_mem_dropWhile {α : Type} {p : α → Bool} {l : List α} {x : α} (h : x ∈ l.dropWhile p) : x ∈ l :=
  (List.dropWhile_sublist p).subset h

theorem mem_trimSpaces {s : List U8} {c : U8} (h : c ∈ trimSpaces s) : c ∈ s := by
  unfold trimSpaces at h
  exact mem_of_mem_dropWhile (List.mem_reverse.mp (mem_of_mem_dropWhile (List.mem_reverse.mp h)))

theorem mem_dropBrace {s : List U8} {c : U8} (h : c ∈ dropBrace s) : c ∈ s := by
  unfold dropBrace at h
  split at h
  · exact (List.dropLast_sublist s).subset h
  · exact h

/-- Type strings have one line. -/
theorem typeTraceString_line (t : CType) : (10 : U8) ∉ typeTraceString t := by
  intro h
  unfold typeTraceString trimToLine at h
  have h := mem_trimSpaces (mem_dropBrace (mem_trimSpaces h))
  have := List.all_takeWhile (p := (· != (10 : U8)))
    (l := joinSpaces ((pointerStr t ++ arrayStr t ++ (match t.specifier with | [] => [] | s :: _ => s.text)) :: (t.specifier.drop 1).map Specifier.text))
  rw [List.all_eq_true] at this
  have := this 10 h
  simp at this

theorem ident_line {s : List U8} (h : CIdent s) : (10 : U8) ∉ s := by
  obtain ⟨c, cs, rfl, h1, h2⟩ := h
  intro h
  rcases List.mem_cons.mp h with e | h
  · subst e
    cases h1
  · have := h2 _ h
    cases this

theorem HTable.mem_put {κ α : Type} {same : κ → κ → Bool} {t : HTable κ α} {k : κ} {v : α} {e : κ × α} (h : e ∈ t.put same k v) :
    e ∈ t ∨ e.2 = v ∧ (e.1 = k ∨ ∃ v', (e.1, v') ∈ t) := by
  induction t with
  | nil =>
    simp only [HTable.put, List.mem_singleton] at h
    subst h
    exact .inr ⟨rfl, .inl rfl⟩
  | cons p t ih =>
    obtain ⟨k', v'⟩ := p
    simp only [HTable.put] at h
    split at h
    · rcases List.mem_cons.mp h with rfl | h
      · exact .inr ⟨rfl, .inr ⟨v', List.mem_cons_self⟩⟩
      · exact .inl (List.mem_cons_of_mem _ h)
    · rcases List.mem_cons.mp h with rfl | h
      · exact .inl List.mem_cons_self
      · rcases ih h with h | ⟨h1, h2 | ⟨v'', h2⟩⟩
        · exact .inl (List.mem_cons_of_mem _ h)
        · exact .inr ⟨h1, .inl h2⟩
        · exact .inr ⟨h1, .inr ⟨v'', List.mem_cons_of_mem _ h2⟩⟩

/-- Tables that can be written. -/
structure Tables.Writable (s : Tables) : Prop where
  lines : ∀ e ∈ s.names, (10 : U8) ∉ e.1
  rows : ∀ e ∈ s.rows, ∃ t ps, formatAndSize t ps = some (e.2.format, e.2.size)

theorem indexFor_lines {same : Name → Name → Bool} {t : HTable Name Nat} {n : Name} (h : ∀ e ∈ t, (10 : U8) ∉ e.1)
    (hn : (10 : U8) ∉ n) : ∀ e ∈ (indexFor same t n).2, (10 : U8) ∉ e.1 := by
  intro e he
  unfold indexFor at he
  split at he
  · exact h e he
  · rcases HTable.mem_put he with he | ⟨_, he | ⟨v', he⟩⟩
    · exact h e he
    · exact he ▸ hn
    · exact h (e.1, v') he

theorem Tables.Writable.name {s : Tables} (h : s.Writable) (te : TableTests) {n : Name} (hn : (10 : U8) ∉ n) :
    (s.request te (.name n)).2.Writable :=
  ⟨indexFor_lines h.lines hn, h.rows⟩

theorem Tables.Writable.type {s : Tables} (h : s.Writable) (te : TableTests) {k : TypeKey} {f : TypeFormat} {z : Nat} {t : CType} {ps : Bool}
    (hk : (10 : U8) ∉ k.2) (hf : formatAndSize t ps = some (f, z)) : (s.request te (.type k f z)).2.Writable := by
  unfold Tables.request
  simp only []
  split
  · exact h
  · refine ⟨indexFor_lines h.lines hk, fun e he => ?_⟩
    rcases HTable.mem_put he with he | ⟨he, _⟩
    · exact h.rows e he
    · rw [he]
      exact ⟨t, ps, hf⟩

theorem genExprs_writable (te : TableTests) (ps : Bool) : ∀ (vs : List ScopeVar) (s : Tables), (∀ v ∈ vs, CIdent v.name) → s.Writable →
    (genExprs te ps vs s).2.Writable
  | [], s, _, h => h
  | v :: vs, s, hi, h => by
    cases hf : formatAndSize v.type ps with
    | none =>
      rw [genExprs, hf]
      exact genExprs_writable te ps vs s (fun x hx => hi x (List.mem_cons_of_mem _ hx)) h
    | some fz =>
      obtain ⟨f, z⟩ := fz
      have h1 := h.type te (k := v.key ps) (typeTraceString_line v.type) hf
      have h2 := h1.name te (ident_line (hi v List.mem_cons_self))
      rw [genExprs, hf]
      simp only []
      generalize s.request te (.type (v.key ps) f z) = r1 at h2
      generalize r1.2.request te (.name v.name) = r2 at h2
      have h3 := genExprs_writable te ps vs r2.2 (fun x hx => hi x (List.mem_cons_of_mem _ hx)) h2
      split
      · exact h3
      · split <;> exact h3

theorem instrumentParts_writable (te : TableTests) : ∀ (parts : List (Bool × List ScopeVar)) (s : Tables),
    (∀ p ∈ parts, ∀ v ∈ p.2, CIdent v.name) → s.Writable → (instrumentParts te parts s).2.Writable
  | [], s, _, h => h
  | p :: ps, s, hi, h => by
    have h1 : (instrumentExprs te p.1 p.2 s).2.Writable := genExprs_writable te p.1 p.2 s (hi p List.mem_cons_self) h
    exact instrumentParts_writable te ps _ (fun q hq => hi q (List.mem_cons_of_mem _ hq)) h1

theorem instrumentSites_writable (te : TableTests) : ∀ (sites : List Site) (s : Tables),
    (∀ x ∈ sites, ∀ p ∈ x.parts, ∀ v ∈ p.2, CIdent v.name) → s.Writable → (instrumentSites te sites s).2.Writable
  | [], s, _, h => h
  | x :: xs, s, hi, h => by
    have h1 := instrumentParts_writable te x.parts s (hi x List.mem_cons_self) h
    exact instrumentSites_writable te xs _ (fun q hq => hi q (List.mem_cons_of_mem _ hq)) h1

theorem mem_insertByIndex {α : Type} {index : α → Nat} {x y : α} {l : List α} (h : y ∈ insertByIndex index x l) : y = x ∨ y ∈ l := by
  induction l with
  | nil => exact .inl (List.mem_singleton.mp h)
  | cons z l ih =>
    simp only [insertByIndex] at h
    split at h
    · exact List.mem_cons.mp h
    · rcases List.mem_cons.mp h with rfl | h
      · exact .inr List.mem_cons_self
      · rcases ih h with h | h
        · exact .inl h
        · exact .inr (List.mem_cons_of_mem _ h)

theorem mem_sortByIndex {α : Type} {index : α → Nat} {y : α} {l : List α} (h : y ∈ sortByIndex index l) : y ∈ l := by
  induction l with
  | nil => exact h
  | cons z l ih =>
    rcases mem_insertByIndex h with rfl | h
    · exact List.mem_cons_self
    · exact List.mem_cons_of_mem _ (ih h)

theorem Tables.Writable.emitNames {s : Tables} (h : s.Writable) : ∀ n ∈ s.emitNames, (10 : U8) ∉ n := by
  intro n hn
  obtain ⟨e, he, rfl⟩ := List.mem_map.mp hn
  exact h.lines e (mem_sortByIndex he)

theorem rows_exist {l : List TypeRow} (h : ∀ r ∈ l, ∃ t ps, formatAndSize t ps = some (r.format, r.size)) : ∃ rows, AllRel RowFor rows l := by
  induction l with
  | nil => exact ⟨[], .nil⟩
  | cons r l ih =>
    obtain ⟨rows, hr⟩ := ih fun q hq => h q (List.mem_cons_of_mem _ hq)
    obtain ⟨t, ps, hf⟩ := h r List.mem_cons_self
    obtain ⟨s, hs, _⟩ := sizeText_reads hf
    exact ⟨(r.name, r.format, s) :: rows, .cons ⟨rfl, t, ps, hs, hf⟩ hr⟩

theorem Tables.Writable.emitTypes {s : Tables} (h : s.Writable) (te : TableTests) : ∃ rows, AllRel RowFor rows (s.emitTypes te) := by
  refine rows_exist fun r hr => ?_
  obtain ⟨e, he, rfl⟩ := List.mem_map.mp hr
  exact h.rows e (mem_sortByIndex he)

theorem Tables.writable_empty : Tables.empty.Writable := ⟨by simp [Tables.empty], by simp [Tables.empty]⟩

end TraceDB
