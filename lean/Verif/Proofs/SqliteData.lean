/-
Lemmas on the execution of data statements by SQLite (Spec/SqliteData.lean).
-/
import Verif.Proofs.DdlExec
import Verif.Proofs.Exec
import Verif.Spec.SqliteData

namespace Butane
open Butane.Ddl Butane.DdlP Spec

variable {env : SqliteEnv} {D : SqliteData}

/-! ### Rows -/

/-- What storing values in columns gives. -/
theorem storeRow_zip {cols : List ColDef} {vs ws : List SqliteVal}
    (h : storeRow env cols vs = some ws) :
    vs.length = cols.length ∧
    AllMatch (fun (p : ColDef × SqliteVal) w => ∃ st, strictType p.1.type = some st ∧
      env.coerce st p.2 = some w ∧ ((p.1.notNull || p.1.pk) = true → w ≠ .null)) (cols.zip vs) ws := by
  induction cols generalizing vs ws with
  | nil =>
    cases vs with
    | nil => cases h; exact ⟨rfl, .nil⟩
    | cons v vs => cases h
  | cons d cols ih =>
    cases vs with
    | nil => cases h
    | cons v vs =>
      simp only [storeRow] at h
      split at h
      · next w ws' g1 g2 =>
        split at h
        · cases h
        · next hnn =>
          cases h
          obtain ⟨st, hst, hc⟩ := Option.bind_eq_some_iff.1 g1
          obtain ⟨h1, h2⟩ := ih g2
          refine ⟨by simp [h1], .cons ⟨st, hst, hc, fun hb hw => hnn ?_⟩ h2⟩
          simp [hb, hw]
      · cases h

theorem storeRow_some {cols : List ColDef} {vs : List SqliteVal} (hl : vs.length = cols.length)
    (h : ∀ p ∈ cols.zip vs, ∃ st w, strictType p.1.type = some st ∧ env.coerce st p.2 = some w ∧
      ((p.1.notNull || p.1.pk) = true → w ≠ .null)) : ∃ ws, storeRow env cols vs = some ws := by
  induction cols generalizing vs with
  | nil =>
    cases vs with
    | nil => exact ⟨[], rfl⟩
    | cons v vs => simp at hl
  | cons d cols ih =>
    cases vs with
    | nil => simp at hl
    | cons v vs =>
      obtain ⟨st, w, h1, h2, h3⟩ := h (d, v) (by simp)
      obtain ⟨ws, h4⟩ := ih (vs := vs) (by simpa using hl)
        (fun p hp => h p (by simp only [List.zip_cons_cons, List.mem_cons]; exact .inr hp))
      refine ⟨w :: ws, ?_⟩
      simp only [storeRow, h1, Option.bind_some, h2, h4]
      split
      · next hb =>
        simp only [Bool.and_eq_true, decide_eq_true_eq] at hb
        exact absurd hb.2 (h3 hb.1)
      · rfl

/-- A column of a stored row. -/
theorem stored_column {cols : List ColDef} (hn : (cols.map (·.name)).Nodup) {g : ColDef → SqliteVal}
    {ws : List SqliteVal} (h : storeRow env cols (cols.map g) = some ws) {d : ColDef} (hd : d ∈ cols) :
    ∃ st w, strictType d.type = some st ∧ env.coerce st (g d) = some w ∧
      field cols ws d.name = some w ∧ ((d.notNull || d.pk) = true → w ≠ .null) := by
  obtain ⟨-, h2⟩ := storeRow_zip h
  clear h
  induction cols generalizing ws with
  | nil => cases hd
  | cons c cols ih =>
    simp only [List.map_cons, List.zip_cons_cons] at h2
    cases h2 with
    | cons h3 h4 =>
      simp only [List.map_cons, List.nodup_cons] at hn
      rw [field_cons]
      rcases List.mem_cons.1 hd with rfl | hd
      · obtain ⟨st, e1, e2, e3⟩ := h3
        exact ⟨st, _, e1, e2, by simp, e3⟩
      · obtain ⟨st, w, e1, e2, e3, e4⟩ := ih hn.2 hd h4
        refine ⟨st, w, e1, e2, ?_, e4⟩
        rw [if_neg]
        · exact e3
        · intro e
          exact hn.1 (e ▸ List.mem_map_of_mem hd)

/-- A stored row can be stored again unchanged. -/
theorem stored_proper (hs : StrictLaws env) {cols : List ColDef} {vs ws : List SqliteVal}
    (h : storeRow env cols vs = some ws) :
    AllMatch (fun (d : ColDef) v => ∃ st, strictType d.type = some st ∧ env.coerce st v = some v)
      cols ws := by
  obtain ⟨h1, h2⟩ := storeRow_zip h
  clear h
  induction cols generalizing vs ws with
  | nil => cases vs <;> simp_all <;> cases h2; exact .nil
  | cons c cols ih =>
    cases vs with
    | nil => simp at h1
    | cons v vs =>
      simp only [List.zip_cons_cons] at h2
      cases h2 with
      | cons h3 h4 =>
        obtain ⟨st, e1, e2, -⟩ := h3
        exact .cons ⟨st, e1, hs.stable _ _ _ e2⟩ (ih (by simpa using h1) h4)

theorem allSome_map {α β : Type} {f : α → Option β} {g : α → β} {l : List α}
    (h : ∀ a ∈ l, f a = some (g a)) : allSome f l = some (l.map g) := by
  induction l with
  | nil => rfl
  | cons a l ih =>
    rw [allSome, h a (List.mem_cons_self ..), ih fun b hb => h b (List.mem_cons_of_mem _ hb)]
    rfl

/-- The same without duplicates: the result is given by a function of the element. -/
theorem allSome_fun {α β : Type} {f : α → Option β} {l : List α} {bs : List β} [Nonempty β]
    (h : allSome f l = some bs) : ∃ g : α → β, bs = l.map g ∧ ∀ a ∈ l, f a = some (g a) := by
  classical
  refine ⟨fun a => match f a with | some b => b | none => Classical.choice inferInstance, ?_, ?_⟩
  · induction l generalizing bs with
    | nil => cases h; rfl
    | cons a l ih =>
      simp only [allSome] at h
      split at h
      · next b bs' h1 h2 =>
        cases h
        rw [List.map_cons, h1, ← ih h2]
      · cases h
  · induction l generalizing bs with
    | nil => intro a ha; cases ha
    | cons a l ih =>
      simp only [allSome] at h
      split at h
      · next b bs' h1 h2 =>
        cases h
        intro x hx
        rcases List.mem_cons.1 hx with rfl | hx
        · simp [h1]
        · exact ih h2 x hx
      · cases h

/-- A new row, column by column. -/
theorem newRow_column {t : STable} (hn : (t.cols.map (·.name)).Nodup)
    {given : List (String × SqliteVal)} {r : List SqliteVal} (h : newRow env D t given = some r)
    {d : ColDef} (hd : d ∈ t.cols) :
    ∃ v st w, newValue env D t given d = some v ∧ strictType d.type = some st ∧
      env.coerce st v = some w ∧ field t.cols r d.name = some w ∧
      ((d.notNull || d.pk) = true → w ≠ .null) := by
  unfold newRow at h
  split at h
  · next vs h1 =>
    haveI : Nonempty SqliteVal := ⟨.null⟩
    obtain ⟨g, rfl, hg⟩ := allSome_fun h1
    obtain ⟨st, w, e1, e2, e3, e4⟩ := stored_column hn h hd
    exact ⟨g d, st, w, hg d hd, e1, e2, e3, e4⟩
  · cases h

theorem newRow_proper (hs : StrictLaws env) {t : STable} {given : List (String × SqliteVal)}
    {r : List SqliteVal} (h : newRow env D t given = some r) :
    AllMatch (fun (d : ColDef) v => ∃ st, strictType d.type = some st ∧ env.coerce st v = some v)
      t.cols r := by
  unfold newRow at h
  split at h
  · exact stored_proper hs h
  · cases h

/-- The value of a column as a function of the column. -/
theorem zip_field {cols : List ColDef} {r : List SqliteVal} (hn : (cols.map (·.name)).Nodup)
    (hl : cols.length = r.length) (sets : List (String × SqliteVal)) :
    (cols.zip r).map (fun p => (sets.lookup p.1.name).getD p.2) =
      cols.map fun d => (sets.lookup d.name).getD ((field cols r d.name).getD .null) := by
  induction cols generalizing r with
  | nil => rfl
  | cons c cols ih =>
    cases r with
    | nil => simp at hl
    | cons v r =>
      simp only [List.map_cons, List.nodup_cons] at hn
      simp only [List.zip_cons_cons, List.map_cons, field_cons, if_true, Option.getD_some]
      rw [ih hn.2 (by simpa using hl)]
      congr 1
      apply List.map_congr_left
      intro d hd
      rw [if_neg]
      intro e
      exact hn.1 (e ▸ List.mem_map_of_mem hd)

/-- A changed row, column by column. -/
theorem setRow_column {cols : List ColDef} (hn : (cols.map (·.name)).Nodup)
    {sets : List (String × SqliteVal)} {r r' : List SqliteVal} (hl : cols.length = r.length)
    (h : setRow env cols sets r = some r') {d : ColDef} (hd : d ∈ cols) :
    ∃ st w, strictType d.type = some st ∧
      env.coerce st ((sets.lookup d.name).getD ((field cols r d.name).getD .null)) = some w ∧
      field cols r' d.name = some w ∧ ((d.notNull || d.pk) = true → w ≠ .null) := by
  unfold setRow at h
  rw [zip_field hn hl] at h
  exact stored_column hn h hd

/-! ### Tables -/

theorem replaceRows_eq {db db' : SDb} {n : String} {t : STable} {rows : List (List SqliteVal)}
    (h : replaceRows db n t rows = some db') :
    db' = db.insert n { t with rows := rows } ∧ uniqueOk t.cols rows = true := by
  unfold replaceRows at h
  split at h
  · next hc =>
    cases h
    exact ⟨rfl, (Bool.and_eq_true _ _ ▸ hc).1⟩
  · cases h

/-- In a unique column a value occurs once. -/
theorem unique_filter {cols : List ColDef} {rows : List (List SqliteVal)}
    (h : uniqueOk cols rows = true) {d : ColDef} (hd : d ∈ cols) (hk : (d.unique || d.pk) = true)
    {v : SqliteVal} (hv : v ≠ .null) :
    (rows.filter fun r => field cols r d.name = some v).length ≤ 1 := by
  have h1 := (List.all_eq_true.1 h) d hd
  simp only [hk, Bool.not_true, Bool.false_or, decide_eq_true_eq] at h1
  clear h
  induction rows with
  | nil => simp
  | cons r rows ih =>
    simp only [List.filterMap_cons] at h1
    by_cases hr : field cols r d.name = some v
    · rw [hr] at h1
      have h1 : (v :: rows.filterMap fun r =>
          match field cols r d.name with | some .null => none | v => v).Nodup := by
        cases v <;> first | exact absurd rfl hv | exact h1
      simp only [List.nodup_cons] at h1
      have : (rows.filter fun r => field cols r d.name = some v) = [] := by
        rw [List.filter_eq_nil_iff]
        intro r' hr' he
        simp only [decide_eq_true_eq] at he
        apply h1.1
        rw [List.mem_filterMap]
        refine ⟨r', hr', ?_⟩
        rw [he]
        cases v <;> first | exact absurd rfl hv | rfl
      simp [hr, this]
    · have : (rows.filterMap fun r => match field cols r d.name with | some .null => none | v => v).Nodup := by
        split at h1
        · exact h1
        · exact (List.nodup_cons.1 h1).2
      simpa [hr] using ih this

end Butane
