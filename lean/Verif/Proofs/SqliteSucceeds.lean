/-
When saving an object succeeds.
-/
import Verif.Proofs.SqliteShows

namespace Butane
open Butane.Ddl Butane.DdlP Spec
open Butane.Sql (Operand Cond)

variable {k : SqliteConn} {m : TModel} {pk : TField}

/-! ### Writing rows -/

theorem lookup_of_mem {V : Type} {s : SMap String V} (hs : s.Sorted) {e : String × V} (h : e ∈ s) :
    s.lookup e.1 = some e.2 := SMap.lookup_of_mem hs h

theorem replaceRows_some {u : SDb} (hu : u.Sorted) {n : String} {t : STable} (hlk : u.lookup n = some t)
    {rows : List (List SqliteVal)} (hq : uniqueOk t.cols rows = true)
    (h1 : ∀ fk ∈ t.fks, ∀ r ∈ rows, r ∈ t.rows ∨ refOk (u.insert n { t with rows := rows }) t.cols r fk = true)
    (h2 : ∀ n' s, u.lookup n' = some s → ∀ fk ∈ s.fks, ∀ r ∈ s.rows, refOk u s.cols r fk = true →
      refOk (u.insert n { t with rows := rows }) s.cols r fk = true) :
    replaceRows u n t rows = some (u.insert n { t with rows := rows }) := by
  unfold replaceRows
  rw [if_pos]
  rw [Bool.and_eq_true]
  refine ⟨hq, ?_⟩
  rw [List.all_eq_true]
  intro e he
  have hl := lookup_of_mem (SMap.sorted_insert hu n { t with rows := rows }) he
  rw [List.all_eq_true]
  intro fk hfk
  rw [List.all_eq_true]
  intro r hr
  have key : ∀ s, u.lookup e.1 = some s → s.cols = e.2.cols → s.fks = e.2.fks → r ∈ s.rows →
      (refOk (u.insert n { t with rows := rows }) e.2.cols r fk ||
          (match u.lookup e.1 with
          | some s => s.rows.contains r && !refOk u e.2.cols r fk
          | none => false)) = true := by
    intro s hs hc hf hrs
    rw [hs]
    cases hb : refOk u e.2.cols r fk with
    | true =>
      rw [← hc] at hb ⊢
      rw [h2 _ s hs fk (hf ▸ hfk) r hrs hb]
      rfl
    | false => simp [hrs]
  rw [SMap.lookup_insert] at hl
  split at hl
  · next hen =>
    obtain ⟨e1, e2⟩ := e
    simp only at hen
    subst hen
    cases hl
    rcases h1 fk hfk r hr with h | h
    · exact key t hlk rfl rfl h
    · simp only
      rw [h]
      rfl
  · exact key e.2 hl rfl rfl hr

theorem replaceRows_same {u : SDb} {env : SqliteEnv} (hu : SoundDb env u) {n : String} {t : STable}
    (hlk : u.lookup n = some t) : replaceRows u n t t.rows = some u := by
  have hi : u.insert n { t with rows := t.rows } = u := insert_same hu.proper.sorted hlk
  have := replaceRows_some hu.proper.sorted hlk (rows := t.rows) (hu.unique _ _ hlk)
    (fun _ _ r hr => .inl hr) (fun n' s hs fk hfk r hr hb => by rw [hi]; exact hb)
  rwa [hi] at this

/-- The value of a unique column of each row. -/
private def uniqueVal (cols : List ColDef) (c : String) (r : List SqliteVal) : Option SqliteVal :=
  match field cols r c with | some .null => none | v => v

private theorem uniqueVal_some {cols : List ColDef} {c : String} {r : List SqliteVal} {v : SqliteVal}
    (h : uniqueVal cols c r = some v) : field cols r c = some v ∧ v ≠ .null := by
  unfold uniqueVal at h
  split at h
  · cases h
  · next hne =>
    refine ⟨h, ?_⟩
    rintro rfl
    exact hne h

/-- Replacing one row keeps unique columns unique if its values occur in no other row. -/
theorem unique_of_put {env : SqliteEnv} {t : STable} {rows : List (List SqliteVal)} {pk : String} {a : SqliteVal}
    {given : List (String × SqliteVal)} (hput : Put env t rows pk a given)
    (hu : uniqueOk t.cols t.rows = true)
    (h : ∀ d ∈ t.cols, (d.unique || d.pk) = true → ∀ r ∈ rows, field t.cols r pk = some a → ∀ v, v ≠ .null →
      field t.cols r d.name = some v → ∀ r' ∈ t.rows, field t.cols r' pk ≠ some a →
      field t.cols r' d.name ≠ some v) : uniqueOk t.cols rows = true := by
  unfold uniqueOk at hu ⊢
  rw [List.all_eq_true] at hu ⊢
  intro d hd
  have h0 := hu d hd
  cases hk : (d.unique || d.pk) with
  | false => rfl
  | true =>
    rw [hk] at h0
    simp only [Bool.not_true, Bool.false_or, decide_eq_true_eq] at h0 ⊢
    change (t.rows.filterMap (uniqueVal t.cols d.name)).Nodup at h0
    change (rows.filterMap (uniqueVal t.cols d.name)).Nodup
    have hperm := List.filter_append_perm (fun r => decide (field t.cols r pk = some a)) rows
    obtain ⟨r, hr1, -⟩ := hput.row
    have hr : r ∈ rows ∧ field t.cols r pk = some a := by
      have : r ∈ rows.filter fun r => decide (field t.cols r pk = some a) := by
        rw [hr1]; exact List.mem_singleton_self _
      simpa using List.mem_filter.1 this
    refine (hperm.filterMap (uniqueVal t.cols d.name)).nodup_iff.1 ?_
    rw [hr1, hput.others, List.filterMap_append]
    have hrest : ((t.rows.filter fun r => !decide (field t.cols r pk = some a)).filterMap
        (uniqueVal t.cols d.name)).Nodup := h0.sublist (List.Sublist.filterMap _ List.filter_sublist)
    rw [List.filterMap_cons, List.filterMap_nil]
    cases hv : uniqueVal t.cols d.name r with
    | none => simpa using hrest
    | some v =>
      obtain ⟨g1, g2⟩ := uniqueVal_some hv
      simp only [List.cons_append, List.nil_append, List.nodup_cons]
      refine ⟨fun hmem => ?_, hrest⟩
      obtain ⟨r', hr', e⟩ := List.mem_filterMap.1 hmem
      obtain ⟨hr2, hr3⟩ := List.mem_filter.1 hr'
      exact h d hd hk r hr.1 hr.2 v g2 g1 r' hr2 (by simpa using hr3) (uniqueVal_some e).1

theorem refOk_iff {db : SDb} {cols : List ColDef} {r : List SqliteVal} {fk : RefCon} :
    refOk db cols r fk = true ↔ ∃ v, field cols r fk.col = some v ∧
      (v ≠ .null → ∃ p, db.lookup fk.table = some p ∧ hasKey p fk.refCol v = true) := by
  unfold refOk
  split
  · next h => simp [h]
  · next v hne h =>
    have hv : v ≠ .null := by rintro rfl; exact hne rfl
    rw [h]
    split
    · next p hp => simp [hv, hp]
    · next hp => simp [hv, hp]
  · next h => simp [h]

/-- Keys stay when one row is replaced by one with the same key, or added. -/
theorem hasKey_put {env : SqliteEnv} {u : SDb} {n : String} {t : STable} (hlk : u.lookup n = some t)
    {rows : List (List SqliteVal)} {pk : String} {a : SqliteVal} {given : List (String × SqliteVal)}
    (hput : Put env t rows pk a given) {fk : RefCon} (href : fk.table = n → fk.refCol = pk) {v : SqliteVal}
    (h : (∃ p, u.lookup fk.table = some p ∧ hasKey p fk.refCol v = true) ∨ (fk.table = n ∧ v = a)) :
    ∃ p, (u.insert n { t with rows := rows }).lookup fk.table = some p ∧ hasKey p fk.refCol v = true := by
  have hself : fk.table = n → v = a → hasKey { t with rows := rows } fk.refCol v = true := by
    intro h1 h2
    subst h2
    rw [href h1]
    unfold hasKey
    rw [List.any_eq_true]
    obtain ⟨r1, e1, -⟩ := hput.row
    have : r1 ∈ rows.filter fun r => decide (field t.cols r pk = some v) := by
      rw [e1]; exact List.mem_singleton_self _
    obtain ⟨f1, f2⟩ := List.mem_filter.1 this
    exact ⟨r1, f1, by simpa using f2⟩
  rw [SMap.lookup_insert]
  rcases h with ⟨p, h3, h4⟩ | ⟨h1, h2⟩
  · split
    · next hn =>
      have hn : fk.table = n := hn
      rw [hn, hlk] at h3
      cases h3
      refine ⟨_, rfl, ?_⟩
      by_cases e : v = a
      · exact hself hn e
      have hc := href hn
      rw [hc] at h4 ⊢
      unfold hasKey at h4 ⊢
      rw [List.any_eq_true] at h4 ⊢
      obtain ⟨r0, g1, g2⟩ := h4
      simp only [beq_iff_eq] at g2
      have : r0 ∈ rows.filter fun r => !decide (field t.cols r pk = some a) := by
        rw [hput.others]
        exact List.mem_filter.2 ⟨g1, by simp [g2, e]⟩
      exact ⟨r0, (List.mem_filter.1 this).1, by simp [g2]⟩
    · exact ⟨p, h3, h4⟩
  · rw [if_pos h1]
    exact ⟨_, rfl, hself h1 h2⟩

/-- Replacing one row by one with the same key, or adding one, leaves no reference dangling. -/
theorem refs_of_put {env : SqliteEnv} {u : SDb} {n : String} {t : STable} (hlk : u.lookup n = some t)
    {rows : List (List SqliteVal)} {pk : String} {a : SqliteVal} {given : List (String × SqliteVal)}
    (hput : Put env t rows pk a given)
    (href : ∀ n' s, u.lookup n' = some s → ∀ fk ∈ s.fks, fk.table = n → fk.refCol = pk) :
    ∀ n' s, u.lookup n' = some s → ∀ fk ∈ s.fks, ∀ r ∈ s.rows, refOk u s.cols r fk = true →
      refOk (u.insert n { t with rows := rows }) s.cols r fk = true := by
  intro n' s hs fk hfk r hr hb
  obtain ⟨v, h1, h2⟩ := refOk_iff.1 hb
  exact refOk_iff.2 ⟨v, h1, fun hv => hasKey_put hlk hput (href n' s hs fk hfk) (.inl (h2 hv))⟩

/-! ### The values of the columns -/

/-- What is known of the value given for the column of a field. -/
structure Given (c : TextCodecs) (ty : FieldTy) (v : SqlVal) (b : SqliteVal) : Prop where
  bound : toSqlite c v = .ok b
  type : v = .null ∨ v.sqltype = some ty.sqltype
  present : ¬ MayBeAbsent ty → v ≠ .null
  noNaN : ¬ IsNaN v

theorem given_value {c : TextCodecs} (t : FieldTy) (x : t.Val) (hp : Proper t x) (hn : NoNaNField t x) :
    ∃ v b, t.toSql x = .ok v ∧ Given c t v b := by
  obtain ⟨v, h3, -, h4, h5⟩ := Props.field_round_trip_partial (fun _ => none) t x hp
  have hty : v = .null ∨ v.sqltype = some t.sqltype := by
    by_cases hpres : Present t x
    · exact .inr (h4 hpres)
    · exact .inl (h5 hpres)
  obtain ⟨b, hb⟩ : ∃ b, toSqlite c v = .ok b := by
    rcases hty with rfl | hty
    · exact ⟨.null, rfl⟩
    · cases v <;> first | exact ⟨_, rfl⟩ | skip
      simp only [SqlVal.sqltype, Option.some.injEq] at hty
      exact absurd hty.symm (Props.field_not_custom t _)
  refine ⟨v, b, h3, hb, hty, fun ha => ?_, Props.field_no_nan t x v hn h3⟩
  have := h4 (present_of_proper t x hp ha)
  rintro rfl
  cases this

theorem given_fields {c : TextCodecs} : ∀ {fs : List TField} (o : ObjVals fs), Storable fs o → NoNaNs fs o →
    (fs.map (·.name)).Nodup → ∃ vals ps, pushValues (fun _ => true) fs o = .ok vals ∧
      bindAll c vals = .ok ps ∧ ps.length = ((tcolumns (fun f => !f.isAuto) fs).map (·.1)).length ∧
      ∀ f ∈ fs, f.isAuto = false → ∀ ty, f.ty = some ty → ∃ v b, keySql f.name fs o = .ok v ∧
        (((tcolumns (fun f => !f.isAuto) fs).map (·.1)).zip ps).lookup f.name = some b ∧ Given c ty v b
  | [], _, _, _, _ => ⟨[], [], rfl, rfl, rfl, fun f hf => by cases hf⟩
  | ⟨n, p, none⟩ :: fs, (x, os), hs, hn, hd => by
    simp only [List.map_cons, List.nodup_cons] at hd
    obtain ⟨vals, ps, h1, h2, h3, h4⟩ := given_fields (c := c) os hs hn hd.2
    refine ⟨vals, ps, h1, h2, h3, fun f hf ha ty hty => ?_⟩
    rcases List.mem_cons.1 hf with rfl | hf
    · cases hty
    · exact h4 f hf ha ty hty
  | ⟨n, p, some t⟩ :: fs, (x, os), hs, hn, hd => by
    simp only [List.map_cons, List.nodup_cons] at hd
    by_cases ha : (TField.mk n p (some t)).isAuto = true
    · have hos : Storable fs os := by
        cases t <;> simp only [TField.isAuto, Bool.false_eq_true] at ha
        exact hs.2
      obtain ⟨vals, ps, h1, h2, h3, h4⟩ := given_fields (c := c) os hos hn.2 hd.2
      refine ⟨vals, ps, by simp only [pushValues, ha, Bool.not_true, Bool.false_and, Bool.false_eq_true,
        ↓reduceIte, h1], h2, by simpa only [tcolumns, ha, Bool.not_true, Bool.false_eq_true, ↓reduceIte] using h3,
        fun f hf haf ty hty => ?_⟩
      rcases List.mem_cons.1 hf with rfl | hf
      · rw [ha] at haf; cases haf
      · obtain ⟨v, b, g1, g2, g3⟩ := h4 f hf haf ty hty
        refine ⟨v, b, ?_, by simpa only [tcolumns, ha, Bool.not_true, Bool.false_eq_true, ↓reduceIte] using g2, g3⟩
        simp only [keySql]
        rw [if_neg fun h => hd.1 (List.mem_map.2 ⟨f, hf, h.symm⟩)]
        exact g1
    · have hpx : Proper t x ∧ Storable fs os := by
        cases t <;> first | exact absurd rfl ha | exact hs
      have ha' : (TField.mk n p (some t)).isAuto = false := by simpa using ha
      obtain ⟨vals, ps, h1, h2, h3, h4⟩ := given_fields (c := c) os hpx.2 hn.2 hd.2
      obtain ⟨v, b, e1, e2⟩ := given_value (c := c) t x hpx.1 hn.1
      refine ⟨v :: vals, b :: ps, by simp only [pushValues, ha', Bool.not_false, Bool.and_true, ↓reduceIte,
        e1, h1, Conv.bind], by simp only [bindAll, e2.bound, h2, Conv.bind],
        by simp only [tcolumns, ha', Bool.not_false, ↓reduceIte, List.map_cons, List.length_cons, h3],
        fun f hf haf ty hty => ?_⟩
      simp only [tcolumns, ha', Bool.not_false, ↓reduceIte, List.map_cons, List.zip_cons_cons,
        List.lookup_cons, keySql]
      rcases List.mem_cons.1 hf with rfl | hf
      · cases hty
        exact ⟨v, b, by rw [if_pos rfl]; exact e1, by simp, e2⟩
      · have hne : n ≠ f.name := fun h => hd.1 (List.mem_map.2 ⟨f, hf, h.symm⟩)
        obtain ⟨v', b', g1, g2, g3⟩ := h4 f hf haf ty hty
        refine ⟨v', b', by rw [if_neg hne]; exact g1, ?_, g3⟩
        rw [show (f.name == n) = false by simpa using Ne.symm hne]
        exact g2

/-- A given value can be stored in the column of the field. -/
theorem given_stored (hD : DataLaws k.env k.data) {pk f : TField} {ty : FieldTy} {d : ColDef}
    (hf : FieldFits pk f ty d) {v : SqlVal} {b : SqliteVal} (hg : Given k.codecs ty v b) :
    ∃ st w, strictType d.type = some st ∧ k.env.coerce st b = some w ∧
      ((d.notNull || d.pk) = true → w ≠ .null) := by
  obtain ⟨st, h1, h2⟩ := hf.type
  obtain ⟨w, h3, h4⟩ := hD.write st b (ofClass_of_type hg.type h1 hg.bound)
  refine ⟨st, w, by rw [h2, strictType_name], h3, fun hnn hw => ?_⟩
  have hv := hg.present (hf.notNull (by simpa using hnn))
  rcases hg.type with h | h
  · exact hv h
  · have hb := (key_ne_null h hg.bound).2
    subst hw
    have hno := hg.noNaN
    have hbd := hg.bound
    cases h4 with
    | null => exact hb rfl
    | nan r hr =>
      cases v <;> simp only [toSqlite, Conv.ok.injEq, SqliteVal.real.injEq, reduceCtorEq] at hbd
      subst hbd
      exact hno hr

/-! ### Rows that can be written -/

theorem allSome_exists {α β : Type} {f : α → Option β} {P : α → β → Prop} {l : List α}
    (h : ∀ a ∈ l, ∃ b, f a = some b ∧ P a b) :
    ∃ bs, allSome f l = some bs ∧ bs.length = l.length ∧ ∀ p ∈ l.zip bs, P p.1 p.2 := by
  induction l with
  | nil => exact ⟨[], rfl, rfl, by simp⟩
  | cons a l ih =>
    obtain ⟨b, h1, h2⟩ := h a (List.mem_cons_self ..)
    obtain ⟨bs, h3, h4, h5⟩ := ih fun x hx => h x (List.mem_cons_of_mem _ hx)
    refine ⟨b :: bs, by simp only [allSome, h1, h3], by simp [h4], ?_⟩
    intro p hp
    simp only [List.zip_cons_cons, List.mem_cons] at hp
    rcases hp with rfl | hp
    · exact h2
    · exact h5 p hp

theorem newRow_some {env : SqliteEnv} {D : SqliteData} {t : STable} {given : List (String × SqliteVal)}
    (h : ∀ d ∈ t.cols, ∃ v, newValue env D t given d = some v ∧ ∃ st w, strictType d.type = some st ∧
      env.coerce st v = some w ∧ ((d.notNull || d.pk) = true → w ≠ .null)) :
    ∃ new, newRow env D t given = some new := by
  obtain ⟨vs, h1, h2, h3⟩ := allSome_exists h
  obtain ⟨new, h4⟩ := storeRow_some (env := env) h2 h3
  exact ⟨new, by simp only [newRow, h1, h4]⟩

theorem zip_map_mem {α β : Type} {g : α → β} {l : List α} {a : α} {b : β} (h : (a, b) ∈ l.zip (l.map g)) :
    a ∈ l ∧ b = g a := by
  induction l with
  | nil => simp at h
  | cons c l ih =>
    simp only [List.map_cons, List.zip_cons_cons, List.mem_cons, Prod.mk.injEq] at h
    rcases h with ⟨rfl, rfl⟩ | h
    · exact ⟨List.mem_cons_self .., rfl⟩
    · exact ⟨List.mem_cons_of_mem _ (ih h).1, (ih h).2⟩

theorem setRow_some {env : SqliteEnv} {cols : List ColDef} (hn : (cols.map (·.name)).Nodup)
    {sets : List (String × SqliteVal)} {r : List SqliteVal} (hl : cols.length = r.length)
    (h : ∀ d ∈ cols, ∃ st w, strictType d.type = some st ∧
      env.coerce st ((sets.lookup d.name).getD ((field cols r d.name).getD .null)) = some w ∧
      ((d.notNull || d.pk) = true → w ≠ .null)) : ∃ r', setRow env cols sets r = some r' := by
  unfold setRow
  rw [zip_field hn hl]
  refine storeRow_some (by simp) ?_
  rintro ⟨d, v⟩ hp
  obtain ⟨hd, rfl⟩ := zip_map_mem hp
  exact h d hd

/-! ### Saving -/

/-- The field of a column. -/
theorem column_field (hm : TModelOk k m pk) {t : STable} (ht : TableFits m pk t) {d : ColDef}
    (hd : d ∈ t.cols) : ∃ f ∈ m.fields, ∃ ty, f.ty = some ty ∧ FieldFits pk f ty d := by
  obtain ⟨f, hf, ty, hty, hn⟩ := ht.columns d hd
  obtain ⟨d', hd', hfd⟩ := ht.fields f hf ty hty
  have : d' = d := coldef_eq_of_name ht.distinct hd' hd (hfd.name.trans hn.symm)
  subst this
  exact ⟨f, hf, ty, hty, hfd⟩

/-- The columns an object is written to. -/
structure Written (k : SqliteConn) (m : TModel) (t : STable) (o : ObjVals m.fields) (vals : List SqlVal)
    (ps : List SqliteVal) : Prop where
  pushed : pushValues (fun _ => true) m.fields o = .ok vals
  bound : bindAll k.codecs vals = .ok ps
  length : ps.length = m.nonAutoColumns.length
  column : ∀ d ∈ t.cols, ∀ f ∈ m.fields, f.name = d.name → f.isAuto = false →
    ∃ v b st w, keySql d.name m.fields o = .ok v ∧ toSqlite k.codecs v = .ok b ∧
      (m.nonAutoColumns.zip ps).lookup d.name = some b ∧ strictType d.type = some st ∧
      k.env.coerce st b = some w ∧ ((d.notNull || d.pk) = true → w ≠ .null)

theorem written (hm : TModelOk k m pk) (hD : DataLaws k.env k.data) {t : STable} (ht : TableFits m pk t)
    {o : ObjVals m.fields} (ho : Storable m.fields o) (hn : NoNaNs m.fields o) :
    ∃ vals ps, Written k m t o vals ps := by
  obtain ⟨vals, ps, h1, h2, h3, h4⟩ := given_fields (c := k.codecs) o ho hn hm.distinct
  refine ⟨vals, ps, h1, h2, h3, fun d hd f hf hfd ha => ?_⟩
  obtain ⟨f', hf', ty, hty, hfits⟩ := column_field hm ht hd
  have : f' = f := field_eq_of_name hm.distinct hf' hf (hfits.name.symm.trans hfd.symm)
  subst this
  obtain ⟨v, b, g1, g2, g3⟩ := h4 f' hf ha ty hty
  obtain ⟨st, w, g4, g5, g6⟩ := given_stored (k := k) hD hfits g3
  rw [hfd] at g1 g2
  exact ⟨v, b, st, w, g1, g3.bound, g2, g4, g5, g6⟩

/-- The rows after an object was written are accepted. -/
theorem put_replaced (hm : TModelOk k m pk) {u : SDb} {t : STable}
    (hu : SoundDb k.env u) (hlk : u.lookup m.table = some t) (ht : TableFits m pk t)
    {o : ObjVals m.fields} {vals : List SqlVal} {ps : List SqliteVal} (hw : Written k m t o vals ps)
    (hadm : Admissible k m pk u t o) (href : KeyRefs m pk u) {rows : List (List SqliteVal)} {a : SqliteVal}
    (hput : Put k.env t rows pk.name a (m.nonAutoColumns.zip ps))
    (hkey : ∀ d ∈ t.cols, d.name = pk.name → ∀ a', Writes k m o d a' → a' = a) :
    replaceRows u m.table t rows = some (u.insert m.table { t with rows := rows }) := by
  obtain ⟨r0, hr0, htakes⟩ := hput.row
  have hone : ∀ r ∈ rows, field t.cols r pk.name = some a → r = r0 := by
    intro r hr he
    have : r ∈ rows.filter fun r => decide (field t.cols r pk.name = some a) :=
      List.mem_filter.2 ⟨hr, by simpa using he⟩
    rw [hr0] at this
    simpa using this
  have hval : ∀ d ∈ t.cols, ∀ f ∈ m.fields, f.name = d.name → f.isAuto = false →
      ∃ w, field t.cols r0 d.name = some w ∧ Writes k m o d w := by
    intro d hd f hf hfd ha
    obtain ⟨v, b, st, w, g1, g2, g3, g4, g5, -⟩ := hw.column d hd f hf hfd ha
    obtain ⟨st', w', e1, e2, e3⟩ := htakes d hd b g3
    exact ⟨w', e3, v, b, st', g1, g2, e1, e2⟩
  refine replaceRows_some hu.proper.sorted hlk (unique_of_put hput (hu.unique _ _ hlk) ?_) ?_
    (refs_of_put hlk hput href.refer)
  · intro d hd hk r hr he v hv hrv r' hr' hne hrv'
    rw [hone r hr he] at hrv he
    by_cases hdk : d.name = pk.name
    · rw [hdk, he] at hrv
      cases hrv
      rw [hdk] at hrv'
      exact hne hrv'
    · obtain ⟨f, hf, ty, hty, hfits⟩ := column_field hm ht hd
      have hna : f.isAuto = false := by
        cases h : f.isAuto with
        | false => rfl
        | true => exact absurd (by rw [hfits.name, hm.auto f hf h]) hdk
      have hpk : d.pk = false := by
        cases h : d.pk with
        | false => rfl
        | true => exact absurd (hfits.name.trans (hfits.pk.1 h)) hdk
      rw [hpk, Bool.or_false] at hk
      obtain ⟨w, g1, g2⟩ := hval d hd f hf hfits.name.symm hna
      rw [hrv] at g1
      cases g1
      obtain ⟨dk, hdkm, hdkn, a', g3, g4⟩ := hadm.unique d hd hk v g2 hv r' hr' hrv'
      rw [hkey dk hdkm hdkn a' g3] at g4
      exact hne g4
  · intro fk hfk r hr
    by_cases he : field t.cols r pk.name = some a
    · refine .inr ?_
      rw [hone r hr he]
      obtain ⟨d, hd, hdn, hrefs⟩ := hadm.refs fk hfk
      obtain ⟨f, hf, ty, hty, hfits⟩ := column_field hm ht hd
      have hna : f.isAuto = false := by
        cases h : f.isAuto with
        | false => rfl
        | true =>
          have hfp := hm.auto f hf h
          subst hfp
          exact absurd (hdn.symm.trans hfits.name) (href.auto h t hlk fk hfk)
      obtain ⟨w, g1, g2⟩ := hval d hd f hf hfits.name.symm hna
      rw [hdn] at g1
      refine refOk_iff.2 ⟨w, g1, fun hwn => hasKey_put hlk hput (href.refer _ t hlk fk hfk) ?_⟩
      rcases hrefs w g2 hwn with h | ⟨h1, -, dk, hdk, hdkn, h3⟩
      · exact .inl h
      · exact .inr ⟨h1, hkey dk hdk hdkn w h3⟩
    · refine .inl ?_
      have : r ∈ t.rows.filter fun r => !decide (field t.cols r pk.name = some a) := by
        rw [← hput.others]
        exact List.mem_filter.2 ⟨hr, by simp [he]⟩
      exact (List.mem_filter.1 this).1

theorem exec_of {db db' : SDb} {st : Stmt} {ps : List SqliteVal} (h1 : bindAll k.codecs st.params = .ok ps)
    (h2 : execDataText k.env k.data k.reserved db st.text ps = some db') : k.exec db st = .ok db' := by
  simp only [SqliteConn.exec, h1, Conv.orErr, h2]

theorem bindAll_append_of {c : TextCodecs} {v : SqlVal} {vals : List SqlVal} {ps : List SqliteVal} {a : SqliteVal}
    (h1 : bindAll c vals = .ok ps) (h2 : toSqlite c v = .ok a) : bindAll c (vals ++ [v]) = .ok (ps ++ [a]) := by
  induction vals generalizing ps with
  | nil => cases h1; simp only [List.nil_append, bindAll, h2, Conv.bind]
  | cons w vals ih =>
    simp only [bindAll] at h1
    cases e1 : toSqlite c w <;> rw [e1] at h1 <;> simp only [Conv.bind, reduceCtorEq] at h1
    cases e2 : bindAll c vals <;> rw [e2] at h1 <;> simp only [Conv.bind, reduceCtorEq] at h1
    cases h1
    simp only [List.cons_append, bindAll, e1, ih e2, Conv.bind]

/-- An object without its automatic key has none to write. -/
theorem keySql_invalid {n : String} : ∀ {fs : List TField} (o : ObjVals fs),
    (∃ f ∈ fs, f.name = n ∧ f.isAuto = true) → (fs.map (·.name)).Nodup → keyValid n fs o = false →
    ∀ v, keySql n fs o ≠ .ok v
  | [], _, ⟨f, hf, _⟩, _, _, _ => by cases hf
  | ⟨n', p, none⟩ :: fs, (x, os), ⟨f, hf, e, ha⟩, hd, hv, v => by
    simp only [List.map_cons, List.nodup_cons] at hd
    rcases List.mem_cons.1 hf with rfl | hf
    · simp [TField.isAuto] at ha
    · simp only [keyValid] at hv
      split at hv
      · cases hv
      · exact keySql_invalid os ⟨f, hf, e, ha⟩ hd.2 hv v
  | ⟨n', p, some t⟩ :: fs, (x, os), ⟨f, hf, e, ha⟩, hd, hv, v => by
    simp only [List.map_cons, List.nodup_cons] at hd
    rcases List.mem_cons.1 hf with rfl | hf
    · obtain ⟨t', ht'⟩ := auto_type ha
      simp only [Option.some.injEq] at ht' e
      subst ht'
      simp only [keyValid, e, if_true] at hv
      cases x with
      | none =>
        simp only [keySql, e, if_true, FieldTy.toSql]
        simp
      | some y => cases hv
    · have hne : n' ≠ n := fun h => hd.1 (List.mem_map.2 ⟨f, hf, e.trans h.symm⟩)
      simp only [keySql, if_neg hne]
      refine keySql_invalid os ⟨f, hf, e, ha⟩ hd.2 ?_ v
      cases t <;> simpa only [keyValid, if_neg hne] using hv

/-- Writing the key of an object with a key. -/
theorem writes_key (hm : TModelOk k m pk) (hD : DataLaws k.env k.data) {t : STable} (ht : TableFits m pk t)
    {o : ObjVals m.fields} {id : SqlVal} {a : SqliteVal} (hkey : keySql pk.name m.fields o = .ok id)
    (hid : IsKeyVal k pk id a) : ∀ d ∈ t.cols, d.name = pk.name → ∀ a', Writes k m o d a' → a' = a := by
  rintro d hd hn a' ⟨v, b, st, h1, h2, h3, h4⟩
  obtain ⟨d', ty, st', hd', hn', -, g1, g2, g3, -, g5, -⟩ := key_column hm ht
  have : d' = d := coldef_eq_of_name ht.distinct hd' hd (hn'.trans hn.symm)
  subst this
  rw [hn, hkey] at h1
  cases h1
  rw [hid.stored] at h2
  cases h2
  rw [g5] at h3
  cases h3
  obtain ⟨w, e1, e2⟩ := hD.write _ a (ofClass_of_type (.inr (hid.type ty g1)) g2 hid.stored)
  rw [h4] at e1
  cases e1
  exact holds_eq g3 e2

theorem insertNew_succeeds (hm : TModelOk k m pk) (hD : DataLaws k.env k.data) (hs : StrictLaws k.env)
    {u : SDb} {t : STable} (hu : SoundDb k.env u) (hlk : u.lookup m.table = some t)
    (ht : TableFits m pk t) {o : ObjVals m.fields} (ho : Storable m.fields o)
    (hn : NoNaNs m.fields o) (hroom : KeyRoom k m pk u) (ha : pk.isAuto = true)
    (hval : keyValid pk.name m.fields o = false) {vals : List SqlVal} {ps : List SqliteVal}
    (hw : Written k m t o vals ps) (hadm : Admissible k m pk u t o) (href : KeyRefs m pk u) :
    ∃ u' o', m.insertNew k u pk o m.nonAutoColumns vals = .ok (u', o') := by
  have hp := hu.proper.tables _ _ hlk
  obtain ⟨kt, hkt⟩ := auto_type ha
  obtain ⟨I, hI⟩ := hm.autoInt kt hkt
  have hint : sqliteType kt.sqltype = some .integer := by cases hI <;> rfl
  have hauto : ∃ d ∈ t.cols, d.name = pk.name ∧ d.type = ["INTEGER"] := by
    obtain ⟨d, ty, st, hd, hdn, -, g1, g2, -, g4, -⟩ := key_column hm ht
    rw [hkt] at g1
    cases g1
    rw [show FieldTy.sqltype (.autoPk kt) = kt.sqltype from rfl, hint] at g2
    cases g2
    exact ⟨d, hd, hdn, g4⟩
  have hnc := key_not_column hm ha
  obtain ⟨j0, hj0⟩ := Option.isSome_iff_exists.1 (hadm.newKey hval)
  obtain ⟨new, hnew⟩ : ∃ new, newRow k.env k.data t (m.nonAutoColumns.zip ps) = some new := by
    refine newRow_some fun d hd => ?_
    obtain ⟨f, hf, ty, hty, hfits⟩ := column_field hm ht hd
    by_cases hdk : d.name = pk.name
    · obtain ⟨d', hd', hn', hty'⟩ := hauto
      have : d' = d := coldef_eq_of_name hp.distinct hd' hd (hn'.trans hdk.symm)
      subst this
      have hpk : d'.pk = true := hfits.pk.2 (hfits.name.symm.trans hdk)
      refine ⟨.integer j0, ?_, .integer, .integer j0, by rw [hty']; rfl, hs.integer _, fun _ h => by cases h⟩
      have hl : (m.nonAutoColumns.zip ps).lookup d'.name = none := by rw [hdk]; exact zip_lookup_none hnc
      simp only [newValue, hl, ht.keyDefault d' hd hdk, Option.elim, hpk, hty', decide_true, Bool.true_and,
        if_true]
      rw [hdk, hj0]
      rfl
    · have hna : f.isAuto = false := by
        cases h : f.isAuto with
        | false => rfl
        | true => exact absurd (by rw [hfits.name, hm.auto f hf h]) hdk
      have hpk : d.pk = false := by
        cases h : d.pk with
        | false => rfl
        | true => exact absurd (hfits.name.trans (hfits.pk.1 h)) hdk
      obtain ⟨v, b, st, w, g1, g2, g3, g4, g5, g6⟩ := hw.column d hd f hf hfits.name.symm hna
      refine ⟨b, ?_, st, w, g4, g5, g6⟩
      simp only [newValue, g3]
      cases b <;> simp [hpk]
  obtain ⟨j, hj, hfj, hput⟩ := put_new hm hD hs ht hp hnc hauto hnew
  have hrep := put_replaced hm hu hlk ht hw hadm href hput (by
    rintro d hd hdn a' ⟨v, b, st, h1, -⟩
    rw [hdn] at h1
    exact absurd h1 (keySql_invalid o ⟨pk, hm.pk_mem, rfl, ha⟩ hm.distinct hval v))
  obtain ⟨hlo, hhi⟩ := hroom kt I hkt hI t j hlk hj
  obtain ⟨w', y, v, n1, n2, n3, n4, n5, -⟩ := new_key hI (c := k.codecs) k.parseUuid hlo hhi
  have hpy : Proper kt y := by cases hI <;> trivial
  have hny : NoNaNField kt y := by cases hI <;> trivial
  obtain ⟨o1, i1, -⟩ := initKey_new n2 n3 hpy hny (n := pk.name) o (auto_name hm)
    ⟨pk, hm.pk_mem, rfl, hkt⟩ hm.distinct hval ho hn
  refine ⟨u.insert m.table { t with rows := t.rows ++ [new] }, o1, ?_⟩
  have hx : k.exec u (Backend.sqlite.insert k.kw m.table m.nonAutoColumns vals) =
      .ok (u.insert m.table { t with rows := t.rows ++ [new] }) := by
    refine exec_of (ps := ps) (by simpa only [Backend.insert] using hw.bound) ?_
    unfold execDataText
    rw [lex_insert hm.covers (cols := m.nonAutoColumns) hm.table (columns_names hm)]
    simp only
    rw [data_insert hlk (cols := m.nonAutoColumns) (columns_in_table ht) hw.length, hnew]
    exact hrep
  have hlk' : (u.insert m.table { t with rows := t.rows ++ [new] }).lookup m.table =
      some { t with rows := t.rows ++ [new] } := by
    rw [SMap.lookup_insert, if_pos rfl]
  have hins : k.insertReturningPk u m.table m.nonAutoColumns pk.name (TModel.keyType pk) vals =
      .ok (u.insert m.table { t with rows := t.rows ++ [new] }, w') := by
    simp only [SqliteConn.insertReturningPk, hx, hlk', Option.bind_some, List.getLast?_append,
      List.getLast?_singleton, Option.some_or, hfj]
    rw [show TModel.keyType pk = kt.sqltype by simp [TModel.keyType, hkt, FieldTy.sqltype], n1]
    rfl
  simp only [TModel.insertNew, hins, i1, Conv.orErr]

/-- Saving an object with an automatic key whose row is not there changes nothing. -/
theorem save_missing (hm : TModelOk k m pk) (hD : DataLaws k.env k.data)
    {u : SDb} {t : STable} (hu : SoundDb k.env u) (hlk : u.lookup m.table = some t)
    (ht : TableFits m pk t) {o : ObjVals m.fields} (ho : Storable m.fields o)
    (hn : NoNaNs m.fields o) (ha : pk.isAuto = true) {id : SqlVal} {a : SqliteVal}
    (hkey : keySql pk.name m.fields o = .ok id) (hid : IsKeyVal k pk id a) (hno : ¬ HasRow u m pk a) :
    m.save k u o = .ok (u, o) := by
  have hp := hu.proper.tables _ _ hlk
  obtain ⟨vals, ps, hw⟩ := written hm hD ht ho hn
  have hval : keyValid pk.name m.fields o = true := by
    cases h : keyValid pk.name m.fields o with
    | true => rfl
    | false => exact absurd hkey (keySql_invalid o ⟨pk, hm.pk_mem, rfl, ha⟩ hm.distinct h id)
  have hpush2 : m.nonAutoValues pk o false = .ok vals := by
    rw [← hw.pushed]
    refine pushValues_congr o fun f hf hfa => ?_
    simp only [Bool.false_or, bne_iff_ne, ne_eq]
    intro e
    have := field_eq_of_name hm.distinct hf hm.pk_mem e
    subst this
    rw [ha] at hfa
    cases hfa
  unfold TModel.save
  rw [hm.key]
  simp only [ha, Bool.true_and, hval, if_true]
  split
  · rfl
  · next h1 =>
    rw [hkey, hpush2]
    simp only [Conv.orErr]
    rw [exec_of (db' := u) (ps := ps ++ [a]) (bindAll_append_of hw.bound hid.stored)]
    unfold execDataText
    rw [lex_update hm.covers (cols := m.nonAutoColumns) hm.table (hm.names pk hm.pk_mem) (columns_names hm)
      (nonAuto_ne hm fun e => h1 (by simp [e]))]
    simp only
    rw [data_update hD hlk (cols := m.nonAutoColumns) (columns_in_table ht) hw.length (keyClass hm hD ht hp hid)]
    have hrows : allSome (fun r => if field t.cols r pk.name = some a then
        setRow k.env t.cols (m.nonAutoColumns.zip ps) r else some r) t.rows = some t.rows := by
      rw [allSome_map (g := fun r => r), List.map_id']
      intro r hr
      rw [if_neg]
      intro he
      exact hno ⟨t, hlk, r, hr, he⟩
    rw [hrows]
    exact replaceRows_same hu hlk

theorem save_succeeds_row (hm : TModelOk k m pk) (hD : DataLaws k.env k.data) (hs : StrictLaws k.env)
    {u : SDb} {t : STable} (hu : SoundDb k.env u) (hlk : u.lookup m.table = some t)
    (ht : TableFits m pk t) {o : ObjVals m.fields} (ho : Storable m.fields o)
    (hn : NoNaNs m.fields o) (hroom : KeyRoom k m pk u) (hadm : Admissible k m pk u t o)
    (href : KeyRefs m pk u) : ∃ u' o', m.save k u o = .ok (u', o') := by
  have hp := hu.proper.tables _ _ hlk
  obtain ⟨vals, ps, hw⟩ := written hm hD ht ho hn
  have hpush1 : m.nonAutoValues pk o true = .ok vals := by
    rw [← hw.pushed]; exact pushValues_congr o fun f _ _ => by simp
  obtain ⟨d, ty, st, hd, hdn, hpk, g1, g2, g3, g4, g5, -⟩ := key_column hm ht
  by_cases ha : pk.isAuto = true
  · by_cases hval : keyValid pk.name m.fields o = true
    · -- the object has a key
      have hprop := proper_of_storable (n := pk.name) o ho (auto_name hm) hval hm.distinct
      obtain ⟨id, ty', hkey, hty, hidt⟩ := key_of_proper hm hprop
      have hst : ∃ a, toSqlite k.codecs id = .ok a := by
        cases id <;> first | exact ⟨_, rfl⟩ | skip
        simp only [SqlVal.sqltype, Option.some.injEq] at hidt
        exact absurd hidt.symm (Props.field_not_custom ty' _)
      obtain ⟨a, hst⟩ := hst
      have hid : IsKeyVal k pk id a := ⟨fun ty2 hty2 => by rw [hty] at hty2; cases hty2; exact hidt, hst⟩
      have hna := (key_ne_null hidt hst).2
      by_cases hrow : HasRow u m pk a
      · obtain ⟨t', h2, r, hr, he⟩ := hrow
        rw [hlk] at h2
        cases h2
        have hpush2 : m.nonAutoValues pk o false = .ok vals := by
          rw [← hw.pushed]
          refine pushValues_congr o fun f hf hfa => ?_
          simp only [Bool.false_or, bne_iff_ne, ne_eq]
          intro e
          have := field_eq_of_name hm.distinct hf hm.pk_mem e
          subst this
          rw [ha] at hfa
          cases hfa
        unfold TModel.save
        rw [hm.key]
        simp only [ha, Bool.true_and, hval, if_true]
        split
        · exact ⟨_, _, rfl⟩
        next h1 =>
        rw [hkey, hpush2]
        simp only [Conv.orErr]
        obtain ⟨rows, hrows, -, -⟩ := allSome_exists (P := fun _ _ => True) (l := t.rows)
          (f := fun r => if field t.cols r pk.name = some a then
            setRow k.env t.cols (m.nonAutoColumns.zip ps) r else some r) (by
          intro r hr
          by_cases he : field t.cols r pk.name = some a
          · rw [if_pos he]
            obtain ⟨r', h⟩ := setRow_some (env := k.env) (sets := m.nonAutoColumns.zip ps) hp.distinct
              (allMatch_length (hp.stored r hr)) (by
              intro e hecol
              obtain ⟨f, hf, ty2, hty2, hfits⟩ := column_field hm ht hecol
              by_cases hek : e.name = pk.name
              · have : e = d := coldef_eq_of_name hp.distinct hecol hd (hek.trans hdn.symm)
                subst this
                rw [hek, zip_lookup_none (key_not_column hm ha), he]
                simp only [Option.getD_none, Option.getD_some]
                obtain ⟨v, f1, st', f2, f3⟩ := field_some_of_mem (hp.stored r hr) hp.distinct hecol
                rw [hek, he] at f1
                cases f1
                exact ⟨st', a, f2, f3, fun _ => hna⟩
              · have hnaf : f.isAuto = false := by
                  cases h : f.isAuto with
                  | false => rfl
                  | true => exact absurd (by rw [hfits.name, hm.auto f hf h]) hek
                obtain ⟨v, b, st', w, e1, e2, e3, e4, e5, e6⟩ := hw.column e hecol f hf hfits.name.symm hnaf
                rw [e3, Option.getD_some]
                exact ⟨st', w, e4, e5, e6⟩)
            exact ⟨r', h, trivial⟩
          · rw [if_neg he]
            exact ⟨r, rfl, trivial⟩)
        have hput := put_change hs hp (hu.unique _ _ hlk) (given := m.nonAutoColumns.zip ps)
          (sets := m.nonAutoColumns.zip ps) hd (by simp [hpk]) hna
          (by
            intro v hvv
            rw [hdn, zip_lookup_none (key_not_column hm ha)] at hvv
            cases hvv)
          (fun e he v hvv st' _ => ⟨v, hvv, rfl⟩)
          (by rw [hdn]; exact hrows) ⟨r, hr, by rw [hdn]; exact he⟩
        rw [hdn] at hput
        have hrep := put_replaced hm hu hlk ht hw hadm href hput (writes_key hm hD ht hkey hid)
        rw [exec_of (db' := u.insert m.table { t with rows := rows }) (ps := ps ++ [a])
          (bindAll_append_of hw.bound hid.stored)]
        · exact ⟨_, _, rfl⟩
        unfold execDataText
        rw [lex_update hm.covers (cols := m.nonAutoColumns) hm.table (hm.names pk hm.pk_mem) (columns_names hm)
          (nonAuto_ne hm fun e => h1 (by simp [e]))]
        simp only
        rw [data_update hD hlk (cols := m.nonAutoColumns) (columns_in_table ht) hw.length
          (keyClass hm hD ht hp hid), hrows]
        exact hrep
      · exact ⟨u, o, save_missing hm hD hu hlk ht ho hn ha hkey hid hrow⟩
    · have hval' : keyValid pk.name m.fields o = false := by simpa using hval
      obtain ⟨u', o', h⟩ := insertNew_succeeds hm hD hs hu hlk ht ho hn hroom ha hval' hw hadm href
      refine ⟨u', o', ?_⟩
      unfold TModel.save
      rw [hm.key]
      simp only [ha, Bool.true_and, hval', if_true, Bool.false_eq_true, if_false]
      split
      · next h1 =>
        have hnil := nonAuto_nil ha hm (by simpa using h1)
        have hvn : vals = [] := by
          have := match_length (bindAll_match hw.bound)
          rw [hw.length, hnil] at this
          exact List.eq_nil_of_length_eq_zero this
        rw [hvn, hnil] at h
        exact h
      · rw [hpush1]
        exact h
  · -- another key
    have ha' : pk.isAuto = false := by simpa using ha
    have hna := no_auto hm ha'
    have hval := keyValid_of_not_auto (n := pk.name) o hna ⟨pk, hm.pk_mem, rfl⟩
    have hprop := proper_of_storable (n := pk.name) o ho (auto_name hm) hval hm.distinct
    have hcols : m.columns = m.nonAutoColumns := by
      unfold TModel.columns TModel.nonAutoColumns
      rw [tcolumns_congr (k1 := fun _ => true) (k2 := fun f => !f.isAuto) fun f hf => by
        simp [hna f hf]]
    obtain ⟨id, ty', hkey, hty, hidt⟩ := key_of_proper hm hprop
    obtain ⟨a, hst, hla⟩ := keySql_lookup o vals ps hw.pushed hw.bound hkey hna
    have hid : IsKeyVal k pk id a :=
      ⟨fun ty2 hty2 => by rw [hty] at hty2; cases hty2; exact hidt, hst⟩
    have hkeep := upsert_keep hm ht hp hid (cols := m.nonAutoColumns) hla
    obtain ⟨new, hnew⟩ : ∃ new, newRow k.env k.data t (m.nonAutoColumns.zip ps) = some new := by
      refine newRow_some fun e he => ?_
      obtain ⟨f, hf, ty2, hty2, hfits⟩ := column_field hm ht he
      obtain ⟨v, b, st', w, e1, e2, e3, e4, e5, e6⟩ := hw.column e he f hf hfits.name.symm (hna f hf)
      exact ⟨b, hkeep e he b e3, st', w, e4, e5, e6⟩
    obtain ⟨hhas, hput⟩ := upsert_put hm hD hs ht hp (hu.unique _ _ hlk) hid (cols := m.nonAutoColumns)
      (columns_in_table ht) hla hnew
    have hfin : ∃ u', execData k.env k.data u ps (.insert m.table m.nonAutoColumns
        ((List.range m.nonAutoColumns.length).map .param) (some ⟨pk.name,
        if m.nonAutoColumns.length > 1 then some (m.nonAutoColumns, m.nonAutoColumns.map fun c =>
          .col (some "excluded") c) else none⟩) none) = some u' := by
      rw [data_upsert hlk hm.table_ne (cols := m.nonAutoColumns) (columns_in_table ht) hw.length (by
        rw [List.any_eq_true]
        exact ⟨d, hd, by simp [hdn, hpk]⟩), hnew]
      simp only [Option.bind_some]
      have hwk := writes_key hm hD ht hkey hid
      split
      · next hany =>
        split
        · next hlen =>
          obtain ⟨ws, hws⟩ : ∃ ws, allSome (field t.cols new) m.nonAutoColumns = some ws := by
            refine ⟨_, allSome_map (g := fun c => (field t.cols new c).getD .null) fun c hc => ?_⟩
            obtain ⟨e, he, rfl⟩ := List.mem_map.1 (columns_in_table ht c hc)
            obtain ⟨v, st', w, f1, f2, f3, f4, -⟩ := newRow_column hp.distinct hnew he
            simp [f4]
          obtain ⟨rows, hrows, -, -⟩ := allSome_exists (P := fun _ _ => True) (l := t.rows)
            (f := fun r => if hasValue t.cols pk.name (field t.cols new pk.name) r then
              (allSome (field t.cols new) m.nonAutoColumns).bind fun ws =>
                setRow k.env t.cols (m.nonAutoColumns.zip ws) r
              else some r) (by
            intro r hr
            split
            · rw [hws]
              simp only [Option.bind_some]
              obtain ⟨r', h⟩ := setRow_some (env := k.env) (sets := m.nonAutoColumns.zip ws) hp.distinct
                (allMatch_length (hp.stored r hr)) (by
                intro e he
                obtain ⟨f, hf, ty2, hty2, hfits⟩ := column_field hm ht he
                have hec : e.name ∈ m.nonAutoColumns := by
                  rw [hfits.name]
                  exact List.mem_map.2 ⟨_, tcolumns_mem.2 ⟨f, hf, by simp [hna f hf], ty2, hty2, rfl⟩, rfl⟩
                obtain ⟨v, f1, f2⟩ := allSome_lookup hws hec
                obtain ⟨v', st', w, e1, e2, e3, e4, e5⟩ := newRow_column hp.distinct hnew he
                rw [e4] at f2
                cases f2
                rw [f1, Option.getD_some]
                exact ⟨_, v, e2, hs.stable _ _ _ e3, e5⟩)
              exact ⟨r', h, trivial⟩
            · exact ⟨r, rfl, trivial⟩)
          rw [hrows]
          exact ⟨_, put_replaced hm hu hlk ht hw hadm href
            (hput rows (by rw [UpsertRows, if_pos hany, if_pos hlen]; exact hrows)) hwk⟩
        · exact ⟨_, rfl⟩
      · next hany =>
        exact ⟨_, put_replaced hm hu hlk ht hw hadm href
          (hput _ (by rw [UpsertRows, if_neg hany])) hwk⟩
    obtain ⟨u', hfin⟩ := hfin
    refine ⟨u', o, ?_⟩
    unfold TModel.save
    rw [hm.key]
    simp only [ha', Bool.false_and, Bool.false_eq_true, if_false, hpush1, Conv.orErr]
    rw [exec_of (db' := u') (ps := ps) (by simpa only [Backend.upsert] using hw.bound)]
    unfold execDataText
    rw [lex_upsert hm.covers hm.excluded (cols := m.columns) hm.table (hm.names pk hm.pk_mem) (columns_names hm)
      (columns_ne hm)]
    simp only
    rw [hcols]
    exact hfin

end Butane
