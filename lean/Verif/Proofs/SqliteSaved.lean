/-
What saving and deleting an object does to the database.
-/
import Verif.Proofs.SqliteSaveKey

namespace Butane
open Butane.Ddl Butane.DdlP Spec
open Butane.Sql (Operand Cond)

variable {k : SqliteConn} {m : TModel} {pk : TField}

/-- The row holds the object. -/
def RowOf (k : SqliteConn) (m : TModel) (cols : List ColDef) (r : List SqliteVal) (o : ObjVals m.fields) :
    Prop :=
  (∃ vals, pushValues (fun _ => true) m.fields o = .ok vals ∧
    AllMatch (SqliteHolds k.codecs fun n => (field cols r n).getD .null)
      (tcolumns (fun f => !f.isAuto) m.fields) vals) ∧
  AutoHolds (SqliteHolds k.codecs fun n => (field cols r n).getD .null) m.fields o

/-- What is true after an object was saved: it is proper and has a key, the row with the key holds it,
and nothing else changed. -/
structure Saved (k : SqliteConn) (m : TModel) (pk : TField) (u u' : SDb) (o' : ObjVals m.fields)
    (id : SqlVal) (a : SqliteVal) : Prop where
  key : keySql pk.name m.fields o' = .ok id
  isKey : IsKeyVal k pk id a
  proper : AllProper m.fields o'
  only : OnlyKey u u' m.table pk.name a
  sound : SoundDb k.env u'
  row : ∃ t' r, u'.lookup m.table = some t' ∧
    t'.rows.filter (fun r => decide (field t'.cols r pk.name = some a)) = [r] ∧ RowOf k m t'.cols r o'

/-- A table with other rows. -/
theorem sound_insert {env : SqliteEnv} {u : SDb} (hu : SoundDb env u) {n : String} {t : STable}
    (hlk : u.lookup n = some t) {rows : List (List SqliteVal)} (hr : uniqueOk t.cols rows = true)
    (hp : ∀ r ∈ rows, AllMatch (fun (d : ColDef) v => ∃ st, strictType d.type = some st ∧
      env.coerce st v = some v) t.cols r) : SoundDb env (u.insert n { t with rows := rows }) := by
  refine ⟨⟨SMap.sorted_insert hu.proper.sorted _ _, ?_⟩, ?_⟩
  · intro n' s h
    rw [SMap.lookup_insert] at h
    split at h
    · cases h
      exact ⟨(hu.proper.tables n t hlk).distinct, hp⟩
    · exact hu.proper.tables n' s h
  · intro n' s h
    rw [SMap.lookup_insert] at h
    split at h
    · cases h; exact hr
    · exact hu.unique n' s h

/-- A row that took the values of an object holds it. -/
theorem rowOf_takes (hm : TModelOk k m pk) (hD : DataLaws k.env k.data) {t : STable}
    (ht : TableFits m pk t) {o : ObjVals m.fields} (ho : AllProper m.fields o) {vals : List SqlVal}
    {ps : List SqliteVal} (hv : pushValues (fun _ => true) m.fields o = .ok vals)
    (hb : bindAll k.codecs vals = .ok ps) {r : List SqliteVal}
    (hr : Takes k.env t.cols (m.nonAutoColumns.zip ps) r) {id : SqlVal} {a : SqliteVal}
    (hkey : keySql pk.name m.fields o = .ok id) (hid : IsKeyVal k pk id a)
    (hra : field t.cols r pk.name = some a) : RowOf k m t.cols r o := by
  obtain ⟨vals', h1, h2⟩ := Props.columns_values_line_up (fun _ => true) m.fields o ho
  rw [hv] at h1
  cases h1
  have hcs : tcolumns (fun f => !f.isAuto && true) m.fields = tcolumns (fun f => !f.isAuto) m.fields :=
    tcolumns_congr fun f _ => by simp
  rw [hcs] at h2
  refine ⟨⟨vals, hv, match_lookup h2 (bindAll_match hb) (tcolumns_nodup hm.distinct) ?_⟩, ?_⟩
  · intro col hc v b hT hvb hl
    obtain ⟨f, hf, -, ty, hty, rfl⟩ := tcolumns_mem.1 hc
    obtain ⟨d, hd, hfd⟩ := ht.fields f hf ty hty
    obtain ⟨st, e1, e2⟩ := hfd.type
    refine ⟨st, b, e1, hvb, ?_⟩
    obtain ⟨st', w, g1, g2, g3⟩ := hr d hd b (by rw [hfd.name]; exact hl)
    rw [e2, strictType_name] at g1
    cases g1
    obtain ⟨w', f1, f2⟩ := hD.write st b (ofClass_of_type hT e1 hvb)
    rw [g2] at f1
    cases f1
    rw [hfd.name] at g3
    simp only [g3, Option.getD_some]
    exact f2
  · refine autoHolds_of_key (n := pk.name) o (fun f hf ha => by rw [hm.auto f hf ha]) hm.distinct hkey ?_
    intro f hf t' hft
    have hfp : f = pk := hm.auto f hf (by simp [TField.isAuto, hft])
    subst hfp
    obtain ⟨ty, st, g1, g2, g3, -⟩ := hm.keyType
    rw [hft] at g1
    cases g1
    refine ⟨st, a, g2, hid.stored, ?_⟩
    simp only [hra, Option.getD_some]
    obtain ⟨w, f1, f2⟩ := hD.write st a (ofClass_of_type (.inr (hid.type _ hft)) g2 hid.stored)
    rwa [holds_eq g3 f2] at f2

theorem saved_of_put (hm : TModelOk k m pk) (hD : DataLaws k.env k.data) {u u' : SDb} {t : STable}
    (hu : SoundDb k.env u) (hlk : u.lookup m.table = some t)
    (ht : TableFits m pk t) {o : ObjVals m.fields} (ho : AllProper m.fields o) {vals : List SqlVal}
    {ps : List SqliteVal} (hv : pushValues (fun _ => true) m.fields o = .ok vals)
    (hb : bindAll k.codecs vals = .ok ps) {rows : List (List SqliteVal)} {id : SqlVal} {a : SqliteVal}
    (hput : Put k.env t rows pk.name a (m.nonAutoColumns.zip ps))
    (hr : u' = u.insert m.table { t with rows := rows }) (hq : uniqueOk t.cols rows = true)
    (hkey : keySql pk.name m.fields o = .ok id) (hid : IsKeyVal k pk id a) :
    Saved k m pk u u' o id a := by
  subst hr
  obtain ⟨r, h1, h2⟩ := hput.row
  have hra : field t.cols r pk.name = some a := by
    have : r ∈ rows.filter fun r => decide (field t.cols r pk.name = some a) := by
      rw [h1]; exact List.mem_singleton_self _
    simpa using (List.mem_filter.1 this).2
  have hlk' : (u.insert m.table { t with rows := rows }).lookup m.table = some { t with rows := rows } := by
    rw [SMap.lookup_insert, if_pos rfl]
  refine ⟨hkey, hid, ho, ⟨?_, t, _, hlk, hlk', rfl, rfl, hput.others⟩,
    sound_insert hu hlk hq hput.proper, ⟨_, r, hlk', h1, ?_⟩⟩
  · intro n hn
    rw [SMap.lookup_insert, if_neg hn]
  · exact rowOf_takes hm hD ht ho hv hb h2 hkey hid hra

/-! ### The statements of `save` -/

theorem exec_ok {db db' : SDb} {st : Stmt} (h : k.exec db st = .ok db') :
    ∃ ps, bindAll k.codecs st.params = .ok ps ∧
      execDataText k.env k.data k.reserved db st.text ps = some db' := by
  unfold SqliteConn.exec at h
  cases hb : bindAll k.codecs st.params <;> rw [hb] at h <;> simp only [Conv.orErr, reduceCtorEq] at h
  next ps =>
  split at h
  · next h1 => cases h; exact ⟨ps, rfl, h1⟩
  · cases h

theorem orErr_ok {α : Type} {c : Conv α} {a : α} (h : c.orErr = .ok a) : c = .ok a := by
  cases c <;> simp only [Conv.orErr, reduceCtorEq] at h
  cases h
  rfl

theorem zip_lookup_none {cols : List String} {ps : List SqliteVal} {n : String} (h : n ∉ cols) :
    (cols.zip ps).lookup n = none := by
  induction cols generalizing ps with
  | nil => rfl
  | cons c cols ih =>
    cases ps with
    | nil => rfl
    | cons p ps =>
      simp only [List.mem_cons, not_or] at h
      simp only [List.zip_cons_cons, List.lookup_cons]
      rw [show (n == c) = false by simpa using h.1]
      exact ih h.2

theorem zip_lookup_mem {cols : List String} {ps : List SqliteVal} {n : String} {v : SqliteVal}
    (h : (cols.zip ps).lookup n = some v) : n ∈ cols := by
  by_cases hc : n ∈ cols
  · exact hc
  · rw [zip_lookup_none hc] at h; cases h

/-- The automatic key is not among the other columns. -/
theorem key_not_column (hm : TModelOk k m pk) (ha : pk.isAuto = true) : pk.name ∉ m.nonAutoColumns := by
  intro h
  obtain ⟨c, hc, e⟩ := List.mem_map.1 h
  obtain ⟨f, hf, hk, ty, -, rfl⟩ := tcolumns_mem.1 hc
  have : f = pk := field_eq_of_name hm.distinct hf hm.pk_mem e
  subst this
  simp [ha] at hk

/-- The new row of an object with an automatic key. -/
theorem put_new (hm : TModelOk k m pk) (hD : DataLaws k.env k.data) (hs : StrictLaws k.env)
    {t : STable} (ht : TableFits m pk t) (hp : Proper.Table k.env t) {cols : List String}
    {ps : List SqliteVal} (hc : pk.name ∉ cols) {new : List SqliteVal}
    (hauto : ∃ d ∈ t.cols, d.name = pk.name ∧ d.type = ["INTEGER"])
    (h : newRow k.env k.data t (cols.zip ps) = some new) :
    ∃ j, k.data.newKey (keysOf t pk.name) = some j ∧ field t.cols new pk.name = some (.integer j) ∧
      Put k.env t (t.rows ++ [new]) pk.name (.integer j) (cols.zip ps) := by
  obtain ⟨d, ty, st, hd, hn, hpk, -, -, -, -, h5, -⟩ := key_column hm ht
  obtain ⟨d', hd', hn', hty'⟩ := hauto
  have hdd : d' = d := coldef_eq_of_name hp.distinct hd' hd (hn'.trans hn.symm)
  subst hdd
  obtain ⟨v, st', w, g1, g2, g3, g4, -⟩ := newRow_column hp.distinct h hd
  have hnv : newValue k.env k.data t (cols.zip ps) d' =
      (k.data.newKey (keysOf t pk.name)).map .integer := by
    have hl : (cols.zip ps).lookup d'.name = none := by rw [hn]; exact zip_lookup_none hc
    simp only [newValue, hl, ht.keyDefault d' hd hn, Option.elim, hpk, hty', decide_true, Bool.true_and,
      if_true]
    rw [hn]
  rw [hnv] at g1
  cases hj : k.data.newKey (keysOf t pk.name) with
  | none => rw [hj] at g1; cases g1
  | some j =>
    rw [hj] at g1
    cases g1
    rw [hty'] at g2
    cases g2
    rw [hs.integer] at g3
    cases g3
    rw [hn] at g4
    refine ⟨j, rfl, g4, put_append hs hp h ?_ g4 ?_⟩
    · intro e he v hv
      have hmem := zip_lookup_mem hv
      have hne : e.pk = false := by
        obtain ⟨f, hf, ty, hfty, hef⟩ := ht.columns e he
        obtain ⟨e', he', hfe⟩ := ht.fields f hf ty hfty
        have : e' = e := coldef_eq_of_name hp.distinct he' he (hfe.name.trans hef.symm)
        subst this
        cases hpe : e'.pk with
        | false => rfl
        | true =>
          have := hfe.pk.1 hpe
          rw [hfe.name, this] at hmem
          exact absurd hmem hc
      simp only [newValue, hv]
      cases v <;> simp [hne]
    · intro r hr e
      refine hD.newKey _ _ hj ?_
      simp only [keysOf, List.mem_filterMap]
      exact ⟨r, hr, by rw [e]⟩

/-- The values of columns, paired with their names. -/
theorem allSome_lookup {cols : List ColDef} {r : List SqliteVal} {c : String} {cs : List String}
    {ws : List SqliteVal} (hw : allSome (field cols r) cs = some ws) (hc : c ∈ cs) :
    ∃ v, (cs.zip ws).lookup c = some v ∧ field cols r c = some v := by
  induction cs generalizing ws with
  | nil => cases hc
  | cons c' cs ih =>
    simp only [allSome] at hw
    split at hw
    · next b bs hb hbs =>
      cases hw
      simp only [List.zip_cons_cons, List.lookup_cons]
      by_cases hce : c = c'
      · subst hce
        exact ⟨b, by simp, hb⟩
      · rw [show (c == c') = false by simpa using hce]
        rcases List.mem_cons.1 hc with h | h
        · exact absurd h hce
        · exact ih hbs h
    · cases hw

/-- The rows an `INSERT … ON CONFLICT` leaves, if no constraint is violated. -/
def UpsertRows (env : SqliteEnv) (t : STable) (pk : String) (cols : List String) (new : List SqliteVal)
    (rows : List (List SqliteVal)) : Prop :=
  if t.rows.any (hasValue t.cols pk (field t.cols new pk)) then
    if cols.length > 1 then
      allSome (fun r =>
        if hasValue t.cols pk (field t.cols new pk) r then
          (allSome (field t.cols new) cols).bind fun ws => setRow env t.cols (cols.zip ws) r
        else some r) t.rows = some rows
    else rows = t.rows
  else rows = t.rows ++ [new]

/-- A value that is given is the value of a new row. -/
theorem upsert_keep (hm : TModelOk k m pk) {t : STable} (ht : TableFits m pk t)
    (hp : Proper.Table k.env t) {cols : List String}
    {ps : List SqliteVal} {id : SqlVal} {a : SqliteVal} (hid : IsKeyVal k pk id a)
    (ha : (cols.zip ps).lookup pk.name = some a) : ∀ e ∈ t.cols, ∀ v, (cols.zip ps).lookup e.name = some v →
        newValue k.env k.data t (cols.zip ps) e = some v := by
  obtain ⟨d, ty, st, hd, hn, hpk, h1, h2, h3, h4, h5, -⟩ := key_column hm ht
  have hna := (key_ne_null (hid.type ty h1) hid.stored).2
  intro e he v hv
  simp only [newValue, hv]
  by_cases hep : e.pk = true
  · obtain ⟨f, hf, ty', hfty, hef⟩ := ht.columns e he
    obtain ⟨e', he', hfe⟩ := ht.fields f hf ty' hfty
    have : e' = e := coldef_eq_of_name hp.distinct he' he (hfe.name.trans hef.symm)
    subst this
    have := hfe.pk.1 hep
    rw [hfe.name, this, ha] at hv
    cases hv
    cases a <;> first | rfl | exact absurd rfl hna
  · cases v <;> simp [hep]

/-- The row of an object with a key that is not automatic. -/
theorem upsert_put (hm : TModelOk k m pk) (hD : DataLaws k.env k.data) (hs : StrictLaws k.env)
    {t : STable} (ht : TableFits m pk t) (hp : Proper.Table k.env t)
    (hu : uniqueOk t.cols t.rows = true) {cols : List String}
    {ps : List SqliteVal} {id : SqlVal} {a : SqliteVal} (hid : IsKeyVal k pk id a)
    (hcols : ∀ c ∈ cols, c ∈ t.cols.map (·.name))
    (ha : (cols.zip ps).lookup pk.name = some a) {new : List SqliteVal}
    (hnew : newRow k.env k.data t (cols.zip ps) = some new) :
    (∀ r, hasValue t.cols pk.name (field t.cols new pk.name) r = decide (field t.cols r pk.name = some a)) ∧
    ∀ rows, UpsertRows k.env t pk.name cols new rows → Put k.env t rows pk.name a (cols.zip ps) := by
  obtain ⟨d, ty, st, hd, hn, hpk, h1, h2, h3, h4, h5, -⟩ := key_column hm ht
  have hna := (key_ne_null (hid.type ty h1) hid.stored).2
  have hkeep := upsert_keep hm ht hp hid ha
  have hfa : field t.cols new pk.name = some a := by
    obtain ⟨v, st', w, g1, g2, g3, g4, -⟩ := newRow_column hp.distinct hnew hd
    rw [hkeep d hd a (by rw [hn]; exact ha)] at g1
    cases g1
    rw [h5] at g2
    cases g2
    obtain ⟨w', f1, f2⟩ := hD.write st a (ofClass_of_type (.inr (hid.type ty h1)) h2 hid.stored)
    rw [g3] at f1
    cases f1
    rw [holds_eq h3 f2, hn] at g4
    exact g4
  have hhas : ∀ r, hasValue t.cols pk.name (field t.cols new pk.name) r =
      decide (field t.cols r pk.name = some a) := by
    intro r
    simp [hasValue, hfa, hna]
  refine ⟨hhas, fun rows h => ?_⟩
  unfold UpsertRows at h
  split at h
  · next hany =>
    obtain ⟨r, hr, hra⟩ := List.any_eq_true.1 hany
    rw [hhas, decide_eq_true_eq] at hra
    split at h
    · have hws : ∃ ws, allSome (field t.cols new) cols = some ws := by
        refine ⟨_, allSome_map (g := fun c => (field t.cols new c).getD .null) fun c hc => ?_⟩
        obtain ⟨e, he, rfl⟩ := List.mem_map.1 (hcols c hc)
        obtain ⟨v, st', w, g1, g2, g3, g4, -⟩ := newRow_column hp.distinct hnew he
        simp [g4]
      obtain ⟨ws, hws⟩ := hws
      have hrows' : allSome (fun r => if field t.cols r d.name = some a then
          setRow k.env t.cols (cols.zip ws) r else some r) t.rows = some rows := by
        rw [← h]
        refine allSome_congr fun r _ => ?_
        rw [hhas, hws, hn]
        simp
      have hlook : ∀ e ∈ t.cols, e.name ∈ cols → ∃ v, (cols.zip ws).lookup e.name = some v ∧
          field t.cols new e.name = some v := by
        intro e he hec
        exact allSome_lookup hws hec
      have := put_change hs hp hu (given := cols.zip ps) (sets := cols.zip ws) hd (by simp [hpk]) hna
        (by
          intro v hv
          obtain ⟨v', g1, g2⟩ := hlook d hd (zip_lookup_mem hv)
          rw [hv] at g1
          cases g1
          rw [hn, hfa] at g2
          cases g2
          rfl)
        (by
          intro e he v hv st' hst'
          obtain ⟨w, g1, g2⟩ := hlook e he (zip_lookup_mem hv)
          obtain ⟨v', st'', w', f1, f2, f3, f4, -⟩ := newRow_column hp.distinct hnew he
          rw [hkeep e he v hv] at f1
          cases f1
          rw [hst'] at f2
          cases f2
          rw [g2] at f4
          cases f4
          exact ⟨w, g1, by rw [f3]; exact hs.stable _ _ _ f3⟩)
        hrows' ⟨r, hr, by rw [hn]; exact hra⟩
      rw [hn] at this
      exact this
    · next hlen =>
      subst h
      refine ⟨rfl, ?_, fun r hr => hp.stored r hr⟩
      have hone := unique_filter hu hd (v := a) (by simp [hpk]) hna
      rw [hn] at hone
      have hmem : r ∈ t.rows.filter fun r => decide (field t.cols r pk.name = some a) :=
        List.mem_filter.2 ⟨hr, by simpa using hra⟩
      refine ⟨r, ?_, ?_⟩
      · match hl : t.rows.filter (fun r => decide (field t.cols r pk.name = some a)) with
        | [] => rw [hl] at hmem; cases hmem
        | [r'] => rw [hl, List.mem_singleton] at hmem; rw [hmem]
        | _ :: _ :: _ => rw [hl] at hone; simp at hone
      · intro e he v hv
        have hmemc := zip_lookup_mem hv
        have hpkc := zip_lookup_mem ha
        have hc1 : e.name = pk.name := by
          match cols, hlen, hmemc, hpkc with
          | [c], _, h1, h2 =>
            rw [List.mem_singleton] at h1 h2
            rw [h1, h2]
          | _ :: _ :: _, hlen, _, _ => simp at hlen
        have hed : e = d := coldef_eq_of_name hp.distinct he hd (hc1.trans hn.symm)
        subst hed
        rw [hc1, ha] at hv
        cases hv
        obtain ⟨v, g1, st', g2, g3⟩ := field_some_of_mem (hp.stored r hr) hp.distinct he
        rw [hc1, hra] at g1
        cases g1
        exact ⟨st', a, g2, g3, by rw [hc1]; exact hra⟩
  · next hany =>
    subst h
    refine put_append hs hp hnew hkeep hfa ?_
    intro r hr hra
    refine hany ?_
    rw [List.any_eq_true]
    exact ⟨r, hr, by rw [hhas]; simpa using hra⟩

theorem put_upsert (hm : TModelOk k m pk) (hD : DataLaws k.env k.data) (hs : StrictLaws k.env)
    {t : STable} (ht : TableFits m pk t) (hp : Proper.Table k.env t)
    (hu : uniqueOk t.cols t.rows = true) {cols : List String}
    {ps : List SqliteVal} {id : SqlVal} {a : SqliteVal} (hid : IsKeyVal k pk id a)
    (hl : ps.length = cols.length) (hcols : ∀ c ∈ cols, c ∈ t.cols.map (·.name))
    (ha : (cols.zip ps).lookup pk.name = some a) {u u' : SDb} (hlk : u.lookup m.table = some t)
    (hne : m.table ≠ "excluded")
    (h : execData k.env k.data u ps (.insert m.table cols ((List.range cols.length).map .param) (some ⟨pk.name,
        if cols.length > 1 then some (cols, cols.map fun c => .col (some "excluded") c) else none⟩)
        none) = some u') :
    ∃ rows, Put k.env t rows pk.name a (cols.zip ps) ∧ uniqueOk t.cols rows = true ∧
      (u' = u.insert m.table { t with rows := rows } ∨ (u' = u ∧ rows = t.rows)) := by
  obtain ⟨d, ty, st, hd, hn, hpk, h1, h2, h3, h4, h5, -⟩ := key_column hm ht
  rw [data_upsert hlk hne hcols hl (by
    rw [List.any_eq_true]
    exact ⟨d, hd, by simp [hn, hpk]⟩)] at h
  cases hnew : newRow k.env k.data t (cols.zip ps) with
  | none => rw [hnew] at h; cases h
  | some new =>
    rw [hnew] at h
    simp only [Option.bind_some] at h
    obtain ⟨-, hput⟩ := upsert_put hm hD hs ht hp hu hid hcols ha hnew
    split at h
    · next hany =>
      split at h
      · next hlen =>
        obtain ⟨rows, hrows, h⟩ := Option.bind_eq_some_iff.1 h
        obtain ⟨e1, e2⟩ := replaceRows_eq h
        exact ⟨rows, hput rows (by rw [UpsertRows, if_pos hany, if_pos hlen]; exact hrows), e2, .inl e1⟩
      · next hlen =>
        cases h
        exact ⟨t.rows, hput _ (by rw [UpsertRows, if_pos hany, if_neg hlen]), hu, .inr ⟨rfl, rfl⟩⟩
    · next hany =>
      obtain ⟨e1, e2⟩ := replaceRows_eq h
      exact ⟨_, hput _ (by rw [UpsertRows, if_neg hany]), e2, .inl e1⟩

end Butane
