/-
Objects in a migrated SQLite database.
-/
import Verif.Proofs.SqliteExec
import Verif.Spec.SqliteObj
import Verif.Props.ObjRow

namespace Butane
open Butane.Ddl Butane.DdlP Spec
open Butane.Sql (Operand Cond)

variable {env : SqliteEnv} {D : SqliteData}

/-! ### Values -/

theorem ofClass_of_type {c : TextCodecs} {v : SqlVal} {ty : SqlType} {st : SqliteType} {a : SqliteVal}
    (hv : v = .null ∨ v.sqltype = some ty) (hst : sqliteType ty = some st)
    (ha : toSqlite c v = .ok a) : OfClass st a := by
  rcases hv with rfl | hv
  · cases ha
    cases st <;> trivial
  · cases v <;> simp only [SqlVal.sqltype, Option.some.injEq, reduceCtorEq] at hv <;> subst hv <;>
      simp only [toSqlite, Conv.ok.injEq, reduceCtorEq] at ha <;> subst ha <;>
      simp only [sqliteType, Option.some.injEq, reduceCtorEq] at hst <;> subst hst <;> trivial

theorem key_ne_null {c : TextCodecs} {v : SqlVal} {ty : SqlType} {a : SqliteVal}
    (hv : v.sqltype = some ty) (ha : toSqlite c v = .ok a) : v ≠ .null ∧ a ≠ .null := by
  cases v <;> simp only [SqlVal.sqltype, Option.some.injEq, reduceCtorEq] at hv <;>
    simp only [toSqlite, Conv.ok.injEq, reduceCtorEq] at ha <;> subst ha <;> simp

theorem comparable_of_class {st : SqliteType} (hr : st ≠ .real) {a b : SqliteVal} (ha : OfClass st a)
    (hb : OfClass st b) (hn : b ≠ .null) : a = .null ∨ Comparable a b := by
  cases st <;> cases a <;> cases b <;> simp_all [OfClass, Comparable]

theorem holds_eq {st : SqliteType} (hr : st ≠ .real) {a w : SqliteVal} (h : ColumnHolds st a w) :
    w = a := by
  cases h <;> first | rfl | exact absurd rfl hr

theorem present_of_proper : ∀ (t : FieldTy) (x : t.Val), Proper t x → ¬ MayBeAbsent t → Present t x
  | .newtype t, x, h, hn => present_of_proper t x h hn
  | .autoPk t, some x, h, hn => present_of_proper t x h hn
  | .autoPk t, none, h, _ => h.elim
  | .option t, _, _, hn => (hn trivial).elim
  | .fkey t, k, h, _ => by
    intro e
    subst e
    cases h
  | .bool, _, _, _ | .i64, _, _, _ | .i32, _, _, _ | .u32, _, _, _ | .u16, _, _, _ | .i16, _, _, _
  | .u8, _, _, _ | .f64, _, _, _ | .f32, _, _, _
  | .i8, _, _, _ | .string, _, _, _ | .bytes, _, _, _ | .uuid, _, _, _ | .json _, _, _, _
  | .date, _, _, _
  | .timestamp, _, _, _ | .dateTimeUtc, _, _, _ | .enum_ _, _, _, _ => trivial

/-! ### Columns -/

theorem tcolumns_mem {keep : TField → Bool} {fs : List TField} {c : String × SqlType} :
    c ∈ tcolumns keep fs ↔ ∃ f ∈ fs, keep f = true ∧ ∃ ty, f.ty = some ty ∧ c = (f.name, ty.sqltype) := by
  induction fs with
  | nil => simp [tcolumns]
  | cons f fs ih =>
    simp only [tcolumns]
    split
    · next ty hty =>
      split
      · next hk =>
        simp only [List.mem_cons, ih]
        constructor
        · rintro (rfl | ⟨g, h1, h2⟩)
          · exact ⟨f, .inl rfl, hk, ty, hty, rfl⟩
          · exact ⟨g, .inr h1, h2⟩
        · rintro ⟨g, rfl | h1, h2, ty', h3, h4⟩
          · rw [hty] at h3; cases h3; exact .inl h4
          · exact .inr ⟨g, h1, h2, ty', h3, h4⟩
      · next hk =>
        rw [ih]
        constructor
        · rintro ⟨g, h1, h2⟩
          exact ⟨g, List.mem_cons_of_mem _ h1, h2⟩
        · rintro ⟨g, h1, h2, h3⟩
          rcases List.mem_cons.1 h1 with rfl | h1
          · exact absurd h2 hk
          · exact ⟨g, h1, h2, h3⟩
    · next hty =>
      rw [ih]
      constructor
      · rintro ⟨g, h1, h2⟩
        exact ⟨g, List.mem_cons_of_mem _ h1, h2⟩
      · rintro ⟨g, h1, h2, ty, h3, h4⟩
        rcases List.mem_cons.1 h1 with rfl | h1
        · rw [hty] at h3; cases h3
        · exact ⟨g, h1, h2, ty, h3, h4⟩

theorem tcolumns_nodup {keep : TField → Bool} {fs : List TField} (h : (fs.map (·.name)).Nodup) :
    ((tcolumns keep fs).map (·.1)).Nodup := by
  induction fs with
  | nil => exact .nil
  | cons f fs ih =>
    simp only [List.map_cons, List.nodup_cons] at h
    simp only [tcolumns]
    split
    · split
      · simp only [List.map_cons, List.nodup_cons]
        refine ⟨fun hm => ?_, ih h.2⟩
        obtain ⟨c, hc, e⟩ := List.mem_map.1 hm
        obtain ⟨g, hg, -, ty, -, rfl⟩ := tcolumns_mem.1 hc
        exact h.1 (List.mem_map.2 ⟨g, hg, e⟩)
      · exact ih h.2
    · exact ih h.2

theorem tcolumns_congr {k1 k2 : TField → Bool} {fs : List TField} (h : ∀ f ∈ fs, k1 f = k2 f) :
    tcolumns k1 fs = tcolumns k2 fs := by
  induction fs with
  | nil => rfl
  | cons f fs ih =>
    simp only [tcolumns, h f (List.mem_cons_self ..), ih fun g hg => h g (List.mem_cons_of_mem _ hg)]

theorem pushValues_congr {k1 k2 : TField → Bool} : ∀ {fs : List TField} (o : ObjVals fs),
    (∀ f ∈ fs, f.isAuto = false → k1 f = k2 f) → pushValues k1 fs o = pushValues k2 fs o
  | [], _, _ => rfl
  | ⟨n, p, none⟩ :: fs, (_, os), h => by
    simp only [pushValues]
    exact pushValues_congr os fun f hf => h f (List.mem_cons_of_mem _ hf)
  | ⟨n, p, some t⟩ :: fs, (x, os), h => by
    simp only [pushValues, pushValues_congr os fun f hf => h f (List.mem_cons_of_mem _ hf)]
    cases ha : (TField.mk n p (some t)).isAuto with
    | true => simp
    | false => rw [h _ (List.mem_cons_self ..) ha]

theorem tpkField_mem {m : TModel} {pk : TField} (h : m.pkField = some pk) : pk ∈ m.fields := by
  unfold TModel.pkField at h
  split at h
  · next hf => cases h; exact List.mem_of_find?_eq_some hf
  · exact List.mem_of_find?_eq_some h

theorem field_eq_of_name {fs : List TField} (h : (fs.map (·.name)).Nodup) {f g : TField} (hf : f ∈ fs)
    (hg : g ∈ fs) (e : f.name = g.name) : f = g := by
  induction fs with
  | nil => cases hf
  | cons a fs ih =>
    simp only [List.map_cons, List.nodup_cons] at h
    rcases List.mem_cons.1 hf with rfl | hf' <;> rcases List.mem_cons.1 hg with rfl | hg'
    · rfl
    · exact absurd (List.mem_map.2 ⟨g, hg', e.symm⟩) h.1
    · exact absurd (List.mem_map.2 ⟨f, hf', e⟩) h.1
    · exact ih h.2 hf' hg'

theorem coldef_eq_of_name {cols : List ColDef} (h : (cols.map (·.name)).Nodup) {f g : ColDef}
    (hf : f ∈ cols) (hg : g ∈ cols) (e : f.name = g.name) : f = g := by
  induction cols with
  | nil => cases hf
  | cons a cols ih =>
    simp only [List.map_cons, List.nodup_cons] at h
    rcases List.mem_cons.1 hf with rfl | hf' <;> rcases List.mem_cons.1 hg with rfl | hg'
    · rfl
    · exact absurd (List.mem_map.2 ⟨g, hg', e.symm⟩) h.1
    · exact absurd (List.mem_map.2 ⟨f, hf', e⟩) h.1
    · exact ih h.2 hf' hg'

variable {k : SqliteConn} {m : TModel} {pk : TField}

theorem Spec.TModelOk.pk_mem (hm : TModelOk k m pk) : pk ∈ m.fields := tpkField_mem hm.key

theorem columns_names (hm : TModelOk k m pk) {keep : TField → Bool} :
    ∀ c ∈ (tcolumns keep m.fields).map (·.1), IsName c := by
  intro c hc
  obtain ⟨x, hx, rfl⟩ := List.mem_map.1 hc
  obtain ⟨f, hf, -, ty, -, rfl⟩ := tcolumns_mem.1 hx
  exact hm.names f hf

theorem columns_in_table {t : STable} (ht : TableFits m pk t) {keep : TField → Bool} :
    ∀ c ∈ (tcolumns keep m.fields).map (·.1), c ∈ t.cols.map (·.name) := by
  intro c hc
  obtain ⟨x, hx, rfl⟩ := List.mem_map.1 hc
  obtain ⟨f, hf, -, ty, hty, rfl⟩ := tcolumns_mem.1 hx
  obtain ⟨d, hd, hfd⟩ := ht.fields f hf ty hty
  exact List.mem_map.2 ⟨d, hd, hfd.name⟩

theorem columns_ne (hm : TModelOk k m pk) : m.columns ≠ [] := by
  obtain ⟨ty, st, h1, -⟩ := hm.keyType
  intro e
  have : (pk.name, ty.sqltype) ∈ tcolumns (fun _ => true) m.fields :=
    tcolumns_mem.2 ⟨pk, hm.pk_mem, rfl, ty, h1, rfl⟩
  have := List.mem_map_of_mem (f := (·.1)) this
  rw [show (tcolumns (fun _ => true) m.fields).map (·.1) = [] from e] at this
  cases this

/-- The key column of the table. -/
theorem key_column (hm : TModelOk k m pk) {t : STable} (ht : TableFits m pk t) :
    ∃ d ty st, d ∈ t.cols ∧ d.name = pk.name ∧ d.pk = true ∧ pk.ty = some ty ∧
      sqliteType ty.sqltype = some st ∧ st ≠ .real ∧ d.type = [st.name] ∧ strictType d.type = some st ∧
      ¬ MayBeAbsent ty := by
  obtain ⟨ty, st, h1, h2, h3, h4⟩ := hm.keyType
  obtain ⟨d, hd, hf⟩ := ht.fields pk hm.pk_mem ty h1
  obtain ⟨st', e1, e2⟩ := hf.type
  rw [h2] at e1
  cases e1
  exact ⟨d, ty, st, hd, hf.name, hf.pk.2 rfl, h1, h2, h3, e2, by rw [e2]; exact strictType_name st, h4⟩

theorem row_field {t : STable} (hp : Proper.Table env t) {r : List SqliteVal} (hr : r ∈ t.rows)
    {c : String} (hc : c ∈ t.cols.map (·.name)) : ∃ v, field t.cols r c = some v := by
  obtain ⟨d, hd, rfl⟩ := List.mem_map.1 hc
  obtain ⟨v, h, -⟩ := field_some_of_mem (hp.stored r hr) hp.distinct hd
  exact ⟨v, h⟩

theorem keyClass (hm : TModelOk k m pk) (hD : DataLaws k.env k.data) {t : STable}
    (ht : TableFits m pk t) (hp : Proper.Table k.env t) {id : SqlVal} {a : SqliteVal}
    (hid : IsKeyVal k pk id a) : KeyClass t pk.name a := by
  obtain ⟨d, ty, st, hd, hn, -, h1, h2, h3, -, h5, -⟩ := key_column hm ht
  have hty := hid.type ty h1
  have ha := ofClass_of_type (.inr hty) h2 hid.stored
  refine ⟨by simpa using ⟨d, hd, hn⟩, (key_ne_null hty hid.stored).2, ?_⟩
  intro r hr
  obtain ⟨v, g1, st', g2, g3⟩ := field_some_of_mem (hp.stored r hr) hp.distinct hd
  rw [hn] at g1
  rw [h5] at g2
  cases g2
  exact ⟨v, g1, comparable_of_class h3 (hD.stored _ _ _ g3) ha (key_ne_null hty hid.stored).2⟩

/-! ### Reading -/

/-- The possible results of reading an object. -/
theorem tableTryGet_iff (hm : TModelOk k m pk) (hD : DataLaws k.env k.data) {u : SDb} {t : STable}
    (hlk : u.lookup m.table = some t) (ht : TableFits m pk t) (hp : Proper.Table k.env t)
    {id : SqlVal} {a : SqliteVal} (hid : IsKeyVal k pk id a)
    (res : Except OpErr (Option (ObjVals m.fields))) :
    m.TryGetOut k u id res ↔
      ∃ l : List (List SqliteVal), l.Perm (t.rows.filter fun r => field t.cols r pk.name = some a) ∧
        res = match m.fromRows k ((l.take 1).map (pick t.cols m.columns)) with
          | .ok os => .ok os.head?
          | .error e => .error e := by
  have hty : ∃ ty, pk.ty = some ty := by
    obtain ⟨ty, _, h, _⟩ := hm.keyType; exact ⟨ty, h⟩
  obtain ⟨ty, hty⟩ := hty
  obtain ⟨hne, hna⟩ := key_ne_null (hid.type ty hty) hid.stored
  obtain ⟨ps, hps⟩ := key_binds hid.stored
  have hkc := keyClass hm hD ht hp hid
  have hsel := data_select hD hlk (ps := ps) (o := astVal id 0) (key_operand hid.stored hps) hkc
    (cs := m.columns) (columns_in_table ht)
    (fun r hr c hc => row_field hp hr (columns_in_table ht c hc))
  simp only [TModel.TryGetOut, hm.key, TModel.LoadOut]
  rw [get_params m hne, hps]
  simp only [Conv.orErr, QueryRows]
  rw [lex_get hm.covers m hm.table hm.plain (columns_names hm) (columns_ne hm) hne]
  simp only
  constructor
  · rintro ⟨os, ⟨out, h1, rfl⟩, rfl⟩
    obtain ⟨l, h2, rfl⟩ := (hsel out).1 h1
    exact ⟨l, h2, rfl⟩
  · rintro ⟨l, h2, rfl⟩
    exact ⟨_, ⟨_, (hsel (some _)).2 ⟨l, h2, rfl⟩, rfl⟩, rfl⟩

end Butane
