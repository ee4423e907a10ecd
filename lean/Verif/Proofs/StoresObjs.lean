/-
The objects a table holds: saving, deleting, reading.
-/
import Verif.Spec.ObjQuery
import Verif.Proofs.ObjKept

namespace Butane
open Butane.Ddl Butane.DdlP Spec

variable {k : SqliteConn} {m m' : TModel} {pk pk' : TField}

/-! ### Fields -/

theorem allProper_val {n : String} {t : FieldTy} {x : t.Val} : ∀ {fs : List TField} {o : ObjVals fs},
    AllProper fs o → valueOf n fs o = some ⟨t, x⟩ → Proper t x
  | [], _, _, h => by cases h
  | ⟨n', p, none⟩ :: fs, (y, os), hp, h => by
    simp only [valueOf] at h
    split at h
    · cases h
    · exact allProper_val (fs := fs) hp h
  | ⟨n', p, some t'⟩ :: fs, (y, os), hp, h => by
    simp only [valueOf] at h
    split at h
    · cases h; exact hp.1
    · exact allProper_val (fs := fs) hp.2 h

theorem noNaNs_val {n : String} {t : FieldTy} {x : t.Val} : ∀ {fs : List TField} {o : ObjVals fs},
    NoNaNs fs o → valueOf n fs o = some ⟨t, x⟩ → NoNaNField t x
  | [], _, _, h => by cases h
  | ⟨n', p, none⟩ :: fs, (y, os), hp, h => by
    simp only [valueOf] at h
    split at h
    · cases h
    · exact noNaNs_val (fs := fs) hp h
  | ⟨n', p, some t'⟩ :: fs, (y, os), hp, h => by
    simp only [valueOf] at h
    split at h
    · cases h; exact hp.1
    · exact noNaNs_val (fs := fs) hp.2 h

theorem holds_val {Holds : String × SqlType → SqlVal → Prop} {n : String} {t : FieldTy} {x : t.Val} :
    ∀ (fs : List TField) (o : ObjVals fs) (vals : List SqlVal), pushValues (fun _ => true) fs o = .ok vals →
      AllMatch Holds (tcolumns (fun f => !f.isAuto) fs) vals → AutoHolds Holds fs o →
      valueOf n fs o = some ⟨t, x⟩ → ∃ v, t.toSql x = .ok v ∧ Holds (n, t.sqltype) v
  | [], _, _, _, _, _, h => by cases h
  | ⟨n', p, none⟩ :: fs, (y, os), vals, hv, hm, ha, h => by
    simp only [valueOf] at h
    split at h
    · cases h
    · exact holds_val fs os vals hv hm ha h
  | ⟨n', p, some t'⟩ :: fs, (y, os), vals, hv, hm, ha, h => by
    by_cases hauto : (TField.mk n' p (some t')).isAuto = true
    · cases t' with
      | autoPk u =>
        obtain ⟨⟨z, v, rfl, h2, h3⟩, ha'⟩ := ha
        simp only [pushValues, hauto, Bool.not_true, Bool.false_and, Bool.false_eq_true,
          ↓reduceIte] at hv
        simp only [tcolumns, hauto, Bool.not_true, Bool.false_eq_true, ↓reduceIte] at hm
        simp only [valueOf] at h
        split at h
        · next e => cases h; subst e; exact ⟨v, h2, h3⟩
        · exact holds_val fs os vals hv hm ha' h
      | _ => cases hauto
    · have hauto' : (TField.mk n' p (some t')).isAuto = false := by simpa using hauto
      have ha' : AutoHolds Holds fs os := by
        cases t'
        case autoPk => cases hauto'
        all_goals exact ha
      simp only [pushValues, hauto', Bool.not_false, Bool.and_self, ↓reduceIte] at hv
      obtain ⟨v, h1, hv⟩ := Conv.bind_ok hv
      obtain ⟨vs, h2, hv⟩ := Conv.bind_ok hv
      cases hv
      simp only [tcolumns, hauto', Bool.not_false, ↓reduceIte] at hm
      cases hm with
      | cons hm1 hm2 =>
        simp only [valueOf] at h
        split at h
        · next e => cases h; subst e; exact ⟨v, h1, hm1⟩
        · exact holds_val fs os vs h2 hm2 ha' h

theorem keySql_val {n : String} {v : SqlVal} : ∀ {fs : List TField} {o : ObjVals fs},
    (∀ f ∈ fs, f.name = n → f.ty.isSome) → keySql n fs o = .ok v →
      ∃ t x, valueOf n fs o = some ⟨t, x⟩ ∧ t.toSql x = .ok v
  | [], _, _, h => by cases h
  | ⟨n', p, none⟩ :: fs, (y, os), hf, h => by
    have hne : n' ≠ n := fun e => by simpa using hf _ (List.mem_cons_self ..) e
    obtain ⟨t, x, h1, h2⟩ := keySql_val (fs := fs) (o := os) (fun f h => hf f (List.mem_cons_of_mem _ h)) h
    exact ⟨t, x, by simp only [valueOf, if_neg hne, h1], h2⟩
  | ⟨n', p, some t'⟩ :: fs, (y, os), hf, h => by
    simp only [keySql] at h
    split at h
    · next e => exact ⟨t', y, by simp [valueOf, e], h⟩
    · next hne =>
      obtain ⟨t, x, h1, h2⟩ := keySql_val (fs := fs) (o := os) (fun f h => hf f (List.mem_cons_of_mem _ h)) h
      exact ⟨t, x, by simp only [valueOf, if_neg hne, h1], h2⟩

theorem fieldSql_key (hm : TModelOk k m pk) {o : ObjVals m.fields} {id : SqlVal}
    (h : keySql pk.name m.fields o = .ok id) : FieldSql m o pk.name id := by
  refine keySql_val ?_ h
  intro f hf hn
  rw [field_eq_of_name hm.distinct hf hm.pk_mem hn]
  obtain ⟨ty, _, e, -⟩ := hm.keyType
  simp [e]

theorem fieldSql_unique {o : ObjVals m.fields} {n : String} {v w : SqlVal} (h1 : FieldSql m o n v)
    (h2 : FieldSql m o n w) : v = w := by
  obtain ⟨t, x, e1, e2⟩ := h1
  obtain ⟨t', x', e3, e4⟩ := h2
  rw [e1] at e3
  cases e3
  rw [e2] at e4
  cases e4
  rfl

/-- A row that took an object holds it. -/
theorem rowHolds_of (ht : TableFits m pk t) (hp : Proper.Table k.env t) {r : List SqliteVal} (hr : r ∈ t.rows)
    {o : ObjVals m.fields} (h : RowOf k m t.cols r o) : RowHolds k m t.cols r o := by
  intro n ty x hx
  obtain ⟨⟨vals, h1, h2⟩, h3⟩ := h
  obtain ⟨v, g1, st, a, g2, g3, g4⟩ := holds_val _ _ _ h1 h2 h3 hx
  obtain ⟨f, hf, rfl, hty⟩ := hasField_of_val hx
  obtain ⟨d, hd, hfd⟩ := ht.fields f hf ty hty
  obtain ⟨w, e1, -⟩ := field_some_of_mem (hp.stored r hr) hp.distinct hd
  rw [hfd.name] at e1
  simp only [e1, Option.getD_some] at g4
  exact ⟨v, a, st, w, g1, g3, g2, e1, g4⟩

/-! ### The table through operations -/

theorem storesObjs_empty {t : STable} (hlk : u.lookup m.table = some t) (he : t.rows = []) :
    StoresObjs k m pk u fun _ => none := by
  refine ⟨t, hlk, ?_, fun id a _ => ?_⟩
  · intro r hr; rw [he] at hr; cases hr
  · simp [he]

theorem storesObjs_saved (h : Ready k m pk u) {st : Objects m} (hs : StoresObjs k m pk u st) {u' : SDb}
    {o : ObjVals m.fields} (hn : NoNaNs m.fields o) {id : SqlVal} {a : SqliteVal}
    (hsv : Saved k m pk u u' o id a) : StoresObjs k m pk u' (st.put id o) := by
  obtain ⟨t, t', hlk, hlk', hc, -, hrest⟩ := hsv.only.table
  obtain ⟨t1, g1, ht⟩ := h.table
  rw [hlk] at g1
  cases g1
  obtain ⟨t1, g1, hkeys, hobjs⟩ := hs
  rw [hlk] at g1
  cases g1
  have ht' : TableFits m pk t' := ⟨by rw [hc]; exact ht.distinct, by rw [hc]; exact ht.fields,
      by rw [hc]; exact ht.columns, by rw [hc]; exact ht.keyDefault⟩
  have hp' := hsv.sound.proper.tables _ _ hlk'
  refine ⟨t', hlk', ?_, fun id2 a2 hid2 => ?_⟩
  · intro r hr
    by_cases hra : field t.cols r pk.name = some a
    · exact ⟨id, a, hsv.isKey, by rw [hc]; exact hra⟩
    · have : r ∈ t'.rows.filter fun r => !decide (field t.cols r pk.name = some a) :=
        List.mem_filter.2 ⟨hr, by simpa using hra⟩
      rw [hrest] at this
      rw [hc]
      exact hkeys r (List.mem_filter.1 this).1
  · by_cases e : id2 = id
    · subst e
      have hst : (st.put id2 o) id2 = some o := by simp [Objects.put]
      rw [hst]
      have ha : a2 = a := by
        have := hid2.stored.symm.trans hsv.isKey.stored
        cases this; rfl
      subst ha
      obtain ⟨t'', r, g1, g2, g3⟩ := hsv.row
      rw [hlk'] at g1
      cases g1
      have hr : r ∈ t'.rows := (List.mem_filter.1 (by rw [g2]; exact List.mem_singleton_self _)).1
      exact ⟨fieldSql_key h.model hsv.key, hsv.proper, hn, r, g2, rowHolds_of ht' hp' hr g3⟩
    · have hst : (st.put id o) id2 = st id2 := by simp [Objects.put, e]
      rw [hst]
      have hne : a2 ≠ a := by
        rintro rfl
        obtain ⟨ty, _, hty, -⟩ := h.model.keyType
        exact e (toSqlite_inj h.codecs (hid2.type ty hty) (hsv.isKey.type ty hty) hid2.stored hsv.isKey.stored)
      have hf : t'.rows.filter (fun r => decide (field t'.cols r pk.name = some a2)) =
          t.rows.filter fun r => decide (field t.cols r pk.name = some a2) := by
        rw [hc]
        exact filter_other (fun r hr => by
          simp only [decide_eq_true_eq] at hr
          simp only [hr, decide_eq_false_iff_not, Option.some.injEq]
          exact hne) hrest
      rw [hf, hc]
      exact hobjs id2 a2 hid2

theorem storesObjs_deleted (h : Ready k m pk u) {st : Objects m} (hs : StoresObjs k m pk u st) {u' : SDb}
    {o : ObjVals m.fields} (ho : Storable m.fields o) {id : SqlVal}
    (hkey : keySql pk.name m.fields o = .ok id) (hd : m.delete k u o = .ok u') :
    StoresObjs k m pk u' (st.remove id) := by
  obtain ⟨t, hlk, ht⟩ := h.table
  obtain ⟨t1, g1, hkeys, hobjs⟩ := hs
  rw [hlk] at g1
  cases g1
  have hid := keyLike_of_storable h.model ho hkey
  obtain ⟨a, hkv⟩ := keyLike_stored (k := k) h.model hid
  have heq := delete_deleted h.model h.data h.sound hlk ht hkey hkv hd
  have hlk' : u'.lookup m.table = some { t with rows := t.rows.filter (fun r => !decide (field t.cols r pk.name = some a)) } := by
    rw [heq, SMap.lookup_insert, if_pos rfl]
  refine ⟨_, hlk', fun r hr => hkeys r (List.mem_filter.1 hr).1, fun id2 a2 hid2 => ?_⟩
  by_cases e : id2 = id
  · subst e
    have hst : (st.remove id2) id2 = none := by simp [Objects.remove]
    rw [hst]
    have ha : a2 = a := by
      have := hid2.stored.symm.trans hkv.stored
      cases this; rfl
    subst ha
    simp only [List.filter_filter, List.filter_eq_nil_iff]
    intro r _
    simp
  · have hst : (st.remove id) id2 = st id2 := by simp [Objects.remove, e]
    rw [hst]
    have hne : a2 ≠ a := by
      rintro rfl
      obtain ⟨ty, _, hty, -⟩ := h.model.keyType
      exact e (toSqlite_inj h.codecs (hid2.type ty hty) (hid ty hty) hid2.stored hkv.stored)
    have hf : (t.rows.filter fun r => !decide (field t.cols r pk.name = some a)).filter
        (fun r => decide (field t.cols r pk.name = some a2)) =
        t.rows.filter fun r => decide (field t.cols r pk.name = some a2) := by
      rw [List.filter_filter]
      congr 1
      funext r
      by_cases hr : field t.cols r pk.name = some a2
      · simp [hr, hne]
      · simp [hr]
    simp only [hf]
    exact hobjs id2 a2 hid2

theorem storesObjs_other {st : Objects m} (hs : StoresObjs k m pk u st) {u' : SDb} {n : String}
    (hr : Rewrites k.env u u' n) (hn : n ≠ m.table) : StoresObjs k m pk u' st := by
  obtain ⟨t, hlk, h⟩ := hs
  exact ⟨t, by rw [hr.others _ (Ne.symm hn), hlk], h⟩

/-! ### Reading -/

theorem sameFields_of_vals : ∀ {fs : List TField} {o o' : ObjVals fs}, (fs.map (·.name)).Nodup →
    (∀ n t x y, valueOf n fs o = some ⟨t, x⟩ → valueOf n fs o' = some ⟨t, y⟩ → SameField t x y) →
    SameFields fs o o'
  | [], _, _, _, _ => trivial
  | ⟨n', p, none⟩ :: fs, (_, os), (_, os'), hn, h => by
    simp only [List.map_cons, List.nodup_cons] at hn
    refine sameFields_of_vals (fs := fs) (o := os) (o' := os') hn.2 fun n t x y h1 h2 => h n t x y ?_ ?_
    all_goals
      have hne : n' ≠ n := by
        rintro rfl
        obtain ⟨f, hf, e, -⟩ := hasField_of_val h1
        exact hn.1 (e ▸ List.mem_map_of_mem hf)
      simpa only [valueOf, if_neg hne]
  | ⟨n', p, some t'⟩ :: fs, (x', os), (y', os'), hn, h => by
    simp only [List.map_cons, List.nodup_cons] at hn
    refine ⟨h n' t' x' y' (by simp [valueOf]) (by simp [valueOf]),
      sameFields_of_vals (fs := fs) (o := os) (o' := os') hn.2 fun n t x y h1 h2 => h n t x y ?_ ?_⟩
    all_goals
      have hne : n' ≠ n := by
        rintro rfl
        obtain ⟨f, hf, e, -⟩ := hasField_of_val h1
        exact hn.1 (e ▸ List.mem_map_of_mem hf)
      simpa only [valueOf, if_neg hne]

/-- Reading a row that holds an object. -/
theorem fromRows_holds (hc : Faithful k.codecs) (hm : TModelOk k m pk) {cols : List ColDef} {r : List SqliteVal}
    {o : ObjVals m.fields} (hp : AllProper m.fields o) (hn : NoNaNs m.fields o) (hr : RowHolds k m cols r o) :
    ∃ o', m.fromRows k [pick cols m.columns r] = .ok [o'] ∧ SameFields m.fields o o' := by
  have hread : ∀ n t x, valueOf n m.fields o = some ⟨t, x⟩ → ∃ y,
      readVal k t ((field cols r n).getD .null) = .ok y ∧ SameField t x y := by
    intro n t x hx
    obtain ⟨v, a, st, w, h1, h2, h3, h4, h5⟩ := hr n t x hx
    have hpx := allProper_val hp hx
    obtain ⟨st', a', q1, q2, -, q3⟩ := Props.sqlite_round_trip_partial k.codecs hc v t.sqltype
      (Props.present_dec t x v hpx h1) (Props.field_not_custom t) (Props.field_no_nan t x v (noNaNs_val hn hx) h1)
    rw [h3] at q1
    rw [h2] at q2
    cases q1
    cases q2
    obtain ⟨v', q4, q5⟩ := q3 _ h5
    obtain ⟨y, q6, q7⟩ := field_read_same k.parseUuid t x hpx v v' h1 q5
    exact ⟨y, by simp only [readVal, h4, Option.getD_some, q4, Conv.bind, q6], q7⟩
  obtain ⟨o', ho'⟩ := fromRows_ok (k := k) (m := m) (cols := cols) (r := r) (by
    intro f hf t ht
    obtain ⟨x, hx⟩ := fieldVal_some hm.distinct o ⟨f, hf, rfl, ht⟩
    obtain ⟨y, hy, -⟩ := hread _ _ _ hx
    exact ⟨y, hy⟩)
  refine ⟨o', ho', sameFields_of_vals hm.distinct ?_⟩
  intro n t x y hx hy
  obtain ⟨y', e1, e2⟩ := hread _ _ _ hx
  have := fromRows_vals ho' hy
  rw [e1] at this
  cases this
  exact e2

/-- A table that holds the objects shows them. -/
theorem shows_of_stores (h : Ready k m pk u) {st : Objects m} (hs : StoresObjs k m pk u st) :
    ShowsObjs k m pk u st := by
  obtain ⟨t, hlk, -, hobjs⟩ := hs
  intro id hid
  obtain ⟨a, hkv⟩ := keyLike_stored (k := k) h.model hid
  have := hobjs id a hkv
  cases hst : st id with
  | none =>
    rw [hst] at this
    exact ⟨⟨_, (tryGet_none h hlk hkv this _).2 rfl⟩, fun res hres =>
      ⟨none, (tryGet_none h hlk hkv this res).1 hres, trivial⟩⟩
  | some o =>
    rw [hst] at this
    obtain ⟨-, hp, hn, r, hr, hro⟩ := this
    obtain ⟨o', ho', hsame⟩ := fromRows_holds h.codecs h.model hp hn hro
    have key : ∀ res, m.TryGetOut k u id res ↔ res = .ok (some o') := by
      intro res
      rw [tryGet_one h hlk hkv hr, ho']
      rfl
    exact ⟨⟨_, (key _).2 rfl⟩, fun res hres => ⟨some o', (key res).1 hres, hsame⟩⟩

end Butane
