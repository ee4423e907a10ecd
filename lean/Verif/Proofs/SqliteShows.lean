/-
A table shows a map from keys to objects.
-/
import Verif.Proofs.SqliteRewrites

namespace Butane
open Butane.Ddl Butane.DdlP Spec

variable {k : SqliteConn} {m : TModel} {pk : TField}

/-- Reading the row of an object. -/
theorem fromRows_one (hc : Faithful k.codecs) {cols : List ColDef} {r : List SqliteVal} {o : ObjVals m.fields}
    (hp : AllProper m.fields o) (hn : NoNaNs m.fields o) (hr : RowOf k m cols r o) :
    ∃ o', m.fromRows k [pick cols m.columns r] = .ok [o'] ∧ SameFields m.fields o o' := by
  obtain ⟨⟨vals, h1, h2⟩, h3⟩ := hr
  obtain ⟨o', h4, h5⟩ := Props.object_row_sqlite_partial k.parseUuid k.codecs hc m.fields o hp hn vals h1 _ h2 h3
  have e : pick cols m.columns r = (tcolumns (fun _ => true) m.fields).map
      fun col => (field cols r col.1).getD .null := by
    simp [pick, TModel.columns, List.map_map, Function.comp_def]
  have hlen : (pick cols m.columns r).length = (tcolumns (fun _ => true) m.fields).length := by
    simp [pick, TModel.columns]
  refine ⟨o', ?_, h5⟩
  simp only [TModel.fromRows, hlen]
  rw [e, h4]
  rfl

theorem perm_one {α : Type} {l : List α} {p : List α} {r : α} (h : l.Perm p) (hp : p = [r]) : l = [r] := by
  subst hp
  exact List.perm_singleton.1 h

/-- The possible results of looking for an object depend on the rows with its key. -/
theorem tryGet_congr (hm : TModelOk k m pk) (hD : DataLaws k.env k.data) {u u' : SDb} {t t' : STable}
    (hlk : u.lookup m.table = some t) (hlk' : u'.lookup m.table = some t') (hc : t'.cols = t.cols)
    (ht : TableFits m pk t) (hp : Proper.Table k.env t) (hp' : Proper.Table k.env t')
    {id : SqlVal} {a : SqliteVal} (hid : IsKeyVal k pk id a)
    (hr : t'.rows.filter (fun r => decide (field t.cols r pk.name = some a)) =
      t.rows.filter fun r => decide (field t.cols r pk.name = some a))
    (res : Except OpErr (Option (ObjVals m.fields))) :
    m.TryGetOut k u' id res ↔ m.TryGetOut k u id res := by
  have ht' : TableFits m pk t' := ⟨by rw [hc]; exact ht.distinct, by rw [hc]; exact ht.fields,
    by rw [hc]; exact ht.columns, by rw [hc]; exact ht.keyDefault⟩
  rw [tableTryGet_iff hm hD hlk ht hp hid, tableTryGet_iff hm hD hlk' ht' hp' hid, hc, hr]

theorem filter_other {α : Type} {l l' : List α} {p q : α → Bool} (hpq : ∀ x, q x = true → p x = false)
    (h : l'.filter (fun x => !p x) = l.filter fun x => !p x) : l'.filter q = l.filter q := by
  have : ∀ l : List α, (l.filter fun x => !p x).filter q = l.filter q := by
    intro l
    rw [List.filter_filter]
    congr 1
    funext x
    cases hq : q x with
    | false => rfl
    | true => simp [hpq x hq]
  rw [← this l', h, this l]

theorem ready_of_rewrites {n : String} {u u' : SDb} (h : Ready k m pk u) (hr : Rewrites k.env u u' n) :
    Ready k m pk u' := by
  obtain ⟨t, h1, h2⟩ := h.table
  refine ⟨h.model, h.data, h.strict, h.codecs, hr.sound h.sound, ?_⟩
  have := hr.shape m.table
  rw [h1] at this
  obtain ⟨rows, h3⟩ := this
  exact ⟨_, h3, ⟨h2.distinct, h2.fields, h2.columns, h2.keyDefault⟩⟩

/-- Whether there is an object with a key is whether there is a row. -/
theorem shows_hasRow (h : Ready k m pk u) {st : Objects m} (hs : ShowsObjs k m pk u st) {id : SqlVal}
    {a : SqliteVal} (hid : IsKeyVal k pk id a) : (st id).isSome = true ↔ HasRow u m pk a := by
  obtain ⟨t, hlk, ht⟩ := h.table
  have hp := h.sound.proper.tables _ _ hlk
  have hiff := tableTryGet_iff h.model h.data hlk ht hp hid
  obtain ⟨⟨res, hres⟩, hall⟩ := hs id hid.type
  obtain ⟨x, hx1, hx2⟩ := hall res hres
  obtain ⟨l, hl1, hl2⟩ := (hiff res).1 hres
  constructor
  · intro hsome
    cases hst : st id with
    | none => rw [hst] at hsome; cases hsome
    | some o =>
      rw [hst] at hx2
      cases x with
      | none => exact hx2.elim
      | some y =>
        cases l with
        | nil => rw [hl2] at hx1; simp [TModel.fromRows] at hx1
        | cons r l =>
          have : r ∈ t.rows.filter fun r => decide (field t.cols r pk.name = some a) :=
            hl1.mem_iff.1 (List.mem_cons_self ..)
          obtain ⟨g1, g2⟩ := List.mem_filter.1 this
          exact ⟨t, hlk, r, g1, by simpa using g2⟩
  · rintro ⟨t', h1, r, hr, he⟩
    rw [hlk] at h1
    cases h1
    cases l with
    | nil =>
      have : r ∈ t.rows.filter fun r => decide (field t.cols r pk.name = some a) :=
        List.mem_filter.2 ⟨hr, by simpa using he⟩
      rw [← hl1.mem_iff] at this
      cases this
    | cons r0 l =>
      cases hst : st id with
      | some o => rfl
      | none =>
        rw [hst] at hx2
        cases x with
        | some y => exact hx2.elim
        | none =>
          rw [hl2] at hx1
          simp only [List.take_succ_cons, List.take_zero, List.map_cons, List.map_nil] at hx1
          unfold TModel.fromRows at hx1
          split at hx1
          · next e =>
            split at e
            · cases e
            · split at e
              · cases e
              · simp only [TModel.fromRows] at e
                cases e
                cases hx1
          · cases hx1

/-- After a save. -/
theorem shows_saved (h : Ready k m pk u) {st : Objects m} (hs : ShowsObjs k m pk u st) {u' : SDb}
    {o : ObjVals m.fields} (hn : NoNaNs m.fields o) {id : SqlVal} {a : SqliteVal}
    (hsv : Saved k m pk u u' o id a) : ShowsObjs k m pk u' (st.put id o) := by
  obtain ⟨t, t', hlk, hlk', hc, -, hrest⟩ := hsv.only.table
  obtain ⟨t1, g1, ht⟩ := h.table
  rw [hlk] at g1
  cases g1
  have hp := h.sound.proper.tables _ _ hlk
  have hp' := hsv.sound.proper.tables _ _ hlk'
  intro id2 hid2
  obtain ⟨a2, hkv⟩ := keyLike_stored (k := k) h.model hid2
  by_cases e : id2 = id
  · subst e
    have hst : (st.put id2 o) id2 = some o := by simp [Objects.put]
    rw [hst]
    have ha : a2 = a := by
      have := hkv.stored.symm.trans hsv.isKey.stored
      cases this; rfl
    subst ha
    obtain ⟨t'', r, g1, g2, g3⟩ := hsv.row
    rw [hlk'] at g1
    cases g1
    have ht' : TableFits m pk t' := ⟨by rw [hc]; exact ht.distinct, by rw [hc]; exact ht.fields,
      by rw [hc]; exact ht.columns, by rw [hc]; exact ht.keyDefault⟩
    have hiff := tableTryGet_iff h.model h.data hlk' ht' hp' hkv
    obtain ⟨o', f1, f2⟩ := fromRows_one h.codecs hsv.proper hn g3
    have hval : ∀ res, m.TryGetOut k u' id2 res ↔ res = .ok (some o') := by
      intro res
      rw [hiff]
      constructor
      · rintro ⟨l, hl, rfl⟩
        rw [perm_one hl g2]
        simp only [List.take_succ_cons, List.take_zero, List.map_cons, List.map_nil, f1, List.head?]
      · rintro rfl
        refine ⟨_, List.Perm.refl _, ?_⟩
        rw [g2]
        simp only [List.take_succ_cons, List.take_zero, List.map_cons, List.map_nil, f1, List.head?]
    refine ⟨⟨_, (hval _).2 rfl⟩, fun res hres => ⟨some o', (hval res).1 hres, f2⟩⟩
  · have hst : (st.put id o) id2 = st id2 := by simp [Objects.put, e]
    rw [hst]
    have hne : a2 ≠ a := by
      rintro rfl
      obtain ⟨ty, _, hty, -⟩ := h.model.keyType
      exact e (toSqlite_inj h.codecs (hid2 ty hty) (hsv.isKey.type ty hty) hkv.stored hsv.isKey.stored)
    have hcon := tryGet_congr h.model h.data hlk hlk' hc ht hp hp' hkv (filter_other (fun r hr => by
      simp only [decide_eq_true_eq] at hr
      simp only [hr, decide_eq_false_iff_not, Option.some.injEq]
      exact hne) hrest)
    obtain ⟨⟨res, hres⟩, hall⟩ := hs id2 hid2
    exact ⟨⟨res, (hcon res).2 hres⟩, fun res hr => hall res ((hcon res).1 hr)⟩

/-- After a delete. -/
theorem shows_deleted (h : Ready k m pk u) {st : Objects m} (hs : ShowsObjs k m pk u st) {u' : SDb}
    {o : ObjVals m.fields} (ho : Storable m.fields o) {id : SqlVal}
    (hkey : keySql pk.name m.fields o = .ok id) (hd : m.delete k u o = .ok u') :
    ShowsObjs k m pk u' (st.remove id) := by
  obtain ⟨t, hlk, ht⟩ := h.table
  have hid := keyLike_of_storable h.model ho hkey
  obtain ⟨a, hkv⟩ := keyLike_stored (k := k) h.model hid
  have heq := delete_deleted h.model h.data h.sound hlk ht hkey hkv hd
  have hr := delete_rewrites h.model h.strict h.sound ho hd
  have hlk' : u'.lookup m.table = some { t with rows := t.rows.filter (fun r => !decide (field t.cols r pk.name = some a)) } := by
    rw [heq, SMap.lookup_insert, if_pos rfl]
  have hp := h.sound.proper.tables _ _ hlk
  have hp' := (hr.sound h.sound).proper.tables _ _ hlk'
  intro id2 hid2
  obtain ⟨a2, hkv2⟩ := keyLike_stored (k := k) h.model hid2
  by_cases e : id2 = id
  · subst e
    have hst : (st.remove id2) id2 = none := by simp [Objects.remove]
    rw [hst]
    have ha : a2 = a := by
      have := hkv2.stored.symm.trans hkv.stored
      cases this; rfl
    subst ha
    have ht' : TableFits m pk { t with rows := t.rows.filter (fun r => !decide (field t.cols r pk.name = some a2)) } :=
      ⟨ht.distinct, ht.fields, ht.columns, ht.keyDefault⟩
    have hiff := tableTryGet_iff h.model h.data hlk' ht' hp' hkv2
    have hnil : (t.rows.filter fun r => !decide (field t.cols r pk.name = some a2)).filter
        (fun r => decide (field t.cols r pk.name = some a2)) = [] := by
      rw [List.filter_filter, List.filter_eq_nil_iff]
      intro r _
      simp
    have hval : ∀ res, m.TryGetOut k u' id2 res ↔ res = .ok none := by
      intro res
      rw [hiff]
      simp only
      rw [hnil]
      constructor
      · rintro ⟨l, hl, rfl⟩
        rw [List.perm_nil.1 hl]
        rfl
      · rintro rfl
        exact ⟨[], List.Perm.refl _, rfl⟩
    exact ⟨⟨_, (hval _).2 rfl⟩, fun res hres => ⟨none, (hval res).1 hres, trivial⟩⟩
  · have hst : (st.remove id) id2 = st id2 := by simp [Objects.remove, e]
    rw [hst]
    have hne : a2 ≠ a := by
      rintro rfl
      obtain ⟨ty, _, hty, -⟩ := h.model.keyType
      exact e (toSqlite_inj h.codecs (hid2 ty hty) (hid ty hty) hkv2.stored hkv.stored)
    have hcon := tryGet_congr h.model h.data hlk hlk' rfl ht hp hp' hkv2 (by
      simp only [List.filter_filter]
      congr 1
      funext r
      by_cases hr : field t.cols r pk.name = some a2
      · simp [hr, hne]
      · simp [hr])
    obtain ⟨⟨res, hres⟩, hall⟩ := hs id2 hid2
    exact ⟨⟨res, (hcon res).2 hres⟩, fun res hr => hall res ((hcon res).1 hr)⟩

/-- Changes of other tables. -/
theorem shows_other (h : Ready k m pk u) {st : Objects m} (hs : ShowsObjs k m pk u st) {u' : SDb} {n : String}
    (hr : Rewrites k.env u u' n) (hn : n ≠ m.table) : ShowsObjs k m pk u' st := by
  obtain ⟨t, hlk, ht⟩ := h.table
  have hlk' : u'.lookup m.table = some t := by rw [hr.others _ (Ne.symm hn), hlk]
  have hp := h.sound.proper.tables _ _ hlk
  intro id hid
  obtain ⟨a, hkv⟩ := keyLike_stored (k := k) h.model hid
  have hcon := tryGet_congr h.model h.data hlk hlk' rfl ht hp hp hkv rfl
  obtain ⟨⟨res, hres⟩, hall⟩ := hs id hid
  exact ⟨⟨res, (hcon res).2 hres⟩, fun res hr => hall res ((hcon res).1 hr)⟩

/-- A table without rows shows no objects. -/
theorem shows_empty (h : Ready k m pk u) (he : ∀ t, u.lookup m.table = some t → t.rows = []) :
    ShowsObjs k m pk u fun _ => none := by
  obtain ⟨t, hlk, ht⟩ := h.table
  have hp := h.sound.proper.tables _ _ hlk
  intro id hid
  obtain ⟨a, hkv⟩ := keyLike_stored (k := k) h.model hid
  have hiff := tableTryGet_iff h.model h.data hlk ht hp hkv
  have hval : ∀ res, m.TryGetOut k u id res ↔ res = .ok none := by
    intro res
    rw [hiff, he t hlk]
    constructor
    · rintro ⟨l, hl, rfl⟩
      rw [List.perm_nil.1 hl]
      rfl
    · rintro rfl
      exact ⟨[], List.Perm.refl _, rfl⟩
  exact ⟨⟨_, (hval _).2 rfl⟩, fun res hres => ⟨none, (hval res).1 hres, trivial⟩⟩

end Butane
