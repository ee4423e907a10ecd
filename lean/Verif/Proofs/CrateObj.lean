/-
The table of a model of a crate fits the objects the model declares.
-/
import Verif.Spec.CrateObj
import Verif.Proofs.CrateDb
import Verif.Proofs.SqliteRewrites

namespace Butane.Proofs.CrateDb
open Butane Butane.Spec Butane.Ddl Butane.Codegen Butane.Proofs.Codegen Butane.Props

variable {g : Cfg} {items : List Item} {ft : Features}

/-- A type is stored as the macros say. -/
theorem rustType_sql {p : Path} {ty : FieldTy} (h : RustType ft items p ty) :
    HasSqlType ft items p (.ty ty.sqltype) := by
  induction h with
  | simple h =>
    refine .builtin (.simple ?_)
    simp only [List.mem_cons, Prod.mk.injEq, List.not_mem_nil, or_false] at h
    rcases h with ⟨h, rfl⟩ | ⟨h, rfl⟩ | ⟨h, rfl⟩ | ⟨h, rfl⟩ | ⟨h, rfl⟩ | ⟨h, rfl⟩ | ⟨h, rfl⟩ | ⟨h, rfl⟩ |
      ⟨h, rfl⟩ | ⟨h, rfl⟩ <;> rw [h] <;> simp [FieldTy.sqltype]
  | string _ hb => exact .builtin hb
  | bytes _ hb => exact .builtin hb
  | uuid _ hb => exact .builtin hb
  | value _ _ hb => exact .builtin hb
  | date _ hb => exact .builtin hb
  | naive _ hb => exact .builtin hb
  | utc _ hb => exact .builtin hb
  | map _ _ h => exact h
  | option hw _ ih => exact .option hw ih
  | autoPk hw _ ih => exact .autoPk hw ih
  | foreignKey hw hs hl hk hty _ ih => exact .foreignKey hw hs hl hk hty ih
  | alias h1 h2 _ ih => exact .alias h1 h2 ih
  | newtype h1 h2 hb _ _ => exact .newtype h1 h2 hb
  | enum _ h1 h2 => exact .enum h1 h2
  | derived _ h1 h2 h3 => exact .derived h1 h2 h3

theorem allMatch_left {α : Type} {β : Type 1} {R : α → β → Prop} {l : List α} {m : List β} (h : AllMatch R l m) :
    ∀ {a}, a ∈ l → ∃ b ∈ m, R a b := by
  induction h with
  | nil => intro a ha; cases ha
  | cons hr _ ih =>
    intro a ha
    rcases List.mem_cons.1 ha with rfl | ha
    · exact ⟨_, by simp, hr⟩
    · obtain ⟨b, hb, h⟩ := ih ha
      exact ⟨b, by simp [hb], h⟩

theorem allMatch_right {α : Type} {β : Type 1} {R : α → β → Prop} {l : List α} {m : List β} (h : AllMatch R l m) :
    ∀ {b}, b ∈ m → ∃ a ∈ l, R a b := by
  induction h with
  | nil => intro a ha; cases ha
  | cons hr _ ih =>
    intro a ha
    rcases List.mem_cons.1 ha with rfl | ha
    · exact ⟨_, by simp, hr⟩
    · obtain ⟨b, hb, h⟩ := ih ha
      exact ⟨b, by simp [hb], h⟩

theorem allMatch_names {l : List Codegen.Field} {m : List TField} (h : AllMatch (IsField ft items) l m) :
    m.map (·.name) = l.map (·.ident.name) := by
  induction h with
  | nil => rfl
  | cons hr _ ih => simp only [List.map_cons, ih, hr.name]

/-- Searching both lists with tests that agree. -/
theorem allMatch_find {l : List Codegen.Field} {m : List TField} (h : AllMatch (IsField ft items) l m)
    {P : Codegen.Field → Bool} {Q : TField → Bool}
    (hpq : ∀ f ∈ l, ∀ f' ∈ m, IsField ft items f f' → P f = Q f') :
    (l.find? P = none ∧ m.find? Q = none) ∨
      ∃ f f', l.find? P = some f ∧ m.find? Q = some f' ∧ IsField ft items f f' := by
  induction h with
  | nil => exact .inl ⟨rfl, rfl⟩
  | @cons a b as bs hr _ ih =>
    have hab := hpq a (by simp) b (by simp) hr
    simp only [List.find?_cons]
    cases hp : P a with
    | true =>
      rw [hp] at hab
      rw [← hab]
      exact .inr ⟨a, b, rfl, rfl, hr⟩
    | false =>
      rw [hp] at hab
      rw [← hab]
      exact ih (fun f hf f' hf' => hpq f (by simp [hf]) f' (by simp [hf']))

/-- The key of the objects is that of the struct. -/
theorem model_key {s : Struct} {m : TModel} (h : IsModel ft items s m)
    (hraw : ∀ f ∈ s.fields, f.ident.name = "id" → f.ident = ⟨"id", false⟩) {pk : TField} (hpk : m.pkField = some pk) :
    ∃ f, IsKey s f ∧ IsField ft items f pk ∧ f ∈ s.fields ∧ pk ∈ m.fields := by
  have key : ∃ f, s.pkField = some f ∧ IsField ft items f pk := by
    unfold TModel.pkField at hpk
    unfold Struct.pkField
    have h1 := allMatch_find h.fields (P := fun f => f.attrs.any (· == .pk)) (Q := fun f => f.pkAttr) (by
      intro f _ f' _ hf
      rw [Bool.eq_iff_iff, hf.pkAttr]
      simp)
    have h2 := allMatch_find h.fields (P := fun f => f.ident.text == "id") (Q := fun f => f.name == "id") (by
      intro f hf f' _ hff
      rw [Bool.eq_iff_iff, beq_iff_eq, beq_iff_eq, hff.name]
      constructor
      · intro e
        exact (text_eq e (by decide)).1
      · intro e
        rw [hraw f hf e]
        rfl)
    rcases h1 with ⟨q1, q2⟩ | ⟨f, f', q1, q2, q3⟩
    · rw [q2] at hpk
      simp only [q1]
      rcases h2 with ⟨r1, r2⟩ | ⟨f, f', r1, r2, r3⟩
      · rw [r2] at hpk
        cases hpk
      · rw [r2] at hpk
        cases hpk
        exact ⟨f, r1, r3⟩
    · rw [q2] at hpk
      cases hpk
      exact ⟨f, by simp only [q1], q3⟩
  obtain ⟨f, h1, h2⟩ := key
  have hk := isKey_iff.2 h1
  refine ⟨f, hk, h2, key_mem hk, ?_⟩
  unfold TModel.pkField at hpk
  split at hpk
  · next hf => cases hpk; exact List.mem_of_find?_eq_some hf
  · exact List.mem_of_find?_eq_some hpk

theorem eq_of_name {α : Type u} {β : Type} {l : List α} {n : α → β} (h : (l.map n).Nodup) {a b : α} (ha : a ∈ l) (hb : b ∈ l)
    (e : n a = n b) : a = b := by
  induction l with
  | nil => cases ha
  | cons x l ih =>
    rw [List.map_cons, List.nodup_cons] at h
    rcases List.mem_cons.1 ha with ea | ha'
    · rcases List.mem_cons.1 hb with eb | hb'
      · exact ea.trans eb.symm
      · exact absurd (ea ▸ e ▸ List.mem_map_of_mem hb') h.1
    · rcases List.mem_cons.1 hb with eb | hb'
      · exact absurd (eb ▸ e ▸ List.mem_map_of_mem ha') h.1
      · exact ih h.2 ha' hb'

theorem model_distinct (hn : WellNamed items) {s : Struct} (hs : s ∈ modelsOf items) {m : TModel}
    (h : IsModel ft items s m) : (m.fields.map (·.name)).Nodup := by
  rw [allMatch_names h.fields]
  exact hn.fields s hs

/-- The table of a model fits the objects it declares. -/
theorem table_fits (hr : ResolverOk g.resolve) (hn : WellNamed items) (ht : Typed g.ft items) {s : Struct}
    (hs : s ∈ modelsOf items) {t : STable} (hmt : ModelTable g.ft items s t) {k : SqliteConn} {m : TModel} {pk : TField}
    (hu : UsableModel g.ft items k s m pk) : TableFits m pk t := by
  obtain ⟨db, -, hrec⟩ := recorded hr hn ht
  obtain ⟨kf, hkey, hkf, hkmem, hpkm⟩ := model_key hu.isModel hu.noRaw hu.key
  have hnd := model_distinct hn hs hu.isModel
  have hsame : ∀ {f}, f ∈ s.fields → f.ident.name = pk.name → IsKey s f := by
    intro f hf e
    rw [hkf.name] at e
    rw [eq_of_name (hn.fields s hs) hf hkmem e]
    exact hkey
  refine ⟨hmt.distinct, ?_, ?_, ?_⟩
  · intro f' hf' ty hty
    obtain ⟨f, hf, hff⟩ := allMatch_right hu.isModel.fields hf'
    have hrow : f ∈ rowFields s := mem_rowFields.2 ⟨hf, fun h => by rw [hff.many.2 h] at hty; cases hty⟩
    obtain ⟨d, hd, hfc⟩ := hmt.fields f hrow
    obtain ⟨p, hp, hpt⟩ := hff.type ty hty
    refine ⟨d, hd, hfc.name.trans hff.name.symm, ?_, ?_, ?_⟩
    · obtain ⟨p', st, h1, ⟨ty0, h2, h3⟩, h4⟩ := hfc.type
      rw [hp] at h1
      cases h1
      cases has_unique hr hn ht hrec (rustType_sql hpt) h2
      exact ⟨st, h3, h4⟩
    · rintro (hnn | hpk) habs
      · exact hfc.notNull.1 hnn (by
          obtain ⟨q, hq⟩ := hu.option f hf p ty hp hpt habs
          exact ⟨p, q, hp, hq⟩)
      · have hk := hfc.pk.1 hpk
        obtain rfl := key_unique hkey hk
        have : f' = pk := eq_of_name hnd hf' hpkm (hff.name.trans hkf.name.symm)
        subst this
        exact (hu.keyType ty hty).2 habs
    · rw [hfc.pk, hff.name]
      constructor
      · intro hk
        obtain rfl := key_unique hkey hk
        exact hkf.name.symm
      · exact hsame hf
  · intro d hd
    obtain ⟨f, hf, hfc⟩ := hmt.columns d hd
    rw [mem_rowFields] at hf
    obtain ⟨f', hf', hff⟩ := allMatch_left hu.isModel.fields hf.1
    cases hty : f'.ty with
    | none => exact absurd (hff.many.1 hty) hf.2
    | some ty => exact ⟨f', hf', ty, hty, hfc.name.trans hff.name.symm⟩
  · intro d hd e
    obtain ⟨f, hf, hfc⟩ := hmt.columns d hd
    rw [mem_rowFields] at hf
    exact hfc.keyDefault (hsame hf.1 (hfc.name.symm.trans e))

/-- The objects of a model of a plain crate can be stored. -/
theorem model_ok (hr : ResolverOk g.resolve) (hn : WellNamed items) (ht : Typed g.ft items) (hp : PlainCrate g.ft items)
    {s : Struct} (hs : s ∈ modelsOf items) {k : SqliteConn} {m : TModel} {pk : TField}
    (hu : UsableModel g.ft items k s m pk) : TModelOk k m pk := by
  obtain ⟨db, -, hrec⟩ := recorded hr hn ht
  obtain ⟨kf, hkey, hkf, hkmem, hpkm⟩ := model_key hu.isModel hu.noRaw hu.key
  have hnd := model_distinct hn hs hu.isModel
  refine ⟨hu.covers, hu.excluded, ?_, hu.table, ?_, hnd, hu.key, hu.plain, ?_, ?_, hu.autoInt⟩
  · rw [hu.isModel.table]
    exact (hp.tables s hs).1
  · intro f' hf'
    obtain ⟨f, hf, hff⟩ := allMatch_right hu.isModel.fields hf'
    rw [hff.name]
    exact hp.fields s hs f hf
  · have hrow := key_row ht hs hkey
    cases hty : pk.ty with
    | none => exact absurd (hkf.many.1 hty) (mem_rowFields.1 hrow).2
    | some ty =>
      obtain ⟨p, h1, h2⟩ := hkf.type ty hty
      obtain ⟨st, ty0, h3, h4⟩ := hp.types s hs kf hrow p _ h1 (rustType_sql h2)
      cases has_unique hr hn ht hrec (rustType_sql h2) h3
      refine ⟨ty, st, rfl, h4, fun e => ?_, (hu.keyType ty hty).2⟩
      exact (hu.keyType ty hty).1 (e ▸ h4)
  · intro f' hf' ha
    obtain ⟨f, hf, hff⟩ := allMatch_right hu.isModel.fields hf'
    unfold TField.isAuto at ha
    split at ha
    · next ty hty =>
      obtain ⟨p, h1, h2⟩ := hff.type _ hty
      obtain ⟨q, hq⟩ := hu.auto f hf p ty h1 h2
      obtain rfl := key_unique hkey (hp.auto s hs f hf p q h1 hq)
      exact eq_of_name hnd hf' hpkm (hff.name.trans hkf.name.symm)
    · cases ha

/-- The foreign keys of the crate's tables refer to keys. -/
theorem crate_keyRefs (hr : ResolverOk g.resolve) (hn : WellNamed items) (ht : Typed g.ft items) {u : SDb}
    (hc : CrateTables g.ft items u) {s : Struct} (hs : s ∈ modelsOf items) {k : SqliteConn} {m : TModel} {pk : TField}
    (hu : UsableModel g.ft items k s m pk) : KeyRefs m pk u := by
  obtain ⟨kf, hkey, hkf, hkmem, hpkm⟩ := model_key hu.isModel hu.noRaw hu.key
  have hto : ∀ {s' k'}, s' ∈ modelsOf items → IsKey s' k' → tableOf s' = m.table → k'.ident.name = pk.name := by
    intro s' k' hs' hk' e
    rw [hu.isModel.table] at e
    obtain rfl := tableOf_inj hn hs' hs e
    rw [key_unique hk' hkey, hkf.name]
  constructor
  · intro n t hl fk hfk e
    obtain ⟨s1, hs1, hmem⟩ := hc.only n t hl
    rcases List.mem_cons.1 hmem with rfl | hmem
    · obtain ⟨t', h1, h2⟩ := hc.models s1 hs1
      rw [hl] at h1
      cases h1
      obtain ⟨f, -, q, s', k', -, h3, -, h5, rfl⟩ := (h2.refs fk).1 hfk
      exact hto h3 h5 e
    · obtain ⟨f, hf, rfl⟩ := List.mem_map.1 hmem
      obtain ⟨hf, q, hq⟩ := mem_manyFields.1 hf
      obtain ⟨s', hs', hl'⟩ := many_model ht hr hs1 hf hq
      obtain ⟨t', h1, h2⟩ := hc.links s1 hs1 f hf q hq s' hs' hl'
      rw [hl] at h1
      cases h1
      rcases (h2.refs fk).1 hfk with ⟨k', h3, rfl⟩ | ⟨k', h3, rfl⟩
      · exact hto hs1 h3 e
      · exact hto hs' h3 e
  · intro ha t hl fk hfk e
    obtain ⟨t', h1, h2⟩ := hc.models s hs
    rw [hu.isModel.table, h1] at hl
    cases hl
    obtain ⟨f, hf, q, s', k', ⟨p, hfp, hq⟩, -, -, -, rfl⟩ := (h2.refs fk).1 hfk
    rw [hkf.name] at e
    obtain rfl := eq_of_name (hn.fields s hs) (mem_rowFields.1 hf).1 hkmem e
    unfold TField.isAuto at ha
    split at ha
    · next ty hty =>
      obtain ⟨p', e1, e2⟩ := hkf.type _ hty
      rw [hfp] at e1
      cases e1
      obtain ⟨q', hq'⟩ := hu.auto f hkmem p ty hfp e2
      rcases hq with hq | ⟨r, hq, -⟩
      · exact absurd (applied_arg hq hq').1 (by decide)
      · exact absurd (applied_arg hq hq').1 (by decide)
    · cases ha

/-- Objects of the models can be stored in a database that has the tables of the crate. -/
theorem crate_ready (hr : ResolverOk g.resolve) (hn : WellNamed items) (ht : Typed g.ft items)
    (hp : PlainCrate g.ft items) {u : SDb} {k : SqliteConn} (hc : CrateTables g.ft items u) (hsound : SoundDb k.env u)
    (hdata : DataLaws k.env k.data) (hstrict : StrictLaws k.env) (hcodecs : Faithful k.codecs)
    {s : Struct} (hs : s ∈ modelsOf items) {m : TModel} {pk : TField} (hu : UsableModel g.ft items k s m pk) :
    Ready k m pk u := by
  obtain ⟨t, h1, h2⟩ := hc.models s hs
  exact ⟨model_ok hr hn ht hp hs hu, hdata, hstrict, hcodecs, hsound, t, by rw [hu.isModel.table]; exact h1,
    table_fits hr hn ht hs h2 hu⟩

end Butane.Proofs.CrateDb
