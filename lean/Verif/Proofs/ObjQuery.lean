/-
Queries and the objects a database holds.
-/
import Verif.Proofs.StoresObjs
import Verif.Proofs.BoundVals
import Verif.Proofs.Filter
import Verif.Props.Statements

namespace Butane
open Butane.Ddl Butane.DdlP Spec
open Butane.Sql

variable {k : SqliteConn} {W : World} {u : SDb}

/-! ### Rows and objects -/

/-- The row of the object with the key. -/
structure RowIs (k : SqliteConn) (s : Stock) (t : STable) (r : List SqliteVal) (id : SqlVal)
    (o : ObjVals s.m.fields) : Prop where
  mem : r ∈ t.rows
  has : s.Has id o
  key : ∃ a, IsKeyVal k s.pk id a ∧ field t.cols r s.pk.name = some a ∧
    t.rows.filter (fun r => decide (field t.cols r s.pk.name = some a)) = [r]
  fieldKey : FieldSql s.m o s.pk.name id
  proper : AllProper s.m.fields o
  noNaN : NoNaNs s.m.fields o
  holds : RowHolds k s.m t.cols r o

/-- A table of objects. -/
structure Tabled (k : SqliteConn) (u : SDb) (s : Stock) (t : STable) : Prop where
  ready : Ready k s.m s.pk u
  lookup : u.lookup s.m.table = some t
  fits : TableFits s.m s.pk t
  row : ∀ r ∈ t.rows, ∃ id o, RowIs k s t r id o
  obj : ∀ id o, s.Has id o → ∃ r, RowIs k s t r id o

theorem tabled_of (hW : Keeps k u W) {n : String} {s : Stock} (hs : W.stock n = some s) :
    s.m.table = n ∧ ∃ t, Tabled k u s t := by
  obtain ⟨hn, hready, t, hlk, hkeys, hobjs⟩ := hW.stock n s hs
  obtain ⟨t', hlk', hfits⟩ := hready.table
  rw [hlk] at hlk'
  cases hlk'
  have hone : ∀ id o, s.Has id o → ∃ r, RowIs k s t r id o := by
    intro id o ho
    obtain ⟨a, hkv⟩ := keyLike_stored (k := k) hready.model ho.1
    have := hobjs id a hkv
    rw [ho.2] at this
    obtain ⟨h1, h2, h3, r, h4, h5⟩ := this
    have hm : r ∈ t.rows.filter fun r => decide (field t.cols r s.pk.name = some a) := by
      rw [h4]; exact List.mem_singleton_self _
    obtain ⟨m1, m2⟩ := List.mem_filter.1 hm
    exact ⟨r, m1, ho, ⟨a, hkv, by simpa using m2, h4⟩, h1, h2, h3, h5⟩
  refine ⟨hn, t, hready, hlk, hfits, ?_, hone⟩
  intro r hr
  obtain ⟨id, a, hkv, hra⟩ := hkeys r hr
  have := hobjs id a hkv
  have hm : r ∈ t.rows.filter fun r => decide (field t.cols r s.pk.name = some a) :=
    List.mem_filter.2 ⟨hr, by simpa using hra⟩
  cases hst : s.objs id with
  | none => rw [hst] at this; rw [this] at hm; cases hm
  | some o =>
    rw [hst] at this
    obtain ⟨h1, h2, h3, r', h4, h5⟩ := this
    rw [h4, List.mem_singleton] at hm
    subst hm
    exact ⟨id, o, hr, ⟨hkv.type, hst⟩, ⟨a, hkv, hra, h4⟩, h1, h2, h3, h5⟩

theorem keyVal_inj (hc : Faithful k.codecs) {m : TModel} {pk : TField} (hm : TModelOk k m pk) {x y : SqlVal}
    {a : SqliteVal} (h1 : IsKeyVal k pk x a) (h2 : IsKeyVal k pk y a) : x = y := by
  obtain ⟨ty, _, hty, -⟩ := hm.keyType
  exact toSqlite_inj hc (h1.type ty hty) (h2.type ty hty) h1.stored h2.stored

theorem keyVal_unique {pk : TField} {x : SqlVal} {a b : SqliteVal} (h1 : IsKeyVal k pk x a)
    (h2 : IsKeyVal k pk x b) : a = b := by
  have := h1.stored.symm.trans h2.stored
  cases this
  rfl

/-- Rows of the same key are the same. -/
theorem rowIs_unique {s : Stock} {t : STable} {r r' : List SqliteVal} {id : SqlVal} {o o' : ObjVals s.m.fields}
    (h : RowIs k s t r id o) (h' : RowIs k s t r' id o') : r = r' ∧ o = o' := by
  obtain ⟨a, h1, h2, h3⟩ := h.key
  obtain ⟨a', h4, h5, h6⟩ := h'.key
  cases keyVal_unique h1 h4
  rw [h3] at h6
  have ho := h.has.2.symm.trans h'.has.2
  cases h6
  cases ho
  exact ⟨rfl, rfl⟩

/-- Objects of the same row are the same. -/
theorem rowIs_obj {s : Stock} {t : STable} (hT : Tabled k u s t) {r : List SqliteVal} {id id' : SqlVal}
    {o o' : ObjVals s.m.fields} (h : RowIs k s t r id o) (h' : RowIs k s t r id' o') : id = id' ∧ o = o' := by
  obtain ⟨a, h1, h2, -⟩ := h.key
  obtain ⟨a', h3, h4, -⟩ := h'.key
  rw [h2] at h4
  cases h4
  obtain rfl := keyVal_inj hT.ready.codecs hT.ready.model h1 h3
  exact ⟨rfl, (rowIs_unique h h').2⟩

/-! ### Columns -/

theorem toSqlite_null {c : TextCodecs} {v : SqlVal} {a : SqliteVal} (h : toSqlite c v = .ok a) :
    a = .null ↔ v = .null := by
  cases v <;> cases h <;> simp

theorem toDb_eq_null {v : SqlVal} : toDb v = .null ↔ v = .null := by
  cases v <;> simp [toDb]

/-- What a column of an object's row holds. -/
structure ColIs (k : SqliteConn) (t : FieldTy) (v : SqlVal) (a w : SqliteVal) : Prop where
  stored : toSqlite k.codecs v = .ok a
  type : v = .null ∨ v.sqltype = some t.sqltype
  null : w = .null ↔ v = .null
  rel : ∀ op x, (op = .like → sqliteType t.sqltype ≠ some .real) →
    k.data.rel op (seen w) x = k.data.rel op (seen a) x
  leLeft : ∀ x, k.data.le (seen w) x = k.data.le (seen a) x
  leRight : ∀ x, k.data.le x (seen w) = k.data.le x (seen a)
  plain : ∀ st, sqliteType t.sqltype = some st → st ≠ .real → w = a

theorem column_of (hR : RealLaws k.data) {s : Stock} {t : STable} (hT : Tabled k u s t) {r : List SqliteVal}
    {id : SqlVal} {o : ObjVals s.m.fields} (h : RowIs k s t r id o) {f : String} {ty : FieldTy}
    (hf : HasField s.m f ty) : ∃ v a w, FieldSql s.m o f v ∧ field t.cols r f = some w ∧ ColIs k ty v a w := by
  obtain ⟨x, hx⟩ := fieldVal_some hT.ready.model.distinct o hf
  obtain ⟨v, a, st, w, h1, h2, h3, h4, h5⟩ := h.holds f ty x hx
  have hnan := Props.field_no_nan ty x v (noNaNs_val h.noNaN hx) h1
  refine ⟨v, a, w, ⟨ty, x, hx, h1⟩, h4, ⟨h2, Props.present_dec ty x v (allProper_val h.proper hx) h1, ?_, ?_, ?_, ?_, ?_⟩⟩
  · rw [← toSqlite_null h2]
    cases h5 with
    | nan r hr => cases v <;> cases h2; exact absurd hr hnan
    | _ => simp
  · intro op y hop
    cases h5 with
    | nan r hr => cases v <;> cases h2; exact absurd hr hnan
    | real r r' hr => exact hR.rel op r r' y (fun e => hop e h3) hr
    | _ => rfl
  · intro y
    cases h5 with
    | nan r hr => cases v <;> cases h2; exact absurd hr hnan
    | real r r' hr => exact hR.leLeft r r' y hr
    | _ => rfl
  · intro y
    cases h5 with
    | nan r hr => cases v <;> cases h2; exact absurd hr hnan
    | real r r' hr => exact hR.leRight r r' y hr
    | _ => rfl
  · intro st' e hne
    rw [h3] at e
    cases e
    exact holds_eq hne h5

theorem seenRow_val {cols : List ColDef} {r : List SqliteVal} {c : String} {w : SqliteVal}
    (h : field cols r c = some w) : (seenRow cols r).val c = seen w := by
  simp [seenRow, h]

/-! ### Comparisons -/

theorem related_iff {ty : FieldTy} {x v : SqlVal} {a w : SqliteVal} (h : ColIs k ty x a w) (hb : CanBind k v)
    {op : CmpOp} (hop : op = .like → sqliteType ty.sqltype ≠ some .real) :
    (seen w ≠ .null ∧ toDb v ≠ .null ∧ convertedRel k.codecs k.data.rel op (seen w) (toDb v) = true) ↔
      Related k op x v := by
  obtain ⟨b, hb⟩ := hb
  unfold Related convertedRel
  rw [converted_seen, converted_toDb hb, h.rel op _ hop]
  have e1 : seen w = .null ↔ x = .null := by rw [seen_null, h.null]
  constructor
  · rintro ⟨h1, h2, h3⟩
    exact ⟨fun e => h1 (e1.2 e), fun e => h2 (toDb_eq_null.2 e), a, b, h.stored, hb, h3⟩
  · rintro ⟨h1, h2, a', b', h3, h4, h5⟩
    rw [h.stored] at h3
    rw [hb] at h4
    cases h3
    cases h4
    exact ⟨fun e => h1 (e1.1 e), fun e => h2 (toDb_eq_null.1 e), h5⟩

theorem compares_iff {ty : FieldTy} {x v : SqlVal} {a w : SqliteVal} (h : ColIs k ty x a w) (hb : CanBind k v)
    {op : CmpOp} (hop : op = .like → sqliteType ty.sqltype ≠ some .real) :
    CmpHolds (convertedRel k.codecs k.data.rel) op (seen w) v ↔ Compares k op x v := by
  have e1 : seen w = .null ↔ x = .null := by rw [seen_null, h.null]
  have key := related_iff h hb hop
  cases op <;> cases v <;> first | exact e1 | exact not_congr e1 | exact key

/-- Keys of the same model are equal for SQLite if they are equal. -/
theorem equal_class (hD : DataLaws k.env k.data) {st : SqliteType} (hst : st ≠ .real) {a b : SqliteVal}
    (ha : OfClass st a) (hb : OfClass st b) (hn : b ≠ .null) :
    Equal (convertedRel k.codecs k.data.rel) (seen a) (seen b) ↔ a = b := by
  unfold Equal convertedRel
  rw [converted_seen, converted_seen]
  rcases comparable_of_class hst ha hb hn with rfl | hc
  · constructor
    · rintro ⟨h, -⟩; exact absurd rfl h
    · rintro rfl; exact absurd rfl hn
  · rw [hD.eq a b hc]
    constructor
    · exact fun h => h.2.2
    · rintro rfl
      exact ⟨fun e => hn (seen_null.1 e), fun e => hn (seen_null.1 e), rfl⟩

theorem keys_equal {s : Stock} (h : Ready k s.m s.pk u) {x y : SqlVal} {a b : SqliteVal}
    (hx : IsKeyVal k s.pk x a) (hy : IsKeyVal k s.pk y b) :
    Equal (convertedRel k.codecs k.data.rel) (seen a) (seen b) ↔ x = y := by
  obtain ⟨ty, st, h1, h2, h3, -⟩ := h.model.keyType
  rw [equal_class h.data h3 (ofClass_of_type (.inr (hx.type ty h1)) h2 hx.stored)
    (ofClass_of_type (.inr (hy.type ty h1)) h2 hy.stored) (key_ne_null (hy.type ty h1) hy.stored).2]
  constructor
  · rintro rfl; exact keyVal_inj h.codecs h.model hx hy
  · rintro rfl; exact keyVal_unique hx hy

theorem key_cmp {s : Stock} (h : Ready k s.m s.pk u) {x v : SqlVal} {a : SqliteVal}
    (hx : IsKeyVal k s.pk x a) (hv : KeyLike s.pk v) :
    CmpHolds (convertedRel k.codecs k.data.rel) .eq (seen a) v ↔ x = v := by
  obtain ⟨b, hb⟩ := keyLike_stored (k := k) h.model hv
  obtain ⟨ty, st, h1, -⟩ := h.model.keyType
  have hne := (key_ne_null (hb.type ty h1) hb.stored).1
  rw [← keys_equal h hx hb]
  have e : convertedRel k.codecs k.data.rel .eq (seen a) (toDb v) =
      convertedRel k.codecs k.data.rel .eq (seen a) (seen b) := by
    simp only [convertedRel, converted_toDb hb.stored, converted_seen]
  have e2 : toDb v ≠ .null ↔ seen b ≠ .null := by
    rw [ne_eq, toDb_eq_null, ne_eq, seen_null, toSqlite_null hb.stored]
  have key : CmpHolds (convertedRel k.codecs k.data.rel) .eq (seen a) v ↔ (seen a ≠ .null ∧ toDb v ≠ .null ∧
      convertedRel k.codecs k.data.rel .eq (seen a) (toDb v) = true) := by
    cases v <;> first | exact absurd rfl hne | exact Iff.rfl
  rw [key, e, e2]
  rfl

/-- A reference is to the object with the key. -/
theorem ref_iff {s s' : Stock} (h' : Ready k s'.m s'.pk u) {f : String} (href : KeyField s f s')
    (hm : TModelOk k s.m s.pk) {o : ObjVals s.m.fields} {ty : FieldTy} {v : SqlVal} {a w : SqliteVal}
    (hf : HasField s.m f ty) (hv : FieldSql s.m o f v) (hc : ColIs k ty v a w) {id : SqlVal} {b : SqliteVal}
    (hid : IsKeyVal k s'.pk id b) :
    Equal (convertedRel k.codecs k.data.rel) (seen w) (seen b) ↔ FieldSql s.m o f id := by
  obtain ⟨t, t', hft, hpt, hsq⟩ := href
  have htt : t = ty := by
    obtain ⟨g, hg, e1, e2⟩ := hft
    obtain ⟨g', hg', e3, e4⟩ := hf
    have : g = g' := field_eq_of_name hm.distinct hg hg' (e1.trans e3.symm)
    subst this
    rw [e2] at e4
    exact Option.some.inj e4
  subst htt
  obtain ⟨kt, st, h1, h2, h3, -⟩ := h'.model.keyType
  rw [hpt] at h1
  cases h1
  rw [hc.plain st (by rw [hsq]; exact h2) h3]
  rw [equal_class h'.data h3 (ofClass_of_type hc.type (by rw [hsq]; exact h2) hc.stored)
    (ofClass_of_type (.inr (hid.type t' hpt)) h2 hid.stored) (key_ne_null (hid.type t' hpt) hid.stored).2]
  constructor
  · rintro rfl
    have hnn : v ≠ .null := fun e => (key_ne_null (hid.type t' hpt) hid.stored).2 ((toSqlite_null hc.stored).2 e)
    have : v = id := toSqlite_inj h'.codecs (hc.type.resolve_left hnn) (by rw [hsq]; exact hid.type t' hpt)
      hc.stored hid.stored
    exact this ▸ hv
  · intro hvid
    cases fieldSql_unique hv hvid
    have := hc.stored.symm.trans hid.stored
    cases this
    rfl

theorem seenDb_rows {n : String} {t : STable} (h : u.lookup n = some t) :
    (seenDb u).rows n = t.rows.map (seenRow t.cols) := by simp [seenDb, h]

theorem seenDb_has {n : String} {t : STable} (h : u.lookup n = some t) : (seenDb u).has n = true := by
  simp [seenDb, h]

/-! ### Filters -/

mutual
theorem atom_means (hW : Keeps k u W) (hR : RealLaws k.data) : ∀ (a : FAtom) (l : Bool) (n : String) (s : Stock)
    (t : STable) (r : List SqliteVal) (id : SqlVal) (o : ObjVals s.m.fields), W.stock n = some s →
    Tabled k u s t → RowIs k s t r id o → AtomFits k W l s a →
    (AtomHolds (convertedRel k.codecs k.data.rel) (seenDb u) (seenRow t.cols r) a ↔ AtomMeans k W s o a)
  | .cmp op f v, l, n, s, t, r, id, o, hs, hT, hr, h => by
    simp only [AtomFits] at h
    obtain ⟨⟨⟨ty, hf⟩, -⟩, -, hb, hlike⟩ := h
    obtain ⟨x, a, w, h1, h2, h3⟩ := column_of hR hT hr hf
    simp only [AtomHolds, AtomMeans]
    rw [seenRow_val h2, compares_iff h3 hb (fun e => hlike e ty hf)]
    exact ⟨fun h => ⟨x, h1, h⟩, fun ⟨x', h1', h⟩ => fieldSql_unique h1 h1' ▸ h⟩
  | .isIn f vs, l, n, s, t, r, id, o, hs, hT, hr, h => by
    simp only [AtomFits] at h
    obtain ⟨⟨⟨ty, hf⟩, -⟩, hb⟩ := h
    obtain ⟨x, a, w, h1, h2, h3⟩ := column_of hR hT hr hf
    simp only [AtomHolds, AtomMeans]
    rw [seenRow_val h2]
    constructor
    · rintro ⟨v, hv, he⟩
      exact ⟨x, h1, v, hv, (related_iff h3 (hb v hv) (fun e => by cases e)).1 he⟩
    · rintro ⟨x', h1', v, hv, he⟩
      cases fieldSql_unique h1 h1'
      exact ⟨v, hv, (related_iff h3 (hb v hv) (fun e => by cases e)).2 he⟩
  | .matchesPk f tt pkv, l, n, s, t, r, id, o, hs, hT, hr, h => by
    simp only [AtomFits] at h
    obtain ⟨⟨⟨ty, hf⟩, -⟩, s', hs', hpk, href, hkl⟩ := h
    obtain ⟨x, a, w, h1, h2, h3⟩ := column_of hR hT hr hf
    obtain ⟨hn', t', hT'⟩ := tabled_of hW hs'
    simp only [AtomHolds, AtomMeans]
    rw [seenRow_val h2, ← hn', seenDb_rows hT'.lookup, hpk]
    constructor
    · rintro ⟨row, hrow, hc, he⟩
      obtain ⟨r', hr', rfl⟩ := List.mem_map.1 hrow
      obtain ⟨id', o', hro⟩ := hT'.row r' hr'
      obtain ⟨a', hkv, hra, -⟩ := hro.key
      rw [seenRow_val hra] at hc he
      have hid := (key_cmp hT'.ready hkv hkl).1 hc
      subst hid
      exact ⟨s', o', by rw [hn']; exact hs', hro.has, (ref_iff hT'.ready href hT.ready.model hf h1 h3 hkv).1 he⟩
    · rintro ⟨s2, o', hs2, hhas, hfs⟩
      rw [hn', hs'] at hs2
      cases hs2
      obtain ⟨r', hro⟩ := hT'.obj _ _ hhas
      obtain ⟨a', hkv, hra, -⟩ := hro.key
      refine ⟨_, List.mem_map_of_mem hro.mem, ?_, ?_⟩
      · rw [seenRow_val hra]
        exact (key_cmp hT'.ready hkv hkl).2 rfl
      · rw [seenRow_val hra]
        exact (ref_iff hT'.ready href hT.ready.model hf h1 h3 hkv).2 hfs
  | .matches f tt e, l, n, s, t, r, id, o, hs, hT, hr, h => by
    simp only [AtomFits] at h
    obtain ⟨⟨⟨ty, hf⟩, -⟩, s', hs', hpk, href, hfit⟩ := h
    obtain ⟨x, a, w, h1, h2, h3⟩ := column_of hR hT hr hf
    obtain ⟨hn', t', hT'⟩ := tabled_of hW hs'
    simp only [AtomHolds, AtomMeans]
    rw [seenRow_val h2, ← hn', seenDb_rows hT'.lookup, hpk]
    constructor
    · rintro ⟨row, hrow, hc, he⟩
      obtain ⟨r', hr', rfl⟩ := List.mem_map.1 hrow
      obtain ⟨id', o', hro⟩ := hT'.row r' hr'
      obtain ⟨a', hkv, hra, -⟩ := hro.key
      rw [seenRow_val hra] at he
      exact ⟨s', id', o', by rw [hn']; exact hs', hro.has, (ref_iff hT'.ready href hT.ready.model hf h1 h3 hkv).1 he,
        (filter_means hW hR e false _ s' t' r' id' o' hs' hT' hro hfit).1 hc⟩
    · rintro ⟨s2, id', o', hs2, hhas, hfs, hfm⟩
      rw [hn', hs'] at hs2
      cases hs2
      obtain ⟨r', hro⟩ := hT'.obj _ _ hhas
      obtain ⟨a', hkv, hra, -⟩ := hro.key
      refine ⟨_, List.mem_map_of_mem hro.mem, (filter_means hW hR e false _ s' t' r' id' o' hs' hT' hro hfit).2 hfm, ?_⟩
      rw [seenRow_val hra]
      exact (ref_iff hT'.ready href hT.ready.model hf h1 h3 hkv).2 hfs
  | .containsPk ln ow tt pkv, l, n, s, t, r, id, o, hs, hT, hr, h => by
    simp only [AtomFits] at h
    obtain ⟨-, how, s', L, hs', hpk, hL, hLo, hLt, -, hkl⟩ := h
    obtain ⟨hn', t', hT'⟩ := tabled_of hW hs'
    obtain ⟨-, -, lt, hlk, -, hrows, hall⟩ := hW.links ln L hL
    obtain ⟨a0, hkv0, hra0, -⟩ := hr.key
    simp only [AtomHolds, AtomMeans]
    rw [how, seenRow_val hra0, ← hn', seenDb_rows hT'.lookup, hpk, seenDb_rows hlk]
    rw [hLo, hLt] at hrows hall
    constructor
    · rintro ⟨row, hrow, hc, lrow, hlrow, he1, he2⟩
      obtain ⟨r', hr', rfl⟩ := List.mem_map.1 hrow
      obtain ⟨lr, hlr, rfl⟩ := List.mem_map.1 hlrow
      obtain ⟨id', o', hro⟩ := hT'.row r' hr'
      obtain ⟨a', hkv, hra, -⟩ := hro.key
      obtain ⟨x, y, a, b, hxy, hx, hy, hfx, hfy⟩ := hrows lr hlr
      rw [seenRow_val hra] at hc he1
      rw [seenRow_val hfy] at he1
      rw [seenRow_val hfx] at he2
      have hid := (key_cmp hT'.ready hkv hkl).1 hc
      subst hid
      have e1 := (keys_equal hT'.ready hy hkv).1 he1
      have e2 := (keys_equal hT.ready hkv0 hx).1 he2
      subst e1
      subst e2
      exact ⟨s', o', L, id, by rw [hn']; exact hs', hro.has, hL, hr.fieldKey, hxy⟩
    · rintro ⟨s2, o', L2, own, hs2, hhas, hL2, hown, hlinked⟩
      rw [hn', hs'] at hs2
      cases hs2
      rw [hL] at hL2
      cases hL2
      cases fieldSql_unique hr.fieldKey hown
      obtain ⟨r', hro⟩ := hT'.obj _ _ hhas
      obtain ⟨a', hkv, hra, -⟩ := hro.key
      obtain ⟨lr, hlr, a, b, hx, hy, hfx, hfy⟩ := hall _ _ hlinked
      refine ⟨_, List.mem_map_of_mem hro.mem, ?_, _, List.mem_map_of_mem hlr, ?_, ?_⟩
      · rw [seenRow_val hra]
        exact (key_cmp hT'.ready hkv hkl).2 rfl
      · rw [seenRow_val hra, seenRow_val hfy]
        exact (keys_equal hT'.ready hy hkv).2 rfl
      · rw [seenRow_val hfx]
        exact (keys_equal hT.ready hkv0 hx).2 rfl
  | .contains ln ow tt e, l, n, s, t, r, id, o, hs, hT, hr, h => by
    simp only [AtomFits] at h
    obtain ⟨-, how, s', L, hs', hpk, hL, hLo, hLt, hfit⟩ := h
    obtain ⟨hn', t', hT'⟩ := tabled_of hW hs'
    obtain ⟨-, -, lt, hlk, -, hrows, hall⟩ := hW.links ln L hL
    obtain ⟨a0, hkv0, hra0, -⟩ := hr.key
    simp only [AtomHolds, AtomMeans]
    rw [how, seenRow_val hra0, ← hn', seenDb_rows hT'.lookup, hpk, seenDb_rows hlk]
    rw [hLo, hLt] at hrows hall
    constructor
    · rintro ⟨row, hrow, hc, lrow, hlrow, he1, he2⟩
      obtain ⟨r', hr', rfl⟩ := List.mem_map.1 hrow
      obtain ⟨lr, hlr, rfl⟩ := List.mem_map.1 hlrow
      obtain ⟨id', o', hro⟩ := hT'.row r' hr'
      obtain ⟨a', hkv, hra, -⟩ := hro.key
      obtain ⟨x, y, a, b, hxy, hx, hy, hfx, hfy⟩ := hrows lr hlr
      rw [seenRow_val hra, seenRow_val hfy] at he1
      rw [seenRow_val hfx] at he2
      have e1 := (keys_equal hT'.ready hy hkv).1 he1
      have e2 := (keys_equal hT.ready hkv0 hx).1 he2
      subst e1
      subst e2
      exact ⟨s', y, o', L, id, by rw [hn']; exact hs', hro.has, hL, hr.fieldKey, hxy,
        (filter_means hW hR e true _ s' t' r' y o' hs' hT' hro hfit).1 hc⟩
    · rintro ⟨s2, id', o', L2, own, hs2, hhas, hL2, hown, hlinked, hfm⟩
      rw [hn', hs'] at hs2
      cases hs2
      rw [hL] at hL2
      cases hL2
      cases fieldSql_unique hr.fieldKey hown
      obtain ⟨r', hro⟩ := hT'.obj _ _ hhas
      obtain ⟨a', hkv, hra, -⟩ := hro.key
      obtain ⟨lr, hlr, a, b, hx, hy, hfx, hfy⟩ := hall _ _ hlinked
      refine ⟨_, List.mem_map_of_mem hro.mem, (filter_means hW hR e true _ s' t' r' id' o' hs' hT' hro hfit).2 hfm,
        _, List.mem_map_of_mem hlr, ?_, ?_⟩
      · rw [seenRow_val hra, seenRow_val hfy]
        exact (keys_equal hT'.ready hy hkv).2 rfl
      · rw [seenRow_val hfx]
        exact (keys_equal hT.ready hkv0 hx).2 rfl
theorem and_means (hW : Keeps k u W) (hR : RealLaws k.data) : ∀ (a : FAnd) (l : Bool) (n : String) (s : Stock)
    (t : STable) (r : List SqliteVal) (id : SqlVal) (o : ObjVals s.m.fields), W.stock n = some s →
    Tabled k u s t → RowIs k s t r id o → AndFits k W l s a →
    (AndHolds (convertedRel k.codecs k.data.rel) (seenDb u) (seenRow t.cols r) a ↔ AndMeans k W s o a)
  | .one a, l, n, s, t, r, id, o, hs, hT, hr, h => by
    simp only [AndFits] at h
    simp only [AndHolds, AndMeans]
    exact atom_means hW hR a l n s t r id o hs hT hr h
  | .and x y, l, n, s, t, r, id, o, hs, hT, hr, h => by
    simp only [AndFits] at h
    simp only [AndHolds, AndMeans]
    exact and_congr (and_means hW hR x l n s t r id o hs hT hr h.1) (atom_means hW hR y l n s t r id o hs hT hr h.2)
theorem filter_means (hW : Keeps k u W) (hR : RealLaws k.data) : ∀ (e : FOr) (l : Bool) (n : String) (s : Stock)
    (t : STable) (r : List SqliteVal) (id : SqlVal) (o : ObjVals s.m.fields), W.stock n = some s →
    Tabled k u s t → RowIs k s t r id o → FilterFits k W l s e →
    (FilterHolds (convertedRel k.codecs k.data.rel) (seenDb u) (seenRow t.cols r) e ↔ FilterMeans k W s o e)
  | .one a, l, n, s, t, r, id, o, hs, hT, hr, h => by
    simp only [FilterFits] at h
    simp only [FilterHolds, FilterMeans]
    exact and_means hW hR a l n s t r id o hs hT hr h
  | .or x y, l, n, s, t, r, id, o, hs, hT, hr, h => by
    simp only [FilterFits] at h
    simp only [FilterHolds, FilterMeans]
    exact or_congr (filter_means hW hR x l n s t r id o hs hT hr h.1) (and_means hW hR y l n s t r id o hs hT hr h.2)
end

end Butane
