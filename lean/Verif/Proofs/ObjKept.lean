/-
Objects in a database that is migrated.
-/
import Verif.Spec.ObjKept
import Verif.Proofs.SqliteShows

namespace Butane
open Butane.Ddl Butane.DdlP Spec

variable {k : SqliteConn} {m m' : TModel} {pk pk' : TField}

/-! ### Reading fields -/

/-- Reading a value as that of a field. -/
def readVal (k : SqliteConn) (t : FieldTy) (a : SqliteVal) : Conv t.Val :=
  (fromSqlite k.codecs a t.sqltype).bind (t.fromSql k.parseUuid)

theorem readFields_vals (parse : String → Option (Vector UInt8 16)) (get : Nat → SqlType → Conv SqlVal)
    (G : String × SqlType → Conv SqlVal) {n : String} {t : FieldTy} {x : t.Val} :
    ∀ (fs : List TField) (o : ObjVals fs) (i : Nat),
      (∀ j col, (tcolumns (fun _ => true) fs)[j]? = some col → get (i + j) col.2 = G col) →
      readFields parse get fs i = .ok o → valueOf n fs o = some ⟨t, x⟩ →
      (G (n, t.sqltype)).bind (t.fromSql parse) = .ok x
  | [], _, _, _, _, h => by cases h
  | ⟨n', p, none⟩ :: fs, (y, os), i, hg, hr, h => by
    obtain ⟨os', h1, h2⟩ := Conv.bind_ok hr
    cases h2
    simp only [valueOf] at h
    split at h
    · cases h
    · exact readFields_vals parse get G fs os i hg h1 h
  | ⟨n', p, some t'⟩ :: fs, (y, os), i, hg, hr, h => by
    obtain ⟨v, h1, h2⟩ := Conv.bind_ok hr
    obtain ⟨y', h3, h4⟩ := Conv.bind_ok h2
    obtain ⟨os', h5, h6⟩ := Conv.bind_ok h4
    cases h6
    have h0 := hg 0 (n', t'.sqltype) (by simp [tcolumns])
    simp only [Nat.add_zero] at h0
    simp only [valueOf] at h
    split at h
    · next e =>
      cases h
      subst e
      rw [← h0, h1]
      exact h3
    · exact readFields_vals parse get G fs os (i + 1) (fun j col hj => by
        have := hg (j + 1) col (by simpa [tcolumns] using hj)
        rwa [show i + (j + 1) = i + 1 + j by omega] at this) h5 h

theorem readFields_ok (parse : String → Option (Vector UInt8 16)) (get : Nat → SqlType → Conv SqlVal)
    (G : String × SqlType → Conv SqlVal) :
    ∀ (fs : List TField) (i : Nat),
      (∀ j col, (tcolumns (fun _ => true) fs)[j]? = some col → get (i + j) col.2 = G col) →
      (∀ f ∈ fs, ∀ t, f.ty = some t → ∃ x, (G (f.name, t.sqltype)).bind (t.fromSql parse) = .ok x) →
      ∃ o, readFields parse get fs i = .ok o
  | [], _, _, _ => ⟨(), rfl⟩
  | ⟨n', p, none⟩ :: fs, i, hg, hf => by
    obtain ⟨o, h⟩ := readFields_ok parse get G fs i hg (fun f h => hf f (List.mem_cons_of_mem _ h))
    exact ⟨((), o), by simp only [readFields, h, Conv.bind]⟩
  | ⟨n', p, some t⟩ :: fs, i, hg, hf => by
    obtain ⟨x, h1⟩ := hf _ (List.mem_cons_self ..) t rfl
    obtain ⟨v, h2, h3⟩ := Conv.bind_ok h1
    have h0 := hg 0 (n', t.sqltype) (by simp [tcolumns])
    obtain ⟨o, h⟩ := readFields_ok parse get G fs (i + 1) (fun j col hj => by
        have := hg (j + 1) col (by simpa [tcolumns] using hj)
        rwa [show i + (j + 1) = i + 1 + j by omega] at this) (fun f h => hf f (List.mem_cons_of_mem _ h))
    refine ⟨(x, o), ?_⟩
    simp only [Nat.add_zero] at h0
    simp only [readFields, h0, h2, h3, h, Conv.bind]

theorem pick_get {cols : List ColDef} {r : List SqliteVal} (j : Nat) (col : String × SqlType)
    (h : (tcolumns (fun _ => true) m.fields)[j]? = some col) :
    sqliteGet k.codecs (pick cols m.columns r) (0 + j) col.2 =
      fromSqlite k.codecs ((field cols r col.1).getD .null) col.2 := by
  have e : pick cols m.columns r = (tcolumns (fun _ => true) m.fields).map
      fun col => (field cols r col.1).getD .null := by
    simp [pick, TModel.columns, List.map_map, Function.comp_def]
  rw [Nat.zero_add]
  simp only [sqliteGet, e, List.getElem?_map, h, Option.map_some]

theorem fromRows_read {cols : List ColDef} {r : List SqliteVal} {os : List (ObjVals m.fields)} :
    m.fromRows k [pick cols m.columns r] = .ok os ↔
      ∃ o, os = [o] ∧ readFields k.parseUuid (sqliteGet k.codecs (pick cols m.columns r)) m.fields 0 = .ok o := by
  have hlen : (pick cols m.columns r).length = (m.fields.filter fun f => f.ty.isSome).length := by
    rw [← tcolumns_all_length]
    simp [pick, TModel.columns]
  simp only [TModel.fromRows, tfromRow, hlen, ne_eq, not_true_eq_false, if_false]
  cases readFields k.parseUuid (sqliteGet k.codecs (pick cols m.columns r)) m.fields 0 with
  | ok o =>
    simp only [Conv.orErr, Except.ok.injEq]
    constructor
    · rintro rfl; exact ⟨o, rfl, rfl⟩
    · rintro ⟨o', h1, h2⟩; cases h2; exact h1.symm
  | err e => simp [Conv.orErr]
  | panic => simp [Conv.orErr]

/-- What a row is read as, field by field. -/
theorem fromRows_vals {cols : List ColDef} {r : List SqliteVal} {o : ObjVals m.fields}
    (h : m.fromRows k [pick cols m.columns r] = .ok [o]) {n : String} {t : FieldTy} {x : t.Val}
    (hv : valueOf n m.fields o = some ⟨t, x⟩) : readVal k t ((field cols r n).getD .null) = .ok x := by
  obtain ⟨o', h1, h2⟩ := fromRows_read.1 h
  cases h1
  exact readFields_vals _ _ (fun col => fromSqlite k.codecs ((field cols r col.1).getD .null) col.2) _ _ 0
    pick_get h2 hv

theorem fromRows_ok {cols : List ColDef} {r : List SqliteVal}
    (h : ∀ f ∈ m.fields, ∀ t, f.ty = some t → ∃ x, readVal k t ((field cols r f.name).getD .null) = .ok x) :
    ∃ o, m.fromRows k [pick cols m.columns r] = .ok [o] := by
  obtain ⟨o, ho⟩ := readFields_ok k.parseUuid (sqliteGet k.codecs (pick cols m.columns r))
    (fun col => fromSqlite k.codecs ((field cols r col.1).getD .null) col.2) m.fields 0 pick_get h
  exact ⟨o, fromRows_read.2 ⟨o, rfl, ho⟩⟩

theorem fieldVal_some {n : String} {t : FieldTy} : ∀ {fs : List TField} (_ : (fs.map (·.name)).Nodup) (o : ObjVals fs),
    (∃ f ∈ fs, f.name = n ∧ f.ty = some t) → ∃ x, valueOf n fs o = some ⟨t, x⟩
  | [], _, _, h => by obtain ⟨_, h, -⟩ := h; cases h
  | ⟨n', p, ty⟩ :: fs, hnd, (x, os), ⟨f, hf, hn, ht⟩ => by
    simp only [List.map_cons, List.nodup_cons] at hnd
    rcases List.mem_cons.1 hf with rfl | hf
    · simp only at hn ht
      subst ht
      exact ⟨x, by simp [valueOf, hn]⟩
    · have hne : n' ≠ n := by
        rintro rfl
        exact hnd.1 (hn ▸ List.mem_map_of_mem hf)
      obtain ⟨y, hy⟩ := fieldVal_some hnd.2 os ⟨f, hf, hn, ht⟩
      cases ty with
      | none => exact ⟨y, by simp only [valueOf, if_neg hne, hy]⟩
      | some t' => exact ⟨y, by simp only [valueOf, if_neg hne, hy]⟩

theorem hasField_of_val {n : String} {t : FieldTy} {x : t.Val} : ∀ {fs : List TField} {o : ObjVals fs},
    valueOf n fs o = some ⟨t, x⟩ → ∃ f ∈ fs, f.name = n ∧ f.ty = some t
  | [], _, h => by cases h
  | ⟨n', p, none⟩ :: fs, (y, os), h => by
    simp only [valueOf] at h
    split at h
    · cases h
    · obtain ⟨f, h1, h2⟩ := hasField_of_val h
      exact ⟨f, List.mem_cons_of_mem _ h1, h2⟩
  | ⟨n', p, some t'⟩ :: fs, (y, os), h => by
    simp only [valueOf] at h
    split at h
    · next e => cases h; exact ⟨_, List.mem_cons_self .., e, rfl⟩
    · obtain ⟨f, h1, h2⟩ := hasField_of_val h
      exact ⟨f, List.mem_cons_of_mem _ h1, h2⟩

theorem sameFields_val {n : String} {t : FieldTy} {x : t.Val} : ∀ {fs : List TField} {o o' : ObjVals fs},
    SameFields fs o o' → valueOf n fs o = some ⟨t, x⟩ → ∃ y, valueOf n fs o' = some ⟨t, y⟩ ∧ SameField t x y
  | [], _, _, _, h => by cases h
  | ⟨n', p, none⟩ :: fs, (y, os), (y', os'), hs, h => by
    simp only [valueOf] at h ⊢
    split at h
    · cases h
    · next e => rw [if_neg e]; exact sameFields_val (fs := fs) hs h
  | ⟨n', p, some t'⟩ :: fs, (y, os), (y', os'), hs, h => by
    simp only [valueOf] at h ⊢
    split at h
    · next e => cases h; rw [if_pos e]; exact ⟨y', rfl, hs.1⟩
    · next e => rw [if_neg e]; exact sameFields_val (fs := fs) hs.2 h

/-! ### New columns -/

theorem columnHolds_same {c : TextCodecs} {v v' : SqlVal} {st : SqliteType} {b b' : SqliteVal} (hs : SameVal v v')
    (hb : toSqlite c v = .ok b) (hb' : toSqlite c v' = .ok b') (hc : OfClass st b)
    (hn : ∀ r, b = .real r → r.isNaN = false) : ColumnHolds st b b' := by
  have hself : ColumnHolds st b b := by
    cases st <;> cases b <;> first | exact hc.elim | constructor
    rename_i r
    have := hn r rfl
    simp [F64.eq, this]
  rcases hs with rfl | ⟨x, y, rfl, rfl, he⟩
  · rw [hb] at hb'
    cases hb'
    exact hself
  · cases hb
    cases hb'
    cases st <;> first | exact hc.elim | exact .real _ _ he

theorem newValue_same {c c' : AColumn} (h : SameColumn c' c) {v : SqlVal} (hv : NewValue c v) :
    ∃ v', NewValue c' v' ∧ SameVal v v' := by
  have hd := h.default
  have ht := typeid_of_denotes h.type
  cases hv with
  | default e =>
    rw [e] at hd
    cases e' : c'.default with
    | none => rw [e'] at hd; exact hd.elim
    | some v' =>
      rw [e'] at hd
      exact ⟨v', .default e', Spec.SameVal.symm hd⟩
  | null e1 e2 => exact ⟨_, .null (by rw [e1] at hd; cases e' : c'.default <;> rw [e'] at hd <;> first | rfl | exact hd.elim) (h.nullable.trans e2), .inl rfl⟩
  | bool e1 e2 e3 => exact ⟨_, .bool (by rw [e1] at hd; cases e' : c'.default <;> rw [e'] at hd <;> first | rfl | exact hd.elim) (h.nullable.trans e2) (ht.trans e3), .inl rfl⟩
  | int e1 e2 e3 => exact ⟨_, .int (by rw [e1] at hd; cases e' : c'.default <;> rw [e'] at hd <;> first | rfl | exact hd.elim) (h.nullable.trans e2) (ht.trans e3), .inl rfl⟩
  | bigInt e1 e2 e3 => exact ⟨_, .bigInt (by rw [e1] at hd; cases e' : c'.default <;> rw [e'] at hd <;> first | rfl | exact hd.elim) (h.nullable.trans e2) (ht.trans e3), .inl rfl⟩
  | real e1 e2 e3 => exact ⟨_, .real (by rw [e1] at hd; cases e' : c'.default <;> rw [e'] at hd <;> first | rfl | exact hd.elim) (h.nullable.trans e2) (ht.trans e3), .inl rfl⟩
  | text e1 e2 e3 => exact ⟨_, .text (by rw [e1] at hd; cases e' : c'.default <;> rw [e'] at hd <;> first | rfl | exact hd.elim) (h.nullable.trans e2) (ht.trans e3), .inl rfl⟩
  | blob e1 e2 e3 => exact ⟨_, .blob (by rw [e1] at hd; cases e' : c'.default <;> rw [e'] at hd <;> first | rfl | exact hd.elim) (h.nullable.trans e2) (ht.trans e3), .inl rfl⟩
  | json e1 e2 e3 => exact ⟨_, .json (by rw [e1] at hd; cases e' : c'.default <;> rw [e'] at hd <;> first | rfl | exact hd.elim) (h.nullable.trans e2) (ht.trans e3), .inl rfl⟩
  | timestamp e1 e2 e3 => exact ⟨_, .timestamp (by rw [e1] at hd; cases e' : c'.default <;> rw [e'] at hd <;> first | rfl | exact hd.elim) (h.nullable.trans e2) (ht.trans e3), .inl rfl⟩
  | date e1 e2 e3 => exact ⟨_, .date (by rw [e1] at hd; cases e' : c'.default <;> rw [e'] at hd <;> first | rfl | exact hd.elim) (h.nullable.trans e2) (ht.trans e3), .inl rfl⟩

/-- The default of a new column is read as the value the field was filled with. -/
theorem filled_read (hc : Faithful k.codecs) {c c' : AColumn} (h : SameColumn c' c) {t : FieldTy} {x : t.Val}
    (hx : FilledWith k.codecs c t x) : ∃ v' b', NewValue c' v' ∧ toSqlite k.codecs v' = .ok b' ∧
      ∃ y, readVal k t b' = .ok y ∧ SameField t x y := by
  obtain ⟨v, w, b, h1, h2, h3, h4⟩ := hx.stored
  obtain ⟨v', g1, g2⟩ := newValue_same h h1
  have hdec := Props.present_dec t x w hx.proper h3
  have hnan := Props.field_no_nan t x w hx.noNaN h3
  have hb' : ∃ b', toSqlite k.codecs v' = .ok b' := by
    rcases g2 with rfl | ⟨_, _, rfl, rfl, -⟩
    · exact ⟨b, h2⟩
    · exact ⟨_, rfl⟩
  obtain ⟨b', hb'⟩ := hb'
  obtain ⟨st, a, q1, q2, -, q3⟩ := Props.sqlite_round_trip_partial k.codecs hc w t.sqltype hdec (Props.field_not_custom t) hnan
  rw [h4] at q2
  cases q2
  have hholds : ColumnHolds st b b' := by
    refine columnHolds_same g2 h2 hb' (ofClass_of_type hdec q1 h4) ?_
    rintro r rfl
    cases w <;> cases h4
    cases hr : r.isNaN with
    | false => rfl
    | true => exact absurd hr hnan
  obtain ⟨w', q4, q5⟩ := q3 _ hholds
  obtain ⟨y, q6, q7⟩ := field_read_same k.parseUuid t x hx.proper w w' h3 q5
  exact ⟨v', b', g1, hb', y, by simp only [readVal, q4, Conv.bind, q6], q7⟩

/-! ### Tables -/

theorem sameTable_nodup {s t : ATable} (h : SameTable s t) (ht : (t.columns.map (·.name)).Nodup) :
    (s.columns.map (·.name)).Nodup := by
  obtain ⟨-, cols, hp, hm⟩ := h
  refine ((hp.map (·.name)).nodup_iff).1 ?_
  have : cols.map (·.name) = t.columns.map (·.name) := by
    clear hp ht
    generalize t.columns = l at hm
    induction hm with
    | nil => rfl
    | cons h1 _ ih => simp only [List.map_cons, h1.name, ih]
  rw [this]
  exact ht

theorem byName_of_same {a b : ADB} (hb : ValidSchema b) (h : SameSchema a b) : SchemaByName a b := by
  intro n
  have := h n
  cases ha : a.getTable n <;> cases hb' : b.getTable n <;> rw [ha, hb'] at this <;> try exact this
  exact (sameTable_iff (sameTable_nodup this (distinct_of_getTable hb hb')) (distinct_of_getTable hb hb')).1 this

theorem schemaByName_symm {a b : ADB} (h : SchemaByName a b) : SchemaByName b a :=
  fun n => (h n).symm (fun _ _ => SameByName.symm)

/-- The column of a field, in a schema the database has. -/
theorem fits_column {t : STable} (ht : TableFits m pk t) {T : ATable} (hT : TableIs T t) {n : String} {ty : FieldTy}
    (hf : HasField m n ty) : ∃ x st, T.column n = some x ∧ StoredAs x st ∧ sqliteType ty.sqltype = some st := by
  obtain ⟨f, h1, rfl, h3⟩ := hf
  obtain ⟨d, hd, hfit⟩ := ht.fields f h1 ty h3
  obtain ⟨st, g1, g2⟩ := hfit.type
  have hdb : dbColumn t f.name = some d := by
    cases hd' : dbColumn t f.name with
    | none => exact absurd hfit.name (by simpa using (List.find?_eq_none.1 hd') d hd)
    | some d' =>
      have e1 := List.find?_some hd'
      have e2 := List.mem_of_find?_eq_some hd'
      rw [coldef_eq_of_name ht.distinct e2 hd ((by simpa using e1 : d'.name = f.name).trans hfit.name.symm)]
  have := hT.columns f.name
  rw [hdb] at this
  obtain ⟨x, e, hx⟩ := Both.some_right this
  obtain ⟨st', q1, q2⟩ := hx.type
  have : st' = st := by
    rw [g2] at q2
    have := List.cons.inj q2
    have := this.1
    revert this
    cases st <;> cases st' <;> decide
  subst this
  exact ⟨x, st', e, q1, g1⟩

theorem fits_noColumn {t : STable} (ht : TableFits m pk t) {T : ATable} (hT : TableIs T t) {n : String}
    (hf : ∀ ty, ¬ HasField m n ty) : T.column n = none := by
  have := hT.columns n
  cases hd : dbColumn t n with
  | some d =>
    have e1 : d.name = n := by simpa using List.find?_some hd
    obtain ⟨f, h1, ty, h2, h3⟩ := ht.columns d (List.mem_of_find?_eq_some hd)
    exact absurd ⟨f, h1, h3.symm.trans e1, h2⟩ (hf ty)
  | none =>
    rw [hd] at this
    cases hc : T.column n with
    | none => rfl
    | some c => rw [hc] at this; exact this.elim

theorem allMatch_filter {α β : Type} {R : α → β → Prop} {l : List α} {l' : List β} (h : AllMatch R l l')
    {p : α → Bool} {q : β → Bool} (hpq : ∀ x y, R x y → p x = q y) : AllMatch R (l.filter p) (l'.filter q) := by
  induction h with
  | nil => exact .nil
  | @cons a b as bs h1 _ ih =>
    simp only [List.filter_cons, hpq a b h1]
    cases q b
    · exact ih
    · exact .cons h1 ih

/-- The one row of a key, or none. -/
theorem key_rows (h : Ready k m pk u) {t : STable} (hlk : u.lookup m.table = some t) {id : SqlVal} {a : SqliteVal}
    (hid : IsKeyVal k pk id a) : (t.rows.filter fun r => decide (field t.cols r pk.name = some a)) = [] ∨
      ∃ r, (t.rows.filter fun r => decide (field t.cols r pk.name = some a)) = [r] := by
  obtain ⟨t1, g1, ht⟩ := h.table
  rw [hlk] at g1
  cases g1
  obtain ⟨d, ty, st, hd, hn, hpk, h1, -⟩ := key_column h.model ht
  have := unique_filter (h.sound.unique _ _ hlk) hd (by simp [hpk]) (key_ne_null (hid.type ty h1) hid.stored).2
  rw [hn] at this
  cases hl : t.rows.filter fun r => decide (field t.cols r pk.name = some a) with
  | nil => exact .inl rfl
  | cons r rest =>
    cases rest with
    | nil => exact .inr ⟨r, rfl⟩
    | cons r' rest => rw [hl] at this; simp at this

theorem tryGet_none (h : Ready k m pk u) {t : STable} (hlk : u.lookup m.table = some t) {id : SqlVal} {a : SqliteVal}
    (hid : IsKeyVal k pk id a) (hr : (t.rows.filter fun r => decide (field t.cols r pk.name = some a)) = [])
    (res : Except OpErr (Option (ObjVals m.fields))) : m.TryGetOut k u id res ↔ res = .ok none := by
  obtain ⟨t1, g1, ht⟩ := h.table
  rw [hlk] at g1
  cases g1
  rw [tableTryGet_iff h.model h.data hlk ht (h.sound.proper.tables _ _ hlk) hid, hr]
  constructor
  · rintro ⟨l, hl, rfl⟩
    rw [List.perm_nil.1 hl]
    rfl
  · rintro rfl
    exact ⟨[], List.Perm.refl _, rfl⟩

theorem tryGet_one (h : Ready k m pk u) {t : STable} (hlk : u.lookup m.table = some t) {id : SqlVal} {a : SqliteVal}
    (hid : IsKeyVal k pk id a) {r : List SqliteVal}
    (hr : (t.rows.filter fun r => decide (field t.cols r pk.name = some a)) = [r])
    (res : Except OpErr (Option (ObjVals m.fields))) : m.TryGetOut k u id res ↔
      res = match m.fromRows k [pick t.cols m.columns r] with
        | .ok os => .ok os.head?
        | .error e => .error e := by
  obtain ⟨t1, g1, ht⟩ := h.table
  rw [hlk] at g1
  cases g1
  rw [tableTryGet_iff h.model h.data hlk ht (h.sound.proper.tables _ _ hlk) hid, hr]
  constructor
  · rintro ⟨l, hl, rfl⟩
    rw [List.perm_singleton.1 hl]
    rfl
  · rintro rfl
    exact ⟨[r], List.Perm.refl _, rfl⟩

/-! ### A migration -/

theorem sameFields_self : ∀ (fs : List TField) (o : ObjVals fs), SameFields fs o o
  | [], _ => trivial
  | ⟨_, _, none⟩ :: fs, (_, os) => sameFields_self fs os
  | ⟨_, _, some t⟩ :: fs, (x, os) => ⟨SameField.refl t x, sameFields_self fs os⟩

/-- Objects in a database that is migrated become objects of the changed model. -/
theorem shows_migrated {u w : SDb} (h : Ready k m pk u) (h' : Ready k m' pk' w) (hext : Extends m m' pk pk')
    {a b old new : ADB} (ha : HasSchema k.env a u) (hb : HasSchema k.env b w) (hva : ValidSchema a)
    (hvb : ValidSchema b) (h1 : SameSchema old a) (h2 : SameSchema new b)
    (hkept : RowsKept k.env k.codecs old new u w) {Default : String → (t : FieldTy) → t.Val → Prop}
    (hdef : ∀ n t, HasField m' n t → ¬ HasField m n t → ∃ x, Default n t x ∧
      ∀ T c, b.getTable m'.table = some T → T.column n = some c → FilledWith k.codecs c t x)
    {st : Objects m} (hs : ShowsObjs k m pk u st) :
    ∃ st' : Objects m', ShowsObjs k m' pk' w st' ∧
      ∀ id, KeyLike pk id → Both (BecomesObj m m' Default) (st id) (st' id) := by
  obtain ⟨t, hlk, ht⟩ := h.table
  obtain ⟨t', hlk', ht'⟩ := h'.table
  have hold : Implements old u := implements_same (schemaByName_symm (byName_of_same hva h1)) ha.tables
  have hnew : Implements new w := implements_same (schemaByName_symm (byName_of_same hvb h2)) hb.tables
  obtain ⟨T, hT, hTt⟩ : ∃ T, old.getTable m.table = some T ∧ TableIs T t := by
    have := hold m.table
    rw [hlk] at this
    exact Both.some_right this
  obtain ⟨T', hT', hTt'⟩ : ∃ T', new.getTable m'.table = some T' ∧ TableIs T' t' := by
    have := hnew m'.table
    rw [hlk'] at this
    exact Both.some_right this
  have hrows := hkept.kept m.table T T' t t' hT (hext.table ▸ hT') hlk (hext.table ▸ hlk')
  -- common fields
  have hcommon : ∀ n ty, HasField m n ty → HasField m' n ty → ∀ r r',
      ((∀ c x y st, T.column c = some x → T'.column c = some y → StoredAs y st →
        ∃ v w, field t.cols r c = some v ∧ field t'.cols r' c = some w ∧
          k.env.coerce st v = some w ∧ (StoredAs x st → w = v)) ∧
      (∀ c y v b, T.column c = none → T'.column c = some y → NewValue y v →
        toSqlite k.codecs v = .ok b → field t'.cols r' c = some b)) →
      ∃ v, field t.cols r n = some v ∧ field t'.cols r' n = some v := by
    intro n ty hf hf' r r' hR
    obtain ⟨x, s1, e1, e2, e3⟩ := fits_column ht hTt hf
    obtain ⟨y, s2, e4, e5, e6⟩ := fits_column ht' hTt' hf'
    rw [e3] at e6
    cases e6
    obtain ⟨v, w', g1, g2, -, g4⟩ := hR.1 n x y _ e1 e4 e5
    obtain rfl := g4 e2
    exact ⟨_, g1, g2⟩
  have hpkf : ∃ ty, HasField m pk.name ty ∧ HasField m' pk.name ty := by
    obtain ⟨ty, _, e, -⟩ := h.model.keyType
    exact ⟨ty, ⟨pk, h.model.pk_mem, rfl, e⟩, ⟨pk', h'.model.pk_mem, hext.key, hext.keyType.trans e⟩⟩
  obtain ⟨kty, hkf, hkf'⟩ := hpkf
  have hid : ∀ id a, IsKeyVal k pk id a → IsKeyVal k pk' id a := fun id a hi =>
    ⟨fun ty hty => hi.type ty (hext.keyType ▸ hty), hi.stored⟩
  -- key by key
  have key : ∀ id, ∃ x : Option (ObjVals m'.fields), KeyLike pk id →
      (∀ res, m'.TryGetOut k w id res ↔ res = .ok x) ∧ Both (BecomesObj m m' Default) (st id) x := by
    intro id
    rcases Classical.em (KeyLike pk id) with hkl | hkl
    rotate_left
    · exact ⟨none, fun h => absurd h hkl⟩
    obtain ⟨a, hkv⟩ := keyLike_stored (k := k) h.model hkl
    have hflt := allMatch_filter hrows (p := fun r => decide (field t.cols r pk.name = some a))
      (q := fun r => decide (field t'.cols r pk'.name = some a)) (by
        intro r r' hR
        obtain ⟨v, g1, g2⟩ := hcommon _ _ hkf hkf' r r' hR
        rw [hext.key, g1, g2])
    obtain ⟨⟨res, hres⟩, hall⟩ := hs id hkl
    obtain ⟨x0, rfl, hx0⟩ := hall res hres
    rcases key_rows h hlk hkv with hr | ⟨r, hr⟩
    · rw [hr] at hflt
      cases hfl' : t'.rows.filter fun r => decide (field t'.cols r pk'.name = some a) with
      | cons r' rest => rw [hfl'] at hflt; cases hflt
      | nil =>
        refine ⟨none, fun _ => ⟨tryGet_none h' hlk' (hid _ _ hkv) hfl', ?_⟩⟩
        have := (tryGet_none h hlk hkv hr _).1 hres
        cases this
        cases hst : st id with
        | none => trivial
        | some o => rw [hst] at hx0; exact hx0.elim
    · rw [hr] at hflt
      obtain ⟨r', hr', hR⟩ : ∃ r', (t'.rows.filter fun r => decide (field t'.cols r pk'.name = some a)) = [r'] ∧ _ := by
        cases hfl' : t'.rows.filter fun r => decide (field t'.cols r pk'.name = some a) with
        | nil => rw [hfl'] at hflt; cases hflt
        | cons r' rest =>
          rw [hfl'] at hflt
          cases hflt with
          | cons h1 h2 => cases h2; exact ⟨r', rfl, h1⟩
      have hget := (tryGet_one h hlk hkv hr _).1 hres
      obtain ⟨o, o0, hst, rfl, hsame, hread⟩ : ∃ o o0, st id = some o ∧ x0 = some o0 ∧ SameFields m.fields o o0 ∧
          m.fromRows k [pick t.cols m.columns r] = .ok [o0] := by
        cases hfr : m.fromRows k [pick t.cols m.columns r] with
        | error e => rw [hfr] at hget; cases hget
        | ok os =>
          obtain ⟨o0, rfl, -⟩ := fromRows_read.1 hfr
          rw [hfr] at hget
          cases hget
          cases hst : st id with
          | none => rw [hst] at hx0; exact hx0.elim
          | some o => rw [hst] at hx0; exact ⟨o, o0, rfl, rfl, hx0, rfl⟩
      -- what a field of the new model is read as
      have hnewf : ∀ n ty, HasField m' n ty → ¬ HasField m n ty → ∃ x y, Default n ty x ∧ SameField ty x y ∧
          readVal k ty ((field t'.cols r' n).getD .null) = .ok y := by
        intro n ty hf' hf
        have hno : ∀ ty', ¬ HasField m n ty' := fun ty' hf2 => hf (hext.fields n ty' ty hf2 hf' ▸ hf2)
        have e1 := fits_noColumn ht hTt hno
        obtain ⟨y, _, e2, -⟩ := fits_column ht' hTt' hf'
        obtain ⟨x, d1, d2⟩ := hdef n ty hf' hf
        have hsn := (byName_of_same hvb h2) m'.table
        rw [hT'] at hsn
        cases hB : b.getTable m'.table with
        | none => rw [hB] at hsn; exact hsn.elim
        | some B =>
          rw [hB] at hsn
          have hcol := hsn.2 n
          simp only [ATable.column] at e2
          rw [e2] at hcol
          cases hc : colByName B.columns n with
          | none => rw [hc] at hcol; exact hcol.elim
          | some c =>
            rw [hc] at hcol
            obtain ⟨v', b', q1, q2, y', q3, q4⟩ := filled_read h.codecs hcol (d2 B c hB hc)
            have := hR.2 n y v' b' e1 e2 q1 q2
            exact ⟨x, y', d1, q4, by rw [this]; exact q3⟩
      have hcom : ∀ n ty, HasField m n ty → HasField m' n ty → ∃ x, valueOf n m.fields o0 = some ⟨ty, x⟩ ∧
          readVal k ty ((field t'.cols r' n).getD .null) = .ok x := by
        intro n ty hf hf'
        obtain ⟨x, hx⟩ := fieldVal_some h.model.distinct o0 hf
        obtain ⟨v, g1, g2⟩ := hcommon n ty hf hf' r r' hR
        have := fromRows_vals hread hx
        rw [g1] at this
        exact ⟨x, hx, by rw [g2]; exact this⟩
      obtain ⟨o', ho'⟩ := fromRows_ok (k := k) (m := m') (cols := t'.cols) (r := r') (by
        intro f hf ty hty
        have hf' : HasField m' f.name ty := ⟨f, hf, rfl, hty⟩
        by_cases hin : HasField m f.name ty
        · obtain ⟨x, -, hx⟩ := hcom _ _ hin hf'
          exact ⟨x, hx⟩
        · obtain ⟨_, y, -, -, hy⟩ := hnewf _ _ hf' hin
          exact ⟨y, hy⟩)
      refine ⟨some o', fun _ => ⟨fun res => ?_, ?_⟩⟩
      · rw [tryGet_one h' hlk' (hid _ _ hkv) hr', ho']
        rfl
      · rw [hst]
        constructor
        · intro n ty x hx hf'
          obtain ⟨x0, hx0', hs0⟩ := sameFields_val hsame hx
          obtain ⟨x1, e1, e2⟩ := hcom n ty (hasField_of_val hx) hf'
          rw [hx0'] at e1
          cases e1
          obtain ⟨y, hy⟩ := fieldVal_some h'.model.distinct o' hf'
          have := fromRows_vals ho' hy
          rw [e2] at this
          cases this
          exact ⟨x0, hy, hs0⟩
        · intro n ty hf' hf
          obtain ⟨x, y, e1, e2, e3⟩ := hnewf n ty hf' hf
          obtain ⟨y', hy⟩ := fieldVal_some h'.model.distinct o' hf'
          have := fromRows_vals ho' hy
          rw [e3] at this
          cases this
          exact ⟨y, x, hy, e1, e2⟩
  refine ⟨fun id => Classical.choose (key id), fun id hkl => ?_, fun id hkl => (Classical.choose_spec (key id) hkl).2⟩
  have hkl' : KeyLike pk id := fun ty hty => hkl ty (hext.keyType.trans hty)
  have := (Classical.choose_spec (key id) hkl').1
  exact ⟨⟨_, (this _).2 rfl⟩, fun res hres => ⟨_, (this res).1 hres, OptRel.refl (sameFields_self m'.fields) _⟩⟩

end Butane
