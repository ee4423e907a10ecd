/-
Objects and `Many` fields in a database that is migrated.
-/
import Verif.Spec.CrateProgram
import Verif.Proofs.ObjMany
import Verif.Proofs.CrateObj

namespace Butane
open Butane.Ddl Butane.DdlP Spec

variable {k : SqliteConn} {m m' : TModel} {pk pk' : TField}

/-! ### Objects -/

theorem allProper_of : ∀ {fs : List TField} {o : ObjVals fs}, (fs.map (·.name)).Nodup →
    (∀ n t x, valueOf n fs o = some ⟨t, x⟩ → Proper t x) → AllProper fs o
  | [], _, _, _ => trivial
  | ⟨n', p, none⟩ :: fs, (y, os), hn, h => by
    simp only [List.map_cons, List.nodup_cons] at hn
    refine allProper_of (fs := fs) hn.2 fun n t x hx => h n t x ?_
    obtain ⟨f, hf, rfl, -⟩ := hasField_of_val hx
    have : n' ≠ f.name := fun e => hn.1 (e ▸ List.mem_map_of_mem hf)
    simp only [valueOf, if_neg this, hx]
  | ⟨n', p, some t'⟩ :: fs, (y, os), hn, h => by
    simp only [List.map_cons, List.nodup_cons] at hn
    refine ⟨h n' t' y (by simp [valueOf]), allProper_of (fs := fs) hn.2 fun n t x hx => h n t x ?_⟩
    obtain ⟨f, hf, rfl, -⟩ := hasField_of_val hx
    have : n' ≠ f.name := fun e => hn.1 (e ▸ List.mem_map_of_mem hf)
    simp only [valueOf, if_neg this, hx]

theorem noNaNs_of : ∀ {fs : List TField} {o : ObjVals fs}, (fs.map (·.name)).Nodup →
    (∀ n t x, valueOf n fs o = some ⟨t, x⟩ → NoNaNField t x) → NoNaNs fs o
  | [], _, _, _ => trivial
  | ⟨n', p, none⟩ :: fs, (y, os), hn, h => by
    simp only [List.map_cons, List.nodup_cons] at hn
    refine noNaNs_of (fs := fs) hn.2 fun n t x hx => h n t x ?_
    obtain ⟨f, hf, rfl, -⟩ := hasField_of_val hx
    have : n' ≠ f.name := fun e => hn.1 (e ▸ List.mem_map_of_mem hf)
    simp only [valueOf, if_neg this, hx]
  | ⟨n', p, some t'⟩ :: fs, (y, os), hn, h => by
    simp only [List.map_cons, List.nodup_cons] at hn
    refine ⟨h n' t' y (by simp [valueOf]), noNaNs_of (fs := fs) hn.2 fun n t x hx => h n t x ?_⟩
    obtain ⟨f, hf, rfl, -⟩ := hasField_of_val hx
    have : n' ≠ f.name := fun e => hn.1 (e ▸ List.mem_map_of_mem hf)
    simp only [valueOf, if_neg this, hx]

/-- An object with a given value for each field. -/
theorem build_obj {P : String → (t : FieldTy) → t.Val → Prop} : ∀ {fs : List TField}, (fs.map (·.name)).Nodup →
    (∀ f ∈ fs, ∀ t, f.ty = some t → ∃ x, P f.name t x) →
    ∃ o : ObjVals fs, ∀ n t x, valueOf n fs o = some ⟨t, x⟩ → P n t x
  | [], _, _ => ⟨(), fun _ _ _ h => by cases h⟩
  | ⟨n', p, none⟩ :: fs, hn, h => by
    simp only [List.map_cons, List.nodup_cons] at hn
    obtain ⟨o, ho⟩ := build_obj (P := P) hn.2 fun f hf => h f (List.mem_cons_of_mem _ hf)
    refine ⟨((), o), fun n t x hx => ?_⟩
    simp only [valueOf] at hx
    split at hx
    · cases hx
    · exact ho n t x hx
  | ⟨n', p, some t'⟩ :: fs, hn, h => by
    simp only [List.map_cons, List.nodup_cons] at hn
    obtain ⟨y, hy⟩ := h _ (List.mem_cons_self ..) t' rfl
    obtain ⟨o, ho⟩ := build_obj (P := P) hn.2 fun f hf => h f (List.mem_cons_of_mem _ hf)
    refine ⟨(y, o), fun n t x hx => ?_⟩
    simp only [valueOf] at hx
    split at hx
    · next e => cases hx; exact e ▸ hy
    · exact ho n t x hx

/-- What becomes of an object, if the new fields have defaults. -/
theorem obj_becomes (hd : (m.fields.map (·.name)).Nodup) (hd' : (m'.fields.map (·.name)).Nodup)
    {Default : String → (t : FieldTy) → t.Val → Prop}
    (hdef : ∀ n t, HasField m' n t → ¬ HasField m n t → ∃ x, Default n t x) (o : ObjVals m.fields) :
    ∃ o', ObjBecomes m m' Default o o' := by
  obtain ⟨o', ho'⟩ := build_obj (fs := m'.fields) (P := fun n t x =>
    valueOf n m.fields o = some ⟨t, x⟩ ∨ (¬ HasField m n t ∧ Default n t x)) hd' (by
      intro f hf t ht
      by_cases hin : HasField m f.name t
      · obtain ⟨x, hx⟩ := fieldVal_some hd o hin
        exact ⟨x, .inl hx⟩
      · obtain ⟨x, hx⟩ := hdef f.name t ⟨f, hf, rfl, ht⟩ hin
        exact ⟨x, .inr ⟨hin, hx⟩⟩)
  refine ⟨o', fun n t x hx hf => ?_, fun n t hf hnf => ?_⟩
  · obtain ⟨y, hy⟩ := fieldVal_some hd' o' hf
    rcases ho' n t y hy with h | ⟨h, -⟩
    · rw [hx] at h
      cases h
      exact hy
    · exact absurd (hasField_of_val hx) h
  · obtain ⟨y, hy⟩ := fieldVal_some hd' o' hf
    rcases ho' n t y hy with h | ⟨-, h⟩
    · exact absurd (hasField_of_val h) hnf
    · exact ⟨y, hy, h⟩

/-- The default of a new column is what a column holds after the value the field was filled with was
written. -/
theorem filled_holds (hc : Faithful k.codecs) {c c' : AColumn} (h : SameColumn c' c) {t : FieldTy} {x : t.Val}
    (hx : FilledWith k.codecs c t x) : ∃ v' b', NewValue c' v' ∧ toSqlite k.codecs v' = .ok b' ∧
      ∃ w b st, t.toSql x = .ok w ∧ toSqlite k.codecs w = .ok b ∧ sqliteType t.sqltype = some st ∧
        ColumnHolds st b b' := by
  obtain ⟨v, w, b, h1, h2, h3, h4⟩ := hx.stored
  obtain ⟨v', g1, g2⟩ := newValue_same h h1
  have hdec := Props.present_dec t x w hx.proper h3
  have hnan := Props.field_no_nan t x w hx.noNaN h3
  have hb' : ∃ b', toSqlite k.codecs v' = .ok b' := by
    rcases g2 with rfl | ⟨_, _, rfl, rfl, -⟩
    · exact ⟨b, h2⟩
    · exact ⟨_, rfl⟩
  obtain ⟨b', hb'⟩ := hb'
  obtain ⟨st, a, q1, q2, -, -⟩ := Props.sqlite_round_trip_partial k.codecs hc w t.sqltype hdec (Props.field_not_custom t) hnan
  rw [h4] at q2
  cases q2
  refine ⟨v', b', g1, hb', w, b, st, h3, h4, q1, ?_⟩
  refine columnHolds_same g2 h2 hb' (ofClass_of_type hdec q1 h4) ?_
  rintro r rfl
  cases w <;> cases h4
  cases hr : r.isNaN with
  | false => rfl
  | true => exact absurd hr hnan

/-- The table of the changed model holds what becomes of the objects. -/
theorem stores_migrated {u w : SDb} (h : Ready k m pk u) (h' : Ready k m' pk' w) (hext : Extends m m' pk pk')
    {a b old new : ADB} (ha : HasSchema k.env a u) (hb : HasSchema k.env b w) (hva : ValidSchema a)
    (hvb : ValidSchema b) (h1 : SameSchema old a) (h2 : SameSchema new b)
    (hkept : RowsKept k.env k.codecs old new u w) {Default : String → (t : FieldTy) → t.Val → Prop}
    (hdef : ∀ n t x, HasField m' n t → ¬ HasField m n t → Default n t x →
      ∀ T c, b.getTable m'.table = some T → T.column n = some c → FilledWith k.codecs c t x)
    {st : Objects m} (hs : StoresObjs k m pk u st) {st' : Objects m'}
    (hst : ∀ id, KeyLike pk id → Both (ObjBecomes m m' Default) (st id) (st' id)) :
    StoresObjs k m' pk' w st' := by
  obtain ⟨t, hlk, ht⟩ := h.table
  obtain ⟨t', hlk', ht'⟩ := h'.table
  obtain ⟨t0, hl0, hkeys, hobjs⟩ := hs
  rw [hlk] at hl0
  cases hl0
  have hold : Implements old u := implements_same (schemaByName_symm (byName_of_same hva h1)) ha.tables
  have hnew : Implements new w := implements_same (schemaByName_symm (byName_of_same hvb h2)) hb.tables
  obtain ⟨T, hT, hTt⟩ : ∃ T, old.getTable m.table = some T ∧ TableIs T t := by
    have := hold m.table
    rw [hlk] at this
    exact Both.some_right this
  obtain ⟨T', hT', hTt'⟩ : ∃ T', new.getTable m'.table = some T' ∧ TableIs T' t' := by
    have := hnew m'.table
    rw [hlk'] at this
    exact Both.some_right this
  have hrows := hkept.kept m.table T T' t t' hT (hext.table ▸ hT') hlk (hext.table ▸ hlk')
  have hcommon : ∀ n ty, HasField m n ty → HasField m' n ty → ∀ r r',
      ((∀ c x y st, T.column c = some x → T'.column c = some y → StoredAs y st →
        ∃ v w, field t.cols r c = some v ∧ field t'.cols r' c = some w ∧
          k.env.coerce st v = some w ∧ (StoredAs x st → w = v)) ∧
      (∀ c y v b, T.column c = none → T'.column c = some y → NewValue y v →
        toSqlite k.codecs v = .ok b → field t'.cols r' c = some b)) →
      ∃ v, field t.cols r n = some v ∧ field t'.cols r' n = some v := by
    intro n ty hf hf' r r' hR
    obtain ⟨x, s1, e1, e2, e3⟩ := fits_column ht hTt hf
    obtain ⟨y, s2, e4, e5, e6⟩ := fits_column ht' hTt' hf'
    rw [e3] at e6
    cases e6
    obtain ⟨v, w', g1, g2, -, g4⟩ := hR.1 n x y _ e1 e4 e5
    obtain rfl := g4 e2
    exact ⟨_, g1, g2⟩
  have hpkf : ∃ ty, HasField m pk.name ty ∧ HasField m' pk.name ty := by
    obtain ⟨ty, _, e, -⟩ := h.model.keyType
    exact ⟨ty, ⟨pk, h.model.pk_mem, rfl, e⟩, ⟨pk', h'.model.pk_mem, hext.key, hext.keyType.trans e⟩⟩
  obtain ⟨kty, hkf, hkf'⟩ := hpkf
  refine ⟨t', hlk', ?_, ?_⟩
  · intro r' hr'
    obtain ⟨r, hr, hR⟩ := match_mem_right hrows r' hr'
    obtain ⟨id, a, g1, g2⟩ := hkeys r hr
    obtain ⟨v, g3, g4⟩ := hcommon _ _ hkf hkf' r r' hR
    rw [g2] at g3
    cases g3
    exact ⟨id, a, ⟨fun ty hty => g1.type ty (hext.keyType ▸ hty), g1.stored⟩, by rw [hext.key]; exact g4⟩
  · intro id a hkv'
    have hkv : IsKeyVal k pk id a := ⟨fun ty hty => hkv'.type ty (hext.keyType.trans hty), hkv'.stored⟩
    have hflt := allMatch_filter hrows (p := fun r => decide (field t.cols r pk.name = some a))
      (q := fun r => decide (field t'.cols r pk'.name = some a)) (by
        intro r r' hR
        obtain ⟨v, g1, g2⟩ := hcommon _ _ hkf hkf' r r' hR
        rw [hext.key, g1, g2])
    have hid := hobjs id a hkv
    have hboth := hst id hkv.type
    cases hs0 : st id with
    | none =>
      rw [hs0] at hid hboth
      cases hs1 : st' id with
      | some o => rw [hs1] at hboth; exact hboth.elim
      | none =>
        simp only at hid ⊢
        rw [hid] at hflt
        cases hfl' : t'.rows.filter fun r => decide (field t'.cols r pk'.name = some a) with
        | nil => rfl
        | cons r' rest => rw [hfl'] at hflt; cases hflt
    | some o =>
      rw [hs0] at hid hboth
      cases hs1 : st' id with
      | none => rw [hs1] at hboth; exact hboth.elim
      | some o' =>
        rw [hs1] at hboth
        have hbec : ObjBecomes m m' Default o o' := hboth
        simp only at hid ⊢
        obtain ⟨⟨t0, x0, d1, d2⟩, hprop, hnan, r, hr, hholds⟩ := hid
        rw [hr] at hflt
        obtain ⟨r', hr', hR⟩ : ∃ r', (t'.rows.filter fun r => decide (field t'.cols r pk'.name = some a)) = [r'] ∧ _ := by
          cases hfl' : t'.rows.filter fun r => decide (field t'.cols r pk'.name = some a) with
          | nil => rw [hfl'] at hflt; cases hflt
          | cons r' rest =>
            rw [hfl'] at hflt
            cases hflt with
            | cons h1 h2 => cases h2; exact ⟨r', rfl, h1⟩
        -- a field of the changed object
        have hval : ∀ n ty x, valueOf n m'.fields o' = some ⟨ty, x⟩ →
            valueOf n m.fields o = some ⟨ty, x⟩ ∨ ((∀ ty', ¬ HasField m n ty') ∧
              ∀ T c, b.getTable m'.table = some T → T.column n = some c → FilledWith k.codecs c ty x) := by
          intro n ty x hx
          have hf' : HasField m' n ty := hasField_of_val hx
          by_cases hf : HasField m n ty
          · obtain ⟨y, hy⟩ := fieldVal_some h.model.distinct o hf
            have := hbec.kept n ty y hy hf'
            rw [hx] at this
            cases this
            exact .inl hy
          · obtain ⟨y, hy, hdy⟩ := hbec.added n ty hf' hf
            rw [hx] at hy
            cases hy
            exact .inr ⟨fun ty' hf2 => hf (hext.fields n ty' ty hf2 hf' ▸ hf2), hdef n ty x hf' hf hdy⟩
        have hcol : ∀ n ty, HasField m' n ty → ∃ B c y, b.getTable m'.table = some B ∧ B.column n = some c ∧
            T'.column n = some y ∧ SameColumn y c := by
          intro n ty hf'
          obtain ⟨y, _, e2, -⟩ := fits_column ht' hTt' hf'
          have hsn := (byName_of_same hvb h2) m'.table
          rw [hT'] at hsn
          cases hB : b.getTable m'.table with
          | none => rw [hB] at hsn; exact hsn.elim
          | some B =>
            rw [hB] at hsn
            have hcol := hsn.2 n
            have e3 := e2
            simp only [ATable.column] at e2
            rw [e2] at hcol
            cases hc : colByName B.columns n with
            | none => rw [hc] at hcol; exact hcol.elim
            | some c =>
              rw [hc] at hcol
              exact ⟨B, c, y, rfl, hc, e3, hcol⟩
        refine ⟨?_, ?_, ?_, r', hr', ?_⟩
        · have hf0 : HasField m' pk.name t0 := by
            have h0 : HasField m pk.name t0 := hasField_of_val d1
            obtain ⟨f, q1, q2, q3⟩ := h0
            have : f = pk := Proofs.CrateDb.eq_of_name h.model.distinct q1 h.model.pk_mem q2
            subst this
            exact ⟨pk', h'.model.pk_mem, hext.key, hext.keyType.trans q3⟩
          exact ⟨t0, x0, by rw [hext.key]; exact hbec.kept _ _ _ d1 hf0, d2⟩
        · refine allProper_of h'.model.distinct fun n ty x hx => ?_
          rcases hval n ty x hx with g | ⟨-, g⟩
          · exact allProper_val hprop g
          · obtain ⟨B, c, y, e1, e2, -, -⟩ := hcol n ty (hasField_of_val hx)
            exact (g B c e1 e2).proper
        · refine noNaNs_of h'.model.distinct fun n ty x hx => ?_
          rcases hval n ty x hx with g | ⟨-, g⟩
          · exact noNaNs_val hnan g
          · obtain ⟨B, c, y, e1, e2, -, -⟩ := hcol n ty (hasField_of_val hx)
            exact (g B c e1 e2).noNaN
        · intro n ty x hx
          have hf' : HasField m' n ty := hasField_of_val hx
          rcases hval n ty x hx with g | ⟨hno, g⟩
          · obtain ⟨v, a', st0, w', q1, q2, q3, q4, q5⟩ := hholds n ty x g
            obtain ⟨v', g1, g2⟩ := hcommon n ty (hasField_of_val g) hf' r r' hR
            rw [q4] at g1
            cases g1
            exact ⟨v, a', st0, w', q1, q2, q3, g2, q5⟩
          · obtain ⟨B, c, y, e1, e2, e3, e4⟩ := hcol n ty hf'
            obtain ⟨v', b', q1, q2, w', b0, st0, q3, q4, q5, q6⟩ := filled_holds h.codecs e4 (g B c e1 e2)
            exact ⟨w', b0, st0, b', q3, q4, q5, hR.2 n y v' b' (fits_noColumn ht hTt hno) e3 q1 q2, q6⟩

/-! ### `Many` fields -/

theorem dbColumn_stored {t : STable} (hn : (t.cols.map (·.name)).Nodup) {T : ATable} (hT : TableIs T t) {d : ColDef}
    (hd : d ∈ t.cols) {st : SqliteType} (ht : d.type = [st.name]) : ∃ x, T.column d.name = some x ∧ StoredAs x st := by
  have hdb : dbColumn t d.name = some d := by
    cases hd' : dbColumn t d.name with
    | none =>
      have := (List.find?_eq_none.1 hd') d hd
      simp at this
    | some d' =>
      have e1 := List.find?_some hd'
      have e2 := List.mem_of_find?_eq_some hd'
      rw [coldef_eq_of_name hn e2 hd (by simpa using e1)]
  have := hT.columns d.name
  rw [hdb] at this
  obtain ⟨x, e, hx⟩ := Both.some_right this
  obtain ⟨st', q1, q2⟩ := hx.type
  have : st' = st := by
    rw [ht] at q2
    have := (List.cons.inj q2).1
    revert this
    cases st <;> cases st' <;> decide
  subst this
  exact ⟨x, e, q1⟩

/-- The link table holds the same pairs. -/
theorem links_migrated {u w : SDb} {n : String} {L L' : Links} {t t' : STable} (hlk : u.lookup n = some t)
    (hlk' : w.lookup n = some t') (hf : LinkFits L t) (hf' : LinkFits L' t')
    (hcols' : ∀ c, c ∈ t'.cols.map (·.name) ↔ c = "owner" ∨ c = "has")
    (hown : L'.owner.ty = L.owner.ty) (htar : L'.target.ty = L.target.ty)
    (hlinked : ∀ x y, L'.linked x y ↔ L.linked x y)
    {a b old new : ADB} (ha : HasSchema k.env a u) (hb : HasSchema k.env b w) (hva : ValidSchema a)
    (hvb : ValidSchema b) (h1 : SameSchema old a) (h2 : SameSchema new b)
    (hkept : RowsKept k.env k.codecs old new u w) (hs : StoresLinks k u n L) : StoresLinks k w n L' := by
  have hold : Implements old u := implements_same (schemaByName_symm (byName_of_same hva h1)) ha.tables
  have hnew : Implements new w := implements_same (schemaByName_symm (byName_of_same hvb h2)) hb.tables
  obtain ⟨T, hT, hTt⟩ : ∃ T, old.getTable n = some T ∧ TableIs T t := by
    have := hold n
    rw [hlk] at this
    exact Both.some_right this
  obtain ⟨T', hT', hTt'⟩ : ∃ T', new.getTable n = some T' ∧ TableIs T' t' := by
    have := hnew n
    rw [hlk'] at this
    exact Both.some_right this
  have hrows := hkept.kept n T T' t t' hT hT' hlk hlk'
  obtain ⟨t0, hl0, -, hin, hpairs⟩ := hs
  rw [hlk] at hl0
  cases hl0
  have hd := (ha.proper.tables _ _ hlk).distinct
  have hd' := (hb.proper.tables _ _ hlk').distinct
  have hcol : ∀ c, c = "owner" ∨ c = "has" → ∃ x y st, T.column c = some x ∧ T'.column c = some y ∧
      StoredAs x st ∧ StoredAs y st := by
    rintro c (rfl | rfl)
    · obtain ⟨d, q1, q2, ty, st, q3, q4, q5⟩ := hf.owner
      obtain ⟨d', r1, r2, ty', st', r3, r4, r5⟩ := hf'.owner
      rw [hown, q3] at r3
      cases r3
      rw [q4] at r4
      cases r4
      obtain ⟨x, e1, e2⟩ := dbColumn_stored hd hTt q1 q5
      obtain ⟨y, e3, e4⟩ := dbColumn_stored hd' hTt' r1 r5
      rw [q2] at e1
      rw [r2] at e3
      exact ⟨x, y, _, e1, e3, e2, e4⟩
    · obtain ⟨d, q1, q2, ty, st, q3, q4, q5⟩ := hf.has
      obtain ⟨d', r1, r2, ty', st', r3, r4, r5⟩ := hf'.has
      rw [htar, q3] at r3
      cases r3
      rw [q4] at r4
      cases r4
      obtain ⟨x, e1, e2⟩ := dbColumn_stored hd hTt q1 q5
      obtain ⟨y, e3, e4⟩ := dbColumn_stored hd' hTt' r1 r5
      rw [q2] at e1
      rw [r2] at e3
      exact ⟨x, y, _, e1, e3, e2, e4⟩
  have hsame : ∀ c, c = "owner" ∨ c = "has" → ∀ r r',
      ((∀ c x y st, T.column c = some x → T'.column c = some y → StoredAs y st →
        ∃ v w, field t.cols r c = some v ∧ field t'.cols r' c = some w ∧
          k.env.coerce st v = some w ∧ (StoredAs x st → w = v)) ∧
      (∀ c y v b, T.column c = none → T'.column c = some y → NewValue y v →
        toSqlite k.codecs v = .ok b → field t'.cols r' c = some b)) →
      ∃ v, field t.cols r c = some v ∧ field t'.cols r' c = some v := by
    intro c hc r r' hR
    obtain ⟨x, y, st, e1, e2, e3, e4⟩ := hcol c hc
    obtain ⟨v, w', g1, g2, -, g4⟩ := hR.1 c x y _ e1 e2 e4
    obtain rfl := g4 e3
    exact ⟨_, g1, g2⟩
  have ko : ∀ x a, IsKeyVal k L.owner x a → IsKeyVal k L'.owner x a := fun x a h =>
    ⟨fun ty hty => h.type ty (hown ▸ hty), h.stored⟩
  have kt : ∀ x a, IsKeyVal k L.target x a → IsKeyVal k L'.target x a := fun x a h =>
    ⟨fun ty hty => h.type ty (htar ▸ hty), h.stored⟩
  refine ⟨t', hlk', hcols', ?_, ?_⟩
  · intro r' hr'
    obtain ⟨r, hr, hR⟩ := match_mem_right hrows r' hr'
    obtain ⟨x, y, a, b, g1, g2, g3, g4, g5⟩ := hin r hr
    obtain ⟨v, e1, e2⟩ := hsame "owner" (.inl rfl) r r' hR
    obtain ⟨v', e3, e4⟩ := hsame "has" (.inr rfl) r r' hR
    rw [g4] at e1
    cases e1
    rw [g5] at e3
    cases e3
    exact ⟨x, y, a, b, (hlinked x y).2 g1, ko _ _ g2, kt _ _ g3, e2, e4⟩
  · intro x y hxy
    obtain ⟨r, hr, a, b, g2, g3, g4, g5⟩ := hpairs x y ((hlinked x y).1 hxy)
    obtain ⟨r', hr', hR⟩ := match_mem_left hrows r hr
    obtain ⟨v, e1, e2⟩ := hsame "owner" (.inl rfl) r r' hR
    obtain ⟨v', e3, e4⟩ := hsame "has" (.inr rfl) r r' hR
    rw [g4] at e1
    cases e1
    rw [g5] at e3
    cases e3
    exact ⟨r', hr', a, b, ko _ _ g2, kt _ _ g3, e2, e4⟩

/-! ### Programs and the schema -/

variable {W : World} {u u' : SDb}

theorem insertAll_schema {n : String} {own : SqlVal} {adb : ADB} : ∀ {vs : List SqlVal} {u : SDb} {W : World} {L : Links},
    Keeps k u W → LinksReady k u W → W.links n = some L → KeyLike L.owner own → (∀ v ∈ vs, KeyLike L.target v) →
    ∀ {u' rest e}, TMany.insertAll k n own u vs = (u', rest, e) → HasSchema k.env adb u → HasSchema k.env adb u'
  | [], u, W, L, hW, hR, hL, ho, hv, u', rest, e, h, hs => by
    cases h
    exact hs
  | v :: vs, u, W, L, hW, hR, hL, ho, hv, u', rest, e, h, hs => by
    simp only [TMany.insertAll] at h
    split at h
    · cases h
      exact hs
    · next db' hx =>
      obtain ⟨t, hT⟩ := linkTable_of hW hR hL
      obtain ⟨hr, hst⟩ := link_insert hT ho (hv v (List.mem_cons_self ..)) hx
      exact insertAll_schema (L := L.add own [v]) (keeps_setLinks hW hL hr hst)
        (ready_setLinks (L' := L.add own [v]) hR hL rfl rfl hr) setLinks_links ho
        (fun w hw => hv w (List.mem_cons_of_mem _ hw)) h (hr.schema (sound_of_schema hs) hs)

theorem many_save_schema (hW : Keeps k u W) (hR : LinksReady k u W) {n : String} {L : Links}
    (hL : W.links n = some L) {own : SqlVal} {im : TModel} {m m' : TMany im} (hm : ManyKeys m n L own)
    {e : Option OpErr} (h : m.save k u = (u', m', e)) {adb : ADB} (hs : HasSchema k.env adb u) :
    HasSchema k.env adb u' := by
  unfold TMany.save at h
  rw [hm.owner, hm.table] at h
  simp only at h
  have hv : ∀ v ∈ m.newValues.reverse, KeyLike L.target v := fun v hv => hm.new v (List.mem_reverse.1 hv)
  split at h
  · next db' rest e' hins =>
    cases h
    exact insertAll_schema hW hR hL hm.ownerKey hv hins hs
  · next db' rest hins =>
    have hs1 := insertAll_schema hW hR hL hm.ownerKey hv hins hs
    split at h
    · cases h
      exact hs1
    · split at h
      · cases h
        exact hs1
      · next db'' hx =>
        cases h
        obtain ⟨done, h1, h2, -, -⟩ := insertAll_keeps hW hR hL hm.ownerKey hv hins
        obtain ⟨t, hT⟩ := linkTable_of h1 h2 setLinks_links
        exact (link_remove hT hm.removed hx).1.schema (sound_of_schema hs1) hs1

theorem world_schema {u0 : SDb} {W0 : World} (h0 : Keeps k u0 W0) (hr : WorldRun k u0 W0 u W) {adb : ADB}
    (hs : HasSchema k.env adb u0) : HasSchema k.env adb u := by
  induction hr with
  | start => exact hs
  | @save u W n u' id s o o' hrun hs ho hn hroom hrow hsave hkey ih =>
    obtain ⟨h1, h2, h3⟩ := (Props.world_run_partial h0 hrun).stock n s hs
    exact (save_rewrites h2.model h2.strict h2.sound hsave).schema h2.sound ih
  | @delete u W n u' id s o hrun hs ho hd hkey ih =>
    obtain ⟨h1, h2, h3⟩ := (Props.world_run_partial h0 hrun).stock n s hs
    exact (delete_rewrites h2.model h2.strict h2.sound ho hd).schema h2.sound ih

end Butane
