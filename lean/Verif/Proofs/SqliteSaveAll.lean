/-
Every successful `save` on SQLite, and `delete`.
-/
import Verif.Proofs.SqliteSaved

namespace Butane
open Butane.Ddl Butane.DdlP Spec
open Butane.Sql (Operand Cond)

variable {k : SqliteConn} {m : TModel} {pk : TField}

theorem insert_same {u : SDb} (hs : u.Sorted) {n : String} {t : STable} (h : u.lookup n = some t) :
    u.insert n t = u := by
  refine SMap.ext (SMap.sorted_insert hs _ _) hs fun n' => ?_
  rw [SMap.lookup_insert]
  split
  · next e => rw [e, h]
  · rfl

theorem no_auto (hm : TModelOk k m pk) (ha : pk.isAuto = false) : ∀ f ∈ m.fields, f.isAuto = false := by
  intro f hf
  cases h : f.isAuto with
  | false => rfl
  | true => rw [hm.auto f hf h, ha] at h; cases h

theorem auto_type {f : TField} (h : f.isAuto = true) : ∃ t, f.ty = some (.autoPk t) := by
  unfold TField.isAuto at h
  split at h
  · next t ht => exact ⟨t, ht⟩
  · cases h

theorem auto_name (hm : TModelOk k m pk) : ∀ f ∈ m.fields, f.isAuto = true → f.name = pk.name :=
  fun f hf ha => by rw [hm.auto f hf ha]

theorem keyValid_of_not_auto {n : String} : ∀ {fs : List TField} (o : ObjVals fs),
    (∀ f ∈ fs, f.isAuto = false) → (∃ f ∈ fs, f.name = n) → keyValid n fs o = true
  | [], _, _, ⟨_, h, _⟩ => by cases h
  | ⟨n', p, ty⟩ :: fs, (x, os), ha, ⟨f, hf, e⟩ => by
    have h0 := ha _ (List.mem_cons_self ..)
    have hrest : n' ≠ n → keyValid n fs os = true := by
      intro hne
      refine keyValid_of_not_auto os (fun f hf => ha f (List.mem_cons_of_mem _ hf)) ⟨f, ?_, e⟩
      rcases List.mem_cons.1 hf with h | h
      · subst h; exact absurd e hne
      · exact h
    have : (if n' = n then true else keyValid n fs os) = true := by
      split
      · rfl
      · next h => exact hrest h
    cases ty with
    | none => exact this
    | some ty => cases ty <;> first | exact this | (simp [TField.isAuto] at h0)

/-- The key of an object that has one. -/
theorem key_of_proper (hm : TModelOk k m pk) {o : ObjVals m.fields} (ho : AllProper m.fields o) :
    ∃ id ty, keySql pk.name m.fields o = .ok id ∧ pk.ty = some ty ∧ id.sqltype = some ty.sqltype := by
  obtain ⟨ty, st, h1, -, -, h4⟩ := hm.keyType
  obtain ⟨id, g1, g2⟩ := keySql_proper (n := pk.name) o ho pk hm.pk_mem rfl ty h1 h4 hm.distinct
  exact ⟨id, ty, g1, h1, g2⟩

/-- Inserting a new object. -/
theorem insertNew_saved (hm : TModelOk k m pk) (hD : DataLaws k.env k.data) (hs : StrictLaws k.env)
    {u u' : SDb} {t : STable} (hu : SoundDb k.env u) (hlk : u.lookup m.table = some t)
    (ht : TableFits m pk t) {o o' : ObjVals m.fields} (ho : Storable m.fields o)
    (hn : NoNaNs m.fields o) (hroom : KeyRoom k m pk u) (ha : pk.isAuto = true)
    (hval : keyValid pk.name m.fields o = false) {vals : List SqlVal}
    (hv : pushValues (fun _ => true) m.fields o = .ok vals)
    (h : m.insertNew k u pk o m.nonAutoColumns vals = .ok (u', o')) :
    SameButAuto m.fields o o' ∧ NoNaNs m.fields o' ∧ ∃ id a, Saved k m pk u u' o' id a ∧
      ¬ HasRow u m pk a := by
  have hp := hu.proper.tables _ _ hlk
  unfold TModel.insertNew at h
  split at h
  · cases h
  next db' w hins =>
  unfold SqliteConn.insertReturningPk at hins
  split at hins
  · cases hins
  next db1 hexec =>
  obtain ⟨ps, hb, hx⟩ := exec_ok hexec
  simp only [Backend.insert] at hb
  obtain ⟨vals', hv', hmatch⟩ := storable_vals (keep := fun _ => true) o ho
  rw [hv] at hv'
  cases hv'
  have hlen : ps.length = m.nonAutoColumns.length := by
    have h1 := match_length (bindAll_match hb)
    have h2 := match_length hmatch
    rw [← h1, ← h2, TModel.nonAutoColumns, List.length_map,
      tcolumns_congr (k1 := fun f => !f.isAuto && true) (k2 := fun f => !f.isAuto) fun f _ => by simp]
  unfold execDataText at hx
  rw [lex_insert hm.covers (cols := m.nonAutoColumns) hm.table (columns_names hm)] at hx
  simp only at hx
  rw [data_insert hlk (cols := m.nonAutoColumns) (columns_in_table ht) hlen] at hx
  cases hnew : newRow k.env k.data t (m.nonAutoColumns.zip ps) with
  | none => rw [hnew] at hx; cases hx
  | some new =>
    rw [hnew] at hx
    simp only [Option.bind_some] at hx
    obtain ⟨e1, e2⟩ := replaceRows_eq hx
    obtain ⟨kt, hkt⟩ := auto_type ha
    obtain ⟨I, hI⟩ := hm.autoInt kt hkt
    have hint : sqliteType kt.sqltype = some .integer := by cases hI <;> rfl
    have hauto : ∃ d ∈ t.cols, d.name = pk.name ∧ d.type = ["INTEGER"] := by
      obtain ⟨d, ty, st, hd, hdn, -, g1, g2, -, g4, -⟩ := key_column hm ht
      rw [hkt] at g1
      cases g1
      rw [show FieldTy.sqltype (.autoPk kt) = kt.sqltype from rfl, hint] at g2
      cases g2
      exact ⟨d, hd, hdn, g4⟩
    obtain ⟨j, hj, hfj, hput⟩ := put_new hm hD hs ht hp (key_not_column hm ha) hauto hnew
    obtain ⟨hlo, hhi⟩ := hroom kt I hkt hI t j hlk hj
    obtain ⟨w', y, v, n1, n2, n3, n4, n5, -⟩ := new_key hI (c := k.codecs) k.parseUuid hlo hhi
    have hlk' : db1.lookup m.table = some { t with rows := t.rows ++ [new] } := by
      rw [e1, SMap.lookup_insert, if_pos rfl]
    rw [hlk'] at hins
    simp only [Option.bind_some, List.getLast?_append, List.getLast?_singleton, Option.some_or,
      hfj] at hins
    rw [show TModel.keyType pk = kt.sqltype by simp [TModel.keyType, hkt, FieldTy.sqltype], n1] at hins
    simp only [Conv.orErr] at hins
    cases hins
    have hpy : Proper kt y := by cases hI <;> trivial
    have hny : NoNaNField kt y := by cases hI <;> trivial
    obtain ⟨o1, i1, i2, i3, i4, i5, i6, i7⟩ := initKey_new n2 n3 hpy hny (n := pk.name) o (auto_name hm)
      ⟨pk, hm.pk_mem, rfl, hkt⟩ hm.distinct hval ho hn
    rw [i1] at h
    simp only [Conv.orErr] at h
    cases h
    have hprop := proper_of_storable (n := pk.name) o' i3 (auto_name hm) i5 hm.distinct
    have hid : IsKeyVal k pk v (.integer j) := by
      refine ⟨fun ty hty => ?_, n4⟩
      rw [hkt] at hty
      cases hty
      exact n5
    refine ⟨i2, i4, v, .integer j, saved_of_put hm hD hu hlk ht hprop ((i7 _).trans hv) hb hput e1 e2
      i6 hid, ?_⟩
    rintro ⟨t', h1, r, hr, he⟩
    rw [hlk] at h1
    cases h1
    refine hD.newKey _ _ hj ?_
    simp only [keysOf, List.mem_filterMap]
    exact ⟨r, hr, by rw [he]⟩

theorem sameButAuto_refl : ∀ {fs : List TField} (o : ObjVals fs), SameButAuto fs o o
  | [], _ => trivial
  | ⟨_, _, none⟩ :: fs, (_, os) => ⟨rfl, sameButAuto_refl os⟩
  | ⟨_, _, some t⟩ :: fs, (_, os) => by
    have := sameButAuto_refl os
    cases t <;> first | exact ⟨rfl, this⟩ | exact this

theorem nonAuto_nil (ha : pk.isAuto = true) (hm : TModelOk k m pk) (h1 : m.columns.length = 1) :
    m.nonAutoColumns = [] := by
  rw [List.eq_nil_iff_forall_not_mem]
  intro c hc
  obtain ⟨x, hx, rfl⟩ := List.mem_map.1 hc
  obtain ⟨f, hf, hfa, ty, hty, rfl⟩ := tcolumns_mem.1 hx
  obtain ⟨kt, hkt⟩ := auto_type ha
  have m1 : f.name ∈ m.columns :=
    List.mem_map_of_mem (f := (·.1)) (tcolumns_mem.2 ⟨f, hf, rfl, ty, hty, rfl⟩)
  have m2 : pk.name ∈ m.columns :=
    List.mem_map_of_mem (f := (·.1)) (tcolumns_mem.2 ⟨pk, hm.pk_mem, rfl, _, hkt, rfl⟩)
  match hc : m.columns, h1 with
  | [c], _ =>
    rw [hc, List.mem_singleton] at m1 m2
    have := field_eq_of_name hm.distinct hf hm.pk_mem (m1.trans m2.symm)
    subst this
    simp [ha] at hfa

/-- A model with more columns than its key. -/
theorem nonAuto_ne (hm : TModelOk k m pk) (h1 : m.columns.length ≠ 1) : m.nonAutoColumns ≠ [] := by
  intro e
  refine h1 ?_
  have hone : ∀ c ∈ tcolumns (fun _ => true) m.fields, c.1 = pk.name := by
    intro c hc
    obtain ⟨f, hf, -, ty, hfty, rfl⟩ := tcolumns_mem.1 hc
    cases hfa : f.isAuto with
    | true => exact auto_name hm f hf hfa
    | false =>
      have : f.name ∈ m.nonAutoColumns := List.mem_map_of_mem (f := (·.1))
        (tcolumns_mem.2 ⟨f, hf, by simp [hfa], ty, hfty, rfl⟩)
      rw [e] at this
      cases this
  have hnd := tcolumns_nodup (keep := fun _ => true) hm.distinct
  have hne := columns_ne hm
  unfold TModel.columns at *
  match hc : tcolumns (fun _ => true) m.fields with
  | [] => rw [hc] at hne; exact absurd rfl hne
  | [c] => rfl
  | c :: c' :: cs =>
    rw [hc] at hone hnd
    simp only [List.map_cons, List.nodup_cons, List.mem_cons, not_or] at hnd
    exact absurd ((hone c (by simp)).trans (hone c' (by simp)).symm) hnd.1.1

/-- Every successful save: the object has a key, its row holds it, and nothing else changed. -/
theorem save_saved (hm : TModelOk k m pk) (hD : DataLaws k.env k.data) (hs : StrictLaws k.env)
    {u u' : SDb} {t : STable} (hu : SoundDb k.env u) (hlk : u.lookup m.table = some t)
    (ht : TableFits m pk t) {o o' : ObjVals m.fields} (ho : Storable m.fields o)
    (hn : NoNaNs m.fields o) (hroom : KeyRoom k m pk u)
    (hrow : pk.isAuto = true → keyValid pk.name m.fields o = true → ∀ id a,
      keySql pk.name m.fields o = .ok id → toSqlite k.codecs id = .ok a → HasRow u m pk a)
    (h : m.save k u o = .ok (u', o')) :
    SameButAuto m.fields o o' ∧ NoNaNs m.fields o' ∧ ∃ id a, Saved k m pk u u' o' id a ∧
      (keyValid pk.name m.fields o = true → o' = o) ∧
      (keyValid pk.name m.fields o = false → ¬ HasRow u m pk a) := by
  have hp := hu.proper.tables _ _ hlk
  obtain ⟨vals, hv, hmatch⟩ := storable_vals (keep := fun _ => true) o ho
  have hcs : tcolumns (fun f => !f.isAuto && true) m.fields = tcolumns (fun f => !f.isAuto) m.fields :=
    tcolumns_congr fun f _ => by simp
  rw [hcs] at hmatch
  have hlenv : vals.length = m.nonAutoColumns.length := by
    rw [← match_length hmatch, TModel.nonAutoColumns, List.length_map]
  unfold TModel.save at h
  rw [hm.key] at h
  simp only at h
  by_cases ha : pk.isAuto = true
  · -- automatic key
    have hpush1 : m.nonAutoValues pk o true = .ok vals := by
      rw [← hv]; exact pushValues_congr o fun f _ _ => by simp
    have hpush2 : m.nonAutoValues pk o false = .ok vals := by
      rw [← hv]
      refine pushValues_congr o fun f hf hfa => ?_
      simp only [Bool.false_or, bne_iff_ne, ne_eq]
      intro e
      have := field_eq_of_name hm.distinct hf hm.pk_mem e
      subst this
      rw [ha] at hfa
      cases hfa
    by_cases hval : keyValid pk.name m.fields o = true
    · -- the object has a key
      have hprop := proper_of_storable (n := pk.name) o ho (auto_name hm) hval hm.distinct
      obtain ⟨id, ty, hkey, hty, hidt⟩ := key_of_proper hm hprop
      obtain ⟨d, ty', st, hd, hdn, hpk, g1, g2, g3, g4, g5, -⟩ := key_column hm ht
      split at h
      · next h1 =>
        cases h
        have hone : m.columns.length = 1 := by
          simp only [Bool.and_eq_true, beq_iff_eq] at h1
          exact h1.2
        have hnil := nonAuto_nil ha hm hone
        have hvn : vals = [] := List.eq_nil_of_length_eq_zero (by rw [hlenv, hnil]; rfl)
        subst hvn
        have hst : ∃ a, toSqlite k.codecs id = .ok a := by
          cases id <;> first | exact ⟨_, rfl⟩ | skip
          simp only [SqlVal.sqltype, Option.some.injEq] at hidt
          exact absurd hidt.symm (Props.field_not_custom ty _)
        obtain ⟨a, hst⟩ := hst
        have hid : IsKeyVal k pk id a := ⟨fun ty' hty' => by rw [hty] at hty'; cases hty'; exact hidt, hst⟩
        have hna := (key_ne_null hidt hst).2
        obtain ⟨t', h2, r, hr, he⟩ := hrow ha hval id a hkey hst
        rw [hlk] at h2
        cases h2
        refine ⟨sameButAuto_refl _, hn, id, a, saved_of_put hm hD hu hlk ht hprop hv
          (ps := []) rfl (rows := t.rows) ?_ (insert_same hu.proper.sorted hlk).symm (hu.unique _ _ hlk)
          hkey hid, fun _ => rfl, fun h => by rw [hval] at h; cases h⟩
        refine ⟨rfl, ⟨r, ?_, ?_⟩, fun r hr => hp.stored r hr⟩
        · have hone := unique_filter (hu.unique _ _ hlk) hd (v := a) (by simp [hpk]) hna
          rw [hdn] at hone
          have hmem : r ∈ t.rows.filter fun r => decide (field t.cols r pk.name = some a) :=
            List.mem_filter.2 ⟨hr, by simpa using he⟩
          match hl : t.rows.filter (fun r => decide (field t.cols r pk.name = some a)) with
          | [] => rw [hl] at hmem; cases hmem
          | [r'] => rw [hl, List.mem_singleton] at hmem; rw [hmem]
          | _ :: _ :: _ => rw [hl] at hone; simp at hone
        · intro d hd v hv
          rw [hnil] at hv
          cases hv
      · next h1 =>
        rw [hkey, hpush2] at h
        simp only [Conv.orErr] at h
        split at h
        · next db' hexec =>
          cases h
          obtain ⟨qs, hb, hx⟩ := exec_ok hexec
          simp only [Backend.update] at hb
          obtain ⟨ps, a, hps, hst, rfl⟩ := bindAll_append hb
          have hid : IsKeyVal k pk id a :=
            ⟨fun ty' hty' => by rw [hty] at hty'; cases hty'; exact hidt, hst⟩
          have hna := (key_ne_null hidt hst).2
          have hlen : ps.length = m.nonAutoColumns.length := by
            rw [← match_length (bindAll_match hps), hlenv]
          have hcne : m.nonAutoColumns ≠ [] :=
            nonAuto_ne hm fun e => h1 (by simp [ha, e])
          unfold execDataText at hx
          rw [lex_update hm.covers (cols := m.nonAutoColumns) hm.table (hm.names pk hm.pk_mem) (columns_names hm) hcne] at hx
          simp only at hx
          rw [data_update hD hlk (cols := m.nonAutoColumns) (columns_in_table ht) hlen (keyClass hm hD ht hp hid)] at hx
          cases hrows : allSome (fun r => if field t.cols r pk.name = some a then
              setRow k.env t.cols (m.nonAutoColumns.zip ps) r else some r) t.rows with
          | none => rw [hrows] at hx; cases hx
          | some rows =>
            rw [hrows] at hx
            simp only [Option.bind_some] at hx
            obtain ⟨e1, e2⟩ := replaceRows_eq hx
            obtain ⟨t', h2, r, hr, he⟩ := hrow ha hval id a hkey hst
            rw [hlk] at h2
            cases h2
            have hput := put_change hs hp (hu.unique _ _ hlk) (given := m.nonAutoColumns.zip ps)
              (sets := m.nonAutoColumns.zip ps) hd (by simp [hpk]) hna
              (by
                intro v hvv
                rw [hdn, zip_lookup_none (key_not_column hm ha)] at hvv
                cases hvv)
              (fun e he v hvv st' _ => ⟨v, hvv, rfl⟩)
              (by rw [hdn]; exact hrows) ⟨r, hr, by rw [hdn]; exact he⟩
            rw [hdn] at hput
            exact ⟨sameButAuto_refl _, hn, id, a, saved_of_put hm hD hu hlk ht hprop hv hps hput e1 e2
              hkey hid, fun _ => rfl, fun h => by rw [hval] at h; cases h⟩
        · cases h
    · -- a new object
      have hval' : keyValid pk.name m.fields o = false := by simpa using hval
      split at h
      · next h1 =>
        have hone : m.columns.length = 1 := by
          simp only [Bool.and_eq_true, beq_iff_eq] at h1
          exact h1.2
        have hnil := nonAuto_nil ha hm hone
        have hvn : vals = [] := List.eq_nil_of_length_eq_zero (by rw [hlenv, hnil]; rfl)
        subst hvn
        rw [show ([] : List String) = m.nonAutoColumns from hnil.symm] at h
        obtain ⟨i1, i2, id, a, i3, i4⟩ := insertNew_saved hm hD hs hu hlk ht ho hn hroom ha hval' hv h
        exact ⟨i1, i2, id, a, i3, fun h => absurd h hval, fun _ => i4⟩
      · rw [hpush1] at h
        simp only [Conv.orErr] at h
        obtain ⟨i1, i2, id, a, i3, i4⟩ := insertNew_saved hm hD hs hu hlk ht ho hn hroom ha hval' hv h
        exact ⟨i1, i2, id, a, i3, fun h => absurd h hval, fun _ => i4⟩
  · -- another key
    have ha' : pk.isAuto = false := by simpa using ha
    have hna := no_auto hm ha'
    have hpush1 : m.nonAutoValues pk o true = .ok vals := by
      rw [← hv]; exact pushValues_congr o fun f _ _ => by simp
    have hval := keyValid_of_not_auto (n := pk.name) o hna ⟨pk, hm.pk_mem, rfl⟩
    have hprop := proper_of_storable (n := pk.name) o ho (auto_name hm) hval hm.distinct
    rw [if_neg (by simp [ha']), if_neg ha, hpush1] at h
    simp only [Conv.orErr] at h
    split at h
    · next db' hexec =>
      cases h
      obtain ⟨ps, hb, hx⟩ := exec_ok hexec
      simp only [Backend.upsert] at hb
      have hcols : m.columns = m.nonAutoColumns := by
        unfold TModel.columns TModel.nonAutoColumns
        rw [tcolumns_congr (k1 := fun _ => true) (k2 := fun f => !f.isAuto) fun f hf => by
          simp [hna f hf]]
      have hlen : ps.length = m.nonAutoColumns.length := by
        rw [← match_length (bindAll_match hb), hlenv]
      obtain ⟨id, ty, hkey, hty, hidt⟩ := key_of_proper hm hprop
      obtain ⟨a, hst, hla⟩ := keySql_lookup o vals ps hv hb hkey hna
      have hid : IsKeyVal k pk id a :=
        ⟨fun ty' hty' => by rw [hty] at hty'; cases hty'; exact hidt, hst⟩
      unfold execDataText at hx
      rw [lex_upsert hm.covers hm.excluded (cols := m.columns) hm.table (hm.names pk hm.pk_mem) (columns_names hm)
        (columns_ne hm)] at hx
      simp only at hx
      rw [hcols] at hx
      obtain ⟨rows, hput, hq, he⟩ := put_upsert hm hD hs ht hp (hu.unique _ _ hlk) hid
        hlen (columns_in_table ht) hla hlk hm.table_ne hx
      have hins : u' = u.insert m.table { t with rows := rows } := by
        rcases he with he | ⟨rfl, rfl⟩
        · exact he
        · exact (insert_same hu.proper.sorted hlk).symm
      exact ⟨sameButAuto_refl _, hn, id, a, saved_of_put hm hD hu hlk ht hprop hv hb hput hins hq
        hkey hid, fun _ => rfl, fun h => by rw [hval] at h; cases h⟩
    · cases h

end Butane
