/-
What a statement leaves as it is.
-/
import Verif.Proofs.SqliteSaveAll

namespace Butane
open Butane.Ddl Butane.DdlP Spec
open Butane.Sql (Operand Cond SStmt)

variable {env : SqliteEnv} {D : SqliteData}

/-- The table a statement changes. -/
def stmtTable : SStmt → Option String
  | .select _ => none
  | .delete n _ => some n
  | .update n _ _ => some n
  | .insert n _ _ _ _ => some n

/-- The rows of one table become others that SQLite can store. -/
def Rewrites (env : SqliteEnv) (u u' : SDb) (n : String) : Prop :=
  u' = u ∨ ∃ t rows, u.lookup n = some t ∧ u' = u.insert n { t with rows := rows } ∧
    uniqueOk t.cols rows = true ∧
    ∀ r ∈ rows, AllMatch (fun (d : ColDef) v => ∃ st, strictType d.type = some st ∧
      env.coerce st v = some v) t.cols r

theorem allSome_mem {α β : Type} {f : α → Option β} {l : List α} {bs : List β} (h : allSome f l = some bs) :
    ∀ b ∈ bs, ∃ a ∈ l, f a = some b := by
  induction l generalizing bs with
  | nil => cases h; intro b hb; cases hb
  | cons a l ih =>
    simp only [allSome] at h
    split at h
    · next b bs' h1 h2 =>
      cases h
      intro c hc
      rcases List.mem_cons.1 hc with rfl | hc
      · exact ⟨a, List.mem_cons_self .., h1⟩
      · obtain ⟨a', ha', e⟩ := ih h2 c hc
        exact ⟨a', List.mem_cons_of_mem _ ha', e⟩
    · cases h

theorem exec_rewrites (hs : StrictLaws env) {u u' : SDb} (hu : SoundDb env u) {ps : List SqliteVal}
    {s : SStmt} {n : String} (hn : stmtTable s = some n) (h : execData env D u ps s = some u') :
    Rewrites env u u' n := by
  have hset : ∀ {cols : List ColDef} {sets : List (String × SqliteVal)} {r r' : List SqliteVal},
      setRow env cols sets r = some r' → AllMatch (fun (d : ColDef) v => ∃ st,
        strictType d.type = some st ∧ env.coerce st v = some v) cols r' := by
    intro cols sets r r' h
    unfold setRow at h
    exact stored_proper hs h
  cases s with
  | select _ => cases hn
  | delete n' c =>
    cases hn
    simp only [execData] at h
    split at h
    · cases h
    next t hlk =>
    split at h
    · next rows hr =>
      obtain ⟨e1, e2⟩ := replaceRows_eq h
      refine .inr ⟨t, _, hlk, e1, e2, fun r hr' => ?_⟩
      obtain ⟨x, hx, e⟩ := List.mem_filterMap.1 hr'
      obtain ⟨r0, h0, e0⟩ := allSome_mem hr x hx
      cases hh : holdsFor D u ps n t.cols c r0 with
      | none => rw [hh] at e0; cases e0
      | some b =>
        rw [hh] at e0
        cases b <;> cases e0 <;> cases e
        exact (hu.proper.tables _ _ hlk).stored _ h0
    · cases h
  | update n' sets c =>
    cases hn
    simp only [execData] at h
    split at h
    · cases h
    next t hlk =>
    split at h
    · split at h
      · next rows hr =>
        obtain ⟨e1, e2⟩ := replaceRows_eq h
        refine .inr ⟨t, _, hlk, e1, e2, fun r hr' => ?_⟩
        obtain ⟨r0, h0, e0⟩ := allSome_mem hr r hr'
        split at e0
        · exact hset e0
        · cases e0
          exact (hu.proper.tables _ _ hlk).stored _ h0
        · cases e0
      · cases h
    · cases h
  | insert n' cols vals conflict ret =>
    cases hn
    simp only [execData] at h
    split at h
    · cases h
    next t hlk =>
    have hold := (hu.proper.tables _ _ hlk).stored
    split at h
    · split at h
      · cases h
      next vs _ =>
      split at h
      · cases h
      next new hnew =>
      have happ : ∀ r ∈ t.rows ++ [new], AllMatch (fun (d : ColDef) v => ∃ st,
          strictType d.type = some st ∧ env.coerce st v = some v) t.cols r := by
        intro r hr
        rcases List.mem_append.1 hr with hr | hr
        · exact hold r hr
        · rw [List.mem_singleton] at hr
          subst hr
          exact newRow_proper hs hnew
      split at h
      · obtain ⟨e1, e2⟩ := replaceRows_eq h
        exact .inr ⟨t, _, hlk, e1, e2, happ⟩
      · split at h
        · split at h
          · split at h
            · cases h; exact .inl rfl
            · split at h
              · split at h
                · next rows hr =>
                  obtain ⟨e1, e2⟩ := replaceRows_eq h
                  refine .inr ⟨t, _, hlk, e1, e2, fun r hr' => ?_⟩
                  obtain ⟨r0, h0, e0⟩ := allSome_mem hr r hr'
                  split at e0
                  · split at e0
                    · exact hset e0
                    · cases e0
                  · cases e0
                    exact hold _ h0
                · cases h
              · cases h
          · obtain ⟨e1, e2⟩ := replaceRows_eq h
            exact .inr ⟨t, _, hlk, e1, e2, happ⟩
        · cases h
    · cases h

theorem Rewrites.sound {u u' : SDb} {n : String} (hu : SoundDb env u) (h : Rewrites env u u' n) :
    SoundDb env u' := by
  rcases h with rfl | ⟨t, rows, hlk, rfl, hq, hp⟩
  · exact hu
  · exact sound_insert hu hlk hq hp

theorem Rewrites.others {u u' : SDb} {n : String} (h : Rewrites env u u' n) :
    ∀ n', n' ≠ n → u'.lookup n' = u.lookup n' := by
  rcases h with rfl | ⟨t, rows, hlk, rfl, hq, hp⟩
  · intros; rfl
  · intro n' hn
    rw [SMap.lookup_insert, if_neg hn]

theorem Rewrites.shape {u u' : SDb} {n : String} (h : Rewrites env u u' n) :
    ∀ n', match u.lookup n' with
      | none => u'.lookup n' = none
      | some t => ∃ rows, u'.lookup n' = some { t with rows := rows } := by
  intro n'
  rcases h with rfl | ⟨t, rows, hlk, rfl, hq, hp⟩
  · cases h : u'.lookup n' with
    | none => rfl
    | some t => exact ⟨t.rows, rfl⟩
  · rw [SMap.lookup_insert]
    by_cases e : n' = n
    · subst e
      rw [hlk, if_pos rfl]
      exact ⟨rows, rfl⟩
    · rw [if_neg e]
      cases h : u.lookup n' with
      | none => rfl
      | some t => exact ⟨t.rows, rfl⟩

theorem whole_of_sound {u : SDb} (h : SoundDb env u) : WholeRows u := by
  intro e he
  have hl := SMap.lookup_of_mem h.proper.sorted he
  have hp := h.proper.tables _ _ hl
  exact ⟨hp.distinct, fun r hr => DdlP.allMatch_length (hp.stored r hr), h.unique _ _ hl⟩

theorem sound_of_schema {u : SDb} {adb : ADB} (h : HasSchema env adb u) : SoundDb env u :=
  ⟨h.proper, fun _ _ hl => (h.whole _ (SMap.mem_of_lookup hl)).unique⟩

theorem Rewrites.schema {u u' : SDb} {n : String} {adb : ADB} (hu : SoundDb env u)
    (h : Rewrites env u u' n) (hs : HasSchema env adb u) : HasSchema env adb u' := by
  refine ⟨fun n' => ?_, (h.sound hu).proper, whole_of_sound (h.sound hu)⟩
  have h1 := hs.tables n'
  have h2 := h.shape n'
  cases hu' : u.lookup n' with
  | none =>
    rw [hu'] at h1 h2
    rw [h2]
    exact h1
  | some t =>
    rw [hu'] at h1 h2
    obtain ⟨rows, h2⟩ := h2
    rw [h2]
    cases ha : adb.getTable n' with
    | none => rw [ha] at h1; exact h1
    | some at_ => rw [ha] at h1; exact ⟨h1.1, h1.2⟩

variable {k : SqliteConn} {m : TModel} {pk : TField}

theorem execText_rewrites (hs : StrictLaws k.env) {u u' : SDb} (hu : SoundDb k.env u) {st : Stmt}
    {s : SStmt} (hp : Sql.parseStmt true (Sql.lex k.reserved st.text) = some s) {n : String}
    (hn : stmtTable s = some n) (h : k.exec u st = .ok u') : Rewrites k.env u u' n := by
  obtain ⟨ps, -, hx⟩ := exec_ok h
  unfold execDataText at hx
  rw [hp] at hx
  exact exec_rewrites hs hu hn hx

theorem insertNew_rewrites (hm : TModelOk k m pk) (hs : StrictLaws k.env) {u u' : SDb}
    (hu : SoundDb k.env u) {o o' : ObjVals m.fields} {cols : List String} (hc : ∀ c ∈ cols, IsName c)
    {vals : List SqlVal} (h : m.insertNew k u pk o cols vals = .ok (u', o')) :
    Rewrites k.env u u' m.table := by
  unfold TModel.insertNew at h
  split at h
  · cases h
  next db' w hins =>
  split at h
  · cases h
  cases h
  unfold SqliteConn.insertReturningPk at hins
  split at hins
  · cases hins
  next db1 hexec =>
  split at hins
  · cases hins
  split at hins
  · cases hins
  cases hins
  exact execText_rewrites hs hu (lex_insert hm.covers hm.table hc) rfl hexec

/-- `save` changes only the rows of the model's table. -/
theorem save_rewrites (hm : TModelOk k m pk) (hs : StrictLaws k.env) {u u' : SDb}
    (hu : SoundDb k.env u) {o o' : ObjVals m.fields} (h : m.save k u o = .ok (u', o')) :
    Rewrites k.env u u' m.table := by
  unfold TModel.save at h
  rw [hm.key] at h
  simp only at h
  by_cases h1 : (pk.isAuto && m.columns.length == 1) = true
  · rw [if_pos h1] at h
    split at h
    · cases h; exact .inl rfl
    · exact insertNew_rewrites hm hs hu (fun c hc => by cases hc) h
  · rw [if_neg h1] at h
    by_cases ha : pk.isAuto = true
    · rw [if_pos ha] at h
      split at h
      · split at h
        · split at h
          · next hexec =>
            cases h
            exact execText_rewrites hs hu (lex_update hm.covers (cols := m.nonAutoColumns) hm.table
              (hm.names pk hm.pk_mem) (columns_names hm)
              (nonAuto_ne hm fun e => h1 (by simp [ha, e]))) rfl hexec
          · cases h
        · cases h
        · cases h
      · split at h
        · exact insertNew_rewrites hm hs hu (columns_names hm) h
        · cases h
    · rw [if_neg ha] at h
      split at h
      · split at h
        · next hexec =>
          cases h
          exact execText_rewrites hs hu (lex_upsert hm.covers hm.excluded (cols := m.columns) hm.table
            (hm.names pk hm.pk_mem) (columns_names hm) (columns_ne hm)) rfl hexec
        · cases h
      · cases h

/-- The key of an object, if it has one. -/
theorem keySql_storable {n : String} {id : SqlVal} : ∀ {fs : List TField} (o : ObjVals fs),
    Storable fs o → keySql n fs o = .ok id →
    ∀ f ∈ fs, f.name = n → ∀ ty, f.ty = some ty → ¬ MayBeAbsent ty → (fs.map (·.name)).Nodup →
    id.sqltype = some ty.sqltype
  | [], _, _, _, f, hf, _, _, _, _, _ => by cases hf
  | ⟨n', p, none⟩ :: fs, (x, os), hp, hk, f, hf, e, ty, hty, ha, hn => by
    simp only [List.map_cons, List.nodup_cons] at hn
    simp only [keySql] at hk
    rcases List.mem_cons.1 hf with rfl | hf
    · cases hty
    · exact keySql_storable os hp hk f hf e ty hty ha hn.2
  | ⟨n', p, some t⟩ :: fs, (x, os), hp, hk, f, hf, e, ty, hty, ha, hn => by
    simp only [List.map_cons, List.nodup_cons] at hn
    simp only [keySql] at hk
    have hst : Storable fs os := by cases t <;> exact hp.2
    rcases List.mem_cons.1 hf with rfl | hf
    · simp only at e
      cases hty
      rw [if_pos e] at hk
      have hpx : Proper t x := by
        by_cases hauto : (TField.mk n' p (some t)).isAuto = true
        · cases t <;> simp only [TField.isAuto, Bool.false_eq_true] at hauto
          cases x with
          | none => simp [FieldTy.toSql] at hk
          | some y => exact hp.1 y rfl
        · cases t <;> first | exact hp.1 | exact absurd rfl hauto
      obtain ⟨v, h3, -, h4, -⟩ := Props.field_round_trip_partial (fun _ => none) t x hpx
      rw [hk] at h3
      cases h3
      exact h4 (present_of_proper t x hpx ha)
    · rw [if_neg (fun h => hn.1 (List.mem_map.2 ⟨f, hf, e.trans h.symm⟩))] at hk
      exact keySql_storable os hst hk f hf e ty hty ha hn.2

theorem keyLike_stored (hm : TModelOk k m pk) {id : SqlVal} (hid : KeyLike pk id) :
    ∃ a, IsKeyVal k pk id a := by
  obtain ⟨ty, st, h1, -⟩ := hm.keyType
  have h2 := hid ty h1
  cases id <;> first | exact ⟨_, hid, rfl⟩ | skip
  simp only [SqlVal.sqltype, Option.some.injEq] at h2
  exact absurd h2.symm (Props.field_not_custom ty _)

theorem keyLike_of_storable (hm : TModelOk k m pk) {o : ObjVals m.fields} (ho : Storable m.fields o)
    {id : SqlVal} (h : keySql pk.name m.fields o = .ok id) : KeyLike pk id := by
  intro ty hty
  obtain ⟨ty', st, h1, -, -, h4⟩ := hm.keyType
  rw [hty] at h1
  cases h1
  exact keySql_storable o ho h pk hm.pk_mem rfl ty hty h4 hm.distinct

/-- Deleting. -/
theorem delete_deleted (hm : TModelOk k m pk) (hD : DataLaws k.env k.data)
    {u u' : SDb} {t : STable} (hu : SoundDb k.env u) (hlk : u.lookup m.table = some t)
    (ht : TableFits m pk t) {o : ObjVals m.fields} {id : SqlVal} {a : SqliteVal}
    (hkey : keySql pk.name m.fields o = .ok id) (hid : IsKeyVal k pk id a)
    (h : m.delete k u o = .ok u') :
    u' = u.insert m.table { t with rows := t.rows.filter fun r => !decide (field t.cols r pk.name = some a) } := by
  have hp := hu.proper.tables _ _ hlk
  unfold TModel.delete at h
  rw [hm.key] at h
  simp only at h
  rw [hkey] at h
  simp only [Conv.orErr] at h
  obtain ⟨ty, st, h1, -⟩ := hm.keyType
  have hne := (key_ne_null (hid.type ty h1) hid.stored).1
  obtain ⟨ps, hb, hx⟩ := exec_ok h
  rw [delete_params hne] at hb
  unfold execDataText at hx
  rw [lex_delete hm.covers hm.table hm.plain hne] at hx
  simp only at hx
  rw [data_delete hD hlk (key_operand hid.stored hb) (keyClass hm hD ht hp hid)] at hx
  exact (replaceRows_eq hx).1

theorem delete_rewrites (hm : TModelOk k m pk) (hs : StrictLaws k.env) {u u' : SDb}
    (hu : SoundDb k.env u) {o : ObjVals m.fields} (ho : Storable m.fields o)
    (h : m.delete k u o = .ok u') : Rewrites k.env u u' m.table := by
  unfold TModel.delete at h
  rw [hm.key] at h
  simp only at h
  split at h
  · next id hkey =>
    obtain ⟨ty, st, h1, -⟩ := hm.keyType
    have hid := keyLike_of_storable hm ho (orErr_ok hkey)
    have hne : id ≠ .null := by
      rintro rfl
      cases hid ty h1
    exact execText_rewrites hs hu (lex_delete hm.covers hm.table hm.plain hne) rfl h
  · cases h

theorem toSqlite_inj {c : TextCodecs} (hc : Faithful c) {ty : SqlType} {v w : SqlVal} {a : SqliteVal}
    (hv : v.sqltype = some ty) (hw : w.sqltype = some ty) (h1 : toSqlite c v = .ok a)
    (h2 : toSqlite c w = .ok a) : v = w := by
  have h3 := h1.trans h2.symm
  cases v <;> simp only [SqlVal.sqltype, Option.some.injEq, reduceCtorEq] at hv <;> subst hv <;>
    cases w <;> simp only [SqlVal.sqltype, Option.some.injEq, reduceCtorEq] at hw <;>
    simp only [toSqlite, Conv.ok.injEq, SqliteVal.integer.injEq, SqliteVal.real.injEq,
      SqliteVal.text.injEq, SqliteVal.blob.injEq, reduceCtorEq] at h3
  case bool.bool b b' => cases b <;> cases b' <;> first | rfl | (exact absurd h3 (by decide))
  case int.int i i' =>
    congr 1
    have := congrArg Int64.toInt h3
    rw [Int32.toInt_toInt64, Int32.toInt_toInt64] at this
    exact Int32.toInt_inj.1 this
  case json.json j j' =>
    have := hc.json j
    rw [h3, hc.json] at this
    cases this; rfl
  case date.date j j' =>
    have := hc.date j
    rw [h3, hc.date] at this
    cases this; rfl
  case timestamp.timestamp j j' =>
    have := hc.timestamp j
    rw [h3, hc.timestamp] at this
    cases this; rfl
  case custom.custom => cases h1
  all_goals rw [h3]

end Butane
