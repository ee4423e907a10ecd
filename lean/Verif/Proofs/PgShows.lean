/-
A table of a PostgreSQL database shows a map from keys to objects.
-/
import Verif.Proofs.PgSaved

namespace Butane.PgP
open Butane Butane.PgData Spec
open Butane.Sql (Operand Cond SStmt)

variable {S : Server} {k : PgConn} {m : TModel} {pk : TField} {u : PDb}

theorem selectTrue_is (db : Sql.Db) {ps : List PgVal} (n : String) {t : Table} {ty : PgType}
    (hk : Keys S t pk ty) {a : PgVal} {o : Operand} (hty : ofType ty a = true) (hn : a ≠ .null)
    (ho : ∀ e, Sql.evalOperand (ps.map seen) e o = some (seen a)) :
    Sql.selectTrue (fun r => Sql.whereTrue S.rel db (ps.map seen) n (some (keyCond pk.name o)) (seenRow t r))
      t.rows = some (t.rows.filter fun r => decide (r pk.name = a)) := by
  have : ∀ l : List PRow, (∀ r ∈ l, r ∈ t.rows) →
      Sql.selectTrue (fun r => Sql.whereTrue S.rel db (ps.map seen) n (some (keyCond pk.name o)) (seenRow t r))
        l = some (l.filter fun r => decide (r pk.name = a)) := by
    intro l hin
    induction l with
    | nil => rfl
    | cons r l ih =>
      obtain ⟨b, h1, h2⟩ := evalCond_is S db n hk hty hn ho (hin r (List.mem_cons_self ..))
      simp only [Sql.whereTrue] at ih ⊢
      rw [Sql.selectTrue, ih fun x hx => hin x (List.mem_cons_of_mem _ hx), h1]
      simp only [List.filter_cons, decide_eq_true_eq, h2]
  exact this t.rows fun _ h => h

/-- What is sent for a key. -/
theorem key_send (hm : PgModelOk k m pk) {t : Table} (ht : PgTableFits m pk t) {id : SqlVal} {a : PgVal}
    (hid : IsKey pk id a) :
    ∃ ps, pgSendAll (valsVal id) = .ok ps ∧
      (∀ e, Sql.evalOperand (ps.map seen) e (astVal id 0) = some (seen a)) ∧
      ∀ p ∈ condUses (keyCond pk.name (astVal id 0)), ∃ a b, colType t p.2 = some a ∧
        ((valsVal id).map pgTypeForVal)[p.1]? = some b ∧ comparable a b = true := by
  obtain ⟨d, ty, h1, h2, h3, h4, h5, h6, h7, h8, -⟩ := pg_key_column hm ht
  obtain ⟨ty', hty', -, hj, -⟩ := hm.keyType
  rw [h5] at hty'
  cases hty'
  have hst := hid.stored ty h5
  have hb := hid.back
  have hty := hid.type ty h5
  have hcomp : ∀ a : PgType, comparable a a = true := by
    intro a
    unfold comparable
    split <;> simp_all
  have hone : ∀ v, id = v → valsVal v = [v] → astVal v 0 = .param 0 → ∃ ps, pgSendAll (valsVal id) = .ok ps ∧
      (∀ e, Sql.evalOperand (ps.map seen) e (astVal id 0) = some (seen a)) ∧
      ∀ p ∈ condUses (keyCond pk.name (astVal id 0)), ∃ a b, colType t p.2 = some a ∧
        ((valsVal id).map pgTypeForVal)[p.1]? = some b ∧ comparable a b = true := by
    rintro v rfl e1 e2
    rw [e1, e2]
    refine ⟨[a], ?_, fun e => rfl, ?_⟩
    · simp only [pgSendAll, pgSend, hty, hst, Conv.bind]
    · have ht : pgTypeForVal id = d.type := by
        simp only [pgTypeForVal, hty, h6]
      intro p hp
      simp only [keyCond, condUses, condsUses, beside, List.append_nil, List.mem_singleton] at hp
      subst hp
      exact ⟨d.type, _, h8, rfl, by rw [ht]; exact hcomp _⟩
  cases id with
  | int i => exact ⟨[], rfl, fun e => by simp [astVal, Sql.evalOperand, seen, hb, Sql.toDb], fun p hp => by
      simp [keyCond, condUses, condsUses, beside, astVal] at hp⟩
  | bigInt i => exact ⟨[], rfl, fun e => by simp [astVal, Sql.evalOperand, seen, hb, Sql.toDb], fun p hp => by
      simp [keyCond, condUses, condsUses, beside, astVal] at hp⟩
  | _ => exact hone _ rfl rfl rfl

/-- The possible results of reading an object. -/
theorem tryGet_iff (h : PgReady k m pk u) {t : Table} (hlk : u.lookup m.table = some t)
    (ht : PgTableFits m pk t) {id : SqlVal} {a : PgVal} (hid : IsKey pk id a)
    (res : Except OpErr (Option (ObjVals m.fields))) :
    m.PgTryGetOut k u id res ↔
      ∃ l : List PRow, l.Perm (t.rows.filter fun r => decide (r pk.name = a)) ∧
        res = match m.pgFromRows k ((l.take 1).map fun r => m.columns.map r) with
          | .ok os => .ok os.head?
          | .error e => .error e := by
  have hm := h.model
  obtain ⟨ty, hty, -⟩ := hm.keyType
  obtain ⟨hne, hna⟩ := hid.ne_null hm
  obtain ⟨ps, hps, ho, huses⟩ := key_send hm ht hid
  obtain ⟨h1, h2⟩ := valid_table h.valid hlk
  have hkeys := keys_of hm h.laws ht h1 h2 hty
  have hsel := selectTrue_is (seenDb u) m.table hkeys (ofType_of_toPg (hid.stored ty hty)) hna ho
  have hcols : (m.columns.all (names t).contains) = true := by
    rw [List.all_eq_true]
    intro c hc
    obtain ⟨x, hx, rfl⟩ := List.mem_map.1 hc
    rw [List.contains_iff_mem]
    exact (pg_columns_in ht x hx).1
  have hq : ∀ out, QueryRows k.server k.reserved u ((m.getQuery pk.name id).load .pg k.kw m.columns).text
      ((valsVal id).map pgTypeForVal) ps out ↔
      ∃ l : List PRow, l.Perm (t.rows.filter fun r => decide (r pk.name = a)) ∧
        out = some ((l.take 1).map fun r => m.columns.map r) := by
    intro out
    simp only [QueryRows]
    rw [pg_lex_get hm.covers m hm.table hm.plain (pg_columns_names hm) (pg_columns_ne hm) hne]
    simp only [hlk, uses]
    rw [if_pos (by
      rw [List.all_eq_true]
      intro p hp
      obtain ⟨a, b, e1, e2, e3⟩ := huses p hp
      simp only [e1, e2, e3])]
    simp only [hsel, Sql.readCount, hcols, List.all_nil, Bool.and_self, if_true]
    constructor
    · rintro ⟨l, h1, -, rfl⟩
      exact ⟨l, h1, rfl⟩
    · rintro ⟨l, h1, rfl⟩
      exact ⟨l, h1, List.pairwise_iff_getElem.2 fun _ _ _ _ _ => trivial, rfl⟩
  have hlen : ∀ l : List PRow, ((l.map fun r => m.columns.map r).all fun r => r.length == m.columns.length) = true := by
    intro l
    simp [List.all_eq_true]
  simp only [TModel.PgTryGetOut, hm.key, TModel.PgLoadOut]
  rw [pg_get_params m hne, hps]
  simp only [Conv.orErr, hq]
  constructor
  · rintro ⟨os, ⟨out, ⟨l, h1, rfl⟩, rfl⟩, rfl⟩
    refine ⟨l, h1, ?_⟩
    simp only [hlen, if_true]
    rfl
  · rintro ⟨l, h1, rfl⟩
    refine ⟨_, ⟨_, ⟨l, h1, rfl⟩, rfl⟩, ?_⟩
    simp only [hlen, if_true]
    rfl

/-- Reading the row of an object. -/
theorem fromRows_one {r : PRow} {o : ObjVals m.fields} (hp : AllProper m.fields o)
    (hn : AllWholeMicros m.fields o) (hr : RowOf m r o) :
    ∃ o', m.pgFromRows k [m.columns.map r] = .ok [o'] ∧ EqualFields m.fields o o' := by
  obtain ⟨⟨vals, h1, h2⟩, h3⟩ := hr
  obtain ⟨o', h4, h5⟩ := Props.object_row_pg_partial k.parseUuid m.fields o hp hn vals h1 r h2 h3
  have e : m.columns.map r = (tcolumns (fun _ => true) m.fields).map fun col => r col.1 := by
    simp [TModel.columns, List.map_map, Function.comp_def]
  have hlen : (m.columns.map r).length = (tcolumns (fun _ => true) m.fields).length := by
    simp [TModel.columns]
  refine ⟨o', ?_, h5⟩
  simp only [TModel.pgFromRows, hlen]
  rw [e, h4]
  rfl

theorem ready_of_changed {n : String} {u' : PDb} (h : PgReady k m pk u) {t : Table} {rows : List PRow}
    (hlk : u.lookup n = some t) (hc : Changed k.server u u' n t rows) : PgReady k m pk u' := by
  obtain ⟨t1, h1, h2⟩ := h.table
  refine ⟨h.model, h.laws, hc.sorted, hc.valid, ?_⟩
  by_cases e : m.table = n
  · subst e
    rw [hlk] at h1
    cases h1
    exact ⟨_, hc.table, h2.distinct, h2.fields⟩
  · exact ⟨t1, by rw [hc.others _ e, h1], h2⟩

/-- Whether there is an object with a key is whether there is a row. -/
theorem shows_hasRow (h : PgReady k m pk u) {st : Objects m} (hs : PgShows k m pk u st) {t : Table}
    (hlk : u.lookup m.table = some t) (ht : PgTableFits m pk t) {id : SqlVal} {a : PgVal}
    (hl : PgKeyLike pk id) (hid : IsKey pk id a) : (st id).isSome = true ↔ ∃ r ∈ t.rows, r pk.name = a := by
  have hiff := tryGet_iff h hlk ht hid
  obtain ⟨⟨res, hres⟩, hall⟩ := hs id hl
  obtain ⟨x, hx1, hx2⟩ := hall res hres
  obtain ⟨l, hl1, hl2⟩ := (hiff res).1 hres
  constructor
  · intro hsome
    cases hst : st id with
    | none => rw [hst] at hsome; cases hsome
    | some o =>
      rw [hst] at hx2
      cases x with
      | none => exact hx2.elim
      | some y =>
        cases l with
        | nil => rw [hl2] at hx1; simp [TModel.pgFromRows] at hx1
        | cons r l =>
          have : r ∈ t.rows.filter fun r => decide (r pk.name = a) := hl1.mem_iff.1 (List.mem_cons_self ..)
          obtain ⟨g1, g2⟩ := List.mem_filter.1 this
          exact ⟨r, g1, by simpa using g2⟩
  · rintro ⟨r, hr, he⟩
    cases l with
    | nil =>
      have : r ∈ t.rows.filter fun r => decide (r pk.name = a) := List.mem_filter.2 ⟨hr, by simpa using he⟩
      rw [← hl1.mem_iff] at this
      cases this
    | cons r0 l =>
      cases hst : st id with
      | some o => rfl
      | none =>
        rw [hst] at hx2
        cases x with
        | some y => exact hx2.elim
        | none =>
          rw [hl2] at hx1
          simp only [List.take_succ_cons, List.take_zero, List.map_cons, List.map_nil] at hx1
          unfold TModel.pgFromRows at hx1
          split at hx1
          · next e =>
            split at e
            · cases e
            · split at e
              · cases e
              · simp only [TModel.pgFromRows] at e
                cases e
                cases hx1
          · cases hx1

/-- The possible results of looking for an object depend on the rows with its key. -/
theorem tryGet_congr {u' : PDb} (h : PgReady k m pk u) (h' : PgReady k m pk u') {t t' : Table}
    (hlk : u.lookup m.table = some t) (hlk' : u'.lookup m.table = some t')
    (ht : PgTableFits m pk t) (ht' : PgTableFits m pk t') {id : SqlVal} {a : PgVal} (hid : IsKey pk id a)
    (hr : t'.rows.filter (fun r => decide (r pk.name = a)) = t.rows.filter fun r => decide (r pk.name = a))
    (res : Except OpErr (Option (ObjVals m.fields))) :
    m.PgTryGetOut k u' id res ↔ m.PgTryGetOut k u id res := by
  rw [tryGet_iff h hlk ht hid, tryGet_iff h' hlk' ht' hid, hr]

/-- After a save. -/
theorem shows_saved (h : PgReady k m pk u) {st : Objects m} (hs : PgShows k m pk u st) {u' : PDb} {t : Table}
    (hlk : u.lookup m.table = some t) (ht : PgTableFits m pk t)
    {o : ObjVals m.fields} {id : SqlVal} {a : PgVal} (hsv : Saved k m pk u u' t o id a) :
    PgReady k m pk u' ∧ PgShows k m pk u' (st.put id o) := by
  obtain ⟨rows, hc, hrest, r, hrow, hof⟩ := hsv.rows
  have h' := ready_of_changed h hlk hc
  have ht' : PgTableFits m pk { t with rows := rows } := ⟨ht.distinct, ht.fields⟩
  refine ⟨h', fun id2 hid2 => ?_⟩
  obtain ⟨a2, hkv⟩ := isKey_of_like h.model hid2
  by_cases e : id2 = id
  · subst e
    have hst : (st.put id2 o) id2 = some o := by simp [Objects.put]
    rw [hst]
    have ha : a2 = a := hkv.det h.model hsv.isKey
    subst ha
    have hiff := tryGet_iff h' hc.table ht' hkv
    obtain ⟨o', f1, f2⟩ := fromRows_one (k := k) hsv.proper hsv.whole hof
    have hval : ∀ res, m.PgTryGetOut k u' id2 res ↔ res = .ok (some o') := by
      intro res
      rw [hiff]
      constructor
      · rintro ⟨l, hl, rfl⟩
        rw [perm_one hl hrow]
        simp only [List.take_succ_cons, List.take_zero, List.map_cons, List.map_nil, f1, List.head?]
      · rintro rfl
        refine ⟨_, List.Perm.refl _, ?_⟩
        simp only [hrow, List.take_succ_cons, List.take_zero, List.map_cons, List.map_nil, f1, List.head?]
    exact ⟨⟨_, (hval _).2 rfl⟩, fun res hres => ⟨some o', (hval res).1 hres, f2⟩⟩
  · have hst : (st.put id o) id2 = st id2 := by simp [Objects.put, e]
    rw [hst]
    have hne : a2 ≠ a := by
      rintro rfl
      exact e (hkv.inj hsv.isKey)
    have hcon := tryGet_congr h h' hlk hc.table ht ht' hkv (filter_other (fun r hr => by
      simp only [decide_eq_true_eq] at hr
      simp only [hr, decide_eq_false_iff_not]
      exact hne) hrest)
    obtain ⟨⟨res, hres⟩, hall⟩ := hs id2 hid2
    exact ⟨⟨res, (hcon res).2 hres⟩, fun res hr => hall res ((hcon res).1 hr)⟩

/-- Every successful delete. -/
theorem delete_changed (h : PgReady k m pk u) {u' : PDb} {t : Table}
    (hlk : u.lookup m.table = some t) (ht : PgTableFits m pk t) {o : ObjVals m.fields} {id : SqlVal} {a : PgVal}
    (hkey : keySql pk.name m.fields o = .ok id) (hid : IsKey pk id a) (hd : m.pgDelete k u o = .ok u') :
    Changed k.server u u' m.table t (t.rows.filter fun r => !decide (r pk.name = a)) := by
  have hm := h.model
  obtain ⟨ty, hty, -⟩ := hm.keyType
  obtain ⟨h1, h2⟩ := valid_table h.valid hlk
  have hkeys := keys_of hm h.laws ht h1 h2 hty
  obtain ⟨hne, hna⟩ := hid.ne_null hm
  unfold TModel.pgDelete at hd
  rw [hm.key] at hd
  simp only [hkey, Conv.orErr] at hd
  split at hd
  · next db' r' hexec =>
    cases hd
    obtain ⟨ps, hb, hx⟩ := exec_ok (pg_lex_delete hm.covers hm.table hm.plain hne) hexec
    rw [pg_delete_params hne] at hb
    obtain ⟨ps', hb', ho⟩ := key_bind hm hlk ht hid
    rw [hb'] at hb
    cases hb
    rw [data_delete_eq hlk hkeys ho (ofType_of_toPg (hid.stored ty hty)) hna] at hx
    obtain ⟨u1, hput, e⟩ := map_some_eq hx
    cases e
    exact changed_putRows h.sorted hput
  · cases hd

/-- After a delete. -/
theorem shows_deleted (h : PgReady k m pk u) {st : Objects m} (hs : PgShows k m pk u st) {u' : PDb}
    {o : ObjVals m.fields} (ho : Storable m.fields o) (hw : AllWholeMicros m.fields o) {id : SqlVal}
    (hkey : keySql pk.name m.fields o = .ok id) (hd : m.pgDelete k u o = .ok u') :
    PgReady k m pk u' ∧ PgShows k m pk u' (st.remove id) := by
  obtain ⟨t, hlk, ht⟩ := h.table
  have hid := pg_keyLike h.model ho hw hkey
  obtain ⟨a, hkv⟩ := isKey_of_like h.model hid
  have hc := delete_changed h hlk ht hkey hkv hd
  have h' := ready_of_changed h hlk hc
  have ht' : PgTableFits m pk { t with rows := t.rows.filter fun r => !decide (r pk.name = a) } :=
    ⟨ht.distinct, ht.fields⟩
  refine ⟨h', fun id2 hid2 => ?_⟩
  obtain ⟨a2, hkv2⟩ := isKey_of_like h.model hid2
  by_cases e : id2 = id
  · subst e
    have hst : (st.remove id2) id2 = none := by simp [Objects.remove]
    rw [hst]
    have ha : a2 = a := hkv2.det h.model hkv
    subst ha
    have hiff := tryGet_iff h' hc.table ht' hkv2
    have hnil : (t.rows.filter fun r => !decide (r pk.name = a2)).filter
        (fun r => decide (r pk.name = a2)) = [] := by
      rw [List.filter_filter, List.filter_eq_nil_iff]
      intro r _
      simp
    have hval : ∀ res, m.PgTryGetOut k u' id2 res ↔ res = .ok none := by
      intro res
      rw [hiff]
      simp only
      rw [hnil]
      constructor
      · rintro ⟨l, hl, rfl⟩
        rw [List.perm_nil.1 hl]
        rfl
      · rintro rfl
        exact ⟨[], List.Perm.refl _, rfl⟩
    exact ⟨⟨_, (hval _).2 rfl⟩, fun res hres => ⟨none, (hval res).1 hres, trivial⟩⟩
  · have hst : (st.remove id) id2 = st id2 := by simp [Objects.remove, e]
    rw [hst]
    have hne : a2 ≠ a := by
      rintro rfl
      exact e (hkv2.inj hkv)
    have hcon := tryGet_congr h h' hlk hc.table ht ht' hkv2 (by
      simp only [List.filter_filter]
      congr 1
      funext r
      by_cases hr : r pk.name = a2
      · simp [hr, hne]
      · simp [hr])
    obtain ⟨⟨res, hres⟩, hall⟩ := hs id2 hid2
    exact ⟨⟨res, (hcon res).2 hres⟩, fun res hr => hall res ((hcon res).1 hr)⟩

/-- Changes of other tables. -/
theorem shows_other (h : PgReady k m pk u) {st : Objects m} (hs : PgShows k m pk u st) {u' : PDb} {n : String}
    {t0 : Table} {rows : List PRow} (hlk0 : u.lookup n = some t0) (hc : Changed k.server u u' n t0 rows)
    (hn : n ≠ m.table) : PgReady k m pk u' ∧ PgShows k m pk u' st := by
  obtain ⟨t, hlk, ht⟩ := h.table
  have h' := ready_of_changed h hlk0 hc
  have hlk' : u'.lookup m.table = some t := by rw [hc.others _ (Ne.symm hn), hlk]
  refine ⟨h', fun id hid => ?_⟩
  obtain ⟨a, hkv⟩ := isKey_of_like h.model hid
  have hcon := tryGet_congr h h' hlk hlk' ht ht hkv rfl
  obtain ⟨⟨res, hres⟩, hall⟩ := hs id hid
  exact ⟨⟨res, (hcon res).2 hres⟩, fun res hr => hall res ((hcon res).1 hr)⟩

/-- A table without rows shows no objects. -/
theorem shows_empty (h : PgReady k m pk u) (he : ∀ t, u.lookup m.table = some t → t.rows = []) :
    PgShows k m pk u fun _ => none := by
  obtain ⟨t, hlk, ht⟩ := h.table
  intro id hid
  obtain ⟨a, hkv⟩ := isKey_of_like h.model hid
  have hiff := tryGet_iff h hlk ht hkv
  have hval : ∀ res, m.PgTryGetOut k u id res ↔ res = .ok none := by
    intro res
    rw [hiff, he t hlk]
    constructor
    · rintro ⟨l, hl, rfl⟩
      rw [List.perm_nil.1 hl]
      rfl
    · rintro rfl
      exact ⟨[], List.Perm.refl _, rfl⟩
  exact ⟨⟨_, (hval _).2 rfl⟩, fun res hres => ⟨none, (hval res).1 hres, trivial⟩⟩

/-! ### What a save or a delete leaves as it is -/

/-- Either nothing changed, or the rows of one table did. -/
def Touches (S : Server) (u u' : PDb) (n : String) : Prop :=
  u' = u ∨ ∃ t rows, u.lookup n = some t ∧ Changed S u u' n t rows

theorem exec_touches (hs : u.Sorted) (hv : valid k.server u = true) {u' : PDb} {key : Int64} {st : Stmt}
    {s : SStmt} {r : Option PgVal}
    (hp : Sql.parseStmt false (Sql.lex k.reserved st.text) = some s) (h : k.exec u key st = .ok (u', r)) :
    Touches k.server u u' (tableOf s) := by
  obtain ⟨ps, -, hx⟩ := exec_ok hp h
  exact .inr (execData_changed hs hv hx)

theorem insertNew_touches (hm : PgModelOk k m pk) (hs : u.Sorted) (hv : valid k.server u = true) {u' : PDb}
    {key : Int64} {o o' : ObjVals m.fields} {cols : List String} {vals : List SqlVal}
    (hcols : ∀ c ∈ cols, IsName c) (hl : cols.length ≤ 126)
    (h : m.pgInsertNew k u key pk o cols vals = .ok (u', o')) : Touches k.server u u' m.table := by
  unfold TModel.pgInsertNew at h
  split at h
  · cases h
  next db' w hins =>
  unfold PgConn.insertReturningPk at hins
  split at hins
  · cases hins
  · cases hins
  next db1 v hexec =>
  split at hins
  · cases hins
    split at h
    · cases h
    · cases h
      exact exec_touches hs hv (pg_lex_insert hm.covers hm.table hm.plain hcols hl) hexec
  · cases hins

theorem save_touches (hm : PgModelOk k m pk) (hs : u.Sorted) (hv : valid k.server u = true) {u' : PDb}
    {key : Int64} {o o' : ObjVals m.fields} (h : m.pgSave k u key o = .ok (u', o')) :
    Touches k.server u u' m.table := by
  have hcl : m.nonAutoColumns.length ≤ 126 := Nat.le_trans (nonAuto_le m) hm.count
  unfold TModel.pgSave at h
  rw [hm.key] at h
  simp only at h
  by_cases h1 : (pk.isAuto && m.columns.length == 1) = true
  · rw [if_pos h1] at h
    split at h
    · cases h; exact .inl rfl
    · exact insertNew_touches hm hs hv (fun c hc => by cases hc) (by simp) h
  · rw [if_neg h1] at h
    by_cases ha : pk.isAuto = true
    · rw [if_pos ha] at h
      split at h
      · split at h
        · split at h
          · next hexec =>
            cases h
            exact exec_touches hs hv (pg_lex_update hm.covers (cols := m.nonAutoColumns) hm.table
              (hm.names pk hm.pk_mem) (pg_columns_names hm)
              (nonAuto_ne (model_ok hm) fun e => h1 (by simp [ha, e])) hcl) hexec
          · cases h
        · cases h
        · cases h
      · split at h
        · exact insertNew_touches hm hs hv (pg_columns_names hm) hcl h
        · cases h
    · rw [if_neg ha] at h
      split at h
      · split at h
        · next hexec =>
          cases h
          exact exec_touches hs hv (pg_lex_upsert hm.covers hm.excluded (cols := m.columns) hm.table
            (hm.names pk hm.pk_mem) (pg_columns_names hm) (pg_columns_ne hm)) hexec
        · cases h
      · cases h

theorem delete_touches (hm : PgModelOk k m pk) (hs : u.Sorted) (hv : valid k.server u = true) {u' : PDb}
    {o : ObjVals m.fields} (ho : Storable m.fields o) (h : m.pgDelete k u o = .ok u') :
    Touches k.server u u' m.table := by
  unfold TModel.pgDelete at h
  rw [hm.key] at h
  simp only at h
  split at h
  · next v hkey =>
    have hid := keyLike_of_storable (model_ok hm) ho (orErr_ok hkey)
    obtain ⟨ty, hty, -⟩ := hm.keyType
    have hne : v ≠ .null := by
      rintro rfl
      cases hid ty hty
    split at h
    · next hexec =>
      cases h
      exact exec_touches hs hv (pg_lex_delete hm.covers hm.table hm.plain hne) hexec
    · cases h
  · cases h

/-- Saving an object with an automatic key whose row is not there changes nothing. -/
theorem save_missing (h : PgReady k m pk u) {t : Table} (hlk : u.lookup m.table = some t)
    (ht : PgTableFits m pk t) {o : ObjVals m.fields} (ho : Storable m.fields o)
    (ha : pk.isAuto = true) {id : SqlVal} {a : PgVal}
    (hkey : keySql pk.name m.fields o = .ok id) (hid : IsKey pk id a) (hno : ∀ r ∈ t.rows, r pk.name ≠ a)
    (key : Int64) : m.pgSave k u key o = .ok (u, o) := by
  have hm := h.model
  obtain ⟨ty, hty, -⟩ := hm.keyType
  obtain ⟨h1, h2⟩ := valid_table h.valid hlk
  have hkeys := keys_of hm h.laws ht h1 h2 hty
  obtain ⟨hne, hna⟩ := hid.ne_null hm
  obtain ⟨d, ty', hd, hdn, -, -, hty', hdt, -, hct, -⟩ := pg_key_column hm ht
  rw [hty] at hty'
  cases hty'
  obtain ⟨vals, hv, hmatch⟩ := storable_vals (keep := fun _ => true) o ho
  have hcs : tcolumns (fun f => !f.isAuto && true) m.fields = tcolumns (fun f => !f.isAuto) m.fields :=
    tcolumns_congr fun f _ => by simp
  rw [hcs] at hmatch
  have hlenv : vals.length = m.nonAutoColumns.length := by
    rw [← match_length hmatch, TModel.nonAutoColumns, List.length_map]
  have hval : keyValid pk.name m.fields o = true := by
    cases h : keyValid pk.name m.fields o with
    | true => rfl
    | false => exact absurd hkey (keySql_invalid o ⟨pk, hm.pk_mem, rfl, ha⟩ hm.distinct h id)
  have hpush2 : m.nonAutoValues pk o false = .ok vals := by
    rw [← hv]
    refine pushValues_congr o fun f hf hfa => ?_
    simp only [Bool.false_or, bne_iff_ne, ne_eq]
    intro e
    have := field_eq_of_name hm.distinct hf hm.pk_mem e
    subst this
    rw [ha] at hfa
    cases hfa
  unfold TModel.pgSave
  rw [hm.key]
  simp only [ha, Bool.true_and, hval, if_true]
  split
  · rfl
  · next h1 =>
    rw [hkey, hpush2]
    simp only [Conv.orErr]
    have hcne : m.nonAutoColumns ≠ [] := nonAuto_ne (model_ok hm) fun e => h1 (by simp [e])
    have htyp : ∀ (j : Nat) (c : String × SqlType), (tcolumns (fun f => !f.isAuto) m.fields)[j]? = some c →
        paramType u (.update m.table (setsOf m.nonAutoColumns 0)
          (keyCond pk.name (.param m.nonAutoColumns.length))) (0 + j) = some (pgType c.2) := fun j c hc => by
      rw [Nat.zero_add, paramType_update hlk (cols := m.nonAutoColumns) (c := c.1) (by
        rw [List.getElem?_append_left (by
          have := (List.getElem?_eq_some_iff.1 hc).1
          simpa [TModel.nonAutoColumns] using this)]
        simp [TModel.nonAutoColumns, hc])]
      exact (pg_columns_in ht c (List.mem_of_getElem? hc)).2
    obtain ⟨ps, hps⟩ := bind_ok hmatch htyp
    have hb' := bind_holds (cs := tcolumns (fun f => !f.isAuto) m.fields) (nodup_nonAuto hm)
      (by simpa [TModel.nonAutoColumns] using hlenv) htyp hps
    have hpl : ps.length = m.nonAutoColumns.length := by simpa [TModel.nonAutoColumns] using hb'.1
    have hbind := bind_append_of hps (t := d.type) (v := id) (a := a)
      (by rw [Nat.zero_add, hlenv, paramType_update hlk (c := pk.name) (by simp), hct])
      (by rw [hdt]; exact hid.stored ty hty)
    rw [exec_of (r := (u, none)) (pg_lex_update hm.covers (cols := m.nonAutoColumns) hm.table
      (hm.names pk hm.pk_mem) (pg_columns_names hm) hcne (Nat.le_trans (nonAuto_le m) hm.count)) hbind]
    rw [data_update_eq hlk hkeys (fun c hc => by
      obtain ⟨x, hx, rfl⟩ := List.mem_map.1 hc
      exact (pg_columns_in ht x hx).1) hpl (ofType_of_toPg (hid.stored ty hty)) hna]
    have hrows : (t.rows.map fun r => if r pk.name = a then setRow (m.nonAutoColumns.zip ps) r else r) = t.rows := by
      conv => rhs; rw [← List.map_id t.rows]
      refine List.map_congr_left fun r hr => ?_
      rw [if_neg (hno r hr)]
      rfl
    rw [hrows]
    have hi : u.insert m.table { t with rows := t.rows } = u := by
      refine SMap.ext (SMap.sorted_insert h.sorted _ _) h.sorted fun n' => ?_
      rw [SMap.lookup_insert]
      split
      · next e => rw [e, hlk]
      · rfl
    simp only [putRows, hi, h.valid, if_true, Option.map_some]

end Butane.PgP
