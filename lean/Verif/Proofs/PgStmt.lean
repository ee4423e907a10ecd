/-
What PostgreSQL reads and does with the statements butane sends (Spec/PgData.lean).
-/
import Verif.Proofs.SqliteSaveKey
import Verif.Spec.PgObj

namespace Butane.PgP
open Butane Butane.PgData Spec
open Butane.Sql (Operand Cond)

variable {kw res : String → Bool} {S : Server}

/-! ### Values -/

theorem seen_null {a : PgVal} : seen a = .null ↔ a = .null := by
  cases a <;> simp [seen, fromPg, Sql.toDb]

/-- Comparing two values of one type. -/
theorem same_iff (hS : Laws S) {ty : PgType} {a b : PgVal} (hty : exactType ty = true) (ha : ofType ty a = true)
    (hb : ofType ty b = true) (han : a ≠ .null) (hbn : b ≠ .null) : same S a b = true ↔ a = b := by
  have h := hS.eq ty a b hty ha hb han hbn
  have h1 := mt seen_null.1 han
  have h2 := mt seen_null.1 hbn
  simp only [same, decide_eq_true_eq]
  generalize seen a = x at *
  generalize seen b = y at *
  cases x <;> cases y <;> first | exact absurd rfl h1 | exact absurd rfl h2 | skip
  all_goals
    simp only [Sql.cmp3, Option.some.injEq]
    exact h

/-- The value sent for a key. -/
structure IsKey (pk : TField) (id : SqlVal) (a : PgVal) : Prop where
  type : ∀ ty, pk.ty = some ty → id.sqltype = some ty.sqltype
  stored : ∀ ty, pk.ty = some ty → toPg (pgType ty.sqltype) id = .ok a
  back : fromPg a = id

theorem ofType_of_toPg {ty : PgType} {v : SqlVal} {a : PgVal} (h : toPg ty v = .ok a) :
    ofType ty a = true := by
  cases v <;> simp only [toPg] at h
  · cases h; cases ty <;> rfl
  all_goals
    split at h
    · next e => subst e; cases h; simp [ofType]
    · cases h

theorem toPg_ne_null {ty : PgType} {v : SqlVal} {a : PgVal} (h : toPg ty v = .ok a) (hv : v ≠ .null) :
    a ≠ .null := by
  cases v <;> simp only [toPg] at h
  · exact absurd rfl hv
  all_goals
    split at h
    · cases h; simp
    · cases h

variable {k : PgConn} {m : TModel} {pk : TField}

theorem _root_.Butane.Spec.PgModelOk.pk_mem (hm : PgModelOk k m pk) : pk ∈ m.fields := tpkField_mem hm.key

theorem isKey_of_like (hm : PgModelOk k m pk) {id : SqlVal} (h : PgKeyLike pk id) : ∃ a, IsKey pk id a := by
  obtain ⟨ty, hty, -⟩ := hm.keyType
  obtain ⟨a, h1, h2⟩ := Props.pg_round_trip_partial id ty.sqltype (.inr (h.1 ty hty)) h.2
  refine ⟨a, h.1, ?_, h2⟩
  intro ty' e
  rw [hty] at e
  cases e
  exact h1

theorem IsKey.inj {id id' : SqlVal} {a : PgVal} (h : IsKey pk id a) (h' : IsKey pk id' a) : id = id' := by
  rw [← h.back, h'.back]

theorem IsKey.det (hm : PgModelOk k m pk) {id : SqlVal} {a b : PgVal} (h : IsKey pk id a)
    (h' : IsKey pk id b) : a = b := by
  obtain ⟨ty, hty, -⟩ := hm.keyType
  have := (h.stored ty hty).symm.trans (h'.stored ty hty)
  cases this
  rfl

theorem IsKey.ne_null (hm : PgModelOk k m pk) {id : SqlVal} {a : PgVal} (h : IsKey pk id a) :
    id ≠ .null ∧ a ≠ .null := by
  obtain ⟨ty, hty, -⟩ := hm.keyType
  have h1 : id ≠ .null := by
    rintro rfl
    cases h.type ty hty
  exact ⟨h1, toPg_ne_null (h.stored ty hty) h1⟩

/-! ### Columns -/

theorem col_eq_of_name {cols : List Column} (h : (cols.map (·.name)).Nodup) {f g : Column} (hf : f ∈ cols)
    (hg : g ∈ cols) (e : f.name = g.name) : f = g := by
  induction cols with
  | nil => cases hf
  | cons a fs ih =>
    simp only [List.map_cons, List.nodup_cons] at h
    rcases List.mem_cons.1 hf with rfl | hf' <;> rcases List.mem_cons.1 hg with rfl | hg'
    · rfl
    · exact absurd (List.mem_map.2 ⟨g, hg', e.symm⟩) h.1
    · exact absurd (List.mem_map.2 ⟨f, hf', e⟩) h.1
    · exact ih h.2 hf' hg'

theorem colType_of_mem {t : Table} (h : (names t).Nodup) {d : Column} (hd : d ∈ t.cols) :
    colType t d.name = some d.type := by
  unfold colType
  cases hf : t.cols.find? (·.name = d.name) with
  | none =>
    have := List.find?_eq_none.1 hf d hd
    simp at this
  | some e =>
    have h1 := List.mem_of_find?_eq_some hf
    have h2 := List.find?_some hf
    have := col_eq_of_name h h1 hd (by simpa using h2)
    rw [this]
    rfl

theorem pg_columns_names (hm : PgModelOk k m pk) {keep : TField → Bool} :
    ∀ c ∈ (tcolumns keep m.fields).map (·.1), IsName c := by
  intro c hc
  obtain ⟨x, hx, rfl⟩ := List.mem_map.1 hc
  obtain ⟨f, hf, -, ty, -, rfl⟩ := tcolumns_mem.1 hx
  exact hm.names f hf

theorem pg_columns_in {t : Table} (ht : PgTableFits m pk t) {keep : TField → Bool} :
    ∀ c ∈ tcolumns keep m.fields, c.1 ∈ names t ∧ colType t c.1 = some (pgType c.2) := by
  intro c hc
  obtain ⟨f, hf, -, ty, hty, rfl⟩ := tcolumns_mem.1 hc
  obtain ⟨d, hd, hfd⟩ := ht.fields f hf ty hty
  refine ⟨List.mem_map.2 ⟨d, hd, hfd.name⟩, ?_⟩
  have := colType_of_mem ht.distinct hd
  rw [hfd.name, hfd.type] at this
  exact this

theorem pg_columns_ne (hm : PgModelOk k m pk) : m.columns ≠ [] := by
  obtain ⟨ty, h1, -⟩ := hm.keyType
  intro e
  have : (pk.name, ty.sqltype) ∈ tcolumns (fun _ => true) m.fields :=
    tcolumns_mem.2 ⟨pk, hm.pk_mem, rfl, ty, h1, rfl⟩
  have := List.mem_map_of_mem (f := (·.1)) this
  rw [show (tcolumns (fun _ => true) m.fields).map (·.1) = [] from e] at this
  cases this

/-- The key column of the table. -/
theorem pg_key_column (hm : PgModelOk k m pk) {t : Table} (ht : PgTableFits m pk t) :
    ∃ d ty, d ∈ t.cols ∧ d.name = pk.name ∧ d.notNull = true ∧ d.unique = true ∧ pk.ty = some ty ∧
      d.type = pgType ty.sqltype ∧ exactType d.type = true ∧ colType t pk.name = some d.type ∧
      (pk.isAuto = true → d.serial = true) := by
  obtain ⟨ty, h1, h2, h3, h4⟩ := hm.keyType
  obtain ⟨d, hd, hf⟩ := ht.fields pk hm.pk_mem ty h1
  obtain ⟨e1, e2⟩ := hf.key rfl
  refine ⟨d, ty, hd, hf.name, e1, e2, h1, hf.type, ?_, ?_, hf.serial⟩
  · rw [hf.type]
    cases hs : ty.sqltype with
    | real => exact absurd hs h2
    | custom n => exact absurd hs (Props.field_not_custom ty n)
    | _ => rfl
  · have := colType_of_mem ht.distinct hd
    rwa [hf.name] at this

/-! ### The key of rows -/

theorem valid_table {u : PDb} (hv : valid S u = true) {n : String} {t : Table} (hlk : u.lookup n = some t) :
    (∀ r ∈ t.rows, rowOk S t r = true) ∧ uniqueOk S t = true := by
  have hm := SMap.mem_of_lookup hlk
  simp only [valid, List.all_eq_true, Bool.and_eq_true] at hv
  obtain ⟨⟨h1, h2⟩, -⟩ := hv _ hm
  exact ⟨h1, h2⟩

theorem rowOk_mem {t : Table} {r : PRow} (h : rowOk S t r = true) {d : Column} (hd : d ∈ t.cols) :
    ofType d.type (r d.name) = true ∧ (d.notNull = true → r d.name ≠ .null) := by
  simp only [rowOk, List.all_eq_true] at h
  have := h d hd
  simp only [Bool.and_eq_true, Bool.not_eq_true', Bool.and_eq_false_iff, decide_eq_false_iff_not] at this
  refine ⟨this.1.1, fun hn => ?_⟩
  rcases this.2 with h | h
  · rw [hn] at h; cases h
  · exact h

/-- The rows of a table have keys. -/
structure Keys (S : Server) (t : Table) (pk : TField) (ty : PgType) : Prop where
  laws : Laws S
  has : (names t).contains pk.name = true
  type : exactType ty = true
  col : colType t pk.name = some ty
  rows : ∀ r ∈ t.rows, ofType ty (r pk.name) = true ∧ r pk.name ≠ .null
  unique : t.rows.Pairwise fun r s => r pk.name ≠ s pk.name

theorem keys_of (hm : PgModelOk k m pk) (hS : Laws S) {t : Table} (ht : PgTableFits m pk t)
    (hr : ∀ r ∈ t.rows, rowOk S t r = true) (hu : uniqueOk S t = true) {ty : FieldTy}
    (hty : pk.ty = some ty) : Keys S t pk (pgType ty.sqltype) := by
  obtain ⟨d, ty', h1, h2, h3, h4, h5, h6, h7, h8, -⟩ := pg_key_column hm ht
  rw [hty] at h5
  cases h5
  rw [← h6]
  have hrow : ∀ r ∈ t.rows, ofType d.type (r pk.name) = true ∧ r pk.name ≠ .null := by
    intro r hr'
    have := rowOk_mem (hr r hr') h1
    rw [h2] at this
    exact ⟨this.1, this.2 h3⟩
  refine ⟨hS, ?_, h7, h8, hrow, ?_⟩
  · rw [List.contains_iff_mem]; exact List.mem_map.2 ⟨d, h1, h2⟩
  · simp only [uniqueOk, List.all_eq_true] at hu
    have := hu d h1
    rw [h4] at this
    simp only [Bool.not_true, Bool.false_or, decide_eq_true_eq] at this
    rw [h2] at this
    refine List.Pairwise.imp_of_mem ?_ this
    intro r s hr' hs' hsame e
    have h9 := (same_iff hS h7 (hrow r hr').1 (hrow s hs').1 (hrow r hr').2 (hrow s hs').2).2 e
    rw [hsame] at h9
    cases h9

theorem evalCond_is (S : Server) (db : Sql.Db) {ps : List PgVal} (n : String) {t : Table} {ty : PgType}
    (hk : Keys S t pk ty) {a : PgVal} {o : Operand} (hty : ofType ty a = true) (hn : a ≠ .null)
    (ho : ∀ e, Sql.evalOperand (ps.map seen) e o = some (seen a)) {r : PRow} (hr : r ∈ t.rows) :
    ∃ b, Sql.evalCond S.rel db (ps.map seen) [[(n, seenRow t r)]] (keyCond pk.name o) = some b ∧
      (b = some true ↔ r pk.name = a) := by
  have he := evalCond_key S.rel db (ps.map seen) n (seenRow t r) (pk := pk.name) (o := o)
    (x := seen a) hk.has ho
  refine ⟨_, he, ?_⟩
  have := same_iff hk.laws hk.type (hk.rows r hr).1 hty (hk.rows r hr).2 hn
  simp only [same, decide_eq_true_eq] at this
  exact this

theorem holdsFor_is (db : PDb) {ps : List PgVal} (n : String) {t : Table} {ty : PgType}
    (hk : Keys S t pk ty) {a : PgVal} {o : Operand} (hty : ofType ty a = true) (hn : a ≠ .null)
    (ho : ∀ e, Sql.evalOperand (ps.map seen) e o = some (seen a)) {r : PRow} (hr : r ∈ t.rows) :
    holdsFor S db ps n t (keyCond pk.name o) r = some (decide (r pk.name = a)) := by
  obtain ⟨b, h1, h2⟩ := evalCond_is S (seenDb db) n hk hty hn ho hr
  simp only [holdsFor, h1, Option.map_some, h2]

/-! ### Texts -/

theorem pg_lex_insert (hk : CoversReserved kw res) {table pkcol : String} {cols : List String}
    {vals : List SqlVal} (ht : IsName table) (hpk : PlainName res pkcol) (hs : ∀ c ∈ cols, IsName c)
    (hf : cols.length ≤ 126) :
    Sql.parseStmt false (Sql.lex res (pgInsertReturning kw table cols pkcol vals).text) =
      some (.insert table cols ((List.range cols.length).map .param) none (some pkcol)) := by
  have hlex : Sql.lex res (pgInsertReturning kw table cols pkcol vals).text =
      toksInsert table cols ++ [.kw "RETURNING", .ident pkcol] := by
    simp only [pgInsertReturning, List.append_assoc]
    refine Reads.lex (cnt := fun _ => 0) (n := cols.length) ?_ rfl
    refine Reads.append (reads_insert (d := pgDialect kw) (cnt := fun _ => 0) (B := 127)
        hk (phReads_pg kw res) ht hs (Nat.le_trans hf (by decide))) (soft_cons (by decide) _) ?_
    refine Opens.reads (t := lit " RETURNING ") (k := [.kw "RETURNING"]) (fun _ _ => rfl) ?_
    intro r hr
    exact lex_plain hpk _ r hr
  rw [hlex]
  by_cases hne : cols = []
  · subst hne
    exact parse_insert_default rfl
  · exact parse_insert hne rfl

theorem pg_lex_upsert (hk : CoversReserved kw res) (hx : res "excluded" = false) {table pk : String}
    {cols : List String} {vals : List SqlVal} (ht : IsName table) (hpk : IsName pk)
    (hs : ∀ c ∈ cols, IsName c) (hne : cols ≠ []) :
    Sql.parseStmt false (Sql.lex res (Backend.pg.upsert kw table cols pk vals).text) =
      some (.insert table cols ((List.range cols.length).map .param) (some ⟨pk,
        if cols.length > 1 then some (cols, cols.map fun c => .col (some "excluded") c) else none⟩)
        none) := by
  have hlex : Sql.lex res (Backend.pg.upsert kw table cols pk vals).text =
      toksInsert table cols ++ toksConflict cols pk := by
    refine (reads_upsert (d := pgDialect kw) (cnt := fun _ => 0) hk hx hne ht hpk hs ?_).lex rfl
    have := readsList_phs (res := res) (cnt := fun _ => 0) (f := fun i => '$' :: natText (i + 1)) (n := 0)
      (count := cols.length) (fun i _ r hr => by rw [Nat.zero_add]; exact lex_dollar res i 0 r hr)
    rw [Nat.zero_add] at this
    exact this
  rw [hlex]
  exact parse_insert (sq := false) (table := table) hne (pTail_conflict (cols := cols) (pkcol := pk))

theorem pg_lex_update (hk : CoversReserved kw res) {table pk : String} {cols : List String}
    {v : SqlVal} {vals : List SqlVal} (ht : IsName table) (hpk : IsName pk)
    (hs : ∀ c ∈ cols, IsName c) (hne : cols ≠ []) (hf : cols.length ≤ 126) :
    Sql.parseStmt false (Sql.lex res (Backend.pg.update kw table pk v cols vals).text) =
      some (.update table (setsOf cols 0) (keyCond pk (.param cols.length))) := by
  have hlex : Sql.lex res (Backend.pg.update kw table pk v cols vals).text =
      toksUpdate table pk cols := (reads_update (d := pgDialect kw) (cnt := fun _ => 0)
        (B := 127) hk (phReads_pg kw res) ht hpk hs (by omega)).lex rfl
  rw [hlex, parse_update hne]
  rfl

theorem cntBool_key {pk : String} {id : SqlVal} : cntBool (.cmp .eq pk (.val id)) ≤ 1 := by
  cases id <;> simp [cntBool, isNullTest, cntExpr, cntVal]

theorem pg_lex_delete (hk : CoversReserved kw res) {table pk : String} {id : SqlVal} (ht : IsName table)
    (hpk : PlainName res pk) (hid : id ≠ .null) :
    Sql.parseStmt false (Sql.lex res (Backend.pg.delete kw table pk id).text) =
      some (.delete table (keyCond pk (astVal id 0))) := by
  have hlex := (reads_delete (d := pgDialect kw) (cnt := fun _ => 0)
      (B := 127) hk (phReads_pg kw res) ht
      (e := .cmp .eq pk (.val id)) (by simp [OneJoin, OneJoinExpr]) (key_names hpk id)
      (Nat.le_trans cntBool_key (by decide))).lex rfl
  rw [show (Backend.pg.delete kw table pk id).text =
    (sqlDelete (pgDialect kw) table (.cmp .eq pk (.val id))).text from rfl, hlex,
    parse_delete (by simp [NeedsNoParens, SimpleOperand]), disjs_key pk hid]

theorem pg_delete_params {table pk : String} {id : SqlVal} (hid : id ≠ .null) :
    (Backend.pg.delete kw table pk id).params = valsVal id := by
  rw [show (Backend.pg.delete kw table pk id).params =
    (renderBool (pgDialect kw) (.cmp .eq pk (.val id)) 0).vals from rfl, renderBool_vals]
  have : isNullTest .eq (.val id) = false := by
    cases id <;> first | exact absurd rfl hid | rfl
  simp [valsBool, this, valsExpr]

theorem pg_lex_get (hk : CoversReserved kw res) (m : TModel) {pk : String} {id : SqlVal}
    (ht : IsName m.table) (hpk : PlainName res pk) (hs : ∀ c ∈ m.columns, IsName c)
    (hne : m.columns ≠ []) (hid : id ≠ .null) :
    Sql.parseStmt false (Sql.lex res ((m.getQuery pk id).load .pg kw m.columns).text) =
      some (.select ⟨m.columns, m.table, some (keyCond pk (astVal id 0)), [], some 1, none⟩) := by
  have hlex : Sql.lex res ((m.getQuery pk id).load .pg kw m.columns).text =
      toksSelect m.table m.columns (some (.cmp .eq pk (.val id))) (some 1) none [] := by
    have := reads_select (d := pgDialect kw) (res := res) (cnt := fun _ => 0)
      (B := 127) hk (phReads_pg kw res) ht hs
      (e := some (.cmp .eq pk (.val id))) (by simp [OneJoin, OneJoinExpr])
      (by intro x hx; cases hx; exact key_names hpk id) (os := []) (by simp) (some 1) none
      (Nat.le_trans (cntBool_key (pk := pk) (id := id)) (by decide))
    have := this.lex rfl
    rw [← this]
    simp [Query.load, Query.fetch, Backend.query, pgQuery, TModel.getQuery, Query.new,
      Query.withFilter, Query.withLimit]
  rw [hlex, parse_select hne (by intro x hx; cases hx; simp [NeedsNoParens, SimpleOperand]) [] (some 1) none
    (by simp)]
  simp [disjs_key pk hid]

theorem pg_get_params (m : TModel) {pk : String} {id : SqlVal} (hid : id ≠ .null) :
    ((m.getQuery pk id).load .pg kw m.columns).params = valsVal id := by
  rw [show ((m.getQuery pk id).load .pg kw m.columns).params =
    (whereClause (pgDialect kw) (some (.cmp .eq pk (.val id)))).vals from rfl, whereClause_vals]
  have : isNullTest .eq (.val id) = false := by
    cases id <;> first | exact absurd rfl hid | rfl
  simp [valsBool, this, valsExpr]

end Butane.PgP
