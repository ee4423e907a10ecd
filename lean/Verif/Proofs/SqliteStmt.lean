/-
What SQLite does with the statements butane sends (Spec/SqliteData.lean).
-/
import Verif.Proofs.SqliteData
import Verif.Model.SqliteObj

namespace Butane
open Butane.Ddl Spec
open Butane.Sql (Operand Cond)

variable {env : SqliteEnv} {D : SqliteData} {kw res : String → Bool}

/-! ### Values -/

theorem seen_inj {a b : SqliteVal} (h : seen a = seen b) : a = b := by
  cases a <;> cases b <;> simp_all [seen]
  exact Int64.toInt_inj.1 h

theorem seen_null {a : SqliteVal} : seen a = .null ↔ a = .null := by
  cases a <;> simp [seen]

/-- The condition `key = value`. -/
def keyCond (pk : String) (o : Operand) : Cond := .any [.all [.cmp .eq (.col none pk) o]]

theorem evalCond_key (rel : Sql.Compare) (db : Sql.Db) (ps : List Sql.DbVal) (n : String) (r : Sql.Row)
    {pk : String} {o : Operand} {x : Sql.DbVal} (hr : r.has pk = true)
    (ho : ∀ e, Sql.evalOperand ps e o = some x) :
    Sql.evalCond rel db ps [[(n, r)]] (keyCond pk o) = some (Sql.cmp3 rel .eq (r.val pk) x) := by
  have h1 : Sql.evalOperand ps [[(n, r)]] (.col none pk) = some (r.val pk) := by
    simp [Sql.evalOperand, Sql.lookupCol, Sql.inScope, hr]
  simp only [keyCond, Sql.evalCond, Sql.evalAny, Sql.evalAll, h1, ho]
  simp [kOr_false, kAnd_true]

/-- Comparing a stored key with a given one. -/
theorem cmp3_key (hD : DataLaws env D) {v a : SqliteVal} (h : v = .null ∨ Comparable v a) :
    (Sql.cmp3 D.rel .eq (seen v) (seen a) = some true) ↔ (v = a ∧ a ≠ .null) := by
  rcases h with rfl | h
  · simp only [seen, Sql.cmp3, reduceCtorEq, false_iff]
    rintro ⟨rfl, h⟩
    exact h rfl
  · have he := hD.eq v a h
    cases v <;> cases a <;> first | exact h.elim | skip
    all_goals
      simp only [seen, Sql.cmp3, Option.some.injEq, ne_eq, reduceCtorEq, not_false_eq_true, and_true]
      exact he

/-- The key column of every row holds NULL or a value that can be compared with `a`. -/
def KeyClass (t : STable) (pk : String) (a : SqliteVal) : Prop :=
  (t.cols.map (·.name)).contains pk = true ∧ a ≠ .null ∧
    ∀ r ∈ t.rows, ∃ v, field t.cols r pk = some v ∧ (v = .null ∨ Comparable v a)

theorem holdsFor_key (hD : DataLaws env D) (db : SDb) {ps : List SqliteVal} (n : String) {t : STable}
    {pk : String} {a : SqliteVal} {o : Operand}
    (ho : ∀ e, Sql.evalOperand (ps.map seen) e o = some (seen a)) (hk : KeyClass t pk a)
    {r : List SqliteVal} (hr : r ∈ t.rows) :
    holdsFor D db ps n t.cols (keyCond pk o) r = some (decide (field t.cols r pk = some a)) := by
  obtain ⟨v, hv, hc⟩ := hk.2.2 r hr
  have he := evalCond_key D.rel (seenDb db) (ps.map seen) n (seenRow t.cols r) (pk := pk) (o := o)
    (x := seen a) hk.1 ho
  have hval : (seenRow t.cols r).val pk = seen v := by simp [seenRow, hv]
  rw [hval] at he
  simp only [holdsFor, he, hv, Option.some.injEq, cmp3_key hD hc]
  congr 1
  simp [hk.2.1]

/-! ### Texts -/

theorem disjs_key (pk : String) {id : SqlVal} (h : id ≠ .null) :
    Cond.any (disjs (.cmp .eq pk (.val id)) 0) = keyCond pk (astVal id 0) := by
  have : isNullTest .eq (.val id) = false := by
    cases id <;> first | exact absurd rfl h | rfl
  simp [disjs, atomOf, astCmp, this, keyCond, astExpr]

/-- The value a key is compared with. -/
theorem key_operand {c : TextCodecs} {id : SqlVal} {a : SqliteVal} (ha : toSqlite c id = .ok a)
    {ps : List SqliteVal} (hps : bindAll c (valsVal id) = .ok ps) (e : List Sql.Scope) :
    Sql.evalOperand (ps.map seen) e (astVal id 0) = some (seen a) := by
  cases id <;> simp only [toSqlite, Conv.ok.injEq, reduceCtorEq] at ha <;> subst ha
  all_goals
    simp only [valsVal, bindAll, toSqlite, Conv.bind, Conv.ok.injEq] at hps
    subst hps
    simp [astVal, Sql.evalOperand, seen]

theorem key_binds {c : TextCodecs} {id : SqlVal} {a : SqliteVal} (ha : toSqlite c id = .ok a) :
    ∃ ps, bindAll c (valsVal id) = .ok ps := by
  cases id <;> simp only [toSqlite, reduceCtorEq] at ha
  all_goals exact ⟨_, rfl⟩

theorem lex_insert (hk : CoversReserved kw res) {table : String} {cols : List String}
    {vals : List SqlVal} (ht : IsName table) (hs : ∀ c ∈ cols, IsName c) :
    Sql.parseStmt true (Sql.lex res (Backend.sqlite.insert kw table cols vals).text) =
      some (.insert table cols ((List.range cols.length).map .param) none none) := by
  have hlex : Sql.lex res (Backend.sqlite.insert kw table cols vals).text = toksInsert table cols :=
    (reads_insert (d := sqliteDialect kw) (cnt := fun n => n) (B := cols.length)
        hk (phReads_sqlite kw res _) ht hs (Nat.le_refl _)).lex rfl
  rw [hlex]
  by_cases hne : cols = []
  · subst hne
    have hp := parse_insert_default (sq := true) (table := table) (r := []) (ret := none) rfl
    rwa [List.append_nil] at hp
  · have hp := parse_insert (sq := true) (table := table) hne (r := []) (conf := none)
      (ret := none) rfl
    rwa [List.append_nil] at hp

theorem lex_upsert (hk : CoversReserved kw res) (hx : res "excluded" = false) {table pk : String}
    {cols : List String} {vals : List SqlVal} (ht : IsName table) (hpk : IsName pk)
    (hs : ∀ c ∈ cols, IsName c) (hne : cols ≠ []) :
    Sql.parseStmt true (Sql.lex res (Backend.sqlite.upsert kw table cols pk vals).text) =
      some (.insert table cols ((List.range cols.length).map .param) (some ⟨pk,
        if cols.length > 1 then some (cols, cols.map fun c => .col (some "excluded") c) else none⟩)
        none) := by
  have hlex : Sql.lex res (Backend.sqlite.upsert kw table cols pk vals).text =
      toksInsert table cols ++ toksConflict cols pk := by
    refine (reads_upsert (d := sqliteDialect kw) (cnt := fun n => n) hk hx hne ht hpk hs ?_).lex rfl
    have := readsList_phs (res := res) (cnt := fun n => n) (f := fun _ => lit "?") (n := 0)
      (count := cols.length) (fun i _ r _ => rfl)
    rw [Nat.zero_add] at this
    have e : (cols.map fun _ => lit "?") = (List.range cols.length).map fun _ => lit "?" := by
      apply List.ext_getElem <;> simp
    rw [e]
    exact this
  rw [hlex]
  exact parse_insert (sq := true) (table := table) hne (pTail_conflict (cols := cols) (pkcol := pk))

theorem lex_update (hk : CoversReserved kw res) {table pk : String} {cols : List String}
    {v : SqlVal} {vals : List SqlVal} (ht : IsName table) (hpk : IsName pk)
    (hs : ∀ c ∈ cols, IsName c) (hne : cols ≠ []) :
    Sql.parseStmt true (Sql.lex res (Backend.sqlite.update kw table pk v cols vals).text) =
      some (.update table (setsOf cols 0) (keyCond pk (.param cols.length))) := by
  have hlex : Sql.lex res (Backend.sqlite.update kw table pk v cols vals).text =
      toksUpdate table pk cols := (reads_update (d := sqliteDialect kw) (cnt := fun n => n)
        (B := cols.length + 1) hk (phReads_sqlite kw res _) ht hpk hs (Nat.le_refl _)).lex rfl
  rw [hlex, parse_update hne]
  rfl

theorem key_names {pk : String} (hpk : PlainName res pk) (id : SqlVal) :
    NamesOK res (.cmp .eq pk (.val id)) := by
  simp [NamesOK, NamesExprOK, hpk]

theorem lex_delete (hk : CoversReserved kw res) {table pk : String} {id : SqlVal} (ht : IsName table)
    (hpk : PlainName res pk) (hid : id ≠ .null) :
    Sql.parseStmt true (Sql.lex res (Backend.sqlite.delete kw table pk id).text) =
      some (.delete table (keyCond pk (astVal id 0))) := by
  have hlex := (reads_delete (d := sqliteDialect kw) (cnt := fun n => n)
      (B := cntBool (.cmp .eq pk (.val id))) hk (phReads_sqlite kw res _) ht
      (e := .cmp .eq pk (.val id)) (by simp [OneJoin, OneJoinExpr]) (key_names hpk id) (Nat.le_refl _)).lex rfl
  rw [show (Backend.sqlite.delete kw table pk id).text =
    (sqlDelete (sqliteDialect kw) table (.cmp .eq pk (.val id))).text from rfl, hlex,
    parse_delete (by simp [NeedsNoParens, SimpleOperand]), disjs_key pk hid]

theorem delete_params {table pk : String} {id : SqlVal} (hid : id ≠ .null) :
    (Backend.sqlite.delete kw table pk id).params = valsVal id := by
  rw [show (Backend.sqlite.delete kw table pk id).params =
    (renderBool (sqliteDialect kw) (.cmp .eq pk (.val id)) 0).vals from rfl, renderBool_vals]
  have : isNullTest .eq (.val id) = false := by
    cases id <;> first | exact absurd rfl hid | rfl
  simp [valsBool, this, valsExpr]

theorem lex_get (hk : CoversReserved kw res) (m : TModel) {pk : String} {id : SqlVal}
    (ht : IsName m.table) (hpk : PlainName res pk) (hs : ∀ c ∈ m.columns, IsName c)
    (hne : m.columns ≠ []) (hid : id ≠ .null) :
    Sql.parseStmt true (Sql.lex res ((m.getQuery pk id).load .sqlite kw m.columns).text) =
      some (.select ⟨m.columns, m.table, some (keyCond pk (astVal id 0)), [], some 1, none⟩) := by
  have hlex : Sql.lex res ((m.getQuery pk id).load .sqlite kw m.columns).text =
      toksSelect m.table m.columns (some (.cmp .eq pk (.val id))) (some 1) none [] := by
    have := reads_select (d := sqliteDialect kw) (res := res) (cnt := fun n => n)
      (B := cntWhere (some (.cmp .eq pk (.val id)))) hk (phReads_sqlite kw res _) ht hs
      (e := some (.cmp .eq pk (.val id))) (by simp [OneJoin, OneJoinExpr])
      (by intro x hx; cases hx; exact key_names hpk id) (os := []) (by simp) (some 1) none
      (Nat.le_refl _)
    have := this.lex rfl
    rw [← this]
    simp [Query.load, Query.fetch, Backend.query, sqliteQuery, TModel.getQuery, Query.new,
      Query.withFilter, Query.withLimit]
  rw [hlex, parse_select hne (by intro x hx; cases hx; simp [NeedsNoParens, SimpleOperand]) [] (some 1) none
    (by simp)]
  simp [disjs_key pk hid]

theorem get_params (m : TModel) {pk : String} {id : SqlVal} (hid : id ≠ .null) :
    ((m.getQuery pk id).load .sqlite kw m.columns).params = valsVal id := by
  rw [show ((m.getQuery pk id).load .sqlite kw m.columns).params =
    (whereClause (sqliteDialect kw) (some (.cmp .eq pk (.val id)))).vals from rfl, whereClause_vals]
  have : isNullTest .eq (.val id) = false := by
    cases id <;> first | exact absurd rfl hid | rfl
  simp [valsBool, this, valsExpr]

end Butane
