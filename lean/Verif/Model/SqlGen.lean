/-
Generation of SQL text.
Models butane_core/src/db/helper.rs and the statement builders of
butane_core/src/db/sqlite.rs and butane_core/src/db/pg.rs.
Text is a list of characters.
-/
import Verif.Model.Query

namespace Butane

abbrev Text := List Char

/-- A string literal of the Rust source as text. -/
def lit (s : String) : Text := s.toList

/-- One decimal digit. -/
def digitChar (d : Nat) : Char := Char.ofNat (48 + d)

/-- The decimal digits of `n`; the first argument bounds the recursion. -/
def natDigits : Nat → Nat → Text
  | 0, n => [digitChar (n % 10)]
  | f + 1, n => if n < 10 then [digitChar n] else natDigits f (n / 10) ++ [digitChar (n % 10)]

/-- Decimal representation of a natural number (Rust's `Display` for unsigned integers):
a number has no more digits than its value. -/
def natText (n : Nat) : Text := natDigits n n

/-- Decimal representation of an integer (Rust's `Display` for signed integers). -/
def intText : Int → Text
  | .ofNat n => natText n
  | .negSucc n => '-' :: natText (n + 1)

/-- What the text generators depend on: which words `ALL_KEYWORDS` of sqlparser
contains after upper-casing (helper.rs:24, abstract here), and the text the backend's
`PlaceholderSource` returns at its `k`-th call, counting from zero (helper.rs:17-20). -/
structure Dialect where
  keyword : String → Bool
  ph : Nat → Text

/-- `quote_reserved_word`, helper.rs:23-30. -/
def quoteWord (d : Dialect) (w : String) : Text :=
  if d.keyword w then '"' :: w.toList ++ ['"'] else w.toList

/-- A piece of generated SQL: the text written to `w`, the values pushed to `values`,
and the number of placeholders taken from `pls` so far. -/
structure Frag where
  text : Text
  vals : List SqlVal
  n : Nat
deriving DecidableEq, Repr

/-- The text between column and operand, helper.rs:60,64,66-70.  The column itself is
written without quoting. -/
def opText : CmpOp → Text
  | .eq => lit " = "
  | .ne => lit " <> "
  | .lt => lit " < "
  | .gt => lit " > "
  | .le => lit " <= "
  | .ge => lit " >= "
  | .like => lit " like "

/-- `Expr::Val(v)`, helper.rs:43-53. -/
def renderVal (d : Dialect) (v : SqlVal) (n : Nat) : Frag :=
  match v with
  | .int i => ⟨intText i.toInt, [], n⟩
  | .bigInt i => ⟨intText i.toInt, [], n⟩
  | v => ⟨d.ph n, [v], n + 1⟩

/-- The loop of `In`, helper.rs:131-140: values separated by `", "`. -/
def renderVals (d : Dialect) : List SqlVal → Nat → Frag
  | [], n => ⟨[], [], n⟩
  | [v], n => renderVal d v n
  | v :: w :: rest, n =>
    let a := renderVal d v n
    let b := renderVals d (w :: rest) a.n
    ⟨a.text ++ lit ", " ++ b.text, a.vals ++ b.vals, b.n⟩

/-- `sql_column`, helper.rs:289-300.  An unqualified column is not quoted. -/
def sqlColumn (d : Dialect) (c : QColumn) : Text :=
  match c.table with
  | some t => quoteWord d t ++ lit "." ++ quoteWord d c.name
  | none => c.name.toList

/-- `sql_joins`, helper.rs:271-287.  Nothing separates two joins. -/
def sqlJoins (d : Dialect) : List Join → Text
  | [] => []
  | j :: rest =>
    lit "INNER JOIN " ++ quoteWord d j.joinTable ++ lit " ON " ++ sqlColumn d j.col1 ++
      lit " = " ++ sqlColumn d j.col2 ++ sqlJoins d rest

mutual
/-- `sql_for_expr`, helper.rs:36-145. -/
def renderExpr (d : Dialect) : Expr → Nat → Frag
  | .column name, n => ⟨quoteWord d name, [], n⟩
  | .val v, n => renderVal d v n
  | .placeholder, n => ⟨d.ph n, [], n + 1⟩
  | .condition c, n => renderBool d c n
/-- The `Condition(c)` arm of `sql_for_expr`, helper.rs:55-142. -/
def renderBool (d : Dialect) : BoolExpr → Nat → Frag
  | .true_, n => ⟨lit "TRUE", [], n⟩
  | .cmp .eq col (.val .null), n => ⟨col.toList ++ lit " IS NULL", [], n⟩
  | .cmp .ne col (.val .null), n => ⟨col.toList ++ lit " IS NOT NULL", [], n⟩
  | .cmp op col e, n =>
    let r := renderExpr d e n
    ⟨col.toList ++ opText op ++ r.text, r.vals, r.n⟩
  | .allOf cs, n => renderAll d cs n
  | .and a b, n =>
    let x := renderBool d a n
    let y := renderBool d b x.n
    ⟨x.text ++ lit " AND " ++ y.text, x.vals ++ y.vals, y.n⟩
  | .or a b, n =>
    let x := renderBool d a n
    let y := renderBool d b x.n
    ⟨x.text ++ lit " OR " ++ y.text, x.vals ++ y.vals, y.n⟩
  | .not a, n =>
    let x := renderBool d a n
    ⟨lit "NOT " ++ x.text, x.vals, x.n⟩
  | .subquery col tbl2 tbl2Col e, n =>
    let x := renderBool d e n
    ⟨quoteWord d col ++ lit " IN (SELECT " ++ quoteWord d tbl2Col ++ lit " FROM " ++
      quoteWord d tbl2 ++ lit " WHERE " ++ x.text ++ lit ")", x.vals, x.n⟩
  | .subqueryJoin col tbl2 col2 joins e, n =>
    let x := renderBool d e n
    ⟨quoteWord d col ++ lit " IN (SELECT " ++ sqlColumn d col2 ++ lit " FROM " ++
      quoteWord d tbl2 ++ lit " " ++ sqlJoins d joins ++ lit " WHERE " ++ x.text ++ lit ")",
      x.vals, x.n⟩
  | .inVals col vs, n =>
    let x := renderVals d vs n
    ⟨quoteWord d col ++ lit " IN (" ++ x.text ++ lit ")", x.vals, x.n⟩
/-- The loop of `AllOf`, helper.rs:71-82: conditions separated by `" AND "`. -/
def renderAll (d : Dialect) : List BoolExpr → Nat → Frag
  | [], n => ⟨[], [], n⟩
  | [c], n => renderBool d c n
  | c :: c' :: rest, n =>
    let a := renderBool d c n
    let b := renderAll d (c' :: rest) a.n
    ⟨a.text ++ lit " AND " ++ b.text, a.vals ++ b.vals, b.n⟩
end

/-- The words `ALL_KEYWORDS` contains are not modelled; a backend's dialect is given by
its placeholders.  `SQLitePlaceholderSource`, db/sqlite.rs:916-927: always `?`. -/
def sqliteDialect (keyword : String → Bool) : Dialect := ⟨keyword, fun _ => lit "?"⟩

/-- `PgPlaceholderSource`, db/pg.rs:936-951: the counter is an `i8` starting at one and
incremented at every call; this is its value at call `k` in a build without overflow
checks. -/
def pgCounter (k : Nat) : Int8 := Int8.ofNat (k + 1)

/-- The text of the `k`-th call, db/pg.rs:947 (build without overflow checks). -/
def pgPlaceholder (k : Nat) : Text := '$' :: intText (pgCounter k).toInt

/-- The counter before call `k` in a build with overflow checks, where `self.n += 1`
(db/pg.rs:948) panics at `i8::MAX`; `none` once a call has panicked.  So call `k`
returns iff `pgCounterChecked (k + 1)` is not `none`. -/
def pgCounterChecked : Nat → Option Int8
  | 0 => some 1
  | k + 1 =>
    match pgCounterChecked k with
    | some n => if n = 127 then none else some (n + 1)
    | none => none

/-- The PostgreSQL dialect. -/
def pgDialect (keyword : String → Bool) : Dialect := ⟨keyword, pgPlaceholder⟩

/-! ### Statements -/

/-- Texts separated by `", "` (`join(", ")` and the `fold("", |sep, ..|)` loops). -/
def commaSep : List Text → Text
  | [] => []
  | [t] => t
  | t :: u :: rest => t ++ lit ", " ++ commaSep (u :: rest)

/-- `list_columns`, helper.rs:256-269. -/
def listColumns (d : Dialect) (cols : List String) : Text := commaSep (cols.map (quoteWord d))

/-- The placeholders taken by `count` calls starting at call `n`. -/
def phList (d : Dialect) (n count : Nat) : List Text :=
  (List.range count).map (fun i => d.ph (n + i))

/-- `sql_select`, helper.rs:147-151. -/
def sqlSelect (d : Dialect) (cols : List String) (table : String) : Text :=
  lit "SELECT " ++ listColumns d cols ++ lit " FROM " ++ quoteWord d table

/-- `sql_insert_with_placeholders`, helper.rs:153-172. -/
def sqlInsert (d : Dialect) (table : String) (cols : List String) : Text :=
  lit "INSERT INTO " ++ quoteWord d table ++ lit " " ++
  (match cols with
   | [] => lit "DEFAULT VALUES "
   | _ => lit "(" ++ listColumns d cols ++ lit ") VALUES (" ++
          commaSep (phList d 0 cols.length) ++ lit ")")

/-- The assignments of `sql_update_with_placeholders`, helper.rs:183-193. -/
def sqlAssigns (d : Dialect) : List String → Nat → List Text
  | [], _ => []
  | c :: rest, n => (quoteWord d c ++ lit " = " ++ d.ph n) :: sqlAssigns d rest (n + 1)

/-- `sql_update_with_placeholders`, helper.rs:175-201. -/
def sqlUpdate (d : Dialect) (table pkcol : String) (cols : List String) : Text :=
  lit "UPDATE " ++ quoteWord d table ++ lit " SET " ++ commaSep (sqlAssigns d cols 0) ++
  lit " WHERE " ++ quoteWord d pkcol ++ lit " = " ++ d.ph cols.length

/-- `sql_limit`, helper.rs:203-205. -/
def sqlLimit (n : Int32) : Text := lit " LIMIT " ++ intText n.toInt

/-- `sql_offset`, helper.rs:207-209. -/
def sqlOffset (n : Int32) : Text := lit " OFFSET " ++ intText n.toInt

/-- `sql_order`, helper.rs:212-222. -/
def sqlOrder (d : Dialect) (os : List Order) : Text :=
  lit " ORDER BY " ++ commaSep (os.map fun o =>
    quoteWord d o.column ++ lit " " ++ (match o.direction with | .asc => lit "ASC" | .desc => lit "DESC"))

/-- A generated statement with the values bound to it. -/
structure Stmt where
  text : Text
  params : List SqlVal
deriving DecidableEq, Repr

/-- The `WHERE` clause of `query` (db/sqlite.rs:248-256, db/pg.rs:188-196). -/
def whereClause (d : Dialect) : Option BoolExpr → Frag
  | none => ⟨[], [], 0⟩
  | some e => let f := renderBool d e 0; ⟨lit " WHERE " ++ f.text, f.vals, f.n⟩

/-- `Option<&[Order]>`, as `fetch` passes it (query/mod.rs:232-236): `None` when there
is no ordering. -/
def orderClause (d : Dialect) : List Order → Text
  | [] => []
  | o :: os => sqlOrder d (o :: os)

/-- `ConnectionMethods::query` of SQLite, db/sqlite.rs:236-283. -/
def sqliteQuery (kw : String → Bool) (table : String) (cols : List String)
    (e : Option BoolExpr) (limit offset : Option Int32) (sort : List Order) : Stmt :=
  let d := sqliteDialect kw
  let w := whereClause d e
  ⟨sqlSelect d cols table ++ w.text ++ orderClause d sort ++
    (match limit with | some l => sqlLimit l | none => []) ++
    (match offset with
     | some o =>
       (match limit with | some _ => [] | none => sqlLimit 2147483647) ++ sqlOffset o
     | none => []),
   w.vals⟩

/-- `ConnectionMethods::query` of PostgreSQL, db/pg.rs:176-210. -/
def pgQuery (kw : String → Bool) (table : String) (cols : List String)
    (e : Option BoolExpr) (limit offset : Option Int32) (sort : List Order) : Stmt :=
  let d := pgDialect kw
  let w := whereClause d e
  ⟨sqlSelect d cols table ++ w.text ++ orderClause d sort ++
    (match limit with | some l => sqlLimit l | none => []) ++
    (match offset with | some o => sqlOffset o | none => []),
   w.vals⟩

/-- `delete_where`, db/sqlite.rs:368-390 and db/pg.rs:327-346. -/
def sqlDelete (d : Dialect) (table : String) (e : BoolExpr) : Stmt :=
  let f := renderBool d e 0
  ⟨lit "DELETE FROM " ++ quoteWord d table ++ lit " WHERE " ++ f.text, f.vals⟩

/-- `sql_insert_or_update`, db/sqlite.rs:878-913, and
`sql_insert_or_replace_with_placeholders`, db/pg.rs:870-911.  `phs` are the texts of the
placeholders, which both functions write themselves. -/
def sqlUpsert (d : Dialect) (phs : List Text) (table : String) (cols : List String)
    (pkcol : String) : Text :=
  lit "INSERT INTO " ++ quoteWord d table ++ lit " (" ++ listColumns d cols ++
  lit ") VALUES (" ++ commaSep phs ++ lit ")" ++
  lit " ON CONFLICT (" ++ quoteWord d pkcol ++ lit ") DO " ++
  (if cols.length > 1 then
    lit "UPDATE SET (" ++ listColumns d cols ++ lit ") = (" ++
      commaSep (cols.map fun c => lit "excluded." ++ quoteWord d c) ++ lit ")"
   else lit "NOTHING")

/-- SQLite's upsert: every placeholder is `?`, db/sqlite.rs:883-886. -/
def sqliteUpsert (kw : String → Bool) (table : String) (cols : List String) (pkcol : String) :
    Text :=
  sqlUpsert (sqliteDialect kw) (cols.map fun _ => lit "?") table cols pkcol

/-- PostgreSQL's upsert: `$1`, `$2`, .. from an `i32` counter, db/pg.rs:880-884 (the
counter does not overflow below 2^31 columns). -/
def pgUpsert (kw : String → Bool) (table : String) (cols : List String) (pkcol : String) :
    Text :=
  sqlUpsert (pgDialect kw)
    ((List.range cols.length).map fun i => '$' :: natText (i + 1)) table cols pkcol

end Butane
