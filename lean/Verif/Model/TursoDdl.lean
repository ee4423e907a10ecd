/-
The Turso backend: the SQL of migrations, and how a script is executed.
Models butane_core/src/db/turso.rs:112-125,322-335,943-1177.
-/
import Verif.Model.Ddl

namespace Butane.TursoDdl

/-- `str::len`: the number of bytes in UTF-8. -/
def byteLen (t : Text) : Nat := (t.map Char.utf8Size).sum

/-- `create_table`, db/turso.rs:962-995: on one line, or one line for each column and constraint
if that is longer than 120 bytes.  `define_column`, `define_constraint`, `col_sqltype` and
`sqltype`, db/turso.rs:997-1066, are the same as those of SQLite. -/
def createTable (kw : String → Bool) (t : ATable) (ifNotExists : Bool) : Gen Text :=
  (Gen.mapM (SqliteDdl.defineColumn kw) t.columns).bind fun defs =>
    (Gen.mapM (fun (p : AColumn × ARef) => SqliteDdl.defineConstraint kw p.1 p.2)
      (t.columns.filterMap fun c => c.reference.map fun r => (c, r))).bind fun cons =>
      let all := defs ++ cons
      let pre := lit "CREATE TABLE " ++ (if ifNotExists then lit "IF NOT EXISTS " else []) ++
        quoteName kw t.name ++ lit " ("
      let single := pre ++ joinText (lit ", ") all ++ lit ");"
      .ok (if byteLen single ≤ 120 then single
        else pre ++ lit "\n" ++ joinText (lit ",\n") (all.map fun d => lit "    " ++ d) ++
          lit "\n);")

/-- `copy_table`, db/turso.rs:1100-1128. -/
def copyTable (kw : String → Bool) (old new : ATable) : Text :=
  let names := new.columns.map fun c => quoteName kw c.name
  let single := lit "INSERT INTO " ++ quoteName kw new.name ++ lit " SELECT " ++
    joinText (lit ", ") names ++ lit " FROM " ++ quoteName kw old.name ++ lit ";"
  if byteLen single ≤ 120 then single
  else lit "INSERT INTO " ++ quoteName kw new.name ++ lit " SELECT\n    " ++
    joinText (lit ",\n    ") names ++ lit "\nFROM " ++ quoteName kw old.name ++ lit ";"

/-- `change_column`, db/turso.rs:1134-1177.  `drop_table`, db/turso.rs:1068-1070, and
`tmp_table_name`, db/turso.rs:1130-1132, are the same as those of SQLite. -/
def changeColumn (kw : String → Bool) (current : ADB) (table : String) (old : AColumn)
    (new : Option AColumn) : Gen (Text × ADB) :=
  match current.getTable table with
  | none => .ok ([], current)
  | some oldTable =>
    let changed := SqliteDdl.changedTable oldTable old new
    let tmp : ATable := { changed with name := SqliteDdl.tmpName oldTable.name }
    (createTable kw tmp false).bind fun create =>
      .ok (joinText (lit "\n")
          [create, copyTable kw oldTable tmp, SqliteDdl.dropTable kw oldTable.name,
           lit "ALTER TABLE " ++ quoteName kw tmp.name ++ lit " RENAME TO " ++
             quoteName kw table ++ lit ";"],
        current.replaceTable changed)

/-- `remove_column`, db/turso.rs:1082-1098. -/
def removeColumn (kw : String → Bool) (current : ADB) (table name : String) : Gen (Text × ADB) :=
  match current.getTable table with
  | none => .err .tableNotFound
  | some t =>
    match t.column name with
    | none => .err .columnNotFound
    | some c =>
      if c.reference.isSome then changeColumn kw current table c none
      else .ok (lit "ALTER TABLE " ++ quoteName kw table ++ lit " DROP COLUMN " ++
        quoteName kw name ++ lit ";", current)

/-- `sql_for_op`, db/turso.rs:943-960; `add_column`, db/turso.rs:1072-1080, is the same as that of
SQLite. -/
def sqlForOp (kw : String → Bool) (p : LitPrinters) (current : ADB) : Operation → Gen (Text × ADB)
  | .addTable t => (createTable kw t false).bind fun s => .ok (s, current)
  | .addTableIfNotExists t => (createTable kw t true).bind fun s => .ok (s, current)
  | .removeTable n => .ok (SqliteDdl.dropTable kw n, current)
  | .addColumn t c => (SqliteDdl.addColumn kw p t c).bind fun s => .ok (s, current)
  | .removeColumn t n => removeColumn kw current t n
  | .changeColumn t old new => changeColumn kw current t old (some new)
  | .addTableConstraints _ => .ok ([], current)
  | .removeTableConstraints _ => .ok ([], current)

/-- The loop of `create_migration_sql`, db/turso.rs:114-122. -/
def opTexts (kw : String → Bool) (p : LitPrinters) : ADB → List Operation → Gen (List Text)
  | _, [] => .ok []
  | current, op :: ops =>
    (sqlForOp kw p current op).bind fun r =>
      (opTexts kw p (r.2.transformWith op) ops).bind fun ts => .ok (r.1 :: ts)

/-- `create_migration_sql`, db/turso.rs:112-125. -/
def migrationSql (kw : String → Bool) (p : LitPrinters) (current : ADB) (ops : List Operation) :
    Gen Text :=
  (opTexts kw p current ops).bind fun ts =>
    .ok (joinText (lit "\n") (ts.filter fun t => !t.isEmpty) ++ lit "\n")

/-! ### Executing a script -/

/-- `char::is_whitespace`: the characters with the property `White_Space` of Unicode. -/
def isSpace (c : Char) : Bool :=
  let n := c.toNat
  (decide (9 ≤ n) && decide (n ≤ 13)) || n == 32 || n == 0x85 || n == 0xa0 || n == 0x1680 ||
    (decide (0x2000 ≤ n) && decide (n ≤ 0x200a)) || n == 0x2028 || n == 0x2029 || n == 0x202f ||
    n == 0x205f || n == 0x3000

/-- `str::trim`. -/
def trim (t : Text) : Text := ((t.dropWhile isSpace).reverse.dropWhile isSpace).reverse

/-- `sql.split(';')`. -/
def splitSemicolons : Text → List Text
  | [] => [[]]
  | c :: cs =>
    if c = ';' then [] :: splitSemicolons cs
    else
      match splitSemicolons cs with
      | p :: ps => (c :: p) :: ps
      | [] => [[c]]

/-- The statements of a script, db/turso.rs:328. -/
def statements (sql : Text) : List Text :=
  ((splitSemicolons sql).map trim).filter fun s => !s.isEmpty

/-- The loop of `execute`, db/turso.rs:328-333, where `send` is `turso::Connection::execute`: an
error stops. -/
def sendEach {D : Type} (send : D → Text → Option D) : D → List Text → Option D
  | db, [] => some db
  | db, t :: ts => (send db t).bind fun db' => sendEach send db' ts

/-- `execute`, db/turso.rs:322-335. -/
def execute {D : Type} (send : D → Text → Option D) (db : D) (sql : Text) : Option D :=
  sendEach send db (statements sql)

end Butane.TursoDdl
