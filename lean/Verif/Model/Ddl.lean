/-
Generation of the SQL text of migrations.
Models butane_core/src/db/helper.rs (defaults and literals) and the schema statements of
butane_core/src/db/sqlite.rs and butane_core/src/db/pg.rs.
-/
import Verif.Model.Adb
import Verif.Model.SqlGen
import Verif.Model.Convert

namespace Butane

/-- The errors of statement generation: `UnknownSqlType`, `NoCustomDefault`,
`LiteralForCustomUnsupported`, `TableNotFound`, `ColumnNotFound`, `InvalidAuto`. -/
inductive DdlErr where
  | unknownType | noCustomDefault | customLiteral | tableNotFound | columnNotFound | invalidAuto
deriving DecidableEq, Repr

/-- How generating a text ends. -/
inductive Gen (α : Type) where
  | ok (a : α)
  | err (e : DdlErr)
  | panic
deriving DecidableEq, Repr

/-- Continue with the value (`?`; a panic unwinds). -/
def Gen.bind {α β : Type} (x : Gen α) (f : α → Gen β) : Gen β :=
  match x with
  | .ok a => f a
  | .err e => .err e
  | .panic => .panic

/-- `iter().map(f).collect::<Result<Vec<_>>>()`: the first failure ends it. -/
def Gen.mapM {α β : Type} (f : α → Gen β) : List α → Gen (List β)
  | [] => .ok []
  | a :: as => (f a).bind fun b => (Gen.mapM f as).bind fun bs => .ok (b :: bs)

/-- The printers of other libraries that literals use: `Display` of `f64` (std) and of
`serde_json::Value`, and `chrono` with `%Y-%m-%d` and with `%Y-%m-%dT%H:%M:%S%.f`. -/
structure LitPrinters where
  real : F64 → Text
  json : String → Text
  date : Int → Text
  timestampT : Int → Text

/-- One upper-case hexadecimal digit. -/
def hexDigit (d : Nat) : Char := if d < 10 then Char.ofNat (48 + d) else Char.ofNat (55 + d)

/-- `hex::encode_upper`. -/
def hexUpper : List UInt8 → Text
  | [] => []
  | b :: bs => hexDigit (b.toNat / 16) :: hexDigit (b.toNat % 16) :: hexUpper bs

/-- Text between single quotes. -/
def squote (t : Text) : Text := '\'' :: t ++ ['\'']

/-- `sql_literal_value`, db/helper.rs:302-321.  Text is not escaped, JSON is not quoted, and a
date is quoted twice: by the argument of `format` and by the format itself. -/
def sqlLiteral (p : LitPrinters) : SqlVal → Gen Text
  | .null => .ok (lit "NULL")
  | .bool b => .ok (if b then lit "true" else lit "false")
  | .int i => .ok (intText i.toInt)
  | .bigInt i => .ok (intText i.toInt)
  | .real r => .ok (p.real r)
  | .text s => .ok (squote s.toList)
  | .blob b => .ok ('x' :: squote (hexUpper b))
  | .json j => .ok (p.json j)
  | .date d => .ok (squote (squote (p.date d)))
  | .timestamp t => .ok (squote (p.timestampT t))
  | .custom _ _ => .err .customLiteral

/-- The default of a type: the match in `column_default`, db/helper.rs:232-252.  The default of
`BigInt` is an `Int`.  The date is 0001-01-01, the first day counted by `chrono`. -/
def typeDefault : TypeIdentifier → Gen SqlVal
  | .ty .bool => .ok (.bool false)
  | .ty .int => .ok (.int 0)
  | .ty .bigInt => .ok (.int 0)
  | .ty .real => .ok (.real ⟨0⟩)
  | .ty .text => .ok (.text "")
  | .ty .blob => .ok (.blob [])
  | .ty .json => .ok (.json "null")
  | .ty .timestamp => .ok (.timestamp 0)
  | .ty .date => .ok (.date 1)
  | .ty (.custom _) => .err .noCustomDefault
  | .name _ => .err .noCustomDefault

/-- `column_default`, db/helper.rs:225-253. -/
def columnDefault (c : AColumn) : Gen SqlVal :=
  match c.default with
  | some v => .ok v
  | none =>
    if c.nullable then .ok .null
    else
      match c.typeid with
      | some t => typeDefault t
      | none => .err .unknownType

/-- `[..].join(sep)`. -/
def joinText (sep : Text) : List Text → Text
  | [] => []
  | [t] => t
  | t :: u :: rest => t ++ sep ++ joinText sep (u :: rest)

/-- A reserved word is quoted: `quote_reserved_word`, helper.rs:23-30, as in `quoteWord`. -/
def quoteName (kw : String → Bool) (w : String) : Text :=
  if kw w then '"' :: w.toList ++ ['"'] else w.toList

namespace SqliteDdl

/-- `col_sqltype`, db/sqlite.rs:756-764: nothing for an unknown type. -/
def colType (c : AColumn) : Gen Text :=
  match c.typeid with
  | some (.ty ty) =>
    match sqliteType ty with
    | some t => .ok t.name.toList
    | none => .panic
  | some (.name n) => .ok n.toList
  | none => .ok []

/-- The constraint texts of `define_column`, db/sqlite.rs:707-721. -/
def colConstraints (c : AColumn) : List Text :=
  (if c.nullable then [] else [lit "NOT NULL"]) ++
  (if c.pk then [lit "PRIMARY KEY"] else []) ++
  (if c.auto && !c.pk then [lit "AUTOINCREMENT"] else []) ++
  (if c.unique then [lit "UNIQUE"] else [])

/-- `define_column`, db/sqlite.rs:706-736. -/
def defineColumn (kw : String → Bool) (c : AColumn) : Gen Text :=
  (colType c).bind fun ty =>
    .ok (match colConstraints c with
      | [] => quoteName kw c.name ++ lit " " ++ ty
      | cs => quoteName kw c.name ++ lit " " ++ ty ++ lit " " ++ joinText (lit " ") cs)

/-- `define_constraint`, db/sqlite.rs:738-754; a deferred reference panics. -/
def defineConstraint (kw : String → Bool) (c : AColumn) (r : ARef) : Gen Text :=
  match r with
  | .literal t col => .ok (lit "FOREIGN KEY (" ++ quoteName kw c.name ++ lit ") REFERENCES " ++
      quoteName kw t ++ lit "(" ++ quoteName kw col ++ lit ")")
  | .deferred _ => .panic

/-- `create_table_constraints`, db/sqlite.rs:696-704.  Nothing but a line break separates two
constraints. -/
def tableConstraints (kw : String → Bool) (t : ATable) : Gen Text :=
  (Gen.mapM (fun (p : AColumn × ARef) => defineConstraint kw p.1 p.2)
    (t.columns.filterMap fun c => c.reference.map fun r => (c, r))).bind fun ts =>
      .ok (joinText (lit "\n") ts)

/-- `create_table`, db/sqlite.rs:675-694. -/
def createTable (kw : String → Bool) (t : ATable) (allowExists : Bool) : Gen Text :=
  (Gen.mapM (defineColumn kw) t.columns).bind fun defs =>
    (tableConstraints kw t).bind fun cons =>
      .ok (lit "CREATE TABLE " ++ (if allowExists then lit "IF NOT EXISTS " else []) ++
        quoteName kw t.name ++ lit " (\n" ++ joinText (lit ",\n") defs ++
        (if cons.isEmpty then [] else lit ",\n" ++ cons) ++ lit "\n) STRICT;")

/-- `drop_table`, db/sqlite.rs:785-787. -/
def dropTable (kw : String → Bool) (name : String) : Text :=
  lit "DROP TABLE " ++ quoteName kw name ++ lit ";"

/-- `add_column`, db/sqlite.rs:789-797. -/
def addColumn (kw : String → Bool) (p : LitPrinters) (table : String) (c : AColumn) : Gen Text :=
  (columnDefault c).bind fun dflt =>
    (defineColumn kw c).bind fun def_ =>
      (sqlLiteral p dflt).bind fun l =>
        .ok (lit "ALTER TABLE " ++ quoteName kw table ++ lit " ADD COLUMN " ++ def_ ++
          lit " DEFAULT " ++ l ++ lit ";")

/-- `copy_table`, db/sqlite.rs:820-833. -/
def copyTable (kw : String → Bool) (old new : ATable) : Text :=
  lit "INSERT INTO " ++ quoteName kw new.name ++ lit " SELECT " ++
    joinText (lit ", ") (new.columns.map fun c => quoteName kw c.name) ++ lit " FROM " ++
    quoteName kw old.name ++ lit ";"

/-- `tmp_table_name`, db/sqlite.rs:835-837. -/
def tmpName (name : String) : String := name ++ "__butane_tmp"

/-- The table `change_column` creates, under its final name, db/sqlite.rs:857-862. -/
def changedTable (old : ATable) (oldCol : AColumn) (new : Option AColumn) : ATable :=
  match new with
  | some c => old.replaceColumn c
  | none => old.removeColumn oldCol.name

/-- `change_column`, db/sqlite.rs:839-875: the statements, and the schema with the changed
table (`current.replace_table`). -/
def changeColumn (kw : String → Bool) (current : ADB) (table : String) (old : AColumn)
    (new : Option AColumn) : Gen (Text × ADB) :=
  match current.getTable table with
  | none => .ok ([], current)
  | some oldTable =>
    let changed := changedTable oldTable old new
    let tmp : ATable := { changed with name := tmpName oldTable.name }
    (createTable kw tmp false).bind fun create =>
      .ok (joinText (lit "\n")
          [create, copyTable kw oldTable tmp, dropTable kw oldTable.name,
           lit "ALTER TABLE " ++ quoteName kw tmp.name ++ lit " RENAME TO " ++
             quoteName kw table ++ lit ";"],
        current.replaceTable changed)

/-- `remove_column`, db/sqlite.rs:799-818. -/
def removeColumn (kw : String → Bool) (current : ADB) (table name : String) : Gen (Text × ADB) :=
  match current.getTable table with
  | none => .err .tableNotFound
  | some t =>
    match t.column name with
    | none => .err .columnNotFound
    | some c =>
      if c.reference.isSome then changeColumn kw current table c none
      else .ok (lit "ALTER TABLE " ++ quoteName kw table ++ lit " DROP COLUMN " ++
        quoteName kw name ++ lit ";", current)

/-- `sql_for_op`, db/sqlite.rs:662-673: the text and what `current` becomes. -/
def sqlForOp (kw : String → Bool) (p : LitPrinters) (current : ADB) : Operation → Gen (Text × ADB)
  | .addTable t => (createTable kw t false).bind fun s => .ok (s, current)
  | .addTableConstraints _ => .ok ([], current)
  | .addTableIfNotExists t => (createTable kw t true).bind fun s => .ok (s, current)
  | .removeTable n => .ok (dropTable kw n, current)
  | .removeTableConstraints _ => .ok ([], current)
  | .addColumn t c => (addColumn kw p t c).bind fun s => .ok (s, current)
  | .removeColumn t n => removeColumn kw current t n
  | .changeColumn t old new => changeColumn kw current t old (some new)

/-- The loop of `create_migration_sql`, db/sqlite.rs:85-93. -/
def opTexts (kw : String → Bool) (p : LitPrinters) : ADB → List Operation → Gen (List Text)
  | _, [] => .ok []
  | current, op :: ops =>
    (sqlForOp kw p current op).bind fun r =>
      (opTexts kw p (r.2.transformWith op) ops).bind fun ts => .ok (r.1 :: ts)

/-- `create_migration_sql`, db/sqlite.rs:84-96. -/
def migrationSql (kw : String → Bool) (p : LitPrinters) (current : ADB) (ops : List Operation) :
    Gen Text :=
  (opTexts kw p current ops).bind fun ts =>
    .ok (joinText (lit "\n") (ts.filter fun t => !t.isEmpty) ++ lit "\n")

end SqliteDdl

namespace PgDdl

/-- `col_sqltype`, db/pg.rs:699-730. -/
def colType (c : AColumn) : Gen Text :=
  match c.typeid with
  | none => .err .unknownType
  | some (.name n) => .ok n.toList
  | some (.ty ty) =>
    if c.auto then
      match ty with
      | .int => .ok (lit "SERIAL")
      | .bigInt => .ok (lit "BIGSERIAL")
      | _ => .err .invalidAuto
    else
      match ty with
      | .bool => .ok (lit "BOOLEAN")
      | .int => .ok (lit "INTEGER")
      | .bigInt => .ok (lit "BIGINT")
      | .real => .ok (lit "DOUBLE PRECISION")
      | .text => .ok (lit "TEXT")
      | .date => .ok (lit "DATE")
      | .timestamp => .ok (lit "TIMESTAMP")
      | .blob => .ok (lit "BYTEA")
      | .json => .ok (lit "JSONB")
      | .custom n => .ok n.toList

/-- The constraint texts of `define_column`, db/pg.rs:653-662. -/
def colConstraints (c : AColumn) : List Text :=
  (if c.nullable then [] else [lit "NOT NULL"]) ++
  (if c.pk then [lit "PRIMARY KEY"] else []) ++
  (if c.unique then [lit "UNIQUE"] else [])

/-- `define_column`, db/pg.rs:651-676. -/
def defineColumn (kw : String → Bool) (c : AColumn) : Gen Text :=
  (colType c).bind fun ty =>
    .ok (match colConstraints c with
      | [] => quoteName kw c.name ++ lit " " ++ ty
      | cs => quoteName kw c.name ++ lit " " ++ ty ++ lit " " ++ joinText (lit " ") cs)

/-- `create_table`, db/pg.rs:613-627. -/
def createTable (kw : String → Bool) (t : ATable) (allowExists : Bool) : Gen Text :=
  (Gen.mapM (defineColumn kw) t.columns).bind fun defs =>
    .ok (lit "CREATE TABLE " ++ (if allowExists then lit "IF NOT EXISTS " else []) ++
      quoteName kw t.name ++ lit " (\n" ++ joinText (lit ",\n") defs ++ lit "\n);")

/-- `define_fkey_constraint`, db/pg.rs:675-692; a deferred reference panics. -/
def defineFkey (kw : String → Bool) (table : String) (c : AColumn) (r : ARef) : Gen Text :=
  match r with
  | .literal t col => .ok (lit "ALTER TABLE " ++ quoteName kw table ++ lit " ADD FOREIGN KEY (" ++
      quoteName kw c.name ++ lit ") REFERENCES " ++ quoteName kw t ++ lit "(" ++
      quoteName kw col ++ lit ");")
  | .deferred _ => .panic

/-- The reference columns of a table with what they refer to. -/
def refColumns (t : ATable) : List (AColumn × ARef) :=
  t.columns.filterMap fun c => c.reference.map fun r => (c, r)

/-- `create_table_fkey_constraints`, db/pg.rs:629-637. -/
def addConstraints (kw : String → Bool) (t : ATable) : Gen Text :=
  (Gen.mapM (fun (p : AColumn × ARef) => defineFkey kw t.name p.1 p.2) (refColumns t)).bind
    fun ts => .ok (joinText (lit "\n") ts)

/-- `drop_table`, db/pg.rs:732-734. -/
def dropTable (kw : String → Bool) (name : String) : Text :=
  lit "DROP TABLE " ++ quoteName kw name ++ lit ";"

/-- `add_column`, db/pg.rs:736-749. -/
def addColumn (kw : String → Bool) (p : LitPrinters) (table : String) (c : AColumn) : Gen Text :=
  (columnDefault c).bind fun dflt =>
    (defineColumn kw c).bind fun def_ =>
      (sqlLiteral p dflt).bind fun l =>
        let stmt := lit "ALTER TABLE " ++ quoteName kw table ++ lit " ADD COLUMN " ++ def_ ++
          lit " DEFAULT " ++ l ++ lit ";"
        match c.reference with
        | none => .ok stmt
        | some r => (defineFkey kw table c r).bind fun f => .ok (joinText (lit "\n") [stmt, f])

/-- `remove_column`, db/pg.rs:751-757. -/
def removeColumn (kw : String → Bool) (table name : String) : Text :=
  lit "ALTER TABLE " ++ quoteName kw table ++ lit " DROP COLUMN " ++ quoteName kw name ++ lit ";"

/-- The beginning of every statement of `change_column`. -/
def alter (kw : String → Bool) (table : String) : Text := lit "ALTER TABLE " ++ quoteName kw table

/-- `change_column`, db/pg.rs:759-867, one list entry for each statement.  The names of
constraints are not quoted.  A column that stops being automatic, or becomes so, is not changed. -/
def changeStmts (kw : String → Bool) (p : LitPrinters) (table : String) (old new : AColumn) :
    Gen (List Text) :=
  let a := alter kw table
  let col := a ++ lit " ALTER COLUMN " ++ quoteName kw old.name
  let rename := if old.name ≠ new.name then
    [a ++ lit " RENAME COLUMN " ++ quoteName kw old.name ++ lit " TO " ++ quoteName kw new.name ++
      lit ";"] else []
  let retype : Gen (List Text) :=
    match old.typeid, new.typeid with
    | some t, some u =>
      if t ≠ u then (colType new).bind fun ty => .ok [col ++ lit " SET DATA TYPE " ++ ty ++ lit ";"]
      else .ok []
    | _, _ => .err .unknownType
  let nullable := if old.nullable ≠ new.nullable then
    [col ++ lit " " ++ (if new.nullable then lit "DROP" else lit "SET") ++ lit " NOT NULL;"] else []
  let key := if old.pk ≠ new.pk && new.pk then
    [a ++ lit " DROP CONSTRAINT IF EXISTS " ++ table.toList ++ lit "_pkey;",
     a ++ lit " ADD PRIMARY KEY (" ++ quoteName kw new.name ++ lit ");"] else []
  let unique := if old.unique ≠ new.unique then
    (if new.unique then [a ++ lit " ADD UNIQUE (" ++ quoteName kw new.name ++ lit ");"]
     else [a ++ lit " DROP CONSTRAINT " ++ table.toList ++ lit "_" ++ old.name.toList ++
       lit "_key;"]) else []
  let dflt : Gen (List Text) :=
    if optBeq SqlVal.beq old.default new.default then .ok []
    else
      match new.default with
      | none => .ok [col ++ lit " DROP DEFAULT;"]
      | some v => (sqlLiteral p v).bind fun l => .ok [col ++ lit " SET DEFAULT " ++ l ++ lit ";"]
  let reference : Gen (List Text) :=
    if optBeq ARef.beq old.reference new.reference then .ok []
    else
      let drop := if old.reference.isSome then
        [a ++ lit " DROP CONSTRAINT " ++ table.toList ++ lit "_" ++ old.name.toList ++
          lit "_fkey;"] else []
      match new.reference with
      | none => .ok drop
      | some r => (defineFkey kw table new r).bind fun f => .ok (drop ++ [f])
  retype.bind fun retype => dflt.bind fun dflt => reference.bind fun reference =>
    .ok (rename ++ retype ++ nullable ++ key ++ unique ++ dflt ++ reference)

/-- `change_column`, db/pg.rs:759-867. -/
def changeColumn (kw : String → Bool) (p : LitPrinters) (table : ATable) (old new : AColumn) :
    Gen Text :=
  (changeStmts kw p table.name old new).bind fun ts => .ok (joinText (lit "\n") ts)

/-- `remove_table_fkey_constraints` and `drop_fkey_constraints`, db/pg.rs:639-649, 697-701: each
reference column is changed to one without (`remove_reference`, adb.rs:490-492). -/
def removeConstraints (kw : String → Bool) (p : LitPrinters) (t : ATable) : Gen Text :=
  (Gen.mapM (fun (q : AColumn × ARef) => changeColumn kw p t q.1 { q.1 with reference := none })
    (refColumns t)).bind fun ts => .ok (joinText (lit "\n") ts)

/-- `sql_for_op`, db/pg.rs:588-611. -/
def sqlForOp (kw : String → Bool) (p : LitPrinters) (current : ADB) : Operation → Gen Text
  | .addTable t => createTable kw t false
  | .addTableConstraints t => addConstraints kw t
  | .addTableIfNotExists t => createTable kw t true
  | .removeTable n => .ok (dropTable kw n)
  | .removeTableConstraints t => removeConstraints kw p t
  | .addColumn t c => addColumn kw p t c
  | .removeColumn t n => .ok (removeColumn kw t n)
  | .changeColumn t old new =>
    match current.getTable t with
    | some table => changeColumn kw p table old new
    | none => .ok []

/-- `create_migration_sql`, db/pg.rs:50-58: `current` stays as it was. -/
def migrationSql (kw : String → Bool) (p : LitPrinters) (current : ADB) (ops : List Operation) :
    Gen Text :=
  (Gen.mapM (sqlForOp kw p current) ops).bind fun ts =>
    .ok (joinText (lit "\n") (ts.filter fun t => !t.isEmpty) ++ lit "\n")

end PgDdl

end Butane
