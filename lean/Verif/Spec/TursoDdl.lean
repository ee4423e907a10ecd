/-
How Turso executes schema statements.  Turso reads and executes statements as SQLite does
(Spec/Ddl.lean), one at a time; tables need not be STRICT.
-/
import Verif.Spec.DdlMigrate

namespace Butane.Ddl

/-- A Turso database: how values are stored in the columns of its tables (for tables that are not
STRICT by the affinity of the column), and whether a table can be renamed in the transaction that
created it (the code says that it cannot, db/turso.rs:1156-1160). -/
structure TursoEnv where
  store : SqliteEnv
  renames : Bool

/-- Execute a statement. -/
def tursoExec (e : TursoEnv) (db : SDb) : DStmt → Option SDb
  | .createTable ifNot n cols fks _ => exec e.store db (.createTable ifNot n cols fks true)
  | .renameTable a b => if e.renames then exec e.store db (.renameTable a b) else none
  | s => exec e.store db s

/-- Execute statements in order; an error stops. -/
def tursoAll (e : TursoEnv) : SDb → List DStmt → Option SDb
  | db, [] => some db
  | db, s :: ss =>
    match tursoExec e db s with
    | some db' => tursoAll e db' ss
    | none => none

/-- Execute one text as one statement. -/
def tursoSend (e : TursoEnv) (reserved : String → Bool) (db : SDb) (text : List Char) :
    Option SDb :=
  match parse true reserved text with
  | some [s] => tursoExec e db s
  | _ => none

/-- Execute texts in order, each as one statement; an error stops. -/
def tursoSendAll (e : TursoEnv) (reserved : String → Bool) : SDb → List (List Char) → Option SDb
  | db, [] => some db
  | db, t :: ts =>
    match tursoSend e reserved db t with
    | some db' => tursoSendAll e reserved db' ts
    | none => none

/-- Where a position of a script is: outside quotes, in a string, or in a quoted name. -/
inductive Quote where
  | outside | string | name
deriving DecidableEq, Repr

/-- A semicolon occurs between quotes. -/
def semicolonQuoted : Quote → List Char → Bool
  | _, [] => false
  | .outside, '\'' :: r => semicolonQuoted .string r
  | .outside, '"' :: r => semicolonQuoted .name r
  | .outside, _ :: r => semicolonQuoted .outside r
  | .string, '\'' :: r => semicolonQuoted .outside r
  | .string, c :: r => c == ';' || semicolonQuoted .string r
  | .name, '"' :: r => semicolonQuoted .outside r
  | .name, c :: r => c == ';' || semicolonQuoted .name r

end Butane.Ddl
