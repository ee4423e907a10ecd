/-
How SQLite executes the statements that read and change rows, on the tables that the schema
statements of Spec/Ddl.lean make.  Environment side, written from the SQL language and the
documentation of SQLite; it does not use the code generator.

Simplifications: those of Spec/Ddl.lean and Spec/Sql.lean; a statement either succeeds or leaves
the database as it was; a foreign key that was violated before a statement may stay violated (the
pragma `foreign_keys` may have been off then).
-/
import Verif.Spec.Ddl
import Verif.Spec.Stmt
import Verif.Spec.Convert

namespace Butane.Ddl
open Butane.Sql (SStmt Operand Cond)

/-- What SQLite does with values besides storing them: comparing two values, ordering them, and
choosing the key of a new row from the keys in use (`none` if there is no further key). -/
structure SqliteData where
  rel : Sql.Compare
  le : Sql.DbVal → Sql.DbVal → Bool
  newKey : List Int64 → Option Int64

/-- A stored value as conditions see it. -/
def seen : SqliteVal → Sql.DbVal
  | .null => .null
  | .integer i => .int i.toInt
  | .real r => .other (.real r)
  | .text s => .other (.text s)
  | .blob b => .other (.blob b)

/-- A row as conditions see it. -/
def seenRow (cols : List ColDef) (r : List SqliteVal) : Sql.Row where
  has c := (cols.map (·.name)).contains c
  val c := match field cols r c with | some v => seen v | none => .null

/-- A database as conditions see it. -/
def seenDb (db : SDb) : Sql.Db where
  has n := (db.lookup n).isSome
  rows n := match db.lookup n with | some t => t.rows.map (seenRow t.cols) | none => []

/-- Whether a condition is true of a row; `none` is an error. -/
def holdsFor (D : SqliteData) (db : SDb) (ps : List SqliteVal) (n : String) (cols : List ColDef)
    (c : Cond) (r : List SqliteVal) : Option Bool :=
  match Sql.evalCond D.rel (seenDb db) (ps.map seen) [[(n, seenRow cols r)]] c with
  | some b => some (decide (b = some true))
  | none => none

/-- The value of an operand, where columns refer to the named rows. -/
def operand (cols : List ColDef) (ps : List SqliteVal) (rows : List (String × List SqliteVal)) :
    Operand → Option SqliteVal
  | .param k => ps[k]?
  | .null => some .null
  | .int i => some (.integer (Int64.ofInt i))
  | .col t c =>
    match rows.filter (fun r => t = none || t = some r.1) with
    | [r] => field cols r.2 c
    | _ => none

/-- The keys in use. -/
def keysOf (t : STable) (c : String) : List Int64 :=
  t.rows.filterMap fun r => match field t.cols r c with | some (.integer i) => some i | _ => none

/-- The value of a column in a new row: the one given, otherwise the default, otherwise NULL; but an
`INTEGER PRIMARY KEY` is never NULL: it gets a new key. -/
def newValue (env : SqliteEnv) (D : SqliteData) (t : STable) (given : List (String × SqliteVal))
    (d : ColDef) : Option SqliteVal :=
  match (match given.lookup d.name with
    | some v => some v
    | none => d.default.elim (some .null) (litVal env)) with
  | some .null =>
    if d.pk && decide (d.type = ["INTEGER"]) then (D.newKey (keysOf t d.name)).map .integer
    else some .null
  | v => v

/-- A new row. -/
def newRow (env : SqliteEnv) (D : SqliteData) (t : STable) (given : List (String × SqliteVal)) :
    Option (List SqliteVal) :=
  match allSome (newValue env D t given) t.cols with
  | some vs => storeRow env t.cols vs
  | none => none

/-- A row with some columns set. -/
def setRow (env : SqliteEnv) (cols : List ColDef) (sets : List (String × SqliteVal))
    (r : List SqliteVal) : Option (List SqliteVal) :=
  storeRow env cols ((cols.zip r).map fun p => (sets.lookup p.1.name).getD p.2)

/-- A foreign key of a row is NULL or refers to a row. -/
def refOk (db : SDb) (cols : List ColDef) (r : List SqliteVal) (fk : RefCon) : Bool :=
  match field cols r fk.col with
  | some .null => true
  | some v =>
    match db.lookup fk.table with
    | some p => hasKey p fk.refCol v
    | none => false
  | none => false

/-- The rows of a table become these: no value may occur twice in a unique column, and no row may
violate a foreign key unless it was there before and violated it before. -/
def replaceRows (db : SDb) (n : String) (t : STable) (rows : List (List SqliteVal)) : Option SDb :=
  if uniqueOk t.cols rows &&
      (db.insert n { t with rows := rows }).all (fun e => e.2.fks.all fun fk => e.2.rows.all fun r =>
        refOk (db.insert n { t with rows := rows }) e.2.cols r fk ||
          (match db.lookup e.1 with
          | some s => s.rows.contains r && !refOk db e.2.cols r fk
          | none => false)) then
    some (db.insert n { t with rows := rows })
  else none

/-- The row has the value, which is not NULL, in the column. -/
def hasValue (cols : List ColDef) (c : String) (v : Option SqliteVal) (r : List SqliteVal) : Bool :=
  v ≠ some .null && v ≠ none && field cols r c = v

/-- Execute a statement that changes rows; `none` is an error. -/
def execData (env : SqliteEnv) (D : SqliteData) (db : SDb) (ps : List SqliteVal) : SStmt → Option SDb
  | .select _ => none
  | .delete n c =>
    match db.lookup n with
    | none => none
    | some t =>
      match allSome (fun r => (holdsFor D db ps n t.cols c r).map fun b => if b then none else some r)
          t.rows with
      | some rows => replaceRows db n t (rows.filterMap id)
      | none => none
  | .update n sets c =>
    match db.lookup n with
    | none => none
    | some t =>
      if sets.all fun s => (t.cols.map (·.name)).contains s.1 then
        match allSome (fun r =>
            match holdsFor D db ps n t.cols c r, allSome (operand t.cols ps [(n, r)]) (sets.map (·.2)) with
            | some true, some vs => setRow env t.cols ((sets.map (·.1)).zip vs) r
            | some false, some _ => some r
            | _, _ => none) t.rows with
        | some rows => replaceRows db n t rows
        | none => none
      else none
  | .insert n cols vals conflict _ =>
    match db.lookup n with
    | none => none
    | some t =>
      if cols.all (t.cols.map (·.name)).contains && cols.length = vals.length then
        match allSome (operand t.cols ps []) vals with
        | none => none
        | some vs =>
          match newRow env D t (cols.zip vs) with
          | none => none
          | some new =>
            match conflict with
            | none => replaceRows db n t (t.rows ++ [new])
            | some ⟨key, what⟩ =>
              if t.cols.any fun d => decide (d.name = key) && (d.pk || d.unique) then
                if t.rows.any (hasValue t.cols key (field t.cols new key)) then
                  match what with
                  | none => some db
                  | some (cs, os) =>
                    if cs.length = os.length && cs.all (t.cols.map (·.name)).contains then
                      match allSome (fun r =>
                          if hasValue t.cols key (field t.cols new key) r then
                            match allSome (operand t.cols ps [(n, r), ("excluded", new)]) os with
                            | some ws => setRow env t.cols (cs.zip ws) r
                            | none => none
                          else some r) t.rows with
                      | some rows => replaceRows db n t rows
                      | none => none
                    else none
                else replaceRows db n t (t.rows ++ [new])
              else none
      else none

/-- A statement text with bound values, executed. -/
def execDataText (env : SqliteEnv) (D : SqliteData) (reserved : String → Bool) (db : SDb)
    (text : List Char) (ps : List SqliteVal) : Option SDb :=
  match Sql.parseStmt true (Sql.lex reserved text) with
  | some s => execData env D db ps s
  | none => none

/-- The possible results of a query text with bound values: rows of the database's values.
`none` is an error. -/
def QueryRows (D : SqliteData) (reserved : String → Bool) (db : SDb) (text : List Char)
    (ps : List SqliteVal) (out : Option (List (List SqliteVal))) : Prop :=
  match Sql.parseStmt true (Sql.lex reserved text) with
  | some (.select s) =>
    Sql.SelectOut true D.rel D.le (seenDb db) (ps.map seen) s (out.map fun rows => rows.map (·.map seen))
  | _ => out = none

/-- The value is NULL or of the storage class. -/
def OfClass : SqliteType → SqliteVal → Prop
  | _, .null => True
  | .integer, .integer _ => True
  | .real, .real _ => True
  | .text, .text _ => True
  | .blob, .blob _ => True
  | _, _ => False

/-- The two values are of the same class, and not NULL or real. -/
def Comparable : SqliteVal → SqliteVal → Prop
  | .integer _, .integer _ => True
  | .text _, .text _ => True
  | .blob _, .blob _ => True
  | _, _ => False

/-- What SQLite does with values: a column of a STRICT table holds only values of its class; a value
of the class can be written, and the column then holds it; integers, texts and bytes are equal only
if identical; a new key is not in use. -/
structure DataLaws (env : SqliteEnv) (D : SqliteData) : Prop where
  stored : ∀ st v w, env.coerce st v = some w → OfClass st w
  write : ∀ st v, OfClass st v → ∃ w, env.coerce st v = some w ∧ Spec.ColumnHolds st v w
  eq : ∀ a b, Comparable a b → (D.rel .eq (seen a) (seen b) = true ↔ a = b)
  newKey : ∀ ks k, D.newKey ks = some k → k ∉ ks

end Butane.Ddl
