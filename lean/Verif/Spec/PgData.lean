/-
How PostgreSQL executes the statements that read and change rows.  Environment side, written from
the SQL language and the documentation of PostgreSQL; it does not use the code generator.

Simplifications: those of Spec/Sql.lean (names are compared case-sensitively); a statement either
succeeds or leaves the database as it was; constraints are not deferred; there are no triggers or
rules, and no `ON DELETE` actions (butane writes none).  The number the sequence of a `SERIAL` column
gives next is an argument (sequences do not look at the rows, and numbers may be left out), the same for
every such column of a table.  A parameter inside of a subquery has no type: butane's operations on
objects write none.
-/
import Verif.Spec.Stmt
import Verif.Spec.Ddl
import Verif.Spec.Convert

namespace Butane.PgData
open Butane
open Butane.Sql (SStmt Operand Cond)

/-- A column: its type; whether it may be NULL; whether its default is the next number of a sequence;
otherwise its default; whether it is a key or otherwise unique. -/
structure Column where
  name : String
  type : PgType
  notNull : Bool
  serial : Bool
  default : PgVal
  unique : Bool
deriving DecidableEq, Repr

/-- A row: the values of the columns. -/
abbrev PRow := String → PgVal

structure Table where
  cols : List Column
  fks : List Ddl.RefCon
  rows : List PRow

abbrev PDb := SMap String Table

/-- What the rest of PostgreSQL decides: how values are compared and ordered; and which values of a type
it refuses to store (a text with a NUL, a date out of range). -/
structure Server where
  rel : Sql.Compare
  le : Sql.DbVal → Sql.DbVal → Bool
  refuses : PgVal → Bool

/-- A value as conditions see it. -/
def seen (v : PgVal) : Sql.DbVal := Sql.toDb (fromPg v)

def names (t : Table) : List String := t.cols.map (·.name)

/-- A row as conditions see it. -/
def seenRow (t : Table) (r : PRow) : Sql.Row := ⟨(names t).contains, fun c => seen (r c)⟩

/-- A database as conditions see it. -/
def seenDb (db : PDb) : Sql.Db where
  has n := (db.lookup n).isSome
  rows n := match db.lookup n with | some t => t.rows.map (seenRow t) | none => []

/-! ### Types -/

/-- The value is NULL or of the type. -/
def ofType : PgType → PgVal → Bool
  | _, .null => true
  | .bool, .bool _ => true
  | .int4, .int4 _ => true
  | .int8, .int8 _ => true
  | .float8, .float8 _ => true
  | .text, .text _ => true
  | .bytea, .bytea _ => true
  | .jsonb, .jsonb _ => true
  | .date, .date _ => true
  | .timestamp, .timestamp _ => true
  | .other n, .other m _ => decide (n = m)
  | _, _ => false

/-- The type of a column. -/
def colType (t : Table) (c : String) : Option PgType := (t.cols.find? (·.name = c)).map (·.type)

/-- A parameter next to a column. -/
def beside : Operand → Operand → List (Nat × String)
  | .col _ c, .param k => [(k, c)]
  | .param k, .col _ c => [(k, c)]
  | _, _ => []

mutual
/-- The parameters in a condition, each with the column it is compared with. -/
def condUses : Cond → List (Nat × String)
  | .cmp _ a b => beside a b
  | .inList a bs => bs.flatMap (beside a)
  | .not c => condUses c
  | .all cs => condsUses cs
  | .any cs => condsUses cs
  | _ => []
def condsUses : List Cond → List (Nat × String)
  | [] => []
  | c :: cs => condUses c ++ condsUses cs
end

/-- A parameter that is put into a column. -/
def assigned (c : String) : Operand → Option (Nat × String)
  | .param k => some (k, c)
  | _ => none

/-- The parameters of a statement, each with the column it is put into or compared with. -/
def uses : SStmt → List (Nat × String)
  | .select s => match s.cond with | some c => condUses c | none => []
  | .delete _ c => condUses c
  | .insert _ cols vals _ _ => (cols.zip vals).filterMap fun p => assigned p.1 p.2
  | .update _ sets c => (sets.filterMap fun p => assigned p.1 p.2) ++ condUses c

/-- The table of a statement. -/
def tableOf : SStmt → String
  | .select s => s.table
  | .delete n _ => n
  | .insert n _ _ _ _ => n
  | .update n _ _ => n

/-- The type PostgreSQL gives a parameter whose type was not declared: that of the column. -/
def paramType (db : PDb) (s : SStmt) (k : Nat) : Option PgType :=
  match db.lookup (tableOf s), (uses s).lookup k with
  | some t, some c => colType t c
  | _, _ => none

/-- Values of the two types can be compared: they are the same type or integers; a parameter of type
`unknown` takes the type of the column. -/
def comparable : PgType → PgType → Bool
  | .int4, .int8 => true
  | .int8, .int4 => true
  | _, .other "unknown" => true
  | a, b => decide (a = b)

/-! ### Constraints -/

/-- The row has values of the right types, which can be stored, and no NULL where there must not be one. -/
def rowOk (S : Server) (t : Table) (r : PRow) : Bool :=
  t.cols.all fun d => ofType d.type (r d.name) && !S.refuses (r d.name) &&
    !(d.notNull && decide (r d.name = .null))

/-- The two values are equal and not NULL. -/
def same (S : Server) (a b : PgVal) : Bool := decide (Sql.cmp3 S.rel .eq (seen a) (seen b) = some true)

/-- No two rows have the same value in a unique column. -/
def uniqueOk (S : Server) (t : Table) : Bool :=
  t.cols.all fun d => !d.unique ||
    decide (t.rows.Pairwise fun r s => same S (r d.name) (s d.name) = false)

/-- Every foreign key is NULL or refers to a row. -/
def refsOk (S : Server) (db : PDb) (t : Table) : Bool :=
  t.fks.all fun fk => t.rows.all fun r => decide (r fk.col = .null) ||
    match db.lookup fk.table with
    | some p => p.rows.any fun s => same S (s fk.refCol) (r fk.col)
    | none => false

/-- All constraints of the database hold. -/
def valid (S : Server) (db : PDb) : Bool :=
  db.all fun e => e.2.rows.all (rowOk S e.2) && uniqueOk S e.2 && refsOk S db e.2

/-- The rows of a table become these, if the constraints hold then. -/
def putRows (S : Server) (db : PDb) (n : String) (t : Table) (rows : List PRow) : Option PDb :=
  if valid S (db.insert n { t with rows := rows }) then some (db.insert n { t with rows := rows })
  else none

/-! ### Execution -/

/-- Whether a condition is true of a row; `none` is an error. -/
def holdsFor (S : Server) (db : PDb) (ps : List PgVal) (n : String) (t : Table) (c : Cond) (r : PRow) :
    Option Bool :=
  (Sql.evalCond S.rel (seenDb db) (ps.map seen) [[(n, seenRow t r)]] c).map fun b => decide (b = some true)

/-- The value of an operand, where columns refer to the named rows. -/
def operand (t : Table) (ps : List PgVal) (rows : List (String × PRow)) : Operand → Option PgVal
  | .param k => ps[k]?
  | .null => some .null
  | .int _ => none
  | .col q c =>
    match rows.filter (fun r => q = none || q = some r.1) with
    | [r] => if (names t).contains c then some (r.2 c) else none
    | _ => none

/-- The number of a sequence in a column. -/
def number (key : Int64) : PgType → Option PgVal
  | .int4 => if -2147483648 ≤ key.toInt ∧ key.toInt ≤ 2147483647 then some (.int4 key.toInt32) else none
  | .int8 => some (.int8 key)
  | _ => none

/-- The value of a column in a new row: the one given, otherwise the default. -/
def newValue (key : Int64) (given : List (String × PgVal)) (d : Column) : Option PgVal :=
  match given.lookup d.name with
  | some v => some v
  | none => if d.serial then number key d.type else some d.default

/-- A new row. -/
def newRow (key : Int64) (t : Table) (given : List (String × PgVal)) : Option PRow :=
  match Sql.mapOk (fun d => (newValue key given d).map fun v => (d.name, v)) t.cols with
  | some vs => some fun c => (vs.lookup c).getD .null
  | none => none

/-- A row with some columns set. -/
def setRow (sets : List (String × PgVal)) (r : PRow) : PRow := fun c => (sets.lookup c).getD (r c)

/-- Execute a statement that changes rows: the new database and the value of `RETURNING`; `none` is an
error. -/
def execData (S : Server) (db : PDb) (key : Int64) (ps : List PgVal) :
    SStmt → Option (PDb × Option PgVal)
  | .select _ => none
  | .delete n c =>
    match db.lookup n with
    | none => none
    | some t =>
      match Sql.mapOk (fun r => (holdsFor S db ps n t c r).map fun b => if b then none else some r)
          t.rows with
      | some rows => (putRows S db n t (rows.filterMap id)).map fun db' => (db', none)
      | none => none
  | .update n sets c =>
    match db.lookup n with
    | none => none
    | some t =>
      if sets.all fun s => (names t).contains s.1 then
        match Sql.mapOk (fun r =>
            match holdsFor S db ps n t c r, Sql.mapOk (operand t ps [(n, r)]) (sets.map (·.2)) with
            | some true, some vs => some (setRow ((sets.map (·.1)).zip vs) r)
            | some false, some _ => some r
            | _, _ => none) t.rows with
        | some rows => (putRows S db n t rows).map fun db' => (db', none)
        | none => none
      else none
  | .insert n cols vals conflict ret =>
    match db.lookup n with
    | none => none
    | some t =>
      if cols.all (names t).contains && cols.length == vals.length && ret.all (names t).contains then
        match Sql.mapOk (operand t ps []) vals with
        | none => none
        | some vs =>
          match newRow key t (cols.zip vs) with
          | none => none
          | some new =>
            if rowOk S t new then
              match conflict with
              | none => (putRows S db n t (t.rows ++ [new])).map fun db' => (db', ret.map new)
              | some ⟨kc, what⟩ =>
                if t.cols.any fun d => decide (d.name = kc) && d.unique then
                  if t.rows.any fun r => same S (r kc) (new kc) then
                    match what with
                    | none => some (db, none)
                    | some (cs, os) =>
                      if cs.length == os.length && cs.all (names t).contains then
                        match Sql.mapOk (fun r =>
                            if same S (r kc) (new kc) then
                              (Sql.mapOk (operand t ps [(n, r), ("excluded", new)]) os).map fun ws =>
                                setRow (cs.zip ws) r
                            else some r) t.rows with
                        | some rows => (putRows S db n t rows).map fun db' => (db', ret.map new)
                        | none => none
                      else none
                  else (putRows S db n t (t.rows ++ [new])).map fun db' => (db', ret.map new)
                else none
            else none
      else none

/-- The possible results of a query with bound values of declared types; `none` is an error. -/
def QueryRows (S : Server) (reserved : String → Bool) (db : PDb) (text : List Char)
    (types : List PgType) (ps : List PgVal) (out : Option (List (List PgVal))) : Prop :=
  match Sql.parseStmt false (Sql.lex reserved text) with
  | some (.select s) =>
    match db.lookup s.table with
    | none => out = none
    | some t =>
      if (uses (.select s)).all fun p =>
          match colType t p.2, types[p.1]? with
          | some a, some b => comparable a b
          | _, _ => false then
        match Sql.selectTrue
            (fun r => Sql.whereTrue S.rel (seenDb db) (ps.map seen) s.table s.cond (seenRow t r)) t.rows,
          Sql.readCount false none s.limit, Sql.readCount false (some 0) s.offset with
        | some rows, some l, some o =>
          if s.cols.all (names t).contains && s.order.all (fun c => (names t).contains c.1) then
            ∃ arranged : List PRow, arranged.Perm rows ∧
              arranged.Pairwise (fun a b => Sql.Before S.le s.order (seenRow t a) (seenRow t b)) ∧
              out = some ((Sql.slice l o arranged).map fun r => s.cols.map r)
          else out = none
        | _, _, _ => out = none
      else out = none
  | _ => out = none

/-- The types in which values are equal only if identical: not floats, and not types of others. -/
def exactType : PgType → Bool
  | .float8 => false
  | .other _ => false
  | _ => true

/-- What PostgreSQL does with values: two values of such a type, neither of them NULL, are equal only if
identical. -/
structure Laws (S : Server) : Prop where
  eq : ∀ ty a b, exactType ty = true → ofType ty a = true → ofType ty b = true → a ≠ .null → b ≠ .null →
    (S.rel .eq (seen a) (seen b) = true ↔ a = b)

end Butane.PgData
