/-
How a database reads and executes the schema statements of a migration.
This is the environment's side of the contract; it is written from the SQL language and the
documentation of SQLite and does not use the code generator.

Simplifications: identifiers are compared case-sensitively; a doubled quote inside a quoted
identifier is not an escape; comments, and numbers with an exponent, are not read; values are
the same only if identical (butane's columns hold one class of value each); a NULL in an
automatic key is an error; the column a foreign key refers to is not required to be unique.
-/
import Verif.Common.SMap
import Verif.Spec.Sql
import Verif.Model.Convert

namespace Butane.Ddl
open Butane.Sql (upper isDigit isWordStart isWordChar)

/-! ### Tokens -/

inductive Tok where
  | kw (w : String)       -- a keyword of the grammar, upper-cased
  | ident (s : String)    -- an identifier, quoted or not
  | reserved (w : String) -- a reserved word the grammar below does not use
  | str (s : List Char)   -- '..', where '' is one quote
  | hex (s : List Char)   -- x'..'
  | num (s : List Char)   -- digits and points
  | minus | lparen | rparen | comma | semi
  | bad
deriving DecidableEq, Repr

/-- The words the grammar uses. -/
def grammarWords : List String :=
  ["CREATE", "TABLE", "IF", "NOT", "EXISTS", "NULL", "PRIMARY", "KEY", "AUTOINCREMENT", "UNIQUE",
   "FOREIGN", "REFERENCES", "DROP", "ALTER", "ADD", "COLUMN", "DEFAULT", "INSERT", "INTO",
   "SELECT", "FROM", "RENAME", "TO", "TRUE", "FALSE", "CONSTRAINT", "SET", "DATA", "TYPE"]

/-- An unquoted word: keyword, other reserved word, or identifier.  `reserved` says
which further words the database refuses as identifiers. -/
def wordTok (reserved : String → Bool) (cs : List Char) : Tok :=
  if upper cs ∈ grammarWords then .kw (upper cs)
  else if reserved (String.ofList cs) then .reserved (String.ofList cs)
  else .ident (String.ofList cs)

/-- What the tokenizer is in the middle of; `strQ` is after a quote inside a string, which ends
the string unless another follows. -/
inductive Mode where
  | idle
  | word (acc : List Char)
  | num (acc : List Char)
  | quoted (acc : List Char)
  | str (acc : List Char)
  | strQ (acc : List Char)
  | hex (acc : List Char)
deriving DecidableEq, Repr

/-- Reading a character between tokens. -/
def start (c : Char) : List Tok × Mode :=
  if isDigit c then ([], .num [c])
  else if isWordStart c then ([], .word [c])
  else if c = ' ' ∨ c = '\n' then ([], .idle)
  else if c = '(' then ([.lparen], .idle)
  else if c = ')' then ([.rparen], .idle)
  else if c = ',' then ([.comma], .idle)
  else if c = ';' then ([.semi], .idle)
  else if c = '-' then ([.minus], .idle)
  else if c = '"' then ([], .quoted [])
  else if c = '\'' then ([], .str [])
  else ([.bad], .idle)

/-- The pending token of a mode. -/
def pending (reserved : String → Bool) : Mode → List Tok
  | .idle => []
  | .word acc => [wordTok reserved acc.reverse]
  | .num acc => [.num acc.reverse]
  | .quoted _ => [.bad]
  | .str _ => [.bad]
  | .strQ acc => [.str acc.reverse]
  | .hex _ => [.bad]

/-- The mode's pending token is complete; `c` begins something new. -/
def flush (reserved : String → Bool) (m : Mode) (c : Char) : List Tok × Mode :=
  (pending reserved m ++ (start c).1, (start c).2)

/-- Reading one character. -/
def step (reserved : String → Bool) (m : Mode) (c : Char) : List Tok × Mode :=
  match m with
  | .idle => start c
  | .word acc =>
    if isWordChar c then ([], .word (c :: acc))
    else if c = '\'' ∧ (acc = ['x'] ∨ acc = ['X']) then ([], .hex [])
    else flush reserved m c
  | .num acc =>
    if isDigit c ∨ c = '.' then ([], .num (c :: acc))
    else if isWordChar c then ([.bad], .idle)
    else flush reserved m c
  | .quoted acc =>
    if c = '"' then ([.ident (String.ofList acc.reverse)], .idle) else ([], .quoted (c :: acc))
  | .str acc => if c = '\'' then ([], .strQ acc) else ([], .str (c :: acc))
  | .strQ acc => if c = '\'' then ([], .str ('\'' :: acc)) else flush reserved m c
  | .hex acc => if c = '\'' then ([.hex acc.reverse], .idle) else ([], .hex (c :: acc))

/-- Reading the rest of a text. -/
def lexFrom (reserved : String → Bool) : Mode → List Char → List Tok
  | m, [] => pending reserved m
  | m, c :: cs => (step reserved m c).1 ++ lexFrom reserved (step reserved m c).2 cs

/-- The tokens of a script. -/
def lex (reserved : String → Bool) (cs : List Char) : List Tok := lexFrom reserved .idle cs

/-! ### Grammar -/

/-- A literal after `DEFAULT`. -/
inductive Lit where
  | null
  | bool (b : Bool)
  | num (neg : Bool) (s : List Char)
  | str (s : List Char)
  | hex (s : List Char)
deriving DecidableEq, Repr

/-- A constraint of a column. -/
inductive Con where
  | notNull | primaryKey | unique
  | default (l : Lit)
deriving DecidableEq, Repr

/-- `FOREIGN KEY (col) REFERENCES table(refCol)`. -/
structure RefCon where
  col : String
  table : String
  refCol : String
deriving DecidableEq, Repr

/-- `name TYPE constraints`. -/
structure ColDef where
  name : String
  type : List String
  cons : List Con
deriving DecidableEq, Repr

inductive DStmt where
  | createTable (ifNotExists : Bool) (name : String) (cols : List ColDef) (fks : List RefCon)
      (strict : Bool)
  | dropTable (name : String)
  | addColumn (table : String) (col : ColDef)
  | dropColumn (table col : String)
  | insertSelect (dst : String) (cols : List String) (src : String)
  | renameTable (old new : String)
  | addForeignKey (table : String) (fk : RefCon)
  | setType (table col : String) (type : List String)
  | setNotNull (table col : String) (b : Bool)
  | setDefault (table col : String) (l : Option Lit)
  | addPrimaryKey (table col : String)
  | addUnique (table col : String)
  | dropConstraint (table name : String) (ifExists : Bool)
  | renameColumn (table old new : String)
deriving DecidableEq, Repr

/-- The literals of one token. -/
def litTok : Tok → Option Lit
  | .kw "NULL" => some .null
  | .kw "TRUE" => some (.bool true)
  | .kw "FALSE" => some (.bool false)
  | .num s => some (.num false s)
  | .str s => some (.str s)
  | .hex s => some (.hex s)
  | _ => none

/-- The literal a text is, by itself. -/
def readLiteral (reserved : String → Bool) (text : List Char) : Option Lit :=
  match lex reserved text with
  | [.minus, .num s] => some (.num true s)
  | [t] => litTok t
  | _ => none

/-- The words of a type name. -/
def pType : List Tok → List String × List Tok
  | .ident s :: r => (s :: (pType r).1, (pType r).2)
  | r => ([], r)

/-- The constraints of a column, until something else. -/
def pCons : List Tok → Option (List Con × List Tok)
  | .kw "NOT" :: .kw "NULL" :: r =>
    match pCons r with | some (cs, r') => some (.notNull :: cs, r') | none => none
  | .kw "PRIMARY" :: .kw "KEY" :: r =>
    match pCons r with | some (cs, r') => some (.primaryKey :: cs, r') | none => none
  | .kw "UNIQUE" :: r =>
    match pCons r with | some (cs, r') => some (.unique :: cs, r') | none => none
  | .kw "DEFAULT" :: .minus :: .num s :: r =>
    match pCons r with | some (cs, r') => some (.default (.num true s) :: cs, r') | none => none
  | .kw "DEFAULT" :: t :: r =>
    match litTok t, pCons r with
    | some l, some (cs, r') => some (.default l :: cs, r')
    | _, _ => none
  | r => some ([], r)

/-- A column definition. -/
def pColDef : List Tok → Option (ColDef × List Tok)
  | .ident n :: r =>
    match pCons (pType r).2 with
    | some (cs, r') => some (⟨n, (pType r).1, cs⟩, r')
    | none => none
  | _ => none

/-- The foreign keys at the end of a table definition.  In SQLite the comma between table
constraints may be missing. -/
def pFks (sqlite : Bool) : List Tok → Option (List RefCon × List Tok)
  | .kw "FOREIGN" :: .kw "KEY" :: .lparen :: .ident c :: .rparen :: .kw "REFERENCES" :: .ident t ::
      .lparen :: .ident rc :: .rparen :: r =>
    match r with
    | .rparen :: r' => some ([⟨c, t, rc⟩], r')
    | .comma :: r' =>
      match pFks sqlite r' with | some (fs, r'') => some (⟨c, t, rc⟩ :: fs, r'') | none => none
    | r' =>
      if sqlite then
        match pFks sqlite r' with | some (fs, r'') => some (⟨c, t, rc⟩ :: fs, r'') | none => none
      else none
  | _ => none

/-- The inside of a table definition with the closing parenthesis; the number bounds the
recursion. -/
def pBody (sqlite : Bool) : Nat → List Tok → Option (List ColDef × List RefCon × List Tok)
  | 0, _ => none
  | f + 1, ts =>
    match pColDef ts with
    | some (c, .rparen :: r) => some ([c], [], r)
    | some (c, .comma :: .kw "FOREIGN" :: r) =>
      match pFks sqlite (.kw "FOREIGN" :: r) with
      | some (fs, r') => some ([c], fs, r')
      | none => none
    | some (c, .comma :: r) =>
      match pBody sqlite f r with
      | some (cs, fs, r') => some (c :: cs, fs, r')
      | none => none
    | _ => none

/-- `name, name, ...`. -/
def pNames : List Tok → Option (List String × List Tok)
  | .ident c :: .comma :: r =>
    match pNames r with
    | some (cs, r') => some (c :: cs, r')
    | none => none
  | .ident c :: r => some ([c], r)
  | _ => none

/-- What follows `CREATE TABLE` and `IF NOT EXISTS`. -/
def pCreate (sqlite ifNot : Bool) : List Tok → Option DStmt
  | .ident n :: .lparen :: r =>
    match pBody sqlite r.length r with
    | some (cs, fs, []) => some (.createTable ifNot n cs fs false)
    | some (cs, fs, [.ident "STRICT"]) =>
      if sqlite then some (.createTable ifNot n cs fs true) else none
    | _ => none
  | _ => none

/-- What follows `ALTER TABLE t` in PostgreSQL besides the forms SQLite has too. -/
def pAlterPg (t : String) : List Tok → Option DStmt
  | [.kw "ADD", .kw "FOREIGN", .kw "KEY", .lparen, .ident c, .rparen, .kw "REFERENCES", .ident t',
      .lparen, .ident rc, .rparen] => some (.addForeignKey t ⟨c, t', rc⟩)
  | [.kw "ADD", .kw "PRIMARY", .kw "KEY", .lparen, .ident c, .rparen] => some (.addPrimaryKey t c)
  | [.kw "ADD", .kw "UNIQUE", .lparen, .ident c, .rparen] => some (.addUnique t c)
  | [.kw "DROP", .kw "CONSTRAINT", .ident n] => some (.dropConstraint t n false)
  | [.kw "DROP", .kw "CONSTRAINT", .kw "IF", .kw "EXISTS", .ident n] =>
    some (.dropConstraint t n true)
  | [.kw "RENAME", .kw "COLUMN", .ident a, .kw "TO", .ident b] => some (.renameColumn t a b)
  | [.kw "ALTER", .kw "COLUMN", .ident c, .kw "SET", .kw "NOT", .kw "NULL"] =>
    some (.setNotNull t c true)
  | [.kw "ALTER", .kw "COLUMN", .ident c, .kw "DROP", .kw "NOT", .kw "NULL"] =>
    some (.setNotNull t c false)
  | [.kw "ALTER", .kw "COLUMN", .ident c, .kw "DROP", .kw "DEFAULT"] => some (.setDefault t c none)
  | [.kw "ALTER", .kw "COLUMN", .ident c, .kw "SET", .kw "DEFAULT", .minus, .num s] =>
    some (.setDefault t c (some (.num true s)))
  | [.kw "ALTER", .kw "COLUMN", .ident c, .kw "SET", .kw "DEFAULT", l] =>
    match litTok l with
    | some l => some (.setDefault t c (some l))
    | none => none
  | .kw "ALTER" :: .kw "COLUMN" :: .ident c :: .kw "SET" :: .kw "DATA" :: .kw "TYPE" :: r =>
    match pType r with
    | (ty, []) => some (.setType t c ty)
    | _ => none
  | _ => none

/-- What follows `ALTER TABLE t`. -/
def pAlter (sqlite : Bool) (t : String) : List Tok → Option DStmt
  | .kw "ADD" :: .kw "COLUMN" :: r =>
    match pColDef r with
    | some (c, []) => some (.addColumn t c)
    | _ => none
  | [.kw "DROP", .kw "COLUMN", .ident c] => some (.dropColumn t c)
  | [.kw "RENAME", .kw "TO", .ident n] => some (.renameTable t n)
  | r => if sqlite then none else pAlterPg t r

/-- A whole statement, without the semicolon. -/
def parseStmt (sqlite : Bool) : List Tok → Option DStmt
  | .kw "CREATE" :: .kw "TABLE" :: .kw "IF" :: .kw "NOT" :: .kw "EXISTS" :: r =>
    pCreate sqlite true r
  | .kw "CREATE" :: .kw "TABLE" :: r => pCreate sqlite false r
  | [.kw "DROP", .kw "TABLE", .ident n] => some (.dropTable n)
  | .kw "ALTER" :: .kw "TABLE" :: .ident t :: r => pAlter sqlite t r
  | .kw "INSERT" :: .kw "INTO" :: .ident d :: .kw "SELECT" :: r =>
    match pNames r with
    | some (cs, [.kw "FROM", .ident s]) => some (.insertSelect d cs s)
    | _ => none
  | _ => none

/-- The statements between semicolons. -/
def splitSemi : List Tok → List (List Tok)
  | [] => [[]]
  | .semi :: r => [] :: splitSemi r
  | t :: r =>
    match splitSemi r with
    | s :: ss => (t :: s) :: ss
    | [] => [[t]]

/-- Read every statement of a script; empty statements are skipped. -/
def parseAll (sqlite : Bool) : List (List Tok) → Option (List DStmt)
  | [] => some []
  | [] :: r => parseAll sqlite r
  | (t :: s) :: r =>
    match parseStmt sqlite (t :: s), parseAll sqlite r with
    | some x, some xs => some (x :: xs)
    | _, _ => none

/-- Read a script. -/
def parse (sqlite : Bool) (reserved : String → Bool) (text : List Char) : Option (List DStmt) :=
  parseAll sqlite (splitSemi (lex reserved text))

/-! ### SQLite -/

/-- What SQLite does with values: converting a value for a column of a STRICT table (`none` if
that is not possible), and reading a numeral as a real. -/
structure SqliteEnv where
  coerce : SqliteType → SqliteVal → Option SqliteVal
  readReal : List Char → F64

/-- The column types of STRICT tables (`INT` and `ANY`, which butane does not use, are left out). -/
def strictType : List String → Option SqliteType
  | ["INTEGER"] => some .integer
  | ["REAL"] => some .real
  | ["TEXT"] => some .text
  | ["BLOB"] => some .blob
  | _ => none

/-- A table with its rows; a row has one value for each column. -/
structure STable where
  cols : List ColDef
  fks : List RefCon
  rows : List (List SqliteVal)
deriving DecidableEq, Repr

abbrev SDb := SMap String STable

def ColDef.notNull (c : ColDef) : Bool := c.cons.contains .notNull
def ColDef.pk (c : ColDef) : Bool := c.cons.contains .primaryKey
def ColDef.unique (c : ColDef) : Bool := c.cons.contains .unique
/-- The value after `DEFAULT`. -/
def ColDef.default (c : ColDef) : Option Lit :=
  c.cons.findSome? fun x => match x with | .default l => some l | _ => none

/-- The value of a column in a row. -/
def field (cols : List ColDef) (row : List SqliteVal) (c : String) : Option SqliteVal :=
  ((cols.map (·.name)).zip row).lookup c

def hexVal (c : Char) : Option Nat :=
  if isDigit c then some (c.toNat - 48)
  else if 65 ≤ c.toNat ∧ c.toNat ≤ 70 then some (c.toNat - 55)
  else if 97 ≤ c.toNat ∧ c.toNat ≤ 102 then some (c.toNat - 87)
  else none

/-- The bytes of a hexadecimal string. -/
def hexBytes : List Char → Option (List UInt8)
  | [] => some []
  | [_] => none
  | a :: b :: r =>
    match hexVal a, hexVal b, hexBytes r with
    | some x, some y, some bs => some (UInt8.ofNat (16 * x + y) :: bs)
    | _, _, _ => none

/-- The value of a string of digits. -/
def decimal (s : List Char) : Nat := s.foldl (fun n c => 10 * n + (c.toNat - 48)) 0

/-- The value of a literal: a numeral without a point that fits is an integer, other numerals are
reals; truth values are integers. -/
def litVal (env : SqliteEnv) : Lit → Option SqliteVal
  | .null => some .null
  | .bool b => some (.integer (if b then 1 else 0))
  | .num neg s =>
    let n : Int := if neg then -(decimal s : Int) else decimal s
    if s.all isDigit && decide (-2 ^ 63 ≤ n) && decide (n < 2 ^ 63) then
      some (.integer (Int64.ofInt n))
    else some (.real (env.readReal (if neg then '-' :: s else s)))
  | .str s => some (.text (String.ofList s))
  | .hex s => (hexBytes s).map .blob

/-- Storing values in the columns of a STRICT table. -/
def storeRow (env : SqliteEnv) : List ColDef → List SqliteVal → Option (List SqliteVal)
  | [], [] => some []
  | c :: cs, v :: vs =>
    match (strictType c.type).bind (env.coerce · v), storeRow env cs vs with
    | some w, some ws => if (c.notNull || c.pk) && w = .null then none else some (w :: ws)
    | _, _ => none
  | _, _ => none

/-- All elements, or nothing. -/
def allSome {α β : Type} (f : α → Option β) : List α → Option (List β)
  | [] => some []
  | a :: as =>
    match f a, allSome f as with
    | some b, some bs => some (b :: bs)
    | _, _ => none

/-- No value but NULL occurs twice in a unique column. -/
def uniqueOk (cols : List ColDef) (rows : List (List SqliteVal)) : Bool :=
  cols.all fun c => !(c.unique || c.pk) ||
    decide ((rows.filterMap fun r =>
      match field cols r c.name with
      | some .null => none
      | v => v).Nodup)

/-- Whether a row of the table has the value in the column. -/
def hasKey (t : STable) (c : String) (v : SqliteVal) : Bool :=
  t.rows.any fun r => field t.cols r c == some v

/-- Every foreign key of the rows is NULL or refers to a row. -/
def fksOk (db : SDb) (cols : List ColDef) (fks : List RefCon) (rows : List (List SqliteVal)) : Bool :=
  fks.all fun fk => rows.all fun r =>
    match field cols r fk.col with
    | some .null => true
    | some v =>
      match db.lookup fk.table with
      | some p => hasKey p fk.refCol v
      | none => false
    | none => false

/-- Whether a row of another table refers to a row of the given table. -/
def isReferenced (db : SDb) (name : String) (t : STable) : Bool :=
  db.any fun e => decide (e.1 ≠ name) && e.2.fks.any fun fk => decide (fk.table = name) &&
    e.2.rows.any fun r =>
      match field e.2.cols r fk.col with
      | some .null => false
      | some v => hasKey t fk.refCol v
      | none => false

/-- The foreign keys after a table was renamed. -/
def renameRefs (old new : String) (t : STable) : STable :=
  { t with fks := t.fks.map fun fk => if fk.table = old then { fk with table := new } else fk }

/-- Execute a statement, with foreign keys enforced; `none` is an error. -/
def exec (env : SqliteEnv) (db : SDb) : DStmt → Option SDb
  | .createTable ifNot n cols fks strict =>
    match db.lookup n with
    | some _ => if ifNot then some db else none
    | none =>
      if strict && !cols.isEmpty && decide ((cols.map (·.name)).Nodup) &&
          decide ((cols.filter (·.pk)).length ≤ 1) &&
          cols.all (fun c => (strictType c.type).isSome) &&
          fks.all (fun fk => (cols.map (·.name)).contains fk.col) then
        some (db.insert n ⟨cols, fks, []⟩)
      else none
  | .dropTable n =>
    match db.lookup n with
    | some t => if isReferenced db n t then none else some (db.erase n)
    | none => none
  | .addColumn n c =>
    match db.lookup n, strictType c.type with
    | some t, some ty =>
      if (t.cols.map (·.name)).contains c.name || c.pk || c.unique then none
      else
        match c.default.elim (some .null) (litVal env) with
        | none => none
        | some v =>
          match allSome (fun r =>
              match env.coerce ty v with
              | some w => if c.notNull && w = .null then none else some (r ++ [w])
              | none => none) t.rows with
          | some rows => some (db.insert n ⟨t.cols ++ [c], t.fks, rows⟩)
          | none => none
    | _, _ => none
  | .dropColumn n c =>
    match db.lookup n with
    | some t =>
      match t.cols.find? (·.name = c) with
      | some col =>
        if col.pk || col.unique || t.fks.any (·.col = c) || t.cols.length ≤ 1 then none
        else
          let keep := t.cols.filter (·.name ≠ c)
          match allSome (fun r => allSome (fun k => field t.cols r k.name) keep) t.rows with
          | some rows => some (db.insert n ⟨keep, t.fks, rows⟩)
          | none => none
      | none => none
    | none => none
  | .insertSelect dst cols src =>
    match db.lookup dst, db.lookup src with
    | some d, some s =>
      match allSome (fun r =>
          match allSome (field s.cols r) cols with
          | some vs => storeRow env d.cols vs
          | none => none) s.rows with
      | some new =>
        if cols.all (s.cols.map (·.name)).contains && cols.length = d.cols.length &&
            uniqueOk d.cols (d.rows ++ new) && fksOk db d.cols d.fks new then
          some (db.insert dst { d with rows := d.rows ++ new })
        else none
      | none => none
    | _, _ => none
  | .renameTable old new =>
    match db.lookup old, db.lookup new with
    | some t, none =>
      some (((db.erase old).insert new t).map fun e => (e.1, renameRefs old new e.2))
    | _, _ => none
  | _ => none

/-- Execute statements in order; an error stops. -/
def execAll (env : SqliteEnv) : SDb → List DStmt → Option SDb
  | db, [] => some db
  | db, s :: ss =>
    match exec env db s with
    | some db' => execAll env db' ss
    | none => none

/-- Execute a script. -/
def execScript (env : SqliteEnv) (reserved : String → Bool) (db : SDb) (text : List Char) :
    Option SDb :=
  match parse true reserved text with
  | some ss => execAll env db ss
  | none => none

end Butane.Ddl
