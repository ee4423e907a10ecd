/-
How PostgreSQL executes the schema statements of a migration, at the level of its catalog, and
what it means for a PostgreSQL database to have a schema.
This is the environment's side of the contract; it is written from the documentation of
PostgreSQL and does not use the code generator.

Simplifications: rows are not modelled (whether they allow a statement is a parameter); one
schema, no sequences, triggers or views; defaults are kept only as far as they are the sequence of
a `SERIAL` column; a key that some foreign key refers to cannot be dropped even if the column
has another key; a table definition without columns, or with foreign keys inside, is refused.
-/
import Verif.Spec.DdlMigrate

namespace Butane.PgCat
open Butane Butane.Ddl

/-! ### Reading -/

/-- PostgreSQL reads everything outside of quotes in lower case; the first argument is the quote
the text is in. -/
def foldCase : Option Char → List Char → List Char
  | _, [] => []
  | none, c :: cs =>
    if c = '"' ∨ c = '\'' then c :: foldCase (some c) cs else c.toLower :: foldCase none cs
  | some q, c :: cs => c :: foldCase (if c = q then none else some q) cs

/-- The name of something that was written without quotes. -/
def lower (s : String) : String := String.ofList (s.toList.map Char.toLower)

/-! ### The catalog -/

/-- A column; `serial` says that its default is the next number of its sequence. -/
structure PCol where
  name : String
  type : List String
  notNull : Bool
  serial : Bool
deriving DecidableEq, Repr

/-- A constraint of a table. -/
inductive PKind where
  | pk (col : String)
  | unique (col : String)
  | fk (col table refCol : String)
deriving DecidableEq, Repr

/-- The column that is constrained. -/
def PKind.col : PKind → String
  | .pk c => c
  | .unique c => c
  | .fk c _ _ => c

/-- A constraint with its name. -/
structure PCon where
  name : String
  kind : PKind
deriving DecidableEq, Repr

structure PTable where
  cols : List PCol
  cons : List PCon
deriving DecidableEq, Repr

abbrev PDb := SMap String PTable

/-- What the rest of PostgreSQL decides: the name of a new constraint, given the names that are in
use and the one to begin with; whether a literal can be the default of a column of a type; whether a
column's type can be changed into another; and whether the rows allow a statement. -/
structure PgEnv where
  choose : List String → String → String
  fits : List String → Lit → Bool
  castable : List String → List String → Bool
  permits : PDb → DStmt → Bool

/-- The name a constraint gets unless it is in use. -/
def stdName (table : String) : PKind → String
  | .pk _ => table ++ "_pkey"
  | .unique c => table ++ "_" ++ c ++ "_key"
  | .fk c _ _ => table ++ "_" ++ c ++ "_fkey"

/-- The names of tables and constraints. -/
def taken (db : PDb) : List String :=
  db.map (·.1) ++ db.flatMap fun e => e.2.cons.map (·.name)

/-- The types of columns, by their names. -/
def pgTypes : List (List String) :=
  [["boolean"], ["integer"], ["bigint"], ["double", "precision"], ["text"], ["date"],
   ["timestamp"], ["bytea"], ["jsonb"]]

/-- The type behind a `SERIAL`. -/
def serialType : List String → Option (List String)
  | ["serial"] => some ["integer"]
  | ["bigserial"] => some ["bigint"]
  | _ => none

/-- A new column: `SERIAL` is a type with a default, so that another default is refused. -/
def makeCol (env : PgEnv) (d : ColDef) : Option PCol :=
  match serialType d.type with
  | some ty => if d.default.isSome then none else some ⟨d.name, ty, true, true⟩
  | none =>
    if d.type ∈ pgTypes && d.default.elim true (env.fits d.type) then
      some ⟨d.name, d.type, d.notNull || d.pk, false⟩
    else none

/-- The constraints in a column definition. -/
def colKinds (d : ColDef) : List PKind :=
  (if d.pk then [.pk d.name] else []) ++ (if d.unique then [.unique d.name] else [])

/-- The table with one more constraint. -/
def addCon (env : PgEnv) (db : PDb) (n : String) (t : PTable) (k : PKind) : PTable :=
  { t with cons := t.cons ++ [⟨env.choose (taken (db.insert n t)) (stdName n k), k⟩] }

/-- The table with more constraints. -/
def addCons (env : PgEnv) (db : PDb) (n : String) (t : PTable) (ks : List PKind) : PTable :=
  ks.foldl (addCon env db n) t

/-- The table has a primary key. -/
def hasPk (t : PTable) : Bool :=
  t.cons.any fun c => match c.kind with | .pk _ => true | _ => false

/-- A foreign key that is not on the column itself refers to the column. -/
def keyUsed (db : PDb) (n c : String) : Bool :=
  db.any fun e => e.2.cons.any fun k =>
    match k.kind with
    | .fk c' r rc => decide (r = n ∧ rc = c ∧ ¬ (e.1 = n ∧ c' = c))
    | _ => false

/-- A foreign key of another table refers to the table. -/
def tableUsed (db : PDb) (n : String) : Bool :=
  db.any fun e => decide (e.1 ≠ n) && e.2.cons.any fun k =>
    match k.kind with
    | .fk _ r _ => decide (r = n)
    | _ => false

/-- The columns with one changed. -/
def onCol (t : PTable) (c : String) (f : PCol → PCol) : PTable :=
  { t with cols := t.cols.map fun d => if d.name = c then f d else d }

def colNames (t : PTable) : List String := t.cols.map (·.name)

/-- What an `ALTER TABLE` makes of the table; `none` is an error. -/
def alter (env : PgEnv) (db : PDb) (n : String) (t : PTable) : DStmt → Option PTable
  | .addColumn _ d =>
    match makeCol env d with
    | some c =>
      if d.name ∈ colNames t || (d.pk && hasPk t) then none
      else some (addCons env db n { t with cols := t.cols ++ [c] } (colKinds d))
    | none => none
  | .dropColumn _ c =>
    if c ∈ colNames t && !keyUsed db n c then
      some ⟨t.cols.filter (·.name ≠ c), t.cons.filter (·.kind.col ≠ c)⟩
    else none
  | .addForeignKey _ fk =>
    match db.lookup fk.table with
    | some r =>
      if fk.col ∈ colNames t &&
          r.cons.any (fun k => decide (k.kind = .pk fk.refCol ∨ k.kind = .unique fk.refCol)) then
        some (addCon env db n t (.fk fk.col fk.table fk.refCol))
      else none
    | none => none
  | .setType _ c ty =>
    match t.cols.find? (·.name = c) with
    | some d =>
      if ty ∈ pgTypes && env.castable d.type ty then some (onCol t c fun d => { d with type := ty })
      else none
    | none => none
  | .setNotNull _ c b =>
    if c ∈ colNames t && (b || !t.cons.any (fun k => decide (k.kind = .pk c))) then
      some (onCol t c fun d => { d with notNull := b })
    else none
  | .setDefault _ c l =>
    match t.cols.find? (·.name = c) with
    | some d =>
      if l.elim true (env.fits d.type) then some (onCol t c fun d => { d with serial := false })
      else none
    | none => none
  | .addPrimaryKey _ c =>
    if c ∈ colNames t && !hasPk t then
      some (addCon env db n (onCol t c fun d => { d with notNull := true }) (.pk c))
    else none
  | .addUnique _ c => if c ∈ colNames t then some (addCon env db n t (.unique c)) else none
  | .dropConstraint _ name ifExists =>
    match t.cons.find? (·.name = name) with
    | none => if ifExists then some t else none
    | some k =>
      if (match k.kind with
          | .pk c => keyUsed db n c
          | .unique c => keyUsed db n c
          | .fk .. => false) then none
      else some { t with cons := t.cons.filter (·.name ≠ name) }
  | _ => none

/-- The table an `ALTER TABLE` is about. -/
def altered : DStmt → Option String
  | .addColumn t _ => some t
  | .dropColumn t _ => some t
  | .addForeignKey t _ => some t
  | .setType t _ _ => some t
  | .setNotNull t _ _ => some t
  | .setDefault t _ _ => some t
  | .addPrimaryKey t _ => some t
  | .addUnique t _ => some t
  | .dropConstraint t _ _ => some t
  | _ => none

/-- All elements, or nothing. -/
def makeCols (env : PgEnv) : List ColDef → Option (List PCol)
  | [] => some []
  | d :: ds =>
    match makeCol env d, makeCols env ds with
    | some c, some cs => some (c :: cs)
    | _, _ => none

/-- Execute a statement; `none` is an error. -/
def exec (env : PgEnv) (db : PDb) (s : DStmt) : Option PDb :=
  if !env.permits db s then none
  else
    match altered s with
    | some n =>
      match db.lookup n with
      | some t => (alter env db n t s).map (db.insert n)
      | none => none
    | none =>
      match s with
      | .createTable ifNot n cols fks strict =>
        match db.lookup n with
        | some _ => if ifNot then some db else none
        | none =>
          match makeCols env cols with
          | some cs =>
            if fks.isEmpty && !strict && decide (n ∉ taken db) && decide ((cols.map (·.name)).Nodup) &&
                decide ((cols.filter (·.pk)).length ≤ 1) then
              some (db.insert n (addCons env db n ⟨cs, []⟩ (cols.flatMap colKinds)))
            else none
          | none => none
      | .dropTable n =>
        match db.lookup n with
        | some _ => if tableUsed db n then none else some (db.erase n)
        | none => none
      | _ => none

/-- Execute statements in order; an error stops. -/
def execAll (env : PgEnv) : PDb → List DStmt → Option PDb
  | db, [] => some db
  | db, s :: ss =>
    match exec env db s with
    | some db' => execAll env db' ss
    | none => none

/-- Execute a script. -/
def execScript (env : PgEnv) (reserved : String → Bool) (db : PDb) (text : List Char) :
    Option PDb :=
  match parse false reserved (foldCase none text) with
  | some ss => execAll env db ss
  | none => none

/-- How PostgreSQL names constraints: the standard name, if it is not in use and has at most 63
bytes; never a name that is in use. -/
structure Naming (env : PgEnv) : Prop where
  std : ∀ used n, n ∉ used → n.utf8ByteSize ≤ 63 → env.choose used n = n
  fresh : ∀ used n, env.choose used n ∉ used

end Butane.PgCat

namespace Butane.Spec
open Butane Butane.Ddl Butane.PgCat

/-! ### What butane's names have to be -/

/-- The reserved words: those butane quotes include all that PostgreSQL does not read as
identifiers, the names of types are not among them, and none ends like the name of a
constraint. -/
structure PgWords (kw reserved : String → Bool) : Prop where
  covers : ∀ w : String,
    (Sql.upper w.toList ∈ Ddl.grammarWords ∨ reserved (lower w) = true) → kw w = true
  types : ∀ ty ∈ ["serial"] :: ["bigserial"] :: pgTypes, ∀ w ∈ ty, reserved w = false
  labels : ∀ w, reserved (w ++ "_pkey") = false ∧ reserved (w ++ "_key") = false ∧
    reserved (w ++ "_fkey") = false

/-- A name without characters that need quoting; if it is quoted as a reserved word, it is in
lower case. -/
def PgName (kw : String → Bool) (s : String) : Prop := IsName s ∧ (kw s = true → lower s = s)

/-! ### Databases with a schema -/

/-- The name of a type in PostgreSQL. -/
def pgTypeOf : SqlType → Option (List String)
  | .bool => some ["boolean"]
  | .int => some ["integer"]
  | .bigInt => some ["bigint"]
  | .real => some ["double", "precision"]
  | .text => some ["text"]
  | .date => some ["date"]
  | .timestamp => some ["timestamp"]
  | .blob => some ["bytea"]
  | .json => some ["jsonb"]
  | .custom _ => none

/-- A column butane can describe to PostgreSQL: a built-in type; an automatic column is a number,
without a default and not nullable; a key is not nullable; a reference is resolved. -/
structure PgColumn (kw : String → Bool) (c : AColumn) : Prop where
  name : PgName kw c.name
  type : ∃ ty w, c.typeid = some (.ty ty) ∧ pgTypeOf ty = some w
  auto : c.auto = true → (c.typeid = some (.ty .int) ∨ c.typeid = some (.ty .bigInt)) ∧
    c.default = none ∧ c.nullable = false
  pk : c.pk = true → c.nullable = false
  reference : ∀ r, c.reference = some r → ∃ t k, r = .literal t k ∧ PgName kw t ∧ PgName kw k

/-- A table of such columns. -/
structure PgTable (kw : String → Bool) (t : ATable) : Prop where
  name : PgName kw t.name
  columns : ∀ c ∈ t.columns, PgColumn kw c

/-- A schema of such tables. -/
def PgSchema (kw : String → Bool) (adb : ADB) : Prop := ∀ n t, adb.getTable n = some t → PgTable kw t

/-- A value butane writes as one literal: no date, no JSON, no custom value, no text with a quote,
no real that is not written as a numeral. -/
def PgLiteral (p : LitPrinters) : SqlVal → Prop
  | .null => True
  | .bool _ => True
  | .int _ => True
  | .bigInt _ => True
  | .real r => ∃ (neg : Bool) (s : Text), p.real r = (if neg then '-' :: s else s) ∧ IsNumeral s
  | .text s => '\'' ∉ s.toList
  | .blob _ => True
  | .timestamp t => '\'' ∉ p.timestampT t
  | _ => False

/-- The column of the database is the one the schema describes. -/
structure PgColumnIs (c : AColumn) (d : PCol) : Prop where
  name : d.name = lower c.name
  type : ∃ ty, c.typeid = some (.ty ty) ∧ pgTypeOf ty = some d.type
  notNull : d.notNull = !c.nullable
  serial : d.serial = c.auto

/-- The constraints the schema describes. -/
def PgConstraint (t : ATable) : PKind → Prop
  | .pk c => ∃ x ∈ t.columns, x.pk = true ∧ c = lower x.name
  | .unique c => ∃ x ∈ t.columns, x.unique = true ∧ c = lower x.name
  | .fk c r k => ∃ x ∈ t.columns, c = lower x.name ∧
      ∃ r' k', x.reference = some (.literal r' k') ∧ r = lower r' ∧ k = lower k'

/-- The table of the database is the one the schema describes: the same columns and the same
constraints. -/
structure PgTableIs (t : ATable) (s : PTable) : Prop where
  columns : ∀ c ∈ t.columns, ∃ d ∈ s.cols, PgColumnIs c d
  only : ∀ d ∈ s.cols, ∃ c ∈ t.columns, d.name = lower c.name
  constraints : ∀ k, (∃ x ∈ s.cons, x.kind = k) ↔ PgConstraint t k

/-- The database has exactly the tables of the schema; names are in lower case. -/
structure PgImplements (adb : ADB) (db : PDb) : Prop where
  tables : ∀ n t, adb.getTable n = some t → ∃ s, db.lookup (lower n) = some s ∧ PgTableIs t s
  only : ∀ m s, db.lookup m = some s → ∃ n t, adb.getTable n = some t ∧ m = lower n

/-- A database PostgreSQL can have, whose constraints have the names they get by default: names of
columns of a table and of constraints of a table are distinct. -/
structure PgProper (db : PDb) : Prop where
  sorted : db.Sorted
  columns : ∀ n s, db.lookup n = some s → (s.cols.map (·.name)).Nodup
  names : ∀ n s, db.lookup n = some s → ∀ x ∈ s.cons, x.name = stdName n x.kind
  constraints : ∀ n s, db.lookup n = some s → (s.cons.map (·.name)).Nodup

/-! ### Names that do not collide -/

/-- One of the schemas has the table. -/
def HasTable (old new : ADB) (n : String) : Prop :=
  ∃ t, old.getTable n = some t ∨ new.getTable n = some t

/-- One of the schemas has a column of that name in the table. -/
def HasColumn (old new : ADB) (n c : String) : Prop :=
  ∃ t, (old.getTable n = some t ∨ new.getTable n = some t) ∧ ∃ x ∈ t.columns, x.name = c

/-- The names of the schemas stay distinct in lower case, and so do the default names of
constraints, which are not names of tables and not too long. -/
structure NamesApart (old new : ADB) : Prop where
  tables : ∀ n m, HasTable old new n → HasTable old new m → lower n = lower m → n = m
  columns : ∀ n c d, HasColumn old new n c → HasColumn old new n d → lower c = lower d → c = d
  constraints : ∀ n c m d, HasColumn old new n c → HasColumn old new m d →
    lower n ++ "_" ++ lower c = lower m ++ "_" ++ lower d → n = m ∧ c = d
  free : ∀ m n c k, HasTable old new m → HasColumn old new n c → k.col = lower c →
    stdName (lower n) k ≠ lower m
  short : ∀ n c k, HasColumn old new n c → k.col = lower c →
    (stdName (lower n) k).utf8ByteSize ≤ 63

/-! ### Changes of schema butane can make on PostgreSQL -/

/-- The values that have to be written are literals, new tables have columns, and no default of a
removed table is a not-a-number. -/
structure PgWritable (p : LitPrinters) (old new : ADB) : Prop where
  created : ∀ n t, old.getTable n = none → new.getTable n = some t → t.columns ≠ []
  removed : ∀ n t, old.getTable n = some t → new.getTable n = none →
    ∀ c ∈ t.columns, ∀ r, c.default = some (.real r) → r.isNaN = false
  added : ∀ n s t c y, old.getTable n = some s → new.getTable n = some t → s.column c = none →
    t.column c = some y → ∀ v, NewValue y v → PgLiteral p v
  changed : ∀ n s t c x y, old.getTable n = some s → new.getTable n = some t →
    s.column c = some x → t.column c = some y → ∀ v, y.default = some v →
    PgLiteral p v ∨ (x.default = some v ∧ ∀ r, v = .real r → r.isNaN = false)

/-- Tables have at most one key; where a column that stays was the key, the table still has a key
afterwards; columns that stay are automatic afterwards if they were before. -/
structure KeepsKeys (old new : ADB) : Prop where
  before : ∀ n t, old.getTable n = some t → OneKey t
  after : ∀ n t, new.getTable n = some t → OneKey t
  key : ∀ n s t c x y, old.getTable n = some s → new.getTable n = some t →
    s.column c = some x → t.column c = some y → x.pk = true → ∃ z ∈ t.columns, z.pk = true
  auto : ∀ n s t c x y, old.getTable n = some s → new.getTable n = some t →
    s.column c = some x → t.column c = some y → x.auto = y.auto

/-- The value, as butane writes it and as PostgreSQL reads it, is a possible default of the
column. -/
def PgFits (env : PgEnv) (reserved : String → Bool) (p : LitPrinters) (c : AColumn) (v : SqlVal) :
    Prop :=
  ∀ text l ty w, sqlLiteral p v = .ok text →
    readLiteral reserved (foldCase none text) = some l →
    c.typeid = some (.ty ty) → pgTypeOf ty = some w → env.fits w l = true

/-- A column of the table refers to column `k` of table `r`. -/
def Refers (adb : ADB) (n r k : String) : Prop :=
  ∃ t c, adb.getTable n = some t ∧ c ∈ t.columns ∧ c.reference = some (.literal r k)

/-- The column can be referred to. -/
def KeyColumn (adb : ADB) (r k : String) (x : AColumn) : Prop :=
  ∃ t, adb.getTable r = some t ∧ t.column k = some x ∧ (x.pk = true ∨ x.unique = true)

/-- A change of schema PostgreSQL can make with the statements butane uses, as far as the rows allow
it: no column that stays becomes a key or stops being one; a new column is not automatic, is not a
second key and has a default of its type; types can be cast; references are to keys, and what a
table of both schemas refers to, before or afterwards, is and stays such a key. -/
structure PgFeasible (env : PgEnv) (reserved : String → Bool) (p : LitPrinters) (old new : ADB) :
    Prop where
  key : ∀ n s t c x y, old.getTable n = some s → new.getTable n = some t →
    s.column c = some x → t.column c = some y → x.pk = y.pk
  added : ∀ n s t c y, old.getTable n = some s → new.getTable n = some t → s.column c = none →
    t.column c = some y → y.auto = false ∧ (y.pk = true → ∀ x ∈ s.columns, x.pk = false) ∧
    ∀ v, NewValue y v → PgFits env reserved p y v
  type : ∀ n s t c x y, old.getTable n = some s → new.getTable n = some t →
    s.column c = some x → t.column c = some y → x.typeid ≠ y.typeid →
    y.auto = false ∧ ∀ a b v w, x.typeid = some (.ty a) → y.typeid = some (.ty b) →
      pgTypeOf a = some v → pgTypeOf b = some w → env.castable v w = true
  default : ∀ n s t c x y, old.getTable n = some s → new.getTable n = some t →
    s.column c = some x → t.column c = some y → ∀ v, y.default = some v →
    PgFits env reserved p y v
  before : ∀ n r k, Refers old n r k → ∃ x, KeyColumn old r k x
  after : ∀ n r k, Refers new n r k → ∃ x, KeyColumn new r k x
  stays : ∀ n s t r k, old.getTable n = some s → new.getTable n = some t →
    (Refers old n r k ∨ Refers new n r k) → old.getTable r ≠ none →
    ∃ x y, KeyColumn old r k x ∧ KeyColumn new r k y ∧ (x.unique = true → y.unique = true)

end Butane.Spec
