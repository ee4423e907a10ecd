/-
How a database reads and executes whole statements.
Environment side, written from the SQL language; it does not use the code generator.

Simplifications: the only constraint a table has is its primary key; a statement either
succeeds or leaves the database as it was.
-/
import Verif.Spec.Sql

namespace Butane.Sql

/-! ### Grammar -/

/-- `ON CONFLICT (key) DO UPDATE SET (a, b) = (excluded.a, ..)` or `.. DO NOTHING`. -/
structure Conflict where
  key : String
  sets : Option (List String × List Operand)
deriving Repr

/-- A `SELECT` statement. -/
structure Select where
  cols : List String
  table : String
  cond : Option Cond
  order : List (String × Dir)
  limit : Option Int
  offset : Option Int
deriving Repr

inductive SStmt where
  | select (s : Select)
  | delete (table : String) (cond : Cond)
  | insert (table : String) (cols : List String) (vals : List Operand)
      (conflict : Option Conflict) (returning : Option String)
  | update (table : String) (sets : List (String × Operand)) (cond : Cond)
deriving Repr

/-- `name, name, ...`. -/
def pNames : List Tok → Option (List String × List Tok)
  | .ident c :: .comma :: r =>
    match pNames r with
    | some (cs, r') => some (c :: cs, r')
    | none => none
  | .ident c :: r => some ([c], r)
  | _ => none

def pDir : List Tok → Option (Dir × List Tok)
  | .kw "ASC" :: r => some (.asc, r)
  | .kw "DESC" :: r => some (.desc, r)
  | _ => none

/-- `name ASC, name DESC, ...`; the number bounds the recursion. -/
def pOrders : Nat → List Tok → Option (List (String × Dir) × List Tok)
  | 0, _ => none
  | f + 1, .ident c :: r =>
    match pDir r with
    | some (d, .comma :: r') =>
      match pOrders f r' with
      | some (os, r'') => some ((c, d) :: os, r'')
      | none => none
    | some (d, r') => some ([(c, d)], r')
    | none => none
  | _ + 1, _ => none

/-- `name = operand, ...`; the number bounds the recursion. -/
def pSets : Nat → List Tok → Option (List (String × Operand) × List Tok)
  | 0, _ => none
  | f + 1, .ident c :: .op .eq :: r =>
    match pOperand r with
    | some (v, .comma :: r') =>
      match pSets f r' with
      | some (ss, r'') => some ((c, v) :: ss, r'')
      | none => none
    | some (v, r') => some ([(c, v)], r')
    | none => none
  | _ + 1, _ => none

/-- A condition at the start of the tokens. -/
def pCond (sqlite : Bool) (ts : List Tok) : Option (Cond × List Tok) :=
  match pOr sqlite (3 * ts.length + 3) ts with
  | some (ds, r) => some (.any ds, r)
  | none => none

/-- The optional clauses of a `SELECT`. -/
def pWhere (sqlite : Bool) : List Tok → Option (Option Cond × List Tok)
  | .kw "WHERE" :: r =>
    match pCond sqlite r with
    | some (c, r') => some (some c, r')
    | none => none
  | r => some (none, r)

def pOrderBy : List Tok → Option (List (String × Dir) × List Tok)
  | .kw "ORDER" :: .kw "BY" :: r => pOrders r.length r
  | r => some ([], r)

/-- `LIMIT n`, `OFFSET n`, both or neither.  SQLite knows `OFFSET` only after `LIMIT`. -/
def pLimits (sqlite : Bool) : List Tok → Option (Option Int × Option Int)
  | [.kw "LIMIT", .int l] => some (some l, none)
  | [.kw "LIMIT", .int l, .kw "OFFSET", .int o] => some (some l, some o)
  | [.kw "OFFSET", .int o] => if sqlite then none else some (none, some o)
  | [] => some (none, none)
  | _ => none

def pSelect (sqlite : Bool) (ts : List Tok) : Option Select :=
  match pNames ts with
  | some (cols, .kw "FROM" :: .ident t :: r) =>
    match pWhere sqlite r with
    | some (w, r) =>
      match pOrderBy r with
      | some (os, r) =>
        match pLimits sqlite r with
        | some (l, o) => some ⟨cols, t, w, os, l, o⟩
        | none => none
      | none => none
    | none => none
  | _ => none

/-- What follows the values of an `INSERT`. -/
def pReturning : List Tok → Option (Option String)
  | [] => some none
  | [.kw "RETURNING", .ident c] => some (some c)
  | _ => none

/-- `ON CONFLICT ...` or `RETURNING ...` or the end. -/
def pTail : List Tok → Option (Option Conflict × Option String)
  | .kw "ON" :: .kw "CONFLICT" :: .lparen :: .ident k :: .rparen :: .kw "DO" :: .kw "NOTHING" :: r =>
    match pReturning r with
    | some ret => some (some ⟨k, none⟩, ret)
    | none => none
  | .kw "ON" :: .kw "CONFLICT" :: .lparen :: .ident k :: .rparen :: .kw "DO" :: .kw "UPDATE" ::
      .kw "SET" :: .lparen :: r =>
    match pNames r with
    | some (cs, .rparen :: .op .eq :: .lparen :: r) =>
      match pList r.length r with
      | some (vs, r) =>
        match pReturning r with
        | some ret => some (some ⟨k, some (cs, vs)⟩, ret)
        | none => none
      | none => none
    | _ => none
  | r =>
    match pReturning r with
    | some ret => some (none, ret)
    | none => none

/-- A whole statement. -/
def parseStmt (sqlite : Bool) : List Tok → Option SStmt
  | .kw "SELECT" :: r => (pSelect sqlite r).map .select
  | .kw "DELETE" :: .kw "FROM" :: .ident t :: .kw "WHERE" :: r =>
    match pCond sqlite r with
    | some (c, []) => some (.delete t c)
    | _ => none
  | .kw "UPDATE" :: .ident t :: .kw "SET" :: r =>
    match pSets r.length r with
    | some (ss, .kw "WHERE" :: r) =>
      match pCond sqlite r with
      | some (c, []) => some (.update t ss c)
      | _ => none
    | _ => none
  | .kw "INSERT" :: .kw "INTO" :: .ident t :: .kw "DEFAULT" :: .kw "VALUES" :: r =>
    match pReturning r with
    | some ret => some (.insert t [] [] none ret)
    | none => none
  | .kw "INSERT" :: .kw "INTO" :: .ident t :: .lparen :: r =>
    match pNames r with
    | some (cs, .rparen :: .kw "VALUES" :: .lparen :: r) =>
      match pList r.length r with
      | some (vs, r) =>
        match pTail r with
        | some (conf, ret) => some (.insert t cs vs conf ret)
        | none => none
      | none => none
    | _ => none
  | _ => none

/-! ### Execution -/

/-- What a database knows beside the rows: the key column of each table, and the row a
table gives a new entry before the statement's values are put in (the columns it has,
their defaults, and the next automatic key). -/
structure Env where
  key : String → String
  template : String → List Row → Row

/-- A row with some columns overwritten. -/
def overlay (r : Row) (sets : List (String × DbVal)) : Row :=
  ⟨r.has, fun c => match sets.lookup c with | some v => v | none => r.val c⟩

/-- The database with other rows in one table. -/
def setRows (db : Db) (t : String) (rows : List Row) : Db :=
  ⟨db.has, fun t' => if t' = t then rows else db.rows t'⟩

/-- The value of every assignment in the given scope. -/
def evalSets (ps : List DbVal) (env : List Scope) :
    List (String × Operand) → Option (List (String × DbVal))
  | [] => some []
  | (c, o) :: rest =>
    match evalOperand ps env o, evalSets ps env rest with
    | some v, some vs => some ((c, v) :: vs)
    | _, _ => none

/-- The two keys are the same key. -/
def sameKey (rel : Compare) (a b : DbVal) : Bool := cmp3 rel .eq a b == some true

/-- Execute a statement that changes data: the new database, the number of rows changed,
and the value of `RETURNING`; `none` is an error. -/
def execStmt (rel : Compare) (env : Env) (db : Db) (ps : List DbVal) :
    SStmt → Option (Db × Nat × Option DbVal)
  | .select _ => none
  | .delete t c =>
    if db.has t then
      match mapOk (fun r => evalCond rel db ps [[(t, r)]] c) (db.rows t) with
      | some vs =>
        some (setRows db t (((db.rows t).zip vs).filterMap fun p =>
            if p.2 = some true then none else some p.1),
          (vs.filter fun v => v = some true).length, none)
      | none => none
    else none
  | .update t sets c =>
    if db.has t && sets.all (fun s => (env.template t (db.rows t)).has s.1) then
      match mapOk (fun r =>
          match evalCond rel db ps [[(t, r)]] c, evalSets ps [[(t, r)]] sets with
          | some b, some vs => some (if b = some true then (overlay r vs, 1) else (r, 0))
          | _, _ => none) (db.rows t) with
      | some out => some (setRows db t (out.map (·.1)), (out.map (·.2)).sum, none)
      | none => none
    else none
  | .insert t cols vals conflict ret =>
    let blank := env.template t (db.rows t)
    if db.has t && cols.all blank.has && (cols.length == vals.length) &&
        (match ret with | some c => blank.has c | none => true) then
      match evalOperands ps [] vals with
      | none => none
      | some vs =>
        let new := overlay blank (cols.zip vs)
        let k := env.key t
        if (db.rows t).any (fun r => sameKey rel (r.val k) (new.val k)) then
          match conflict with
          | none => none
          | some ⟨key, what⟩ =>
            if key = k then
              match what with
              | none => some (db, 0, none)
              | some (cs, os) =>
                if cs.length = os.length then
                  match mapOk (fun r =>
                      if sameKey rel (r.val k) (new.val k) then
                        match evalSets ps [[(t, r), ("excluded", new)]] (cs.zip os) with
                        | some sets => some (overlay r sets)
                        | none => none
                      else some r) (db.rows t) with
                  | some rows => some (setRows db t rows, 1, ret.map new.val)
                  | none => none
                else none
            else none
        else
          match conflict with
          | some ⟨key, _⟩ =>
            if key = k then some (setRows db t (db.rows t ++ [new]), 1, ret.map new.val) else none
          | none => some (setRows db t (db.rows t ++ [new]), 1, ret.map new.val)
    else none

/-- Whether `a` may come before `b` in the given order; `le` is the database's order of
values, `none` included. -/
def Before (le : DbVal → DbVal → Bool) : List (String × Dir) → Row → Row → Prop
  | [], _, _ => True
  | (c, d) :: rest, a, b =>
    let x := a.val c
    let y := b.val c
    (match d with | .asc => le x y = true | .desc => le y x = true) ∧
    (le x y = true ∧ le y x = true → Before le rest a b)

/-- The rows between offset and limit. -/
def slice {α} (limit offset : Option Nat) (rows : List α) : List α :=
  match limit with
  | none => rows.drop (match offset with | none => 0 | some o => o)
  | some l => (rows.drop (match offset with | none => 0 | some o => o)).take l

/-- How the database reads the number after `LIMIT` or `OFFSET`: SQLite takes a negative
limit for none and a negative offset for zero, PostgreSQL refuses both. -/
def readCount (sqlite : Bool) (neg : Option Nat) : Option Int → Option (Option Nat)
  | none => some none
  | some (.ofNat n) => some (some n)
  | some (.negSucc _) => if sqlite then some neg else none

/-- The value of an optional `WHERE` clause for one row. -/
def whereTrue (rel : Compare) (db : Db) (ps : List DbVal) (table : String) (cond : Option Cond)
    (r : Row) : Option (Option Bool) :=
  match cond with
  | none => some (some true)
  | some c => evalCond rel db ps [[(table, r)]] c

/-- `out` is a possible result of a `SELECT`: the table's rows for which the condition is
true, in some order that the `ORDER BY` allows, cut to limit and offset, and of each row
the selected columns.  `out = none` is an error. -/
def SelectOut (sqlite : Bool) (rel : Compare) (le : DbVal → DbVal → Bool) (db : Db)
    (ps : List DbVal) (s : Select) (out : Option (List (List DbVal))) : Prop :=
  match (if db.has s.table then
      selectTrue (whereTrue rel db ps s.table s.cond) (db.rows s.table) else none),
    readCount sqlite none s.limit, readCount sqlite (some 0) s.offset with
  | some rows, some l, some o =>
    if rows.all (fun r => s.cols.all r.has && s.order.all (fun k => r.has k.1)) then
      ∃ arranged : List Row, arranged.Perm rows ∧ arranged.Pairwise (Before le s.order) ∧
        out = some ((slice l o arranged).map fun r => s.cols.map r.val)
    else out = none
  | _, _, _ => out = none

/-- A statement text with bound values, executed. -/
def execText (sqlite : Bool) (rel : Compare) (reserved : String → Bool) (env : Env) (db : Db)
    (text : List Char) (vals : List SqlVal) : Option (Db × Nat × Option DbVal) :=
  match parseStmt sqlite (lex reserved text) with
  | some s => execStmt rel env db (vals.map toDb) s
  | none => none

/-- The possible results of a query text with bound values. -/
def QueryOut (sqlite : Bool) (rel : Compare) (le : DbVal → DbVal → Bool)
    (reserved : String → Bool) (db : Db) (text : List Char) (vals : List SqlVal)
    (out : Option (List (List DbVal))) : Prop :=
  match parseStmt sqlite (lex reserved text) with
  | some (.select s) => SelectOut sqlite rel le db (vals.map toDb) s out
  | _ => out = none

end Butane.Sql
