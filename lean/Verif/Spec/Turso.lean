/-
What a Turso database makes of a statement.
Environment side: SQLite's language (Spec/Sql.lean, Spec/Stmt.lean), except that a subquery
in a `WHERE` clause may not be supported.
-/
import Verif.Spec.Data
import Verif.Model.Turso

namespace Butane.Sql
open Butane

mutual
/-- The condition contains no subquery. -/
def noSelect : Cond → Bool
  | .inSelect _ _ _ _ _ => false
  | .not c => noSelect c
  | .all cs => noSelectAll cs
  | .any cs => noSelectAll cs
  | .true_ => true
  | .cmp _ _ _ => true
  | .isNull _ => true
  | .notNull _ => true
  | .inList _ _ => true
def noSelectAll : List Cond → Bool
  | [] => true
  | c :: cs => noSelect c && noSelectAll cs
end

/-- `SELECT DISTINCT column FROM table INNER JOIN .. WHERE condition`. -/
structure SubSelect where
  col : Operand
  table : String
  joins : List SJoin
  cond : Cond

def parseSub : List Tok → Option SubSelect
  | .kw "SELECT" :: .kw "DISTINCT" :: r =>
    match pColumn r with
    | some (c, .kw "FROM" :: .ident t :: r) =>
      match pJoins (r.length + 1) r with
      | some (js, r) =>
        match parseCond true r with
        | some w => some ⟨c, t, js, w⟩
        | none => none
      | none => none
    | _ => none
  | _ => none

/-- The values the statement selects, before repeated ones are left out; `none` is an
error. -/
def subValues (rel : Compare) (db : Db) (ps : List DbVal) (s : SubSelect) : Option (List DbVal) :=
  match db.has s.table, joinRows rel db ps [] s.joins ((db.rows s.table).map fun r => [(s.table, r)]) with
  | true, some ss =>
    match selectTrue (fun x => evalCond rel db ps [x] s.cond) ss with
    | some ss' => mapOk (fun x => evalOperand ps [x] s.col) ss'
    | none => none
  | _, _ => none

/-- The value as the database holds it. -/
def ofTurso : Turso.Val → DbVal
  | .null => .null
  | .integer i => .int i.toInt
  | .real r => .other (.real r)
  | .text s => .other (.text s)
  | .blob b => .other (.blob b)

/-- Two values that the database does not tell apart when it compares them for equality. -/
def Alike (rel : Compare) (a b : DbVal) : Prop :=
  a ≠ .null ∧ b ≠ .null ∧ ∀ x, rel .eq x a = rel .eq x b

/-- `out` lists the values of `all` in any order, where of several that are alike at least
one is left. -/
def Distinct (rel : Compare) (out all : List DbVal) : Prop :=
  (∀ v ∈ out, v ∈ all) ∧ ∀ v ∈ all, v ∈ out ∨ ∃ w ∈ out, Alike rel v w

/-- The answer to a `SELECT DISTINCT` text with bound values.  `subs` says whether the
database supports a subquery in a `WHERE` clause. -/
def SubOut (subs : Bool) (rel : Compare) (reserved : String → Bool) (db : Db) (text : List Char)
    (vals : List SqlVal) (out : Option (List Turso.Val)) : Prop :=
  match parseSub (lex reserved text) with
  | some s =>
    if subs || noSelect s.cond then
      match subValues rel db (vals.map toDb) s with
      | some all => ∃ vs, out = some vs ∧ Distinct rel (vs.map ofTurso) all
      | none => out = none
    else out = none
  | none => out = none

/-- The `n`-th statement of a call is answered by the database as it is then. -/
def Answers (subs : Bool) (rel : Compare) (reserved : String → Bool) (dbs : Nat → Db)
    (ask : Turso.Ask) : Prop :=
  ∀ n text vals, SubOut subs rel reserved (dbs n) text vals (ask n text vals)

/-- Whether the database supports the statement. -/
def supported (subs : Bool) : SStmt → Bool
  | .select s => match s.cond with | some c => subs || noSelect c | none => true
  | .delete _ c => subs || noSelect c
  | .insert _ _ _ _ _ => true
  | .update _ _ c => subs || noSelect c

/-- `QueryOut` for a database that may not support subqueries. -/
def TursoQueryOut (subs : Bool) (rel : Compare) (le : DbVal → DbVal → Bool)
    (reserved : String → Bool) (db : Db) (text : List Char) (vals : List SqlVal)
    (out : Option (List (List DbVal))) : Prop :=
  match parseStmt true (lex reserved text) with
  | some s => if supported subs s then QueryOut true rel le reserved db text vals out else out = none
  | none => out = none

/-- `execText` for a database that may not support subqueries. -/
def tursoExec (subs : Bool) (rel : Compare) (reserved : String → Bool) (env : Env) (db : Db)
    (text : List Char) (vals : List SqlVal) : Option (Db × Nat × Option DbVal) :=
  match parseStmt true (lex reserved text) with
  | some s => if supported subs s then execText true rel reserved env db text vals else none
  | none => none

end Butane.Sql

namespace Butane.Spec
open Butane.Sql

mutual
/-- No subquery. -/
def noSub : BoolExpr → Bool
  | .true_ => true
  | .cmp _ _ _ => true
  | .allOf cs => noSubAll cs
  | .and a b => noSub a && noSub b
  | .or a b => noSub a && noSub b
  | .not a => noSub a
  | .subquery _ _ _ _ => false
  | .inVals _ _ => true
  | .subqueryJoin _ _ _ _ _ => false
def noSubAll : List BoolExpr → Bool
  | [] => true
  | c :: cs => noSub c && noSubAll cs
end

mutual
/-- No subquery inside a subquery. -/
def flat : BoolExpr → Bool
  | .true_ => true
  | .cmp _ _ _ => true
  | .allOf cs => flatAll cs
  | .and a b => flat a && flat b
  | .or a b => flat a && flat b
  | .not a => flat a
  | .subquery _ _ _ e => noSub e
  | .inVals _ _ => true
  | .subqueryJoin _ _ _ _ e => noSub e
def flatAll : List BoolExpr → Bool
  | [] => true
  | c :: cs => flat c && flatAll cs
end

mutual
/-- The tables and columns of the subqueries exist (part of `Scoped`, for a condition that
may meet no row). -/
def SubScoped (db : Db) : BoolExpr → Prop
  | .true_ => True
  | .cmp _ _ _ => True
  | .allOf cs => SubScopedAll db cs
  | .and a b => SubScoped db a ∧ SubScoped db b
  | .or a b => SubScoped db a ∧ SubScoped db b
  | .not a => SubScoped db a
  | .subquery _ t c e =>
    db.has t = true ∧ ∀ r ∈ db.rows t, r.has c = true ∧ Scoped db r [] e
  | .inVals _ _ => True
  | .subqueryJoin _ t c joins e =>
    db.has t = true ∧ (∀ j ∈ joins, db.has j.joinTable = true) ∧
    ∀ r ∈ db.rows t, ∀ s ∈ combos db joins,
      ColVisible t r s c ∧ (∀ j ∈ joins, ColVisible t r s j.col1 ∧ ColVisible t r s j.col2) ∧
      Scoped db r (s.map (·.2)) e
def SubScopedAll (db : Db) : List BoolExpr → Prop
  | [] => True
  | c :: cs => SubScoped db c ∧ SubScopedAll db cs
end

end Butane.Spec
