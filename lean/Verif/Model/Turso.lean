/-
The Turso backend: queries.
Models butane_core/src/db/turso.rs.  A statement is sent to the database in an `await`, so
other users of the database can run between two statements of one call; the number of
statements sent so far is part of the state.
-/
import Verif.Model.Statements
import Verif.Model.Convert

namespace Butane.Turso

/-- `turso::Value`, which has the same five kinds of values as rusqlite's. -/
abbrev Val := SqliteVal

/-- `turso_value_to_sqlval_untyped`, db/turso.rs:906-914. -/
def untyped : Val → SqlVal
  | .null => .null
  | .integer i => .bigInt i
  | .real r => .real r
  | .text s => .text s
  | .blob b => .blob b

/-- What the database answers to the `n`-th statement of a call: the first column of the
rows, or an error.  Simplification: the values bound to the statement are given as butane
values; their conversion by `sqlval_to_turso` is `toTurso` in Model/TursoRows.lean. -/
abbrev Ask := Nat → Text → List SqlVal → Option (List Val)

/-- The text of `execute_simple_subquery`, db/turso.rs:221-232. -/
def subqueryStmt (d : Dialect) (tbl2 tbl2Col : String) (e : BoolExpr) : Stmt :=
  let f := renderBool d e 0
  ⟨lit "SELECT DISTINCT " ++ quoteWord d tbl2Col ++ lit " FROM " ++ quoteWord d tbl2 ++
    lit " WHERE " ++ f.text, f.vals⟩

/-- The text of `execute_join_subquery`, db/turso.rs:247-260. -/
def joinStmt (d : Dialect) (tbl2 : String) (col2 : QColumn) (joins : List Join) (e : BoolExpr) :
    Stmt :=
  let f := renderBool d e 0
  ⟨lit "SELECT DISTINCT " ++ sqlColumn d col2 ++ lit " FROM " ++ quoteWord d tbl2 ++ lit " " ++
    sqlJoins d joins ++ lit " WHERE " ++ f.text, f.vals⟩

/-- `execute_subquery_and_collect`, db/turso.rs:267-296, and the `In` built from its result,
db/turso.rs:234-235,262-263.  `none` is an error. -/
def collect (ask : Ask) (col : String) (s : Stmt) (n : Nat) : Option (BoolExpr × Nat) :=
  match ask n s.text s.params with
  | some vs => some (.inVals col (vs.map untyped), n + 1)
  | none => none

mutual
/-- `transform_subqueries`, db/turso.rs:178-211, with `transform_binary_expr`, 299-308.
The second number is the number of statements sent so far; `none` is an error of one of
them.  The conditions inside a subquery are not transformed (db/turso.rs:182-200). -/
def transform (d : Dialect) (ask : Ask) : BoolExpr → Nat → Option (BoolExpr × Nat)
  | .subquery col tbl2 tbl2Col e, n => collect ask col (subqueryStmt d tbl2 tbl2Col e) n
  | .subqueryJoin col tbl2 col2 joins e, n => collect ask col (joinStmt d tbl2 col2 joins e) n
  | .and a b, n =>
    match transform d ask a n with
    | some (a', n') =>
      match transform d ask b n' with
      | some (b', n'') => some (.and a' b', n'')
      | none => none
    | none => none
  | .or a b, n =>
    match transform d ask a n with
    | some (a', n') =>
      match transform d ask b n' with
      | some (b', n'') => some (.or a' b', n'')
      | none => none
    | none => none
  | .not a, n =>
    match transform d ask a n with
    | some (a', n') => some (.not a', n')
    | none => none
  | .allOf cs, n =>
    match transformAll d ask cs n with
    | some (cs', n') => some (.allOf cs', n')
    | none => none
  | .true_, n => some (.true_, n)
  | .cmp op col e, n => some (.cmp op col e, n)
  | .inVals col vs, n => some (.inVals col vs, n)
/-- `transform_all_of`, db/turso.rs:311-317. -/
def transformAll (d : Dialect) (ask : Ask) : List BoolExpr → Nat → Option (List BoolExpr × Nat)
  | [], n => some ([], n)
  | c :: cs, n =>
    match transform d ask c n with
    | some (c', n') =>
      match transformAll d ask cs n' with
      | some (cs', n'') => some (c' :: cs', n'')
      | none => none
    | none => none
end

/-- `TursoPlaceholderSource`, db/turso.rs:1225-1237: always `?`. -/
def dialect (keyword : String → Bool) : Dialect := ⟨keyword, fun _ => lit "?"⟩

/-- The statement text of `query`, db/turso.rs:353-381, for a condition whose subqueries
have been replaced. -/
def selectStmt (kw : String → Bool) (table : String) (cols : List String)
    (e : Option BoolExpr) (limit offset : Option Int32) (sort : List Order) : Stmt :=
  let d := dialect kw
  let w := whereClause d e
  ⟨sqlSelect d cols table ++ w.text ++ orderClause d sort ++
    (match limit with | some l => sqlLimit l | none => []) ++
    (match offset with
     | some o =>
       (match limit with | some _ => [] | none => sqlLimit 2147483647) ++ sqlOffset o
     | none => []),
   w.vals⟩

/-- `ConnectionMethods::query`, db/turso.rs:337-416: the statement sent last, and the number
of statements sent before it.  The values read from its rows are decoded by `fromTurso`
of Model/TursoRows.lean. -/
def query (ask : Ask) (kw : String → Bool) (table : String) (cols : List String)
    (e : Option BoolExpr) (limit offset : Option Int32) (sort : List Order) :
    Option (Stmt × Nat) :=
  match e with
  | none => some (selectStmt kw table cols none limit offset sort, 0)
  | some e =>
    match transform (dialect kw) ask e 0 with
    | some (e', n) => some (selectStmt kw table cols (some e') limit offset sort, n)
    | none => none

/-- `load`, query/mod.rs:284-290, on Turso. -/
def load (ask : Ask) (kw : String → Bool) (q : Query) (cols : List String) : Option (Stmt × Nat) :=
  query ask kw q.table cols q.filter q.limit q.offset q.sort

/-- `load_first`, query/mod.rs:278-283, on Turso. -/
def loadFirst (ask : Ask) (kw : String → Bool) (q : Query) (cols : List String) :
    Option (Stmt × Nat) :=
  query ask kw q.table cols q.filter (some 1) q.offset q.sort

/-- `delete_where`, db/turso.rs:546-566: the condition is sent as it is. -/
def deleteWhere (kw : String → Bool) (table : String) (e : BoolExpr) : Stmt :=
  sqlDelete (dialect kw) table e

/-- `delete`, query/mod.rs:291-294, on Turso. -/
def delete (kw : String → Bool) (q : Query) : Stmt :=
  deleteWhere kw q.table (match q.filter with | some e => e | none => .true_)

end Butane.Turso
