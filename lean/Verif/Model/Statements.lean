/-
The statements `ConnectionMethods` and `QueryOps` send to the database, with the values
bound to them.
Models butane_core/src/db/sqlite.rs, butane_core/src/db/pg.rs,
butane_core/src/db/connmethods.rs and butane_core/src/query/mod.rs.
-/
import Verif.Model.SqlGen

namespace Butane

/-- The two backends.  (Turso is modelled in Model/Turso.lean.) -/
inductive Backend where
  | sqlite | pg
deriving DecidableEq, Repr

def Backend.isSqlite : Backend → Bool
  | .sqlite => true
  | .pg => false

/-- The text conventions of a backend. -/
def Backend.dialect (b : Backend) (kw : String → Bool) : Dialect :=
  match b with
  | .sqlite => sqliteDialect kw
  | .pg => pgDialect kw

/-- `query`, db/sqlite.rs:236-283 and db/pg.rs:176-210. -/
def Backend.query (b : Backend) (kw : String → Bool) (table : String) (cols : List String)
    (e : Option BoolExpr) (limit offset : Option Int32) (sort : List Order) : Stmt :=
  match b with
  | .sqlite => sqliteQuery kw table cols e limit offset sort
  | .pg => pgQuery kw table cols e limit offset sort

/-- `insert_only`, db/sqlite.rs:315-330 and db/pg.rs:264-282; also the insertion of
SQLite's `insert_returning_pk`, db/sqlite.rs:291-303, which then reads the key column of
the row `last_insert_rowid()` (db/sqlite.rs:304-312). -/
def Backend.insert (b : Backend) (kw : String → Bool) (table : String) (cols : List String)
    (vals : List SqlVal) : Stmt :=
  ⟨sqlInsert (b.dialect kw) table cols, vals⟩

/-- PostgreSQL's `insert_returning_pk`, db/pg.rs:231-263: the key column is written
without quoting (db/pg.rs:245). -/
def pgInsertReturning (kw : String → Bool) (table : String) (cols : List String) (pkcol : String)
    (vals : List SqlVal) : Stmt :=
  ⟨sqlInsert (pgDialect kw) table cols ++ lit " RETURNING " ++ pkcol.toList, vals⟩

/-- `insert_or_replace`, db/sqlite.rs:331-342 and db/pg.rs:283-297. -/
def Backend.upsert (b : Backend) (kw : String → Bool) (table : String) (cols : List String)
    (pkcol : String) (vals : List SqlVal) : Stmt :=
  match b with
  | .sqlite => ⟨sqliteUpsert kw table cols pkcol, vals⟩
  | .pg => ⟨pgUpsert kw table cols pkcol, vals⟩

/-- `update`, db/sqlite.rs:343-367 and db/pg.rs:298-325: the values, then the key. -/
def Backend.update (b : Backend) (kw : String → Bool) (table pkcol : String) (pk : SqlVal)
    (cols : List String) (vals : List SqlVal) : Stmt :=
  ⟨sqlUpdate (b.dialect kw) table pkcol cols, vals ++ [pk]⟩

/-- `delete_where`, db/sqlite.rs:368-390 and db/pg.rs:331-354. -/
def Backend.deleteWhere (b : Backend) (kw : String → Bool) (table : String) (e : BoolExpr) : Stmt :=
  sqlDelete (b.dialect kw) table e

/-- `delete`, db/connmethods.rs:63-67 and db/pg.rs:326-330. -/
def Backend.delete (b : Backend) (kw : String → Bool) (table pkcol : String) (pk : SqlVal) : Stmt :=
  b.deleteWhere kw table (.cmp .eq pkcol (.val pk))

/-- `fetch`, query/mod.rs:226-246: the limit is an argument, everything else comes from
the query. -/
def Query.fetch (q : Query) (b : Backend) (kw : String → Bool) (cols : List String)
    (limit : Option Int32) : Stmt :=
  b.query kw q.table cols q.filter limit q.offset q.sort

/-- `load`, query/mod.rs:284-290. -/
def Query.load (q : Query) (b : Backend) (kw : String → Bool) (cols : List String) : Stmt :=
  q.fetch b kw cols q.limit

/-- `load_first`, query/mod.rs:278-283, which keeps the first row of the result (`none`
if there is none). -/
def Query.loadFirst (q : Query) (b : Backend) (kw : String → Bool) (cols : List String) : Stmt :=
  q.fetch b kw cols (some 1)

/-- `delete`, query/mod.rs:291-294. -/
def Query.delete (q : Query) (b : Backend) (kw : String → Bool) : Stmt :=
  b.deleteWhere kw q.table (match q.filter with | some e => e | none => .true_)

/-- One call of a builder method of `Query`, query/mod.rs:150-189. -/
inductive QCall where
  | filter (e : BoolExpr)
  | limit (n : Int32)
  | offset (n : Int32)
  | order (column : String) (direction : Dir)

/-- The call, query/mod.rs:150-189. -/
def Query.call (q : Query) : QCall → Query
  | .filter e => q.withFilter e
  | .limit n => q.withLimit n
  | .offset n => q.withOffset n
  | .order c d => q.order c d

/-- `Query::new(table)` followed by a chain of builder calls. -/
def Query.build (table : String) (calls : List QCall) : Query :=
  calls.foldl Query.call (Query.new table)

end Butane
