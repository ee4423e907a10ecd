/-
What statements are supposed to do to the rows of a table.
-/
import Verif.Spec.Filter
import Verif.Spec.Stmt
import Verif.Model.Statements

namespace Butane.Spec
open Butane.Sql

/-- `row` is `base` with the given values in the given columns and nothing else changed. -/
def Stored (base : Row) (cols : List String) (vals : List SqlVal) (row : Row) : Prop :=
  row.has = base.has ∧
  (∀ (i : Nat) (c : String) (v : SqlVal), cols[i]? = some c → vals[i]? = some v → row.val c = toDb v) ∧
  ∀ c, c ∉ cols → row.val c = base.val c

/-- The rows a query selects: those of the table for which the filter is true. -/
def matching (rel : Compare) (db : Db) (table : String) (filter : Option BoolExpr) : List Row :=
  (db.rows table).filter fun r => match filter with
    | none => true
    | some e => boolValue rel db r e = some true

/-- `Before` for the order terms of a query. -/
def InOrder (le : DbVal → DbVal → Bool) (sort : List Order) (a b : Row) : Prop :=
  Before le (sort.map fun o => (o.column, o.direction)) a b

/-- `rows` is a result of the query: the selected rows in an order that the order terms
allow (earlier terms first), without the first `offset` of them and cut to `limit`. -/
def LoadResult (rel : Compare) (le : DbVal → DbVal → Bool) (db : Db) (table : String)
    (filter : Option BoolExpr) (limit offset : Option Nat) (sort : List Order)
    (rows : List Row) : Prop :=
  ∃ all : List Row, all.Perm (matching rel db table filter) ∧ all.Pairwise (InOrder le sort) ∧
    rows = match limit, offset with
      | none, none => all
      | none, some o => all.drop o
      | some l, none => all.take l
      | some l, some o => (all.drop o).take l

/-- A query that can be sent: its names are names, the table, the selected columns and
the columns of the order exist, its condition needs no parentheses and is in scope, and
on PostgreSQL it has at most 126 bound values. -/
structure QueryOK (sqlite : Bool) (res : String → Bool) (db : Db) (q : Query)
    (cols : List String) : Prop where
  table : IsName q.table
  exists_ : db.has q.table = true
  cols_ne : cols ≠ []
  cols : ∀ c ∈ cols, IsName c ∧ ∀ r ∈ db.rows q.table, r.has c = true
  sort : ∀ o ∈ q.sort, IsName o.column ∧ ∀ r ∈ db.rows q.table, r.has o.column = true
  filter : ∀ e ∈ q.filter, NamesOK res e ∧ NeedsNoParens sqlite .or e ∧
    (∀ r ∈ db.rows q.table, Scoped db r [] e) ∧ (sqlite = false → (valsBool e).length ≤ 126)

/-- The number given as a limit or offset, when it is not negative. -/
def count : Option Int32 → Option Nat := Option.map fun n => n.toInt.toNat

def NonNeg (n : Option Int32) : Prop := ∀ x ∈ n, 0 ≤ x.toInt

/-- The conditions given in a chain of builder calls. -/
def filtersOf (calls : List QCall) : List BoolExpr :=
  calls.filterMap fun | .filter e => some e | _ => none
/-- The limits given in a chain of builder calls. -/
def limitsOf (calls : List QCall) : List Int32 :=
  calls.filterMap fun | .limit n => some n | _ => none
/-- The offsets given in a chain of builder calls. -/
def offsetsOf (calls : List QCall) : List Int32 :=
  calls.filterMap fun | .offset n => some n | _ => none
/-- The order terms given in a chain of builder calls. -/
def ordersOf (calls : List QCall) : List Order :=
  calls.filterMap fun | .order c d => some ⟨d, c⟩ | _ => none

end Butane.Spec
