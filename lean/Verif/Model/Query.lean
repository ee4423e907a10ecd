/-
Query expressions.
Models butane_core/src/query/mod.rs, butane_core/src/query/fieldexpr.rs and
butane_codegen/src/filter.rs.
-/
import Verif.Model.Value

namespace Butane

/-- `query::Column`, butane_core/src/query/mod.rs:98-119. -/
structure QColumn where
  table : Option String
  name : String
deriving DecidableEq, Repr

/-- `query::Join::Inner`, query/mod.rs:87-96 (the only variant). -/
structure Join where
  joinTable : String
  col1 : QColumn
  col2 : QColumn
deriving DecidableEq, Repr

/-- The operator of `BoolExpr::{Eq, Ne, Lt, Gt, Le, Ge, Like}`, query/mod.rs:40-46.
The seven variants have the same shape, so they are one constructor here. -/
inductive CmpOp where
  | eq | ne | lt | gt | le | ge | like
deriving DecidableEq, Repr

mutual
/-- `query::Expr`, query/mod.rs:23-34. -/
inductive Expr where
  | column (name : String)
  | val (v : SqlVal)
  | placeholder
  | condition (c : BoolExpr)
/-- `query::BoolExpr`, query/mod.rs:36-71. -/
inductive BoolExpr where
  | true_
  | cmp (op : CmpOp) (col : String) (e : Expr)
  | allOf (cs : List BoolExpr)
  | and (a b : BoolExpr)
  | or (a b : BoolExpr)
  | not (a : BoolExpr)
  | subquery (col tbl2 tbl2Col : String) (expr : BoolExpr)
  | inVals (col : String) (vals : List SqlVal)
  | subqueryJoin (col tbl2 : String) (col2 : QColumn) (joins : List Join) (expr : BoolExpr)
end

/-- `FieldExpr::{eq, ne, lt, gt, le, ge, like}`, query/fieldexpr.rs:11-23,57-72.
The value is the result of `to_sql`. -/
def fieldCmp (op : CmpOp) (name : String) (v : SqlVal) : BoolExpr := .cmp op name (.val v)

/-- `FieldExpr::is_in`, query/fieldexpr.rs:75-77. -/
def fieldIsIn (name : String) (vs : List SqlVal) : BoolExpr := .inVals name vs

/-- What the generated code knows statically about a `DataObject` type:
`T::TABLE` and `T::PKCOL` (butane_core/src/lib.rs:113-120). -/
structure ObjType where
  table : String
  pkcol : String
deriving DecidableEq, Repr

/-- `FieldExpr<ForeignKey<F>>::subfilter`, query/fieldexpr.rs:80-87. -/
def subfilter (name : String) (f : ObjType) (q : BoolExpr) : BoolExpr :=
  .subquery name f.table f.pkcol q

/-- `FieldExpr<ForeignKey<F>>::subfilterpk`, query/fieldexpr.rs:88-93. -/
def subfilterpk (name : String) (f : ObjType) (pk : SqlVal) : BoolExpr :=
  subfilter name f (.cmp .eq f.pkcol (.val pk))

/-- `ManyFieldExpr::contains`, query/fieldexpr.rs:120-132. -/
def manyContains (manyTable : String) (o t : ObjType) (q : BoolExpr) : BoolExpr :=
  .subqueryJoin o.pkcol t.table ⟨some manyTable, "owner"⟩
    [⟨manyTable, ⟨some manyTable, "has"⟩, ⟨some t.table, t.pkcol⟩⟩] q

/-- `ManyFieldExpr::containspk`, query/fieldexpr.rs:133-138. -/
def manyContainspk (manyTable : String) (o t : ObjType) (pk : SqlVal) : BoolExpr :=
  manyContains manyTable o t (.cmp .eq t.pkcol (.val pk))

/-! ### The `filter!` macro

The macro works on the syntax tree Rust builds from its argument.  Parentheses,
`!` and every other unary operator reach the catch-all arm of `handle_expr` and are
compile errors (filter.rs:19-28), so an accepted expression without embedded blocks
is a `||` of `&&`s of comparisons and method calls, associated to the left.  The
three syntactic levels are the three types below.  The invisible groups of
`Expr::Group` (filter.rs:18) and conditions produced by a `{ .. }` block
(filter.rs:17) are not part of this type. -/

mutual
/-- A comparison or method call accepted by `filter!`
(filter.rs:41-50 for the operators, filter.rs:57-118 for the methods).  The value on
the right is what the literal, `None` or block evaluates to, after `to_sql`.  The
field name comes from `fieldexpr` (filter.rs:127-134); the target types and the link
table are those of the field's declared type. -/
inductive FAtom where
  | cmp (op : CmpOp) (field : String) (v : SqlVal)
  | isIn (field : String) (vs : List SqlVal)
  | matchesPk (field : String) (f : ObjType) (pk : SqlVal)
  | matches (field : String) (f : ObjType) (e : FOr)
  | containsPk (manyTable : String) (o t : ObjType) (pk : SqlVal)
  | contains (manyTable : String) (o t : ObjType) (e : FOr)
/-- `a && b && ...`, left associated as Rust parses it. -/
inductive FAnd where
  | one (a : FAtom)
  | and (l : FAnd) (r : FAtom)
/-- `a || b || ...`, left associated as Rust parses it. -/
inductive FOr where
  | one (a : FAnd)
  | or (l : FOr) (r : FAnd)
end

mutual
/-- `handle_expr` on a comparison or a method call, filter.rs:44-50,66-118. -/
def FAtom.toBool : FAtom → BoolExpr
  | .cmp op f v => fieldCmp op f v
  | .isIn f vs => fieldIsIn f vs
  | .matchesPk f t pk => subfilterpk f t pk
  | .matches f t e => subfilter f t e.toBool
  | .containsPk m o t pk => manyContainspk m o t pk
  | .contains m o t e => manyContains m o t e.toBool
/-- `BinOp::And`, filter.rs:51. -/
def FAnd.toBool : FAnd → BoolExpr
  | .one a => a.toBool
  | .and l r => .and l.toBool r.toBool
/-- `BinOp::Or`, filter.rs:52. -/
def FOr.toBool : FOr → BoolExpr
  | .one a => a.toBool
  | .or l r => .or l.toBool r.toBool
end

/-- `OrderDirection`, query/mod.rs:73-78. -/
inductive Dir where
  | asc | desc
deriving DecidableEq, Repr

/-- `Order`, query/mod.rs:80-85. -/
structure Order where
  direction : Dir
  column : String
deriving DecidableEq, Repr

/-- `Query<T>`, query/mod.rs:124-131. -/
structure Query where
  table : String
  filter : Option BoolExpr := none
  limit : Option Int32 := none
  offset : Option Int32 := none
  sort : List Order := []

namespace Query
/-- `Query::new`, query/mod.rs:136-145. -/
def new (table : String) : Query := { table }
/-- `Query::filter`, query/mod.rs:150-153. -/
def withFilter (q : Query) (e : BoolExpr) : Query := { q with filter := some e }
/-- `Query::limit`, query/mod.rs:158-161. -/
def withLimit (q : Query) (n : Int32) : Query := { q with limit := some n }
/-- `Query::offset`, query/mod.rs:166-169. -/
def withOffset (q : Query) (n : Int32) : Query := { q with offset := some n }
/-- `Query::order`, query/mod.rs:176-179. -/
def order (q : Query) (c : String) (d : Dir) : Query :=
  { q with sort := q.sort ++ [⟨d, c⟩] }
end Query

end Butane
