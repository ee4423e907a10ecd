/-
Which objects a query is supposed to find in a PostgreSQL database.

A comparison of a field with a value is PostgreSQL's comparison of the two values (which, for equality of
values that are neither real nor of a type of others, is equality, see `pg_compares_eq` in
Props/PgQuery.lean).  Filters on related objects (`matches`, `contains`) are not described here.
-/
import Verif.Spec.PgObj
import Verif.Spec.ObjQuery

namespace Butane.Spec
open Butane Butane.PgData

/-! ### Objects in a database -/

/-- The row holds the object: in each column, what PostgreSQL stores of the field. -/
def PgRowHolds (m : TModel) (r : PRow) (o : ObjVals m.fields) : Prop :=
  (∃ vals, pushValues (fun _ => true) m.fields o = .ok vals ∧
    AllMatch (PgHolds r) (tcolumns (fun f => !f.isAuto) m.fields) vals) ∧
  AutoHolds (PgHolds r) m.fields o

/-- There is an object with the key. -/
def PgHas {m : TModel} (pk : TField) (st : Objects m) (id : SqlVal) (o : ObjVals m.fields) : Prop :=
  PgKeyLike pk id ∧ st id = some o

/-- The row is that of the object with the key. -/
structure PgRowIs (m : TModel) (pk : TField) (st : Objects m) (r : PRow) (id : SqlVal)
    (o : ObjVals m.fields) : Prop where
  has : PgHas pk st id o
  key : keySql pk.name m.fields o = .ok id
  proper : AllProper m.fields o
  whole : AllWholeMicros m.fields o
  holds : PgRowHolds m r o

/-- The table of the model holds these objects and nothing else. -/
def PgKeepsObjs (m : TModel) (pk : TField) (u : PDb) (st : Objects m) : Prop :=
  ∃ t, u.lookup m.table = some t ∧
    (∀ r ∈ t.rows, ∃ id o, PgRowIs m pk st r id o) ∧
    ∀ id o, PgHas pk st id o → ∃ r ∈ t.rows, PgRowIs m pk st r id o

/-! ### Meaning of a filter on an object -/

/-- Neither value is null, and PostgreSQL's comparison of them is true. -/
def PgRelated (k : PgConn) (op : CmpOp) (x v : SqlVal) : Prop :=
  x ≠ .null ∧ v ≠ .null ∧ k.server.rel op (Sql.toDb x) (Sql.toDb v) = true

/-- `field op value`: `== None` and `!= None` test for null. -/
def PgCompares (k : PgConn) (op : CmpOp) (x v : SqlVal) : Prop :=
  match op, v with
  | .eq, .null => x = .null
  | .ne, .null => x ≠ .null
  | op, v => PgRelated k op x v

def PgAtomMeans (k : PgConn) (m : TModel) (o : ObjVals m.fields) : FAtom → Prop
  | .cmp op f v => ∃ x, FieldSql m o f x ∧ PgCompares k op x v
  | .isIn f vs => ∃ x, FieldSql m o f x ∧ ∃ v ∈ vs, PgRelated k .eq x v
  | _ => False
def PgAndMeans (k : PgConn) (m : TModel) (o : ObjVals m.fields) : FAnd → Prop
  | .one a => PgAtomMeans k m o a
  | .and l r => PgAndMeans k m o l ∧ PgAtomMeans k m o r
/-- The objects a `filter!` expression describes. -/
def PgFilterMeans (k : PgConn) (m : TModel) (o : ObjVals m.fields) : FOr → Prop
  | .one a => PgAndMeans k m o a
  | .or l r => PgFilterMeans k m o l ∨ PgAndMeans k m o r

/-! ### Filters that compile -/

/-- The value is null or of the type of the field, and PostgreSQL can represent it: it has no fraction of
a microsecond (C41) and is not JSON (`pg_json_filter_violated` in Props/PgQuery.lean). -/
def PgValFits (ty : FieldTy) (v : SqlVal) : Prop :=
  v = .null ∨ v.sqltype = some ty.sqltype ∧ ty.sqltype ≠ .json ∧ ¬ SubMicro v

/-- The field is one of the model, and the values are of its type; a list is not empty, and a field that
is compared with a value needs no quotes (C11).  `like` is only for texts: PostgreSQL has no such operator
for other types. -/
def PgAtomFits (k : PgConn) (m : TModel) : FAtom → Prop
  | .cmp op f v => PlainName k.reserved f ∧ ∃ ty, HasField m f ty ∧ PgValFits ty v ∧
      (op = .like → ty.sqltype = .text)
  | .isIn f vs => vs ≠ [] ∧ ∃ ty, HasField m f ty ∧ ∀ v ∈ vs, PgValFits ty v
  | _ => False
def PgAndFits (k : PgConn) (m : TModel) : FAnd → Prop
  | .one a => PgAtomFits k m a
  | .and l r => PgAndFits k m l ∧ PgAtomFits k m r
def PgFilterFits (k : PgConn) (m : TModel) : FOr → Prop
  | .one a => PgAndFits k m a
  | .or l r => PgFilterFits k m l ∧ PgAndFits k m r

/-- The query was built for the model, with this filter and with orders by its fields, and compiles; the
limit and the offset are not negative, and at most 126 values are bound (C11, C12). -/
structure PgSendable (k : PgConn) (m : TModel) (q : Query) (e : Option FOr) : Prop where
  table : q.table = m.table
  filter : q.filter = e.map FOr.toBool
  fits : ∀ f ∈ e, PgFilterFits k m f
  count : ∀ f ∈ e, (valsBool f.toBool).length ≤ 126
  sort : ∀ c ∈ q.sort, ∃ ty, HasField m c.column ty
  limit : NonNeg q.limit
  offset : NonNeg q.offset

/-- PostgreSQL orders values: of two, one comes first, and the order is transitive. -/
structure PgOrderLaws (S : Server) : Prop where
  total : ∀ a b, S.le a b = true ∨ S.le b a = true
  trans : ∀ a b c, S.le a b = true → S.le b c = true → S.le a c = true

/-! ### Results -/

/-- The objects may come in this order: earlier order terms count first, and the values of a term are
compared as PostgreSQL orders them. -/
def PgPrecedes (k : PgConn) (m : TModel) : List Order → ObjVals m.fields → ObjVals m.fields → Prop
  | [], _, _ => True
  | c :: rest, o, o' => ∃ x y, FieldSql m o c.column x ∧ FieldSql m o' c.column y ∧
      (match c.direction with
        | .asc => k.server.le (Sql.toDb x) (Sql.toDb y) = true
        | .desc => k.server.le (Sql.toDb y) (Sql.toDb x) = true) ∧
      (k.server.le (Sql.toDb x) (Sql.toDb y) = true ∧ k.server.le (Sql.toDb y) (Sql.toDb x) = true →
        PgPrecedes k m rest o o')

/-- A list of the objects that satisfy the filter, each once, in an order the order terms allow; then a
page of that list, read back. -/
def PgSelects (k : PgConn) (m : TModel) (pk : TField) (st : Objects m) (e : Option FOr) (sort : List Order)
    (limit offset : Option Nat) (res : List (ObjVals m.fields)) : Prop :=
  ∃ all : List (SqlVal × ObjVals m.fields),
    (all.map (·.1)).Nodup ∧
    (∀ id o, (id, o) ∈ all ↔ PgHas pk st id o ∧ ∀ f ∈ e, PgFilterMeans k m o f) ∧
    all.Pairwise (fun p q => PgPrecedes k m sort p.2 q.2) ∧
    AllMatch (fun p o' => EqualFields m.fields p.2 o') (page limit offset all) res

end Butane.Spec
