/-
Which objects a query is supposed to find: the meaning of `filter!` expressions on objects.

Objects are kept by model; `Many` fields are kept as pairs of keys.  A comparison of a field with a
value is SQLite's comparison of their stored forms (which, for equality of values that are not
real, is equality, see `compares_eq` in Props/ObjQuery.lean); references between objects are
equality of keys.
-/
import Verif.Spec.ObjKept
import Verif.Spec.Data

namespace Butane.Spec
open Butane Butane.Ddl

/-! ### Objects in a database -/

/-- The field of that name has that value, as `to_sql` gives it. -/
def FieldSql (m : TModel) (o : ObjVals m.fields) (n : String) (v : SqlVal) : Prop :=
  ∃ t x, valueOf n m.fields o = some ⟨t, x⟩ ∧ t.toSql x = .ok v

/-- The row holds the object: in each column, what a column holds after the field was written. -/
def RowHolds (k : SqliteConn) (m : TModel) (cols : List ColDef) (r : List SqliteVal)
    (o : ObjVals m.fields) : Prop :=
  ∀ n t x, valueOf n m.fields o = some ⟨t, x⟩ → ∃ v a st w, t.toSql x = .ok v ∧
    toSqlite k.codecs v = .ok a ∧ sqliteType t.sqltype = some st ∧ field cols r n = some w ∧
    ColumnHolds st a w

/-- The table of the model holds these objects and nothing else: every row has a key of the model's key
type; for a key with an object there is one row, which holds the object, and for a key without an
object there is none.  (No object has a NaN: C41.) -/
def StoresObjs (k : SqliteConn) (m : TModel) (pk : TField) (u : SDb) (st : Objects m) : Prop :=
  ∃ t, u.lookup m.table = some t ∧
    (∀ r ∈ t.rows, ∃ id a, IsKeyVal k pk id a ∧ field t.cols r pk.name = some a) ∧
    ∀ id a, IsKeyVal k pk id a →
      match st id with
      | none => t.rows.filter (fun r => decide (field t.cols r pk.name = some a)) = []
      | some o => FieldSql m o pk.name id ∧ AllProper m.fields o ∧ NoNaNs m.fields o ∧
        ∃ r, t.rows.filter (fun r => decide (field t.cols r pk.name = some a)) = [r] ∧
          RowHolds k m t.cols r o

/-- The objects of a model. -/
structure Stock where
  m : TModel
  pk : TField
  objs : Objects m

/-- The object with the key. -/
def Stock.Has (s : Stock) (id : SqlVal) (o : ObjVals s.m.fields) : Prop :=
  KeyLike s.pk id ∧ s.objs id = some o

/-- What a `Many` field of all objects of a model contains: keys of owners with keys of objects. -/
structure Links where
  owner : TField
  target : TField
  linked : SqlVal → SqlVal → Prop

/-- The link table holds these pairs and nothing else. -/
def StoresLinks (k : SqliteConn) (u : SDb) (n : String) (L : Links) : Prop :=
  ∃ t, u.lookup n = some t ∧ (∀ c, c ∈ t.cols.map (·.name) ↔ c = "owner" ∨ c = "has") ∧
    (∀ r ∈ t.rows, ∃ x y a b, L.linked x y ∧ IsKeyVal k L.owner x a ∧ IsKeyVal k L.target y b ∧
      field t.cols r "owner" = some a ∧ field t.cols r "has" = some b) ∧
    ∀ x y, L.linked x y → ∃ r ∈ t.rows, ∃ a b, IsKeyVal k L.owner x a ∧ IsKeyVal k L.target y b ∧
      field t.cols r "owner" = some a ∧ field t.cols r "has" = some b

/-- The objects and links of a program, by tables. -/
structure World where
  stock : String → Option Stock
  links : String → Option Links

/-- The database holds the objects and links. -/
structure Keeps (k : SqliteConn) (u : SDb) (W : World) : Prop where
  stock : ∀ n s, W.stock n = some s → s.m.table = n ∧ Ready k s.m s.pk u ∧ StoresObjs k s.m s.pk u s.objs
  links : ∀ n L, W.links n = some L → W.stock n = none ∧ IsName n ∧ StoresLinks k u n L

/-! ### Meaning of a filter on an object -/

/-- Neither value is null, and SQLite's comparison of their stored forms is true. -/
def Related (k : SqliteConn) (op : CmpOp) (x v : SqlVal) : Prop :=
  x ≠ .null ∧ v ≠ .null ∧ ∃ a b, toSqlite k.codecs x = .ok a ∧ toSqlite k.codecs v = .ok b ∧
    k.data.rel op (seen a) (seen b) = true

/-- `field op value`: `== None` and `!= None` test for null. -/
def Compares (k : SqliteConn) (op : CmpOp) (x v : SqlVal) : Prop :=
  match op, v with
  | .eq, .null => x = .null
  | .ne, .null => x ≠ .null
  | op, v => Related k op x v

mutual
def AtomMeans (k : SqliteConn) (W : World) : (s : Stock) → ObjVals s.m.fields → FAtom → Prop
  | s, o, .cmp op f v => ∃ x, FieldSql s.m o f x ∧ Compares k op x v
  | s, o, .isIn f vs => ∃ x, FieldSql s.m o f x ∧ ∃ v ∈ vs, Related k .eq x v
  | s, o, .matchesPk f t id =>
    ∃ s' o', W.stock t.table = some s' ∧ s'.Has id o' ∧ FieldSql s.m o f id
  | s, o, .matches f t e =>
    ∃ s' id o', W.stock t.table = some s' ∧ s'.Has id o' ∧ FieldSql s.m o f id ∧ FilterMeans k W s' o' e
  | s, o, .containsPk n _ t id =>
    ∃ s' o' L own, W.stock t.table = some s' ∧ s'.Has id o' ∧ W.links n = some L ∧
      FieldSql s.m o s.pk.name own ∧ L.linked own id
  | s, o, .contains n _ t e =>
    ∃ s' id o' L own, W.stock t.table = some s' ∧ s'.Has id o' ∧ W.links n = some L ∧
      FieldSql s.m o s.pk.name own ∧ L.linked own id ∧ FilterMeans k W s' o' e
def AndMeans (k : SqliteConn) (W : World) : (s : Stock) → ObjVals s.m.fields → FAnd → Prop
  | s, o, .one a => AtomMeans k W s o a
  | s, o, .and l r => AndMeans k W s o l ∧ AtomMeans k W s o r
/-- The objects a `filter!` expression describes. -/
def FilterMeans (k : SqliteConn) (W : World) : (s : Stock) → ObjVals s.m.fields → FOr → Prop
  | s, o, .one a => AndMeans k W s o a
  | s, o, .or l r => FilterMeans k W s o l ∨ AndMeans k W s o r
end

/-! ### Filters that compile -/

/-- The value can be bound. -/
def CanBind (k : SqliteConn) (v : SqlVal) : Prop := ∃ a, toSqlite k.codecs v = .ok a

/-- The model has a field of that name; inside `contains`, it is not named as a column of the link
table. -/
def Nameable (inLink : Bool) (s : Stock) (f : String) : Prop :=
  (∃ t, HasField s.m f t) ∧ (inLink = true → f ≠ "owner" ∧ f ≠ "has")

/-- The field is of the type of the keys of the other model. -/
def KeyField (s : Stock) (f : String) (s' : Stock) : Prop :=
  ∃ t t', HasField s.m f t ∧ s'.pk.ty = some t' ∧ t.sqltype = t'.sqltype

mutual
/-- What the types guarantee of a filter that compiles: fields exist, references are of the type of the
keys of the other model, and values can be bound; moreover, `like` is not used on a real, and a field
that is compared with a value needs no quotes (butane does not quote it, C11). -/
def AtomFits (k : SqliteConn) (W : World) : Bool → Stock → FAtom → Prop
  | l, s, .cmp op f v => Nameable l s f ∧ PlainName k.reserved f ∧ CanBind k v ∧
      (op = .like → ∀ t, HasField s.m f t → sqliteType t.sqltype ≠ some .real)
  | l, s, .isIn f vs => Nameable l s f ∧ ∀ v ∈ vs, CanBind k v
  | l, s, .matchesPk f t id => Nameable l s f ∧ ∃ s', W.stock t.table = some s' ∧ t.pkcol = s'.pk.name ∧
      KeyField s f s' ∧ KeyLike s'.pk id
  | l, s, .matches f t e => Nameable l s f ∧ ∃ s', W.stock t.table = some s' ∧ t.pkcol = s'.pk.name ∧
      KeyField s f s' ∧ FilterFits k W false s' e
  | l, s, .containsPk n ow t id => Nameable l s s.pk.name ∧ ow.pkcol = s.pk.name ∧
      ∃ s' L, W.stock t.table = some s' ∧ t.pkcol = s'.pk.name ∧ W.links n = some L ∧ L.owner = s.pk ∧
        L.target = s'.pk ∧ Nameable true s' s'.pk.name ∧ KeyLike s'.pk id
  | l, s, .contains n ow t e => Nameable l s s.pk.name ∧ ow.pkcol = s.pk.name ∧
      ∃ s' L, W.stock t.table = some s' ∧ t.pkcol = s'.pk.name ∧ W.links n = some L ∧ L.owner = s.pk ∧
        L.target = s'.pk ∧ FilterFits k W true s' e
def AndFits (k : SqliteConn) (W : World) : Bool → Stock → FAnd → Prop
  | l, s, .one a => AtomFits k W l s a
  | l, s, .and x y => AndFits k W l s x ∧ AtomFits k W l s y
def FilterFits (k : SqliteConn) (W : World) : Bool → Stock → FOr → Prop
  | l, s, .one a => AndFits k W l s a
  | l, s, .or x y => FilterFits k W l s x ∧ AndFits k W l s y
end

/-- SQLite compares and orders reals by their numbers. -/
structure RealLaws (D : SqliteData) : Prop where
  rel : ∀ op r r' x, op ≠ .like → F64.eq r r' = true →
    D.rel op (.other (.real r')) x = D.rel op (.other (.real r)) x
  leLeft : ∀ r r' x, F64.eq r r' = true → D.le (.other (.real r')) x = D.le (.other (.real r)) x
  leRight : ∀ r r' x, F64.eq r r' = true → D.le x (.other (.real r')) = D.le x (.other (.real r))

/-- SQLite orders values: of two, one comes first, and the order is transitive. -/
structure OrderLaws (D : SqliteData) : Prop where
  total : ∀ a b, D.le a b = true ∨ D.le b a = true
  trans : ∀ a b c, D.le a b = true → D.le b c = true → D.le a c = true

/-! ### Results -/

/-- The objects may come in this order: earlier order terms count first, and the values of a term are
compared as SQLite orders stored values. -/
def Precedes (k : SqliteConn) (m : TModel) : List Order → ObjVals m.fields → ObjVals m.fields → Prop
  | [], _, _ => True
  | c :: rest, o, o' => ∃ x y a b, FieldSql m o c.column x ∧ FieldSql m o' c.column y ∧
      toSqlite k.codecs x = .ok a ∧ toSqlite k.codecs y = .ok b ∧
      (match c.direction with
        | .asc => k.data.le (seen a) (seen b) = true
        | .desc => k.data.le (seen b) (seen a) = true) ∧
      (k.data.le (seen a) (seen b) = true ∧ k.data.le (seen b) (seen a) = true → Precedes k m rest o o')

/-- Without the first `offset` and cut to `limit`. -/
def page {α : Type} (limit offset : Option Nat) (l : List α) : List α :=
  match limit, offset with
  | none, none => l
  | none, some n => l.drop n
  | some m, none => l.take m
  | some m, some n => (l.drop n).take m

/-- A list of the objects that are described, each once, in an order the order terms allow; then a page of
that list, read back. -/
def Lists (k : SqliteConn) (m : TModel) (P : SqlVal → ObjVals m.fields → Prop) (sort : List Order)
    (limit offset : Option Nat) (res : List (ObjVals m.fields)) : Prop :=
  ∃ all : List (SqlVal × ObjVals m.fields),
    (all.map (·.1)).Nodup ∧
    (∀ id o, (id, o) ∈ all ↔ P id o) ∧
    all.Pairwise (fun p q => Precedes k m sort p.2 q.2) ∧
    AllMatch (fun p o' => SameFields m.fields p.2 o') (page limit offset all) res

/-- The result of a query: all objects that satisfy the filter. -/
def Selects (k : SqliteConn) (W : World) (s : Stock) (filter : Option FOr) (sort : List Order)
    (limit offset : Option Nat) (res : List (ObjVals s.m.fields)) : Prop :=
  Lists k s.m (fun id o => s.Has id o ∧ ∀ e ∈ filter, FilterMeans k W s o e) sort limit offset res

/-- The query was built for the model, with this filter and with orders by its fields, and compiles. -/
structure Sendable (k : SqliteConn) (W : World) (s : Stock) (q : Query) (e : Option FOr) : Prop where
  table : q.table = s.m.table
  filter : q.filter = e.map FOr.toBool
  fits : ∀ f ∈ e, FilterFits k W false s f
  sort : ∀ c ∈ q.sort, ∃ ty, HasField s.m c.column ty

/-! ### Histories -/

/-- With other objects of a model. -/
def World.setObjs (W : World) (n : String) (s : Stock) (objs : Objects s.m) : World :=
  { W with stock := fun n' => if n' = n then some ⟨s.m, s.pk, objs⟩ else W.stock n' }

/-- What a program does with its objects, and which objects there are then: objects of any of its models
are saved and deleted.  (An operation that fails changes nothing.)  An object that has an automatic
key is saved only while there is an object with that key. -/
inductive WorldRun (k : SqliteConn) (u0 : SDb) (W0 : World) : SDb → World → Prop
  | start : WorldRun k u0 W0 u0 W0
  | save {u W n u' id} {s : Stock} {o o' : ObjVals s.m.fields} : WorldRun k u0 W0 u W → W.stock n = some s →
      Storable s.m.fields o → NoNaNs s.m.fields o → KeyRoom k s.m s.pk u →
      (s.pk.isAuto = true → keyValid s.pk.name s.m.fields o = true →
        ∀ id, keySql s.pk.name s.m.fields o = .ok id → (s.objs id).isSome) →
      s.m.save k u o = .ok (u', o') → keySql s.pk.name s.m.fields o' = .ok id →
      WorldRun k u0 W0 u' (W.setObjs n s (s.objs.put id o'))
  | delete {u W n u' id} {s : Stock} {o : ObjVals s.m.fields} : WorldRun k u0 W0 u W → W.stock n = some s →
      Storable s.m.fields o → s.m.delete k u o = .ok u' → keySql s.pk.name s.m.fields o = .ok id →
      WorldRun k u0 W0 u' (W.setObjs n s (s.objs.remove id))

end Butane.Spec
