import Verif.Common.SMap
import Verif.Model.Value
/-
The abstract schema and its differences.
Models butane_core/src/migrations/adb.rs.
-/
namespace Butane

/-- `TypeIdentifier`, adb.rs:45-49. -/
inductive TypeIdentifier where
  | ty (t : SqlType)
  | name (n : String)
deriving DecidableEq, Repr

/-- `TypeKey`, adb.rs:57-64. -/
inductive TypeKey where
  | pk (table : String)
  | customType (name : String)
deriving DecidableEq, Repr

/-- `impl Ord for TypeKey`, adb.rs:121-135. -/
def TypeKey.cmp : TypeKey → TypeKey → Ordering
  | .pk s, .pk o => compare s o
  | .pk _, .customType _ => .lt
  | .customType _, .pk _ => .gt
  | .customType s, .customType o => compare s o

instance : Ord TypeKey := ⟨TypeKey.cmp⟩

/-- `DeferredSqlType`, adb.rs:334-338. -/
inductive DeferredSqlType where
  | known (t : SqlType)
  | knownId (t : TypeIdentifier)
  | deferred (k : TypeKey)
deriving DecidableEq, Repr

/-- `impl PartialEq for DeferredSqlType`, adb.rs:358-373: `Known(t)` and
`KnownId(Ty(t))` are equal. -/
def DeferredSqlType.beq : DeferredSqlType → DeferredSqlType → Bool
  | .known a, .known b => a == b
  | .knownId a, .knownId b => a == b
  | .known a, .knownId b => TypeIdentifier.ty a == b
  | .knownId a, .known b => a == TypeIdentifier.ty b
  | .deferred a, .deferred b => a == b
  | _, _ => false

/-- `DeferredSqlType::is_known`, adb.rs:349-355. -/
def DeferredSqlType.isKnown : DeferredSqlType → Bool
  | .known _ => true
  | .knownId _ => true
  | .deferred _ => false

/-- `ARef` with `ARefLiteral` inlined, adb.rs:382-396. -/
inductive ARef where
  | literal (table column : String)
  | deferred (t : DeferredSqlType)
deriving DecidableEq, Repr

/-- `#[derive(PartialEq)]` of `ARef`, adb.rs:381. -/
def ARef.beq : ARef → ARef → Bool
  | .literal t c, .literal t' c' => t == t' && c == c'
  | .deferred a, .deferred b => a.beq b
  | _, _ => false

/-- Rust's derived `PartialEq for Option<T>` given that of `T`. -/
def optBeq {α : Type} (f : α → α → Bool) : Option α → Option α → Bool
  | none, none => true
  | some a, some b => f a b
  | _, _ => false

/-- `AColumn`, adb.rs:418-437. -/
structure AColumn where
  name : String
  sqltype : DeferredSqlType
  nullable : Bool
  pk : Bool
  auto : Bool
  unique : Bool
  default : Option SqlVal
  reference : Option ARef
deriving DecidableEq, Repr

namespace AColumn

/-- `#[derive(PartialEq)]` of `AColumn`, adb.rs:417. -/
def beq (a b : AColumn) : Bool :=
  a.name == b.name && a.sqltype.beq b.sqltype && a.nullable == b.nullable && a.pk == b.pk &&
  a.auto == b.auto && a.unique == b.unique && optBeq SqlVal.beq a.default b.default &&
  optBeq ARef.beq a.reference b.reference

/-- `AColumn::new_simple`, adb.rs:463-465. -/
def newSimple (name : String) (sqltype : DeferredSqlType) : AColumn :=
  ⟨name, sqltype, false, false, false, false, none, none⟩

/-- `AColumn::typeid`, adb.rs:494-500; the error `UnknownSqlType` is `none`. -/
def typeid (c : AColumn) : Option TypeIdentifier :=
  match c.sqltype with
  | .knownId t => some t
  | .known t => some (.ty t)
  | .deferred _ => none

end AColumn

/-- `ATable`, adb.rs:300-303. -/
structure ATable where
  name : String
  columns : List AColumn
deriving DecidableEq, Repr

/-- `col_by_name`, adb.rs:649-651, and the body of `ATable::column`, adb.rs:314-316. -/
def colByName (cols : List AColumn) (name : String) : Option AColumn :=
  cols.find? (fun c => c.name == name)

/-- `ATable::replace_column` on the column vector, adb.rs:317-323: overwrite the first
column with that name, or push. -/
def replaceCol (cols : List AColumn) (c : AColumn) : List AColumn :=
  match cols with
  | [] => [c]
  | x :: rest => if x.name == c.name then c :: rest else x :: replaceCol rest c

namespace ATable

/-- `ATable::new`, adb.rs:305-310. -/
def new (name : String) : ATable := ⟨name, []⟩

/-- `ATable::column`, adb.rs:314-316. -/
def column (t : ATable) (name : String) : Option AColumn := colByName t.columns name

/-- `ATable::replace_column`, adb.rs:317-323. -/
def replaceColumn (t : ATable) (c : AColumn) : ATable := { t with columns := replaceCol t.columns c }

/-- `ATable::add_column`, adb.rs:311-313. -/
def addColumn (t : ATable) (c : AColumn) : ATable := t.replaceColumn c

/-- `ATable::remove_column`, adb.rs:324-326. -/
def removeColumn (t : ATable) (name : String) : ATable :=
  { t with columns := t.columns.filter (fun c => c.name != name) }

/-- `ATable::pk`, adb.rs:327-329. -/
def pk (t : ATable) : Option AColumn := t.columns.find? (fun c => c.pk)

end ATable

/-- `ADB`, adb.rs:178-181. -/
structure ADB where
  tables : SMap String ATable
  extraTypes : SMap TypeKey DeferredSqlType
deriving Repr

/-- `Operation`, adb.rs:585-603. -/
inductive Operation where
  | addTable (t : ATable)
  | addTableIfNotExists (t : ATable)
  | removeTableConstraints (t : ATable)
  | removeTable (name : String)
  | addColumn (table : String) (col : AColumn)
  | removeColumn (table : String) (col : String)
  | changeColumn (table : String) (old new : AColumn)
  | addTableConstraints (t : ATable)
deriving DecidableEq, Repr

namespace ADB

/-- `ADB::new`, adb.rs:183-188. -/
def new : ADB := ⟨[], []⟩

/-- `ADB::get_table`, adb.rs:192-194. -/
def getTable (db : ADB) (name : String) : Option ATable := db.tables.lookup name

/-- `ADB::replace_table`, adb.rs:198-200. -/
def replaceTable (db : ADB) (t : ATable) : ADB := { db with tables := db.tables.insert t.name t }

/-- `ADB::remove_table`, adb.rs:201-203. -/
def removeTable (db : ADB) (name : String) : ADB := { db with tables := db.tables.erase name }

/-- `ADB::add_type`, adb.rs:204-206. -/
def addType (db : ADB) (k : TypeKey) (t : DeferredSqlType) : ADB :=
  { db with extraTypes := db.extraTypes.insert k t }

/-- `ADB::transform_with`, adb.rs:267-295.  Column operations on a missing table do
nothing (`if let Some(t) = self.tables.get_mut(..)`). -/
def transformWith (db : ADB) : Operation → ADB
  | .addTable t => { db with tables := db.tables.insert t.name t }
  | .addTableConstraints _ => db
  | .addTableIfNotExists t => { db with tables := db.tables.insert t.name t }
  | .removeTable n => db.removeTable n
  | .removeTableConstraints _ => db
  | .addColumn tbl c => { db with tables := db.tables.modify tbl (·.addColumn c) }
  | .removeColumn tbl c => { db with tables := db.tables.modify tbl (·.removeColumn c) }
  | .changeColumn tbl _ c => { db with tables := db.tables.modify tbl (·.replaceColumn c) }

/-- Run a list of operations with `transform_with`, in order (sqlite.rs:86-93). -/
def transformAll (db : ADB) (ops : List Operation) : ADB := ops.foldl transformWith db

end ADB

/-- `columns.iter().map(|c| &c.name).collect::<BTreeSet<_>>()`, adb.rs:655-656:
the distinct column names in ascending order. -/
def colNameSet (cols : List AColumn) : List String :=
  (cols.foldl (fun (s : SMap String Unit) c => s.insert c.name ()) []).keys

/-- `diff_table`, adb.rs:653-691.  `BTreeSet::difference`/`intersection` iterate the
left set in order.  `col_by_name(..).unwrap()` is a `filterMap`: the name comes from
that very column list, so the lookup succeeds (`colByName_of_mem_colNameSet`). -/
def diffTable (old new : ATable) : List Operation :=
  let newNames := colNameSet new.columns
  let oldNames := colNameSet old.columns
  ((newNames.filter (fun n => !oldNames.contains n)).filterMap (fun n =>
      (colByName new.columns n).map (fun c => Operation.addColumn new.name c))) ++
  ((oldNames.filter (fun n => !newNames.contains n)).map (fun n =>
      Operation.removeColumn old.name n)) ++
  ((newNames.filter (fun n => oldNames.contains n)).filterMap (fun n =>
      match colByName new.columns n, colByName old.columns n with
      | some col, some oldCol =>
        if col.beq oldCol then none else some (Operation.changeColumn new.name oldCol col)
      | _, _ => none))

/-- `diff`, adb.rs:606-647.  The name sets are the keys of the two maps; fetching the
table of a key (`get(..).expect("no table")`) is iterating over the entries. -/
def diff (old new : ADB) : List Operation :=
  let added := new.tables.filter (fun e => !old.tables.keys.contains e.1)
  let removed := old.tables.filter (fun e => !new.tables.keys.contains e.1)
  (added.map (fun e => Operation.addTable e.2)) ++
  (removed.map (fun e => Operation.removeTableConstraints e.2)) ++
  (removed.map (fun e => Operation.removeTable e.1)) ++
  (new.tables.flatMap (fun e =>
      match old.tables.lookup e.1 with
      | some oldTable => diffTable oldTable e.2
      | none => [])) ++
  ((added.filter (fun e => e.2.columns.any (fun c => c.reference.isSome))).map (fun e =>
      Operation.addTableConstraints e.2))

/-- `MANY_SUFFIX`, adb.rs:16. -/
def manySuffix : String := "_Many"

/-- `create_many_table`, adb.rs:552-580. -/
def createManyTable (mainTable manyField : String) (manyFieldType : DeferredSqlType)
    (mainPkName : String) (mainPkType : DeferredSqlType) : ATable :=
  let table := ATable.new (mainTable ++ "_" ++ manyField ++ manySuffix)
  let owner : AColumn :=
    ⟨"owner", mainPkType, false, false, false, false, none, some (.literal mainTable mainPkName)⟩
  let table := table.addColumn owner
  let has := AColumn.newSimple "has" manyFieldType
  let has := match manyFieldType with
    | .deferred (.pk _) => { has with reference := some (.deferred manyFieldType) }
    | _ => has
  table.addColumn has

end Butane
