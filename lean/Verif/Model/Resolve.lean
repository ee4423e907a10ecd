import Verif.Model.TypeKey
/-
Type resolution. Models `ADB::resolve_types` and its helpers in
butane_core/src/migrations/adb.rs.
-/
namespace Butane

/-- `JSON_MAP_PREFIXES`, adb.rs:18-37. -/
def jsonMapPrefixes : List String :=
  ["HashMap", "collections::HashMap", "std::collections::HashMap",
   "BTreeMap", "collections::BTreeMap", "std::collections::BTreeMap"].flatMap (fun m =>
    ["String", "string::String", "std::string::String"].map (fun s => m ++ "<" ++ s ++ ","))

/-- `TypeResolver`, adb.rs:137-141. A `HashMap` used only through `get` and `entry`. -/
abbrev Resolver := SMap TypeKey TypeIdentifier

/-- A custom type name that is a string-keyed map, adb.rs:150-156. -/
def isJsonMap (k : TypeKey) : Bool :=
  match k with
  | .customType ct => jsonMapPrefixes.any (fun p => startsWithStr ct p)
  | .pk _ => false

/-- `TypeResolver::find_type`, adb.rs:148-159; `json` is the cargo feature. -/
def Resolver.findType (json : Bool) (r : Resolver) (k : TypeKey) : Option TypeIdentifier :=
  if json && isJsonMap k then some (.ty .json) else SMap.lookup r k

/-- `TypeResolver::insert`, adb.rs:160-169: keeps the first type given for a key. -/
def Resolver.put (r : Resolver) (k : TypeKey) (t : TypeIdentifier) : Resolver × Bool :=
  match SMap.lookup r k with
  | some _ => (r, false)
  | none => (SMap.insert r k t, true)

/-- `DeferredSqlType::resolve`, adb.rs:340-348; the error is `none`. -/
def DeferredSqlType.resolve (json : Bool) (r : Resolver) : DeferredSqlType → Option TypeIdentifier
  | .knownId t => some t
  | .known t => some (.ty t)
  | .deferred k => r.findType json k

/-- `AColumn::resolve_type`, adb.rs:502-512: the column and whether it changed. -/
def AColumn.resolveType (json : Bool) (r : Resolver) (c : AColumn) : AColumn × Bool :=
  if c.sqltype.isKnown then (c, false)
  else match c.sqltype.resolve json r with
    | some ty => ({ c with sqltype := .knownId ty }, true)
    | none => (c, false)

/-- The table a deferred reference means, adb.rs:521-532; `none` is the `unreachable!` panic. -/
def refTarget (extra : SMap TypeKey DeferredSqlType) (key : TypeKey) : Option String :=
  match extra.lookup key with
  | some (.deferred (.pk t)) => some t
  | _ => match key with
    | .pk t => some t
    | .customType _ => none

/-- `AColumn::resolve_reference_target`, adb.rs:514-543; `none` is the `unreachable!` panic. -/
def AColumn.resolveReferenceTarget (extra : SMap TypeKey DeferredSqlType) (tables : SMap String ATable)
    (c : AColumn) : Option AColumn :=
  match c.reference with
  | none => some c
  | some (.literal _ _) => some c
  | some (.deferred (.deferred key)) =>
    match refTarget extra key with
    | none => none
    | some name =>
      match tables.lookup name with
      | some t => match t.pk with
        | some pk => some { c with reference := some (.literal name pk.name) }
        | none => some c
      | none => some c
  | some (.deferred _) => none

/-- Apply a function that may panic to each element, in order. -/
def mapPanic {α β : Type} (f : α → Option β) : List α → Option (List β)
  | [] => some []
  | a :: as =>
    match f a with
    | none => none
    | some b => match mapPanic f as with
      | none => none
      | some bs => some (b :: bs)

/-- The first loop of `resolve_types`, adb.rs:213-218. -/
def resolveReferences (db : ADB) : Option (SMap String ATable) :=
  mapPanic (fun e =>
    match mapPanic (AColumn.resolveReferenceTarget db.extraTypes db.tables) e.2.columns with
    | none => none
    | some cols => some (e.1, { e.2 with columns := cols })) db.tables

/-- One table of a pass, adb.rs:223-236: record the primary key type, then resolve each
column. Returns the resolver, whether something changed, and the table. -/
def passTable (json : Bool) (r : Resolver) (t : ATable) : Option (Resolver × Bool × ATable) :=
  let afterPk : Option (Resolver × Bool) :=
    match t.pk with
    | some pk => match pk.typeid with
      | some ty => some (r.put (.pk t.name) ty)
      | none => some (r, false)
    | none => if endsWithStr t.name manySuffix then some (r, false) else none
  match afterPk with
  | none => none
  | some (r', ch) =>
    let cols := t.columns.map (AColumn.resolveType json r')
    some (r', ch || cols.any (·.2), { t with columns := cols.map (·.1) })

/-- All tables of a pass, adb.rs:223-236. -/
def passTables (json : Bool) : Resolver → List (String × ATable) →
    Option (Resolver × Bool × List (String × ATable))
  | r, [] => some (r, false, [])
  | r, (n, t) :: rest =>
    match passTable json r t with
    | none => none
    | some (r1, ch1, t1) =>
      match passTables json r1 rest with
      | none => none
      | some (r2, ch2, rest') => some (r2, ch1 || ch2, (n, t1) :: rest')

/-- One custom type of a pass, adb.rs:238-251. -/
def passExtra1 (json : Bool) (r : Resolver) (k : TypeKey) : DeferredSqlType →
    Resolver × Bool × DeferredSqlType
  | .known t => let p := r.put k (.ty t); (p.1, p.2, .known t)
  | .knownId t => let p := r.put k t; (p.1, p.2, .knownId t)
  | .deferred key =>
    match r.findType json key with
    | some ty => (r, true, .knownId ty)
    | none => (r, false, .deferred key)

/-- All custom types of a pass, adb.rs:237-252. -/
def passExtra (json : Bool) : Resolver → List (TypeKey × DeferredSqlType) →
    Resolver × Bool × List (TypeKey × DeferredSqlType)
  | r, [] => (r, false, [])
  | r, (k, d) :: rest =>
    let p := passExtra1 json r k d
    let q := passExtra json p.1 rest
    (q.1, p.2.1 || q.2.1, (k, p.2.2) :: q.2.2)

/-- State of the resolution loop. -/
structure RState where
  resolver : Resolver
  tables : SMap String ATable
  extra : SMap TypeKey DeferredSqlType

/-- The body of the `while changed` loop, adb.rs:220-253; `none` is a panic. -/
def pass (json : Bool) (s : RState) : Option (RState × Bool) :=
  match passTables json s.resolver s.tables with
  | none => none
  | some (r1, ch1, tables') =>
    let (r2, ch2, extra') := passExtra json r1 s.extra
    some (⟨r2, tables', extra'⟩, ch1 || ch2)

/-- How running the loop for a number of rounds can end. -/
inductive LoopResult where
  | done (s : RState)
  | panic
  | outOfFuel

/-- The `while changed` loop, adb.rs:220-253, for at most `fuel` rounds. -/
def resolveLoop (json : Bool) : Nat → RState → LoopResult
  | 0, _ => .outOfFuel
  | fuel + 1, s =>
    match pass json s with
    | none => .panic
    | some (s', true) => resolveLoop json fuel s'
    | some (s', false) => .done s'

/-- The first unresolved type in table and column order, adb.rs:255-262. -/
def firstDeferred (tables : SMap String ATable) : Option TypeKey :=
  (tables.flatMap (fun e => e.2.columns)).findSome? (fun c =>
    match c.sqltype with
    | .deferred k => some k
    | _ => none)

/-- Result of `resolve_types`: the schema is updated in place also when an error is
returned; `outOfFuel` means the loop did not end within the given rounds. -/
inductive ResolveResult where
  | ok (db : ADB)
  | cannotResolve (text : String) (db : ADB)
  | panic
  | outOfFuel

/-- A number of rounds that is always enough: one per table, per column, two per
registered type, and one. -/
def rounds (db : ADB) : Nat :=
  db.tables.length + (db.tables.map (fun e => e.2.columns.length)).sum + 2 * db.extraTypes.length + 1

/-- `ADB::resolve_types`, adb.rs:209-264, running the loop for at most `fuel` rounds. -/
def ADB.resolveTypes (json : Bool) (fuel : Nat) (db : ADB) : ResolveResult :=
  match resolveReferences db with
  | none => .panic
  | some tables =>
    match resolveLoop json fuel ⟨[], tables, db.extraTypes⟩ with
    | .outOfFuel => .outOfFuel
    | .panic => .panic
    | .done s =>
      match firstDeferred s.tables with
      | some k => .cannotResolve k.display ⟨s.tables, s.extra⟩
      | none => .ok ⟨s.tables, s.extra⟩

end Butane
