/-
PostgreSQL types as they are written to migrations.
Models butane_core/src/custom.rs.

Each structure is converted to a serializable copy, whose `Serialize` and `Deserialize` are
derived and not modelled.
-/
namespace Butane

mutual
/-- `tokio_postgres::types::Type`.  `builtin` says that it is one of the constants of the
library such as `Type::POINT`, and not made by `Type::new`: the library's derived `PartialEq`
tells the two apart. -/
inductive PgTy where
  | mk (builtin : Bool) (name : String) (oid : UInt32) (kind : PgKind) (schema : String)
/-- `tokio_postgres::types::Kind`, which may have more variants in later versions. -/
inductive PgKind where
  | simple
  | enum_ (variants : List String)
  | pseudo
  | array (t : PgTy)
  | range (t : PgTy)
  | multirange (t : PgTy)
  | domain (t : PgTy)
  | composite (fields : PgFields)
/-- A list of `tokio_postgres::types::Field`. -/
inductive PgFields where
  | nil
  | cons (name : String) (t : PgTy) (rest : PgFields)
end

mutual
/-- `SerializablePgType`, custom.rs:161-167. -/
inductive SPgTy where
  | mk (name : String) (oid : UInt32) (kind : SPgKind) (schema : String)
/-- `SerializablePgKind`, custom.rs:184-193. -/
inductive SPgKind where
  | simple
  | enum_ (variants : List String)
  | pseudo
  | array (t : SPgTy)
  | range (t : SPgTy)
  | domain (t : SPgTy)
  | composite (fields : SPgFields)
/-- A list of `SerializablePgField`, custom.rs:227-231. -/
inductive SPgFields where
  | nil
  | cons (name : String) (t : SPgTy) (rest : SPgFields)
end

mutual
/-- `From<Type>`, custom.rs:168-177; `none` where it panics. -/
def PgTy.ser : PgTy → Option SPgTy
  | .mk _ name oid kind schema =>
    match kind.ser with
    | some k => some (.mk name oid k schema)
    | none => none
/-- `From<Kind>`, custom.rs:194-209: an unknown variant panics. -/
def PgKind.ser : PgKind → Option SPgKind
  | .simple => some .simple
  | .enum_ v => some (.enum_ v)
  | .pseudo => some .pseudo
  | .array t => match t.ser with | some s => some (.array s) | none => none
  | .range t => match t.ser with | some s => some (.range s) | none => none
  | .multirange _ => none
  | .domain t => match t.ser with | some s => some (.domain s) | none => none
  | .composite fs => match fs.ser with | some s => some (.composite s) | none => none
/-- `From<Field>`, custom.rs:232-239, for all fields. -/
def PgFields.ser : PgFields → Option SPgFields
  | .nil => some .nil
  | .cons name t rest =>
    match t.ser, rest.ser with
    | some s, some ss => some (.cons name s ss)
    | _, _ => none
end

mutual
/-- `From<SerializablePgType>`, custom.rs:178-182: `Type::new`. -/
def SPgTy.de : SPgTy → PgTy
  | .mk name oid kind schema => .mk false name oid kind.de schema
/-- `From<SerializablePgKind>`, custom.rs:210-225. -/
def SPgKind.de : SPgKind → PgKind
  | .simple => .simple
  | .enum_ v => .enum_ v
  | .pseudo => .pseudo
  | .array t => .array t.de
  | .range t => .range t.de
  | .domain t => .domain t.de
  | .composite fs => .composite fs.de
/-- `From<SerializablePgField>`, custom.rs:240-245, for all fields. -/
def SPgFields.de : SPgFields → PgFields
  | .nil => .nil
  | .cons name t rest => .cons name t.de rest.de
end

/-- `tokio_postgres::types::Type::name`, which is what a column of the type is declared with
(db/pg.rs:723-724). -/
def PgTy.name : PgTy → String
  | .mk _ name _ _ _ => name

end Butane
