import Verif.Model.Cli
/-
Describing a migration: `butane describe`.
Models butane_cli/src/lib.rs.
-/
namespace Butane.Cli

/-- A line that is printed.  (The text of a line is not modelled, only what it shows; the text
`None` for a missing reference is `none`.) -/
inductive Line where
  | noChanges
  | newTable (table : String)
  | tableColumn (column : String) (type : TypeIdentifier)
  | removeTable (table : String)
  | newColumn (table column : String) (type : TypeIdentifier)
  | removeColumn (table column : String)
  | changeColumn (table column : String)
  | type (old new : TypeIdentifier)
  | pk (old new : Bool)
  | auto (old new : Bool)
  | nullable (old new : Bool)
  | unique (old new : Bool)
  | default (old new : Option SqlVal)
  | references (old new : Option (String × String))
deriving DecidableEq, Repr

/-- What was printed, and how it ended. -/
abbrev Printed := List Line × Except CliErr Unit

/-- One after the other, the second only if the first ended well. -/
def andThen (a b : Printed) : Printed :=
  match a with
  | (out, .error e) => (out, .error e)
  | (out, .ok ()) => (out ++ b.1, b.2)

/-- The text for a reference in `print_column_diff`, lib.rs:123-136; a deferred one is an error
(`none`). -/
def refText : Option ARef → Option (Option (String × String))
  | some (.literal table column) => some (some (table, column))
  | none => some none
  | some (.deferred _) => none

/-- `print_column_diff`, lib.rs:103-140.  (That an error comes from `typeid` is not told apart
from the other errors of the tool.) -/
def printColumnDiff (old new : AColumn) : Printed :=
  match old.typeid, new.typeid with
  | some a, some b =>
    let out : List Line :=
      (if a ≠ b then [.type a b] else []) ++
      (if old.pk ≠ new.pk then [.pk old.pk new.pk] else []) ++
      (if old.auto ≠ new.auto then [.auto old.auto new.auto] else []) ++
      (if old.nullable ≠ new.nullable then [.nullable old.nullable new.nullable] else []) ++
      (if old.unique ≠ new.unique then [.unique old.unique new.unique] else []) ++
      (if optBeq SqlVal.beq old.default new.default then [] else [.default old.default new.default])
    if optBeq ARef.beq old.reference new.reference then (out, .ok ())
    else
      match refText old.reference with
      | none => (out, .error .other)
      | some o =>
        match refText new.reference with
        | none => (out, .error .other)
        | some n => (out ++ [.references o n], .ok ())
  | _, _ => ([], .error .other)

/-- The loop over the columns of a new table, lib.rs:153-155. -/
def printColumns : List AColumn → Printed
  | [] => ([], .ok ())
  | c :: rest =>
    match c.typeid with
    | none => ([], .error .other)
    | some ty => andThen ([.tableColumn c.name ty], .ok ()) (printColumns rest)

/-- The body of the loop of `print_ops`, lib.rs:150-179. -/
def printOp : Operation → Printed
  | .addTable t => andThen ([.newTable t.name], .ok ()) (printColumns t.columns)
  | .addTableIfNotExists t => andThen ([.newTable t.name], .ok ()) (printColumns t.columns)
  | .addTableConstraints _ => ([], .ok ())
  | .removeTableConstraints _ => ([], .ok ())
  | .removeTable n => ([.removeTable n], .ok ())
  | .addColumn t c =>
    match c.typeid with
    | none => ([], .error .other)
    | some ty => ([.newColumn t c.name ty], .ok ())
  | .removeColumn t c => ([.removeColumn t c], .ok ())
  | .changeColumn t old new =>
    if old.name = new.name then
      andThen ([.changeColumn t old.name], .ok ()) (printColumnDiff old new)
    else ([], .error .panic)

/-- The loop of `print_ops`, lib.rs:148-180. -/
def printEach : List Operation → Printed
  | [] => ([], .ok ())
  | op :: rest => andThen (printOp op) (printEach rest)

/-- `print_ops`, lib.rs:143-182. -/
def printOps (ops : List Operation) : Printed :=
  if ops.isEmpty then ([.noChanges], .ok ()) else printEach ops

/-- `describe_current_migration`, lib.rs:185-195. -/
def describeCurrent (json : Bool) (s : FsMigrations) : Printed :=
  match s.getDb json "current" with
  | .error e => ([], .error (.lib e))
  | .ok toDb =>
    match s.getLatest with
    | none => printOps (diff ADB.new toDb)
    | some latest =>
      match s.getDb json latest with
      | .error e => ([], .error (.lib e))
      | .ok fromDb => printOps (diff fromDb toDb)

/-- `describe_migration`, lib.rs:200-225, from where the directory of migrations was found. -/
def describeMigration (json : Bool) (name : String) (s : FsMigrations) : Printed :=
  if name = "current" then describeCurrent json s
  else
    match s.get name with
    | none => ([], .error .exit)
    | some m =>
      match s.getDb json m with
      | .error e => ([], .error (.lib e))
      | .ok toDb =>
        match (s.info m).fromName with
        | none => printOps (diff ADB.new toDb)
        | some f =>
          match s.get f with
          | none => ([], .error .panic)
          | some from_ =>
            match s.getDb json from_ with
            | .error e => ([], .error (.lib e))
            | .ok fromDb => printOps (diff fromDb toDb)

end Butane.Cli
