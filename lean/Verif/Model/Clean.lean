/-
The directory `current`, in which the macros record the schema of the code, and the commands that empty it.
-/
import Verif.Model.Codegen
import Verif.Model.Cli

namespace Butane
open Codegen

/-- `clear_current`, fsmigrations.rs:454-458: the directory is removed; that fails if there is none.  A
removal that stops in the middle is not modelled. -/
def FsMigrations.clearCurrent (s : FsMigrations) : Except MErr Unit × FsMigrations :=
  match s.dirs.lookup "current" with
  | none => (.error .read, s)
  | some _ => (.ok (), { s with dirs := s.dirs.filter fun e => e.1 ≠ "current" })

namespace Cli

/-- `clean`, butane_cli/src/lib.rs:662-665.  The directory of migrations exists. -/
def clean (s : FsMigrations) : Except MErr Unit × FsMigrations := s.clearCurrent

/-- `delete_table`, butane_cli/src/lib.rs:638-643.  The directory of migrations exists. -/
def deleteTable (n : String) (s : FsMigrations) : Except MErr Unit × FsMigrations := s.deleteTable n "current"

end Cli

namespace Codegen

/-- The tables of a model are written one after the other, codegen/migration.rs:21-23. -/
def writeFiles (ts : List ATable) (s : FsMigrations) : FsMigrations :=
  ts.foldl (fun s t => s.addModifiedTable t "current") s

/-- `write_table_to_disk`, codegen/migration.rs:12-33, for migrations on disk. -/
def writeTablesFs (g : Cfg) (st : Struct) (s : FsMigrations) : Option FsMigrations :=
  (createATables g st).map fun ts =>
    match st.config with
    | some n => (writeFiles ts s).addType (.pk st.ident.name) (.deferred (.pk n)) "current"
    | none => writeFiles ts s

/-- Expanding one item, for migrations on disk: `model_with_migrations` (codegen/mod.rs:114-149),
`butane_type_with_migrations` (codegen/mod.rs:241-289), and the derive
(butane_codegen/src/lib.rs:322-331,363-373,437-445); `add_custom_type`, codegen/mod.rs:658-668. -/
def expandFs (g : Cfg) (s : FsMigrations) : Item → Option FsMigrations
  | .model st => writeTablesFs g st s
  | .alias n p => (deferredType g p).map fun d => s.addType (.customType n.name) d "current"
  | .typed n ty => some (s.addType (.customType n.name) (.knownId ty) "current")
  | .derived n sh => (sh.sqltype g.ft).map fun t => s.addType (.customType n.text) (.knownId (.ty t)) "current"

/-- Compiling a crate: its items in the order in which the compiler expands them. -/
def compileFs (g : Cfg) (s : FsMigrations) : List Item → Option FsMigrations
  | [] => some s
  | i :: is =>
    match expandFs g s i with
    | none => none
    | some s' => compileFs g s' is

end Codegen
end Butane
