/-
Work on the source of a crate, as far as the directory `current` is concerned.
-/
import Verif.Model.Clean
import Verif.Spec.CrateDb

namespace Butane.Spec
open Butane Butane.Codegen

/-- What was compiled since `current` was last empty.  The compiler expands items of any version of the
source, in any order, and may stop in the middle of one; migrations are made and changed in between; tables
are deleted with `butane delete table`; `butane clean` starts again. -/
inductive Work (g : Cfg) : List Item → FsMigrations → Prop
  | fresh {s} : s.dirs.lookup "current" = none → Work g [] s
  | clean {old s s'} : Work g old s → Cli.clean s = (.ok (), s') → Work g [] s'
  | item {old s i s'} : Work g old s → expandFs g s i = some s' → Work g (i :: old) s'
  | stopped {old s st ts k} : Work g old s → createATables g st = some ts →
      Work g (.model st :: old) (writeFiles (ts.take k) s)
  | delete {old s n r s'} : Work g old s → Cli.deleteTable n s = (r, s') → Work g old s'
  | other {old s s'} : Work g old s → s'.dirs.lookup "current" = s.dirs.lookup "current" → Work g old s'

/-- Every table and every type name that is recorded for the item is also recorded for the crate. -/
def StillThere (g : Cfg) (items : List Item) (i : Item) : Prop :=
  ∀ a b, expand g ADB.new i = some a → expandAll g ADB.new items = some b →
    (∀ n ∈ a.tables.keys, n ∈ b.tables.keys) ∧ ∀ k ∈ a.extraTypes.keys, k ∈ b.extraTypes.keys

/-- Only the directory `current` may differ. -/
def OnlyCurrent (s s' : FsMigrations) : Prop :=
  s'.latest = s.latest ∧ ∀ n, n ≠ "current" → s'.dirs.lookup n = s.dirs.lookup n

end Butane.Spec
