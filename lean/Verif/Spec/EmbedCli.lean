/-
What a program with embedded migrations should have, and how a crate is worked on.
-/
import Verif.Model.EmbedCli
import Verif.Spec.Cli

namespace Butane.Spec
open Cli

/-- The migrations of the program are those on disk: the same chain, no other migrations, and
each has the same name, predecessor and schema, and for every backend the same SQL to apply and
to undo it. -/
def EmbedsDisk (json : Bool) (s : FsMigrations) (mem : MemMigrations) : Prop :=
  ∃ made, HasMigrations json s made ∧ (∀ b, Chain (mem.toMigs b) (·.getDb json) made) ∧
    (∀ n, (∃ m, mem.get n = some m) ↔ n ∈ made.map (·.1)) ∧
    ∀ n m, mem.get n = some m → ∀ b,
      (mem.toMigs b).name m = n ∧ (mem.toMigs b).from_ m = (s.toMigs b).from_ n ∧
      m.getDb json = s.getDb json n ∧
      (mem.toMigs b).up m = (s.toMigs b).up n ∧ (mem.toMigs b).down m = (s.toMigs b).down n

/-- A backend can be used with a migration: it is listed, with SQL in both directions. -/
def Usable (s : FsMigrations) (n b up down : String) : Prop :=
  b ∈ (s.info n).backends ∧ (s.toMigs b).up n = .ok (some up) ∧ (s.toMigs b).down n = .ok (some down)

/-- The same, for SQL that can be used; and there is no other SQL. -/
def EmbedsUsable (json : Bool) (s : FsMigrations) (mem : MemMigrations) : Prop :=
  ∃ made, HasMigrations json s made ∧ (∀ b, Chain (mem.toMigs b) (·.getDb json) made) ∧
    (∀ n, (∃ m, mem.get n = some m) ↔ n ∈ made.map (·.1)) ∧
    ∀ n m, mem.get n = some m → ∀ b,
      (mem.toMigs b).name m = n ∧ (mem.toMigs b).from_ m = (s.toMigs b).from_ n ∧
      m.getDb json = s.getDb json n ∧
      (∀ up down, Usable s n b up down → (mem.toMigs b).up m = .ok (some up) ∧ (mem.toMigs b).down m = .ok (some down)) ∧
      ((¬∃ up down, Usable s n b up down) → (mem.toMigs b).up m = .ok none ∧ (mem.toMigs b).down m = .ok none)

/-- The crates that are met if no command fails: the crate is new, without migrations; the
code is built; the migrations are embedded; and the commands of the tool are used, under the
conditions of `Reach`. -/
inductive Works (json : Bool) : Crate → Prop
  | new (src : Bool) : Works json ⟨⟨[], none⟩, none, src, none⟩
  | src {p} : Works json p → Works json { p with src := true }
  | build {p fs} : Works json p → fs.latest = p.fs.latest →
      (∀ n, n ≠ "current" → fs.dirs.lookup n = p.fs.dirs.lookup n) → Works json { p with fs := fs }
  | embed {p p'} : Works json p → Cli.embed json p = (.ok (), p') → Works json p'
  | make {p p' get spec name} : Works json p → Finds get → p.fs.dirs.lookup name = none → name ≠ "current" →
      (∀ toDb, p.fs.getDb json "current" = .ok toDb → Settled toDb) →
      makeCmd json get spec name p = (.ok (), p') → Works json p'
  | detach {p p'} {U : Type} {conn : Option (Except MErr (MigConn U))} {db : MigDb U} :
      Works json p → detachCmd json conn db p = (.ok (), p') → Works json p'
  | collapse {p p' get} {U : Type} {conn : Except CliErr (MigConn U)} {db db' : MigDb U} {name} :
      Works json p → Finds get → name ≠ "current" → collapseCmd json get conn name db p = (.ok (), db', p') →
      Works json p'
  | addBackend {p p' get name} : Works json p → Finds get → addBackendCmd json get name p = (.ok (), p') → Works json p'
  | removeBackend {p p' get name} : Works json p → Finds get → removeBackendCmd json get name p = (.ok (), p') →
      Works json p'
  | regenerate {p p' get} : Works json p → Finds get → regenerateCmd json get p = (.ok (), p') → Works json p'

end Butane.Spec
