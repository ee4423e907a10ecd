/-
C95: a migration of a PostgreSQL database that cannot be undone.
-/
import Verif.Props.PgMigrate
import Verif.Props.SqliteUndo

namespace Butane.Props
open Butane Butane.Ddl Butane.DdlP Butane.PgP Butane.Proofs.CrateDb Spec
open Butane.PgCat (lower PTable PgEnv Naming)

/-- The SQL that undoes the second migration removes the authors while the posts refer to them. -/
def exPgDown2 : String := "DROP TABLE Author;\nALTER TABLE Post DROP COLUMN author;\nALTER TABLE Post ALTER COLUMN title SET NOT NULL;\n"

set_option maxRecDepth 20000 in
theorem exPgDown2_read : Ddl.parse false exPgRes (PgCat.foldCase none exPgDown2.toList) =
    some [.dropTable "author", .dropColumn "post" "author", .setNotNull "post" "title" true] := rfl

theorem exPgDown2_fails {db : MigDb PgCat.PDb} (h : PgHasSchema exPgDb2 db.user) (env : PgEnv) :
    pgExec env exPgRes exPgDown2 db = .error .db := by
  obtain ⟨t, hp, hpt⟩ := h.tables.tables "Post" _ rfl
  obtain ⟨a, ha, -⟩ := h.tables.tables "Author" _ rfl
  have hp : db.user.lookup "post" = some t := hp
  have ha : db.user.lookup "author" = some a := ha
  obtain ⟨x, hx, hk⟩ := (hpt.constraints (.fk "author" "author" "id")).2
    ⟨⟨"author", .knownId (.ty .bigInt), true, false, false, false, none, some (.literal "Author" "id")⟩,
      by simp, by decide, "Author", "id", rfl, by decide, by decide⟩
  have key : ∀ d : PgCat.PDb, d.lookup "post" = some t → d.lookup "author" = some a →
      PgCat.execAll env d [.dropTable "author", .dropColumn "post" "author", .setNotNull "post" "title" true] = none := by
    intro d h1 h2
    have hu : PgCat.tableUsed d "author" = true := by
      refine List.any_eq_true.2 ⟨_, SMap.mem_of_lookup h1, ?_⟩
      simp only [Bool.and_eq_true, decide_eq_true_eq, List.any_eq_true]
      exact ⟨by decide, x, hx, by rw [hk]; rfl⟩
    have he : PgCat.exec env d (.dropTable "author") = none := by
      unfold PgCat.exec
      split
      · rfl
      · simp only [PgCat.altered, h2, hu, if_true]
    simp only [PgCat.execAll, he]
  have hw : (pgWhole db).lookup "post" = some t ∧ (pgWhole db).lookup "author" = some a := by
    have ho : ∀ n, n ≠ recordsName → (pgOthers db.user).lookup n = db.user.lookup n := fun n hn => by
      rw [others_lookup, if_neg hn]
    unfold pgWhole
    cases db.log with
    | none => exact ⟨by rw [ho _ (by decide)]; exact hp, by rw [ho _ (by decide)]; exact ha⟩
    | some l =>
      dsimp only
      rw [SMap.lookup_insert, SMap.lookup_insert, if_neg (by decide), if_neg (by decide), ho _ (by decide), ho _ (by decide)]
      exact ⟨hp, ha⟩
  unfold pgExec PgCat.execScript
  rw [exPgDown2_read]
  simp only [key _ hw.1 hw.2]

/-- **C95 fails if undoing is asked to succeed**: the tool makes a migration (for a new table and a
column that refers to it) that can be applied and that no connection can undo, whatever the rows. -/
theorem pg_undo_stuck_violated : ∃ (s : FsMigrations) (db : MigDb PgCat.PDb) (made : List (String × ADB)),
    ExPgLife s db ∧ HasMigrations false s made ∧ (∀ e ∈ made, Recorded db e.1) ∧ PgHasSchema (before made) db.user ∧
    ∀ (env : PgEnv) (c : MigConn PgCat.PDb), c.exec = pgExec env exPgRes → ∀ db',
      (s.toMigs "pg").unmigrate (Cli.rounds s) c db ≠ (.ok (), db') := by
  have hlife := exPgS2_life exPgAfter1_life exPgAfter1_not
  obtain ⟨db, h1, h2, h3⟩ := exPgS2_migrates hlife
  have hl : ExPgLife exPgS2 db := .migrate hlife exPg_naming (c := exPgMigConn.reliable) rfl h1
  refine ⟨exPgS2, db, _, hl, exPg_has2, h2, h3, fun env c hc db' hr => ?_⟩
  obtain ⟨_, k, hi⟩ := pg_life_inv exPg_words hl
  have hi := hi.change exPg_has2 exPg_valid
  obtain ⟨a, b, hab, hund, hok⟩ := unmigrate_cases (hi.fs.path "pg").1 (hi.fs.path "pg").2
    (by rw [List.length_map]; exact hi.fs.lt_rounds) hi.at hr
  obtain rfl := hok rfl
  rw [List.append_nil] at hab
  have hk : ¬ k < 2 := by
    intro hk
    exact hi.others ("m2", exPgDb2) (by
      have : k = 0 ∨ k = 1 := by omega
      rcases this with rfl | rfl <;> simp) (h2 ("m2", exPgDb2) (by simp))
  rw [List.take_of_length_le (by simp; omega)] at hab
  subst hab
  have hund : Undone (exPgS2.toMigs "pg") c.exec ["m2", "m1"] db db' := hund
  cases hund with
  | cons hone _ =>
    obtain ⟨sql, db1, names, g1, g2, -⟩ := hone
    cases (show Except.ok (some exPgDown2) = (.ok (some sql) : Except MErr (Option String)) from g1)
    rw [hc, exPgDown2_fails h3 env] at g2
    cases g2

/-! ### The crate of Props/PgCrate -/

open Butane.Codegen Butane.Proofs.Codegen in
/-- The first migration of a crate is a change butane can make and undo. -/
theorem pg_crate_change {kw : String → Bool} {p : LitPrinters} {g : Cfg} {items : List Item} (hr : ResolverOk g.resolve)
    (hn : WellNamed items) (ht : Typed g.ft items) (hp : PgCrate kw g.ft items) {rec new : ADB}
    (h1 : expandAll g ADB.new items = some rec) (h2 : rec.resolveTypes g.ft.json (rounds rec) = .ok new) :
    PgChange p ADB.new new ∧ PgChange p new ADB.new := by
  have hf := pg_crate_first hr hn ht hp h1 h2
  have hget : ∀ {n t}, (withRecordsTable ADB.new).getTable n = some t → (withRecordsTable new).getTable n = some t := by
    intro n t hl
    rcases rec_cases (adb := ADB.new) hl with ⟨rfl, rfl⟩ | ⟨-, hl⟩
    · exact rec_self
    · cases hl
  have ho : ∀ {n t}, (withRecordsTable ADB.new).getTable n = some t ∨ (withRecordsTable new).getTable n = some t →
      ADB.new.getTable n = some t ∨ (withRec new).getTable n = some t := fun h => .inr (h.elim hget id)
  have hT : ∀ {n}, HasTable (withRecordsTable ADB.new) (withRecordsTable new) n → HasTable ADB.new (withRec new) n :=
    fun ⟨t, h⟩ => ⟨t, ho h⟩
  have hC : ∀ {n c}, HasColumn (withRecordsTable ADB.new) (withRecordsTable new) n c → HasColumn ADB.new (withRec new) n c :=
    fun ⟨t, h, x⟩ => ⟨t, ho h, x⟩
  have hT' : ∀ {n}, HasTable (withRecordsTable new) (withRecordsTable ADB.new) n → HasTable ADB.new (withRec new) n :=
    fun ⟨t, h⟩ => ⟨t, ho h.symm⟩
  have hC' : ∀ {n c}, HasColumn (withRecordsTable new) (withRecordsTable ADB.new) n c → HasColumn ADB.new (withRec new) n c :=
    fun ⟨t, h, x⟩ => ⟨t, ho h.symm, x⟩
  have ha := hf.apart
  constructor
  · refine ⟨⟨fun n m x y => ha.tables n m (hT x) (hT y), fun n c d x y => ha.columns n c d (hC x) (hC y),
      fun n c m d x y => ha.constraints n c m d (hC x) (hC y), fun m n c k x y => ha.free m n c k (hT x) (hC y),
      fun n c k x => ha.short n c k (hC x)⟩, ⟨fun n t _ hl => hf.columns n t hl, ?_, ?_, ?_⟩, ⟨?_, hf.oneKey, ?_, ?_⟩⟩ <;>
      (intros; contradiction)
  · refine ⟨⟨fun n m x y => ha.tables n m (hT' x) (hT' y), fun n c d x y => ha.columns n c d (hC' x) (hC' y),
      fun n c m d x y => ha.constraints n c m d (hC' x) (hC' y), fun m n c k x y => ha.free m n c k (hT' x) (hC' y),
      fun n c k x => ha.short n c k (hC' x)⟩,
      ⟨?_, fun n t hl _ c hc r hd => pg_crate_reals hr hn ht hp h1 h2 hl hc hd, ?_, ?_⟩, ⟨hf.oneKey, ?_, ?_, ?_⟩⟩ <;>
      (intros; contradiction)

/-- The first migration of the crate is made and applied. -/
example : ∃ s' db', Cli.makeMigration exCfg.ft.json (fun _ => none) (some (some (pgBackend exPgKw exPrinters))) "m1"
      exCrateStore = (.ok true, s') ∧
    (s'.toMigs "pg").migrate (Cli.rounds s') exPgMigConn.reliable ⟨[], none⟩ = (.ok (), db') ∧
    PgCrateTables exCfg.ft exCrate db'.user := by
  obtain ⟨s', db', h1, h2, -, -⟩ := pg_crate_first_migration_partial (p := exPrinters) (c := exPgMigConn)
    (get := fun _ => none) (name := "m1") exPg_words exPg_naming
    (fun _ _ => rfl) exResolve_ok exCrate_named exCrate_typed exCrate_pg (by simp [exCrate, modelsOf]) rfl exCrate_dirs
    exCrate_compiled (fun _ _ h => by cases h) (by decide) rfl
  refine ⟨s', db', h1, h2, ?_⟩
  refine pg_crate_migrated_partial (p := exPrinters) exPg_words exPg_naming exResolve_ok exCrate_named exCrate_typed exCrate_pg
    (s := exCrateStore) (.build .empty rfl exCrate_dirs) (fun _ _ h => by cases h) ?_ (exCrate_dirs "m1" (by decide))
    (by decide) (exPg_empty _) exCrate_compiled ?_ h1 (c := exPgMigConn.reliable) rfl h2
  · rintro b (hb | hb) -
    · cases hb
    · cases hb
      rfl
  · intro new old hnew ho
    obtain ⟨rec, new', g1, g2, g3⟩ := current_db exResolve_ok exCrate_named exCrate_typed exCrate_compiled
    rw [hnew] at g3
    cases g3
    cases (show old = ADB.new from ho)
    exact pg_crate_change exResolve_ok exCrate_named exCrate_typed exCrate_pg g1 g2

end Butane.Props
