/-
C93: the tables a PostgreSQL database has for a crate.
-/
import Verif.Proofs.PgCrate
import Verif.Props.CrateDb
import Verif.Props.PgDdl

namespace Butane.Props
open Butane Butane.Ddl Butane.Codegen Butane.Proofs.Codegen Butane.Proofs.CrateDb Spec
open Butane.PgCat (lower PTable stdName PgEnv Naming)
variable {env : PgEnv} {kw res : String → Bool} {p : LitPrinters} {g : Cfg} {items : List Item}

/-- C93: in a project without migrations, with a crate that has a model and a database that is
empty, making the first migration succeeds, migrating succeeds if the connection does not fail, and
then the database has the tables of the crate and the migration is recorded. -/
theorem pg_crate_first_migration_partial (hk : PgWords kw res) (hen : Naming env)
    (hperm : ∀ db st, env.permits db st = true) (hr : ResolverOk g.resolve) (hn : WellNamed items)
    (ht : Typed g.ft items) (hp : PgCrate kw g.ft items) (hne : modelsOf items ≠ []) {s : FsMigrations}
    (hlatest : s.latest = none) (hdirs : ∀ n, n ≠ "current" → s.dirs.lookup n = none) (hcomp : Compiled g items s)
    {get : String → Option MigBackend} (hget : Finds get) {name : String} (hcur : name ≠ "current")
    {c : MigConn PgCat.PDb} (hc : c.exec = pgExec env res) :
    ∃ s' db', Cli.makeMigration g.ft.json get (some (some (pgBackend kw p))) name s = (.ok true, s') ∧
      (s'.toMigs "pg").migrate (Cli.rounds s') c.reliable ⟨[], none⟩ = (.ok (), db') ∧
      db'.log = some [name] ∧ PgCrateTables g.ft items db'.user := by
  obtain ⟨rec, new, h1, h2, h3⟩ := current_db hr hn ht hcomp
  have hset := crate_settled hr hn ht h1 h2
  have hfirst := pg_crate_first hr hn ht hp h1 h2
  obtain ⟨up, cat, u1, u2, u3, u4⟩ := PgP.first_runs (p := p) hfirst hk hen hperm
  obtain ⟨down, d1⟩ := pg_crate_down (p := p) hk hr hn ht hp h1 h2
  have hreach : Reach g.ft.json s := .build .empty hlatest hdirs
  have hgl : s.getLatest = none := by simp only [FsMigrations.getLatest, hlatest]
  obtain ⟨made, hm, -, -⟩ := cli_history hreach
  have hi := (reach_inv hreach hm).1
  have hnil : made = [] := by
    have := hi.getLatest
    rw [hgl] at this
    cases hl : made.getLast? with
    | none => exact List.getLast?_eq_none_iff.1 hl
    | some e => rw [hl] at this; cases this
  subst hnil
  have hdiff : ¬ SameSchema (before []) new := by
    intro hsame
    obtain ⟨m, hm⟩ := List.exists_mem_of_ne_nil _ hne
    obtain ⟨t, ht1, -⟩ := model_table_partial g hr items hn ht rec new h1 h2 m hm
    have := hsame (tableOf m)
    rw [ht1] at this
    exact this
  have hbs : Cli.loadBackends get (some (some (pgBackend kw p))) s = .ok [pgBackend kw p] := by
    simp only [Cli.loadBackends, Cli.latestBackends, hgl]
  obtain ⟨s', hmake⟩ := cli_make_succeeds hreach hm (fun e he => by cases he) (hdirs name hcur) hbs h3 hset hdiff (by
    intro b hb old ho _
    rw [List.mem_singleton] at hb
    subst hb
    simp only [LatestSchema, hgl] at ho
    subst ho
    exact ⟨⟨_, pg_sql u1⟩, _, pg_sql d1⟩)
  obtain ⟨new', old, backends, g1, g2, -, -, g4, -, g7, g8, -⟩ := cli_make hget hreach hm (hdirs name hcur) hcur
    (fun n hn => by rw [h3] at hn; cases hn; exact hset) hmake
  rw [h3] at g1
  cases g1
  simp only [LatestSchema, hgl] at g4
  subst g4
  have hmem : pgBackend kw p ∈ backends := by
    rcases g7 with ⟨n, hl, -⟩ | ⟨-, b, q1, q2⟩
    · rw [hgl] at hl
      cases hl
    · cases q1
      rw [q2]
      exact List.mem_singleton.2 rfl
  obtain ⟨up0, down0, up', down', k1, -, k3, -, k5, -⟩ := g8 _ hmem
  have hup : (s'.toMigs "pg").up name = .ok (some up') := k5
  have hfile := pg_file k1 k3
  have hsame : up'.toList = up := by
    have hfile : PgDdl.migrationSql kw p ADB.new (diff ADB.new new ++ [.addTableIfNotExists migrationsTable]) = .ok up'.toList :=
      hfile
    rw [u1] at hfile
    exact (Gen.ok.inj hfile).symm
  have hreach' : Reach g.ft.json s' := .make hreach hget (hdirs name hcur) hcur
    (fun n hn => by rw [h3] at hn; cases hn; exact hset) hmake
  have hi' := (reach_inv hreach' g2).1
  obtain ⟨trec, t1, t2⟩ := u4.tables recordsName migrationsTable (by rw [PgP.withRec_get, if_pos rfl])
  have hlow : lower recordsName = recordsName := by decide
  rw [hlow] at t1
  have hexec : c.exec up' ⟨[], none⟩ = .ok ⟨pgOthers cat, some []⟩ := by
    rw [hc]
    simp only [pgExec, pgWhole, pgOthers, List.filter_nil, hsame, u2, t1, Option.map_some, Option.getD_none]
  refine ⟨s', ⟨pgOthers cat, some [name]⟩, hmake, ?_, rfl, pg_crate_tables hr hn ht hp h1 h2 u3 u4⟩
  have hpath := (hi'.path "pg").1
  rw [migrate_reliable (fs_keyed "pg" s') hpath (by rw [List.length_map]; exact hi'.lt_rounds)
    (pre := []) (todo := [name]) rfl (by
      intro m _
      rintro ⟨_, h, -⟩
      cases h) (.inl rfl)]
  have happ : AppliedOne (s'.toMigs "pg") c.exec name ⟨[], none⟩ ⟨pgOthers cat, some [name]⟩ :=
    ⟨up', _, [], hup, hexec, rfl, by simp, rfl⟩
  simp only [Migs.applyAll, applyOne_reliable happ]

/-! ### A crate -/

/-- The tables and columns of the crate. -/
def exPgTables : List String := ["Post", "people", "Tag", "Post_tags_Many", "butane_migrations"]

def exPgColumns : List (String × String) :=
  [("Post", "id"), ("Post", "author"), ("Post", "score"), ("people", "email"), ("Tag", "id"), ("Tag", "type"),
   ("Post_tags_Many", "owner"), ("Post_tags_Many", "has"), ("butane_migrations", "name")]

theorem exCrate_many {s : Struct} (hs : s ∈ modelsOf exCrate) {f : Codegen.Field} (hf : f ∈ s.fields) {q : Path}
    (hq : IsMany f q) : s = postModel ∧ f = fld "tags" (ty1 "Many" (ty0 "Tag")) := by
  have hm := (manySpelled_iff f).1 ⟨q, hq⟩
  have hmodels : modelsOf exCrate = [postModel, authorModel, labelModel] := rfl
  rw [hmodels] at hs
  simp only [List.mem_cons, List.not_mem_nil, or_false] at hs
  rcases hs with rfl | rfl | rfl
  · simp only [postModel, List.mem_cons, List.not_mem_nil, or_false] at hf
    rcases hf with rfl | rfl | rfl | rfl
    · exact absurd hm (by decide)
    · exact absurd hm (by decide)
    · exact absurd hm (by decide)
    · exact ⟨rfl, rfl⟩
  · simp only [authorModel, List.mem_cons, List.not_mem_nil, or_false] at hf
    subst hf
    exact absurd hm (by decide)
  · simp only [labelModel, List.mem_cons, List.not_mem_nil, or_false] at hf
    rcases hf with rfl | rfl
    · exact absurd hm (by decide)
    · exact absurd hm (by decide)

theorem exCrate_tables {s : Struct} (hs : s ∈ modelsOf exCrate) {n : String} (hn : n ∈ tablesOf s) : n ∈ exPgTables := by
  have hmodels : modelsOf exCrate = [postModel, authorModel, labelModel] := rfl
  unfold tablesOf at hn
  rcases List.mem_cons.1 hn with rfl | hn
  · rw [hmodels] at hs
    simp only [List.mem_cons, List.not_mem_nil, or_false] at hs
    rcases hs with rfl | rfl | rfl <;> decide
  · obtain ⟨f, hf, rfl⟩ := List.mem_map.1 hn
    obtain ⟨h1, q, hq⟩ := mem_manyFields.1 hf
    obtain ⟨rfl, rfl⟩ := exCrate_many hs h1 hq
    decide

theorem exCrate_used {n c : String} (h : UsedColumn exCrate n c) : (n, c) ∈ exPgColumns := by
  have hmodels : modelsOf exCrate = [postModel, authorModel, labelModel] := rfl
  cases h with
  | @field s f hs hf =>
    obtain ⟨hf, hm⟩ := mem_rowFields.1 hf
    rw [hmodels] at hs
    simp only [List.mem_cons, List.not_mem_nil, or_false] at hs
    rcases hs with rfl | rfl | rfl
    · simp only [postModel, List.mem_cons, List.not_mem_nil, or_false] at hf
      rcases hf with rfl | rfl | rfl | rfl
      · decide
      · decide
      · decide
      · exact absurd ((manySpelled_iff _).2 (by decide)) (fun ⟨q, h⟩ => hm ⟨q, h⟩)
    · simp only [authorModel, List.mem_cons, List.not_mem_nil, or_false] at hf
      subst hf
      decide
    · simp only [labelModel, List.mem_cons, List.not_mem_nil, or_false] at hf
      rcases hf with rfl | rfl <;> decide
  | @link s f q _ hs hf hq hc =>
    obtain ⟨rfl, rfl⟩ := exCrate_many hs hf hq
    rcases hc with rfl | rfl <;> decide
  | record => decide

theorem exCrate_names : PgCrateNames exCrate := by
  have ht : ∀ {n}, UsedTable exCrate n → n ∈ exPgTables := by
    rintro n (⟨s, hs, hn⟩ | rfl)
    · exact exCrate_tables hs hn
    · decide
  have h1 : (exPgTables.all fun n => exPgTables.all fun m => decide (lower n = lower m → n = m)) = true := by decide
  have h2 : (exPgColumns.all fun a => exPgColumns.all fun b =>
      decide (a.1 = b.1 → lower a.2 = lower b.2 → a.2 = b.2)) = true := by decide +kernel
  have h3 : (exPgColumns.all fun a => exPgColumns.all fun b =>
      decide (lower a.1 ++ "_" ++ lower a.2 = lower b.1 ++ "_" ++ lower b.2 → a = b)) = true := by decide +kernel
  have h4 : (exPgColumns.all fun a => (PgP.stdNames a.1 a.2).all fun s =>
      decide (s.utf8ByteSize ≤ 63) && exPgTables.all fun m => decide (s ≠ lower m)) = true := by decide +kernel
  simp only [Bool.and_eq_true, List.all_eq_true, decide_eq_true_eq] at h1 h2 h3 h4
  refine ⟨fun n m hn hm => h1 _ (ht hn) _ (ht hm), fun n c d hc hd => h2 _ (exCrate_used hc) _ (exCrate_used hd) rfl,
    fun n c m d hc hd e => ?_, fun m n c k hm hc hk => (h4 _ (exCrate_used hc) _ (PgP.stdNames_mem hk)).2 _ (ht hm),
    fun n c k hc hk => (h4 _ (exCrate_used hc) _ (PgP.stdNames_mem hk)).1⟩
  have := h3 _ (exCrate_used hc) _ (exCrate_used hd) e
  cases this
  exact ⟨rfl, rfl⟩

theorem exName {kw : String → Bool} {n : String} (h : n ∈ exPgTables) (hk : (exPgTables.all fun n => !kw n) = true) :
    PgName kw n := by
  simp only [List.all_eq_true, Bool.not_eq_true'] at hk
  refine ⟨?_, fun h' => by rw [hk n h] at h'; cases h'⟩
  simp only [exPgTables, List.mem_cons, List.not_mem_nil, or_false] at h
  rcases h with rfl | rfl | rfl | rfl | rfl <;> exact ⟨_, _, rfl, by decide, by decide⟩

theorem exCrate_pg : PgCrate exPgKw exCfg.ft exCrate := by
  have hi64 : HasSqlType exCfg.ft exCrate (ty0 "i64") (.ty .bigInt) := .builtin (exBuiltin (by decide) _)
  have hkey : IsKey authorModel (fld "email" (ty0 "String") [.pk]) :=
    Or.inl ⟨[], [], rfl, by decide, by simp⟩
  have hmodels : modelsOf exCrate = [postModel, authorModel, labelModel] := rfl
  have noApp : ∀ {w : String} {i : Ident} {a p q}, p = .app1 false [] i a → [i.text] ∉ spellings w → ¬ WrittenAs w p q := by
    rintro w i a p q rfl hi ⟨m, j, hm, hw⟩
    cases hm
    exact hi (by simpa [written, Path.mods, Path.last] using hw)
  refine ⟨fun s hs n hn => exName (exCrate_tables hs hn) (by decide), ?_, ?_, exCrate_names, ?_, ?_, ?_, ?_⟩
  · rw [hmodels]
    simp only [List.mem_cons, List.not_mem_nil, or_false]
    rintro s (rfl | rfl | rfl) <;> decide
  · rw [hmodels]
    simp only [List.mem_cons, List.not_mem_nil, or_false]
    rintro s (rfl | rfl | rfl) f hf
    · simp only [postModel, List.mem_cons, List.not_mem_nil, or_false] at hf
      rcases hf with rfl | rfl | rfl | rfl <;> exact ⟨⟨_, _, rfl, by decide, by decide⟩, by decide⟩
    · simp only [authorModel, List.mem_cons, List.not_mem_nil, or_false] at hf
      subst hf
      exact ⟨⟨_, _, rfl, by decide, by decide⟩, by decide⟩
    · simp only [labelModel, List.mem_cons, List.not_mem_nil, or_false] at hf
      rcases hf with rfl | rfl <;> exact ⟨⟨_, _, rfl, by decide, by decide⟩, by decide⟩
  · rw [hmodels]
    simp only [List.mem_cons, List.not_mem_nil, or_false]
    rintro s (rfl | rfl | rfl) f hf p ty hp -
    · obtain ⟨hf, hm⟩ := mem_rowFields.1 hf
      simp only [postModel, List.mem_cons, List.not_mem_nil, or_false] at hf
      rcases hf with rfl | rfl | rfl | rfl <;> cases hp
      · exact ⟨_, _, .alias (n := ident "Number") (q := ty0 "i64") (by simp [exCrate]) rfl hi64, rfl⟩
      · exact ⟨_, _, .option (spelled _ (by decide)) (.foreignKey (s := authorModel) (spelled _ (by decide))
          (by simp [exCrate]) rfl hkey rfl (.builtin (exString _))), rfl⟩
      · exact ⟨_, .real, .builtin (exBuiltin (by decide) _), rfl⟩
      · exact absurd ⟨_, _, rfl, spelled _ (by decide)⟩ hm
    · have hf := (mem_rowFields.1 hf).1
      simp only [authorModel, List.mem_cons, List.not_mem_nil, or_false] at hf
      subst hf
      cases hp
      exact ⟨_, _, .builtin (exString _), rfl⟩
    · have hf := (mem_rowFields.1 hf).1
      simp only [labelModel, List.mem_cons, List.not_mem_nil, or_false] at hf
      rcases hf with rfl | rfl <;> cases hp
      · exact ⟨_, _, .autoPk (spelled _ (by decide)) hi64, rfl⟩
      · exact ⟨_, _, .enum (n := ident "Kind") (by simp [exCrate]) rfl, rfl⟩
  · rw [hmodels]
    simp only [List.mem_cons, List.not_mem_nil, or_false]
    rintro s (rfl | rfl | rfl) f hf p q hp hw
    · simp only [postModel, List.mem_cons, List.not_mem_nil, or_false] at hf
      rcases hf with rfl | rfl | rfl | rfl <;> cases hp
      · obtain ⟨_, _, h, -⟩ := hw; cases h
      · exact absurd hw (noApp rfl (by decide))
      · obtain ⟨_, _, h, -⟩ := hw; cases h
      · exact absurd hw (noApp rfl (by decide))
    · simp only [authorModel, List.mem_cons, List.not_mem_nil, or_false] at hf
      subst hf
      cases hp
      obtain ⟨_, _, h, -⟩ := hw; cases h
    · simp only [labelModel, List.mem_cons, List.not_mem_nil, or_false] at hf
      rcases hf with rfl | rfl <;> cases hp
      · exact ⟨isKey_iff.2 rfl, .inr (.autoPk (spelled _ (by decide)) hi64), by simp [fld]⟩
      · obtain ⟨_, _, h, -⟩ := hw; cases h
  · rw [hmodels]
    simp only [List.mem_cons, List.not_mem_nil, or_false]
    rintro s (rfl | rfl | rfl) f hf p q hp hw
    · rw [key_unique hf (isKey_iff.2 rfl : IsKey postModel (fld "id" (ty0 "Number")))] at hp
      cases hp
      obtain ⟨_, _, h, -⟩ := hw; cases h
    · rw [key_unique hf hkey] at hp
      cases hp
      obtain ⟨_, _, h, -⟩ := hw; cases h
    · rw [key_unique hf (isKey_iff.2 rfl : IsKey labelModel (fld "id" (ty1 "AutoPk" (ty0 "i64"))))] at hp
      cases hp
      exact absurd hw (noApp rfl (by decide))
  · rw [hmodels]
    simp only [List.mem_cons, List.not_mem_nil, or_false]
    rintro s (rfl | rfl | rfl) f hf r hr
    · simp only [postModel, List.mem_cons, List.not_mem_nil, or_false] at hf
      rcases hf with rfl | rfl | rfl | rfl <;> simp [fld] at hr
    · simp only [authorModel, List.mem_cons, List.not_mem_nil, or_false] at hf
      subst hf
      simp [fld] at hr
    · simp only [labelModel, List.mem_cons, List.not_mem_nil, or_false] at hf
      rcases hf with rfl | rfl <;> simp [fld] at hr

/-- A connection. -/
def exPgMigConn : MigConn PgCat.PDb := ⟨pgExec exPgEnv exPgRes, fun _ => .ok⟩

/-- The first migration of the crate. -/
example : ∃ s' db', Cli.makeMigration exCfg.ft.json (fun _ => none) (some (some (pgBackend exPgKw exPrinters))) "m1"
      exCrateStore = (.ok true, s') ∧
    (s'.toMigs "pg").migrate (Cli.rounds s') exPgMigConn.reliable ⟨[], none⟩ = (.ok (), db') ∧
    db'.log = some ["m1"] ∧ PgCrateTables exCfg.ft exCrate db'.user :=
  pg_crate_first_migration_partial exPg_words exPg_naming (fun _ _ => rfl) exResolve_ok exCrate_named exCrate_typed
    exCrate_pg (by simp [exCrate, modelsOf]) rfl exCrate_dirs exCrate_compiled (fun _ _ h => by cases h) (by decide) rfl

end Butane.Props
