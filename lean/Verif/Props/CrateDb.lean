/-
C78: the tables an SQLite database has for a crate.
-/
import Verif.Proofs.CrateDb
import Verif.Props.SqliteMigrate

namespace Butane.Props
open Butane Butane.Ddl Butane.DdlP Butane.Codegen Butane.Proofs.Codegen Butane.Proofs.CrateDb Spec
variable {env : SqliteEnv} {kw res : String → Bool} {p : LitPrinters} {g : Cfg} {items : List Item}

/-- C78: after the crate is compiled, a migration made for it (or found not to be needed), and the
database migrated without an error, the database has the tables of the crate, whatever the
migrations and the database were before. -/
theorem crate_migrated_partial (hk : CoversDdl kw res) (hf : TypesFree res) (laws : StrictLaws env)
    (codecs : TextCodecs) (hr : ResolverOk g.resolve) (hn : WellNamed items) (ht : Typed g.ft items)
    (hp : PlainCrate g.ft items) {s s' : FsMigrations} {db db' : MigDb SDb}
    (h : SqliteLife g.ft.json env kw res p s db)
    {get : String → Option MigBackend} {spec : Option (Option MigBackend)} {name : String} {b : Bool} (hget : Finds get)
    (hback : ∀ b, get b.name = some b ∨ spec = some (some b) → b.name = "sqlite" → b = sqliteBackend kw p)
    (hfresh : s.dirs.lookup name = none) (hcur : name ≠ "current") (hrec : ¬ Spec.Recorded db name)
    (hcomp : Compiled g items s)
    (hadd : ∀ new old, s.getDb g.ft.json "current" = .ok new → LatestSchema g.ft.json s old →
      Addable env p old new ∧ Addable env p new old)
    (hmake : Cli.makeMigration g.ft.json get spec name s = (.ok b, s')) {c : MigConn SDb}
    (hc : c.exec = sqliteExec env res)
    (hm : (s'.toMigs "sqlite").migrate (Cli.rounds s') c db = (.ok (), db')) : CrateTables g.ft items db'.user := by
  obtain ⟨rec, new, h1, h2, h3⟩ := current_db hr hn ht hcomp
  exact crate_tables hr hn ht hp h1 h2 (sqlite_make_migrate_partial hk hf laws codecs h hget hback hfresh hcur hrec h3
    (crate_settled hr hn ht h1 h2) (crate_sqlite hr hn ht hp h1 h2) (fun old ho => hadd new old h3 ho) hmake hc hm)

/-- The tables of a crate can be created. -/
theorem crate_creatable (hr : ResolverOk g.resolve) (hn : WellNamed items) (ht : Typed g.ft items) {rec new : ADB}
    (h1 : expandAll g ADB.new items = some rec) (h2 : rec.resolveTypes g.ft.json (rounds rec) = .ok new) (u : SDb) :
    Feasible ADB.new new u := by
  refine ⟨?_, ?_, ?_, ?_, ?_⟩
  · intro n t _ hl
    obtain ⟨s, hs, ⟨-, -, h3⟩ | ⟨f, hf, q, hq, -, h3⟩⟩ := table_cases hr hn ht h1 h2 hl
    · constructor
      · obtain ⟨k, hk, -⟩ := ht.key s hs
        obtain ⟨c, hc, -⟩ := h3.mem_left (key_row ht hs hk)
        intro e
        rw [e] at hc
        cases hc
      · intro c hc d hd hcp hdp
        obtain ⟨f, -, hcf⟩ := h3.mem_right hc
        obtain ⟨f', -, hdf⟩ := h3.mem_right hd
        rw [hcf.name, hdf.name, key_unique (hcf.pk.1 hcp) (hdf.pk.1 hdp)]
    · obtain ⟨o, b, e, -, -, -, -, -, -, p1, p2, -⟩ := h3.columns
      rw [OneKey, e]
      refine ⟨by simp, fun c hc d _ hcp _ => ?_⟩
      simp only [List.mem_cons, List.not_mem_nil, or_false] at hc
      rcases hc with rfl | rfl
      · rw [p1] at hcp; cases hcp
      · rw [p2] at hcp; cases hcp
  · intro n t hl; cases hl
  · intro n s t c y hl; cases hl
  · intro n s t c x hl; cases hl
  · intro n s t c x y hl; cases hl

/-- The first migration of a crate, with what is known of the database then. -/
theorem crate_first (hk : CoversDdl kw res) (hf : TypesFree res) (laws : StrictLaws env)
    (codecs : TextCodecs) (hr : ResolverOk g.resolve) (hn : WellNamed items) (ht : Typed g.ft items)
    (hp : PlainCrate g.ft items) (hne : modelsOf items ≠ []) {s : FsMigrations} (hlatest : s.latest = none)
    (hdirs : ∀ n, n ≠ "current" → s.dirs.lookup n = none) (hcomp : Compiled g items s)
    {get : String → Option MigBackend} (hget : Finds get)
    (hback : ∀ b, get "sqlite" = some b → b = sqliteBackend kw p) {name : String} (hcur : name ≠ "current")
    {c : MigConn SDb} (hc : c.exec = sqliteExec env res) :
    ∃ s' db' rec new, Cli.makeMigration g.ft.json get (some (some (sqliteBackend kw p))) name s = (.ok true, s') ∧
      (s'.toMigs "sqlite").migrate (Cli.rounds s') c.reliable ⟨[], none⟩ = (.ok (), db') ∧
      Spec.Recorded db' name ∧ expandAll g ADB.new items = some rec ∧ rec.resolveTypes g.ft.json (rounds rec) = .ok new ∧
      HasSchema env new db'.user ∧ NoRows db'.user ∧ SqliteLife g.ft.json env kw res p s' db' := by
  obtain ⟨rec, new, h1, h2, h3⟩ := current_db hr hn ht hcomp
  have hset := crate_settled hr hn ht h1 h2
  have hsch := crate_sqlite hr hn ht hp h1 h2
  have hlife : SqliteLife g.ft.json env kw res p s ⟨[], none⟩ := .build .empty hlatest hdirs
  have hgl : s.getLatest = none := by simp only [FsMigrations.getLatest, hlatest]
  have hadd : ∀ old, LatestSchema g.ft.json s old → Addable env p old new ∧ Addable env p new old := by
    intro old ho
    simp only [LatestSchema, hgl] at ho
    subst ho
    constructor
    · intro n a b c y hl; cases hl
    · intro n a b c y _ hl; cases hl
  have hfresh := hdirs name hcur
  have hrec : ¬ Spec.Recorded (⟨[], none⟩ : MigDb SDb) name := by rintro ⟨_, h, -⟩; cases h
  obtain ⟨made, k, hi⟩ := life_inv hk hf laws codecs hlife
  have hnil : made = [] := by
    have := hi.fs.getLatest
    rw [hgl] at this
    cases hl : made.getLast? with
    | none => exact List.getLast?_eq_none_iff.1 hl
    | some e => rw [hl] at this; cases this
  subst hnil
  have hdiff : ¬ SameSchema (before []) new := by
    intro hsame
    obtain ⟨m, hm⟩ := List.exists_mem_of_ne_nil _ hne
    obtain ⟨t, ht1, -⟩ := model_table_partial g hr items hn ht rec new h1 h2 m hm
    have := hsame (tableOf m)
    rw [ht1] at this
    exact this
  obtain ⟨s', hmake⟩ := sqlite_make_succeeds_partial (get := get) (spec := some (some (sqliteBackend kw p)))
    hk hf laws codecs hlife hi.has (fun e he => by cases he) hfresh (.inl ⟨rfl, rfl⟩) h3 hset hsch hadd hdiff
  have hback' : ∀ b, get b.name = some b ∨ (some (some (sqliteBackend kw p)) : Option (Option MigBackend)) =
      some (some b) → b.name = "sqlite" → b = sqliteBackend kw p := by
    rintro b (hb | hb) hbn
    · rw [hbn] at hb
      exact hback b hb
    · cases hb
      rfl
  have hcond : ∀ n, s.getDb g.ft.json "current" = .ok n → Settled n ∧ SqliteSchema n ∧
      ∀ old, LatestSchema g.ft.json s old → Addable env p old n ∧ Addable env p n old := by
    intro n hn
    rw [h3] at hn
    cases hn
    exact ⟨hset, hsch, hadd⟩
  have hlife' : SqliteLife g.ft.json env kw res p s' ⟨[], none⟩ :=
    .make hlife hget hback' hfresh hcur hrec hcond hmake
  obtain ⟨new', old, backends, g1, g2, -, -, -, -, g7, g8, -⟩ := cli_make hget (life_reach hlife) hi.has hfresh hcur
    (fun n hn => (hcond n hn).1) hmake
  rw [h3] at g1
  cases g1
  obtain ⟨db', q1, q2, q3⟩ := sqlite_migrate_succeeds_partial (c := c) hk hf laws codecs hlife' g2 (by
    intro e he
    rw [List.nil_append, List.mem_singleton] at he
    subst he
    exact hsch.valid) hc (by
    intro a e b hab _
    have : a = [] ∧ e = (name, new) := by
      match a, hab with
      | [], hab => cases hab; exact ⟨rfl, rfl⟩
      | [_], hab => simp at hab
      | _ :: _ :: _, hab => simp at hab
    obtain ⟨rfl, rfl⟩ := this
    refine ⟨?_, fun u _ _ => crate_creatable hr hn ht h1 h2 u⟩
    have hmem : sqliteBackend kw p ∈ backends := by
      rcases g7 with ⟨n, hl, -⟩ | ⟨-, b, q1, q2⟩
      · rw [hgl] at hl
        cases hl
      · cases q1
        rw [q2]
        exact List.mem_singleton.2 rfl
    obtain ⟨up, down, up', down', -, -, -, -, k5, -⟩ := g8 _ hmem
    intro hup
    have : (s'.toMigs "sqlite").up name = .ok (some up') := k5
    rw [hup] at this
    cases this)
  obtain ⟨_, _, _, -, -, -, -, -, hrt, -⟩ := sqlite_migrate_partial hk hf laws codecs hlife' g2 (by
    intro e he
    rw [List.nil_append, List.mem_singleton] at he
    subst he
    exact hsch.valid) (c := c.reliable) hc q1
  exact ⟨s', db', rec, new, hmake, q1, q2 (name, new) (by simp), h1, h2, by simpa [before] using q3,
    rowsThrough_noRows (u := []) hrt q3.proper.sorted (fun e he => by cases he), .migrate (c := c.reliable) hlife' hc q1⟩

/-- C78: in a project without migrations, with a crate that has a model and a database that is
empty, making the first migration succeeds, migrating succeeds if the connection does not fail, and
then the database has the tables of the crate. -/
theorem crate_first_migration_partial (hk : CoversDdl kw res) (hf : TypesFree res) (laws : StrictLaws env)
    (codecs : TextCodecs) (hr : ResolverOk g.resolve) (hn : WellNamed items) (ht : Typed g.ft items)
    (hp : PlainCrate g.ft items) (hne : modelsOf items ≠ []) {s : FsMigrations} (hlatest : s.latest = none)
    (hdirs : ∀ n, n ≠ "current" → s.dirs.lookup n = none) (hcomp : Compiled g items s)
    {get : String → Option MigBackend} (hget : Finds get)
    (hback : ∀ b, get "sqlite" = some b → b = sqliteBackend kw p) {name : String} (hcur : name ≠ "current")
    {c : MigConn SDb} (hc : c.exec = sqliteExec env res) :
    ∃ s' db', Cli.makeMigration g.ft.json get (some (some (sqliteBackend kw p))) name s = (.ok true, s') ∧
      (s'.toMigs "sqlite").migrate (Cli.rounds s') c.reliable ⟨[], none⟩ = (.ok (), db') ∧
      Spec.Recorded db' name ∧ CrateTables g.ft items db'.user := by
  obtain ⟨s', db', rec, new, h1, h2, h3, h4, h5, h6, -⟩ := crate_first hk hf laws codecs hr hn ht hp hne hlatest hdirs hcomp
    hget hback hcur hc
  exact ⟨s', db', h1, h2, h3, crate_tables hr hn ht hp h4 h5 h6⟩

/-! ### A crate -/

theorem ne_replacement {t : String} (h : t.toList.getLast? ≠ some 'p') (n : String) : t ≠ replacement n := by
  rintro rfl
  apply h
  simp [replacement, String.toList_append]

theorem exCrate_plain : PlainCrate exCfg.ft exCrate := by
  have hi64 : HasSqlType exCfg.ft exCrate (ty0 "i64") (.ty .bigInt) := .builtin (exBuiltin (by decide) _)
  have hkey : IsKey authorModel (fld "email" (ty0 "String") [.pk]) :=
    Or.inl ⟨[], [], rfl, by decide, by simp⟩
  have hmodels : modelsOf exCrate = [postModel, authorModel, labelModel] := rfl
  have noAuto : ∀ {i : Ident} {a p q}, p = .app1 false [] i a → i.text ∉ ["AutoPk"] → ¬ WrittenAs "AutoPk" p q := by
    rintro i a p q rfl hi ⟨m, j, hm, hw⟩
    cases hm
    simp [written, spellings, Path.mods, Path.last] at hw
    exact hi (by simpa using hw)
  refine ⟨?_, ?_, ?_, ?_⟩
  · rw [hmodels]
    simp only [List.mem_cons, List.not_mem_nil, or_false]
    rintro s (rfl | rfl | rfl)
    · exact ⟨⟨'P', ['o', 's', 't'], rfl, by decide, by decide⟩, by decide, ne_replacement (by decide)⟩
    · exact ⟨⟨'p', ['e', 'o', 'p', 'l', 'e'], rfl, by decide, by decide⟩, by decide, ne_replacement (by decide)⟩
    · exact ⟨⟨'T', ['a', 'g'], rfl, by decide, by decide⟩, by decide, ne_replacement (by decide)⟩
  · rw [hmodels]
    simp only [List.mem_cons, List.not_mem_nil, or_false]
    rintro s (rfl | rfl | rfl) f hf
    · simp only [postModel, List.mem_cons, List.not_mem_nil, or_false] at hf
      rcases hf with rfl | rfl | rfl | rfl <;> exact ⟨_, _, rfl, by decide, by decide⟩
    · simp only [authorModel, List.mem_cons, List.not_mem_nil, or_false] at hf
      subst hf
      exact ⟨_, _, rfl, by decide, by decide⟩
    · simp only [labelModel, List.mem_cons, List.not_mem_nil, or_false] at hf
      rcases hf with rfl | rfl <;> exact ⟨_, _, rfl, by decide, by decide⟩
  · rw [hmodels]
    simp only [List.mem_cons, List.not_mem_nil, or_false]
    rintro s (rfl | rfl | rfl) f hf p ty hp -
    · obtain ⟨hf, hm⟩ := mem_rowFields.1 hf
      simp only [postModel, List.mem_cons, List.not_mem_nil, or_false] at hf
      rcases hf with rfl | rfl | rfl | rfl <;> cases hp
      · exact ⟨.integer, _, .alias (n := ident "Number") (q := ty0 "i64") (by simp [exCrate]) rfl hi64, rfl⟩
      · exact ⟨.text, _, .option (spelled _ (by decide)) (.foreignKey (s := authorModel) (spelled _ (by decide))
          (by simp [exCrate]) rfl hkey rfl (.builtin (exString _))), rfl⟩
      · exact ⟨.real, .real, .builtin (exBuiltin (by decide) _), rfl⟩
      · exact absurd ⟨_, _, rfl, spelled _ (by decide)⟩ hm
    · have hf := (mem_rowFields.1 hf).1
      simp only [authorModel, List.mem_cons, List.not_mem_nil, or_false] at hf
      subst hf
      cases hp
      exact ⟨.text, _, .builtin (exString _), rfl⟩
    · have hf := (mem_rowFields.1 hf).1
      simp only [labelModel, List.mem_cons, List.not_mem_nil, or_false] at hf
      rcases hf with rfl | rfl <;> cases hp
      · exact ⟨.integer, _, .autoPk (spelled _ (by decide)) hi64, rfl⟩
      · exact ⟨.text, _, .enum (n := ident "Kind") (by simp [exCrate]) rfl, rfl⟩
  · rw [hmodels]
    simp only [List.mem_cons, List.not_mem_nil, or_false]
    rintro s (rfl | rfl | rfl) f hf p q hp hw
    · simp only [postModel, List.mem_cons, List.not_mem_nil, or_false] at hf
      rcases hf with rfl | rfl | rfl | rfl <;> cases hp
      · obtain ⟨_, _, h, -⟩ := hw; cases h
      · exact absurd hw (noAuto rfl (by decide))
      · obtain ⟨_, _, h, -⟩ := hw; cases h
      · exact absurd hw (noAuto rfl (by decide))
    · simp only [authorModel, List.mem_cons, List.not_mem_nil, or_false] at hf
      subst hf
      cases hp
      obtain ⟨_, _, h, -⟩ := hw; cases h
    · simp only [labelModel, List.mem_cons, List.not_mem_nil, or_false] at hf
      rcases hf with rfl | rfl <;> cases hp
      · exact isKey_iff.2 rfl
      · obtain ⟨_, _, h, -⟩ := hw; cases h

/-- The project after compiling the crate for the first time. -/
def exCrateStore : FsMigrations :=
  match expandAll exCfg ADB.new exCrate with
  | some db => ⟨[("current", ⟨none, db.tables, some db.extraTypes, []⟩)], none⟩
  | none => ⟨[], none⟩

theorem exCrate_compiled : Compiled exCfg exCrate exCrateStore := ⟨rfl, _, rfl, rfl, rfl⟩

theorem exCrate_dirs (n : String) (h : n ≠ "current") : exCrateStore.dirs.lookup n = none := by
  have : exCrateStore.dirs.map (·.1) = ["current"] := rfl
  cases hl : exCrateStore.dirs.lookup n with
  | none => rfl
  | some d =>
    have := List.mem_map_of_mem (f := (·.1)) (SMap.mem_of_lookup hl)
    rw [‹exCrateStore.dirs.map (·.1) = ["current"]›] at this
    exact absurd (List.mem_singleton.1 this) h

/-- The first migration of the crate. -/
theorem exCrate_first : ∃ s' db', Cli.makeMigration true exSqGet (some (some (sqliteBackend exDdlKw exPrinters))) "m1"
      exCrateStore = (.ok true, s') ∧
    (s'.toMigs "sqlite").migrate (Cli.rounds s') exSqConn.reliable ⟨[], none⟩ = (.ok (), db') ∧
    Spec.Recorded db' "m1" ∧ CrateTables exCfg.ft exCrate db'.user :=
  crate_first_migration_partial exDdl_covers exDdl_free exStore_laws exCodecs exResolve_ok exCrate_named exCrate_typed
    exCrate_plain (by simp [exCrate, modelsOf]) rfl exCrate_dirs exCrate_compiled exSqGet_name
    (fun b hb => exSqGet_back b (by rw [exSqGet_name _ _ hb]; exact hb)) (by decide) rfl

/-- In which the posts have a table with a column for the author. -/
example : ∃ (s' : FsMigrations) (db' : MigDb SDb) (t : STable), (s'.toMigs "sqlite").migrate (Cli.rounds s') exSqConn.reliable ⟨[], none⟩ = (.ok (), db') ∧
    db'.user.lookup "Post" = some t ∧ ModelTable exCfg.ft exCrate postModel t := by
  obtain ⟨s', db', -, h2, -, h4⟩ := exCrate_first
  obtain ⟨t, h5, h6⟩ := h4.models postModel (by simp [exCrate, modelsOf])
  exact ⟨s', db', t, h2, h5, h6⟩

/-- A later version of another crate, on a database with rows. -/
def exViews : List Item :=
  [.model ⟨ident "Post", [], [fld "id" (ty1 "AutoPk" (ty0 "i64")), fld "title" (ty0 "String"), fld "views" (ty0 "i64")]⟩]
def exPlainCfg : Cfg := ⟨⟨false, false, false⟩, exResolve⟩

theorem exViews_model {s : Struct} (h : s ∈ modelsOf exViews) :
    s = ⟨ident "Post", [], [fld "id" (ty1 "AutoPk" (ty0 "i64")), fld "title" (ty0 "String"), fld "views" (ty0 "i64")]⟩ := by
  simpa [exViews, modelsOf] using h

theorem exViews_field {s : Struct} (h : s ∈ modelsOf exViews) {f : Codegen.Field} (hf : f ∈ s.fields) :
    f = fld "id" (ty1 "AutoPk" (ty0 "i64")) ∨ f = fld "title" (ty0 "String") ∨ f = fld "views" (ty0 "i64") := by
  rw [exViews_model h] at hf
  simpa using hf

theorem exViews_named : WellNamed exViews := by
  refine ⟨by decide, ?_, ?_, by decide, by decide, ?_, by decide, by decide⟩
  · rw [show tablesOf = _ from funext tablesOf_eq]; decide
  · intro s hs s' hs' _
    rw [exViews_model hs, exViews_model hs']
  · intro n sh h
    simp [exViews] at h

theorem exViews_types {f : Codegen.Field} (h : f = fld "id" (ty1 "AutoPk" (ty0 "i64")) ∨ f = fld "title" (ty0 "String") ∨
    f = fld "views" (ty0 "i64")) :
    ∃ p ty st, f.ty = some p ∧ HasSqlType exPlainCfg.ft exViews p (.ty ty) ∧ sqliteType ty = some st := by
  rcases h with rfl | rfl | rfl
  · exact ⟨_, .bigInt, _, rfl, .autoPk (spelled _ (by decide)) (.builtin (exBuiltin (by decide) _)), rfl⟩
  · exact ⟨_, .text, _, rfl, .builtin (exString _), rfl⟩
  · exact ⟨_, .bigInt, _, rfl, .builtin (exBuiltin (by decide) _), rfl⟩

theorem exViews_typed : Typed exPlainCfg.ft exViews := by
  refine ⟨?_, ?_, ?_, ?_⟩
  · intro s hs
    rw [exViews_model hs]
    refine ⟨_, isKey_iff.2 rfl, fun q hq => ?_⟩
    have := (manySpelled_iff _).1 ⟨q, hq⟩
    revert this
    decide
  · intro s hs f hf
    obtain ⟨p, ty, st, h1, h2, -⟩ := exViews_types (exViews_field hs hf)
    refine .inr ⟨p, _, h1, h2, none, .none fun l hl => ?_⟩
    rcases exViews_field hs hf with rfl | rfl | rfl <;> cases hl
  · intro n p h
    simp [exViews] at h
  · intro n sh h
    simp [exViews] at h

theorem exViews_plain : PlainCrate exPlainCfg.ft exViews := by
  refine ⟨?_, ?_, ?_, ?_⟩
  · intro s hs
    rw [exViews_model hs]
    exact ⟨⟨'P', ['o', 's', 't'], rfl, by decide, by decide⟩, by decide, ne_replacement (by decide)⟩
  · intro s hs f hf
    rcases exViews_field hs hf with rfl | rfl | rfl <;> exact ⟨_, _, rfl, by decide, by decide⟩
  · intro s hs f hf p ty hp _
    obtain ⟨p', ty', st, h1, h2, h3⟩ := exViews_types (exViews_field hs (mem_rowFields.1 hf).1)
    rw [hp] at h1
    cases h1
    exact ⟨st, ty', h2, h3⟩
  · intro s hs f hf p q hp hw
    obtain ⟨_, _, e, -⟩ := hw
    rcases exViews_field hs hf with rfl | rfl | rfl <;> cases hp
    · rw [exViews_model hs]
      exact isKey_iff.2 rfl
    · cases e
    · cases e

/-- The code of a project with the migration `m1`, which is applied to a database that has a row. -/
def exViewsStore : FsMigrations :=
  match expandAll exPlainCfg ADB.new exViews with
  | some db => exSq1.write "current" fun _ => ⟨none, db.tables, some db.extraTypes, []⟩
  | none => exSq1

def exPostViews : ATable :=
  ⟨"Post", [⟨"id", .knownId (.ty .bigInt), false, true, true, false, none, none⟩,
    ⟨"title", .knownId (.ty .text), false, false, false, false, none, none⟩,
    ⟨"views", .knownId (.ty .bigInt), false, false, false, false, none, none⟩]⟩
def exViewsMade : FsMigrations :=
  ⟨[("current", ⟨none, [("Post", exPostViews)], some [], []⟩), exSqM1,
    ("m2", ⟨some ⟨some "m1", [], ["sqlite"]⟩, [("Post", exPostViews)], none,
    [("sqlite_down", "ALTER TABLE Post DROP COLUMN views;\n"),
     ("sqlite_up", "ALTER TABLE Post ADD COLUMN views INTEGER NOT NULL DEFAULT 0;\n")]⟩)], some "m2"⟩

theorem exViews_current : exViewsStore.getDb false "current" = .ok (exSqDb exPostViews) := rfl
set_option maxRecDepth 20000 in
theorem exViews_make : Cli.makeMigration false exSqGet none "m2" exViewsStore = (.ok true, exViewsMade) := rfl
set_option maxRecDepth 20000 in
theorem exViews_migrate : (exViewsMade.toMigs "sqlite").migrate (Cli.rounds exViewsMade) exSqConn exSqRows =
    (.ok (), exSqAfter) := rfl

/-- The posts get a number of views. -/
example : CrateTables exPlainCfg.ft exViews exSqAfter.user := by
  refine crate_migrated_partial (g := exPlainCfg) exDdl_covers exDdl_free exStore_laws exCodecs exResolve_ok
    exViews_named exViews_typed exViews_plain (s := exViewsStore) (db := exSqRows) (.build exSqRows_life rfl ?_)
    exSqGet_name ?_ rfl (name := "m2") (by decide) ?_ ⟨rfl, _, rfl, rfl, rfl⟩ ?_ exViews_make (c := exSqConn) rfl
    exViews_migrate
  · intro n hn
    change (exSq1.write "current" _).dirs.lookup n = _
    rw [FsMigrations.lookup_write, if_neg hn]
  · rintro b (hb | hb) -
    · exact exSqGet_back b hb
    · cases hb
  · rintro ⟨names, hn, hm⟩
    cases hn
    simp at hm
  · intro new old hnew ho
    cases exViews_current.symm.trans hnew
    cases (show Except.ok (exSqDb exPost1) = (.ok old : Except MErr ADB) from ho)
    constructor
    · intro n s u c y hs hu hc hy
      obtain ⟨-, rfl⟩ := exPost_table rfl hs
      obtain ⟨-, rfl⟩ := exPost_table rfl hu
      obtain ⟨hm, rfl⟩ := colByName_some hy
      simp only [exPostViews, List.mem_cons, List.not_mem_nil, or_false] at hm
      rcases hm with rfl | rfl | rfl
      · cases hc
      · cases hc
      · refine ⟨rfl, fun v st hv hst => ?_⟩
        obtain ⟨ty, h1, h2⟩ := hst
        cases h1
        cases h2
        cases hv <;> first | rfl | (rename_i h; cases h) | skip
        all_goals (rename_i h1 h2; first | cases h1 | cases h2)
    · intro n s u c y hs hu hc hy
      obtain ⟨-, rfl⟩ := exPost_table rfl hs
      obtain ⟨-, rfl⟩ := exPost_table rfl hu
      obtain ⟨hm, rfl⟩ := colByName_some hy
      simp only [exPost1, List.mem_cons, List.not_mem_nil, or_false] at hm
      rcases hm with rfl | rfl <;> cases hc
example : exSqAfter.user.lookup "Post" = some ⟨[⟨"id", ["INTEGER"], [.notNull, .primaryKey]⟩,
    ⟨"title", ["TEXT"], [.notNull]⟩, ⟨"views", ["INTEGER"], [.notNull, .default (.num false ['0'])]⟩], [],
    [[.integer 1, .text "a", .integer 0]]⟩ := rfl

end Butane.Props
