/-
C81: from the models of a crate to objects in the database.
-/
import Verif.Proofs.CrateObj
import Verif.Props.CrateDb
import Verif.Props.SqliteObj

namespace Butane.Props
open Butane Butane.Spec Butane.Ddl Butane.Codegen Butane.Proofs.Codegen Butane.Proofs.CrateDb

variable {p : LitPrinters} {g : Cfg} {items : List Item} {k : SqliteConn}

/-- C81, any history: after a migration was made for a crate and the database is migrated, with
whatever happened to both before, objects of every model can be stored and looked up. -/
theorem crate_objects_ready_partial (hk : CoversDdl k.kw k.reserved) (hf : TypesFree k.reserved)
    (laws : StrictLaws k.env) (hdata : DataLaws k.env k.data) (hcodecs : Faithful k.codecs)
    (hr : ResolverOk g.resolve) (hn : WellNamed items) (ht : Typed g.ft items)
    (hp : PlainCrate g.ft items) {s s' : FsMigrations} {db db' : MigDb SDb}
    (h : SqliteLife g.ft.json k.env k.kw k.reserved p s db)
    {get : String → Option MigBackend} {spec : Option (Option MigBackend)} {name : String} {b : Bool} (hget : Finds get)
    (hback : ∀ b, get b.name = some b ∨ spec = some (some b) → b.name = "sqlite" → b = sqliteBackend k.kw p)
    (hfresh : s.dirs.lookup name = none) (hcur : name ≠ "current") (hrec : ¬ Spec.Recorded db name)
    (hcomp : Compiled g items s)
    (hadd : ∀ new old, s.getDb g.ft.json "current" = .ok new → LatestSchema g.ft.json s old →
      Addable k.env p old new ∧ Addable k.env p new old)
    (hmake : Cli.makeMigration g.ft.json get spec name s = (.ok b, s')) {c : MigConn SDb}
    (hc : c.exec = sqliteExec k.env k.reserved)
    (hm : (s'.toMigs "sqlite").migrate (Cli.rounds s') c db = (.ok (), db'))
    {st : Struct} (hst : st ∈ modelsOf items) {m : TModel} {pk : TField} (hu : UsableModel g.ft items k st m pk) :
    Ready k m pk db'.user ∧ KeyRefs m pk db'.user := by
  obtain ⟨rec, new, h1, h2, h3⟩ := current_db hr hn ht hcomp
  have hs := sqlite_make_migrate_partial hk hf laws k.codecs h hget hback hfresh hcur hrec h3
    (crate_settled hr hn ht h1 h2) (crate_sqlite hr hn ht hp h1 h2) (fun old ho => hadd _ _ h3 ho) hmake hc hm
  have hct := crate_tables hr hn ht hp h1 h2 hs
  exact ⟨crate_ready hr hn ht hp hct (sound_of_schema hs) hdata laws hcodecs hst hu, crate_keyRefs hr hn ht hct hst hu⟩

/-- What saving and deleting objects leaves of the schema. -/
theorem objRun_schema {m : TModel} {pk : TField} {u0 u : SDb} (h : Ready k m pk u0) {st0 st : Objects m}
    (h0 : ShowsObjs k m pk u0 st0) (hr : ObjRun k m pk u0 st0 u st) {adb : ADB} (hs : HasSchema k.env adb u0) :
    HasSchema k.env adb u ∧ ∀ {json p s log}, SqliteLife json k.env k.kw k.reserved p s ⟨u0, log⟩ →
        SqliteLife json k.env k.kw k.reserved p s ⟨u, log⟩ := by
  induction hr with
  | start => exact ⟨hs, fun h => h⟩
  | save hrun ho _ _ _ hsave _ ih =>
    obtain ⟨q1, -⟩ := objects_run_partial h h0 hrun
    obtain ⟨-, g1, g2⟩ := objects_keep_schema q1.strict q1.sound q1.model (.inl ⟨_, hsave⟩)
    exact ⟨g1 _ ih.1, fun hl => g2 (ih.2 hl)⟩
  | delete hrun ho hd _ ih =>
    obtain ⟨q1, -⟩ := objects_run_partial h h0 hrun
    obtain ⟨-, g1, g2⟩ := objects_keep_schema q1.strict q1.sound q1.model (.inr ⟨ho, hd⟩)
    exact ⟨g1 _ ih.1, fun hl => g2 (ih.2 hl)⟩
  | saveOther hrun _ hm' hsave ih =>
    obtain ⟨q1, -⟩ := objects_run_partial h h0 hrun
    obtain ⟨-, g1, g2⟩ := objects_keep_schema q1.strict q1.sound hm' (.inl ⟨_, hsave⟩)
    exact ⟨g1 _ ih.1, fun hl => g2 (ih.2 hl)⟩
  | deleteOther hrun _ hm' ho hd ih =>
    obtain ⟨q1, -⟩ := objects_run_partial h h0 hrun
    obtain ⟨-, g1, g2⟩ := objects_keep_schema q1.strict q1.sound hm' (.inr ⟨ho, hd⟩)
    exact ⟨g1 _ ih.1, fun hl => g2 (ih.2 hl)⟩

/-- C81: a crate is compiled, the first migration is made and the (empty) database migrated; then, for
every model, objects of it and of other models are saved and deleted, in any order.  Whatever was
done, looking for an object by its key gives the one saved last with this key, unless it was deleted
since; an object the database accepts can be saved; and the database still has the tables of the
crate. -/
theorem crate_objects_partial (hk : CoversDdl k.kw k.reserved) (hf : TypesFree k.reserved) (laws : StrictLaws k.env)
    (hdata : DataLaws k.env k.data) (hcodecs : Faithful k.codecs) (hr : ResolverOk g.resolve) (hn : WellNamed items)
    (ht : Typed g.ft items) (hp : PlainCrate g.ft items) (hne : modelsOf items ≠ []) {s : FsMigrations}
    (hlatest : s.latest = none) (hdirs : ∀ n, n ≠ "current" → s.dirs.lookup n = none) (hcomp : Compiled g items s)
    {get : String → Option MigBackend} (hget : Finds get)
    (hback : ∀ b, get "sqlite" = some b → b = sqliteBackend k.kw p) {name : String} (hcur : name ≠ "current")
    {c : MigConn SDb} (hc : c.exec = sqliteExec k.env k.reserved) :
    ∃ s' db', Cli.makeMigration g.ft.json get (some (some (sqliteBackend k.kw p))) name s = (.ok true, s') ∧
      (s'.toMigs "sqlite").migrate (Cli.rounds s') c.reliable ⟨[], none⟩ = (.ok (), db') ∧
      ∀ model ∈ modelsOf items, ∀ m pk, UsableModel g.ft items k model m pk →
        ∀ u objs, ObjRun k m pk db'.user (fun _ => none) u objs →
          ShowsObjs k m pk u objs ∧
          (∀ o, Storable m.fields o → NoNaNs m.fields o → KeyRoom k m pk u →
            (∀ t, u.lookup m.table = some t → Admissible k m pk u t o) → ∃ u' o', m.save k u o = .ok (u', o')) ∧
          CrateTables g.ft items u ∧
          SqliteLife g.ft.json k.env k.kw k.reserved p s' ⟨u, db'.log⟩ := by
  obtain ⟨s', db', rec, new, h1, h2, -, h4, h5, h6, h7, h8⟩ := crate_first hk hf laws k.codecs hr hn ht hp hne hlatest hdirs
    hcomp hget hback hcur hc
  refine ⟨s', db', h1, h2, fun model hmodel m pk hu u objs hrun => ?_⟩
  have hct := crate_tables hr hn ht hp h4 h5 h6
  have hready := crate_ready hr hn ht hp hct (sound_of_schema h6) hdata laws hcodecs hmodel hu
  have hshow := empty_table_shows hready (fun t hl => h7 _ (SMap.mem_of_lookup hl))
  obtain ⟨r1, r2⟩ := objects_run_partial hready hshow hrun
  obtain ⟨r3, r4⟩ := objRun_schema hready hshow hrun h6
  have hct' := crate_tables hr hn ht hp h4 h5 r3
  refine ⟨r2, fun o ho hnan hroom hadm => ?_, hct', r4 h8⟩
  obtain ⟨t, hlk, -⟩ := r1.table
  exact save_succeeds r1 hlk ho hnan hroom (hadm t hlk) (crate_keyRefs hr hn ht hct' hmodel hu)

/-! ### A crate -/

/-- The words of all statements. -/
def exWords (w : String) : Bool :=
  decide (Sql.upper w.toList ∈ Ddl.grammarWords ∨ Sql.upper w.toList ∈ Sql.grammarWords)

theorem exWords_ddl : CoversDdl exWords exDdlRes := by
  intro w h
  rcases h with h | h
  · exact decide_eq_true (.inl h)
  · cases h
theorem exWords_sql : CoversReserved exWords exDdlRes := by
  intro w h
  rcases h with h | h
  · exact decide_eq_true (.inr h)
  · cases h

def exCrateConn : SqliteConn := ⟨exRowStore, exRowData, exWords, exDdlRes, exCodecs, fun _ => none⟩

def exWordsGet (n : String) : Option MigBackend := if n = "sqlite" then some (sqliteBackend exWords exPrinters) else none

theorem exWordsGet_name : Finds exWordsGet := by
  intro n b h
  unfold exWordsGet at h
  split at h
  · cases h
    rename_i h
    exact h.symm
  · cases h
theorem exWordsGet_back (b : MigBackend) (h : exWordsGet b.name = some b) : b = sqliteBackend exWords exPrinters := by
  unfold exWordsGet at h
  split at h
  · cases h
    rfl
  · cases h

/-- The posts that `exViews` declares. -/
def exViewsModel : TModel :=
  ⟨"Post", [⟨"id", false, some (.autoPk .i64)⟩, ⟨"title", false, some .string⟩, ⟨"views", false, some .i64⟩]⟩
def exViewsPk : TField := ⟨"id", false, some (.autoPk .i64)⟩
def exViewsStruct : Struct :=
  ⟨ident "Post", [], [fld "id" (ty1 "AutoPk" (ty0 "i64")), fld "title" (ty0 "String"), fld "views" (ty0 "i64")]⟩

/-- A crate with nothing but models and an enum. -/
def OnlyModels (items : List Item) : Prop := ∀ i ∈ items, (∃ s, i = .model s) ∨ i = .derived (ident "Kind") .simpleEnum

theorem exViews_only : OnlyModels exViews := by
  intro i hi
  rw [List.mem_singleton.1 hi]
  exact .inl ⟨_, rfl⟩

theorem rust_i64 {items : List Item} (hi : OnlyModels items) {ty : FieldTy}
    (h : RustType exPlainCfg.ft items (ty0 "i64") ty) : ty = .i64 := by
  generalize e : ty0 "i64" = q at h
  cases h with
  | simple h => cases e; simpa [ident] using h
  | string h => subst e; exact absurd h (by decide)
  | bytes h => subst e; exact absurd h (by decide)
  | uuid h => subst e; exact absurd h (by decide)
  | value _ h => subst e; exact absurd h (by decide)
  | date h => subst e; exact absurd h (by decide)
  | naive h => subst e; exact absurd h (by decide)
  | utc h => subst e; exact absurd h (by decide)
  | map _ h => subst e; cases h
  | option h => subst e; obtain ⟨_, _, h, -⟩ := h; cases h
  | autoPk h => subst e; obtain ⟨_, _, h, -⟩ := h; cases h
  | foreignKey h => subst e; obtain ⟨_, _, h, -⟩ := h; cases h
  | alias h => rcases hi _ h with ⟨_, e⟩ | e <;> cases e
  | newtype h => rcases hi _ h with ⟨_, e⟩ | e <;> cases e
  | enum _ h hn =>
    rcases hi _ h with ⟨_, e'⟩ | e' <;> cases e'
    cases e
    exact absurd hn (by decide)
  | derived _ h => rcases hi _ h with ⟨_, e⟩ | e <;> cases e

theorem rust_string {items : List Item} (hi : OnlyModels items) {ty : FieldTy}
    (h : RustType exPlainCfg.ft items (ty0 "String") ty) : ty = .string := by
  generalize e : ty0 "String" = q at h
  cases h with
  | simple h => cases e; simp [ident] at h
  | string h => rfl
  | bytes h => subst e; exact absurd h (by decide)
  | uuid h => subst e; exact absurd h (by decide)
  | value _ h => subst e; exact absurd h (by decide)
  | date h => subst e; exact absurd h (by decide)
  | naive h => subst e; exact absurd h (by decide)
  | utc h => subst e; exact absurd h (by decide)
  | map _ h => subst e; cases h
  | option h => subst e; obtain ⟨_, _, h, -⟩ := h; cases h
  | autoPk h => subst e; obtain ⟨_, _, h, -⟩ := h; cases h
  | foreignKey h => subst e; obtain ⟨_, _, h, -⟩ := h; cases h
  | alias h => rcases hi _ h with ⟨_, e⟩ | e <;> cases e
  | newtype h => rcases hi _ h with ⟨_, e⟩ | e <;> cases e
  | enum _ h hn =>
    rcases hi _ h with ⟨_, e'⟩ | e' <;> cases e'
    cases e
    exact absurd hn (by decide)
  | derived _ h => rcases hi _ h with ⟨_, e⟩ | e <;> cases e

theorem rust_auto {items : List Item} (hi : OnlyModels items) {ty : FieldTy}
    (h : RustType exPlainCfg.ft items (ty1 "AutoPk" (ty0 "i64")) ty) :
    ty = .autoPk .i64 := by
  have hw := spelled (n := "AutoPk") (ty0 "i64") (by decide)
  generalize e : ty1 "AutoPk" (ty0 "i64") = q at h
  cases h with
  | simple h => cases e
  | string h => subst e; exact absurd h (by decide)
  | bytes h => subst e; exact absurd h (by decide)
  | uuid h => subst e; exact absurd h (by decide)
  | value _ h => subst e; exact absurd h (by decide)
  | date h => subst e; exact absurd h (by decide)
  | naive h => subst e; exact absurd h (by decide)
  | utc h => subst e; exact absurd h (by decide)
  | map _ h => subst e; cases h
  | option h => subst e; exact absurd (applied_arg hw h).1 (by decide)
  | autoPk h h' =>
    subst e
    obtain ⟨-, rfl⟩ := applied_arg hw h
    rw [rust_i64 hi h']
  | foreignKey h => subst e; exact absurd (applied_arg hw h).1 (by decide)
  | alias h => rcases hi _ h with ⟨_, e⟩ | e <;> cases e
  | newtype h => rcases hi _ h with ⟨_, e⟩ | e <;> cases e
  | enum _ h => cases e
  | derived _ h => rcases hi _ h with ⟨_, e⟩ | e <;> cases e

theorem exViews_fields {f : Codegen.Field} (hf : f ∈ exViewsStruct.fields) :
    f = fld "id" (ty1 "AutoPk" (ty0 "i64")) ∨ f = fld "title" (ty0 "String") ∨ f = fld "views" (ty0 "i64") := by
  simpa [exViewsStruct] using hf

theorem exViews_noMany {f : Codegen.Field} (hf : f ∈ exViewsStruct.fields) : ¬ ∃ q, IsMany f q := by
  rw [manySpelled_iff]
  rcases exViews_fields hf with rfl | rfl | rfl <;> decide

theorem exViews_isField {f : Codegen.Field} {f' : TField} {ty : FieldTy} {p : Path} (hf : f ∈ exViewsStruct.fields)
    (h1 : f'.name = f.ident.name) (h2 : f'.pkAttr = false) (h3 : .pk ∉ f.attrs) (h4 : f'.ty = some ty)
    (h5 : f.ty = some p) (h6 : RustType exPlainCfg.ft exViews p ty) : IsField exPlainCfg.ft exViews f f' where
  name := h1
  pkAttr := by rw [h2]; simp [h3]
  many := ⟨(fun h => by rw [h4] at h; cases h), fun h => absurd h (exViews_noMany hf)⟩
  type := by
    intro ty' h
    rw [h4] at h
    cases h
    exact ⟨p, h5, h6⟩

theorem exViews_usable : UsableModel exPlainCfg.ft exViews exCrateConn exViewsStruct exViewsModel exViewsPk where
  isModel := ⟨rfl, .cons (exViews_isField (by simp [exViewsStruct]) rfl rfl (by decide) rfl rfl
      (.autoPk (spelled _ (by decide)) (.simple (by simp [ident]))))
    (.cons (exViews_isField (by simp [exViewsStruct]) rfl rfl (by decide) rfl rfl (.string rfl (exString _)))
    (.cons (exViews_isField (by simp [exViewsStruct]) rfl rfl (by decide) rfl rfl (.simple (by simp [ident]))) .nil))⟩
  option := by
    intro f hf p ty hp h habs
    rcases exViews_fields hf with rfl | rfl | rfl <;> cases hp
    · rw [rust_auto exViews_only h] at habs; exact habs.elim
    · rw [rust_string exViews_only h] at habs; exact habs.elim
    · rw [rust_i64 exViews_only h] at habs; exact habs.elim
  auto := by
    intro f hf p ty hp h
    rcases exViews_fields hf with rfl | rfl | rfl <;> cases hp
    · exact ⟨_, spelled _ (by decide)⟩
    · cases rust_string exViews_only h
    · cases rust_i64 exViews_only h
  noRaw := by
    intro f hf h
    rcases exViews_fields hf with rfl | rfl | rfl
    · rfl
    · exact absurd h (by decide)
    · exact absurd h (by decide)
  covers := exWords_sql
  excluded := rfl
  table := by decide
  key := rfl
  plain := ⟨nameOf rfl (by decide) (by decide), by decide, rfl⟩
  keyType := by
    intro ty h
    cases h
    exact ⟨by decide, id⟩
  autoInt := by
    intro ty h
    cases h
    exact ⟨_, .i64⟩

/-- A project with nothing but the code. -/
def exViewsNew : FsMigrations :=
  match expandAll exPlainCfg ADB.new exViews with
  | some db => ⟨[("current", ⟨none, db.tables, some db.extraTypes, []⟩)], none⟩
  | none => ⟨[], none⟩

theorem exViewsNew_dirs (n : String) (h : n ≠ "current") : exViewsNew.dirs.lookup n = none := by
  have : exViewsNew.dirs.map (·.1) = ["current"] := rfl
  cases hl : exViewsNew.dirs.lookup n with
  | none => rfl
  | some d =>
    have := List.mem_map_of_mem (f := (·.1)) (SMap.mem_of_lookup hl)
    rw [‹exViewsNew.dirs.map (·.1) = ["current"]›] at this
    exact absurd (List.mem_singleton.1 this) h

def exViewsConn : MigConn SDb := ⟨sqliteExec exRowStore exDdlRes, fun _ => .ok⟩

/-- The database after the first migration, with these posts. -/
def exViewsDb (posts : List (List SqliteVal)) : SDb :=
  [("Post", ⟨[⟨"id", ["INTEGER"], [.notNull, .primaryKey]⟩, ⟨"title", ["TEXT"], [.notNull]⟩,
    ⟨"views", ["INTEGER"], [.notNull]⟩], [], posts⟩)]

theorem exViews_objects : ∃ s' db',
    Cli.makeMigration false exWordsGet (some (some (sqliteBackend exWords exPrinters))) "m1" exViewsNew = (.ok true, s') ∧
      (s'.toMigs "sqlite").migrate (Cli.rounds s') exViewsConn.reliable ⟨[], none⟩ = (.ok (), db') ∧
      ∀ model ∈ modelsOf exViews, ∀ m pk, UsableModel exPlainCfg.ft exViews exCrateConn model m pk →
        ∀ u objs, ObjRun exCrateConn m pk db'.user (fun _ => none) u objs →
          ShowsObjs exCrateConn m pk u objs ∧
          (∀ o, Storable m.fields o → NoNaNs m.fields o → KeyRoom exCrateConn m pk u →
            (∀ t, u.lookup m.table = some t → Admissible exCrateConn m pk u t o) →
              ∃ u' o', m.save exCrateConn u o = .ok (u', o')) ∧
          CrateTables exPlainCfg.ft exViews u ∧
          SqliteLife false exRowStore exWords exDdlRes exPrinters s' ⟨u, db'.log⟩ :=
  crate_objects_partial (k := exCrateConn) (g := exPlainCfg) exWords_ddl exDdl_free exRowStore_laws exRowData_laws
    ⟨fun _ => rfl, exParse_print, exParse_print⟩ exResolve_ok exViews_named exViews_typed exViews_plain
    (by simp [exViews, modelsOf]) rfl exViewsNew_dirs ⟨rfl, _, rfl, rfl, rfl⟩ exWordsGet_name
    (fun b hb => exWordsGet_back b (by rw [exWordsGet_name _ _ hb]; exact hb)) (by decide) rfl

set_option maxRecDepth 20000 in
theorem exViews_first {s' : FsMigrations} {db' : MigDb SDb}
    (h1 : Cli.makeMigration false exWordsGet (some (some (sqliteBackend exWords exPrinters))) "m1" exViewsNew = (.ok true, s'))
    (h2 : (s'.toMigs "sqlite").migrate (Cli.rounds s') exViewsConn.reliable ⟨[], none⟩ = (.ok (), db')) :
    db'.user = exViewsDb [] := by
  have e1 : (Cli.makeMigration false exWordsGet (some (some (sqliteBackend exWords exPrinters))) "m1" exViewsNew).2 = s' := by
    rw [h1]
  subst e1
  have e2 := congrArg (fun x => x.2.user) h2
  exact e2.symm.trans rfl

set_option maxRecDepth 20000 in
theorem exViews_log {s' : FsMigrations} {db' : MigDb SDb}
    (h1 : Cli.makeMigration false exWordsGet (some (some (sqliteBackend exWords exPrinters))) "m1" exViewsNew = (.ok true, s'))
    (h2 : (s'.toMigs "sqlite").migrate (Cli.rounds s') exViewsConn.reliable ⟨[], none⟩ = (.ok (), db')) :
    db'.log = some ["m1"] := by
  have e1 : (Cli.makeMigration false exWordsGet (some (some (sqliteBackend exWords exPrinters))) "m1" exViewsNew).2 = s' := by
    rw [h1]
  subst e1
  have e2 := congrArg (fun x => x.2.log) h2
  exact e2.symm.trans rfl

def exViewsPost : ObjVals exViewsModel.fields := (none, "hello", (7 : Int64), ())
def exViewsSaved : ObjVals exViewsModel.fields := (some 1, "hello", (7 : Int64), ())

theorem exViews_save : exViewsModel.save exCrateConn (exViewsDb []) exViewsPost =
    .ok (exViewsDb [[.integer 1, .text "hello", .integer 7]], exViewsSaved) := by rfl

theorem exViews_run : ObjRun exCrateConn exViewsModel exViewsPk (exViewsDb []) (fun _ => none)
    (exViewsDb [[.integer 1, .text "hello", .integer 7]]) (Objects.put (fun _ => none) (.bigInt 1) exViewsSaved) := by
  refine .save .start (o := exViewsPost) ⟨(fun _ h => by cases h), trivial, trivial, trivial⟩
    ⟨(fun _ h => by cases h), trivial, trivial, trivial⟩ ?_ (fun _ h => by cases h) exViews_save rfl
  intro ty I hty hI t j _ _
  cases hty
  cases hI
  simp only [intI64]
  have h1 := Int64.toInt_lt j
  have h2 := Int64.le_toInt j
  omega

/-- A post is saved: the database shows it, and the project goes on with it in the database. -/
example : ∃ s', ShowsObjs exCrateConn exViewsModel exViewsPk (exViewsDb [[.integer 1, .text "hello", .integer 7]])
      (Objects.put (fun _ => none) (.bigInt 1) exViewsSaved) ∧
    CrateTables exPlainCfg.ft exViews (exViewsDb [[.integer 1, .text "hello", .integer 7]]) ∧
    ∃ log, SqliteLife false exRowStore exWords exDdlRes exPrinters s'
      ⟨exViewsDb [[.integer 1, .text "hello", .integer 7]], log⟩ := by
  obtain ⟨s', db', h1, h2, h3⟩ := exViews_objects
  have hdb := exViews_first h1 h2
  obtain ⟨g1, -, g3, g4⟩ := h3 exViewsStruct (by simp [exViews, modelsOf, exViewsStruct]) exViewsModel exViewsPk exViews_usable
    _ _ (by rw [hdb]; exact exViews_run)
  exact ⟨s', g1, g3, _, g4⟩

theorem exViews_ready {s' : FsMigrations} {db' : MigDb SDb}
    (h1 : Cli.makeMigration false exWordsGet (some (some (sqliteBackend exWords exPrinters))) "m1" exViewsNew = (.ok true, s'))
    (h2 : (s'.toMigs "sqlite").migrate (Cli.rounds s') exViewsConn.reliable ⟨[], none⟩ = (.ok (), db')) :
    Ready exCrateConn exViewsModel exViewsPk db'.user ∧ KeyRefs exViewsModel exViewsPk db'.user := by
  refine crate_objects_ready_partial (p := exPrinters) (k := exCrateConn) (g := exPlainCfg) exWords_ddl exDdl_free exRowStore_laws
    exRowData_laws ⟨fun _ => rfl, exParse_print, exParse_print⟩ exResolve_ok exViews_named exViews_typed exViews_plain
    (s := exViewsNew) (db := ⟨[], none⟩) (.build .empty rfl exViewsNew_dirs) exWordsGet_name ?_
    (exViewsNew_dirs "m1" (by decide)) (by decide) ?_ ⟨rfl, _, rfl, rfl, rfl⟩ ?_ h1 (c := exViewsConn.reliable) rfl h2
    (st := exViewsStruct) (by simp [exViews, modelsOf, exViewsStruct]) exViews_usable
  · rintro b (hb | hb) -
    · exact exWordsGet_back b hb
    · cases hb
      rfl
  · rintro ⟨_, h, -⟩
    cases h
  · intro new old _ ho
    cases (show old = ADB.new from ho)
    constructor
    · intro n a b c y hl; cases hl
    · intro n a b c y _ hl; cases hl

/-- The posts are ready after the first migration. -/
example : ∃ db', Ready exCrateConn exViewsModel exViewsPk db' ∧ KeyRefs exViewsModel exViewsPk db' := by
  obtain ⟨s', db', h1, h2, -⟩ := exViews_objects
  exact ⟨_, exViews_ready h1 h2⟩

end Butane.Props
