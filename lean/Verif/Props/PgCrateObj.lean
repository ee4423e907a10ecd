/-
C94: from the models of a crate to objects in a PostgreSQL database.
-/
import Verif.Proofs.PgCrateObj
import Verif.Props.PgCrate
import Verif.Props.PgAccept
import Verif.Props.CrateObj

namespace Butane.Props
open Butane Butane.Spec Butane.Ddl Butane.Codegen Butane.Proofs.Codegen Butane.Proofs.CrateDb
open Butane.PgCat (lower PgEnv Naming)

variable {env : PgEnv} {p : LitPrinters} {g : Cfg} {items : List Item} {k : PgConn}

/-- C94, any database with the tables of a crate: objects of every model can be stored and looked up. -/
theorem pg_crate_objects_ready (hr : ResolverOk g.resolve) (hn : WellNamed items) (ht : Typed g.ft items)
    (hp : PgCrate k.kw g.ft items) (hlaws : PgData.Laws k.server) {cat : PgCat.PDb} (hc : PgCrateTables g.ft items cat)
    {u : PgData.PDb} (hu : PgStores items cat u) (hv : PgData.valid k.server u = true) {s : Struct}
    (hs : s ∈ modelsOf items) {m : TModel} {pk : TField} (hm : PgUsableModel g.ft items k s m pk) :
    PgReady k m pk u ∧ PgKeyRefs m pk u ∧ ∀ t, u.lookup m.table = some t → OnlyFields m t := by
  refine ⟨pg_crate_ready hr hn ht hp hc hu hlaws hv hs hm, pg_crate_keyRefs hr hn ht hp hc hu hs hm, fun t hl => ?_⟩
  obtain ⟨c, t', hmt, hl', hst⟩ := stored_model hc hu hs
  rw [hm.isModel.table, hl'] at hl
  cases hl
  exact (pg_table_fits hr hn ht hp hs hmt hst hm).2

/-- C94: a database keeps its catalog while objects are saved and deleted. -/
theorem pg_run_stores {m : TModel} {pk : TField} {u0 : PgData.PDb} (h : PgReady k m pk u0) {st0 st : Objects m}
    (h0 : PgShows k m pk u0 st0) {u : PgData.PDb} (hr : PgRun k m pk u0 st0 u st) {cat : PgCat.PDb}
    (hs : PgStores items cat u0) : PgStores items cat u := by
  induction hr with
  | start => exact hs
  | save hrun _ _ _ _ hsave _ ih =>
    obtain ⟨q, -⟩ := pg_objects_run_partial h h0 hrun
    exact stores_touched ih (PgP.save_touches q.model q.sorted q.valid hsave)
  | delete hrun ho _ hd _ ih =>
    obtain ⟨q, -⟩ := pg_objects_run_partial h h0 hrun
    exact stores_touched ih (PgP.delete_touches q.model q.sorted q.valid ho hd)
  | saveOther hrun _ hm' hsave ih =>
    obtain ⟨q, -⟩ := pg_objects_run_partial h h0 hrun
    exact stores_touched ih (PgP.save_touches hm' q.sorted q.valid hsave)
  | deleteOther hrun _ hm' ho hd ih =>
    obtain ⟨q, -⟩ := pg_objects_run_partial h h0 hrun
    exact stores_touched ih (PgP.delete_touches hm' q.sorted q.valid ho hd)

/-- C94: a crate is compiled, the first migration is made and the (empty) PostgreSQL database migrated;
then, for every model, objects of it and of other models are saved and deleted, in any order.  Whatever
was done, looking for an object by its key gives the one saved last with this key, unless it was deleted
since; an object the database accepts can be saved, and one nothing refers to can be deleted; and the
database still has the tables of the crate. -/
theorem pg_crate_objects_partial (hk : PgWords k.kw k.reserved) (hen : Naming env)
    (hperm : ∀ db st, env.permits db st = true) (hlaws : PgData.Laws k.server) (hr : ResolverOk g.resolve)
    (hn : WellNamed items) (ht : Typed g.ft items) (hp : PgCrate k.kw g.ft items) (hne : modelsOf items ≠ [])
    {s : FsMigrations} (hlatest : s.latest = none) (hdirs : ∀ n, n ≠ "current" → s.dirs.lookup n = none)
    (hcomp : Compiled g items s) {get : String → Option MigBackend} (hget : Finds get) {name : String}
    (hcur : name ≠ "current") {c : MigConn PgCat.PDb} (hc : c.exec = pgExec env k.reserved) :
    ∃ s' db', Cli.makeMigration g.ft.json get (some (some (pgBackend k.kw p))) name s = (.ok true, s') ∧
      (s'.toMigs "pg").migrate (Cli.rounds s') c.reliable ⟨[], none⟩ = (.ok (), db') ∧
      PgCrateTables g.ft items db'.user ∧
      (∃ u0, PgStores items db'.user u0 ∧ ∀ n t, u0.lookup n = some t → t.rows = []) ∧
      ∀ u0, PgStores items db'.user u0 → (∀ n t, u0.lookup n = some t → t.rows = []) →
        ∀ model ∈ modelsOf items, ∀ m pk, PgUsableModel g.ft items k model m pk →
          ∀ u objs, PgRun k m pk u0 (fun _ => none) u objs →
            PgShows k m pk u objs ∧
            (∀ o key, Storable m.fields o → AllWholeMicros m.fields o → PgKeyFits pk key →
              (∀ t, u.lookup m.table = some t → PgAccepts k m pk u t key o) → ∃ u' o', m.pgSave k u key o = .ok (u', o')) ∧
            (∀ o, Storable m.fields o → AllWholeMicros m.fields o → keyValid pk.name m.fields o = true →
              (∀ t, u.lookup m.table = some t → PgUnused k m pk u t o) → ∃ u', m.pgDelete k u o = .ok u') ∧
            PgStores items db'.user u := by
  obtain ⟨s', db', h1, h2, -, h4⟩ := pg_crate_first_migration_partial (p := p) hk hen hperm hr hn ht hp hne hlatest hdirs
    hcomp hget hcur hc
  refine ⟨s', db', h1, h2, h4, stores_exists hr ht h4, fun u0 hu0 hemp model hmodel m pk hu u objs hrun => ?_⟩
  have hv : PgData.valid k.server u0 = true := valid_empty fun e he => hemp e.1 e.2 (SMap.lookup_of_mem hu0.sorted he)
  have hready := (pg_crate_objects_ready hr hn ht hp hlaws h4 hu0 hv hmodel hu).1
  have hshow := pg_empty_table_shows hready (fun t hl => hemp _ t hl)
  obtain ⟨r1, r2⟩ := pg_objects_run_partial hready hshow hrun
  have hst := pg_run_stores hready hshow hrun hu0
  obtain ⟨-, r3, r4⟩ := pg_crate_objects_ready hr hn ht hp hlaws h4 hst r1.valid hmodel hu
  obtain ⟨t, hlk, -⟩ := r1.table
  exact ⟨r2, fun o key ho hw hfit hacc => pg_save_succeeds_partial r1 hlk (r4 t hlk) ho hw hfit r3 (hacc t hlk),
    fun o ho hw hkey hun => pg_delete_succeeds r1 hlk ho hw hkey r3 (hun t hlk), hst⟩

/-! ### A crate -/

/-- The words of all statements. -/
def exPgAllWords (w : String) : Bool := exWords w || exPgRes (lower w)

theorem exPgAllWords_ddl : PgWords exPgAllWords exPgRes where
  covers w h := by
    rcases h with h | h
    · exact Bool.or_eq_true_iff.2 (.inl (decide_eq_true (.inl h)))
    · exact Bool.or_eq_true_iff.2 (.inr h)
  types := exPg_words.types
  labels := exPg_words.labels

theorem exPgAllWords_sql : CoversReserved exPgAllWords exPgRes := by
  intro w h
  rcases h with h | h
  · exact Bool.or_eq_true_iff.2 (.inl (decide_eq_true (.inr h)))
  · refine Bool.or_eq_true_iff.2 (.inr ?_)
    have h' := of_decide_eq_true h
    simp only [List.mem_cons, List.not_mem_nil, or_false] at h'
    rcases h' with rfl | rfl <;> decide

def exPgCrateConn : PgConn := ⟨exPgServer, exPgAllWords, exPgRes, fun _ => none⟩

theorem exViews_rows {s : Struct} (hs : s ∈ modelsOf exViews) : s = exViewsStruct := exViews_model hs

theorem exViews_pgTables {s : Struct} (hs : s ∈ modelsOf exViews) {n : String} (hn : n ∈ tablesOf s) : n = "Post" := by
  obtain rfl := exViews_rows hs
  unfold tablesOf at hn
  rcases List.mem_cons.1 hn with rfl | hn
  · decide
  · obtain ⟨f, hf, rfl⟩ := List.mem_map.1 hn
    obtain ⟨h1, q, hq⟩ := mem_manyFields.1 hf
    exact absurd ⟨q, hq⟩ (exViews_noMany h1)

def exViewsColumns : List (String × String) :=
  [("Post", "id"), ("Post", "title"), ("Post", "views"), ("butane_migrations", "name")]

theorem exViews_used {n c : String} (h : UsedColumn exViews n c) : (n, c) ∈ exViewsColumns := by
  cases h with
  | field hs hf =>
    obtain rfl := exViews_rows hs
    rcases exViews_fields (mem_rowFields.1 hf).1 with rfl | rfl | rfl <;> decide
  | link hs hf hq hc =>
    obtain rfl := exViews_rows hs
    exact absurd ⟨_, hq⟩ (exViews_noMany hf)
  | record => decide

theorem exViews_pgNames : PgCrateNames exViews := by
  have ht : ∀ {n}, UsedTable exViews n → n ∈ ["Post", "butane_migrations"] := by
    rintro n (⟨s, hs, hn⟩ | rfl)
    · rw [exViews_pgTables hs hn]; decide
    · decide
  have h1 : (["Post", "butane_migrations"].all fun n => ["Post", "butane_migrations"].all fun m =>
      decide (lower n = lower m → n = m)) = true := by decide
  have h2 : (exViewsColumns.all fun a => exViewsColumns.all fun b =>
      decide (a.1 = b.1 → lower a.2 = lower b.2 → a.2 = b.2)) = true := by decide +kernel
  have h3 : (exViewsColumns.all fun a => exViewsColumns.all fun b =>
      decide (lower a.1 ++ "_" ++ lower a.2 = lower b.1 ++ "_" ++ lower b.2 → a = b)) = true := by decide +kernel
  have h4 : (exViewsColumns.all fun a => (PgP.stdNames a.1 a.2).all fun s =>
      decide (s.utf8ByteSize ≤ 63) && ["Post", "butane_migrations"].all fun m => decide (s ≠ lower m)) = true := by
    decide +kernel
  simp only [Bool.and_eq_true, List.all_eq_true, decide_eq_true_eq] at h1 h2 h3 h4
  refine ⟨fun n m hn hm => h1 _ (ht hn) _ (ht hm), fun n c d hc hd => h2 _ (exViews_used hc) _ (exViews_used hd) rfl,
    fun n c m d hc hd e => ?_, fun m n c k hm hc hk => (h4 _ (exViews_used hc) _ (PgP.stdNames_mem hk)).2 _ (ht hm),
    fun n c k hc hk => (h4 _ (exViews_used hc) _ (PgP.stdNames_mem hk)).1⟩
  have := h3 _ (exViews_used hc) _ (exViews_used hd) e
  cases this
  exact ⟨rfl, rfl⟩

theorem exViews_pg : PgCrate exPgAllWords exPlainCfg.ft exViews := by
  have hi64 : HasSqlType exPlainCfg.ft exViews (ty0 "i64") (.ty .bigInt) := .builtin (exBuiltin (by decide) _)
  have hkey : IsKey exViewsStruct (fld "id" (ty1 "AutoPk" (ty0 "i64"))) := isKey_iff.2 rfl
  refine ⟨?_, ?_, ?_, exViews_pgNames, ?_, ?_, ?_, ?_⟩
  · intro s hs n hn
    rw [exViews_pgTables hs hn]
    exact ⟨⟨_, _, rfl, by decide, by decide⟩, by decide⟩
  · intro s hs
    rw [exViews_rows hs]
    decide
  · intro s hs f hf
    obtain rfl := exViews_rows hs
    rcases exViews_fields hf with rfl | rfl | rfl <;> exact ⟨⟨_, _, rfl, by decide, by decide⟩, by decide⟩
  · intro s hs f hf p ty hp _
    obtain rfl := exViews_rows hs
    rcases exViews_fields (mem_rowFields.1 hf).1 with rfl | rfl | rfl <;> cases hp
    · exact ⟨_, _, .autoPk (spelled _ (by decide)) hi64, rfl⟩
    · exact ⟨_, _, .builtin (exString _), rfl⟩
    · exact ⟨_, _, hi64, rfl⟩
  · intro s hs f hf p q hp hw
    obtain rfl := exViews_rows hs
    rcases exViews_fields hf with rfl | rfl | rfl <;> cases hp
    · exact ⟨hkey, .inr (.autoPk (spelled _ (by decide)) hi64), by simp [fld]⟩
    · obtain ⟨_, _, h, -⟩ := hw; cases h
    · obtain ⟨_, _, h, -⟩ := hw; cases h
  · intro s hs f hf p q hp hw
    obtain rfl := exViews_rows hs
    rw [key_unique hf hkey] at hp
    cases hp
    exact absurd (applied_arg (spelled (n := "AutoPk") (ty0 "i64") (by decide)) hw).1 (by decide)
  · intro s hs f hf r hr
    obtain rfl := exViews_rows hs
    rcases exViews_fields hf with rfl | rfl | rfl <;> simp [fld] at hr

theorem exViews_pgUsable : PgUsableModel exPlainCfg.ft exViews exPgCrateConn exViewsStruct exViewsModel exViewsPk where
  isModel := exViews_usable.isModel
  option := exViews_usable.option
  auto := exViews_usable.auto
  noRaw := exViews_usable.noRaw
  covers := exPgAllWords_sql
  excluded := by decide
  table := by decide
  key := rfl
  plain := ⟨nameOf rfl (by decide) (by decide), by decide, by decide⟩
  keyType := by
    intro ty h
    cases h
    exact ⟨by decide, by decide, id⟩
  autoInt := exViews_usable.autoInt
  count := by decide

/-- The table of posts, with these rows. -/
def exPgViewsDb (rows : List PgData.PRow) : PgData.PDb :=
  [("Post", ⟨[⟨"id", .int8, true, true, .null, true⟩, ⟨"title", .text, true, false, .null, false⟩,
    ⟨"views", .int8, true, false, .null, false⟩], [], rows⟩)]

theorem exPgViews_objects : ∃ s' db',
    Cli.makeMigration false (fun _ => none) (some (some (pgBackend exPgAllWords exPrinters))) "m1" exViewsNew = (.ok true, s') ∧
      (s'.toMigs "pg").migrate (Cli.rounds s') exPgMigConn.reliable ⟨[], none⟩ = (.ok (), db') ∧
      PgCrateTables exPlainCfg.ft exViews db'.user ∧
      (∃ u0, PgStores exViews db'.user u0 ∧ ∀ n t, u0.lookup n = some t → t.rows = []) ∧
      ∀ u0, PgStores exViews db'.user u0 → (∀ n t, u0.lookup n = some t → t.rows = []) →
        ∀ model ∈ modelsOf exViews, ∀ m pk, PgUsableModel exPlainCfg.ft exViews exPgCrateConn model m pk →
          ∀ u objs, PgRun exPgCrateConn m pk u0 (fun _ => none) u objs →
            PgShows exPgCrateConn m pk u objs ∧
            (∀ o key, Storable m.fields o → AllWholeMicros m.fields o → PgKeyFits pk key →
              (∀ t, u.lookup m.table = some t → PgAccepts exPgCrateConn m pk u t key o) →
                ∃ u' o', m.pgSave exPgCrateConn u key o = .ok (u', o')) ∧
            (∀ o, Storable m.fields o → AllWholeMicros m.fields o → keyValid pk.name m.fields o = true →
              (∀ t, u.lookup m.table = some t → PgUnused exPgCrateConn m pk u t o) →
                ∃ u', m.pgDelete exPgCrateConn u o = .ok u') ∧
            PgStores exViews db'.user u :=
  pg_crate_objects_partial (k := exPgCrateConn) (g := exPlainCfg) exPgAllWords_ddl exPg_naming (fun _ _ => rfl)
    exPgServer_laws exResolve_ok exViews_named exViews_typed exViews_pg (by simp [exViews, modelsOf]) rfl exViewsNew_dirs
    ⟨rfl, _, rfl, rfl, rfl⟩ (fun _ _ h => by cases h) (by decide) rfl

/-- The catalog after the first migration. -/
def exPgViewsCat : PgCat.PDb :=
  [("post", ⟨[⟨"id", ["bigint"], true, true⟩, ⟨"title", ["text"], true, false⟩, ⟨"views", ["bigint"], true, false⟩],
    [⟨"post_pkey", .pk "id"⟩]⟩)]

set_option maxRecDepth 20000 in
theorem exPgViews_first {s' : FsMigrations} {db' : MigDb PgCat.PDb}
    (h1 : Cli.makeMigration false (fun _ => none) (some (some (pgBackend exPgAllWords exPrinters))) "m1" exViewsNew =
      (.ok true, s'))
    (h2 : (s'.toMigs "pg").migrate (Cli.rounds s') exPgMigConn.reliable ⟨[], none⟩ = (.ok (), db')) :
    db'.user = exPgViewsCat := by
  have e1 : (Cli.makeMigration false (fun _ => none) (some (some (pgBackend exPgAllWords exPrinters))) "m1" exViewsNew).2 = s' := by
    rw [h1]
  subst e1
  have e2 := congrArg (fun x => x.2.user) h2
  exact e2.symm.trans rfl

theorem exPgViews_stores : PgStores exViews exPgViewsCat (exPgViewsDb []) := by
  have hs : exViewsStruct ∈ modelsOf exViews := by simp [exViews, modelsOf, exViewsStruct]
  have hrow : ∀ {f}, f ∈ exViewsStruct.fields → f ∈ rowFields exViewsStruct := fun hf =>
    mem_rowFields.2 ⟨hf, exViews_noMany hf⟩
  have used : ∀ n ∈ ["id", "title", "views"], UsedColumn exViews "Post" n := by
    intro n hn
    simp only [List.mem_cons, List.not_mem_nil, or_false] at hn
    rcases hn with rfl | rfl | rfl
    · exact .field (f := fld "id" (ty1 "AutoPk" (ty0 "i64"))) hs (hrow (by simp [exViewsStruct]))
    · exact .field (f := fld "title" (ty0 "String")) hs (hrow (by simp [exViewsStruct]))
    · exact .field (f := fld "views" (ty0 "i64")) hs (hrow (by simp [exViewsStruct]))
  refine ⟨by decide, ?_, ?_⟩
  · intro n t hl
    have := SMap.mem_of_lookup hl
    simp only [exPgViewsDb, List.mem_singleton, Prod.mk.injEq] at this
    obtain ⟨rfl, rfl⟩ := this
    refine ⟨⟨_, hs, tables_model⟩, _, rfl, ⟨?_, fun fk h => (by cases h), ?_⟩⟩
    · refine .cons ⟨used _ (by decide), by decide, rfl, rfl, rfl, ?_⟩
        (.cons ⟨used _ (by decide), by decide, rfl, rfl, rfl, ?_⟩
        (.cons ⟨used _ (by decide), by decide, rfl, rfl, rfl, ?_⟩ .nil)) <;> simp
    · intro x hx col r k hk
      simp only [List.mem_singleton] at hx
      subst hx
      cases hk
  · intro s hs n hn c hl
    rw [exViews_pgTables hs hn]
    exact ⟨_, rfl⟩

def exPgViewsRow : PgData.PRow := exRowOf [("id", .int8 1), ("title", .text "hello"), ("views", .int8 7)]

theorem exPgViews_save : exViewsModel.pgSave exPgCrateConn (exPgViewsDb []) 1 exViewsPost =
    .ok (exPgViewsDb [exPgViewsRow], exViewsSaved) := by rfl

theorem exPgViews_run : PgRun exPgCrateConn exViewsModel exViewsPk (exPgViewsDb []) (fun _ => none)
    (exPgViewsDb [exPgViewsRow]) (Objects.put (fun _ => none) (.bigInt 1) exViewsSaved) := by
  refine .save .start (o := exViewsPost) (key := 1) ⟨(fun _ h => by cases h), trivial, trivial, trivial⟩
    ⟨(fun _ h => by cases h), trivial, trivial, trivial⟩ ?_ (fun _ h => by cases h) exPgViews_save rfl
  intro ty I hty hI
  cases hty
  cases hI
  decide

/-- A post is saved: the database shows it. -/
example : PgShows exPgCrateConn exViewsModel exViewsPk (exPgViewsDb [exPgViewsRow])
      (Objects.put (fun _ => none) (.bigInt 1) exViewsSaved) ∧
    PgStores exViews exPgViewsCat (exPgViewsDb [exPgViewsRow]) := by
  obtain ⟨s', db', h1, h2, -, -, h3⟩ := exPgViews_objects
  have hdb := exPgViews_first h1 h2
  rw [hdb] at h3
  obtain ⟨g1, -, -, g4⟩ := h3 _ exPgViews_stores (by
    intro n t hl
    have := SMap.mem_of_lookup hl
    simp only [exPgViewsDb, List.mem_singleton, Prod.mk.injEq] at this
    obtain ⟨rfl, rfl⟩ := this
    rfl) exViewsStruct (by simp [exViews, modelsOf, exViewsStruct]) exViewsModel exViewsPk exViews_pgUsable _ _ exPgViews_run
  exact ⟨g1, g4⟩

/-- The posts can be stored and looked up. -/
example : PgReady exPgCrateConn exViewsModel exViewsPk (exPgViewsDb []) ∧
    PgStores exViews exPgViewsCat (exPgViewsDb [exPgViewsRow]) := by
  obtain ⟨s', db', h1, h2, hc, -⟩ := exPgViews_objects
  rw [exPgViews_first h1 h2] at hc
  have hr := (pg_crate_objects_ready (k := exPgCrateConn) (g := exPlainCfg) exResolve_ok exViews_named exViews_typed exViews_pg
    exPgServer_laws hc exPgViews_stores rfl (by simp [exViews, modelsOf, exViewsStruct]) exViews_pgUsable).1
  exact ⟨hr, pg_run_stores hr (pg_empty_table_shows hr (by
    intro t hl
    have := SMap.mem_of_lookup hl
    simp only [exPgViewsDb, List.mem_singleton, Prod.mk.injEq] at this
    obtain ⟨-, rfl⟩ := this
    rfl)) exPgViews_run exPgViews_stores⟩

end Butane.Props
