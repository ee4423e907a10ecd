/-
C82: objects are kept when their model changes.
-/
import Verif.Proofs.ObjKept
import Verif.Props.CrateObj

namespace Butane.Props
open Butane Butane.Spec Butane.Ddl Butane.DdlP Butane.Codegen Butane.Proofs.Codegen Butane.Proofs.CrateDb

variable {p : LitPrinters} {g : Cfg} {items : List Item} {k : SqliteConn}

/-- A database is kept by doing nothing. -/
theorem rowsKept_refl {env : SqliteEnv} {a : ADB} {u : SDb} (codecs : TextCodecs) (h : HasSchema env a u) :
    RowsKept env codecs a a u u := by
  constructor
  · intro n t t' s s' h1 h2 h3 h4
    rw [h1] at h2
    cases h2
    rw [h3] at h4
    cases h4
    have hT : TableIs t s := by
      have := h.tables n
      rw [h1, h3] at this
      exact this
    have hp := h.proper.tables _ _ h3
    have key : ∀ r ∈ s.rows, (∀ c x y st, t.column c = some x → t.column c = some y → StoredAs y st →
        ∃ v w, field s.cols r c = some v ∧ field s.cols r c = some w ∧
          env.coerce st v = some w ∧ (StoredAs x st → w = v)) ∧
      (∀ c y v b, t.column c = none → t.column c = some y → NewValue y v →
        toSqlite codecs v = .ok b → field s.cols r c = some b) := by
      intro r hr
      constructor
      · intro c x y st e1 e2 e3
        rw [e1] at e2
        cases e2
        have hc := hT.columns c
        rw [e1] at hc
        obtain ⟨d, hd, hx⟩ := Both.some_left hc
        obtain ⟨st', q1, q2⟩ := hx.type
        obtain rfl := storedAs_unique q1 e3
        obtain ⟨v, hv, st2, w1, w2⟩ := field_some_of_mem (hp.stored r hr) hp.distinct (List.mem_of_find?_eq_some hd)
        have hdn : d.name = c := by simpa using List.find?_some hd
        rw [hdn] at hv
        have : st2 = st' := by
          rw [q2, strictType_name] at w1
          exact (Option.some.inj w1).symm
        subst this
        exact ⟨v, v, hv, hv, w2, fun _ => rfl⟩
      · intro c y v b e1 e2
        rw [e1] at e2
        cases e2
    revert key
    generalize s.rows = l
    intro key
    induction l with
    | nil => exact .nil
    | cons r l ih => exact .cons (key r (by simp)) (ih fun r hr => key r (by simp [hr]))
  · intro n s' h1 h2
    have := h.tables n
    rw [h1, h2] at this
    exact this.elim

theorem rowsThrough_one {env : SqliteEnv} {codecs : TextCodecs} {a : ADB} {u w : SDb}
    (h : RowsThrough env codecs [a] u w) : w = u := by
  cases h
  rfl

theorem rowsThrough_two {env : SqliteEnv} {codecs : TextCodecs} {a b : ADB} {u w : SDb}
    (h : RowsThrough env codecs [a, b] u w) : ∃ old new, SameSchema old a ∧ SameSchema new b ∧ HasSchema env a u ∧
      RowsKept env codecs old new u w := by
  cases h with
  | step h1 h2 h3 h4 h5 h6 => cases h6; exact ⟨_, _, h1, h2, h3, h5⟩

theorem zero_filled {codecs : TextCodecs} {c : AColumn} (h1 : c.default = none) (h2 : c.nullable = false) :
    ∀ (t : FieldTy) (x : t.Val), c.typeid = some (.ty t.sqltype) → Zero t x → FilledWith codecs c t x
  | .bool, x, h3, h => by
    cases h
    exact ⟨trivial, trivial, _, _, _, .bool h1 h2 h3, rfl, rfl, rfl⟩
  | .i64, x, h3, h => by
    cases h
    exact ⟨trivial, trivial, _, _, _, .bigInt h1 h2 h3, rfl, rfl, rfl⟩
  | .i32, x, h3, h => by
    cases h
    exact ⟨trivial, trivial, _, _, _, .int h1 h2 h3, rfl, rfl, rfl⟩
  | .u32, x, h3, h => by
    cases h
    exact ⟨trivial, trivial, _, _, _, .bigInt h1 h2 h3, rfl, rfl, rfl⟩
  | .u16, x, h3, h => by
    cases h
    exact ⟨trivial, trivial, _, _, _, .int h1 h2 h3, rfl, rfl, rfl⟩
  | .i16, x, h3, h => by
    cases h
    exact ⟨trivial, trivial, _, _, _, .int h1 h2 h3, rfl, rfl, rfl⟩
  | .u8, x, h3, h => by
    cases h
    exact ⟨trivial, trivial, _, _, _, .int h1 h2 h3, rfl, rfl, rfl⟩
  | .i8, x, h3, h => by
    cases h
    exact ⟨trivial, trivial, _, _, _, .int h1 h2 h3, rfl, rfl, rfl⟩
  | .f64, x, h3, h => by
    cases h
    exact ⟨trivial, (rfl : F64.isNaN ⟨0⟩ = false), _, _, _, .real h1 h2 h3, rfl, rfl, rfl⟩
  | .string, x, h3, h => by
    cases h
    exact ⟨trivial, trivial, _, _, _, .text h1 h2 h3, rfl, rfl, rfl⟩
  | .bytes, x, h3, h => by
    cases h
    exact ⟨trivial, trivial, _, _, _, .blob h1 h2 h3, rfl, rfl, rfl⟩
  | .newtype t, x, h3, h => by
    obtain ⟨g1, g2, g3⟩ := zero_filled (codecs := codecs) h1 h2 t x h3 h
    exact ⟨g1, g2, g3⟩

/-- What a new column is filled with is what the field declares. -/
theorem default_filled (hr : ResolverOk g.resolve) (hn : WellNamed items) (ht : Typed g.ft items) {rec new : ADB}
    (h1 : expandAll g ADB.new items = some rec) (h2 : rec.resolveTypes g.ft.json (rounds rec) = .ok new)
    {s : Struct} (hs : s ∈ modelsOf items) {m : TModel} (hm : IsModel g.ft items s m) {n : String} {t : FieldTy}
    (hf : HasField m n t) {x : t.Val} (hx : StructDefault k.codecs s n t x) {T : ATable} {c : AColumn}
    (hT : new.getTable m.table = some T) (hc : T.column n = some c) : FilledWith k.codecs c t x := by
  obtain ⟨db0, h0, hrec⟩ := recorded hr hn ht
  rw [h1] at h0; cases h0
  obtain ⟨T', g1, -, g3⟩ := model_table_partial g hr items hn ht rec new h1 h2 s hs
  rw [hm.table, g1] at hT
  cases hT
  obtain ⟨f0, hf0, rfl, hty⟩ := hf
  obtain ⟨f, hfs, hfn, hfd⟩ := hx
  obtain ⟨f2, hf2, hff⟩ := Proofs.CrateDb.allMatch_right hm.fields hf0
  have hcm : c ∈ T.columns := List.mem_of_find?_eq_some hc
  have hcn : c.name = f0.name := by simpa using List.find?_some hc
  obtain ⟨f3, hf3, hcf⟩ := g3.mem_right hcm
  have hf3s := (mem_rowFields.1 hf3).1
  obtain rfl : f3 = f := eq_of_name (hn.fields s hs) hf3s hfs (by rw [← hcf.name, hcn, hfn])
  obtain rfl : f2 = f3 := eq_of_name (hn.fields s hs) hf2 hf3s (by rw [← hff.name, hfn])
  have hdef := hcf.default
  have hone : ∀ v, DefaultOf f2 v → c.default = v := by
    intro v hv
    have e1 := default_get hv
    rw [default_get hdef] at e1
    exact Option.some.inj e1
  cases hfd with
  | declared d1 d2 d3 d4 d5 d6 => exact ⟨d2, d3, _, _, _, .default (hone _ d1), d5, d4, d6⟩
  | absent d1 d2 d3 =>
    exact ⟨trivial, fun y hy => (by cases hy), _, _, _, .null (hone _ d1) (hcf.nullable.2 ⟨_, _, d2, d3⟩), rfl, rfl, rfl⟩
  | zero d1 d2 d3 =>
    refine zero_filled (hone _ d1) (by
      cases hnl : c.nullable with
      | false => rfl
      | true => exact absurd (hcf.nullable.1 hnl) d2) t x ?_ d3
    obtain ⟨q, ty, e1, e2, e3⟩ := hcf.type
    obtain ⟨q', e4, e5⟩ := hff.type t hty
    rw [e1] at e4
    cases e4
    cases (e3 _).1 (rustType_sql e5)
    revert e2
    simp only [AColumn.typeid]
    cases c.sqltype <;> simp [denotes]

/-- C82: the database is up to date and stores objects of a model; then the code is changed and
compiled, a migration is made (or there is nothing to do) and the database is migrated.  If a model of
the new code has the same table and key, and the same types for the fields it keeps, every object is
still found by its key, with the same values in the fields that were kept, and defaults in the new
ones; and no other object is found. -/
theorem crate_objects_kept_partial (hk : CoversDdl k.kw k.reserved) (hf : TypesFree k.reserved)
    (laws : StrictLaws k.env) (hdata : DataLaws k.env k.data) (hcodecs : Faithful k.codecs)
    (hr : ResolverOk g.resolve) (hn : WellNamed items) (ht : Typed g.ft items)
    (hp : PlainCrate g.ft items) {s s' : FsMigrations} {db db' : MigDb SDb}
    (h : SqliteLife g.ft.json k.env k.kw k.reserved p s db) (hup : UpToDate g.ft.json s db)
    {m : TModel} {pk : TField} (hready : Ready k m pk db.user) {objs : Objects m} (hobjs : ShowsObjs k m pk db.user objs)
    {get : String → Option MigBackend} {spec : Option (Option MigBackend)} {name : String} {b : Bool} (hget : Finds get)
    (hback : ∀ b, get b.name = some b ∨ spec = some (some b) → b.name = "sqlite" → b = sqliteBackend k.kw p)
    (hfresh : s.dirs.lookup name = none) (hcur : name ≠ "current") (hrec : ¬ Spec.Recorded db name)
    (hcomp : Compiled g items s)
    (hadd : ∀ new old, s.getDb g.ft.json "current" = .ok new → LatestSchema g.ft.json s old →
      Addable k.env p old new ∧ Addable k.env p new old)
    (hmake : Cli.makeMigration g.ft.json get spec name s = (.ok b, s')) {c : MigConn SDb}
    (hc : c.exec = sqliteExec k.env k.reserved)
    (hm : (s'.toMigs "sqlite").migrate (Cli.rounds s') c db = (.ok (), db'))
    {st : Struct} (hst : st ∈ modelsOf items) {m' : TModel} {pk' : TField} (hu : UsableModel g.ft items k st m' pk')
    (hext : Extends m m' pk pk')
    (hdef : ∀ n t, HasField m' n t → ¬ HasField m n t → ∃ x, StructDefault k.codecs st n t x) :
    ∃ objs' : Objects m', ShowsObjs k m' pk' db'.user objs' ∧
      ∀ id, KeyLike pk id → Both (BecomesObj m m' (StructDefault k.codecs st)) (objs id) (objs' id) := by
  obtain ⟨rec, new, h1, h2, h3⟩ := current_db hr hn ht hcomp
  have hset := crate_settled hr hn ht h1 h2
  have hsch := crate_sqlite hr hn ht hp h1 h2
  have hs := sqlite_make_migrate_partial hk hf laws k.codecs h hget hback hfresh hcur hrec h3
    hset hsch (fun old ho => hadd _ _ h3 ho) hmake hc hm
  have hct := crate_tables hr hn ht hp h1 h2 hs
  have hready' := crate_ready hr hn ht hp hct (sound_of_schema hs) hdata laws hcodecs hst hu
  have hfill : ∀ n t, HasField m' n t → ¬ HasField m n t → ∃ x, StructDefault k.codecs st n t x ∧
      ∀ T c, new.getTable m'.table = some T → T.column n = some c → FilledWith k.codecs c t x := by
    intro n t q1 q2
    obtain ⟨x, hx⟩ := hdef n t q1 q2
    exact ⟨x, hx, fun T c => default_filled hr hn ht h1 h2 hst hu.isModel q1 hx⟩
  have hcond : ∀ n, s.getDb g.ft.json "current" = .ok n → Settled n ∧ SqliteSchema n ∧
      ∀ old, LatestSchema g.ft.json s old → Addable k.env p old n ∧ Addable k.env p n old := by
    intro n hn
    rw [h3] at hn
    cases hn
    exact ⟨hset, hsch, fun old ho => hadd _ _ h3 ho⟩
  have hlife : SqliteLife g.ft.json k.env k.kw k.reserved p s' db := .make h hget hback hfresh hcur hrec hcond hmake
  obtain ⟨made, j, hi⟩ := life_inv hk hf laws k.codecs h
  have hall := hup made hi.has
  cases b with
  | true =>
    obtain ⟨new', old, backends, g1, g2, -⟩ := cli_make hget (life_reach h) hi.has hfresh hcur
      (fun n hn => (hcond n hn).1) hmake
    rw [h3] at g1
    cases g1
    obtain ⟨a, l, b', e1, e2, e3, -, -, e6, e7, e8⟩ := sqlite_migrate_partial hk hf laws k.codecs hlife g2 (by
      intro e he
      rcases List.mem_append.1 he with he | he
      · exact (hi.schemas e he).valid
      · rw [List.mem_singleton.1 he]
        exact hsch.valid) hc hm
    obtain rfl := e8 rfl
    rw [List.append_nil] at e1
    obtain ⟨rfl, rfl⟩ : a = made ∧ l = [(name, new)] := by
      rcases List.append_eq_append_iff.1 e1 with ⟨x, q1, q2⟩ | ⟨x, q1, q2⟩
      · cases x with
        | nil => exact ⟨by simpa using q1, by simpa using q2.symm⟩
        | cons y x =>
          have := congrArg List.length q2
          simp only [List.length_cons, List.length_append, List.length_nil] at this
          have hx : x = [] := List.eq_nil_of_length_eq_zero (by omega)
          subst hx
          have hy : y = (name, new) := by
            have := (List.cons.inj q2).1
            exact this.symm
          exact absurd (e2 y (by rw [q1]; simp)) (by rw [hy]; exact hrec)
      · cases x with
        | nil => exact ⟨by simpa using q1.symm, by simpa using q2⟩
        | cons y x =>
          exact absurd (hall y (by rw [q1]; simp)) (e3 y (by rw [q2]; simp))
    obtain ⟨_, _, s1, s2, s3, s5⟩ := rowsThrough_two e6
    exact shows_migrated hready hready' hext s3 hs (before_valid hi.schemas).valid hsch.valid s1 s2 s5 hfill hobjs
  | false =>
    obtain ⟨g1, -, -, g4⟩ := cli_make_not (life_reach h) hi.has hmake (fun h => by cases h)
    obtain rfl := g4 rfl
    obtain ⟨a, l, b', e1, e2, e3, -, -, e6, e7, e8⟩ := sqlite_migrate_partial hk hf laws k.codecs hlife hi.has
      (fun e he => (hi.schemas e he).valid) hc hm
    have hl : l = [] := by
      cases l with
      | nil => rfl
      | cons e l => exact absurd (hall e (by rw [e1]; simp)) (e3 e (by simp))
    subst hl
    have hw : db'.user = db.user := rowsThrough_one e6
    rw [hw] at hs hready' ⊢
    refine shows_migrated hready hready' hext hs hs hsch.valid hsch.valid ?_ ?_ (rowsKept_refl k.codecs hs) hfill hobjs
    · exact sameSchema_refl new
    · exact sameSchema_refl new

/-- C82: a model whose table is new has no objects after the migration. -/
theorem crate_objects_new_partial (hk : CoversDdl k.kw k.reserved) (hf : TypesFree k.reserved)
    (laws : StrictLaws k.env) (hdata : DataLaws k.env k.data) (hcodecs : Faithful k.codecs)
    (hr : ResolverOk g.resolve) (hn : WellNamed items) (ht : Typed g.ft items)
    (hp : PlainCrate g.ft items) {s s' : FsMigrations} {db db' : MigDb SDb}
    (h : SqliteLife g.ft.json k.env k.kw k.reserved p s db)
    {get : String → Option MigBackend} {spec : Option (Option MigBackend)} {name : String} {b : Bool} (hget : Finds get)
    (hback : ∀ b, get b.name = some b ∨ spec = some (some b) → b.name = "sqlite" → b = sqliteBackend k.kw p)
    (hfresh : s.dirs.lookup name = none) (hcur : name ≠ "current") (hrec : ¬ Spec.Recorded db name)
    (hcomp : Compiled g items s)
    (hadd : ∀ new old, s.getDb g.ft.json "current" = .ok new → LatestSchema g.ft.json s old →
      Addable k.env p old new ∧ Addable k.env p new old)
    (hmake : Cli.makeMigration g.ft.json get spec name s = (.ok b, s')) {c : MigConn SDb}
    (hc : c.exec = sqliteExec k.env k.reserved)
    (hm : (s'.toMigs "sqlite").migrate (Cli.rounds s') c db = (.ok (), db'))
    {st : Struct} (hst : st ∈ modelsOf items) {m : TModel} {pk : TField} (hu : UsableModel g.ft items k st m pk)
    (hnew : db.user.lookup m.table = none) : ShowsObjs k m pk db'.user (fun _ => none) := by
  obtain ⟨rec, new, h1, h2, h3⟩ := current_db hr hn ht hcomp
  have hset := crate_settled hr hn ht h1 h2
  have hsch := crate_sqlite hr hn ht hp h1 h2
  have hready := (crate_objects_ready_partial hk hf laws hdata hcodecs hr hn ht hp h hget hback hfresh hcur hrec hcomp hadd
    hmake hc hm hst hu).1
  have hcond : ∀ n, s.getDb g.ft.json "current" = .ok n → Settled n ∧ SqliteSchema n ∧
      ∀ old, LatestSchema g.ft.json s old → Addable k.env p old n ∧ Addable k.env p n old := by
    intro n hn
    rw [h3] at hn
    cases hn
    exact ⟨hset, hsch, fun old ho => hadd _ _ h3 ho⟩
  have hlife : SqliteLife g.ft.json k.env k.kw k.reserved p s' db := .make h hget hback hfresh hcur hrec hcond hmake
  obtain ⟨made, j, hi⟩ := life_inv hk hf laws k.codecs hlife
  obtain ⟨a, l, b', -, -, -, -, -, e6, -, -⟩ := sqlite_migrate_partial hk hf laws k.codecs hlife hi.has
    (fun e he => (hi.schemas e he).valid) hc hm
  exact empty_table_shows hready (rowsThrough_empty e6 fun t ht => by rw [hnew] at ht; cases ht)

/-- After the first migration there are no posts. -/
example : ∃ (s' : FsMigrations) (db' : MigDb SDb),
    (s'.toMigs "sqlite").migrate (Cli.rounds s') exViewsConn.reliable ⟨[], none⟩ = (.ok (), db') ∧
    ShowsObjs exCrateConn exViewsModel exViewsPk db'.user (fun _ => none) := by
  obtain ⟨s', db', h1, h2, -⟩ := exViews_objects
  refine ⟨s', db', h2, ?_⟩
  refine crate_objects_new_partial (p := exPrinters) (k := exCrateConn) (g := exPlainCfg) exWords_ddl exDdl_free exRowStore_laws
    exRowData_laws ⟨fun _ => rfl, exParse_print, exParse_print⟩ exResolve_ok exViews_named exViews_typed exViews_plain
    (s := exViewsNew) (db := ⟨[], none⟩) (.build .empty rfl exViewsNew_dirs) exWordsGet_name ?_
    (exViewsNew_dirs "m1" (by decide)) (by decide) ?_ ⟨rfl, _, rfl, rfl, rfl⟩ ?_ h1 (c := exViewsConn.reliable) rfl h2
    (st := exViewsStruct) (by simp [exViews, modelsOf, exViewsStruct]) exViews_usable rfl
  · rintro b (hb | hb) -
    · exact exWordsGet_back b hb
    · cases hb
      rfl
  · rintro ⟨_, h, -⟩
    cases h
  · intro new old _ ho
    cases (show old = ADB.new from ho)
    constructor
    · intro n a b c y hl; cases hl
    · intro n a b c y _ hl; cases hl

/-! ### A model that changes -/

/-- Posts get stars and a note, and no more views. -/
def exStarsStruct : Struct :=
  ⟨ident "Post", [], [fld "id" (ty1 "AutoPk" (ty0 "i64")), fld "title" (ty0 "String"),
    fld "stars" (ty0 "i64") [.default (some (.int (some 5)))], fld "note" (ty1 "Option" (ty0 "String")),
    fld "likes" (ty0 "i64")]⟩
def exStars : List Item := [.model exStarsStruct]
def exStarsModel : TModel :=
  ⟨"Post", [⟨"id", false, some (.autoPk .i64)⟩, ⟨"title", false, some .string⟩, ⟨"stars", false, some .i64⟩,
    ⟨"note", false, some (.option .string)⟩, ⟨"likes", false, some .i64⟩]⟩

theorem exStars_only : OnlyModels exStars := by
  intro i hi
  rw [List.mem_singleton.1 hi]
  exact .inl ⟨_, rfl⟩

theorem exStars_model {s : Struct} (h : s ∈ modelsOf exStars) : s = exStarsStruct := by
  simpa [exStars, modelsOf] using h

theorem exStars_fields {f : Codegen.Field} (hf : f ∈ exStarsStruct.fields) :
    f = fld "id" (ty1 "AutoPk" (ty0 "i64")) ∨ f = fld "title" (ty0 "String") ∨
    f = fld "stars" (ty0 "i64") [.default (some (.int (some 5)))] ∨ f = fld "note" (ty1 "Option" (ty0 "String")) ∨
    f = fld "likes" (ty0 "i64") := by
  simpa [exStarsStruct] using hf

theorem exStars_named : WellNamed exStars := by
  refine ⟨by decide, ?_, ?_, by decide, by decide, ?_, by decide, by decide⟩
  · rw [show tablesOf = _ from funext tablesOf_eq]; decide
  · intro s hs s' hs' _
    rw [exStars_model hs, exStars_model hs']
  · intro n sh h
    simp [exStars] at h

theorem exStars_default {f : Codegen.Field} (hf : f ∈ exStarsStruct.fields) :
    DefaultOf f (if f.ident.name = "stars" then some (.int 5) else none) := by
  rcases exStars_fields hf with rfl | rfl | rfl | rfl | rfl
  · exact .none fun l hl => by cases hl
  · exact .none fun l hl => by cases hl
  · exact .some (a := []) (b := []) rfl (fun _ h => by cases h) rfl
  · exact .none fun l hl => by cases hl
  · exact .none fun l hl => by cases hl

theorem exStars_types {f : Codegen.Field} (h : f ∈ exStarsStruct.fields) :
    ∃ p ty st, f.ty = some p ∧ HasSqlType exPlainCfg.ft exStars p (.ty ty) ∧ sqliteType ty = some st := by
  rcases exStars_fields h with rfl | rfl | rfl | rfl | rfl
  · exact ⟨_, .bigInt, _, rfl, .autoPk (spelled _ (by decide)) (.builtin (exBuiltin (by decide) _)), rfl⟩
  · exact ⟨_, .text, _, rfl, .builtin (exString _), rfl⟩
  · exact ⟨_, .bigInt, _, rfl, .builtin (exBuiltin (by decide) _), rfl⟩
  · exact ⟨_, .text, _, rfl, .option (spelled _ (by decide)) (.builtin (exString _)), rfl⟩
  · exact ⟨_, .bigInt, _, rfl, .builtin (exBuiltin (by decide) _), rfl⟩

theorem exStars_typed : Typed exPlainCfg.ft exStars := by
  refine ⟨?_, ?_, ?_, ?_⟩
  · intro s hs
    rw [exStars_model hs]
    refine ⟨_, isKey_iff.2 rfl, fun q hq => ?_⟩
    have := (manySpelled_iff _).1 ⟨q, hq⟩
    revert this
    decide
  · intro s hs f hf
    rw [exStars_model hs] at hf
    obtain ⟨p, ty, st, h1, h2, -⟩ := exStars_types hf
    exact .inr ⟨p, _, h1, h2, _, exStars_default hf⟩
  · intro n p h
    simp [exStars] at h
  · intro n sh h
    simp [exStars] at h

theorem exStars_plain : PlainCrate exPlainCfg.ft exStars := by
  refine ⟨?_, ?_, ?_, ?_⟩
  · intro s hs
    rw [exStars_model hs]
    exact ⟨⟨'P', ['o', 's', 't'], rfl, by decide, by decide⟩, by decide, ne_replacement (by decide)⟩
  · intro s hs f hf
    rw [exStars_model hs] at hf
    rcases exStars_fields hf with rfl | rfl | rfl | rfl | rfl <;> exact ⟨_, _, rfl, by decide, by decide⟩
  · intro s hs f hf p ty hp _
    rw [exStars_model hs] at hf
    obtain ⟨p', ty', st, h1, h2, h3⟩ := exStars_types (mem_rowFields.1 hf).1
    rw [hp] at h1
    cases h1
    exact ⟨st, ty', h2, h3⟩
  · intro s hs f hf p q hp hw
    rw [exStars_model hs] at hf ⊢
    rcases exStars_fields hf with rfl | rfl | rfl | rfl | rfl <;> cases hp
    · exact isKey_iff.2 rfl
    · obtain ⟨_, _, e, -⟩ := hw; cases e
    · obtain ⟨_, _, e, -⟩ := hw; cases e
    · exact absurd (applied_arg (spelled (n := "Option") (ty0 "String") (by decide)) hw).1 (by decide)
    · obtain ⟨_, _, e, -⟩ := hw; cases e

theorem exStars_noMany {f : Codegen.Field} (hf : f ∈ exStarsStruct.fields) : ¬ ∃ q, IsMany f q := by
  rw [manySpelled_iff]
  rcases exStars_fields hf with rfl | rfl | rfl | rfl | rfl <;> decide

theorem exStars_isField {f : Codegen.Field} {f' : TField} {ty : FieldTy} {p : Path} (hf : f ∈ exStarsStruct.fields)
    (h1 : f'.name = f.ident.name) (h2 : f'.pkAttr = false) (h3 : .pk ∉ f.attrs) (h4 : f'.ty = some ty)
    (h5 : f.ty = some p) (h6 : RustType exPlainCfg.ft exStars p ty) : IsField exPlainCfg.ft exStars f f' where
  name := h1
  pkAttr := by rw [h2]; simp [h3]
  many := ⟨(fun h => by rw [h4] at h; cases h), fun h => absurd h (exStars_noMany hf)⟩
  type := by
    intro ty' h
    rw [h4] at h
    cases h
    exact ⟨p, h5, h6⟩

theorem rust_note {ty : FieldTy} (h : RustType exPlainCfg.ft exStars (ty1 "Option" (ty0 "String")) ty) :
    ty = .option .string := by
  have hw := spelled (n := "Option") (ty0 "String") (by decide)
  generalize e : ty1 "Option" (ty0 "String") = q at h
  cases h with
  | simple h => cases e
  | string h => subst e; exact absurd h (by decide)
  | bytes h => subst e; exact absurd h (by decide)
  | uuid h => subst e; exact absurd h (by decide)
  | value _ h => subst e; exact absurd h (by decide)
  | date h => subst e; exact absurd h (by decide)
  | naive h => subst e; exact absurd h (by decide)
  | utc h => subst e; exact absurd h (by decide)
  | map _ h => subst e; cases h
  | option h h' =>
    subst e
    obtain ⟨-, rfl⟩ := applied_arg hw h
    rw [rust_string exStars_only h']
  | autoPk h => subst e; exact absurd (applied_arg hw h).1 (by decide)
  | foreignKey h => subst e; exact absurd (applied_arg hw h).1 (by decide)
  | alias h => rcases exStars_only _ h with ⟨_, e⟩ | e <;> cases e
  | newtype h => rcases exStars_only _ h with ⟨_, e⟩ | e <;> cases e
  | enum _ h => cases e
  | derived _ h => rcases exStars_only _ h with ⟨_, e⟩ | e <;> cases e

theorem exStars_usable : UsableModel exPlainCfg.ft exStars exCrateConn exStarsStruct exStarsModel exViewsPk where
  isModel := ⟨rfl, .cons (exStars_isField (by simp [exStarsStruct]) rfl rfl (by decide) rfl rfl
      (.autoPk (spelled _ (by decide)) (.simple (by simp [ident]))))
    (.cons (exStars_isField (by simp [exStarsStruct]) rfl rfl (by decide) rfl rfl (.string rfl (exString _)))
    (.cons (exStars_isField (by simp [exStarsStruct]) rfl rfl (by decide) rfl rfl (.simple (by simp [ident])))
    (.cons (exStars_isField (by simp [exStarsStruct]) rfl rfl (by decide) rfl rfl
      (.option (spelled _ (by decide)) (.string rfl (exString _))))
    (.cons (exStars_isField (by simp [exStarsStruct]) rfl rfl (by decide) rfl rfl (.simple (by simp [ident]))) .nil))))⟩
  option := by
    intro f hf p ty hp h habs
    rcases exStars_fields hf with rfl | rfl | rfl | rfl | rfl <;> cases hp
    · rw [rust_auto exStars_only h] at habs; exact habs.elim
    · rw [rust_string exStars_only h] at habs; exact habs.elim
    · rw [rust_i64 exStars_only h] at habs; exact habs.elim
    · exact ⟨_, spelled _ (by decide)⟩
    · rw [rust_i64 exStars_only h] at habs; exact habs.elim
  auto := by
    intro f hf p ty hp h
    rcases exStars_fields hf with rfl | rfl | rfl | rfl | rfl <;> cases hp
    · exact ⟨_, spelled _ (by decide)⟩
    · cases rust_string exStars_only h
    · cases rust_i64 exStars_only h
    · cases rust_note h
    · cases rust_i64 exStars_only h
  noRaw := by
    intro f hf h
    rcases exStars_fields hf with rfl | rfl | rfl | rfl | rfl
    · rfl
    · exact absurd h (by decide)
    · exact absurd h (by decide)
    · exact absurd h (by decide)
    · exact absurd h (by decide)
  covers := exWords_sql
  excluded := rfl
  table := by decide
  key := rfl
  plain := ⟨nameOf rfl (by decide) (by decide), by decide, rfl⟩
  keyType := by
    intro ty h
    cases h
    exact ⟨by decide, id⟩
  autoInt := by
    intro ty h
    cases h
    exact ⟨_, .i64⟩

/-- The first migration, for `exViews`. -/
def exViewsM1 : String × FsDir :=
  ("m1", ⟨some ⟨none, [], ["sqlite"]⟩, [("Post", exPostViews)], none,
    [("sqlite_down", "DROP TABLE Post;\n"),
     ("sqlite_up", "CREATE TABLE Post (\nid INTEGER NOT NULL PRIMARY KEY,\ntitle TEXT NOT NULL,\nviews INTEGER NOT NULL\n) STRICT;\nCREATE TABLE IF NOT EXISTS butane_migrations (\nname TEXT NOT NULL PRIMARY KEY\n) STRICT;\n")]⟩)
/-- The project after it. -/
def exViewsMade1 : FsMigrations := ⟨[("current", ⟨none, [("Post", exPostViews)], some [], []⟩), exViewsM1], some "m1"⟩
/-- The database after it, with a post. -/
def exViewsRows : MigDb SDb := ⟨exViewsDb [[.integer 1, .text "hello", .integer 7]], some ["m1"]⟩
/-- The new table. -/
def exPostStars : ATable :=
  ⟨"Post", [⟨"id", .knownId (.ty .bigInt), false, true, true, false, none, none⟩,
    ⟨"title", .knownId (.ty .text), false, false, false, false, none, none⟩,
    ⟨"stars", .knownId (.ty .bigInt), false, false, false, false, some (.int 5), none⟩,
    ⟨"note", .knownId (.ty .text), true, false, false, false, none, none⟩,
    ⟨"likes", .knownId (.ty .bigInt), false, false, false, false, none, none⟩]⟩

/-- Then the code is changed. -/
def exStarsStore : FsMigrations := ⟨[("current", ⟨none, [("Post", exPostStars)], some [], []⟩), exViewsM1], some "m1"⟩

set_option maxRecDepth 20000 in
theorem exViews_make1 : Cli.makeMigration false exWordsGet (some (some (sqliteBackend exWords exPrinters))) "m1" exViewsNew =
    (.ok true, exViewsMade1) := rfl
set_option maxRecDepth 20000 in
theorem exStars_compiled : Compiled exPlainCfg exStars exStarsStore := ⟨rfl, _, rfl, rfl, rfl⟩

set_option maxRecDepth 20000 in
theorem exStars_current : exStarsStore.getDb false "current" = .ok (exSqDb exPostStars) := by rfl

set_option maxRecDepth 20000 in
theorem exStars_old {old : ADB} (h : LatestSchema false exStarsStore old) : old = exSqDb exPostViews := by
  have : (Except.ok (exSqDb exPostViews) : Except MErr ADB) = .ok old := h
  cases this
  rfl

set_option maxRecDepth 20000 in
theorem exStars_makes : ∃ s', Cli.makeMigration false exWordsGet none "m2" exStarsStore = (.ok true, s') := by
  have : (Cli.makeMigration false exWordsGet none "m2" exStarsStore).1 = .ok true := rfl
  exact ⟨_, Prod.ext this rfl⟩

/-- The database after the second migration. -/
def exStarsDb : SDb :=
  [("Post", ⟨[⟨"id", ["INTEGER"], [.notNull, .primaryKey]⟩, ⟨"title", ["TEXT"], [.notNull]⟩,
    ⟨"likes", ["INTEGER"], [.notNull, .default (.num false ['0'])]⟩,
    ⟨"note", ["TEXT"], [.default .null]⟩,
    ⟨"stars", ["INTEGER"], [.notNull, .default (.num false ['5'])]⟩], [],
    [[.integer 1, .text "hello", .integer 0, .null, .integer 5]]⟩)]

set_option maxRecDepth 20000 in
theorem exStars_migrates {s' : FsMigrations} (h : Cli.makeMigration false exWordsGet none "m2" exStarsStore = (.ok true, s')) :
    (s'.toMigs "sqlite").migrate (Cli.rounds s') exViewsConn exViewsRows = (.ok (), ⟨exStarsDb, some ["m1", "m2"]⟩) := by
  have e : (Cli.makeMigration false exWordsGet none "m2" exStarsStore).2 = s' := by rw [h]
  subst e
  rfl

theorem exViews_shown : ShowsObjs exCrateConn exViewsModel exViewsPk exViewsRows.user
      (Objects.put (fun _ => none) (.bigInt 1) exViewsSaved) ∧
    Ready exCrateConn exViewsModel exViewsPk exViewsRows.user ∧
    SqliteLife false exRowStore exWords exDdlRes exPrinters exViewsMade1 exViewsRows := by
  obtain ⟨s', db', h1, h2, h3⟩ := exViews_objects
  have hdb := exViews_first h1 h2
  have hlog := exViews_log h1 h2
  cases exViews_make1.symm.trans h1
  have hrun := exViews_run
  rw [← hdb] at hrun
  obtain ⟨g1, -, -, g4⟩ := h3 exViewsStruct (by simp [exViews, modelsOf, exViewsStruct]) exViewsModel exViewsPk exViews_usable
    _ _ hrun
  obtain ⟨q1, -, -, -⟩ := h3 exViewsStruct (by simp [exViews, modelsOf, exViewsStruct]) exViewsModel exViewsPk exViews_usable
    _ _ .start
  rw [hlog] at g4
  exact ⟨g1, (objects_run_partial (exViews_ready h1 h2).1 q1 hrun).1, g4⟩

theorem exStars_has {n : String} {t : FieldTy} (h : HasField exStarsModel n t) (h' : ¬ HasField exViewsModel n t) :
    n = "stars" ∧ t = .i64 ∨ n = "note" ∧ t = .option .string ∨ n = "likes" ∧ t = .i64 := by
  obtain ⟨f, hf, rfl, ht⟩ := h
  simp only [exStarsModel, List.mem_cons, List.not_mem_nil, or_false] at hf
  rcases hf with rfl | rfl | rfl | rfl | rfl <;> cases ht
  · exact absurd ⟨_, List.mem_cons_self .., rfl, rfl⟩ h'
  · exact absurd ⟨_, List.mem_cons_of_mem _ (List.mem_cons_self ..), rfl, rfl⟩ h'
  · exact .inl ⟨rfl, rfl⟩
  · exact .inr (.inl ⟨rfl, rfl⟩)
  · exact .inr (.inr ⟨rfl, rfl⟩)

theorem exViews_noField {f : TField} (hf : f ∈ exViewsModel.fields) (hn : f.name ∉ ["id", "title", "views"]) : False := by
  simp only [exViewsModel, List.mem_cons, List.not_mem_nil, or_false] at hf
  rcases hf with rfl | rfl | rfl <;> exact hn (by decide)

theorem exStars_extends : Extends exViewsModel exStarsModel exViewsPk exViewsPk where
  table := rfl
  key := rfl
  keyType := rfl
  fields := by
    rintro n t t' ⟨f, hf, rfl, ht⟩ ⟨f', hf', e, ht'⟩
    simp only [exViewsModel, List.mem_cons, List.not_mem_nil, or_false] at hf
    simp only [exStarsModel, List.mem_cons, List.not_mem_nil, or_false] at hf'
    rcases hf with rfl | rfl | rfl <;> rcases hf' with rfl | rfl | rfl | rfl | rfl <;>
      first | exact absurd e (by decide) | (cases ht; cases ht'; rfl)

theorem exStars_new {n : String} {t : FieldTy} (h : HasField exStarsModel n t) (h' : ¬ HasField exViewsModel n t) :
    ∃ x, StructDefault exCodecs exStarsStruct n t x := by
  rcases exStars_has h h' with ⟨rfl, rfl⟩ | ⟨rfl, rfl⟩ | ⟨rfl, rfl⟩
  · exact ⟨(5 : Int64), _, List.mem_cons_of_mem _ (List.mem_cons_of_mem _ (List.mem_cons_self ..)), rfl,
      .declared (exStars_default (by simp [exStarsStruct])) trivial trivial rfl rfl rfl⟩
  · exact ⟨none, _, List.mem_cons_of_mem _ (List.mem_cons_of_mem _ (List.mem_cons_of_mem _ (List.mem_cons_self ..))), rfl,
      .absent (exStars_default (by simp [exStarsStruct])) rfl (spelled _ (by decide))⟩
  · refine ⟨(0 : Int64), _, List.mem_cons_of_mem _ (List.mem_cons_of_mem _ (List.mem_cons_of_mem _
      (List.mem_cons_of_mem _ (List.mem_cons_self ..)))), rfl,
      .zero (exStars_default (by simp [exStarsStruct])) ?_ rfl⟩
    rintro ⟨_, _, e, _, _, e', -⟩
    cases e
    cases e'

theorem exStars_field {f : Codegen.Field} (hf : f ∈ exStarsStruct.fields) {v : Option SqlVal} (h : DefaultOf f v) :
    v = if f.ident.name = "stars" then some (.int 5) else none := by
  have := default_get h
  rw [default_get (exStars_default hf)] at this
  exact (Option.some.inj this).symm

theorem exStars_five {x : Int64} (h : StructDefault exCodecs exStarsStruct "stars" .i64 x) : x = 5 := by
  obtain ⟨f, hf, hn, hd⟩ := h
  cases hd with
  | declared d1 d2 d3 d4 d5 d6 =>
    have := exStars_field hf d1
    rw [if_pos hn] at this
    cases this
    cases d4
    cases d5
    have := Conv.ok.inj d6
    exact SqliteVal.integer.inj this
  | zero d1 =>
    have := exStars_field hf d1
    rw [if_pos hn] at this
    cases this

theorem exStars_noNote {x : Option String} (h : StructDefault exCodecs exStarsStruct "note" (.option .string) x) :
    x = none := by
  obtain ⟨f, hf, hn, hd⟩ := h
  cases hd with
  | declared d1 =>
    have := exStars_field hf d1
    rw [hn] at this
    cases this
  | absent => rfl
  | zero _ _ d => exact d.elim

theorem exStars_upToDate (h : SqliteLife false exRowStore exWords exDdlRes exPrinters exStarsStore exViewsRows) :
    UpToDate false exStarsStore exViewsRows := by
  intro made hm e he
  obtain ⟨made', k, hi⟩ := life_inv exWords_ddl exDdl_free exRowStore_laws exCodecs h
  have h1 := (hi.fs.of_chain hm).all
  have h2 : (Cli.chain exStarsStore).allMigrations (Cli.rounds exStarsStore) = Except.ok ["m1"] := rfl
  rw [h2] at h1
  have := Except.ok.inj h1
  have hm1 : e.1 ∈ ["m1"] := by rw [this]; exact List.mem_map_of_mem he
  rw [List.mem_singleton.1 hm1]
  exact ⟨["m1"], rfl, by simp⟩

theorem exStars_addable : Addable exRowStore exPrinters (exSqDb exPostViews) (exSqDb exPostStars) ∧
    Addable exRowStore exPrinters (exSqDb exPostStars) (exSqDb exPostViews) := by
  constructor
  · intro n s u c y hs hu hc hy
    obtain ⟨-, rfl⟩ := exPost_table rfl hs
    obtain ⟨-, rfl⟩ := exPost_table rfl hu
    obtain ⟨hm, rfl⟩ := colByName_some hy
    simp only [exPostStars, List.mem_cons, List.not_mem_nil, or_false] at hm
    rcases hm with rfl | rfl | rfl | rfl | rfl
    · cases hc
    · cases hc
    all_goals
      refine ⟨rfl, fun v st hv hst => ?_⟩
      have hv := (newValue_iff ⟨st, hst⟩).1 hv
      obtain ⟨ty, h1, h2⟩ := hst
      cases h1
      cases h2
    · cases hv; first | rfl | trivial
    · cases hv; first | rfl | trivial
    · cases hv; first | rfl | trivial
  · intro n s u c y hs hu hc hy
    obtain ⟨-, rfl⟩ := exPost_table rfl hs
    obtain ⟨-, rfl⟩ := exPost_table rfl hu
    obtain ⟨hm, rfl⟩ := colByName_some hy
    simp only [exPostViews, List.mem_cons, List.not_mem_nil, or_false] at hm
    rcases hm with rfl | rfl | rfl
    · cases hc
    · cases hc
    · refine ⟨rfl, fun v st hv hst => ?_⟩
      have hv := (newValue_iff ⟨st, hst⟩).1 hv
      obtain ⟨ty, h1, h2⟩ := hst
      cases h1
      cases h2
      cases hv; first | rfl | trivial

/-- The post is kept, with five stars. -/
example : ∃ s' db' objs', Cli.makeMigration false exWordsGet none "m2" exStarsStore = (.ok true, s') ∧
    (s'.toMigs "sqlite").migrate (Cli.rounds s') exViewsConn exViewsRows = (.ok (), db') ∧
    ShowsObjs exCrateConn exStarsModel exViewsPk db'.user objs' ∧ ∃ o, objs' (.bigInt 1) = some o ∧
      valueOf "title" _ o = some ⟨.string, "hello"⟩ ∧ valueOf "stars" _ o = some ⟨.i64, (5 : Int64)⟩ ∧
      valueOf "note" _ o = some ⟨.option .string, none⟩ := by
  obtain ⟨s', h1⟩ := exStars_makes
  have h2 := exStars_migrates h1
  obtain ⟨v1, v2, v3⟩ := exViews_shown
  have hlife : SqliteLife false exRowStore exWords exDdlRes exPrinters exStarsStore exViewsRows := by
    refine .build v3 rfl fun n hn => ?_
    change (exViewsMade1.write "current" fun _ => ⟨none, [("Post", exPostStars)], some [], []⟩).dirs.lookup n = _
    rw [FsMigrations.lookup_write, if_neg hn]
  have hback : ∀ b, exWordsGet b.name = some b ∨ (none : Option (Option MigBackend)) = some (some b) → b.name = "sqlite" →
      b = sqliteBackend exWords exPrinters := by
    rintro b (hb | hb) -
    · exact exWordsGet_back b hb
    · cases hb
  have hrec : ¬ Spec.Recorded exViewsRows "m2" := by
    rintro ⟨names, hn, hm⟩
    cases hn
    simp at hm
  obtain ⟨objs', g1, g2⟩ := crate_objects_kept_partial (p := exPrinters) (k := exCrateConn) (g := exPlainCfg) exWords_ddl
    exDdl_free exRowStore_laws exRowData_laws ⟨fun _ => rfl, exParse_print, exParse_print⟩ exResolve_ok exStars_named
    exStars_typed exStars_plain (s := exStarsStore) (db := exViewsRows) hlife (exStars_upToDate hlife) v2 v1
    exWordsGet_name hback rfl (by decide) hrec exStars_compiled
    (fun new old hnew ho => by
      cases exStars_current.symm.trans hnew
      cases exStars_old ho
      exact exStars_addable) h1 (c := exViewsConn) rfl h2
    (st := exStarsStruct) (by simp [exStars, modelsOf]) exStars_usable exStars_extends (fun n t => exStars_new)
  · have := g2 (.bigInt 1) (fun ty h => by cases h; rfl)
    obtain ⟨o, ho, hb⟩ : ∃ o, objs' (.bigInt 1) = some o ∧ BecomesObj exViewsModel exStarsModel
        (StructDefault exCodecs exStarsStruct) exViewsSaved o := by
      cases ho : objs' (.bigInt 1) with
      | none => rw [ho] at this; exact this.elim
      | some o => rw [ho] at this; exact ⟨o, rfl, this⟩
    refine ⟨s', _, objs', h1, h2, g1, o, ho, ?_, ?_, ?_⟩
    · obtain ⟨y, q1, q2⟩ := hb.kept "title" .string "hello" rfl ⟨_, List.mem_cons_of_mem _ (List.mem_cons_self ..), rfl, rfl⟩
      rw [q1, (q2 : "hello" = y)]
    · obtain ⟨y, x, q1, q2, q3⟩ := hb.added "stars" .i64 ⟨_, List.mem_cons_of_mem _ (List.mem_cons_of_mem _
        (List.mem_cons_self ..)), rfl, rfl⟩ (by rintro ⟨f, hf, hn, -⟩; exact exViews_noField hf (by rw [hn]; decide))
      rw [q1, ← (q3 : x = y), exStars_five q2]
    · obtain ⟨y, x, q1, q2, q3⟩ := hb.added "note" (.option .string) ⟨_, List.mem_cons_of_mem _ (List.mem_cons_of_mem _
        (List.mem_cons_of_mem _ (List.mem_cons_self ..))), rfl, rfl⟩
        (by rintro ⟨f, hf, hn, -⟩; exact exViews_noField hf (by rw [hn]; decide))
      rw [exStars_noNote q2] at q3
      cases y with
      | none => rw [q1]
      | some y => exact q3.elim

/-! ### A field whose default is no value of its type -/

/-- Posts get a kind. -/
def exKindsStruct : Struct :=
  ⟨ident "Post", [], [fld "id" (ty1 "AutoPk" (ty0 "i64")), fld "title" (ty0 "String"), fld "views" (ty0 "i64"),
    fld "kind" (ty0 "Kind")]⟩
def exKinds : List Item := [.derived (ident "Kind") .simpleEnum, .model exKindsStruct]
def exKindsModel : TModel :=
  ⟨"Post", [⟨"id", false, some (.autoPk .i64)⟩, ⟨"title", false, some .string⟩, ⟨"views", false, some .i64⟩,
    ⟨"kind", false, some (.enum_ ["Draft", "Public"])⟩]⟩

theorem exKinds_only : OnlyModels exKinds := by
  intro i hi
  simp only [exKinds, List.mem_cons, List.not_mem_nil, or_false] at hi
  rcases hi with rfl | rfl
  · exact .inr rfl
  · exact .inl ⟨_, rfl⟩

theorem exKinds_model {s : Struct} (h : s ∈ modelsOf exKinds) : s = exKindsStruct := by
  simpa [exKinds, modelsOf] using h

theorem exKinds_fields {f : Codegen.Field} (hf : f ∈ exKindsStruct.fields) :
    f = fld "id" (ty1 "AutoPk" (ty0 "i64")) ∨ f = fld "title" (ty0 "String") ∨ f = fld "views" (ty0 "i64") ∨
    f = fld "kind" (ty0 "Kind") := by
  simpa [exKindsStruct] using hf

theorem exKinds_named : WellNamed exKinds := by
  refine ⟨by decide, ?_, ?_, by decide, by decide, ?_, by decide, by decide⟩
  · rw [show tablesOf = _ from funext tablesOf_eq]; decide
  · intro s hs s' hs' _
    rw [exKinds_model hs, exKinds_model hs']
  · intro n sh h
    simp [exKinds] at h
    rw [h.1]
    decide

theorem exKinds_types {f : Codegen.Field} (h : f ∈ exKindsStruct.fields) :
    ∃ p ty st, f.ty = some p ∧ HasSqlType exPlainCfg.ft exKinds p (.ty ty) ∧ sqliteType ty = some st := by
  rcases exKinds_fields h with rfl | rfl | rfl | rfl
  · exact ⟨_, .bigInt, _, rfl, .autoPk (spelled _ (by decide)) (.builtin (exBuiltin (by decide) _)), rfl⟩
  · exact ⟨_, .text, _, rfl, .builtin (exString _), rfl⟩
  · exact ⟨_, .bigInt, _, rfl, .builtin (exBuiltin (by decide) _), rfl⟩
  · exact ⟨_, .text, _, rfl, .enum (n := ident "Kind") (by simp [exKinds]) rfl, rfl⟩

theorem exKinds_typed : Typed exPlainCfg.ft exKinds := by
  refine ⟨?_, ?_, ?_, ?_⟩
  · intro s hs
    rw [exKinds_model hs]
    refine ⟨_, isKey_iff.2 rfl, fun q hq => ?_⟩
    have := (manySpelled_iff _).1 ⟨q, hq⟩
    revert this
    decide
  · intro s hs f hf
    rw [exKinds_model hs] at hf
    obtain ⟨p, ty, st, h1, h2, -⟩ := exKinds_types hf
    refine .inr ⟨p, _, h1, h2, none, .none fun l hl => ?_⟩
    rcases exKinds_fields hf with rfl | rfl | rfl | rfl <;> cases hl
  · intro n p h
    simp [exKinds] at h
  · intro n sh h
    simp [exKinds] at h
    exact .inr (.inl h.2)

theorem exKinds_plain : PlainCrate exPlainCfg.ft exKinds := by
  refine ⟨?_, ?_, ?_, ?_⟩
  · intro s hs
    rw [exKinds_model hs]
    exact ⟨⟨'P', ['o', 's', 't'], rfl, by decide, by decide⟩, by decide, ne_replacement (by decide)⟩
  · intro s hs f hf
    rw [exKinds_model hs] at hf
    rcases exKinds_fields hf with rfl | rfl | rfl | rfl <;> exact ⟨_, _, rfl, by decide, by decide⟩
  · intro s hs f hf p ty hp _
    rw [exKinds_model hs] at hf
    obtain ⟨p', ty', st, h1, h2, h3⟩ := exKinds_types (mem_rowFields.1 hf).1
    rw [hp] at h1
    cases h1
    exact ⟨st, ty', h2, h3⟩
  · intro s hs f hf p q hp hw
    rw [exKinds_model hs] at hf ⊢
    rcases exKinds_fields hf with rfl | rfl | rfl | rfl <;> cases hp
    · exact isKey_iff.2 rfl
    · obtain ⟨_, _, e, -⟩ := hw; cases e
    · obtain ⟨_, _, e, -⟩ := hw; cases e
    · obtain ⟨_, _, e, -⟩ := hw; cases e

theorem exKinds_noMany {f : Codegen.Field} (hf : f ∈ exKindsStruct.fields) : ¬ ∃ q, IsMany f q := by
  rw [manySpelled_iff]
  rcases exKinds_fields hf with rfl | rfl | rfl | rfl <;> decide

theorem exKinds_isField {f : Codegen.Field} {f' : TField} {ty : FieldTy} {p : Path} (hf : f ∈ exKindsStruct.fields)
    (h1 : f'.name = f.ident.name) (h2 : f'.pkAttr = false) (h3 : .pk ∉ f.attrs) (h4 : f'.ty = some ty)
    (h5 : f.ty = some p) (h6 : RustType exPlainCfg.ft exKinds p ty) : IsField exPlainCfg.ft exKinds f f' where
  name := h1
  pkAttr := by rw [h2]; simp [h3]
  many := ⟨(fun h => by rw [h4] at h; cases h), fun h => absurd h (exKinds_noMany hf)⟩
  type := by
    intro ty' h
    rw [h4] at h
    cases h
    exact ⟨p, h5, h6⟩

theorem rust_kind {ty : FieldTy} (h : RustType exPlainCfg.ft exKinds (ty0 "Kind") ty) : ∃ vs, ty = .enum_ vs := by
  generalize e : ty0 "Kind" = q at h
  cases h with
  | simple h => cases e; simp [ident] at h
  | string h => subst e; exact absurd h (by decide)
  | bytes h => subst e; exact absurd h (by decide)
  | uuid h => subst e; exact absurd h (by decide)
  | value _ h => subst e; exact absurd h (by decide)
  | date h => subst e; exact absurd h (by decide)
  | naive h => subst e; exact absurd h (by decide)
  | utc h => subst e; exact absurd h (by decide)
  | map _ h => subst e; cases h
  | option h => subst e; obtain ⟨_, _, h, -⟩ := h; cases h
  | autoPk h => subst e; obtain ⟨_, _, h, -⟩ := h; cases h
  | foreignKey h => subst e; obtain ⟨_, _, h, -⟩ := h; cases h
  | alias h => rcases exKinds_only _ h with ⟨_, e⟩ | e <;> cases e
  | newtype h => rcases exKinds_only _ h with ⟨_, e⟩ | e <;> cases e
  | enum vs h => exact ⟨vs, rfl⟩
  | derived _ h => rcases exKinds_only _ h with ⟨_, e⟩ | e <;> cases e

theorem exKinds_usable : UsableModel exPlainCfg.ft exKinds exCrateConn exKindsStruct exKindsModel exViewsPk where
  isModel := ⟨rfl, .cons (exKinds_isField (by simp [exKindsStruct]) rfl rfl (by decide) rfl rfl
      (.autoPk (spelled _ (by decide)) (.simple (by simp [ident]))))
    (.cons (exKinds_isField (by simp [exKindsStruct]) rfl rfl (by decide) rfl rfl (.string rfl (exString _)))
    (.cons (exKinds_isField (by simp [exKindsStruct]) rfl rfl (by decide) rfl rfl (.simple (by simp [ident])))
    (.cons (exKinds_isField (by simp [exKindsStruct]) rfl rfl (by decide) rfl rfl
      (.enum _ (n := ident "Kind") (by simp [exKinds]) rfl)) .nil)))⟩
  option := by
    intro f hf p ty hp h habs
    rcases exKinds_fields hf with rfl | rfl | rfl | rfl <;> cases hp
    · rw [rust_auto exKinds_only h] at habs; exact habs.elim
    · rw [rust_string exKinds_only h] at habs; exact habs.elim
    · rw [rust_i64 exKinds_only h] at habs; exact habs.elim
    · obtain ⟨vs, rfl⟩ := rust_kind h; exact habs.elim
  auto := by
    intro f hf p ty hp h
    rcases exKinds_fields hf with rfl | rfl | rfl | rfl <;> cases hp
    · exact ⟨_, spelled _ (by decide)⟩
    · cases rust_string exKinds_only h
    · cases rust_i64 exKinds_only h
    · obtain ⟨vs, e⟩ := rust_kind h; cases e
  noRaw := by
    intro f hf h
    rcases exKinds_fields hf with rfl | rfl | rfl | rfl
    · rfl
    · exact absurd h (by decide)
    · exact absurd h (by decide)
    · exact absurd h (by decide)
  covers := exWords_sql
  excluded := rfl
  table := by decide
  key := rfl
  plain := ⟨nameOf rfl (by decide) (by decide), by decide, rfl⟩
  keyType := by
    intro ty h
    cases h
    exact ⟨by decide, id⟩
  autoInt := by
    intro ty h
    cases h
    exact ⟨_, .i64⟩

/-- The table recorded for posts with a kind. -/
def exPostKinds : ATable :=
  ⟨"Post", [⟨"id", .knownId (.ty .bigInt), false, true, true, false, none, none⟩,
    ⟨"title", .knownId (.ty .text), false, false, false, false, none, none⟩,
    ⟨"views", .knownId (.ty .bigInt), false, false, false, false, none, none⟩,
    ⟨"kind", .knownId (.ty .text), false, false, false, false, none, none⟩]⟩

def exKindsSchema : ADB :=
  ⟨[("Post", exPostKinds)], [(.customType "Kind", .knownId (.ty .text))]⟩

def exKindsStore : FsMigrations :=
  match expandAll exPlainCfg ADB.new exKinds with
  | some db => exViewsMade1.write "current" fun _ => ⟨none, db.tables, some db.extraTypes, []⟩
  | none => exViewsMade1

set_option maxRecDepth 20000 in
theorem exKinds_compiled : Compiled exPlainCfg exKinds exKindsStore := ⟨rfl, _, rfl, rfl, rfl⟩

set_option maxRecDepth 20000 in
theorem exKinds_current : exKindsStore.getDb false "current" = .ok exKindsSchema := by rfl

set_option maxRecDepth 20000 in
theorem exKinds_old {old : ADB} (h : LatestSchema false exKindsStore old) : old = exSqDb exPostViews := by
  have : (Except.ok (exSqDb exPostViews) : Except MErr ADB) = .ok old := h
  cases this
  rfl

set_option maxRecDepth 20000 in
theorem exKinds_makes : ∃ s', Cli.makeMigration false exWordsGet none "m2" exKindsStore = (.ok true, s') := by
  have : (Cli.makeMigration false exWordsGet none "m2" exKindsStore).1 = .ok true := rfl
  exact ⟨_, Prod.ext this rfl⟩

/-- The database after the second migration. -/
def exKindsDb : SDb :=
  [("Post", ⟨[⟨"id", ["INTEGER"], [.notNull, .primaryKey]⟩, ⟨"title", ["TEXT"], [.notNull]⟩,
    ⟨"views", ["INTEGER"], [.notNull]⟩, ⟨"kind", ["TEXT"], [.notNull, .default (.str [])]⟩], [],
    [[.integer 1, .text "hello", .integer 7, .text ""]]⟩)]

set_option maxRecDepth 20000 in
theorem exKinds_migrates {s' : FsMigrations} (h : Cli.makeMigration false exWordsGet none "m2" exKindsStore = (.ok true, s')) :
    (s'.toMigs "sqlite").migrate (Cli.rounds s') exViewsConn exViewsRows = (.ok (), ⟨exKindsDb, some ["m1", "m2"]⟩) := by
  have e : (Cli.makeMigration false exWordsGet none "m2" exKindsStore).2 = s' := by rw [h]
  subst e
  rfl

theorem exKinds_addable : Addable exRowStore exPrinters (exSqDb exPostViews) exKindsSchema ∧
    Addable exRowStore exPrinters exKindsSchema (exSqDb exPostViews) := by
  constructor
  · intro n s u c y hs hu hc hy
    obtain ⟨-, rfl⟩ := exPost_table rfl hs
    obtain ⟨-, rfl⟩ := exPost_table (t := exPostKinds) rfl hu
    obtain ⟨hm, rfl⟩ := colByName_some hy
    simp only [exPostKinds, List.mem_cons, List.not_mem_nil, or_false] at hm
    rcases hm with rfl | rfl | rfl | rfl
    · cases hc
    · cases hc
    · cases hc
    · refine ⟨rfl, fun v st hv hst => ?_⟩
      have hv := (newValue_iff ⟨st, hst⟩).1 hv
      obtain ⟨ty, h1, h2⟩ := hst
      cases h1
      cases h2
      cases hv
      exact ⟨rfl, by decide⟩
  · intro n s u c y hs hu hc hy
    obtain ⟨-, rfl⟩ := exPost_table (t := exPostKinds) rfl hs
    obtain ⟨-, rfl⟩ := exPost_table rfl hu
    obtain ⟨hm, rfl⟩ := colByName_some hy
    simp only [exPostViews, List.mem_cons, List.not_mem_nil, or_false] at hm
    rcases hm with rfl | rfl | rfl <;> cases hc

/-- C82 for all fields is false: an enum field without a default is added to a model that has an
object.  Everything succeeds, but the object cannot be read afterwards, because the new column holds
the empty text, which is no variant. -/
theorem crate_objects_kept_violated : ∃ (k : SqliteConn) (p : LitPrinters) (items : List Item)
      (s s' : FsMigrations) (db db' : MigDb SDb)
      (m m' : TModel) (pk : TField) (st : Struct) (objs : Objects m) (o : ObjVals m.fields)
      (get : String → Option MigBackend) (c : MigConn SDb),
    SqliteLife exPlainCfg.ft.json k.env k.kw k.reserved p s db ∧ UpToDate exPlainCfg.ft.json s db ∧
    Ready k m pk db.user ∧ ShowsObjs k m pk db.user objs ∧ objs (.bigInt 1) = some o ∧
    Compiled exPlainCfg items s ∧ c.exec = sqliteExec k.env k.reserved ∧
    Cli.makeMigration exPlainCfg.ft.json get none "m2" s = (.ok true, s') ∧
    (s'.toMigs "sqlite").migrate (Cli.rounds s') c db = (.ok (), db') ∧
    st ∈ modelsOf items ∧ UsableModel exPlainCfg.ft items k st m' pk ∧ Extends m m' pk pk ∧
    Ready k m' pk db'.user ∧ (∃ res, m'.TryGetOut k db'.user (.bigInt 1) res) ∧
    ∀ res, m'.TryGetOut k db'.user (.bigInt 1) res → ∃ e, res = .error e := by
  obtain ⟨s', h1⟩ := exKinds_makes
  have h2 := exKinds_migrates h1
  obtain ⟨v1, v2, v3⟩ := exViews_shown
  have hlife : SqliteLife false exRowStore exWords exDdlRes exPrinters exKindsStore exViewsRows := by
    refine .build v3 rfl fun n hn => ?_
    change (exViewsMade1.write "current" _).dirs.lookup n = _
    rw [FsMigrations.lookup_write, if_neg hn]
  have hback : ∀ b, exWordsGet b.name = some b ∨ (none : Option (Option MigBackend)) = some (some b) → b.name = "sqlite" →
      b = sqliteBackend exWords exPrinters := by
    rintro b (hb | hb) -
    · exact exWordsGet_back b hb
    · cases hb
  have hrec : ¬ Spec.Recorded exViewsRows "m2" := by
    rintro ⟨names, hn, hm⟩
    cases hn
    simp at hm
  have hext : Extends exViewsModel exKindsModel exViewsPk exViewsPk := by
    refine ⟨rfl, rfl, rfl, ?_⟩
    rintro n t t' ⟨f, hf, rfl, ht⟩ ⟨f', hf', e, ht'⟩
    simp only [exViewsModel, List.mem_cons, List.not_mem_nil, or_false] at hf
    simp only [exKindsModel, List.mem_cons, List.not_mem_nil, or_false] at hf'
    rcases hf with rfl | rfl | rfl <;> rcases hf' with rfl | rfl | rfl | rfl <;>
      first | exact absurd e (by decide) | (cases ht; cases ht'; rfl)
  have hready := (crate_objects_ready_partial (p := exPrinters) (k := exCrateConn) (g := exPlainCfg) exWords_ddl
    exDdl_free exRowStore_laws exRowData_laws ⟨fun _ => rfl, exParse_print, exParse_print⟩ exResolve_ok exKinds_named
    exKinds_typed exKinds_plain (s := exKindsStore) (db := exViewsRows) hlife exWordsGet_name hback rfl (by decide) hrec
    exKinds_compiled
    (fun new old hnew ho => by
      cases exKinds_current.symm.trans hnew
      cases exKinds_old ho
      exact exKinds_addable) h1 (c := exViewsConn) rfl h2
    (st := exKindsStruct) (by simp [exKinds, modelsOf]) exKinds_usable).1
  have htry := tryGet_one hready (id := .bigInt 1) (a := .integer 1) rfl ⟨fun ty h => (by cases h; rfl), rfl⟩
    (r := [.integer 1, .text "hello", .integer 7, .text ""]) rfl
  refine ⟨exCrateConn, exPrinters, exKinds, exKindsStore, s', exViewsRows, _, exViewsModel, exKindsModel, exViewsPk,
    exKindsStruct, _, exViewsSaved, exWordsGet, exViewsConn, hlife, ?_, v2, v1, rfl, exKinds_compiled, rfl, h1, h2,
    by simp [exKinds, modelsOf], exKinds_usable, hext, hready, ⟨_, (htry _).2 rfl⟩, fun res hres => ?_⟩
  · intro made hm e he
    obtain ⟨made', k, hi⟩ := life_inv exWords_ddl exDdl_free exRowStore_laws exCodecs hlife
    have h1 := (hi.fs.of_chain hm).all
    have h2 : (Cli.chain exKindsStore).allMigrations (Cli.rounds exKindsStore) = Except.ok ["m1"] := rfl
    rw [h2] at h1
    have := Except.ok.inj h1
    have hm1 : e.1 ∈ ["m1"] := by rw [this]; exact List.mem_map_of_mem he
    rw [List.mem_singleton.1 hm1]
    exact ⟨["m1"], rfl, by simp⟩
  · exact ⟨_, ((htry res).1 hres).trans rfl⟩

end Butane.Props
