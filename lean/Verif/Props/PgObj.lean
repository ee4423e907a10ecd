/-
C91: objects in a PostgreSQL database.
-/
import Verif.Proofs.PgShows
import Verif.Props.SqliteObj

namespace Butane.Props
open Butane Butane.Spec Butane.PgData

variable {k : PgConn} {m : TModel} {pk : TField} {u : PDb}

/-- C91, saving (partial).  If looking for objects by their keys gives `st`, then after an object was
saved it gives the same, except that the key of the object gives the object, with all its fields.  Saving
changes nothing in the object but a missing automatic key, and then the key is one that no object had.

Missing: an object with an automatic key whose row is not there (`save_missing_row_pg_violated`),
fractions of microseconds (`pg_timestamp_violated`), and automatic keys too large for their type
(`int_out_of_range_violated`). -/
theorem pg_save_shows_partial (h : PgReady k m pk u) {st : Objects m} (hs : PgShows k m pk u st)
    {key : Int64} {o o' : ObjVals m.fields} (ho : Storable m.fields o) (hw : AllWholeMicros m.fields o)
    (hfit : PgKeyFits pk key)
    (hrow : pk.isAuto = true → keyValid pk.name m.fields o = true → ∀ id,
      keySql pk.name m.fields o = .ok id → (st id).isSome)
    {u' : PDb} (hsave : m.pgSave k u key o = .ok (u', o')) :
    ∃ id, keySql pk.name m.fields o' = .ok id ∧ PgKeyLike pk id ∧ PgShows k m pk u' (st.put id o') ∧
      PgReady k m pk u' ∧ SameButAuto m.fields o o' ∧ (keyValid pk.name m.fields o = true → o' = o) ∧
      (keyValid pk.name m.fields o = false → st id = none) := by
  obtain ⟨t, hlk, ht⟩ := h.table
  obtain ⟨h1, id, a, h3, h4, h5⟩ := PgP.save_saved h.model h.laws h.sorted h.valid hlk ht ho hw hfit
    (fun ha hv id a hk hst => (PgP.shows_hasRow h hs hlk ht (PgP.pg_keyLike h.model ho hw hk) hst).1
      (hrow ha hv id hk)) hsave
  obtain ⟨h6, h7⟩ := PgP.shows_saved h hs hlk ht h3
  have hl : PgKeyLike pk id := ⟨h3.isKey.type, PgP.keySql_whole o' h3.whole h3.key⟩
  refine ⟨id, h3.key, hl, h7, h6, h1, h4, fun hv => ?_⟩
  cases hst : st id with
  | none => rfl
  | some x =>
    obtain ⟨r, hr, he⟩ := (PgP.shows_hasRow h hs hlk ht hl h3.isKey).1 (by rw [hst]; rfl)
    exact absurd he (h5 hv r hr)

/-- C91, reading what was saved (partial, as above): whatever `get` of the key returns after a save is
the object, and it does return. -/
theorem save_then_get_pg_partial (h : PgReady k m pk u) {st : Objects m} (hs : PgShows k m pk u st)
    {key : Int64} {o o' : ObjVals m.fields} (ho : Storable m.fields o) (hw : AllWholeMicros m.fields o)
    (hfit : PgKeyFits pk key)
    (hrow : pk.isAuto = true → keyValid pk.name m.fields o = true → ∀ id,
      keySql pk.name m.fields o = .ok id → (st id).isSome)
    {u' : PDb} (hsave : m.pgSave k u key o = .ok (u', o')) :
    ∃ id, keySql pk.name m.fields o' = .ok id ∧ (∃ res, m.PgGetOut k u' id res) ∧
      ∀ res, m.PgGetOut k u' id res → ∃ x, res = .ok x ∧ EqualFields m.fields o' x := by
  obtain ⟨id, h1, h2, h3, -⟩ := pg_save_shows_partial h hs ho hw hfit hrow hsave
  obtain ⟨⟨r, hr⟩, hall⟩ := h3 id h2
  have hput : (st.put id o') id = some o' := by simp [Objects.put]
  refine ⟨id, h1, ⟨_, r, hr, rfl⟩, ?_⟩
  rintro res ⟨r', hr', rfl⟩
  obtain ⟨x, rfl, hx⟩ := hall r' hr'
  rw [hput] at hx
  cases x with
  | none => exact hx.elim
  | some x => exact ⟨x, rfl, hx⟩

/-- C91, deleting: after an object was deleted, looking for its key gives nothing, and looking for other
keys gives what it gave before. -/
theorem pg_delete_shows (h : PgReady k m pk u) {st : Objects m} (hs : PgShows k m pk u st)
    {o : ObjVals m.fields} (ho : Storable m.fields o) (hw : AllWholeMicros m.fields o) {u' : PDb}
    (hd : m.pgDelete k u o = .ok u') :
    ∃ id, keySql pk.name m.fields o = .ok id ∧ PgShows k m pk u' (st.remove id) ∧ PgReady k m pk u' := by
  cases hkey : keySql pk.name m.fields o with
  | ok id =>
    obtain ⟨h1, h2⟩ := PgP.shows_deleted h hs ho hw hkey hd
    exact ⟨id, rfl, h2, h1⟩
  | err e =>
    simp only [TModel.pgDelete, h.model.key, hkey, Conv.orErr, reduceCtorEq] at hd
  | panic =>
    simp only [TModel.pgDelete, h.model.key, hkey, Conv.orErr, reduceCtorEq] at hd

/-- C91, other tables: saving and deleting objects of a model whose table is another one does not
change which objects there are. -/
theorem pg_other_model_shows (h : PgReady k m pk u) {st : Objects m} (hs : PgShows k m pk u st) {m' : TModel}
    {pk' : TField} (hm' : PgModelOk k m' pk') (hne : m'.table ≠ m.table) {o : ObjVals m'.fields} {u' : PDb}
    (hop : (∃ key o', m'.pgSave k u key o = .ok (u', o')) ∨ Storable m'.fields o ∧ m'.pgDelete k u o = .ok u') :
    PgShows k m pk u' st ∧ PgReady k m pk u' := by
  have hr : PgP.Touches k.server u u' m'.table := by
    rcases hop with ⟨key, o', h1⟩ | ⟨ho, h1⟩
    · exact PgP.save_touches hm' h.sorted h.valid h1
    · exact PgP.delete_touches hm' h.sorted h.valid ho h1
  rcases hr with rfl | ⟨t, rows, h1, h2⟩
  · exact ⟨hs, h⟩
  · obtain ⟨h3, h4⟩ := PgP.shows_other h hs h1 h2 hne
    exact ⟨h4, h3⟩

/-- C91, histories (partial, as above): whatever objects are saved and deleted, of this model and of
models with other tables, however often, and whatever numbers the sequences give, looking for an
object by its key gives the one that was saved last with this key, unless it was deleted since. -/
theorem pg_objects_run_partial {u0 : PDb} (h : PgReady k m pk u0) {st0 st : Objects m}
    (h0 : PgShows k m pk u0 st0) (hr : PgRun k m pk u0 st0 u st) :
    PgReady k m pk u ∧ PgShows k m pk u st := by
  induction hr with
  | start => exact ⟨h, h0⟩
  | save _ ho hw hfit hrow hsave hkey ih =>
    obtain ⟨id, h1, -, h3, h4, -⟩ := pg_save_shows_partial ih.1 ih.2 ho hw hfit hrow hsave
    rw [hkey] at h1
    cases h1
    exact ⟨h4, h3⟩
  | delete _ ho hw hd hkey ih =>
    obtain ⟨id, h1, h3, h4⟩ := pg_delete_shows ih.1 ih.2 ho hw hd
    rw [hkey] at h1
    cases h1
    exact ⟨h4, h3⟩
  | saveOther _ hne hm' hsave ih =>
    obtain ⟨h1, h2⟩ := pg_other_model_shows ih.1 ih.2 hm' hne (.inl ⟨_, _, hsave⟩)
    exact ⟨h2, h1⟩
  | deleteOther _ hne hm' ho hd ih =>
    obtain ⟨h1, h2⟩ := pg_other_model_shows ih.1 ih.2 hm' hne (.inr ⟨ho, hd⟩)
    exact ⟨h2, h1⟩

/-- An empty table has no objects. -/
theorem pg_empty_table_shows (h : PgReady k m pk u) (he : ∀ t, u.lookup m.table = some t → t.rows = []) :
    PgShows k m pk u fun _ => none := PgP.shows_empty h he

/-- C91, the full statement is false: an object with an automatic key is saved after its row was deleted
(by the object itself, or by somebody else): `save` succeeds and nothing is stored.  Looking for the
object gives nothing. -/
theorem save_missing_row_pg_violated (h : PgReady k m pk u) {st : Objects m} (hs : PgShows k m pk u st)
    {o : ObjVals m.fields} (ho : Storable m.fields o) (hw : AllWholeMicros m.fields o) (ha : pk.isAuto = true)
    {id : SqlVal} (hkey : keySql pk.name m.fields o = .ok id) (hst : st id = none) (key : Int64) :
    m.pgSave k u key o = .ok (u, o) ∧ ∀ res, m.PgGetOut k u id res → res = .error .noSuchObject := by
  obtain ⟨t, hlk, ht⟩ := h.table
  have hkl : PgKeyLike pk id := PgP.pg_keyLike h.model ho hw hkey
  obtain ⟨a, hid⟩ := PgP.isKey_of_like h.model hkl
  refine ⟨PgP.save_missing h hlk ht ho ha hkey hid ?_ key, ?_⟩
  · intro r hr he
    have := (PgP.shows_hasRow h hs hlk ht hkl hid).2 ⟨r, hr, he⟩
    rw [hst] at this
    cases this
  · rintro res ⟨r, hr, rfl⟩
    obtain ⟨x, rfl, hx⟩ := (hs id hkl).2 r hr
    rw [hst] at hx
    cases x with
    | none => rfl
    | some x => exact hx.elim

/-! ### Examples -/

def exPgServer : Server := ⟨exRel, fun _ _ => true, fun _ => false⟩
def exPgConn : PgConn := ⟨exPgServer, exKw, exRes, fun _ => none⟩

theorem exPgServer_laws : Laws exPgServer where
  eq ty a b hty ha hb han hbn := by
    simp only [exPgServer, exRel, decide_eq_true_eq]
    cases ty <;> cases a <;> simp only [ofType, exactType, Bool.false_eq_true] at ha hty <;>
      first | exact absurd rfl han | skip
    all_goals cases b <;> simp only [ofType, Bool.false_eq_true] at hb <;> first | exact absurd rfl hbn | skip
    all_goals simp only [seen, fromPg, Sql.toDb, Sql.DbVal.int.injEq, Sql.DbVal.other.injEq, SqlVal.bool.injEq,
      SqlVal.text.injEq, SqlVal.blob.injEq, SqlVal.json.injEq, SqlVal.date.injEq, SqlVal.timestamp.injEq,
      PgVal.bool.injEq, PgVal.int4.injEq, PgVal.int8.injEq, PgVal.text.injEq, PgVal.bytea.injEq,
      PgVal.jsonb.injEq, PgVal.date.injEq, PgVal.timestamp.injEq]
    · exact Int32.toInt_inj
    · exact Int64.toInt_inj
    · omega

/-- A row with these values. -/
def exRowOf (vs : List (String × PgVal)) : PRow := fun c => (vs.lookup c).getD .null

def exPgPostTable (rows : List PRow) : Table :=
  ⟨[⟨"id", .int8, true, true, .null, true⟩, ⟨"name", .text, true, false, .null, false⟩,
    ⟨"likes", .int4, false, false, .null, false⟩, ⟨"blog", .int4, true, false, .null, false⟩],
    [⟨"blog", "blog", "id"⟩], rows⟩
def exPgBlogTable (rows : List PRow) : Table :=
  ⟨[⟨"id", .int4, true, false, .null, true⟩, ⟨"name", .text, true, false, .null, true⟩], [], rows⟩

/-- A database with a blog and these posts. -/
def exPgDb (posts : List PRow) : PDb :=
  [("blog", exPgBlogTable [exRowOf [("id", .int4 3), ("name", .text "dogs")]]), ("post", exPgPostTable posts)]

/-- The row of `exSavedPost`, and that of the post after an edit. -/
def exPgPostRow : PRow :=
  exRowOf [("id", .int8 7), ("name", .text "x"), ("likes", .int4 200), ("blog", .int4 3)]
def exPgEditedRow : PRow :=
  setRow [("name", .text "z"), ("likes", .null), ("blog", .int4 3)] exPgPostRow
def exPgSaved : ObjVals exRowPost.fields := (some 7, "x", (), some 200, .int 3, ())
def exPgEdited : ObjVals exRowPost.fields := (some 7, "z", (), none, .int 3, ())

/-- The sequence gives 7, and then the object has this key. -/
theorem exPgSave_new : exRowPost.pgSave exPgConn (exPgDb []) 7 exNewPost =
    .ok (exPgDb [exPgPostRow], exPgSaved) := by rfl
theorem exPgSave_edited : exRowPost.pgSave exPgConn (exPgDb [exPgPostRow]) 8 exPgEdited =
    .ok (exPgDb [exPgEditedRow], exPgEdited) := by rfl
theorem exPgDelete : exRowPost.pgDelete exPgConn (exPgDb [exPgEditedRow]) exPgEdited =
    .ok (exPgDb []) := by rfl

theorem exPgPost_ok : PgModelOk exPgConn exRowPost exRowPk where
  covers := exCovers
  excluded := rfl
  table := nameOf rfl (by decide) (by decide)
  table_ne := by decide
  names := exRowPost_ok.names
  distinct := by decide
  key := rfl
  plain := ⟨nameOf rfl (by decide) (by decide), by decide, rfl⟩
  keyType := ⟨.autoPk .i64, rfl, by decide, by decide, id⟩
  auto := exRowPost_ok.auto
  autoInt := exRowPost_ok.autoInt
  count := by decide

theorem exPgBlog_ok : PgModelOk exPgConn exRowBlog exRowBlogPk where
  covers := exCovers
  excluded := rfl
  table := nameOf rfl (by decide) (by decide)
  table_ne := by decide
  names := exRowBlog_ok.names
  distinct := by decide
  key := rfl
  plain := ⟨nameOf rfl (by decide) (by decide), by decide, rfl⟩
  keyType := ⟨.i32, rfl, by decide, by decide, id⟩
  auto := exRowBlog_ok.auto
  autoInt := exRowBlog_ok.autoInt
  count := by decide

theorem exPgPostTable_fits (rows : List PRow) : PgTableFits exRowPost exRowPk (exPgPostTable rows) where
  distinct := by simp [exPgPostTable, names]
  fields := by
    intro f hf ty hty
    simp only [exRowPost, exFields, List.mem_cons, List.not_mem_nil, or_false] at hf
    rcases hf with rfl | rfl | rfl | rfl | rfl <;> cases hty
    · exact ⟨⟨"id", .int8, true, true, .null, true⟩, by simp [exPgPostTable], rfl, rfl, fun _ => id,
        fun _ => ⟨rfl, rfl⟩, fun _ => rfl⟩
    · exact ⟨⟨"name", .text, true, false, .null, false⟩, by simp [exPgPostTable], rfl, rfl, fun _ => id,
        (fun h => absurd h (by decide)), (fun h => by cases h)⟩
    · exact ⟨⟨"likes", .int4, false, false, .null, false⟩, by simp [exPgPostTable], rfl, rfl,
        (fun h => by cases h), (fun h => absurd h (by decide)), (fun h => by cases h)⟩
    · exact ⟨⟨"blog", .int4, true, false, .null, false⟩, by simp [exPgPostTable], rfl, rfl, fun _ => id,
        (fun h => absurd h (by decide)), (fun h => by cases h)⟩

theorem exPg_ready : PgReady exPgConn exRowPost exRowPk (exPgDb []) :=
  ⟨exPgPost_ok, exPgServer_laws, by decide, rfl, _, rfl, exPgPostTable_fits _⟩

theorem exPg_shows : PgShows exPgConn exRowPost exRowPk (exPgDb []) fun _ => none :=
  pg_empty_table_shows exPg_ready (by
    intro t h
    have : (exPgDb []).lookup exRowPost.table = some (exPgPostTable []) := rfl
    rw [this] at h
    cases h
    rfl)

theorem exPg_fits (key : Int64) : PgKeyFits exRowPk key := by
  intro ty I hty hI
  cases hty
  cases hI
  simp only [intI64]
  have h1 := Int64.toInt_lt key
  have h2 := Int64.le_toInt key
  omega

theorem exNewPost_whole : AllWholeMicros exRowPost.fields exNewPost :=
  ⟨(fun _ h => by cases h), trivial, fun _ _ => trivial, id, trivial⟩
theorem exPgEdited_storable : Storable exRowPost.fields exPgEdited :=
  ⟨fun _ _ => trivial, trivial, trivial, rfl, trivial⟩
theorem exPgEdited_whole : AllWholeMicros exRowPost.fields exPgEdited :=
  ⟨fun _ _ => trivial, trivial, (fun _ h => by cases h), id, trivial⟩

/-- A post is saved, edited and saved again: the database shows the edited post. -/
theorem exPg_run : PgRun exPgConn exRowPost exRowPk (exPgDb []) (fun _ => none) (exPgDb [exPgEditedRow])
    (Objects.put (Objects.put (fun _ => none) (.bigInt 7) exPgSaved) (.bigInt 7) exPgEdited) := by
  refine .save (.save .start exNewPost_storable exNewPost_whole (exPg_fits 7) ?_ exPgSave_new rfl)
    exPgEdited_storable exPgEdited_whole (exPg_fits 8) ?_ exPgSave_edited rfl
  · intro _ h
    cases h
  · intro _ _ id h
    have : keySql exRowPk.name exRowPost.fields exPgEdited = .ok (.bigInt 7) := rfl
    rw [this] at h
    cases h
    simp [Objects.put]

example : ∃ res, exRowPost.PgGetOut exPgConn (exPgDb [exPgEditedRow]) (.bigInt 7) res := by
  obtain ⟨h1, h2⟩ := pg_objects_run_partial exPg_ready exPg_shows exPg_run
  obtain ⟨⟨r, hr⟩, -⟩ := h2 (.bigInt 7) ⟨fun ty h => by cases h; rfl, id⟩
  exact ⟨_, r, hr, rfl⟩

/-- Saving the first post shows it. -/
example : ∃ id, keySql exRowPk.name exRowPost.fields exPgSaved = .ok id ∧
    PgShows exPgConn exRowPost exRowPk (exPgDb [exPgPostRow]) (Objects.put (fun _ => none) id exPgSaved) := by
  obtain ⟨id, h1, -, h2, -⟩ := pg_save_shows_partial exPg_ready exPg_shows exNewPost_storable exNewPost_whole
    (exPg_fits 7) (fun _ h => by cases h) exPgSave_new
  exact ⟨id, h1, h2⟩

/-- Deleting the edited post: then there is none. -/
example : PgShows exPgConn exRowPost exRowPk (exPgDb []) (Objects.remove
    (Objects.put (Objects.put (fun _ => none) (.bigInt 7) exPgSaved) (.bigInt 7) exPgEdited) (.bigInt 7)) := by
  obtain ⟨h1, h2⟩ := pg_objects_run_partial exPg_ready exPg_shows exPg_run
  obtain ⟨id, h3, h4, -⟩ := pg_delete_shows h1 h2 exPgEdited_storable exPgEdited_whole exPgDelete
  have : keySql exRowPk.name exRowPost.fields exPgEdited = .ok (.bigInt 7) := rfl
  rw [this] at h3
  cases h3
  exact h4

/-- Saving the edited post again after it was deleted stores nothing. -/
example : exRowPost.pgSave exPgConn (exPgDb []) 9 exPgEdited = .ok (exPgDb [], exPgEdited) :=
  (save_missing_row_pg_violated exPg_ready exPg_shows exPgEdited_storable exPgEdited_whole rfl
    (id := .bigInt 7) rfl rfl 9).1

/-- Saving a blog does not change the posts. -/
example : ∃ u', exRowBlog.pgSave exPgConn (exPgDb []) 1 ((4 : Int32), "cats", ()) =
      .ok (u', ((4 : Int32), "cats", ())) ∧ PgShows exPgConn exRowPost exRowPk u' fun _ => none := by
  refine ⟨[("blog", exPgBlogTable [exRowOf [("id", .int4 3), ("name", .text "dogs")],
    exRowOf [("id", .int4 4), ("name", .text "cats")]]), ("post", exPgPostTable [])], by rfl, ?_⟩
  exact (pg_other_model_shows exPg_ready exPg_shows exPgBlog_ok (by decide) (o := ((4 : Int32), "cats", ()))
    (.inl ⟨1, _, (by rfl)⟩)).1

/-- Another blog of the same name is refused, and so is a post of a blog that does not exist. -/
example : exRowBlog.pgSave exPgConn (exPgDb []) 1 ((4 : Int32), "dogs", ()) = .error .db := by rfl
example : exRowPost.pgSave exPgConn (exPgDb []) 1 (none, "x", (), none, .int 4, ()) = .error .db := by rfl
/-- A number of the sequence that is a key already is refused. -/
example : exRowPost.pgSave exPgConn (exPgDb [exPgPostRow]) 7 exNewPost = .error .db := by rfl

end Butane.Props
