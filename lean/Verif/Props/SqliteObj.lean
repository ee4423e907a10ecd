/-
C79: objects in an SQLite database.
-/
import Verif.Proofs.SqliteSucceeds
import Verif.Props.SqliteMigrate
import Verif.Props.Filter

namespace Butane.Props
open Butane Butane.Spec Butane.Ddl

variable {k : SqliteConn} {m : TModel} {pk : TField} {u : SDb}

/-- C79, saving (partial).  If looking for objects by their keys gives `st`, then after an object was
saved it gives the same, except that the key of the object gives the object.  Saving changes nothing in
the object but a missing automatic key, and then the key is one that no object had.

Missing: an object with an automatic key whose row is not there
(`save_missing_row_sqlite_violated`), NaN (`sqlite_nan_violated`), and automatic keys too large for
their type (`int_out_of_range_violated`). -/
theorem save_shows_partial (h : Ready k m pk u) {st : Objects m} (hs : ShowsObjs k m pk u st)
    {o o' : ObjVals m.fields} (ho : Storable m.fields o) (hn : NoNaNs m.fields o) (hroom : KeyRoom k m pk u)
    (hrow : pk.isAuto = true → keyValid pk.name m.fields o = true → ∀ id,
      keySql pk.name m.fields o = .ok id → (st id).isSome)
    {u' : SDb} (hsave : m.save k u o = .ok (u', o')) :
    ∃ id, keySql pk.name m.fields o' = .ok id ∧ KeyLike pk id ∧ ShowsObjs k m pk u' (st.put id o') ∧
      Ready k m pk u' ∧ SameButAuto m.fields o o' ∧ (keyValid pk.name m.fields o = true → o' = o) ∧
      (keyValid pk.name m.fields o = false → st id = none) := by
  obtain ⟨t, hlk, ht⟩ := h.table
  obtain ⟨h1, h2, id, a, h3, h4, h5⟩ := save_saved h.model h.data h.strict h.sound hlk ht ho hn hroom
    (fun ha hv id a hk hst => (shows_hasRow h hs
      ⟨fun ty hty => keyLike_of_storable h.model ho hk ty hty, hst⟩).1 (hrow ha hv id hk)) hsave
  refine ⟨id, h3.key, h3.isKey.type, shows_saved h hs h2 h3,
    ready_of_rewrites h (save_rewrites h.model h.strict h.sound hsave), h1, h4, fun hv => ?_⟩
  have := mt (shows_hasRow h hs h3.isKey).1 (h5 hv)
  cases hst : st id with
  | none => rfl
  | some x => rw [hst] at this; exact absurd rfl this

/-- C79, reading what was saved (partial, as above): whatever `get` of the key returns after a save is
the object, and it does return. -/
theorem save_then_get_sqlite_partial (h : Ready k m pk u) {st : Objects m} (hs : ShowsObjs k m pk u st)
    {o o' : ObjVals m.fields} (ho : Storable m.fields o) (hn : NoNaNs m.fields o) (hroom : KeyRoom k m pk u)
    (hrow : pk.isAuto = true → keyValid pk.name m.fields o = true → ∀ id,
      keySql pk.name m.fields o = .ok id → (st id).isSome)
    {u' : SDb} (hsave : m.save k u o = .ok (u', o')) :
    ∃ id, keySql pk.name m.fields o' = .ok id ∧ (∃ res, m.GetOut k u' id res) ∧
      ∀ res, m.GetOut k u' id res → ∃ x, res = .ok x ∧ SameFields m.fields o' x := by
  obtain ⟨id, h1, h2, h3, -⟩ := save_shows_partial h hs ho hn hroom hrow hsave
  obtain ⟨⟨r, hr⟩, hall⟩ := h3 id h2
  have hput : (st.put id o') id = some o' := by simp [Objects.put]
  refine ⟨id, h1, ⟨_, r, hr, rfl⟩, ?_⟩
  rintro res ⟨r', hr', rfl⟩
  obtain ⟨x, rfl, hx⟩ := hall r' hr'
  rw [hput] at hx
  cases x with
  | none => exact hx.elim
  | some x => exact ⟨x, rfl, hx⟩

/-- C79, deleting: after an object was deleted, looking for its key gives nothing, and looking for other
keys gives what it gave before. -/
theorem delete_shows (h : Ready k m pk u) {st : Objects m} (hs : ShowsObjs k m pk u st)
    {o : ObjVals m.fields} (ho : Storable m.fields o) {u' : SDb} (hd : m.delete k u o = .ok u') :
    ∃ id, keySql pk.name m.fields o = .ok id ∧ ShowsObjs k m pk u' (st.remove id) ∧ Ready k m pk u' := by
  cases hkey : keySql pk.name m.fields o with
  | ok id =>
    exact ⟨id, rfl, shows_deleted h hs ho hkey hd,
      ready_of_rewrites h (delete_rewrites h.model h.strict h.sound ho hd)⟩
  | err e =>
    simp only [TModel.delete, h.model.key, hkey, Conv.orErr, reduceCtorEq] at hd
  | panic =>
    simp only [TModel.delete, h.model.key, hkey, Conv.orErr, reduceCtorEq] at hd

/-- C79, other tables: saving and deleting objects of a model whose table is another one does not
change which objects there are. -/
theorem other_model_shows (h : Ready k m pk u) {st : Objects m} (hs : ShowsObjs k m pk u st) {m' : TModel}
    {pk' : TField} (hm' : TModelOk k m' pk') (hne : m'.table ≠ m.table) {o : ObjVals m'.fields} {u' : SDb}
    (hop : (∃ o', m'.save k u o = .ok (u', o')) ∨ Storable m'.fields o ∧ m'.delete k u o = .ok u') :
    ShowsObjs k m pk u' st ∧ Ready k m pk u' := by
  have hr : Rewrites k.env u u' m'.table := by
    rcases hop with ⟨o', h1⟩ | ⟨ho, h1⟩
    · exact save_rewrites hm' h.strict h.sound h1
    · exact delete_rewrites hm' h.strict h.sound ho h1
  exact ⟨shows_other h hs hr hne, ready_of_rewrites h hr⟩

/-- C79, histories (partial, as above): whatever objects are saved and deleted, of this model and of
models with other tables, and however often, looking for an object by its key gives the one that
was saved last with this key, unless it was deleted since. -/
theorem objects_run_partial {u0 : SDb} (h : Ready k m pk u0) {st0 st : Objects m}
    (h0 : ShowsObjs k m pk u0 st0) (hr : ObjRun k m pk u0 st0 u st) :
    Ready k m pk u ∧ ShowsObjs k m pk u st := by
  induction hr with
  | start => exact ⟨h, h0⟩
  | save _ ho hn hroom hrow hsave hkey ih =>
    obtain ⟨id, h1, -, h3, h4, -⟩ := save_shows_partial ih.1 ih.2 ho hn hroom hrow hsave
    rw [hkey] at h1
    cases h1
    exact ⟨h4, h3⟩
  | delete _ ho hd hkey ih =>
    obtain ⟨id, h1, h3, h4⟩ := delete_shows ih.1 ih.2 ho hd
    rw [hkey] at h1
    cases h1
    exact ⟨h4, h3⟩
  | saveOther _ hne hm' hsave ih =>
    obtain ⟨h1, h2⟩ := other_model_shows ih.1 ih.2 hm' hne (.inl ⟨_, hsave⟩)
    exact ⟨h2, h1⟩
  | deleteOther _ hne hm' ho hd ih =>
    obtain ⟨h1, h2⟩ := other_model_shows ih.1 ih.2 hm' hne (.inr ⟨ho, hd⟩)
    exact ⟨h2, h1⟩

/-- An empty table has no objects. -/
theorem empty_table_shows (h : Ready k m pk u) (he : ∀ t, u.lookup m.table = some t → t.rows = []) :
    ShowsObjs k m pk u fun _ => none := shows_empty h he

/-- C79: saving and deleting are among the writes of `SqliteLife`: the database keeps its schema, so
that everything proved of migrations there holds of programs that save and delete objects. -/
theorem objects_keep_schema (hs : StrictLaws k.env) (hu : SoundDb k.env u) (hm : TModelOk k m pk)
    {o : ObjVals m.fields} {u' : SDb}
    (hop : (∃ o', m.save k u o = .ok (u', o')) ∨ Storable m.fields o ∧ m.delete k u o = .ok u') :
    SoundDb k.env u' ∧ (∀ adb, HasSchema k.env adb u → HasSchema k.env adb u') ∧
      ∀ {json p s log}, SqliteLife json k.env k.kw k.reserved p s ⟨u, log⟩ →
        SqliteLife json k.env k.kw k.reserved p s ⟨u', log⟩ := by
  have hr : Rewrites k.env u u' m.table := by
    rcases hop with ⟨o', h1⟩ | ⟨ho, h1⟩
    · exact save_rewrites hm hs hu h1
    · exact delete_rewrites hm hs hu ho h1
  have hk : ∀ adb, HasSchema k.env adb u → HasSchema k.env adb u' := fun adb ha => hr.schema hu ha
  exact ⟨hr.sound hu, hk, fun hl => .write hl hk⟩

/-- C79, the full statement is false: an object with an automatic key is saved after its row was deleted
(by the object itself, or by somebody else): `save` succeeds and nothing is stored.  Looking for the
object gives nothing. -/
theorem save_missing_row_sqlite_violated (h : Ready k m pk u) {st : Objects m} (hs : ShowsObjs k m pk u st)
    {o : ObjVals m.fields} (ho : Storable m.fields o) (hn : NoNaNs m.fields o) (ha : pk.isAuto = true)
    {id : SqlVal} (hkey : keySql pk.name m.fields o = .ok id) (hst : st id = none) :
    m.save k u o = .ok (u, o) ∧ ∀ res, m.GetOut k u id res → res = .error .noSuchObject := by
  obtain ⟨t, hlk, ht⟩ := h.table
  have hkl : KeyLike pk id := keyLike_of_storable h.model ho hkey
  obtain ⟨a, hid⟩ := keyLike_stored (k := k) h.model hkl
  refine ⟨save_missing h.model h.data h.sound hlk ht ho hn ha hkey hid ?_, ?_⟩
  · intro hrow
    have := (shows_hasRow h hs hid).2 hrow
    rw [hst] at this
    cases this
  · rintro res ⟨r, hr, rfl⟩
    obtain ⟨x, rfl, hx⟩ := (hs id hkl).2 r hr
    rw [hst] at hx
    cases x with
    | none => rfl
    | some x => exact hx.elim

/-- C80: saving an object succeeds if SQLite has a key for it, its values in unique columns are not those
of other objects, and the objects it refers to are stored. -/
theorem save_succeeds (h : Ready k m pk u) {t : STable} (hlk : u.lookup m.table = some t)
    {o : ObjVals m.fields} (ho : Storable m.fields o) (hn : NoNaNs m.fields o) (hroom : KeyRoom k m pk u)
    (hadm : Admissible k m pk u t o) (href : KeyRefs m pk u) :
    ∃ u' o', m.save k u o = .ok (u', o') := by
  obtain ⟨t', hlk', ht⟩ := h.table
  rw [hlk] at hlk'
  cases hlk'
  exact save_succeeds_row h.model h.data h.strict h.sound hlk ht ho hn hroom hadm href

/-! ### Examples -/

/-- SQLite's storage of values: each class in its own columns, NaN as NULL. -/
def exRowStore : SqliteEnv where
  coerce st v :=
    match st, v with
    | _, .null => some .null
    | .integer, .integer i => some (.integer i)
    | .real, .real r => if r.isNaN then some .null else some (.real r)
    | .text, .text t => some (.text t)
    | .blob, .blob b => some (.blob b)
    | _, _ => none
  readReal _ := ⟨0⟩

/-- New keys: the least positive number not in use. -/
def exRowData : SqliteData where
  rel := exRel
  le _ _ := true
  newKey ks := ((List.range (ks.length + 1)).map fun i => Int64.ofNat (i + 1)).find? fun i => !ks.contains i

theorem exRowStore_laws : StrictLaws exRowStore where
  null st := by cases st <;> rfl
  integer _ := rfl
  text _ := rfl
  blob _ := rfl
  stable st v w h := by
    cases st <;> cases v <;> simp only [exRowStore, reduceCtorEq] at h ⊢ <;> first | (cases h; rfl) | skip
    next r =>
    split at h
    · cases h; rfl
    · next hr => cases h; simp only [hr, Bool.false_eq_true, if_false]

theorem exRowData_laws : DataLaws exRowStore exRowData where
  stored st v w h := by
    cases st <;> cases v <;> simp only [exRowStore, reduceCtorEq] at h <;> first | (cases h; trivial) | skip
    split at h <;> cases h <;> trivial
  write st v h := by
    cases st <;> cases v <;> first | exact h.elim | exact ⟨_, rfl, by constructor⟩ | skip
    next r =>
    cases hr : r.isNaN with
    | true => exact ⟨.null, by simp [exRowStore, hr], .nan r hr⟩
    | false =>
      refine ⟨.real r, by simp [exRowStore, hr], .real r r ?_⟩
      simp [F64.eq, hr]
  eq a b _ := by
    simp only [exRowData, exRel, decide_eq_true_eq]
    exact ⟨seen_inj, fun h => by rw [h]⟩
  newKey ks i h := by
    have := List.find?_some h
    simpa using this

def exRowConn : SqliteConn := ⟨exRowStore, exRowData, exKw, exRes, exCodecs, fun _ => none⟩

/-- `struct Post { id: AutoPk<i64>, name: String, tags: Many<Tag>, likes: Option<u8>, blog: ForeignKey<Blog> }`. -/
def exRowPost : TModel := ⟨"post", exFields⟩
def exRowPk : TField := ⟨"id", false, some (.autoPk .i64)⟩

/-- `struct Blog { #[pk] id: i32, #[unique] name: String }`. -/
def exRowBlog : TModel := ⟨"blog", [⟨"id", true, some .i32⟩, ⟨"name", false, some .string⟩]⟩
def exRowBlogPk : TField := ⟨"id", true, some .i32⟩

def exPostTable (rows : List (List SqliteVal)) : STable :=
  ⟨[⟨"id", ["INTEGER"], [.notNull, .primaryKey]⟩, ⟨"name", ["TEXT"], [.notNull]⟩, ⟨"likes", ["INTEGER"], []⟩,
    ⟨"blog", ["INTEGER"], [.notNull]⟩], [⟨"blog", "blog", "id"⟩], rows⟩
def exBlogTable (rows : List (List SqliteVal)) : STable :=
  ⟨[⟨"id", ["INTEGER"], [.notNull, .primaryKey]⟩, ⟨"name", ["TEXT"], [.notNull, .unique]⟩], [], rows⟩

/-- A database with a blog and these posts. -/
def exRowDb (posts : List (List SqliteVal)) : SDb :=
  [("blog", exBlogTable [[.integer 3, .text "dogs"]]), ("post", exPostTable posts)]

/-- A new post, and what it is after it was saved. -/
def exNewPost : ObjVals exRowPost.fields := (none, "x", (), some 200, .int 3, ())
def exSavedPost : ObjVals exRowPost.fields := (some 1, "x", (), some 200, .int 3, ())
def exPostRow : List SqliteVal := [.integer 1, .text "x", .integer 200, .integer 3]
/-- The post after an edit. -/
def exEditedPost : ObjVals exRowPost.fields := (some 1, "z", (), none, .int 3, ())
def exEditedRow : List SqliteVal := [.integer 1, .text "z", .null, .integer 3]

theorem exSave_new : exRowPost.save exRowConn (exRowDb []) exNewPost =
    .ok (exRowDb [exPostRow], exSavedPost) := by rfl
theorem exSave_edited : exRowPost.save exRowConn (exRowDb [exPostRow]) exEditedPost =
    .ok (exRowDb [exEditedRow], exEditedPost) := by rfl
theorem exDelete_post : exRowPost.delete exRowConn (exRowDb [exEditedRow]) exEditedPost =
    .ok (exRowDb []) := by rfl

theorem exRowPost_ok : TModelOk exRowConn exRowPost exRowPk where
  covers := exCovers
  excluded := rfl
  table := nameOf rfl (by decide) (by decide)
  table_ne := by decide
  names := by
    intro f hf
    simp only [exRowPost, exFields, List.mem_cons, List.not_mem_nil, or_false] at hf
    rcases hf with rfl | rfl | rfl | rfl | rfl <;> exact nameOf rfl (by decide) (by decide)
  distinct := by decide
  key := rfl
  plain := ⟨nameOf rfl (by decide) (by decide), by decide, rfl⟩
  keyType := ⟨.autoPk .i64, .integer, rfl, rfl, by decide, id⟩
  auto := by
    intro f hf
    simp only [exRowPost, exFields, List.mem_cons, List.not_mem_nil, or_false] at hf
    rcases hf with rfl | rfl | rfl | rfl | rfl <;> intro h <;> first | rfl | cases h
  autoInt := by
    intro ty h
    cases h
    exact ⟨_, .i64⟩

theorem exRowBlog_ok : TModelOk exRowConn exRowBlog exRowBlogPk where
  covers := exCovers
  excluded := rfl
  table := nameOf rfl (by decide) (by decide)
  table_ne := by decide
  names := by
    intro f hf
    simp only [exRowBlog, List.mem_cons, List.not_mem_nil, or_false] at hf
    rcases hf with rfl | rfl <;> exact nameOf rfl (by decide) (by decide)
  distinct := by decide
  key := rfl
  plain := ⟨nameOf rfl (by decide) (by decide), by decide, rfl⟩
  keyType := ⟨.i32, .integer, rfl, rfl, by decide, id⟩
  auto := by
    intro f hf
    simp only [exRowBlog, List.mem_cons, List.not_mem_nil, or_false] at hf
    rcases hf with rfl | rfl <;> intro h <;> cases h
  autoInt := by
    intro ty h
    cases h

theorem exPostTable_fits (rows : List (List SqliteVal)) : TableFits exRowPost exRowPk (exPostTable rows) where
  distinct := by simp [exPostTable]
  fields := by
    intro f hf ty hty
    simp only [exRowPost, exFields, List.mem_cons, List.not_mem_nil, or_false] at hf
    rcases hf with rfl | rfl | rfl | rfl | rfl <;> cases hty
    · exact ⟨⟨"id", ["INTEGER"], [.notNull, .primaryKey]⟩, by simp [exPostTable], rfl, ⟨_, rfl, rfl⟩,
        fun _ => id, by decide⟩
    · exact ⟨⟨"name", ["TEXT"], [.notNull]⟩, by simp [exPostTable], rfl, ⟨_, rfl, rfl⟩, fun _ => id, by decide⟩
    · exact ⟨⟨"likes", ["INTEGER"], []⟩, by simp [exPostTable], rfl, ⟨_, rfl, rfl⟩,
        (fun h => by rcases h with h | h <;> cases h), by decide⟩
    · exact ⟨⟨"blog", ["INTEGER"], [.notNull]⟩, by simp [exPostTable], rfl, ⟨_, rfl, rfl⟩, fun _ => id, by decide⟩
  columns := by
    intro d hd
    simp only [exPostTable, List.mem_cons, List.not_mem_nil, or_false] at hd
    rcases hd with rfl | rfl | rfl | rfl
    · exact ⟨_, .head _, _, rfl, rfl⟩
    · exact ⟨_, .tail _ (.head _), _, rfl, rfl⟩
    · exact ⟨_, .tail _ (.tail _ (.tail _ (.head _))), _, rfl, rfl⟩
    · exact ⟨_, .tail _ (.tail _ (.tail _ (.tail _ (.head _)))), _, rfl, rfl⟩
  keyDefault := by
    intro d hd h
    simp only [exPostTable, List.mem_cons, List.not_mem_nil, or_false] at hd
    rcases hd with rfl | rfl | rfl | rfl <;> rfl

theorem exRowDb_sound : SoundDb exRowStore (exRowDb []) where
  proper := by
    refine ⟨by decide, fun n s h => ?_⟩
    have hm := SMap.mem_of_lookup h
    simp only [exRowDb, List.mem_cons, Prod.mk.injEq, List.not_mem_nil, or_false] at hm
    rcases hm with ⟨-, rfl⟩ | ⟨-, rfl⟩
    · refine ⟨by simp [exBlogTable], fun r hr => ?_⟩
      simp only [exBlogTable, List.mem_cons, List.not_mem_nil, or_false] at hr
      subst hr
      exact .cons ⟨.integer, rfl, rfl⟩ (.cons ⟨.text, rfl, rfl⟩ .nil)
    · exact ⟨by simp [exPostTable], fun r hr => by cases hr⟩
  unique := by
    intro n s h
    have hm := SMap.mem_of_lookup h
    simp only [exRowDb, List.mem_cons, Prod.mk.injEq, List.not_mem_nil, or_false] at hm
    rcases hm with ⟨-, rfl⟩ | ⟨-, rfl⟩ <;> decide

theorem exPost_ready : Ready exRowConn exRowPost exRowPk (exRowDb []) :=
  ⟨exRowPost_ok, exRowData_laws, exRowStore_laws, ⟨fun _ => rfl, exParse_print, exParse_print⟩, exRowDb_sound,
    _, rfl, exPostTable_fits _⟩

theorem exPost_shows : ShowsObjs exRowConn exRowPost exRowPk (exRowDb []) fun _ => none :=
  empty_table_shows exPost_ready (by
    intro t h
    have : (exRowDb []).lookup exRowPost.table = some (exPostTable []) := rfl
    rw [this] at h
    cases h
    rfl)

theorem exPost_room (posts : List (List SqliteVal)) : KeyRoom exRowConn exRowPost exRowPk (exRowDb posts) := by
  intro ty I hty hI t j _ _
  cases hty
  cases hI
  simp only [intI64]
  have h1 := Int64.toInt_lt j
  have h2 := Int64.le_toInt j
  omega

theorem exNewPost_storable : Storable exRowPost.fields exNewPost :=
  ⟨(fun _ h => by cases h), trivial, ⟨trivial, trivial⟩, rfl, trivial⟩
theorem exNewPost_noNaN : NoNaNs exRowPost.fields exNewPost :=
  ⟨(fun _ h => by cases h), trivial, fun _ _ => trivial, id, trivial⟩
theorem exEditedPost_storable : Storable exRowPost.fields exEditedPost :=
  ⟨fun _ _ => trivial, trivial, trivial, rfl, trivial⟩
theorem exEditedPost_noNaN : NoNaNs exRowPost.fields exEditedPost :=
  ⟨fun _ _ => trivial, trivial, (fun _ h => by cases h), id, trivial⟩

/-- A post is saved, edited and saved again: the database shows the edited post. -/
theorem exPost_run : ObjRun exRowConn exRowPost exRowPk (exRowDb []) (fun _ => none) (exRowDb [exEditedRow])
    (Objects.put (Objects.put (fun _ => none) (.bigInt 1) exSavedPost) (.bigInt 1) exEditedPost) := by
  refine .save (.save .start exNewPost_storable exNewPost_noNaN (exPost_room _) ?_ exSave_new rfl)
    exEditedPost_storable exEditedPost_noNaN (exPost_room _) ?_ exSave_edited rfl
  · intro _ h
    cases h
  · intro _ _ id h
    have : keySql exRowPk.name exRowPost.fields exEditedPost = .ok (.bigInt 1) := rfl
    rw [this] at h
    cases h
    simp [Objects.put]

example : ∃ res, exRowPost.GetOut exRowConn (exRowDb [exEditedRow]) (.bigInt 1) res := by
  obtain ⟨h1, h2⟩ := objects_run_partial exPost_ready exPost_shows exPost_run
  obtain ⟨⟨r, hr⟩, -⟩ := h2 (.bigInt 1) (fun ty h => by cases h; rfl)
  exact ⟨_, r, hr, rfl⟩

/-- Saving the first post shows it. -/
example : ∃ id, keySql exRowPk.name exRowPost.fields exSavedPost = .ok id ∧
    ShowsObjs exRowConn exRowPost exRowPk (exRowDb [exPostRow]) (Objects.put (fun _ => none) id exSavedPost) := by
  obtain ⟨id, h1, -, h2, -⟩ := save_shows_partial exPost_ready exPost_shows exNewPost_storable exNewPost_noNaN
    (exPost_room _) (fun _ h => by cases h) exSave_new
  exact ⟨id, h1, h2⟩

/-- Deleting the edited post: then there is none. -/
example : ShowsObjs exRowConn exRowPost exRowPk (exRowDb []) (Objects.remove
    (Objects.put (Objects.put (fun _ => none) (.bigInt 1) exSavedPost) (.bigInt 1) exEditedPost) (.bigInt 1)) := by
  obtain ⟨h1, h2⟩ := objects_run_partial exPost_ready exPost_shows exPost_run
  obtain ⟨id, h3, h4, -⟩ := delete_shows h1 h2 exEditedPost_storable exDelete_post
  have : keySql exRowPk.name exRowPost.fields exEditedPost = .ok (.bigInt 1) := rfl
  rw [this] at h3
  cases h3
  exact h4

/-- Saving the edited post again after it was deleted stores nothing. -/
example : exRowPost.save exRowConn (exRowDb []) exEditedPost = .ok (exRowDb [], exEditedPost) :=
  (save_missing_row_sqlite_violated exPost_ready exPost_shows exEditedPost_storable exEditedPost_noNaN rfl
    (id := .bigInt 1) rfl rfl).1

/-- Saving a blog does not change the posts. -/
example : ∃ u', exRowBlog.save exRowConn (exRowDb []) ((4 : Int32), "cats", ()) = .ok (u', ((4 : Int32), "cats", ())) ∧
    ShowsObjs exRowConn exRowPost exRowPk u' fun _ => none := by
  refine ⟨[("blog", exBlogTable [[.integer 3, .text "dogs"], [.integer 4, .text "cats"]]), ("post", exPostTable [])],
    by rfl, ?_⟩
  exact (other_model_shows exPost_ready exPost_shows exRowBlog_ok (by decide) (o := ((4 : Int32), "cats", ()))
    (.inl ⟨_, (by rfl)⟩)).1

/-- Renaming a blog keeps its key; another blog of the same name is refused. -/
example : exRowBlog.save exRowConn (exRowDb []) ((3 : Int32), "cats", ()) =
    .ok ([("blog", exBlogTable [[.integer 3, .text "cats"]]), ("post", exPostTable [])],
      ((3 : Int32), "cats", ())) := by rfl
example : exRowBlog.save exRowConn (exRowDb []) ((4 : Int32), "dogs", ()) = .error .db := by rfl
/-- A post of a blog that does not exist is refused. -/
example : exRowPost.save exRowConn (exRowDb []) (none, "x", (), none, .int 4, ()) = .error .db := by rfl

theorem exNewPost_admissible : Admissible exRowConn exRowPost exRowPk (exRowDb []) (exPostTable []) exNewPost where
  newKey _ := by decide
  unique := by
    intro d _ _ w _ _ r hr
    cases hr
  refs := by
    intro fk hfk
    simp only [exPostTable, List.mem_cons, List.not_mem_nil, or_false] at hfk
    subst hfk
    refine ⟨⟨"blog", ["INTEGER"], [.notNull]⟩, by simp [exPostTable], rfl, ?_⟩
    rintro w ⟨v, b, st, h1, h2, h3, h4⟩ _
    cases h3
    have : keySql "blog" exRowPost.fields exNewPost = .ok (.int 3) := rfl
    rw [this] at h1
    cases h1
    cases h2
    cases h4
    exact .inl ⟨exBlogTable [[.integer 3, .text "dogs"]], rfl, by decide⟩

theorem exPost_keyRefs : KeyRefs exRowPost exRowPk (exRowDb []) where
  refer := by
    intro n s h fk hfk e
    have hm := SMap.mem_of_lookup h
    simp only [exRowDb, List.mem_cons, Prod.mk.injEq, List.not_mem_nil, or_false] at hm
    rcases hm with ⟨-, rfl⟩ | ⟨-, rfl⟩
    · cases hfk
    · simp only [exPostTable, List.mem_cons, List.not_mem_nil, or_false] at hfk
      subst hfk
      exact absurd e (by decide)
  auto := by
    intro _ t h fk hfk
    have : (exRowDb []).lookup exRowPost.table = some (exPostTable []) := rfl
    rw [this] at h
    cases h
    simp only [exPostTable, List.mem_cons, List.not_mem_nil, or_false] at hfk
    subst hfk
    decide

example : ∃ u' o', exRowPost.save exRowConn (exRowDb []) exNewPost = .ok (u', o') :=
  save_succeeds exPost_ready rfl exNewPost_storable exNewPost_noNaN (exPost_room _) exNewPost_admissible
    exPost_keyRefs

end Butane.Props
