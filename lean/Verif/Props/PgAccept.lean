/-
C92: which saves and deletes succeed on PostgreSQL.
-/
import Verif.Proofs.PgAccept
import Verif.Props.PgObj

namespace Butane.Props
open Butane Butane.Spec Butane.PgData

variable {k : PgConn} {m : TModel} {pk : TField} {u : PDb}

/-- C92, saving (partial).  An object that breaks no constraint of the database is saved: its values can be
stored, unique columns stay unique, what it refers to is there, and, if it has no key yet, the number of
the sequence is new.

Missing: tables with columns that belong to no field (they are filled with their defaults), fractions of
microseconds, and what `PgReady` excludes (C91). -/
theorem pg_save_succeeds_partial (h : PgReady k m pk u) {t : Table} (hlk : u.lookup m.table = some t)
    (hof : OnlyFields m t) {key : Int64} {o : ObjVals m.fields} (ho : Storable m.fields o)
    (hw : AllWholeMicros m.fields o) (hfit : PgKeyFits pk key) (hrefs : PgKeyRefs m pk u)
    (hacc : PgAccepts k m pk u t key o) : ∃ u' o', m.pgSave k u key o = .ok (u', o') := by
  obtain ⟨t', hlk', ht⟩ := h.table
  rw [hlk] at hlk'
  cases hlk'
  exact PgP.save_of h hlk ht hof ho hw hfit hacc hrefs

/-- C92, deleting.  An object with a key that no other row refers to is deleted, and so is one whose row
is not there. -/
theorem pg_delete_succeeds (h : PgReady k m pk u) {t : Table} (hlk : u.lookup m.table = some t)
    {o : ObjVals m.fields} (ho : Storable m.fields o) (hw : AllWholeMicros m.fields o)
    (hkey : keyValid pk.name m.fields o = true) (hrefs : PgKeyRefs m pk u) (hun : PgUnused k m pk u t o) :
    ∃ u', m.pgDelete k u o = .ok u' := by
  obtain ⟨t', hlk', ht⟩ := h.table
  rw [hlk] at hlk'
  cases hlk'
  exact PgP.delete_of h hlk ht ho hw hkey hrefs hun

/-- C92, together with C91: an object the database accepts is saved, and then found by its key with all
its fields. -/
theorem pg_save_get_partial (h : PgReady k m pk u) {st : Objects m} (hs : PgShows k m pk u st) {t : Table}
    (hlk : u.lookup m.table = some t) (hof : OnlyFields m t) {key : Int64} {o : ObjVals m.fields}
    (ho : Storable m.fields o) (hw : AllWholeMicros m.fields o) (hfit : PgKeyFits pk key)
    (hrefs : PgKeyRefs m pk u) (hacc : PgAccepts k m pk u t key o)
    (hrow : pk.isAuto = true → keyValid pk.name m.fields o = true → ∀ id,
      keySql pk.name m.fields o = .ok id → (st id).isSome) :
    ∃ u' o' id, m.pgSave k u key o = .ok (u', o') ∧ SameButAuto m.fields o o' ∧
      keySql pk.name m.fields o' = .ok id ∧ (∃ res, m.PgGetOut k u' id res) ∧
      ∀ res, m.PgGetOut k u' id res → ∃ x, res = .ok x ∧ EqualFields m.fields o' x := by
  obtain ⟨u', o', hsave⟩ := pg_save_succeeds_partial h hlk hof ho hw hfit hrefs hacc
  obtain ⟨-, -, -, -, -, hsame, -⟩ := pg_save_shows_partial h hs ho hw hfit hrow hsave
  obtain ⟨id, h1, h2, h3⟩ := save_then_get_pg_partial h hs ho hw hfit hrow hsave
  exact ⟨u', o', id, hsave, hsame, h1, h2, h3⟩

/-! ### Examples -/

theorem exPg_keyRefs (posts : List PRow) : PgKeyRefs exRowPost exRowPk (exPgDb posts) where
  refer := by
    intro n s hl fk hfk e
    have := SMap.mem_of_lookup hl
    simp only [exPgDb, List.mem_cons, List.not_mem_nil, or_false, Prod.mk.injEq] at this
    rcases this with ⟨-, rfl⟩ | ⟨-, rfl⟩
    · cases hfk
    · simp only [exPgPostTable, List.mem_singleton] at hfk
      subst hfk
      exact absurd e (by decide)
  auto := by
    intro _ t hl fk hfk
    have : (exPgDb posts).lookup exRowPost.table = some (exPgPostTable posts) := rfl
    rw [this] at hl
    cases hl
    simp only [exPgPostTable, List.mem_singleton] at hfk
    subst hfk
    decide

theorem exPg_onlyFields (posts : List PRow) : OnlyFields exRowPost (exPgPostTable posts) := by
  intro d hd
  simp only [exPgPostTable, List.mem_cons, List.not_mem_nil, or_false] at hd
  rcases hd with rfl | rfl | rfl | rfl
  · exact ⟨⟨"id", false, some (.autoPk .i64)⟩, by simp [exRowPost, exFields], rfl, Option.some_ne_none _⟩
  · exact ⟨⟨"name", false, some .string⟩, by simp [exRowPost, exFields], rfl, Option.some_ne_none _⟩
  · exact ⟨⟨"likes", false, some (.option .u8)⟩, by simp [exRowPost, exFields], rfl, Option.some_ne_none _⟩
  · exact ⟨⟨"blog", false, some (.fkey .i32)⟩, by simp [exRowPost, exFields], rfl, Option.some_ne_none _⟩

/-- The database accepts a new post of blog 3, when the sequence gives 7. -/
theorem exPg_accepts : PgAccepts exPgConn exRowPost exRowPk (exPgDb []) (exPgPostTable []) 7 exNewPost where
  number := by
    intro _ d hd hdn
    simp only [exPgPostTable, List.mem_cons, List.not_mem_nil, or_false] at hd
    rcases hd with rfl | rfl | rfl | rfl
    · exact ⟨.int8 7, rfl, rfl, fun r hr => by cases hr⟩
    all_goals exact absurd hdn (by decide)
  stored := fun _ _ _ _ => rfl
  unique := fun _ _ _ _ _ r hr => by cases hr
  refs := by
    intro fk hfk
    simp only [exPgPostTable, List.mem_singleton] at hfk
    subst hfk
    refine ⟨⟨"blog", .int4, true, false, .null, false⟩, by simp [exPgPostTable], rfl, fun w hw _ => ?_⟩
    obtain ⟨v, h1, h2⟩ := hw
    have : keySql "blog" exRowPost.fields exNewPost = .ok (.int 3) := rfl
    rw [this] at h1
    cases h1
    cases h2
    exact .inl ⟨_, rfl, _, List.mem_singleton_self _, rfl⟩

example : ∃ u' o', exRowPost.pgSave exPgConn (exPgDb []) 7 exNewPost = .ok (u', o') :=
  pg_save_succeeds_partial exPg_ready rfl (exPg_onlyFields _) exNewPost_storable exNewPost_whole (exPg_fits 7)
    (exPg_keyRefs _) exPg_accepts

example : ∃ u' o' id, exRowPost.pgSave exPgConn (exPgDb []) 7 exNewPost = .ok (u', o') ∧
    keySql exRowPk.name exRowPost.fields o' = .ok id ∧
    ∀ res, exRowPost.PgGetOut exPgConn u' id res → ∃ x, res = .ok x ∧ EqualFields exRowPost.fields o' x := by
  obtain ⟨u', o', id, h1, -, h2, -, h3⟩ := pg_save_get_partial exPg_ready exPg_shows rfl (exPg_onlyFields _)
    exNewPost_storable exNewPost_whole (exPg_fits 7) (exPg_keyRefs _) exPg_accepts (fun _ h => by cases h)
  exact ⟨u', o', id, h1, h2, h3⟩

/-- The edited post can be deleted: nothing refers to posts. -/
example : ∃ u', exRowPost.pgDelete exPgConn (exPgDb [exPgEditedRow]) exPgEdited = .ok u' := by
  obtain ⟨h1, -⟩ := pg_objects_run_partial exPg_ready exPg_shows exPg_run
  refine pg_delete_succeeds h1 rfl exPgEdited_storable exPgEdited_whole rfl (exPg_keyRefs _) ?_
  intro n s hl fk hfk e
  have := SMap.mem_of_lookup hl
  simp only [exPgDb, List.mem_cons, List.not_mem_nil, or_false, Prod.mk.injEq] at this
  rcases this with ⟨-, rfl⟩ | ⟨-, rfl⟩
  · cases hfk
  · simp only [exPgPostTable, List.mem_singleton] at hfk
    subst hfk
    exact absurd e (by decide)

/-! Another blog: its key and its name, which is unique, are different from those of the blog there is. -/

def exPgDogs : PRow := exRowOf [("id", .int4 3), ("name", .text "dogs")]

theorem exPgBlogTable_fits (rows : List PRow) : PgTableFits exRowBlog exRowBlogPk (exPgBlogTable rows) where
  distinct := by simp [exPgBlogTable, names]
  fields := by
    intro f hf ty hty
    simp only [exRowBlog, List.mem_cons, List.not_mem_nil, or_false] at hf
    rcases hf with rfl | rfl <;> cases hty
    · exact ⟨⟨"id", .int4, true, false, .null, true⟩, by simp [exPgBlogTable], rfl, rfl, fun _ => id,
        fun _ => ⟨rfl, rfl⟩, (fun h => by cases h)⟩
    · exact ⟨⟨"name", .text, true, false, .null, true⟩, by simp [exPgBlogTable], rfl, rfl, fun _ => id,
        (fun h => absurd h (by decide)), (fun h => by cases h)⟩

theorem exPgBlog_ready : PgReady exPgConn exRowBlog exRowBlogPk (exPgDb []) :=
  ⟨exPgBlog_ok, exPgServer_laws, by decide, rfl, _, rfl, exPgBlogTable_fits _⟩

theorem exPgBlog_onlyFields (rows : List PRow) : OnlyFields exRowBlog (exPgBlogTable rows) := by
  intro d hd
  simp only [exPgBlogTable, List.mem_cons, List.not_mem_nil, or_false] at hd
  rcases hd with rfl | rfl
  · exact ⟨⟨"id", true, some .i32⟩, by simp [exRowBlog], rfl, Option.some_ne_none _⟩
  · exact ⟨⟨"name", false, some .string⟩, by simp [exRowBlog], rfl, Option.some_ne_none _⟩

theorem exPgBlog_accepts : PgAccepts exPgConn exRowBlog exRowBlogPk (exPgDb []) (exPgBlogTable [exPgDogs]) 1
    ((4 : Int32), "cats", ()) where
  number := fun h => by cases h
  stored := fun _ _ _ _ => rfl
  unique := by
    intro d hd _ w hw r hr he
    simp only [exPgBlogTable, List.mem_singleton] at hr
    subst hr
    simp only [exPgBlogTable, List.mem_cons, List.not_mem_nil, or_false] at hd
    obtain ⟨v, h1, h2⟩ := hw
    rcases hd with rfl | rfl
    · have : keySql "id" exRowBlog.fields ((4 : Int32), "cats", ()) = .ok (.int 4) := rfl
      rw [this] at h1
      cases h1
      cases h2
      rcases he with he | he <;> exact absurd he (by decide)
    · have : keySql "name" exRowBlog.fields ((4 : Int32), "cats", ()) = .ok (.text "cats") := rfl
      rw [this] at h1
      cases h1
      cases h2
      rcases he with he | he <;> exact absurd he (by decide)
  refs := fun fk hfk => by cases hfk

example : ∃ u' o', exRowBlog.pgSave exPgConn (exPgDb []) 1 ((4 : Int32), "cats", ()) = .ok (u', o') := by
  refine pg_save_succeeds_partial exPgBlog_ready rfl (exPgBlog_onlyFields _) ⟨trivial, trivial, trivial⟩
    ⟨trivial, trivial, trivial⟩ (fun ty I h => by cases h) ⟨?_, fun h => by cases h⟩ exPgBlog_accepts
  intro n s hl fk hfk e
  have := SMap.mem_of_lookup hl
  simp only [exPgDb, List.mem_cons, List.not_mem_nil, or_false, Prod.mk.injEq] at this
  rcases this with ⟨-, rfl⟩ | ⟨-, rfl⟩
  · cases hfk
  · simp only [exPgPostTable, List.mem_singleton] at hfk
    subst hfk
    rfl

/-- The blog of the post cannot be deleted while the post is there. -/
example : exRowBlog.pgDelete exPgConn (exPgDb [exPgPostRow]) ((3 : Int32), "dogs", ()) = .error .db := by rfl

end Butane.Props
