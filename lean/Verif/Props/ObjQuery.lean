/-
C83: queries find the objects the filter describes.
-/
import Verif.Proofs.ObjLoad
import Verif.Props.SqliteObj

namespace Butane.Props
open Butane Butane.Spec Butane.Ddl

variable {k : SqliteConn} {W : World} {u : SDb}

/-- C83, `load` (partial).  The database holds the objects and links of `W`.  Then whatever `load` of a
query on a model returns is no error: it is all objects of the model that the filter describes, each
once, in an order that the order terms allow, cut to the page that offset and limit give.

Missing: a field named by an SQL keyword in a comparison (`filter_reserved_field_violated`), a field
named `owner` or `has` inside `contains` (`filter_owner_field_violated`), `like` on a real, a negative
limit or offset (`load_negative_limit`), and an offset without a limit if there are too many objects
(`load_offset_only_violated`). -/
theorem query_selects_partial (hW : Keeps k u W) (hR : RealLaws k.data) {n : String} {s : Stock}
    (hs : W.stock n = some s) {q : Query} {e : Option FOr} (hq : Sendable k W s q e)
    (hl : NonNeg q.limit) (ho : NonNeg q.offset)
    (hbig : q.limit = none → ∀ o, q.offset = some o → ∀ t, u.lookup n = some t →
      (t.rows.length : Int) ≤ o.toInt + 2147483647)
    {res : Except OpErr (List (ObjVals s.m.fields))} (h : s.m.LoadOut k u q res) :
    ∃ os, res = .ok os ∧ Selects k W s e q.sort (count q.limit) (count q.offset) os := by
  obtain ⟨hn, t, hT⟩ := tabled_of hW hs
  exact load_selects hR hT (asks_of hW hR hs hT hq) hl ho (fun h1 o h2 => hbig h1 o h2 t (hn ▸ hT.lookup)) h

/-- C83: and `load` does return. -/
theorem query_returns_partial (hW : Keeps k u W) (hR : RealLaws k.data) (hO : OrderLaws k.data) {n : String}
    {s : Stock} (hs : W.stock n = some s) {q : Query} {e : Option FOr} (hq : Sendable k W s q e)
    (hl : NonNeg q.limit) (ho : NonNeg q.offset)
    (hbig : q.limit = none → ∀ o, q.offset = some o → ∀ t, u.lookup n = some t →
      (t.rows.length : Int) ≤ o.toInt + 2147483647) : ∃ res, s.m.LoadOut k u q res := by
  obtain ⟨hn, t, hT⟩ := tabled_of hW hs
  exact load_exists hO hT (asks_of hW hR hs hT hq) hl ho (fun h1 o h2 => hbig h1 o h2 t (hn ▸ hT.lookup))

/-- C83, `load_first` (partial, as above; and the limit is not 0, `load_first_limit_zero_violated`): it
returns the first object of a list that `load` may return, or nothing if that is empty. -/
theorem query_first_partial (hW : Keeps k u W) (hR : RealLaws k.data) {n : String} {s : Stock}
    (hs : W.stock n = some s) {q : Query} {e : Option FOr} (hq : Sendable k W s q e)
    (hl : ∀ x ∈ q.limit, 0 < x.toInt) (ho : NonNeg q.offset)
    {res : Except OpErr (Option (ObjVals s.m.fields))} (h : s.m.LoadFirstOut k u q res) :
    ∃ os, res = .ok os.head? ∧ Selects k W s e q.sort (count q.limit) (count q.offset) os := by
  obtain ⟨-, t, hT⟩ := tabled_of hW hs
  exact first_selects hR hT (asks_of hW hR hs hT hq) hl ho h

/-- What `==` means in a filter: the values are equal (if they are not reals, for which it is SQLite's
equality of numbers). -/
theorem compares_eq (hD : DataLaws k.env k.data) (hc : Faithful k.codecs) {ty : SqlType} {st : SqliteType}
    (hst : sqliteType ty = some st) (hne : st ≠ .real) {x v : SqlVal} (hx : x = .null ∨ x.sqltype = some ty)
    (hv : v = .null ∨ v.sqltype = some ty) (hbx : CanBind k x) (hbv : CanBind k v) :
    Compares k .eq x v ↔ x = v := by
  obtain ⟨a, ha⟩ := hbx
  obtain ⟨b, hb⟩ := hbv
  rcases hv with rfl | hv
  · exact Iff.rfl
  have hvn : v ≠ .null := by rintro rfl; cases hv
  have hb0 : b ≠ .null := fun e => hvn ((toSqlite_null hb).1 e)
  have key : Compares k .eq x v ↔ Related k .eq x v := by cases v <;> first | exact absurd rfl hvn | exact Iff.rfl
  have heq := equal_class (k := k) hD hne (ofClass_of_type hx hst ha) (ofClass_of_type (.inr hv) hst hb) hb0
  have hrel : Related k .eq x v ↔ Equal (convertedRel k.codecs k.data.rel) (seen a) (seen b) := by
    unfold Related Equal convertedRel
    rw [converted_seen, converted_seen]
    constructor
    · rintro ⟨h1, h2, a', b', h3, h4, h5⟩
      rw [ha] at h3
      rw [hb] at h4
      cases h3
      cases h4
      exact ⟨fun e => h1 ((toSqlite_null ha).1 (seen_null.1 e)), fun e => h2 ((toSqlite_null hb).1 (seen_null.1 e)), h5⟩
    · rintro ⟨h1, h2, h3⟩
      exact ⟨fun e => h1 (seen_null.2 ((toSqlite_null ha).2 e)), hvn, a, b, ha, hb, h3⟩
  rw [key, hrel, heq]
  constructor
  · rintro rfl
    have hxn : x ≠ .null := fun e => hb0 ((toSqlite_null ha).2 e)
    exact toSqlite_inj hc (hx.resolve_left hxn) hv ha hb
  · rintro rfl
    have := ha.symm.trans hb
    cases this
    rfl

/-! ### Histories -/

/-- New tables hold no objects. -/
theorem keeps_start (hr : ∀ n s, W.stock n = some s → s.m.table = n ∧ Ready k s.m s.pk u ∧
      (∀ t, u.lookup n = some t → t.rows = []) ∧ ∀ id, s.objs id = none)
    (hl : ∀ n L, W.links n = some L → W.stock n = none ∧ IsName n ∧ StoresLinks k u n L) : Keeps k u W where
  stock n s hs := by
    obtain ⟨h1, h2, h3, h4⟩ := hr n s hs
    obtain ⟨t, hlk, -⟩ := h2.table
    have : s.objs = fun _ => none := funext h4
    rw [this]
    exact ⟨h1, h2, storesObjs_empty hlk (h3 t (h1 ▸ hlk))⟩
  links := hl

theorem keeps_set (hW : Keeps k u W) {n : String} {s : Stock} (hs : W.stock n = some s) {objs : Objects s.m}
    {u' : SDb} (hr : Rewrites k.env u u' s.m.table) (ho : StoresObjs k s.m s.pk u' objs) :
    Keeps k u' (W.setObjs n s objs) where
  stock n' s' hs' := by
    obtain ⟨h1, h2, h3⟩ := hW.stock n s hs
    simp only [World.setObjs] at hs'
    split at hs'
    · next e =>
      subst e
      cases hs'
      exact ⟨h1, ready_of_rewrites h2 hr, ho⟩
    · next e =>
      obtain ⟨g1, g2, g3⟩ := hW.stock n' s' hs'
      refine ⟨g1, ready_of_rewrites g2 hr, storesObjs_other g3 hr ?_⟩
      rw [g1, h1]
      exact Ne.symm e
  links n' L hL := by
    obtain ⟨h1, h2, t, h3, h4⟩ := hW.links n' L hL
    have hne : n' ≠ n := by
      rintro rfl
      rw [hs] at h1
      cases h1
    refine ⟨?_, h2, t, ?_, h4⟩
    · simp only [World.setObjs, if_neg hne, h1]
    · rw [hr.others _ (by rw [(hW.stock n s hs).1]; exact hne), h3]

/-- C83, histories (partial, as C79): whatever objects of whatever models a program saves and deletes, the
database holds the objects that were saved and not deleted since. -/
theorem world_run_partial {u0 : SDb} {W0 : World} (h0 : Keeps k u0 W0) (hr : WorldRun k u0 W0 u W) :
    Keeps k u W := by
  induction hr with
  | start => exact h0
  | @save u W n u' id s o o' _ hs ho hn hroom hrow hsave hkey ih =>
    obtain ⟨h1, h2, h3⟩ := ih.stock n s hs
    obtain ⟨t, hlk, ht⟩ := h2.table
    obtain ⟨g1, g2, id', a, g3, g4, g5⟩ := save_saved h2.model h2.data h2.strict h2.sound hlk ht ho hn hroom
      (fun ha hv id a hk hst => (shows_hasRow h2 (shows_of_stores h2 h3)
        ⟨fun ty hty => keyLike_of_storable h2.model ho hk ty hty, hst⟩).1 (hrow ha hv id hk)) hsave
    have := g3.key
    rw [hkey] at this
    cases this
    exact keeps_set ih hs (save_rewrites h2.model h2.strict h2.sound hsave) (storesObjs_saved h2 h3 g2 g3)
  | @delete u W n u' id s o _ hs ho hd hkey ih =>
    obtain ⟨h1, h2, h3⟩ := ih.stock n s hs
    exact keeps_set ih hs (delete_rewrites h2.model h2.strict h2.sound ho hd) (storesObjs_deleted h2 h3 ho hkey hd)

/-- C83, queries in histories (partial, as above). -/
theorem history_query_partial {u0 : SDb} {W0 : World} (h0 : Keeps k u0 W0) (hr : WorldRun k u0 W0 u W)
    (hR : RealLaws k.data) {n : String} {s : Stock} (hs : W.stock n = some s) {q : Query} {e : Option FOr}
    (hq : Sendable k W s q e) (hl : NonNeg q.limit) (ho : NonNeg q.offset)
    (hbig : q.limit = none → ∀ o, q.offset = some o → ∀ t, u.lookup n = some t →
      (t.rows.length : Int) ≤ o.toInt + 2147483647)
    {res : Except OpErr (List (ObjVals s.m.fields))} (h : s.m.LoadOut k u q res) :
    ∃ os, res = .ok os ∧ Selects k W s e q.sort (count q.limit) (count q.offset) os :=
  query_selects_partial (world_run_partial h0 hr) hR hs hq hl ho hbig h

/-! ### Examples -/

/-- Zero has no sign. -/
def exPlain : Sql.DbVal → Sql.DbVal
  | .other (.real r) => .other (.real (if r.isZero then ⟨0⟩ else r))
  | v => v

/-- Comparisons and order of an SQLite database: numbers first. -/
def exQueryData : SqliteData where
  rel op a b := exRel op (exPlain a) (exPlain b)
  le a b :=
    match a, b with
    | .int i, .int j => decide (i ≤ j)
    | .int _, _ => true
    | _, .int _ => false
    | _, _ => true
  newKey := exRowData.newKey

theorem exPlain_eq {r r' : F64} (h : F64.eq r r' = true) : exPlain (.other (.real r')) = exPlain (.other (.real r)) := by
  simp only [F64.eq, Bool.and_eq_true, Bool.or_eq_true, Bool.not_eq_true', beq_iff_eq] at h
  obtain ⟨-, h | ⟨h1, h2⟩⟩ := h
  · obtain ⟨b⟩ := r
    obtain ⟨b'⟩ := r'
    cases h
    rfl
  · simp [exPlain, h1, h2]

theorem exQuery_real : RealLaws exQueryData where
  rel op r r' x _ h := by simp only [exQueryData, exPlain_eq h]
  leLeft r r' x h := by cases x <;> rfl
  leRight r r' x h := by cases x <;> rfl

theorem exQuery_order : OrderLaws exQueryData where
  total a b := by
    cases a <;> cases b <;> simp [exQueryData]
    omega
  trans a b c := by
    cases a <;> cases b <;> cases c <;> simp [exQueryData]
    omega

theorem exQuery_laws : DataLaws exRowStore exQueryData where
  stored := exRowData_laws.stored
  write := exRowData_laws.write
  eq a b h := by
    have e : exPlain (seen a) = seen a ∧ exPlain (seen b) = seen b := by
      cases a <;> cases b <;> first | exact h.elim | exact ⟨rfl, rfl⟩
    simp only [exQueryData, e, exRel, decide_eq_true_eq]
    exact ⟨seen_inj, fun h => by rw [h]⟩
  newKey := exRowData_laws.newKey

def exQueryConn : SqliteConn := ⟨exRowStore, exQueryData, exKw, exRes, exCodecs, fun _ => none⟩

def exLinkTable (rows : List (List SqliteVal)) : STable :=
  ⟨[⟨"owner", ["INTEGER"], [.notNull]⟩, ⟨"has", ["INTEGER"], [.notNull]⟩], [], rows⟩

/-- Blogs, posts, and which blogs posts are tagged with. -/
def exQueryDb (blogs posts : List (List SqliteVal)) : SDb :=
  [("blog", exBlogTable blogs), ("post", exPostTable posts),
   ("post_tags_Many", exLinkTable [[.integer 1, .integer 4], [.integer 2, .integer 3]])]

def exTagged (x y : SqlVal) : Prop := (x = .bigInt 1 ∧ y = .int 4) ∨ (x = .bigInt 2 ∧ y = .int 3)

def exQueryWorld (blogs : Objects exRowBlog) (posts : Objects exRowPost) : World where
  stock n := if n = "post" then some ⟨exRowPost, exRowPk, posts⟩
    else if n = "blog" then some ⟨exRowBlog, exRowBlogPk, blogs⟩ else none
  links n := if n = "post_tags_Many" then some ⟨exRowPk, exRowBlogPk, exTagged⟩ else none

theorem exQuery_post_ok : TModelOk exQueryConn exRowPost exRowPk :=
  ⟨exRowPost_ok.covers, exRowPost_ok.excluded, exRowPost_ok.table, exRowPost_ok.table_ne, exRowPost_ok.names,
    exRowPost_ok.distinct, exRowPost_ok.key, exRowPost_ok.plain, exRowPost_ok.keyType, exRowPost_ok.auto,
    exRowPost_ok.autoInt⟩
theorem exQuery_blog_ok : TModelOk exQueryConn exRowBlog exRowBlogPk :=
  ⟨exRowBlog_ok.covers, exRowBlog_ok.excluded, exRowBlog_ok.table, exRowBlog_ok.table_ne, exRowBlog_ok.names,
    exRowBlog_ok.distinct, exRowBlog_ok.key, exRowBlog_ok.plain, exRowBlog_ok.keyType, exRowBlog_ok.auto,
    exRowBlog_ok.autoInt⟩

theorem exBlogTable_fits (rows : List (List SqliteVal)) : TableFits exRowBlog exRowBlogPk (exBlogTable rows) where
  distinct := by simp [exBlogTable]
  fields := by
    intro f hf ty hty
    simp only [exRowBlog, List.mem_cons, List.not_mem_nil, or_false] at hf
    rcases hf with rfl | rfl <;> cases hty
    · exact ⟨⟨"id", ["INTEGER"], [.notNull, .primaryKey]⟩, by simp [exBlogTable], rfl, ⟨_, rfl, rfl⟩,
        fun _ => id, by decide⟩
    · exact ⟨⟨"name", ["TEXT"], [.notNull, .unique]⟩, by simp [exBlogTable], rfl, ⟨_, rfl, rfl⟩, fun _ => id, by decide⟩
  columns := by
    intro d hd
    simp only [exBlogTable, List.mem_cons, List.not_mem_nil, or_false] at hd
    rcases hd with rfl | rfl
    · exact ⟨_, .head _, _, rfl, rfl⟩
    · exact ⟨_, .tail _ (.head _), _, rfl, rfl⟩
  keyDefault := by
    intro d hd h
    simp only [exBlogTable, List.mem_cons, List.not_mem_nil, or_false] at hd
    rcases hd with rfl | rfl <;> rfl

theorem exQueryDb_sound : SoundDb exRowStore (exQueryDb [] []) where
  proper := by
    refine ⟨by decide, fun n s h => ?_⟩
    have hm := SMap.mem_of_lookup h
    simp only [exQueryDb, List.mem_cons, Prod.mk.injEq, List.not_mem_nil, or_false] at hm
    rcases hm with ⟨-, rfl⟩ | ⟨-, rfl⟩ | ⟨-, rfl⟩
    · exact ⟨by simp [exBlogTable], fun r hr => by cases hr⟩
    · exact ⟨by simp [exPostTable], fun r hr => by cases hr⟩
    · refine ⟨by simp [exLinkTable], fun r hr => ?_⟩
      simp only [exLinkTable, List.mem_cons, List.not_mem_nil, or_false] at hr
      rcases hr with rfl | rfl <;> exact .cons ⟨.integer, rfl, rfl⟩ (.cons ⟨.integer, rfl, rfl⟩ .nil)
  unique := by
    intro n s h
    have hm := SMap.mem_of_lookup h
    simp only [exQueryDb, List.mem_cons, Prod.mk.injEq, List.not_mem_nil, or_false] at hm
    rcases hm with ⟨-, rfl⟩ | ⟨-, rfl⟩ | ⟨-, rfl⟩ <;> decide

theorem exTagged_stores : StoresLinks exQueryConn (exQueryDb [] []) "post_tags_Many"
    ⟨exRowPk, exRowBlogPk, exTagged⟩ := by
  refine ⟨exLinkTable [[.integer 1, .integer 4], [.integer 2, .integer 3]], rfl, ?_, ?_, ?_⟩
  · intro c; simp [exLinkTable]
  · intro r hr
    simp only [exLinkTable, List.mem_cons, List.not_mem_nil, or_false] at hr
    rcases hr with rfl | rfl
    · exact ⟨.bigInt 1, .int 4, .integer 1, .integer 4, .inl ⟨rfl, rfl⟩, ⟨fun ty h => by cases h; rfl, rfl⟩,
        ⟨fun ty h => by cases h; rfl, rfl⟩, rfl, rfl⟩
    · exact ⟨.bigInt 2, .int 3, .integer 2, .integer 3, .inr ⟨rfl, rfl⟩, ⟨fun ty h => by cases h; rfl, rfl⟩,
        ⟨fun ty h => by cases h; rfl, rfl⟩, rfl, rfl⟩
  · rintro x y (⟨rfl, rfl⟩ | ⟨rfl, rfl⟩)
    · exact ⟨_, .head _, .integer 1, .integer 4, ⟨fun ty h => by cases h; rfl, rfl⟩,
        ⟨fun ty h => by cases h; rfl, rfl⟩, rfl, rfl⟩
    · exact ⟨_, .tail _ (.head _), .integer 2, .integer 3, ⟨fun ty h => by cases h; rfl, rfl⟩,
        ⟨fun ty h => by cases h; rfl, rfl⟩, rfl, rfl⟩

theorem exQuery_start : Keeps exQueryConn (exQueryDb [] []) (exQueryWorld (fun _ => none) fun _ => none) := by
  refine keeps_start (fun n s hs => ?_) (fun n L hL => ?_)
  · simp only [exQueryWorld] at hs
    split at hs
    · next e =>
      subst e
      cases hs
      exact ⟨rfl, ⟨exQuery_post_ok, exQuery_laws, exRowStore_laws, ⟨fun _ => rfl, exParse_print, exParse_print⟩,
        exQueryDb_sound, _, rfl, exPostTable_fits _⟩, (fun t h => by cases h; rfl), fun _ => rfl⟩
    · split at hs
      · next e =>
        subst e
        cases hs
        exact ⟨rfl, ⟨exQuery_blog_ok, exQuery_laws, exRowStore_laws, ⟨fun _ => rfl, exParse_print, exParse_print⟩,
          exQueryDb_sound, _, rfl, exBlogTable_fits _⟩, (fun t h => by cases h; rfl), fun _ => rfl⟩
      · cases hs
  · simp only [exQueryWorld] at hL
    split at hL
    · next e =>
      subst e
      cases hL
      exact ⟨rfl, nameOf rfl (by decide) (by decide), exTagged_stores⟩
    · cases hL

def exDogs : ObjVals exRowBlog.fields := ((3 : Int32), "dogs", ())
def exCats : ObjVals exRowBlog.fields := ((4 : Int32), "cats", ())
def exPostA : ObjVals exRowPost.fields := (some 1, "x", (), some 200, .int 3, ())
def exPostB : ObjVals exRowPost.fields := (some 2, "y", (), none, .int 4, ())
def exBlogRows : List (List SqliteVal) := [[.integer 3, .text "dogs"], [.integer 4, .text "cats"]]
def exPostRows : List (List SqliteVal) :=
  [[.integer 1, .text "x", .integer 200, .integer 3], [.integer 2, .text "y", .null, .integer 4]]


/-- The blogs and posts in turn. -/
def exBlogs0 : Stock := ⟨exRowBlog, exRowBlogPk, fun _ => none⟩
def exBlogs1 : Stock := ⟨exRowBlog, exRowBlogPk, exBlogs0.objs.put (.int 3) exDogs⟩
def exBlogs : Stock := ⟨exRowBlog, exRowBlogPk, exBlogs1.objs.put (.int 4) exCats⟩
def exPosts0 : Stock := ⟨exRowPost, exRowPk, fun _ => none⟩
def exPosts1 : Stock := ⟨exRowPost, exRowPk, exPosts0.objs.put (.bigInt 1) exPostA⟩
def exPosts : Stock := ⟨exRowPost, exRowPk, exPosts1.objs.put (.bigInt 2) exPostB⟩

/-- The world after two blogs and two posts were saved. -/
def exQueryEnd : World :=
  ((((exQueryWorld (fun _ => none) fun _ => none).setObjs "blog" exBlogs0 exBlogs1.objs).setObjs
    "blog" exBlogs1 exBlogs.objs).setObjs "post" exPosts0 exPosts1.objs).setObjs "post" exPosts1 exPosts.objs

theorem exQuery_stock_post : exQueryEnd.stock "post" = some exPosts := by
  simp [exQueryEnd, World.setObjs, exPosts, exPosts1]
theorem exQuery_stock_blog : exQueryEnd.stock "blog" = some exBlogs := by
  simp [exQueryEnd, World.setObjs, exBlogs, exBlogs1]
theorem exQuery_links : exQueryEnd.links "post_tags_Many" = some ⟨exRowPk, exRowBlogPk, exTagged⟩ := by
  simp [exQueryEnd, World.setObjs, exQueryWorld]

theorem exQuery_room (posts : List (List SqliteVal)) :
    KeyRoom exQueryConn exRowPost exRowPk (exQueryDb exBlogRows posts) := by
  intro ty I hty hI t j _ _
  cases hty
  cases hI
  simp only [intI64]
  have h1 := Int64.toInt_lt j
  have h2 := Int64.le_toInt j
  omega

theorem exBlog_room (blogs posts : List (List SqliteVal)) :
    KeyRoom exQueryConn exRowBlog exRowBlogPk (exQueryDb blogs posts) := by
  intro ty I hty
  cases hty

theorem exQuery_run : WorldRun exQueryConn (exQueryDb [] []) (exQueryWorld (fun _ => none) fun _ => none)
    (exQueryDb exBlogRows exPostRows) exQueryEnd := by
  have h1 := WorldRun.save (k := exQueryConn) (u0 := exQueryDb [] [])
    (W0 := exQueryWorld (fun _ => none) fun _ => none) (n := "blog") (s := exBlogs0) (o := exDogs) (o' := exDogs)
    (u' := exQueryDb [[.integer 3, .text "dogs"]] []) (id := .int 3) .start (by simp [exQueryWorld, exBlogs0])
    ⟨trivial, trivial, trivial⟩ ⟨trivial, trivial, trivial⟩ (exBlog_room _ _) (fun h => by cases h) rfl rfl
  have h2 := WorldRun.save (n := "blog") (s := exBlogs1) (o := exCats) (o' := exCats)
    (u' := exQueryDb exBlogRows []) (id := .int 4) h1 (by simp [World.setObjs, exBlogs1, exBlogs0])
    ⟨trivial, trivial, trivial⟩ ⟨trivial, trivial, trivial⟩ (exBlog_room _ _) (fun h => by cases h) rfl rfl
  have h3 := WorldRun.save (n := "post") (s := exPosts0) (o := (none, "x", (), some 200, .int 3, ()))
    (o' := exPostA) (u' := exQueryDb exBlogRows [[.integer 1, .text "x", .integer 200, .integer 3]])
    (id := .bigInt 1) h2 (by simp [World.setObjs, exQueryWorld, exPosts0])
    ⟨(fun _ h => by cases h), trivial, ⟨trivial, trivial⟩, rfl, trivial⟩
    ⟨(fun _ h => by cases h), trivial, fun _ _ => trivial, id, trivial⟩ (exQuery_room _) (fun _ h => by cases h) rfl rfl
  exact WorldRun.save (n := "post") (s := exPosts1) (o := (none, "y", (), none, .int 4, ()))
    (o' := exPostB) (u' := exQueryDb exBlogRows exPostRows)
    (id := .bigInt 2) h3 (by simp [World.setObjs, exPosts0, exPosts1])
    ⟨(fun _ h => by cases h), trivial, trivial, rfl, trivial⟩
    ⟨(fun _ h => by cases h), trivial, (fun _ h => by cases h), id, trivial⟩ (exQuery_room _) (fun _ h => by cases h) rfl rfl

/-- `filter!(Post, blog.matches(name == "dogs") && tags.contains(name == "cats"))`. -/
def exQueryFilter : FOr :=
  .one (.and (.one (.matches "blog" ⟨"blog", "id"⟩ (.one (.one (.cmp .eq "name" (.text "dogs"))))))
    (.contains "post_tags_Many" ⟨"post", "id"⟩ ⟨"blog", "id"⟩ (.one (.one (.cmp .eq "name" (.text "cats"))))))

/-- `Post::query().filter(…).order_asc("name").limit(10)`. -/
def exPostQuery : Query := (((Query.new "post").withFilter exQueryFilter.toBool).order "name" .asc).withLimit 10

theorem exBlog_name : HasField exRowBlog "name" .string := ⟨_, .tail _ (.head _), rfl, rfl⟩

theorem exQueryFilter_fits : FilterFits exQueryConn exQueryEnd false exPosts exQueryFilter := by
  simp only [exQueryFilter, FilterFits, AndFits, AtomFits]
  have hname : Nameable true exBlogs "name" := ⟨⟨_, exBlog_name⟩, fun _ => ⟨by decide, by decide⟩⟩
  have hplain : PlainName exQueryConn.reserved "name" := ⟨nameOf rfl (by decide) (by decide), by decide, rfl⟩
  refine ⟨⟨⟨⟨.fkey .i32, _, .tail _ (.tail _ (.tail _ (.tail _ (.head _)))), rfl, rfl⟩, fun h => by cases h⟩, exBlogs,
    exQuery_stock_blog, rfl, ⟨.fkey .i32, .i32, ⟨_, .tail _ (.tail _ (.tail _ (.tail _ (.head _)))), rfl, rfl⟩, rfl, rfl⟩,
    ⟨hname.1, fun h => by cases h⟩, hplain, ⟨_, rfl⟩, fun h => by cases h⟩, ?_⟩
  exact ⟨⟨⟨.autoPk .i64, _, .head _, rfl, rfl⟩, fun h => by cases h⟩, rfl, exBlogs, _, exQuery_stock_blog, rfl,
    exQuery_links, rfl, rfl, hname, hplain, ⟨_, rfl⟩, fun h => by cases h⟩

theorem exPostQuery_sendable : Sendable exQueryConn exQueryEnd exPosts exPostQuery (some exQueryFilter) where
  table := rfl
  filter := rfl
  fits := by
    intro f hf
    cases hf
    exact exQueryFilter_fits
  sort := by
    intro c hc
    have : c = ⟨.asc, "name"⟩ := by simpa [exPostQuery, Query.order, Query.withLimit, Query.withFilter, Query.new] using hc
    subst this
    exact ⟨.string, _, .tail _ (.head _), rfl, rfl⟩

/-- A query that describes one object finds it. -/
theorem selects_one {s : Stock} {e : Option FOr} {sort : List Order} {lim : Nat} {os : List (ObjVals s.m.fields)}
    (h : Selects k W s e sort (some (lim + 1)) none os) {id0 : SqlVal} {o0 : ObjVals s.m.fields}
    (hone : ∀ id o, (s.Has id o ∧ ∀ f ∈ e, FilterMeans k W s o f) ↔ id = id0 ∧ o = o0) :
    ∃ o, os = [o] ∧ SameFields s.m.fields o0 o := by
  obtain ⟨all, h1, h2, -, h4⟩ := h
  have hall : ∀ p, p ∈ all ↔ p = (id0, o0) := by
    rintro ⟨id, o⟩
    rw [h2, Prod.mk.injEq]
    exact hone id o
  have : all = [(id0, o0)] := by
    cases all with
    | nil => exact absurd ((hall _).2 rfl) (by simp)
    | cons p rest =>
      have hp := (hall p).1 (.head _)
      subst hp
      cases rest with
      | nil => rfl
      | cons q rest =>
        have hq := (hall q).1 (.tail _ (.head _))
        subst hq
        simp at h1
  subst this
  cases h4 with
  | cons hr hrest =>
    simp only [List.take_nil] at hrest
    cases hrest
    exact ⟨_, rfl, hr⟩

/-- The posts the filter describes: the first, which is in the blog of dogs and tagged with that of cats. -/
theorem exQuery_means (id : SqlVal) (o : ObjVals exPosts.m.fields) :
    (exPosts.Has id o ∧ ∀ e ∈ some exQueryFilter, FilterMeans exQueryConn exQueryEnd exPosts o e) ↔
      id = .bigInt 1 ∧ o = exPostA := by
  simp only [Option.mem_def, Option.some.injEq, forall_eq', exQueryFilter, FilterMeans, AndMeans, AtomMeans]
  constructor
  · rintro ⟨hhas, ⟨s', b, ob, hs', hb, hf, x, hx, hc⟩, -⟩
    rw [exQuery_stock_blog] at hs'
    cases hs'
    have ho : (id = .bigInt 2 ∧ o = exPostB) ∨ (id = .bigInt 1 ∧ o = exPostA) := by
      have := hhas.2
      simp only [exPosts, exPosts1, exPosts0, Objects.put] at this
      split at this
      · next e => cases this; exact .inl ⟨e, rfl⟩
      · split at this
        · next e => cases this; exact .inr ⟨e, rfl⟩
        · cases this
    rcases ho with ⟨rfl, rfl⟩ | h
    · exfalso
      have e1 : b = .int 4 := fieldSql_unique hf (⟨.fkey .i32, .int 4, rfl, rfl⟩ : FieldSql exRowPost exPostB "blog" (.int 4))
      subst e1
      have e2 : ob = exCats := by
        have h' : exBlogs.objs (.int 4) = some exCats := rfl
        exact Option.some.inj (hb.2.symm.trans h')
      subst e2
      have e3 : x = .text "cats" := fieldSql_unique hx (⟨.string, "cats", rfl, rfl⟩ : FieldSql exRowBlog exCats "name" (.text "cats"))
      subst e3
      obtain ⟨-, -, a, b, h1, h2, h3⟩ := hc
      cases h1
      cases h2
      revert h3
      decide
    · exact h
  · rintro ⟨rfl, rfl⟩
    refine ⟨⟨fun ty h => by cases h; rfl, rfl⟩, ⟨exBlogs, .int 3, exDogs, exQuery_stock_blog,
      ⟨fun ty h => by cases h; rfl, rfl⟩, ⟨.fkey .i32, .int 3, rfl, rfl⟩, .text "dogs", ⟨.string, "dogs", rfl, rfl⟩, ?_⟩,
      exBlogs, .int 4, exCats, _, .bigInt 1, exQuery_stock_blog, ⟨fun ty h => by cases h; rfl, rfl⟩, exQuery_links,
      ⟨.autoPk .i64, some 1, rfl, rfl⟩, .inl ⟨rfl, rfl⟩, .text "cats", ⟨.string, "cats", rfl, rfl⟩, ?_⟩
    · exact ⟨by simp, by simp, _, _, rfl, rfl, by decide⟩
    · exact ⟨by simp, by simp, _, _, rfl, rfl, by decide⟩

/-- The query finds the first post. -/
example {res : Except OpErr (List (ObjVals exPosts.m.fields))}
    (h : exPosts.m.LoadOut exQueryConn (exQueryDb exBlogRows exPostRows) exPostQuery res) :
    ∃ o, res = .ok [o] ∧ SameFields exPosts.m.fields exPostA o := by
  obtain ⟨os, rfl, hs⟩ := history_query_partial exQuery_start exQuery_run exQuery_real
    exQuery_stock_post exPostQuery_sendable (by
      intro x hx
      obtain rfl : (10 : Int32) = x := Option.some.inj hx
      decide) (by
      intro x hx
      cases hx) (fun h => by cases h) h
  obtain ⟨o, rfl, ho⟩ := selects_one hs exQuery_means
  exact ⟨o, rfl, ho⟩

/-- It does return. -/
example : ∃ res, exPosts.m.LoadOut exQueryConn (exQueryDb exBlogRows exPostRows) exPostQuery res :=
  query_returns_partial (world_run_partial exQuery_start exQuery_run) exQuery_real exQuery_order
    exQuery_stock_post exPostQuery_sendable (by
      intro x hx
      obtain rfl : (10 : Int32) = x := Option.some.inj hx
      decide) (by
      intro x hx
      cases hx) (fun h => by cases h)

/-- `load_first` finds it, too. -/
example {res : Except OpErr (Option (ObjVals exPosts.m.fields))}
    (h : exPosts.m.LoadFirstOut exQueryConn (exQueryDb exBlogRows exPostRows) exPostQuery res) :
    ∃ o, res = .ok (some o) ∧ SameFields exPosts.m.fields exPostA o := by
  obtain ⟨os, rfl, hs⟩ := query_first_partial (world_run_partial exQuery_start exQuery_run) exQuery_real
    exQuery_stock_post exPostQuery_sendable (by
      intro x hx
      obtain rfl : (10 : Int32) = x := Option.some.inj hx
      decide) (by
      intro x hx
      cases hx) h
  obtain ⟨o, rfl, ho⟩ := selects_one hs exQuery_means
  exact ⟨o, rfl, ho⟩

example : Compares exQueryConn .eq (.text "dogs") (.text "cats") ↔ (SqlVal.text "dogs") = .text "cats" :=
  compares_eq (ty := .text) exQuery_laws ⟨fun _ => rfl, exParse_print, exParse_print⟩ (st := .text) rfl (by decide)
    (.inr rfl) (.inr rfl) ⟨_, rfl⟩ ⟨_, rfl⟩

end Butane.Props
