/-
C100: the objects found with `filter!` are those of which the text inside it is true.

`filterMacro E T e` (Model/FilterMacro.lean) is the condition `filter!(T, e)` evaluates to;
`ObjTrueOf` (Spec/MacroObjects.lean) is what the text `e` says of an object.
-/
import Verif.Proofs.MacroObjects
import Verif.Props.FilterMacro
import Verif.Props.ObjMany
import Verif.Props.Turso

namespace Butane.Props
open Butane Sql Ddl Spec Macro

/-! ### C99 on Turso -/

/-- C99, Turso.  The condition that is sent last is accepted and is true of a row exactly when the
expression inside `filter!`, as written, is true of it.  Partial: as on SQLite and in C66. -/
theorem macro_selects_turso_partial (subs : Bool) (rel : Compare) {kw res : String → Bool}
    (hk : CoversReserved kw res) {E : MEnv} (hE : EnvNames res E) {db : Db} (hD : DbFor E db)
    {T : String} {row : Row} (hr : Spec.RowOf E T row []) {e : RExpr} {b : BoolExpr}
    (h : filterMacro E T e = some b) (hp : Parsed 0 e) (hn : NoSplices e)
    (hflat : subs = true ∨ flat b = true) {ask : Turso.Ask}
    (hask : Answers subs rel res (fun _ => db) ask) (table : String) :
    ∃ b' n, Turso.transform (Turso.dialect kw) ask b 0 = some (b', n) ∧ noSub b' = true ∧
      ∃ r, whereValue true rel res db table row (renderBool (Turso.dialect kw) b' 0).text
          (renderBool (Turso.dialect kw) b' 0).vals = some r ∧
        (r = some true ↔ TrueOf E rel db T row e) := by
  obtain ⟨f, hb, hi, hs⟩ := macro_means_partial h hp hn
  subst hb
  obtain ⟨b', n, h1, h2, r, h3, h4⟩ := turso_filter_partial subs rel hk
    (MacroP.filter_names' hE f T hi) (MacroP.filter_scoped' hD f T row [] hi hr) hflat hask table
  exact ⟨b', n, h1, h2, r, h3, h4.trans (hs rel db row)⟩

example : ∃ ask, Answers false exRel exRes (fun _ => exDb) ask ∧
    ∃ b' n, Turso.transform (Turso.dialect exKw) ask exFilter.toBool 0 = some (b', n) ∧
      noSub b' = true ∧
      ∃ r, whereValue true exRel exRes exDb "post" exRow (renderBool (Turso.dialect exKw) b' 0).text
          (renderBool (Turso.dialect exKw) b' 0).vals = some r ∧
        (r = some true ↔ TrueOf macEnv exRel exDb "Post" exRow macExpr) := by
  obtain ⟨ask, h⟩ := Turso.answers_exist false exRel exRes (dbs := fun _ => exDb)
    (fun _ => exDb_storable)
  exact ⟨ask, h, macro_selects_turso_partial false exRel exCovers macEnv_names exDb_for exRow_post
    macExpr_ok macExpr_parsed macExpr_noSplices (.inr (by decide)) h "post"⟩

/-! ### C100 -/

variable {k : SqliteConn} {W : World} {u : SDb}

/-- C100, the macro.  An accepted expression is a filter that says of every object, in every world of
objects, what is written, and that fits the models.  Partial: no spliced conditions. -/
theorem macro_objects_partial {E : MEnv} {T : String} {e : RExpr} {b : BoolExpr}
    (h : filterMacro E T e = some b) (hp : Parsed 0 e) (hn : NoSplices e) :
    ∃ f : FOr, b = f.toBool ∧
      (∀ k W s o, FilterMeans k W s o f ↔ ObjTrueOf E k W T s o e) ∧
      ∀ k W s, WorldFor E k W → W.stock (E.obj T).table = some s → LikesOk E k W T e →
        FilterFits k W false s f := by
  obtain ⟨f, hb, h1, h2⟩ := MacroObj.filter_says h hp hn
  exact ⟨f, hb, h1, fun k W s hW hs hl => h2 k W false s hW hs (fun h => (by cases h)) hl⟩

/-- C100, `load`.  `T::query().filter(filter!(T, e))`, with any orders, limit and offset: whatever `load`
returns is no error, and it is all objects of the model of which `e`, as written, is true, each once, in
an order that the order terms allow, cut to the page.
Partial: no spliced conditions (`macro_group_violated`), the names and `like` on reals as in C83
(`WorldFor`, `LikesOk`), and limits and offsets as in C83. -/
theorem macro_load_partial (hW : Keeps k u W) (hR : RealLaws k.data) {E : MEnv} (hE : WorldFor E k W)
    {T : String} {s : Stock} (hs : W.stock (E.obj T).table = some s) {e : RExpr} {b : BoolExpr}
    (hm : filterMacro E T e = some b) (hp : Parsed 0 e) (hn : NoSplices e) (hk : LikesOk E k W T e)
    {q : Query} (hq : q.table = s.m.table) (hf : q.filter = some b)
    (hsort : ∀ c ∈ q.sort, ∃ ty, HasField s.m c.column ty) (hl : NonNeg q.limit) (ho : NonNeg q.offset)
    (hbig : q.limit = none → ∀ o, q.offset = some o → ∀ t, u.lookup (E.obj T).table = some t →
      (t.rows.length : Int) ≤ o.toInt + 2147483647)
    {res : Except OpErr (List (ObjVals s.m.fields))} (h : s.m.LoadOut k u q res) :
    ∃ os, res = .ok os ∧ Lists k s.m (fun id o => s.Has id o ∧ ObjTrueOf E k W T s o e) q.sort
      (count q.limit) (count q.offset) os := by
  obtain ⟨f, hb, h1, h2⟩ := macro_objects_partial hm hp hn
  subst hb
  obtain ⟨os, hr, hsel⟩ := query_selects_partial hW hR hs (e := some f)
    ⟨hq, hf, fun g hg => (by cases hg; exact h2 k W s hE hs hk), hsort⟩ hl ho hbig h
  refine ⟨os, hr, ?_⟩
  unfold Selects at hsel
  simpa only [Option.mem_def, Option.some.injEq, forall_eq', h1] using hsel

/-- C100: and `load` does return. -/
theorem macro_load_returns_partial (hW : Keeps k u W) (hR : RealLaws k.data) (hO : OrderLaws k.data)
    {E : MEnv} (hE : WorldFor E k W) {T : String} {s : Stock}
    (hs : W.stock (E.obj T).table = some s) {e : RExpr} {b : BoolExpr}
    (hm : filterMacro E T e = some b) (hp : Parsed 0 e) (hn : NoSplices e) (hk : LikesOk E k W T e)
    {q : Query} (hq : q.table = s.m.table) (hf : q.filter = some b)
    (hsort : ∀ c ∈ q.sort, ∃ ty, HasField s.m c.column ty) (hl : NonNeg q.limit) (ho : NonNeg q.offset)
    (hbig : q.limit = none → ∀ o, q.offset = some o → ∀ t, u.lookup (E.obj T).table = some t →
      (t.rows.length : Int) ≤ o.toInt + 2147483647) : ∃ res, s.m.LoadOut k u q res := by
  obtain ⟨f, hb, h1, h2⟩ := macro_objects_partial hm hp hn
  subst hb
  exact query_returns_partial hW hR hO hs (e := some f)
    ⟨hq, hf, fun g hg => (by cases hg; exact h2 k W s hE hs hk), hsort⟩ hl ho hbig

/-- C100, `load_first` (partial, as above; and the limit is not 0): the first object of a list that `load`
may return, or nothing if that is empty. -/
theorem macro_first_partial (hW : Keeps k u W) (hR : RealLaws k.data) {E : MEnv} (hE : WorldFor E k W)
    {T : String} {s : Stock} (hs : W.stock (E.obj T).table = some s) {e : RExpr} {b : BoolExpr}
    (hm : filterMacro E T e = some b) (hp : Parsed 0 e) (hn : NoSplices e) (hk : LikesOk E k W T e)
    {q : Query} (hq : q.table = s.m.table) (hf : q.filter = some b)
    (hsort : ∀ c ∈ q.sort, ∃ ty, HasField s.m c.column ty) (hl : ∀ x ∈ q.limit, 0 < x.toInt)
    (ho : NonNeg q.offset)
    {res : Except OpErr (Option (ObjVals s.m.fields))} (h : s.m.LoadFirstOut k u q res) :
    ∃ os, res = .ok os.head? ∧ Lists k s.m (fun id o => s.Has id o ∧ ObjTrueOf E k W T s o e) q.sort
      (count q.limit) (count q.offset) os := by
  obtain ⟨f, hb, h1, h2⟩ := macro_objects_partial hm hp hn
  subst hb
  obtain ⟨os, hr, hsel⟩ := query_first_partial hW hR hs (e := some f)
    ⟨hq, hf, fun g hg => (by cases hg; exact h2 k W s hE hs hk), hsort⟩ hl ho h
  refine ⟨os, hr, ?_⟩
  unfold Selects at hsel
  simpa only [Option.mem_def, Option.some.injEq, forall_eq', h1] using hsel

/-- C100, `delete` of a query (partial, as above): afterwards the database holds the objects of the model
of which the expression is not true, and everything of other models and of `Many` fields as before. -/
theorem macro_delete_partial (hW : Keeps k u W) (hL : LinksReady k u W) (hR : RealLaws k.data) {E : MEnv}
    (hE : WorldFor E k W) {T : String} {s : Stock} (hs : W.stock (E.obj T).table = some s) {e : RExpr}
    {b : BoolExpr} (hm : filterMacro E T e = some b) (hp : Parsed 0 e) (hn : NoSplices e)
    (hk : LikesOk E k W T e) {q : Query} (hq : q.table = s.m.table) (hf : q.filter = some b)
    (hsort : ∀ c ∈ q.sort, ∃ ty, HasField s.m c.column ty) {u' : SDb}
    (hd : TModel.deleteQuery k u q = .ok u') :
    ∃ objs : Objects s.m, Keeps k u' (W.setObjs (E.obj T).table s objs) ∧
      ∀ id o, KeyLike s.pk id → (objs id = some o ↔ s.objs id = some o ∧ ¬ ObjTrueOf E k W T s o e) := by
  obtain ⟨f, hb, h1, h2⟩ := macro_objects_partial hm hp hn
  subst hb
  have hsend : Sendable k W s q (some f) :=
    ⟨hq, hf, fun g hg => (by cases hg; exact h2 k W s hE hs hk), hsort⟩
  refine ⟨s.without k W (some f),
    (program_run_partial hW hL hR (.deleteQuery .start hs hsend hd)).1, fun id o hid => ?_⟩
  simp only [Stock.without]
  constructor
  · intro h
    split at h
    · cases h
    · rename_i hne
      exact ⟨h, fun ht => hne ⟨o, ⟨hid, h⟩, fun g hg => (by cases hg; exact (h1 k W s o).2 ht)⟩⟩
  · rintro ⟨h, hnt⟩
    rw [if_neg, h]
    rintro ⟨o', ⟨_, ho'⟩, ht⟩
    rw [h] at ho'
    cases ho'
    exact hnt ((h1 k W s o).1 (ht f rfl))

/-- C100 after any history of saves, deletions, deleted queries and saved `Many` fields (partial, as
above): `load` with `filter!(T, e)` finds the objects that are there now and of which `e` is true. -/
theorem macro_history_partial {u0 : SDb} {W0 : World} (h0 : Keeps k u0 W0) (hL : LinksReady k u0 W0)
    (hR : RealLaws k.data) (hrun : ProgramRun k u0 W0 u W) {E : MEnv} (hE : WorldFor E k W)
    {T : String} {s : Stock} (hs : W.stock (E.obj T).table = some s) {e : RExpr} {b : BoolExpr}
    (hm : filterMacro E T e = some b) (hp : Parsed 0 e) (hn : NoSplices e) (hk : LikesOk E k W T e)
    {q : Query} (hq : q.table = s.m.table) (hf : q.filter = some b)
    (hsort : ∀ c ∈ q.sort, ∃ ty, HasField s.m c.column ty) (hl : NonNeg q.limit) (ho : NonNeg q.offset)
    (hbig : q.limit = none → ∀ o, q.offset = some o → ∀ t, u.lookup (E.obj T).table = some t →
      (t.rows.length : Int) ≤ o.toInt + 2147483647)
    {res : Except OpErr (List (ObjVals s.m.fields))} (h : s.m.LoadOut k u q res) :
    ∃ os, res = .ok os ∧ Lists k s.m (fun id o => s.Has id o ∧ ObjTrueOf E k W T s o e) q.sort
      (count q.limit) (count q.offset) os :=
  macro_load_partial (program_run_partial h0 hL hR hrun).1 hR hE hs hm hp hn hk hq hf hsort hl ho hbig h

/-- C100: after `delete` of a query with `filter!`, `load` of it finds nothing, also if the text follows
references to objects of the same model (partial, as above). -/
theorem macro_delete_then_load_partial (hW : Keeps k u W) (hL : LinksReady k u W) (hR : RealLaws k.data)
    {E : MEnv} (hE : WorldFor E k W) {T : String} {s : Stock} (hs : W.stock (E.obj T).table = some s)
    {e : RExpr} {b : BoolExpr} (hm : filterMacro E T e = some b) (hp : Parsed 0 e) (hn : NoSplices e)
    (hk : LikesOk E k W T e) {q : Query} (hq : q.table = s.m.table) (hf : q.filter = some b)
    (hsort : ∀ c ∈ q.sort, ∃ ty, HasField s.m c.column ty) (hl : NonNeg q.limit) (ho : NonNeg q.offset)
    {u' : SDb} (hd : TModel.deleteQuery k u q = .ok u')
    (hbig : q.limit = none → ∀ o, q.offset = some o → ∀ t, u'.lookup (E.obj T).table = some t →
      (t.rows.length : Int) ≤ o.toInt + 2147483647)
    {res : Except OpErr (List (ObjVals s.m.fields))} (h : s.m.LoadOut k u' q res) : res = .ok [] := by
  obtain ⟨objs, hK, hobjs⟩ := macro_delete_partial hW hL hR hE hs hm hp hn hk hq hf hsort hd
  have hsub : ∀ id o, KeyLike s.pk id → objs id = some o → s.objs id = some o := fun id o hid h =>
    ((hobjs id o hid).1 h).1
  obtain ⟨os, rfl, all, -, hall, -, hpage⟩ := macro_load_partial hK hR
    (MacroObj.worldFor_setObjs hE hs) (T := T) (s := ⟨s.m, s.pk, objs⟩) (by simp [World.setObjs])
    hm hp hn (MacroObj.likesOk_setObjs hs e T hk) hq hf hsort hl ho hbig h
  have : all = [] := by
    cases all with
    | nil => rfl
    | cons p l =>
      obtain ⟨h1, h2⟩ := (hall p.1 p.2).1 (.head _)
      exact absurd (MacroObj.trueOf_setObjs hs hsub e T ⟨s.m, s.pk, objs⟩ s.objs p.2 h2)
        ((hobjs p.1 p.2 h1.1).1 h1.2).2
  subst this
  have hnil : page (count q.limit) (count q.offset) ([] : List (SqlVal × ObjVals s.m.fields)) = [] := by
    unfold page
    cases count q.limit <;> cases count q.offset <;> simp
  rw [hnil] at hpage
  cases hpage
  rfl

/-! ### Examples -/

/-- The models of the C83 example: `Post` with `id`, `name`, `blog: ForeignKey<Blog>`,
`tags: Many<Blog>`; `Blog` with `id` and `name`.  Texts are compared. -/
def qryEnv : MEnv where
  obj T := if T = "Blog" then ⟨"blog", "id"⟩ else if T = "Post" then ⟨"post", "id"⟩ else ⟨"other", "id"⟩
  field T f :=
    if T = "Post" then
      if f = "blog" then some (.fkey "Blog")
      else if f = "tags" then some (.many "post_tags_Many" "Blog")
      else if f ∈ ["id", "name"] then some .plain else none
    else if T = "Blog" then if f ∈ ["id", "name"] then some .plain else none
    else none
  cmpOk _ _ _ v := match v with | .text _ => true | _ => false
  keyOk T v := match v with | .int _ => T == "Blog" | .bigInt _ => T == "Post" | _ => false

/-- `blog.matches(name == "dogs") && tags.contains(name == "cats")`. -/
def objExpr : RExpr :=
  .binary .and
    (.call (.path "blog") "matches" (.binary .eq (.path "name") (.lit (.text "dogs"))) 0)
    (.call (.path "tags") "contains" (.binary .eq (.path "name") (.lit (.text "cats"))) 0)

theorem objExpr_ok : filterMacro qryEnv "Post" objExpr = some exQueryFilter.toBool := rfl

theorem qryEnv_stock {T : String} {s : Stock} (h : exQueryEnd.stock (qryEnv.obj T).table = some s) :
    (T = "Post" ∧ s = exPosts) ∨ (T = "Blog" ∧ s = exBlogs) := by
  simp only [qryEnv] at h
  split at h
  · rename_i hT
    have := exQuery_stock_blog.symm.trans h
    exact .inr ⟨hT, (Option.some.inj this).symm⟩
  · split at h
    · rename_i hT
      have := exQuery_stock_post.symm.trans h
      exact .inl ⟨hT, (Option.some.inj this).symm⟩
    · simp [exQueryEnd, World.setObjs, exQueryWorld] at h

theorem qryEnv_blog {f : String} (h : isCol (qryEnv.field "Blog" f) = true) : f = "id" ∨ f = "name" := by
  simp only [qryEnv] at h
  repeat' split at h
  all_goals simp_all [isCol]

theorem qryEnv_post {f : String} (h : isCol (qryEnv.field "Post" f) = true) :
    f = "id" ∨ f = "name" ∨ f = "blog" := by
  simp only [qryEnv] at h
  repeat' split at h
  all_goals simp_all [isCol]
  all_goals grind

theorem qryEnv_fkey {T f t : String} (h : qryEnv.field T f = some (.fkey t)) :
    T = "Post" ∧ f = "blog" ∧ t = "Blog" := by
  simp only [qryEnv] at h
  repeat' split at h
  all_goals simp_all

theorem qryEnv_many {T f m t : String} (h : qryEnv.field T f = some (.many m t)) :
    T = "Post" ∧ m = "post_tags_Many" ∧ t = "Blog" := by
  simp only [qryEnv] at h
  repeat' split at h
  all_goals simp_all

theorem exPost_blog : HasField exPosts.m "blog" (.fkey .i32) :=
  ⟨_, .tail _ (.tail _ (.tail _ (.tail _ (.head _)))), rfl, rfl⟩

theorem qryEnv_world : WorldFor qryEnv exQueryConn exQueryEnd where
  key T s h := by
    rcases qryEnv_stock h with ⟨rfl, rfl⟩ | ⟨rfl, rfl⟩
    · exact ⟨rfl, _, _, .head _, rfl, rfl⟩
    · exact ⟨rfl, _, _, .head _, rfl, rfl⟩
  col T s f h hf := by
    rcases qryEnv_stock h with ⟨rfl, rfl⟩ | ⟨rfl, rfl⟩
    · rcases qryEnv_post hf with rfl | rfl | rfl
      · exact ⟨⟨nameOf rfl (by decide) (by decide), by decide, rfl⟩, _, _, .head _, rfl, rfl⟩
      · exact ⟨⟨nameOf rfl (by decide) (by decide), by decide, rfl⟩, _, _, .tail _ (.head _), rfl, rfl⟩
      · exact ⟨⟨nameOf rfl (by decide) (by decide), by decide, rfl⟩, _, exPost_blog⟩
    · rcases qryEnv_blog hf with rfl | rfl
      · exact ⟨⟨nameOf rfl (by decide) (by decide), by decide, rfl⟩, _, _, .head _, rfl, rfl⟩
      · exact ⟨⟨nameOf rfl (by decide) (by decide), by decide, rfl⟩, _, exBlog_name⟩
  fkey T s f t h hf := by
    obtain ⟨rfl, rfl, rfl⟩ := qryEnv_fkey hf
    rcases qryEnv_stock h with ⟨-, rfl⟩ | ⟨h', -⟩
    · exact ⟨exBlogs, exQuery_stock_blog, .fkey .i32, .i32, exPost_blog, rfl, rfl⟩
    · exact absurd h' (by decide)
  many T s f m t h hf := by
    obtain ⟨rfl, rfl, rfl⟩ := qryEnv_many hf
    rcases qryEnv_stock h with ⟨-, rfl⟩ | ⟨h', -⟩
    · refine ⟨exBlogs, _, exQuery_stock_blog, exQuery_links, rfl, rfl, ⟨by decide, by decide⟩,
        fun f hf => ?_⟩
      rcases qryEnv_blog hf with rfl | rfl <;> exact ⟨by decide, by decide⟩
    · exact absurd h' (by decide)
  keyOk T s v h hv := by
    rcases qryEnv_stock h with ⟨rfl, rfl⟩ | ⟨rfl, rfl⟩
    · cases v <;> simp [qryEnv] at hv
      intro ty hty
      cases hty
      rfl
    · cases v <;> simp [qryEnv] at hv
      intro ty hty
      cases hty
      rfl
  cmpOk T f op v h := by
    cases v <;> simp [qryEnv] at h
    exact ⟨_, rfl⟩

theorem objExpr_likes (W : World) : LikesOk qryEnv exQueryConn W "Post" objExpr := by
  simp [objExpr, LikesOk]

/-- The expression is true of the first post only. -/
theorem objExpr_true (id : SqlVal) (o : ObjVals exPosts.m.fields) :
    (exPosts.Has id o ∧ ObjTrueOf qryEnv exQueryConn exQueryEnd "Post" exPosts o objExpr) ↔
      id = .bigInt 1 ∧ o = exPostA := by
  rw [← exQuery_means]
  simp only [Option.mem_def, Option.some.injEq, forall_eq', exQueryFilter, FilterMeans, AndMeans, AtomMeans]
  refine and_congr_right fun _ => ?_
  simp [objExpr, ObjTrueOf, nameOf?, writtenValue, opMeans, qryEnv, and_assoc]

/-- `Post::query().filter(filter!(Post, …)).order_asc("name").limit(10)` finds it. -/
example {res : Except OpErr (List (ObjVals exPosts.m.fields))}
    (h : exPosts.m.LoadOut exQueryConn (exQueryDb exBlogRows exPostRows) exPostQuery res) :
    ∃ os, res = .ok os ∧ Lists exQueryConn exPosts.m
      (fun id o => exPosts.Has id o ∧ ObjTrueOf qryEnv exQueryConn exQueryEnd "Post" exPosts o objExpr)
      exPostQuery.sort (count exPostQuery.limit) (count exPostQuery.offset) os :=
  macro_load_partial (world_run_partial exQuery_start exQuery_run) exQuery_real qryEnv_world
    (T := "Post") exQuery_stock_post objExpr_ok (by simp [objExpr, Parsed]) (by simp [objExpr, NoSplices])
    (objExpr_likes _) rfl rfl exPostQuery_sendable.sort (by
      intro x hx
      obtain rfl : (10 : Int32) = x := Option.some.inj hx
      decide) (by
      intro x hx
      cases hx) (fun h => by cases h) h

/-- It does return. -/
example : ∃ res, exPosts.m.LoadOut exQueryConn (exQueryDb exBlogRows exPostRows) exPostQuery res :=
  macro_load_returns_partial (world_run_partial exQuery_start exQuery_run) exQuery_real exQuery_order
    qryEnv_world (T := "Post") exQuery_stock_post objExpr_ok (by simp [objExpr, Parsed])
    (by simp [objExpr, NoSplices]) (objExpr_likes _) rfl rfl exPostQuery_sendable.sort (by
      intro x hx
      obtain rfl : (10 : Int32) = x := Option.some.inj hx
      decide) (by
      intro x hx
      cases hx) (fun h => by cases h)

/-- `load_first`. -/
example {res : Except OpErr (Option (ObjVals exPosts.m.fields))}
    (h : exPosts.m.LoadFirstOut exQueryConn (exQueryDb exBlogRows exPostRows) exPostQuery res) :
    ∃ os, res = .ok os.head? ∧ Lists exQueryConn exPosts.m
      (fun id o => exPosts.Has id o ∧ ObjTrueOf qryEnv exQueryConn exQueryEnd "Post" exPosts o objExpr)
      exPostQuery.sort (count exPostQuery.limit) (count exPostQuery.offset) os :=
  macro_first_partial (world_run_partial exQuery_start exQuery_run) exQuery_real qryEnv_world
    (T := "Post") exQuery_stock_post objExpr_ok (by simp [objExpr, Parsed]) (by simp [objExpr, NoSplices])
    (objExpr_likes _) rfl rfl exPostQuery_sendable.sort (by
      intro x hx
      obtain rfl : (10 : Int32) = x := Option.some.inj hx
      decide) (by
      intro x hx
      cases hx) h

/-- After the history of the C84 example. -/
example {res : Except OpErr (List (ObjVals exPosts.m.fields))}
    (h : exPosts.m.LoadOut exQueryConn (exQueryDb exBlogRows exPostRows) exPostQuery res) :
    ∃ os, res = .ok os ∧ Lists exQueryConn exPosts.m
      (fun id o => exPosts.Has id o ∧ ObjTrueOf qryEnv exQueryConn exQueryEnd "Post" exPosts o objExpr)
      exPostQuery.sort (count exPostQuery.limit) (count exPostQuery.offset) os :=
  macro_history_partial exQuery_start exMany_ready exQuery_real exMany_run0 qryEnv_world
    (T := "Post") exQuery_stock_post objExpr_ok (by simp [objExpr, Parsed]) (by simp [objExpr, NoSplices])
    (objExpr_likes _) rfl rfl exPostQuery_sendable.sort (by
      intro x hx
      obtain rfl : (10 : Int32) = x := Option.some.inj hx
      decide) (by
      intro x hx
      cases hx) (fun h => by cases h) h

/-- `name == "x"`. -/
def nameExpr : RExpr := .binary .eq (.path "name") (.lit (.text "x"))

/-- `Post::query().filter(filter!(Post, name == "x")).delete()` deletes one of the two posts. -/
example : ∃ objs : Objects exPosts.m,
    Keeps exQueryConn
      (exQueryDb exBlogRows [[.integer 2, .text "y", .null, .integer 4]])
      (exQueryEnd.setObjs "post" exPosts objs) ∧
    ∀ id o, KeyLike exPosts.pk id → (objs id = some o ↔ exPosts.objs id = some o ∧
      ¬ ObjTrueOf qryEnv exQueryConn exQueryEnd "Post" exPosts o nameExpr) :=
  macro_delete_partial (T := "Post") (b := exNameFilter.toBool) (q := exNameQuery) exMany_keeps0.1
    exMany_keeps0.2 exQuery_real qryEnv_world exQuery_stock_post rfl (by simp [nameExpr, Parsed])
    (by simp [nameExpr, NoSplices]) (by simp [nameExpr, LikesOk]) rfl rfl
    (fun c hc => by cases hc) rfl

/-- Then `load` of the query finds nothing. -/
example {res : Except OpErr (List (ObjVals exPosts.m.fields))}
    (h : exPosts.m.LoadOut exQueryConn
      (exQueryDb exBlogRows [[.integer 2, .text "y", .null, .integer 4]]) exNameQuery res) : res = .ok [] :=
  macro_delete_then_load_partial (T := "Post") (s := exPosts) (b := exNameFilter.toBool)
    (q := exNameQuery) (e := nameExpr) exMany_keeps0.1
    exMany_keeps0.2 exQuery_real qryEnv_world exQuery_stock_post rfl (by simp [nameExpr, Parsed])
    (by simp [nameExpr, NoSplices]) (by simp [nameExpr, LikesOk]) rfl rfl
    (fun c hc => by cases hc) (by rintro x ⟨⟩) (by rintro x ⟨⟩) rfl (by rintro - o ⟨⟩) h

end Butane.Props
