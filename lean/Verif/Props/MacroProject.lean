/-
C100 in the whole history of a project: its code changes, migrations are made, run and undone, and
programs store objects; `filter!` finds what is there then.
-/
import Verif.Props.MacroObjects
import Verif.Props.CrateProgram

namespace Butane.Props
open Butane Sql Ddl Spec Macro Codegen

variable {g : Cfg} {k : SqliteConn} {p : LitPrinters}

/-- C100, projects: after any history of a project, `load` with `filter!(T, e)` finds exactly the objects
that should be there (C85) and of which `e`, as written, is true.
Partial: as `macro_load_partial` and as C85. -/
theorem project_macro_partial (hk : CoversDdl k.kw k.reserved) (hf : TypesFree k.reserved) (laws : StrictLaws k.env)
    (hdata : DataLaws k.env k.data) (hcodecs : Faithful k.codecs) (hD : RealLaws k.data) (hr : ResolverOk g.resolve)
    (hplain : PlainName k.reserved "owner") {s : FsMigrations} {db : MigDb SDb} {W : World}
    {H P : List (String × List Item)} (h : ProjectRun g k p s db W H P) {E : MEnv} (hE : WorldFor E k W)
    {T : String} {st : Stock} (hs : W.stock (E.obj T).table = some st) {e : RExpr} {b : BoolExpr}
    (hm : filterMacro E T e = some b) (hp : Parsed 0 e) (hn : NoSplices e) (hl : LikesOk E k W T e)
    {q : Query} (hq : q.table = st.m.table) (hfil : q.filter = some b)
    (hsort : ∀ c ∈ q.sort, ∃ ty, HasField st.m c.column ty) (hlim : NonNeg q.limit) (ho : NonNeg q.offset)
    (hbig : q.limit = none → ∀ o, q.offset = some o → ∀ t, db.user.lookup (E.obj T).table = some t →
      (t.rows.length : Int) ≤ o.toInt + 2147483647)
    {res : Except OpErr (List (ObjVals st.m.fields))} (hres : st.m.LoadOut k db.user q res) :
    ∃ os, res = .ok os ∧ Lists k st.m (fun id o => st.Has id o ∧ ObjTrueOf E k W T st o e) q.sort
      (count q.limit) (count q.offset) os :=
  macro_load_partial (project_run_partial hk hf laws hdata hcodecs hD hr hplain h).1 hD hE hs hm hp hn hl
    hq hfil hsort hlim ho hbig hres

/-- C100, projects: deleting the query is a step of the history, after which the objects of which `e` is
not true are there (partial, as above). -/
theorem project_macro_delete_partial (hk : CoversDdl k.kw k.reserved) (hf : TypesFree k.reserved) (laws : StrictLaws k.env)
    (hdata : DataLaws k.env k.data) (hcodecs : Faithful k.codecs) (hD : RealLaws k.data) (hr : ResolverOk g.resolve)
    (hplain : PlainName k.reserved "owner") {s : FsMigrations} {db : MigDb SDb} {W : World}
    {H P : List (String × List Item)} (h : ProjectRun g k p s db W H P) {E : MEnv} (hE : WorldFor E k W)
    {T : String} {st : Stock} (hs : W.stock (E.obj T).table = some st) {e : RExpr} {b : BoolExpr}
    (hm : filterMacro E T e = some b) (hp : Parsed 0 e) (hn : NoSplices e) (hl : LikesOk E k W T e)
    {q : Query} (hq : q.table = st.m.table) (hfil : q.filter = some b)
    (hsort : ∀ c ∈ q.sort, ∃ ty, HasField st.m c.column ty) {u' : SDb}
    (hd : TModel.deleteQuery k db.user q = .ok u') :
    ∃ objs : Objects st.m, ProjectRun g k p s ⟨u', db.log⟩ (W.setObjs (E.obj T).table st objs) H P ∧
      Keeps k u' (W.setObjs (E.obj T).table st objs) ∧
      ∀ id o, KeyLike st.pk id → (objs id = some o ↔ st.objs id = some o ∧ ¬ ObjTrueOf E k W T st o e) := by
  obtain ⟨h1, h2⟩ := project_run_partial hk hf laws hdata hcodecs hD hr hplain h
  obtain ⟨f, hb, g1, g2⟩ := macro_objects_partial hm hp hn
  subst hb
  have hsend : Sendable k W st q (some f) :=
    ⟨hq, hfil, fun g hg => (by cases hg; exact g2 k W st hE hs hl), hsort⟩
  have hrun : ProgramRun k db.user W u' (W.setObjs (E.obj T).table st (st.without k W (some f))) :=
    .deleteQuery .start hs hsend hd
  refine ⟨st.without k W (some f), .program h hrun, (program_run_partial h1 h2 hD hrun).1,
    fun id o hid => ?_⟩
  simp only [Stock.without]
  constructor
  · intro h
    split at h
    · cases h
    · rename_i hne
      exact ⟨h, fun ht => hne ⟨o, ⟨hid, h⟩, fun g hg => (by cases hg; exact (g1 k W st o).2 ht)⟩⟩
  · rintro ⟨h, hnt⟩
    rw [if_neg, h]
    rintro ⟨o', ⟨_, ho'⟩, ht⟩
    rw [h] at ho'
    cases ho'
    exact hnt ((g1 k W st o).1 (ht f rfl))

/-! ### Example -/

/-- `Post` with `id`, `title: String` and `views: i64`; texts are compared. -/
def projEnv : MEnv where
  obj T := if T = "Post" then ⟨"Post", "id"⟩ else ⟨"other", "id"⟩
  field T f := if T = "Post" then if f ∈ ["title", "views"] then some .plain else none else none
  cmpOk _ _ _ v := match v with | .text _ => true | _ => false
  keyOk _ _ := false

/-- `title == "hello"`. -/
def projExpr : RExpr := .binary .eq (.path "title") (.lit (.text "hello"))

def projQuery : Query := (Query.new "Post").withFilter (fieldCmp .eq "title" (.text "hello"))

theorem projEnv_stock {T : String} {s : Stock} (h : (exProjWorld exViewsStock).stock (projEnv.obj T).table = some s) :
    T = "Post" ∧ s = exViewsStock := by
  obtain ⟨h1, h2⟩ := exProjWorld_stock h
  refine ⟨?_, h2⟩
  simp only [projEnv] at h1
  split at h1
  · assumption
  · exact absurd h1 (by decide)

theorem projEnv_world : WorldFor projEnv exProjConn (exProjWorld exViewsStock) where
  key T s h := by
    obtain ⟨rfl, rfl⟩ := projEnv_stock h
    exact ⟨rfl, _, _, .head _, rfl, rfl⟩
  col T s f h hf := by
    obtain ⟨rfl, rfl⟩ := projEnv_stock h
    have : f = "title" ∨ f = "views" := by
      simp only [projEnv] at hf
      repeat' split at hf
      all_goals simp_all [isCol]
    rcases this with rfl | rfl
    · exact ⟨⟨nameOf rfl (by decide) (by decide), by decide, rfl⟩, _, _, .tail _ (.head _), rfl, rfl⟩
    · exact ⟨⟨nameOf rfl (by decide) (by decide), by decide, rfl⟩, _, _, .tail _ (.tail _ (.head _)), rfl, rfl⟩
  fkey T s f t _ hf := by
    simp only [projEnv] at hf
    repeat' split at hf
    all_goals simp at hf
  many T s f m t _ hf := by
    simp only [projEnv] at hf
    repeat' split at hf
    all_goals simp at hf
  keyOk T s v _ hv := by cases hv
  cmpOk T f op v h := by
    cases v <;> simp [projEnv] at h
    exact ⟨_, rfl⟩

/-- After a migration was made and run and a post was saved, the query returns the posts with the
title. -/
example {res : Except OpErr (List (ObjVals exViewsModel.fields))}
    (h : exViewsModel.LoadOut exProjConn exViewsRows.user projQuery res) :
    ∃ os, res = .ok os ∧ Lists exProjConn exViewsModel (fun id o => exViewsStock.Has id o ∧
      ObjTrueOf projEnv exProjConn (exProjWorld exViewsStock) "Post" exViewsStock o projExpr) [] none none os :=
  project_macro_partial (T := "Post") (st := exViewsStock) (q := projQuery) exWords_ddl exDdl_free exRowStore_laws exQuery_laws
    exProj_faithful exQuery_real exResolve_ok exProj_plain exProj_run2 projEnv_world rfl (b := fieldCmp .eq "title" (.text "hello"))
    (e := projExpr) rfl (by simp [projExpr, Parsed]) (by simp [projExpr, NoSplices]) (by simp [projExpr, LikesOk]) rfl rfl
    (fun c hc => by cases hc) (by rintro x ⟨⟩) (by rintro x ⟨⟩) (by rintro - o ⟨⟩) h

/-- Deleting it leaves the others. -/
example : ∃ u' objs, TModel.deleteQuery exProjConn exViewsRows.user projQuery = .ok u' ∧
    ProjectRun exPlainCfg exProjConn exPrinters exViewsMade1 ⟨u', exViewsRows.log⟩
      ((exProjWorld exViewsStock).setObjs "Post" exViewsStock objs) [("m1", exViews)] [] ∧
    ∀ id o, KeyLike exViewsStock.pk id → (objs id = some o ↔ exViewsStock.objs id = some o ∧
      ¬ ObjTrueOf projEnv exProjConn (exProjWorld exViewsStock) "Post" exViewsStock o projExpr) := by
  obtain ⟨u', hd⟩ : ∃ u', TModel.deleteQuery exProjConn exViewsRows.user projQuery = .ok u' := ⟨_, rfl⟩
  obtain ⟨objs, h1, -, h3⟩ := project_macro_delete_partial (T := "Post") (st := exViewsStock) (q := projQuery) exWords_ddl exDdl_free
    exRowStore_laws exQuery_laws exProj_faithful exQuery_real exResolve_ok exProj_plain exProj_run2 projEnv_world rfl
    (b := fieldCmp .eq "title" (.text "hello"))
    (e := projExpr) rfl (by simp [projExpr, Parsed]) (by simp [projExpr, NoSplices]) (by simp [projExpr, LikesOk]) rfl rfl
    (fun c hc => by cases hc) hd
  exact ⟨u', objs, hd, h1, h3⟩

end Butane.Props
