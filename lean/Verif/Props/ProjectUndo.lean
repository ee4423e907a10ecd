/-
C85: undoing migrations in the history of a project.
-/
import Verif.Props.CrateProgram

namespace Butane.Props
open Butane Butane.Spec Butane.Ddl Butane.DdlP Butane.Codegen

variable {g : Cfg} {k : SqliteConn} {p : LitPrinters}

/-- C85, going back (partial).  If each version of the code that is gone back to can take over the objects from
the later one, and the changes are such that SQLite can make (C37) and have SQL for it, then undoing migrations
succeeds on a connection that does not fail: all of them with the library, those after a named one or
the last one with the tool.  The objects become those of the earlier version, and the project goes on. -/
theorem project_undoes_partial (hk : CoversDdl k.kw k.reserved) (hf : TypesFree k.reserved) (laws : StrictLaws k.env)
    (hdata : DataLaws k.env k.data) (hcodecs : Faithful k.codecs) (hD : RealLaws k.data) (hr : ResolverOk g.resolve)
    (hplain : PlainName k.reserved "owner") {s : FsMigrations} {db : MigDb SDb} {W V : World}
    {H undone P : List (String × List Item)} (h : ProjectRun g k p s db W (H ++ undone) P) (hne : undone ≠ [])
    {made : List (String × ADB)} (hm : HasMigrations g.ft.json s made) (hv : ∀ e ∈ made, ValidSchema e.2)
    (hrun : ∀ a e b, made = a ++ e :: b → e.1 ∈ undone.map (·.1) → (s.toMigs "sqlite").down e.1 ≠ .ok none ∧
      ∀ u, HasSchema k.env e.2 u → (NoRows db.user → NoRows u) → Feasible e.2 (before a) u)
    (htake : TakeOvers g.ft k (backThrough H undone) W V) {c : MigConn SDb} (hc : c.exec = sqliteExec k.env k.reserved) :
    ∃ db' W', Upgrades g.ft k (backThrough H undone) W W' ∧ SameShape V W' ∧
      ProjectRun g k p s db' W' H (undone ++ P) ∧
      (H = [] → (s.toMigs "sqlite").unmigrate (Cli.rounds s) c.reliable db = (.ok (), db')) ∧
      (∀ q, H.getLast? = some q →
        Cli.unmigrateTo (s.toMigs "sqlite") (Cli.rounds s) c.reliable q.1 db = (.ok (), db')) ∧
      (∀ q, undone = [q] → Cli.unmigrateLatest (s.toMigs "sqlite") (Cli.rounds s) c.reliable db = (.ok (), db')) := by
  have hok := project_ok hk hf laws hdata hcodecs hD hr hplain h
  obtain ⟨a, b, hm', hs, ha, hb, hH, hP⟩ := hok.pending
  obtain ⟨x, l, rfl, q1, q2⟩ := allMatch_parts hH
  have hi' := (reach_inv (life_reach hok.life) hm').1
  have hi := (reach_inv (life_reach hok.life) hm).1
  have hnames : made.map (·.1) = (x ++ l ++ b).map (·.1) := by
    have h1 := hi.all
    rw [hi'.all] at h1
    exact (Except.ok.inj h1).symm
  obtain ⟨m1, b', rfl, e1, e2⟩ := List.map_eq_append_iff.1 (hnames.trans (List.map_append ..))
  rw [List.map_append] at e1
  obtain ⟨x', l', rfl, e3, e4⟩ := List.map_eq_append_iff.1 e1
  have hrec : ∀ {y y' : List (String × ADB)}, y'.map (·.1) = y.map (·.1) → (∀ e ∈ y, Spec.Recorded db e.1) →
      ∀ e ∈ y', Spec.Recorded db e.1 := by
    intro y y' hyy hy e he
    have : e.1 ∈ y.map (·.1) := by rw [← hyy]; exact List.mem_map_of_mem (f := (·.1)) he
    obtain ⟨e', he', hn⟩ := List.mem_map.1 this
    rw [← hn]
    exact hy e' he'
  have hnot : ∀ e ∈ b', ¬ Spec.Recorded db e.1 := by
    intro e he
    have : e.1 ∈ b.map (·.1) := by rw [← e2]; exact List.mem_map_of_mem (f := (·.1)) he
    obtain ⟨e', he', hn⟩ := List.mem_map.1 this
    rw [← hn]
    exact hb e' he'
  have hQ : ∀ {y : List (String × ADB)} {Q : List (String × List Item)},
      AllMatch (fun e q => e.1 = q.1 ∧ VersionOf g q.2 e.2) y Q → y.map (·.1) = Q.map (·.1) := by
    intro y Q h
    induction h with
    | nil => rfl
    | cons h1 _ ih => rw [List.map_cons, List.map_cons, h1.1, ih]
  have hl' : l'.map (·.1) = undone.map (·.1) := e4.trans (hQ q2)
  have hx' : x'.map (·.1) = H.map (·.1) := e3.trans (hQ q1)
  have hlne : l' ≠ [] := by
    rintro rfl
    have := congrArg List.length hl'
    simp only [List.map_nil, List.length_nil, List.length_map] at this
    exact hne (List.length_eq_zero_iff.1 this.symm)
  obtain ⟨db', g1, g2, -, -, g5, g6, g7⟩ := sqlite_undo_succeeds_partial (c := c) hk hf laws k.codecs hok.life hm hv
    (hrec (y := x ++ l) (by rw [List.map_append, List.map_append, e3, e4]) ha) hnot hlne hc (fun y e z hyz => by
      refine hrun (x' ++ y) e (z ++ b') (by rw [hyz]; simp) ?_
      rw [← hl', hyz]
      simp)
  obtain ⟨-, t2, t3⟩ := back_versions q2 (last_version q1)
  have hnamed : ∀ items ∈ backThrough H undone, WellNamed items := by
    intro items hit
    rw [t2] at hit
    obtain ⟨q, hq, rfl⟩ := List.mem_map.1 hit
    obtain ⟨e, -, -, hver⟩ := allMatch_right t3 hq
    exact hver.named
  obtain ⟨W', w1, w2⟩ := taken_overs htake hnamed
    (fun n s hs => (hok.user.keeps.stock n s hs).2.1.model.distinct) ⟨fun _ => rfl, fun _ => rfl⟩
  have hu : Undoes k.env k.reserved s db db' := by
    cases hH0 : H.getLast? with
    | none =>
      have hHe := List.getLast?_eq_none_iff.1 hH0
      subst hHe
      have : x' = [] := List.map_eq_nil_iff.1 hx'
      exact .program (c := c.reliable) hc (g5 this)
    | some q =>
      obtain ⟨H0, rfl⟩ := List.getLast?_eq_some_iff.1 hH0
      rw [List.map_append] at hx'
      obtain ⟨y1, y2, rfl, -, j2⟩ := List.map_eq_append_iff.1 hx'
      obtain ⟨z, rfl, -⟩ := List.map_eq_singleton_iff.1 j2
      exact .tool (c := c.reliable) hc (g6 z (by simp))
  refine ⟨db', W', w1, w2, .undo h hu ?_ ?_ w1, ?_, ?_, ?_⟩
  · intro q hq
    have : q.1 ∈ x'.map (·.1) := by rw [hx']; exact List.mem_map_of_mem hq
    obtain ⟨e, he, hn⟩ := List.mem_map.1 this
    rw [← hn]
    exact g1 e he
  · intro q hq
    have : q.1 ∈ l'.map (·.1) := by rw [hl']; exact List.mem_map_of_mem hq
    obtain ⟨e, he, hn⟩ := List.mem_map.1 this
    rw [← hn]
    exact g2 e (List.mem_append_left _ he)
  · rintro rfl
    exact g5 (List.map_eq_nil_iff.1 hx')
  · intro q hq
    obtain ⟨H0, rfl⟩ := List.getLast?_eq_some_iff.1 hq
    rw [List.map_append] at hx'
    obtain ⟨y1, y2, rfl, -, j2⟩ := List.map_eq_append_iff.1 hx'
    obtain ⟨z, rfl, j3⟩ := List.map_eq_singleton_iff.1 j2
    have j3 : z.1 = q.1 := j3
    rw [← j3]
    exact g6 z (by simp)
  · rintro q rfl
    obtain ⟨z, rfl, -⟩ := List.map_eq_singleton_iff.1 hl'
    exact g7 z rfl

/-! ### The project of `CrateProgram`, and back -/

theorem exViews_extends : Extends exStarsModel exViewsModel exViewsPk exViewsPk where
  table := rfl
  key := rfl
  keyType := rfl
  fields := by
    rintro n t t' ⟨f, hf, rfl, ht⟩ ⟨f', hf', e, ht'⟩
    simp only [exStarsModel, List.mem_cons, List.not_mem_nil, or_false] at hf
    simp only [exViewsModel, List.mem_cons, List.not_mem_nil, or_false] at hf'
    rcases hf with rfl | rfl | rfl | rfl | rfl <;> rcases hf' with rfl | rfl | rfl <;>
      first | exact absurd e (by decide) | (cases ht; cases ht'; rfl)

theorem exViews_new {n : String} {t : FieldTy} (h : HasField exViewsModel n t) (h' : ¬ HasField exStarsModel n t) :
    ∃ x, StructDefault exCodecs exViewsStruct n t x := by
  obtain ⟨f, hf, rfl, ht⟩ := h
  simp only [exViewsModel, List.mem_cons, List.not_mem_nil, or_false] at hf
  rcases hf with rfl | rfl | rfl
  · exact absurd ⟨_, List.mem_cons_self .., rfl, ht⟩ h'
  · exact absurd ⟨_, List.mem_cons_of_mem _ (List.mem_cons_self ..), rfl, ht⟩ h'
  · cases ht
    refine ⟨(0 : Int64), _, List.mem_cons_of_mem _ (List.mem_cons_of_mem _ (List.mem_cons_self ..)), rfl,
      .zero ?_ ?_ rfl⟩
    · exact .none fun l hl => by cases hl
    · rintro ⟨_, _, e, _, _, e', -⟩
      cases e
      cases e'

/-- What becomes of the post when the code changes. -/
theorem exProj_title {items : List Item} {W W1 : World} {s s1 : Stock} (hb : WorldBecomes exProjConn.codecs items W W1)
    (hshape : SameShape (exProjWorld s1) W1) (hs : W.stock "Post" = some s) (hk : s.pk = exViewsPk)
    {o : ObjVals s.m.fields} (ho : s.objs (.bigInt 1) = some o) (ht : valueOf "title" _ o = some ⟨.string, "hello"⟩)
    (hf : HasField s1.m "title" .string) :
    ∃ (objs : Objects s1.m) (o' : ObjVals s1.m.fields), W1.stock "Post" = some ⟨s1.m, s1.pk, objs⟩ ∧
      objs (.bigInt 1) = some o' ∧ valueOf "title" _ o' = some ⟨.string, "hello"⟩ := by
  obtain ⟨objs, h1⟩ := stock_shape (sameShape_symm hshape) (s := s1) (n := "Post") (by simp [exProjWorld])
  obtain ⟨st, -, -, hbec⟩ := (hb.stock "Post" _ h1).2.2 s hs
  have hob := hbec.objs (.bigInt 1) (fun ty h => by rw [hk] at h; cases h; rfl)
  rw [ho] at hob
  cases ho' : objs (.bigInt 1) with
  | none => simp only [ho'] at hob; exact hob.elim
  | some o' =>
    simp only [ho'] at hob
    exact ⟨objs, o', h1, ho', hob.kept "title" .string "hello" ht hf⟩

theorem exViews_takes : TakesOver exProjConn.codecs exViews (exProjWorld exStarsStock0) (exProjWorld exViewsStock0) where
  stock := by
    intro n s' h
    obtain ⟨rfl, rfl⟩ := exProjWorld_stock h
    refine ⟨rfl, fun s hs => ?_⟩
    obtain ⟨-, rfl⟩ := exProjWorld_stock hs
    refine ⟨exViews_extends, fun st hst _ f t => ?_⟩
    rw [exViews_model hst]
    exact exViews_new
  links := fun _ _ h => by cases h

theorem exViews_feasible (u : SDb) : Feasible (exSqDb exPostStars) (exSqDb exPostViews) u := by
  constructor
  · intro n t h1 h2
    obtain ⟨rfl, rfl⟩ := exPost_table rfl h2
    cases h1
  · intro n t h1 h2
    obtain ⟨rfl, rfl⟩ := exPost_table rfl h1
    cases h2
  · intro n s t c y hs ht hc hy
    obtain ⟨-, rfl⟩ := exPost_table rfl hs
    obtain ⟨-, rfl⟩ := exPost_table rfl ht
    obtain ⟨hm, rfl⟩ := colByName_some hy
    simp only [exPostViews, List.mem_cons, List.not_mem_nil, or_false] at hm
    rcases hm with rfl | rfl | rfl
    · cases hc
    · cases hc
    · refine ⟨rfl, rfl, fun _ hv => ?_⟩
      cases hv with
      | default h => cases h
      | null _ h => cases h
  · intro n s t c x hs ht hx hc
    obtain ⟨-, rfl⟩ := exPost_table rfl hs
    obtain ⟨-, rfl⟩ := exPost_table rfl ht
    obtain ⟨hm, rfl⟩ := colByName_some hx
    simp only [exPostStars, List.mem_cons, List.not_mem_nil, or_false] at hm
    rcases hm with rfl | rfl | rfl | rfl | rfl
    · cases hc
    · cases hc
    · exact ⟨rfl, rfl, rfl, "id", _, _, rfl, rfl⟩
    · exact ⟨rfl, rfl, rfl, "id", _, _, rfl, rfl⟩
    · exact ⟨rfl, rfl, rfl, "id", _, _, rfl, rfl⟩
  · intro n s t c x y hs ht hx hy
    obtain ⟨-, rfl⟩ := exPost_table rfl hs
    obtain ⟨-, rfl⟩ := exPost_table rfl ht
    obtain ⟨hm, rfl⟩ := colByName_some hx
    simp only [exPostStars, List.mem_cons, List.not_mem_nil, or_false] at hm
    left
    rcases hm with rfl | rfl | rfl | rfl | rfl <;> cases hy <;> exact ⟨SameColumn.refl _, fun r hr => by cases hr⟩

set_option maxRecDepth 20000 in
theorem exProj_down2 {s' : FsMigrations} (h : Cli.makeMigration false exWordsGet none "m2" exStarsStore = (.ok true, s')) :
    (s'.toMigs "sqlite").down "m2" ≠ .ok none := by
  have e : (Cli.makeMigration false exWordsGet none "m2" exStarsStore).2 = s' := by rw [h]
  subst e
  intro h
  cases h

/-- The post is still there after the migration to the new code and back. -/
example : ∃ s' db' db'' W'', Cli.makeMigration false exWordsGet none "m2" exStarsStore = (.ok true, s') ∧
    (s'.toMigs "sqlite").migrate (Cli.rounds s') exViewsConn.reliable exViewsRows = (.ok (), db') ∧
    Cli.unmigrateLatest (s'.toMigs "sqlite") (Cli.rounds s') exViewsConn.reliable db' = (.ok (), db'') ∧
    ProjectRun exPlainCfg exProjConn exPrinters s' db'' W'' [("m1", exViews)] [("m2", exStars)] ∧
    ∃ (objs : Objects exViewsModel) (o : ObjVals exViewsModel.fields), W''.stock "Post" = some ⟨exViewsModel, exViewsPk, objs⟩ ∧
      objs (.bigInt 1) = some o ∧ valueOf "title" _ o = some ⟨.string, "hello"⟩ := by
  obtain ⟨s', db', W', h1, h2, h3, h4, h5⟩ := project_migrates_partial (k := exProjConn) (items := exStars) exWords_ddl exDdl_free exRowStore_laws
    exQuery_laws exProj_faithful exQuery_real exResolve_ok exProj_plain exStars_named exStars_typed exStars_plain
    exProj_run3 exStars_compiled exWordsGet_name (fun b hb => exWordsGet_back b (by rw [exWordsGet_name _ _ hb]; exact hb))
    (spec := none) (name := "m2") (.inr ⟨.inl rfl, rfl, "m1", rfl, rfl⟩) rfl (by decide) (by
      rintro ⟨names, hn, hm⟩
      cases hn
      simp at hm) (fun new old hnew ho => by
      cases exStars_current.symm.trans hnew
      cases exStars_old ho
      exact ⟨exStars_differs, exStars_addable.1, exStars_addable.2, fun u _ _ => exStars_feasible u⟩)
    exProj_stars_crate exProj_takes (c := exViewsConn) rfl
  obtain ⟨a, b, hm, hs, -, -, hH, hP⟩ := (project_ok (k := exProjConn) exWords_ddl exDdl_free exRowStore_laws
    exQuery_laws exProj_faithful exQuery_real exResolve_ok exProj_plain h5).pending
  cases hP
  cases hH with
  | @cons e1 _ _ _ he1 hH =>
    cases hH with
    | @cons e2 _ _ _ he2 hH =>
      cases hH
      obtain ⟨n1, a1⟩ := e1
      obtain ⟨n2, a2⟩ := e2
      obtain ⟨he1, hv1⟩ := he1
      obtain ⟨he2, hv2⟩ := he2
      simp only at he1 he2
      subst he1 he2
      cases exProj_views_version hv1
      cases exProj_stars_version hv2
      obtain ⟨db'', W'', q1, q2, q3, -, -, q6⟩ := project_undoes_partial (c := exViewsConn) (k := exProjConn)
        (H := [("m1", exViews)]) (undone := [("m2", exStars)]) (P := []) exWords_ddl exDdl_free
        exRowStore_laws exQuery_laws exProj_faithful exQuery_real exResolve_ok exProj_plain h5 (by simp) hm
        (fun e he => (hs e he).valid)
        (by
          intro a e b hab he
          match a, hab with
          | [], hab =>
            obtain rfl := (List.cons.inj hab).1
            simp at he
          | [x], hab =>
            simp only [List.nil_append, List.cons_append, List.cons.injEq] at hab
            obtain ⟨rfl, rfl, -⟩ := hab
            exact ⟨exProj_down2 h1, fun u _ _ => exViews_feasible u⟩
          | _ :: _ :: _, hab => simp at hab)
        (V := exProjWorld exViewsStock0)
        (.next exProj_views_crate (takesOver_shape h4 exViews_takes) .none) rfl
      refine ⟨s', db', db'', W'', h1, h2, q6 _ rfl, q3, ?_⟩
      obtain ⟨objs, o, r1, r2, r3⟩ := exProj_title h3 h4 (s := exViewsStock) (o := exViewsSaved) rfl rfl rfl rfl
        ⟨_, List.mem_cons_of_mem _ (List.mem_cons_self ..), rfl, rfl⟩
      cases q1 with
      | next _ w2 w3 =>
        cases w3
        exact exProj_title w2 q2 r1 rfl r2 r3 ⟨_, List.mem_cons_of_mem _ (List.mem_cons_self ..), rfl, rfl⟩

end Butane.Props
