/-
C86: deleting the data of a project with labels and posts.
-/
import Verif.Props.ClearData
import Verif.Props.CrateProgramEx

namespace Butane.Props
open Butane Butane.Spec Butane.Ddl Butane.DdlP Butane.Codegen Butane.Proofs.Codegen Butane.Proofs.CrateDb

/-- A label and a post with it. -/
def exLinkedDb : MigDb SDb := ⟨exLabelDb [[.text "x"]] [[.integer 1]] [[.integer 1, .text "x"]], some ["m1"]⟩
/-- A label and a post without it. -/
def exUnlinkedDb : MigDb SDb := ⟨exLabelDb [[.text "x"]] [[.integer 1]] [], some ["m1"]⟩
def exNoDataDb : MigDb SDb := ⟨exLabelDb [] [] [], some ["m1"]⟩

deriving instance DecidableEq for Cli.CliErr

theorem exLinked_life : SqliteLife false exProjConn.env exProjConn.kw exProjConn.reserved exPrinters exLabelMade exLinkedDb := by
  obtain ⟨W, h, -⟩ := exLabel_run2
  exact (project_ok (k := exProjConn) exWords_ddl exDdl_free exRowStore_laws
      exQuery_laws exProj_faithful exQuery_real exResolve_ok exProj_plain h).life

theorem exUnlinked_run : ∃ W, ProjectRun exPlainCfg exProjConn exPrinters exLabelMade exUnlinkedDb W exLabelDone [] := by
  have h1 := WorldRun.save (k := exProjConn) (u0 := exLabelDb [] [] [])
    (W0 := exLabelWorld (fun _ => none) (fun _ => none) fun _ _ => False) (n := "Label")
    (s := exLabelStock fun _ => none) (o := exLabel) (o' := exLabel) (id := .text "x")
    (u' := exLabelDb [[.text "x"]] [] []) .start (by simp [exLabelWorld])
    ⟨trivial, trivial⟩ ⟨trivial, trivial⟩ exLabel_room (fun h => by cases h) rfl rfl
  have h2 := WorldRun.save (n := "Post")
    (s := exLabeledStock fun _ => none) (o := (none, (), ())) (o' := exLabeled) (id := .bigInt 1)
    (u' := exLabelDb [[.text "x"]] [[.integer 1]] []) h1 (by simp [World.setObjs, exLabelWorld])
    ⟨(fun _ h => by cases h), trivial⟩ ⟨(fun _ h => by cases h), trivial⟩ exLabeled_room (fun _ h => by cases h) rfl rfl
  exact ⟨_, .program exLabel_run1 (.objects .start h2)⟩

theorem exUnlinked_life : SqliteLife false exProjConn.env exProjConn.kw exProjConn.reserved exPrinters exLabelMade exUnlinkedDb := by
  obtain ⟨W, h⟩ := exUnlinked_run
  exact (project_ok (k := exProjConn) exWords_ddl exDdl_free exRowStore_laws
      exQuery_laws exProj_faithful exQuery_real exResolve_ok exProj_plain h).life

set_option maxRecDepth 20000 in
theorem exUnlinked_clears : Cli.clearData false exProjConn (fun _ => false) exLabelMade exViewsConn exUnlinkedDb =
    (["Label", "Post", "Post_labels_Many"], .ok (), exNoDataDb) := by
  decide +kernel

set_option maxRecDepth 20000 in
theorem exLinked_stuck : Cli.clearData false exProjConn (fun _ => false) exLabelMade exViewsConn exLinkedDb =
    (["Label"], .error (.lib .db), exLinkedDb) := by
  decide +kernel

/-- The case of a post without labels. -/
example : RowsDeleted ["Label", "Post", "Post_labels_Many"] exUnlinkedDb.user exNoDataDb.user :=
  (clear_data exWords_ddl exDdl_free exRowStore_laws exWords_sql exUnlinked_life exUnlinked_clears).2.1

example : SqliteLife false exProjConn.env exProjConn.kw exProjConn.reserved exPrinters exLabelMade exNoDataDb :=
  clear_data_life exWords_ddl exDdl_free exRowStore_laws exWords_sql exUnlinked_life exUnlinked_clears

/-- The label and the post are gone from the project. -/
example : ∃ W W', ProjectRun exPlainCfg exProjConn exPrinters exLabelMade exUnlinkedDb W exLabelDone [] ∧ W'.Empty ∧ SameShape W W' ∧
    ProjectRun exPlainCfg exProjConn exPrinters exLabelMade exNoDataDb W' exLabelDone [] ∧ Keeps exProjConn exNoDataDb.user W' := by
  obtain ⟨W, h⟩ := exUnlinked_run
  obtain ⟨W', h'⟩ := project_clear (k := exProjConn) exWords_ddl exDdl_free exRowStore_laws
      exQuery_laws exProj_faithful exQuery_real exResolve_ok exProj_plain h exUnlinked_clears
  exact ⟨W, W', h, h'⟩

/-- No row refers to another, and so it succeeds. -/
example : ∀ a b, compare a b = .lt → ¬ RowRefers exUnlinkedDb.user b a := by
  obtain ⟨W, h⟩ := exUnlinked_run
  have hok := project_ok (k := exProjConn) exWords_ddl exDdl_free exRowStore_laws
      exQuery_laws exProj_faithful exQuery_real exResolve_ok exProj_plain h
  obtain ⟨a, b, hm, hs, ha, -, -, hP⟩ := hok.pending
  cases hP
  rw [List.append_nil] at hm hs
  have hne : ∃ e, e ∈ a := by
    cases a with
    | nil =>
      have := (reach_inv (life_reach hok.life) hm).1.latest
      cases this
    | cons e l => exact ⟨e, List.mem_cons_self ..⟩
  obtain ⟨e, he⟩ := hne
  exact (clear_data_succeeds_partial (c := exViewsConn) exWords_ddl exDdl_free exRowStore_laws exWords_sql
    hok.life hm (fun e he => (hs e he).valid) he (ha e he) (fun _ => rfl)).1 ⟨_, _, exUnlinked_clears⟩

theorem exLinked_refers : RowRefers exLinkedDb.user "Post_labels_Many" "Label" :=
  ⟨_, _, rfl, rfl, ⟨"has", "Label", "name"⟩, List.mem_cons_of_mem _ (List.mem_cons_self ..), rfl, _, List.mem_cons_self ..,
    .text "x", rfl, (fun h => by cases h), rfl⟩

/-- C86 fails for a post with a label: it stays, however often one tries. -/
theorem clear_data_linked_violated : (∃ W, ProjectRun exPlainCfg exProjConn exPrinters exLabelMade exLinkedDb W exLabelDone []) ∧
    ∀ fails c shown r db', Cli.clearData false exProjConn fails exLabelMade c exLinkedDb = (shown, r, db') →
      r ≠ .ok () ∧ RowRefers db'.user "Post_labels_Many" "Label" := by
  refine ⟨?_, fun fails c shown r db' h => ?_⟩
  · obtain ⟨W, h, -⟩ := exLabel_run2
    exact ⟨W, h⟩
  · exact clear_data_stuck_violated exWords_ddl exDdl_free exRowStore_laws exWords_sql exLinked_life
      (by decide) exLinked_refers h

end Butane.Props
