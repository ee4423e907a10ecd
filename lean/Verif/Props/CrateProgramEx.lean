/-
C85: a project with a `Many` field.
-/
import Verif.Props.CrateProgram

namespace Butane.Props
open Butane Butane.Spec Butane.Ddl Butane.DdlP Butane.Codegen Butane.Proofs.Codegen Butane.Proofs.CrateDb

/-! ### A project with a `Many` field -/

/-- `struct Label { #[pk] name: String }` -/
def exLabelStruct : Struct := ⟨ident "Label", [], [fld "name" (ty0 "String") [.pk]]⟩
/-- `struct Post { id: AutoPk<i64>, labels: Many<Label> }` -/
def exLabeledStruct : Struct :=
  ⟨ident "Post", [], [fld "id" (ty1 "AutoPk" (ty0 "i64")), fld "labels" (ty1 "Many" (ty0 "Label"))]⟩
def exLabels : List Item := [.model exLabelStruct, .model exLabeledStruct]
def exLabelModel : TModel := ⟨"Label", [⟨"name", true, some .string⟩]⟩
def exLabelPk : TField := ⟨"name", true, some .string⟩
def exLabeledModel : TModel := ⟨"Post", [⟨"id", false, some (.autoPk .i64)⟩, ⟨"labels", false, none⟩]⟩

theorem exLabels_only : OnlyModels exLabels := by
  intro i hi
  simp only [exLabels, List.mem_cons, List.not_mem_nil, or_false] at hi
  rcases hi with rfl | rfl <;> exact .inl ⟨_, rfl⟩

theorem exLabels_model {s : Struct} (h : s ∈ modelsOf exLabels) : s = exLabelStruct ∨ s = exLabeledStruct := by
  simpa [exLabels, modelsOf] using h

theorem exLabels_labeled : exLabeledStruct ∈ modelsOf exLabels := by simp [exLabels, modelsOf]
theorem exLabels_label : exLabelStruct ∈ modelsOf exLabels := by simp [exLabels, modelsOf]

theorem exLabels_label_field {f : Codegen.Field} (hf : f ∈ exLabelStruct.fields) : f = fld "name" (ty0 "String") [.pk] := by
  simpa [exLabelStruct] using hf

theorem exLabels_field {f : Codegen.Field} (hf : f ∈ exLabeledStruct.fields) :
    f = fld "id" (ty1 "AutoPk" (ty0 "i64")) ∨ f = fld "labels" (ty1 "Many" (ty0 "Label")) := by
  simpa [exLabeledStruct] using hf

theorem exLabels_named : WellNamed exLabels := by
  refine ⟨by decide, ?_, ?_, by decide, by decide, ?_, by decide, by decide⟩
  · rw [show tablesOf = _ from funext tablesOf_eq]; decide
  · intro s hs s' hs' h
    rcases exLabels_model hs with rfl | rfl <;> rcases exLabels_model hs' with rfl | rfl <;>
      first | rfl | (revert h; decide)
  · intro n sh h
    simp [exLabels] at h

theorem exLabels_noDefault {f : Codegen.Field} (h : (f.attrs.any Attr.isDefault) = false) : DefaultOf f none := by
  refine .none fun l hl => ?_
  have : f.attrs.any Attr.isDefault = true := List.any_eq_true.2 ⟨_, hl, rfl⟩
  rw [h] at this; cases this

theorem exLabels_many : IsMany (fld "labels" (ty1 "Many" (ty0 "Label"))) (ty0 "Label") := ⟨_, rfl, spelled _ (by decide)⟩

theorem exLabels_typed : Typed exPlainCfg.ft exLabels := by
  have noMany : ∀ f : Codegen.Field, manySpelled f = false → ∀ q, ¬ IsMany f q := by
    intro f h q hq
    have := (manySpelled_iff f).1 ⟨q, hq⟩
    rw [h] at this; cases this
  refine ⟨?_, ?_, ?_, ?_⟩
  · intro s hs
    rcases exLabels_model hs with rfl | rfl
    · exact ⟨_, isKey_iff.2 rfl, noMany _ rfl⟩
    · exact ⟨_, isKey_iff.2 rfl, noMany _ rfl⟩
  · intro s hs f hf
    rcases exLabels_model hs with rfl | rfl
    · obtain rfl := exLabels_label_field hf
      exact .inr ⟨_, _, rfl, .builtin (exString _), _, exLabels_noDefault rfl⟩
    · rcases exLabels_field hf with rfl | rfl
      · exact .inr ⟨_, _, rfl, .autoPk (spelled _ (by decide)) (.builtin (exBuiltin (ty := .bigInt) (by decide) _)), _, exLabels_noDefault rfl⟩
      · exact .inl ⟨_, exLabelStruct, exLabels_many, exLabels_label, rfl⟩
  · intro n p h
    simp [exLabels] at h
  · intro n sh h
    simp [exLabels] at h

theorem exLabels_plain : PlainCrate exPlainCfg.ft exLabels := by
  refine ⟨?_, ?_, ?_, ?_⟩
  · intro s hs
    rcases exLabels_model hs with rfl | rfl
    · exact ⟨⟨'L', ['a', 'b', 'e', 'l'], rfl, by decide, by decide⟩, by decide, ne_replacement (by decide)⟩
    · exact ⟨⟨'P', ['o', 's', 't'], rfl, by decide, by decide⟩, by decide, ne_replacement (by decide)⟩
  · intro s hs f hf
    rcases exLabels_model hs with rfl | rfl
    · obtain rfl := exLabels_label_field hf
      exact ⟨_, _, rfl, by decide, by decide⟩
    · rcases exLabels_field hf with rfl | rfl <;> exact ⟨_, _, rfl, by decide, by decide⟩
  · intro s hs f hf p ty hp _
    obtain ⟨hf, hm⟩ := mem_rowFields.1 hf
    rcases exLabels_model hs with rfl | rfl
    · obtain rfl := exLabels_label_field hf
      cases hp
      exact ⟨.text, _, .builtin (exString _), rfl⟩
    · rcases exLabels_field hf with rfl | rfl <;> cases hp
      · exact ⟨.integer, _, .autoPk (spelled _ (by decide)) (.builtin (exBuiltin (ty := .bigInt) (by decide) _)), rfl⟩
      · exact absurd ⟨_, exLabels_many⟩ hm
  · intro s hs f hf p q hp hw
    rcases exLabels_model hs with rfl | rfl
    · obtain rfl := exLabels_label_field hf
      cases hp
      obtain ⟨_, _, h, -⟩ := hw; cases h
    · rcases exLabels_field hf with rfl | rfl <;> cases hp
      · exact isKey_iff.2 rfl
      · exact absurd (applied_arg (spelled (n := "Many") (ty0 "Label") (by decide)) hw).1 (by decide)

theorem rust_many {ty : FieldTy} (h : RustType exPlainCfg.ft exLabels (ty1 "Many" (ty0 "Label")) ty) : False := by
  have hw := spelled (n := "Many") (ty0 "Label") (by decide)
  generalize e : ty1 "Many" (ty0 "Label") = q at h
  cases h with
  | simple h => cases e
  | string h => subst e; exact absurd h (by decide)
  | bytes h => subst e; exact absurd h (by decide)
  | uuid h => subst e; exact absurd h (by decide)
  | value _ h => subst e; exact absurd h (by decide)
  | date h => subst e; exact absurd h (by decide)
  | naive h => subst e; exact absurd h (by decide)
  | utc h => subst e; exact absurd h (by decide)
  | map _ h => subst e; cases h
  | option h => subst e; exact absurd (applied_arg hw h).1 (by decide)
  | autoPk h => subst e; exact absurd (applied_arg hw h).1 (by decide)
  | foreignKey h => subst e; exact absurd (applied_arg hw h).1 (by decide)
  | alias h => rcases exLabels_only _ h with ⟨_, e⟩ | e <;> cases e
  | newtype h => rcases exLabels_only _ h with ⟨_, e⟩ | e <;> cases e
  | enum _ h => cases e
  | derived _ h => rcases exLabels_only _ h with ⟨_, e⟩ | e <;> cases e

theorem exLabel_usable : UsableModel exPlainCfg.ft exLabels exProjConn exLabelStruct exLabelModel exLabelPk where
  isModel := ⟨rfl, .cons ⟨rfl, by simp [fld], ⟨(fun h => by cases h), fun h => by rw [manySpelled_iff] at h; cases h⟩,
    fun ty h => by cases h; exact ⟨_, rfl, .string rfl (exString _)⟩⟩ .nil⟩
  option := by
    intro f hf p ty hp h habs
    obtain rfl := exLabels_label_field hf
    cases hp
    rw [rust_string exLabels_only h] at habs; exact habs.elim
  auto := by
    intro f hf p ty hp h
    obtain rfl := exLabels_label_field hf
    cases hp
    cases rust_string exLabels_only h
  noRaw := by
    intro f hf h
    obtain rfl := exLabels_label_field hf
    exact absurd h (by decide)
  covers := exWords_sql
  excluded := rfl
  table := by decide
  key := rfl
  plain := ⟨nameOf rfl (by decide) (by decide), by decide, rfl⟩
  keyType := by
    intro ty h
    cases h
    exact ⟨by decide, id⟩
  autoInt := by
    intro ty h
    cases h

theorem exLabeled_usable : UsableModel exPlainCfg.ft exLabels exProjConn exLabeledStruct exLabeledModel exViewsPk where
  isModel := ⟨rfl, .cons ⟨rfl, by simp [fld], ⟨(fun h => by cases h), fun h => by rw [manySpelled_iff] at h; cases h⟩,
      fun ty h => by cases h; exact ⟨_, rfl, .autoPk (spelled _ (by decide)) (.simple (by simp [ident]))⟩⟩
    (.cons ⟨rfl, by simp [fld], ⟨fun _ => ⟨_, exLabels_many⟩, fun _ => rfl⟩, fun ty h => by cases h⟩ .nil)⟩
  option := by
    intro f hf p ty hp h habs
    rcases exLabels_field hf with rfl | rfl <;> cases hp
    · rw [rust_auto exLabels_only h] at habs; exact habs.elim
    · exact (rust_many h).elim
  auto := by
    intro f hf p ty hp h
    rcases exLabels_field hf with rfl | rfl <;> cases hp
    · exact ⟨_, spelled _ (by decide)⟩
    · exact (rust_many h).elim
  noRaw := by
    intro f hf h
    rcases exLabels_field hf with rfl | rfl
    · rfl
    · exact absurd h (by decide)
  covers := exWords_sql
  excluded := rfl
  table := by decide
  key := rfl
  plain := ⟨nameOf rfl (by decide) (by decide), by decide, rfl⟩
  keyType := by
    intro ty h
    cases h
    exact ⟨by decide, id⟩
  autoInt := by
    intro ty h
    cases h
    exact ⟨_, .i64⟩

def exLabelStock (objs : Objects exLabelModel) : Stock := ⟨exLabelModel, exLabelPk, objs⟩
def exLabeledStock (objs : Objects exLabeledModel) : Stock := ⟨exLabeledModel, exViewsPk, objs⟩
def exLabelLinks (linked : SqlVal → SqlVal → Prop) : Links := ⟨exViewsPk, exLabelPk, linked⟩

/-- Labels, posts, and the labels of posts. -/
def exLabelWorld (labels : Objects exLabelModel) (posts : Objects exLabeledModel) (linked : SqlVal → SqlVal → Prop) : World where
  stock n := if n = "Label" then some (exLabelStock labels) else if n = "Post" then some (exLabeledStock posts) else none
  links n := if n = "Post_labels_Many" then some (exLabelLinks linked) else none

theorem exLabelWorld_crate (labels : Objects exLabelModel) (posts : Objects exLabeledModel) (linked : SqlVal → SqlVal → Prop) :
    CrateWorld exPlainCfg.ft exLabels exProjConn (exLabelWorld labels posts linked) where
  stock := by
    intro n s h
    simp only [exLabelWorld] at h
    split at h
    · cases h
      exact ⟨_, exLabels_label, ‹_›, exLabel_usable⟩
    · split at h
      · cases h
        exact ⟨_, exLabels_labeled, ‹_›, exLabeled_usable⟩
      · cases h
  models := by
    intro s hs
    rcases exLabels_model hs with rfl | rfl
    · exact ⟨exLabelStock labels, rfl⟩
    · exact ⟨exLabeledStock posts, rfl⟩
  links := by
    intro n L h
    simp only [exLabelWorld] at h
    split at h
    · cases h
      refine ⟨_, exLabels_labeled, _, List.mem_cons_of_mem _ (List.mem_cons_self ..), _, exLabels_many, _, exLabels_label, rfl,
        ‹_›, ⟨exLabeledStock posts, rfl, rfl⟩, exLabelStock labels, rfl, rfl⟩
    · cases h
  many := by
    intro s hs f hf q hq
    rcases exLabels_model hs with rfl | rfl
    · obtain rfl := exLabels_label_field hf
      have := (manySpelled_iff _).1 ⟨q, hq⟩
      cases this
    · rcases exLabels_field hf with rfl | rfl
      · have := (manySpelled_iff _).1 ⟨q, hq⟩
        cases this
      · exact ⟨exLabelLinks linked, rfl⟩

def exLabelT : ATable := ⟨"Label", [⟨"name", .knownId (.ty .text), false, true, false, false, none, none⟩]⟩
def exLabeledT : ATable := ⟨"Post", [⟨"id", .knownId (.ty .bigInt), false, true, true, false, none, none⟩]⟩
def exLabelLinkT (has : DeferredSqlType) (ref : ARef) : ATable :=
  ⟨"Post_labels_Many", [⟨"owner", .knownId (.ty .bigInt), false, false, false, false, none, some (.literal "Post" "id")⟩,
    ⟨"has", has, false, false, false, false, none, some ref⟩]⟩
def exLabelCurrent : String × FsDir :=
  ("current", ⟨none, [("Label", exLabelT), ("Post", exLabeledT),
    ("Post_labels_Many", exLabelLinkT (.deferred (.pk "Label")) (.deferred (.deferred (.pk "Label"))))], some [], []⟩)
/-- The project after compiling the crate for the first time. -/
def exLabelStore : FsMigrations := ⟨[exLabelCurrent], none⟩
/-- The project after making the first migration. -/
def exLabelMade : FsMigrations :=
  ⟨[exLabelCurrent, ("m1", ⟨some ⟨none, [], ["sqlite"]⟩, [("Label", exLabelT), ("Post", exLabeledT),
    ("Post_labels_Many", exLabelLinkT (.knownId (.ty .text)) (.literal "Label" "name"))], none,
    [("sqlite_down", "DROP TABLE Label;\nDROP TABLE Post;\nDROP TABLE Post_labels_Many;\n"),
     ("sqlite_up", "CREATE TABLE Label (\nname TEXT NOT NULL PRIMARY KEY\n) STRICT;\nCREATE TABLE Post (\nid INTEGER NOT NULL PRIMARY KEY\n) STRICT;\nCREATE TABLE Post_labels_Many (\nowner INTEGER NOT NULL,\nhas TEXT NOT NULL,\nFOREIGN KEY (owner) REFERENCES Post(id)\nFOREIGN KEY (has) REFERENCES Label(name)\n) STRICT;\nCREATE TABLE IF NOT EXISTS butane_migrations (\nname TEXT NOT NULL PRIMARY KEY\n) STRICT;\n")]⟩)], some "m1"⟩

theorem exLabel_dirs (n : String) (h : n ≠ "current") : exLabelStore.dirs.lookup n = none := by
  have : exLabelStore.dirs.map (·.1) = ["current"] := rfl
  cases hl : exLabelStore.dirs.lookup n with
  | none => rfl
  | some d =>
    have := List.mem_map_of_mem (f := (·.1)) (SMap.mem_of_lookup hl)
    rw [‹exLabelStore.dirs.map (·.1) = ["current"]›] at this
    exact absurd (List.mem_singleton.1 this) h

def exLabelDb (labels posts links : List (List SqliteVal)) : SDb :=
  [("Label", ⟨[⟨"name", ["TEXT"], [.notNull, .primaryKey]⟩], [], labels⟩),
   ("Post", ⟨[⟨"id", ["INTEGER"], [.notNull, .primaryKey]⟩], [], posts⟩),
   ("Post_labels_Many", ⟨[⟨"owner", ["INTEGER"], [.notNull]⟩, ⟨"has", ["TEXT"], [.notNull]⟩],
     [⟨"owner", "Post", "id"⟩, ⟨"has", "Label", "name"⟩], links⟩)]

set_option maxRecDepth 20000 in
set_option maxHeartbeats 1000000 in
theorem exLabel_make : Cli.makeMigration false exWordsGet (some (some (sqliteBackend exWords exPrinters))) "m1" exLabelStore =
    (.ok true, exLabelMade) := (rfl)

deriving instance DecidableEq for Except

instance : DecidableEq (MigDb SDb)
  | ⟨u, l⟩, ⟨u', l'⟩ =>
    if h : u = u' ∧ l = l' then isTrue (by cases h.1; cases h.2; rfl)
    else isFalse (by intro e; cases e; exact h ⟨rfl, rfl⟩)

set_option maxRecDepth 20000 in
theorem exLabel_migrates : (exLabelMade.toMigs "sqlite").migrate (Cli.rounds exLabelMade) exViewsConn ⟨[], none⟩ =
    (.ok (), ⟨exLabelDb [] [] [], some ["m1"]⟩) := by
  decide +kernel

def exLabel : ObjVals exLabelModel.fields := ("x", ())
def exLabeled : ObjVals exLabeledModel.fields := (some 1, (), ())
def exLabelTMany : TMany exLabelModel := ⟨"Post_labels_Many", some (.bigInt 1), [.text "x"], [], none⟩
def exLabelDone : List (String × List Item) := [("m1", exLabels)]

/-- The code is compiled, a migration is made, and the database is migrated. -/
theorem exLabel_run1 : ProjectRun exPlainCfg exProjConn exPrinters exLabelMade ⟨exLabelDb [] [] [], some ["m1"]⟩
    (exLabelWorld (fun _ => none) (fun _ => none) fun _ _ => False) exLabelDone [] := by
  have h1 : ProjectRun exPlainCfg exProjConn exPrinters exLabelStore ⟨[], none⟩ ⟨fun _ => none, fun _ => none⟩ [] [] :=
    .compile .start rfl exLabel_dirs
  refine .migrate (done := [("m1", exLabels)]) (rest := []) (.make (get := exWordsGet) (items := exLabels) h1 exLabels_named
    exLabels_typed exLabels_plain ⟨rfl, _, rfl, rfl, rfl⟩ exWordsGet_name ?_ (exLabel_dirs "m1" (by decide)) (by decide)
    ?_ ?_ exLabel_make) (.program (c := exViewsConn) rfl exLabel_migrates)
    (fun e he => ⟨_, rfl, by rw [List.mem_singleton.1 he]; exact List.mem_singleton.2 rfl⟩) (fun _ h => by cases h)
    (.next (exLabelWorld_crate _ _ _) ⟨?_, ?_⟩ .none)
  · rintro b (hb | hb) -
    · exact exWordsGet_back b hb
    · cases hb
      rfl
  · rintro ⟨_, h, -⟩
    cases h
  · intro new old _ ho
    cases (show old = ADB.new from ho)
    constructor
    · intro n a b c y hl; cases hl
    · intro n a b c y _ hl; cases hl
  · intro n s' h
    refine ⟨rfl, (fun _ id => ?_), fun s hs => by cases hs⟩
    simp only [exLabelWorld] at h
    split at h
    · cases h
      rfl
    · split at h
      · cases h
        rfl
      · cases h
  · intro n L h
    refine ⟨rfl, (fun _ x y hxy => ?_), fun s hs => by cases hs⟩
    simp only [exLabelWorld] at h
    split at h
    · cases h
      exact hxy
    · cases h

def exLabelObjs : Objects exLabelModel := Objects.put (fun _ => none) (.text "x") exLabel
def exLabeledObjs : Objects exLabeledModel := Objects.put (fun _ => none) (.bigInt 1) exLabeled

theorem exLabel_room {u : SDb} : KeyRoom exProjConn exLabelModel exLabelPk u := by
  intro ty I hty hI
  cases hty

theorem exLabeled_room {u : SDb} : KeyRoom exProjConn exLabeledModel exViewsPk u := by
  intro ty I hty hI t j _ _
  cases hty
  cases hI
  simp only [intI64]
  have h1 := Int64.toInt_lt j
  have h2 := Int64.le_toInt j
  omega

/-- A program saves a label and a post with it. -/
theorem exLabel_program : ∃ W, ProgramRun exProjConn (exLabelDb [] [] [])
      (exLabelWorld (fun _ => none) (fun _ => none) fun _ _ => False)
      (exLabelDb [[.text "x"]] [[.integer 1]] [[.integer 1, .text "x"]]) W ∧
    W.stock "Label" = some (exLabelStock exLabelObjs) ∧ W.stock "Post" = some (exLabeledStock exLabeledObjs) ∧
    ∃ L, W.links "Post_labels_Many" = some L ∧ ∀ x y, L.linked x y ↔ x = .bigInt 1 ∧ y = .text "x" := by
  have h1 := WorldRun.save (k := exProjConn) (u0 := exLabelDb [] [] [])
    (W0 := exLabelWorld (fun _ => none) (fun _ => none) fun _ _ => False) (n := "Label")
    (s := exLabelStock fun _ => none) (o := exLabel) (o' := exLabel) (id := .text "x")
    (u' := exLabelDb [[.text "x"]] [] []) .start (by simp [exLabelWorld])
    ⟨trivial, trivial⟩ ⟨trivial, trivial⟩ exLabel_room (fun h => by cases h) rfl rfl
  have h2 := WorldRun.save (n := "Post")
    (s := exLabeledStock fun _ => none) (o := (none, (), ())) (o' := exLabeled) (id := .bigInt 1)
    (u' := exLabelDb [[.text "x"]] [[.integer 1]] []) h1 (by simp [World.setObjs, exLabelWorld])
    ⟨(fun _ h => by cases h), trivial⟩ ⟨(fun _ h => by cases h), trivial⟩ exLabeled_room (fun _ h => by cases h) rfl rfl
  have h3 := ProgramRun.manySave (n := "Post_labels_Many") (L := exLabelLinks fun _ _ => False) (own := .bigInt 1)
    (m := exLabelTMany) (u' := exLabelDb [[.text "x"]] [[.integer 1]] [[.integer 1, .text "x"]])
    (m' := { exLabelTMany with newValues := [] })
    (.objects .start h2) (by simp [World.setObjs, exLabelWorld])
    ⟨rfl, rfl, (fun ty h => by cases h; rfl), (fun v hv ty h => by
      cases List.mem_singleton.1 hv
      cases h
      rfl), fun v hv => by cases hv⟩ (fun _ _ h => h.elim) rfl
  refine ⟨_, h3, ?_, ?_, _, rfl, ?_⟩
  · simp [World.setLinks, World.setObjs, exLabelStock, exLabelObjs]
  · simp [World.setLinks, World.setObjs, exLabeledStock, exLabeledObjs]
  · intro x y
    simp [Links.drop, Links.add, exLabelLinks, exLabelTMany]

/-- A label and a post with it were saved. -/
theorem exLabel_run2 : ∃ W, ProjectRun exPlainCfg exProjConn exPrinters exLabelMade
      ⟨exLabelDb [[.text "x"]] [[.integer 1]] [[.integer 1, .text "x"]], some ["m1"]⟩ W exLabelDone [] ∧
    W.stock "Label" = some (exLabelStock exLabelObjs) ∧ W.stock "Post" = some (exLabeledStock exLabeledObjs) ∧
    ∃ L, W.links "Post_labels_Many" = some L ∧ ∀ x y, L.linked x y ↔ x = .bigInt 1 ∧ y = .text "x" := by
  obtain ⟨W, h, h'⟩ := exLabel_program
  exact ⟨W, .program exLabel_run1 h, h'⟩

/-- The database holds both, and the post has the label. -/
example : ∃ (W : World) (L : Links), ProjectRun exPlainCfg exProjConn exPrinters exLabelMade
      ⟨exLabelDb [[.text "x"]] [[.integer 1]] [[.integer 1, .text "x"]], some ["m1"]⟩ W exLabelDone [] ∧
    Keeps exProjConn (exLabelDb [[.text "x"]] [[.integer 1]] [[.integer 1, .text "x"]]) W ∧
    W.links "Post_labels_Many" = some L ∧ L.linked (.bigInt 1) (.text "x") := by
  obtain ⟨W, h, -, -, L, hL, hl⟩ := exLabel_run2
  refine ⟨W, L, h, ?_, hL, (hl _ _).2 ⟨rfl, rfl⟩⟩
  exact (project_run_partial (k := exProjConn) exWords_ddl exDdl_free exRowStore_laws
      exQuery_laws exProj_faithful exQuery_real exResolve_ok exProj_plain h).1

end Butane.Props
