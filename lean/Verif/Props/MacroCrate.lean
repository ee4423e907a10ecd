/-
C100 for the models of any crate.
-/
import Verif.Spec.MacroCrate
import Verif.Props.MacroProject
import Verif.Props.CrateProgramEx

namespace Butane.Props
open Butane Sql Ddl Spec Macro Codegen Butane.Proofs.Codegen Butane.Proofs.CrateDb

variable {g : Cfg} {items : List Item} {k : SqliteConn} {W : World} {E : MEnv} {p : LitPrinters}

theorem refers_not_many {p q q' : Path} (h : TypeRefers items p q) : ¬ WrittenAs "Many" p q' := by
  intro h'
  cases h with
  | direct h => exact absurd (applied_arg h h').1 (by decide)
  | alias => obtain ⟨m, i, e, -⟩ := h'; cases e

/-- A reference is stored as the key of what it refers to. -/
theorem refers_sql {ft : Features} {p q : Path} (h : TypeRefers items p q) {st : Struct} (hs : .model st ∈ items)
    (hq : q.last.name = st.ident.name) {f : Codegen.Field} (hf : IsKey st f) {r : Path} (hr : f.ty = some r) {ty : TypeIdentifier}
    (ht : HasSqlType ft items r ty) : HasSqlType ft items p ty := by
  induction h with
  | direct h => exact .foreignKey h hs hq hf hr ht
  | alias h1 h2 _ ih => exact .alias h1 h2 (ih hq)

/-- The stock of a model type is that of a struct of the crate. -/
theorem crate_stock (hn : WellNamed items) (hc : CrateWorld g.ft items k W) (hE : CrateEnv items E) {T : String} {s : Stock}
    (h : W.stock (E.obj T).table = some s) :
    ∃ st ∈ modelsOf items, T = st.ident.name ∧ UsableModel g.ft items k st s.m s.pk := by
  obtain ⟨st, hst, e, hu⟩ := hc.stock _ _ h
  by_cases hT : ∃ st' ∈ modelsOf items, st'.ident.name = T
  · obtain ⟨st', hst', rfl⟩ := hT
    rw [(hE.obj st' hst').1] at e
    obtain rfl := tableOf_inj hn hst' hst e
    exact ⟨st', hst', rfl, hu⟩
  · exact absurd e (hE.other T (fun st' h' e' => hT ⟨st', h', e'⟩) st hst)

/-- A field that is no `Many` is a field of the objects. -/
theorem crate_field {st : Struct} {s : Stock} (hu : UsableModel g.ft items k st s.m s.pk) {f : Codegen.Field}
    (hf : f ∈ st.fields) (hm : ∀ q, ¬ IsMany f q) :
    ∃ t, HasField s.m f.ident.name t ∧ ∃ p, f.ty = some p ∧ RustType g.ft items p t := by
  obtain ⟨f', hf', hi⟩ := allMatch_left hu.isModel.fields hf
  cases ht : f'.ty with
  | none => obtain ⟨q, hq⟩ := hi.many.1 ht; exact absurd hq (hm q)
  | some t => exact ⟨t, ⟨f', hf', hi.name, ht⟩, hi.type t ht⟩

theorem crate_key (ht : Typed g.ft items) {st : Struct} (hst : st ∈ modelsOf items) {s : Stock}
    (hu : UsableModel g.ft items k st s.m s.pk) : ∃ f, IsKey st f ∧ f ∈ st.fields ∧ s.pk.name = f.ident.name ∧
      ∃ t p, s.pk.ty = some t ∧ HasField s.m s.pk.name t ∧ f.ty = some p ∧ RustType g.ft items p t := by
  obtain ⟨f, hk, hi, hf, hpk⟩ := model_key hu.isModel hu.noRaw hu.key
  obtain ⟨f', hk', hm⟩ := ht.key st hst
  obtain rfl := key_unique hk hk'
  cases hty : s.pk.ty with
  | none => obtain ⟨q, hq⟩ := hi.many.1 hty; exact absurd hq (hm q)
  | some t =>
    obtain ⟨p, h1, h2⟩ := hi.type t hty
    exact ⟨f, hk, hf, hi.name, t, p, rfl, ⟨_, hpk, rfl, hty⟩, h1, h2⟩

theorem kind_col {st : Struct} {f : Codegen.Field} {kind : FKind} (h : KindOf items st f kind) (hc : isCol (some kind) = true) :
    ∀ q, ¬ IsMany f q := by
  cases h with
  | plain h => exact h
  | fkey h1 h2 =>
    rintro q ⟨p, e, h⟩
    rw [h1] at e
    cases e
    exact refers_not_many h2 h
  | many => cases hc

/-- C100, crates: what `filter!` knows of the models of a crate is right about their objects. -/
theorem crate_filter_world (hr : ResolverOk g.resolve) (hn : WellNamed items) (ht : Typed g.ft items)
    (hc : CrateWorld g.ft items k W) (hE : CrateEnv items E) (hf : CrateFilterNames items k) (hk : TypesChecked E k W) :
    WorldFor E k W where
  key T s h := by
    obtain ⟨st, hst, rfl, hu⟩ := crate_stock hn hc hE h
    obtain ⟨f, hkey, -, hname, t, -, -, hfield, -⟩ := crate_key ht hst hu
    obtain ⟨-, f', hkey', e⟩ := hE.obj st hst
    rw [e, key_unique hkey' hkey, hname]
    exact ⟨rfl, t, hname ▸ hfield⟩
  col T s n h hcol := by
    obtain ⟨st, hst, rfl, hu⟩ := crate_stock hn hc hE h
    cases hkind : E.field st.ident.name n with
    | none => rw [hkind] at hcol; cases hcol
    | some kind =>
      rw [hkind] at hcol
      obtain ⟨f, hmem, rfl, hK⟩ := hE.field st hst n kind hkind
      obtain ⟨t, h1, -⟩ := crate_field hu hmem (kind_col hK hcol)
      exact ⟨hf.plain st hst f hmem (kind_col hK hcol), t, h1⟩
  fkey T s n t h hkind := by
    obtain ⟨st, hst, rfl, hu⟩ := crate_stock hn hc hE h
    obtain ⟨f, hmem, rfl, hK⟩ := hE.field st hst n _ hkind
    obtain ⟨ty, h1, p1, e1, hR⟩ := crate_field hu hmem (kind_col hK rfl)
    cases hK with
    | @fkey p q st' hty href hst' hq =>
      obtain ⟨s', hs'⟩ := hc.models st' hst'
      obtain ⟨st2, hst2, e2, hu'⟩ := hc.stock _ _ hs'
      obtain rfl := tableOf_inj hn hst' hst2 e2
      obtain ⟨f', hkey, -, -, t', r, hpk, -, hfr, hR'⟩ := crate_key ht hst' hu'
      rw [hty] at e1
      cases e1
      obtain ⟨db, -, hrec⟩ := recorded hr hn ht
      have := has_unique hr hn ht hrec (rustType_sql hR)
        (refers_sql href (mem_models.1 hst') hq hkey hfr (rustType_sql hR'))
      refine ⟨s', by rw [(hE.obj st' hst').1]; exact hs', ty, t', h1, hpk, ?_⟩
      simpa using this.symm
  many T s n m t h hkind := by
    obtain ⟨st, hst, rfl, hu⟩ := crate_stock hn hc hE h
    obtain ⟨f, hmem, rfl, hK⟩ := hE.field st hst n _ hkind
    cases hK with
    | @many q st' hq hst' hqn =>
      obtain ⟨s', hs'⟩ := hc.models st' hst'
      obtain ⟨st2, hst2, e2, hu'⟩ := hc.stock _ _ hs'
      obtain rfl := tableOf_inj hn hst' hst2 e2
      obtain ⟨L, hL⟩ := hc.many st hst f hmem q hq
      obtain ⟨st1, hst1, f1, hf1, q1, hq1, st3, hst3, hq3, e, ⟨s1, hs1, ho⟩, s3, hs3, htg⟩ := hc.links _ _ hL
      have hmt : ∀ {st : Struct} {f : Codegen.Field} {q : Path}, f ∈ st.fields → IsMany f q →
          tableOf st ++ "_" ++ f.ident.name ++ "_Many" ∈ tablesOf st := fun hf hq =>
        List.mem_cons_of_mem _ (List.mem_map.2 ⟨_, mem_manyFields.2 ⟨hf, _, hq⟩, rfl⟩)
      obtain rfl := flatMap_inj hn.tables hst hst1 (hmt hmem hq) (by rw [e]; exact hmt hf1 hq1)
      have hfn : f.ident.name = f1.ident.name := by
        simpa [String.append_assoc] using e
      obtain rfl := eq_of_name (hn.fields st hst) hmem hf1 hfn
      obtain rfl := isMany_unique hq hq1
      obtain rfl := eq_of_name hn.structs hst' hst3 (hqn.symm.trans hq3)
      rw [(hE.obj st hst).1, hs1] at h
      cases h
      rw [hs'] at hs3
      cases hs3
      refine ⟨s', L, by rw [(hE.obj st' hst').1]; exact hs', hL, ho.symm, htg.symm, ?_, ?_⟩
      · obtain ⟨f', -, hf', hname, -⟩ := crate_key ht hst' hu'
        rw [hname]
        exact hf.link st hst f hmem q hq st' hst' hqn f' hf'
      · intro n hcol
        cases hkn : E.field st'.ident.name n with
        | none => rw [hkn] at hcol; cases hcol
        | some kind =>
          obtain ⟨f', hf', rfl, -⟩ := hE.field st' hst' n kind hkn
          exact hf.link st hst f hmem q hq st' hst' hqn f' hf'
  keyOk := hk.keys
  cmpOk := hk.values

/-! ### The objects of a project are always those of a crate -/

theorem shape_refl (W : World) : SameShape W W := ⟨fun _ => rfl, fun _ => rfl⟩

theorem shape_trans {U V W : World} (h : SameShape U V) (h' : SameShape V W) : SameShape U W :=
  ⟨fun n => (h'.stock n).trans (h.stock n), fun n => (h'.links n).trans (h.links n)⟩

theorem setObjs_shape {n : String} {s : Stock} (h : W.stock n = some s) (objs : Objects s.m) :
    SameShape W (W.setObjs n s objs) := by
  refine ⟨fun n' => ?_, fun _ => rfl⟩
  unfold World.setObjs
  by_cases hn : n' = n
  · subst hn
    simp [h]
  · simp [hn]

theorem setLinks_shape {n : String} {L L' : Links} (h : W.links n = some L) (ho : L'.owner = L.owner)
    (ht : L'.target = L.target) : SameShape W (W.setLinks n L') := by
  refine ⟨fun _ => rfl, fun n' => ?_⟩
  unfold World.setLinks
  by_cases hn : n' = n
  · subst hn
    simp [h, ho, ht]
  · simp [hn]

theorem world_shape {u0 u : SDb} {W0 W : World} (h : WorldRun k u0 W0 u W) : SameShape W0 W := by
  induction h with
  | start => exact shape_refl _
  | save _ hs _ _ _ _ _ _ ih => exact shape_trans ih (setObjs_shape hs _)
  | delete _ hs _ _ _ ih => exact shape_trans ih (setObjs_shape hs _)

/-- Programs do not change the models. -/
theorem program_shape {u0 u : SDb} {W0 W : World} (h : ProgramRun k u0 W0 u W) : SameShape W0 W := by
  induction h with
  | start => exact shape_refl _
  | objects _ hw ih => exact shape_trans ih (world_shape hw)
  | deleteQuery _ hs _ _ ih => exact shape_trans ih (setObjs_shape hs _)
  | manySave _ hL _ _ _ ih => exact shape_trans ih (setLinks_shape hL rfl rfl)
  | manySaveFailed _ hL _ _ ih => exact shape_trans ih (setLinks_shape hL rfl rfl)
  | manyDelete _ hL _ _ ih => exact shape_trans ih (setLinks_shape hL rfl rfl)

theorem emptied_shape (names : List String) : SameShape W (W.emptied names) := by
  constructor <;> intro n <;> unfold World.emptied <;> by_cases hn : n ∈ names
  · simp only [hn, if_true]
    cases W.stock n <;> rfl
  · simp only [hn, if_false]
  · simp only [hn, if_true]
    cases W.links n <;> rfl
  · simp only [hn, if_false]

theorem crate_shape {ft : Features} {V W : World} (h : SameShape V W) (hc : CrateWorld ft items k V) :
    CrateWorld ft items k W := by
  have h' := sameShape_symm h
  constructor
  · intro n s hs
    obtain ⟨objs, hv⟩ := stock_shape h hs
    exact hc.stock n ⟨s.m, s.pk, objs⟩ hv
  · intro st hst
    obtain ⟨s, hs⟩ := hc.models st hst
    obtain ⟨objs, hw⟩ := stock_shape h' hs
    exact ⟨_, hw⟩
  · intro n L hL
    obtain ⟨R, hv⟩ := links_shape h hL
    obtain ⟨st, hst, f, hf, q, hq, st', hst', e1, e2, ⟨s, hs, e3⟩, s', hs', e4⟩ := hc.links n _ hv
    obtain ⟨o, hw⟩ := stock_shape h' hs
    obtain ⟨o', hw'⟩ := stock_shape h' hs'
    exact ⟨st, hst, f, hf, q, hq, st', hst', e1, e2, ⟨_, hw, e3⟩, _, hw', e4⟩
  · intro st hst f hf q hq
    obtain ⟨L, hL⟩ := hc.many st hst f hf q hq
    obtain ⟨R, hw⟩ := links_shape h' hL
    exact ⟨_, hw⟩

theorem no_items_named : WellNamed [] := by
  constructor <;> simp [modelsOf, typeNames]

theorem no_items_typed (ft : Features) : Typed ft [] := by
  constructor <;> simp [modelsOf]

theorem upgrades_crate {ft : Features} {l : List (List Item)} {W W' : World} (h : Upgrades ft k l W W')
    (hl : ∀ items ∈ l, WellNamed items ∧ Typed ft items)
    (hW : ∃ items, WellNamed items ∧ Typed ft items ∧ CrateWorld ft items k W) :
    ∃ items, WellNamed items ∧ Typed ft items ∧ CrateWorld ft items k W' := by
  induction h with
  | none => exact hW
  | next hc _ _ ih =>
    exact ih (fun i hi => hl i (List.mem_cons_of_mem _ hi)) ⟨_, (hl _ (List.mem_cons_self ..)).1, (hl _ (List.mem_cons_self ..)).2, hc⟩

theorem project_crates {s : FsMigrations} {db : MigDb SDb} {H P : List (String × List Item)}
    (h : ProjectRun g k p s db W H P) : (∀ e ∈ H ++ P, WellNamed e.2 ∧ Typed g.ft e.2) ∧
      ∃ items, WellNamed items ∧ Typed g.ft items ∧ CrateWorld g.ft items k W := by
  induction h with
  | start =>
    refine ⟨(fun e he => by cases he), [], no_items_named, no_items_typed _, ?_⟩
    constructor <;> simp [modelsOf]
  | program _ hrun ih =>
    obtain ⟨h1, items, h2, h3, h4⟩ := ih
    exact ⟨h1, items, h2, h3, crate_shape (program_shape hrun) h4⟩
  | compile _ _ _ ih => exact ih
  | make _ hn ht _ _ _ _ _ _ _ _ _ ih =>
    refine ⟨fun e he => ?_, ih.2⟩
    rw [← List.append_assoc] at he
    rcases List.mem_append.1 he with he | he
    · exact ih.1 e he
    · cases List.mem_singleton.1 he
      exact ⟨hn, ht⟩
  | makeNot _ _ _ _ _ _ _ _ _ ih => exact ih
  | replace _ hn ht _ _ _ hc _ ih => exact ⟨ih.1, _, hn, ht, hc⟩
  | @detach s s' db W H P c r _ _ ih =>
    refine ⟨fun e he => ?_, ih.2⟩
    rcases List.mem_append.1 he with he | he
    · exact ih.1 e (List.mem_append_left _ he)
    · refine ih.1 e (List.mem_append_right _ ?_)
      split at he
      · exact List.dropLast_subset _ he
      · exact he
  | addBackend _ _ _ _ ih => exact ih
  | removeBackend _ _ _ _ ih => exact ih
  | clear _ _ ih =>
    obtain ⟨h1, items, h2, h3, h4⟩ := ih
    exact ⟨h1, items, h2, h3, crate_shape (emptied_shape _) h4⟩
  | @migrate s db db' W W' H done rest _ _ _ _ hup ih =>
    refine ⟨by rw [List.append_assoc]; exact ih.1, upgrades_crate hup (fun i hi => ?_) ih.2⟩
    obtain ⟨e, he, rfl⟩ := List.mem_map.1 hi
    exact ih.1 e (by simp [he])
  | @undo s db db' W W' H undone P _ _ _ _ hup ih =>
    refine ⟨by rw [← List.append_assoc]; exact ih.1, upgrades_crate hup (fun i hi => ?_) ih.2⟩
    have hi := List.dropLast_subset _ (List.mem_reverse.1 hi)
    rcases List.mem_cons.1 hi with rfl | hi
    · cases hl : (H.map (·.2)).getLast? with
      | none =>
        rw [List.getLastD_eq_getLast?, hl]
        exact ⟨no_items_named, no_items_typed _⟩
      | some i =>
        rw [List.getLastD_eq_getLast?, hl]
        obtain ⟨e, he, rfl⟩ := List.mem_map.1 (List.mem_of_getLast? hl)
        exact ih.1 e (by simp [he])
    · obtain ⟨e, he, rfl⟩ := List.mem_map.1 hi
      exact ih.1 e (by simp [he])

/-- C100, crates: after any history of a project, the objects that should be there are those of the models
of a crate. -/
theorem project_has_crate {s : FsMigrations} {db : MigDb SDb} {H P : List (String × List Item)}
    (h : ProjectRun g k p s db W H P) :
    ∃ items, WellNamed items ∧ Typed g.ft items ∧ CrateWorld g.ft items k W := (project_crates h).2

/-- C100, crates: in a project whose objects are those of the models of its crate, `load` with `filter!(T, e)`
finds exactly the objects of which `e`, as written, is true.
Partial: names of columns that need no quotes (`CrateFilterNames`, C11), and as `macro_load_partial` and C85. -/
theorem crate_filter_partial (hk : CoversDdl k.kw k.reserved) (hf : TypesFree k.reserved) (laws : StrictLaws k.env)
    (hdata : DataLaws k.env k.data) (hcodecs : Faithful k.codecs) (hD : RealLaws k.data) (hr : ResolverOk g.resolve)
    (hplain : PlainName k.reserved "owner") (hnamed : WellNamed items) (htyped : Typed g.ft items) {s : FsMigrations}
    {db : MigDb SDb} {H P : List (String × List Item)} (h : ProjectRun g k p s db W H P) (hc : CrateWorld g.ft items k W)
    (hE : CrateEnv items E) (hnames : CrateFilterNames items k) (hck : TypesChecked E k W)
    {sd : Struct} (hsd : sd ∈ modelsOf items) {e : RExpr} {b : BoolExpr}
    (hm : filterMacro E sd.ident.name e = some b) (hp : Parsed 0 e) (hn : NoSplices e) (hl : LikesOk E k W sd.ident.name e) :
    ∃ st, W.stock (tableOf sd) = some st ∧ UsableModel g.ft items k sd st.m st.pk ∧
      ∀ q : Query, q.table = st.m.table → q.filter = some b → (∀ c ∈ q.sort, ∃ ty, HasField st.m c.column ty) →
        NonNeg q.limit → NonNeg q.offset →
        (q.limit = none → ∀ o, q.offset = some o → ∀ t, db.user.lookup (tableOf sd) = some t →
          (t.rows.length : Int) ≤ o.toInt + 2147483647) →
        ∀ res, st.m.LoadOut k db.user q res →
          ∃ os, res = .ok os ∧ Lists k st.m (fun id o => st.Has id o ∧ ObjTrueOf E k W sd.ident.name st o e) q.sort
            (count q.limit) (count q.offset) os := by
  obtain ⟨st, hst⟩ := hc.models sd hsd
  obtain ⟨sd', hsd', e', hu⟩ := hc.stock _ _ hst
  obtain rfl := tableOf_inj hnamed hsd hsd' e'
  have ho := (hE.obj sd hsd).1
  refine ⟨st, hst, hu, fun q hq hfil hsort hlim hoff hbig res hres => ?_⟩
  exact project_macro_partial hk hf laws hdata hcodecs hD hr hplain h
    (crate_filter_world hr hnamed htyped hc hE hnames hck) (by rw [ho]; exact hst) hm hp hn hl hq hfil hsort hlim hoff
    (by rw [ho]; exact hbig) hres

/-! ### Example -/

/-- What `filter!` knows of `Label` and `Post`. -/
def labelEnv : MEnv where
  obj T := if T = "Label" then ⟨"Label", "name"⟩ else if T = "Post" then ⟨"Post", "id"⟩ else ⟨"other", "id"⟩
  field T f := if T = "Label" then if f = "name" then some .plain else none
    else if T = "Post" then
      if f = "id" then some .plain else if f = "labels" then some (.many "Post_labels_Many" "Label") else none
    else none
  cmpOk _ _ _ v := match v with | .text _ => true | _ => false
  keyOk _ _ := false

/-- `labels.contains(name == "x")`. -/
def labelExpr : RExpr := .call (.path "labels") "contains" (.binary .eq (.path "name") (.lit (.text "x"))) 0

theorem labels_noMany {f : Codegen.Field} (h : manySpelled f = false) (q : Path) : ¬ IsMany f q := by
  intro hq
  have := (manySpelled_iff f).1 ⟨q, hq⟩
  rw [h] at this; cases this

theorem labelEnv_crate : CrateEnv exLabels labelEnv where
  obj st hst := by
    rcases exLabels_model hst with rfl | rfl
    · exact ⟨rfl, _, isKey_iff.2 rfl, rfl⟩
    · exact ⟨rfl, _, isKey_iff.2 rfl, rfl⟩
  other T hT st hst := by
    have h1 : T ≠ "Label" := fun e => hT _ exLabels_label e.symm
    have h2 : T ≠ "Post" := fun e => hT _ exLabels_labeled e.symm
    simp only [labelEnv, h1, h2, if_false]
    rcases exLabels_model hst with rfl | rfl <;> decide
  field st hst n kind h := by
    rcases exLabels_model hst with rfl | rfl
    · have h : (if n = "name" then some FKind.plain else none) = some kind := h
      split at h
      · next e =>
        cases h
        exact ⟨_, .head _, e.symm, .plain (labels_noMany rfl)⟩
      · cases h
    · have h : (if n = "id" then some FKind.plain else if n = "labels" then some (.many "Post_labels_Many" "Label")
        else none) = some kind := h
      split at h
      · next e =>
        cases h
        exact ⟨_, .head _, e.symm, .plain (labels_noMany rfl)⟩
      · split at h
        · next e =>
          cases h
          exact ⟨_, .tail _ (.head _), e.symm, .many exLabels_many exLabels_label rfl⟩
        · cases h

theorem labels_filterNames : CrateFilterNames exLabels exProjConn where
  plain st hst f hf hm := by
    rcases exLabels_model hst with rfl | rfl
    · obtain rfl := exLabels_label_field hf
      exact ⟨nameOf rfl (by decide) (by decide), by decide, rfl⟩
    · rcases exLabels_field hf with rfl | rfl
      · exact ⟨nameOf rfl (by decide) (by decide), by decide, rfl⟩
      · exact absurd exLabels_many (hm _)
  link st hst f hf q hq st' hst' hqn f' hf' := by
    rcases exLabels_model hst' with rfl | rfl
    · obtain rfl := exLabels_label_field hf'
      exact ⟨by decide, by decide⟩
    · rcases exLabels_field hf' with rfl | rfl <;> exact ⟨by decide, by decide⟩

theorem labels_checked (W : World) : TypesChecked labelEnv exProjConn W where
  keys T s v _ hv := by cases hv
  values T f op v h := by
    cases v <;> simp [labelEnv] at h
    exact ⟨_, rfl⟩

/-- Whatever labels, posts and labels of posts there are, what the macro knows is right. -/
example (labels : Objects exLabelModel) (posts : Objects exLabeledModel) (linked : SqlVal → SqlVal → Prop) :
    WorldFor labelEnv exProjConn (exLabelWorld labels posts linked) :=
  crate_filter_world (g := exPlainCfg) exResolve_ok exLabels_named exLabels_typed (exLabelWorld_crate labels posts linked)
    labelEnv_crate labels_filterNames (labels_checked _)

/-- After a label and a post with it were saved, the query for the posts with the label returns posts
that were saved, and all that have it. -/
example {b : BoolExpr} (hb : filterMacro labelEnv "Post" labelExpr = some b) :
    ∃ W L, W.stock "Post" = some (exLabeledStock exLabeledObjs) ∧ W.links "Post_labels_Many" = some L ∧
      (∀ x y, L.linked x y ↔ x = .bigInt 1 ∧ y = .text "x") ∧
      ∀ res : Except OpErr (List (ObjVals exLabeledModel.fields)),
        exLabeledModel.LoadOut exProjConn (exLabelDb [[.text "x"]] [[.integer 1]] [[.integer 1, .text "x"]])
          ((Query.new "Post").withFilter b) res →
        ∃ os, res = .ok os ∧ Lists exProjConn exLabeledModel (fun id o => (exLabeledStock exLabeledObjs).Has id o ∧
          ObjTrueOf labelEnv exProjConn W "Post" (exLabeledStock exLabeledObjs) o labelExpr) [] none none os := by
  obtain ⟨W, hW, -, hp, L, hL, hl⟩ := exLabel_program
  refine ⟨W, L, hp, hL, hl, fun res h => ?_⟩
  obtain ⟨st, h1, -, h3⟩ := crate_filter_partial (g := exPlainCfg) (sd := exLabeledStruct) exWords_ddl exDdl_free exRowStore_laws
    exQuery_laws exProj_faithful exQuery_real exResolve_ok exProj_plain exLabels_named exLabels_typed (.program exLabel_run1 hW)
    (crate_shape (program_shape hW) (exLabelWorld_crate _ _ _)) labelEnv_crate labels_filterNames (labels_checked _)
    exLabels_labeled (e := labelExpr) hb (by simp [labelExpr, Parsed]) (by simp [labelExpr, NoSplices])
    (by simp [labelExpr, LikesOk])
  cases hp.symm.trans (show W.stock "Post" = some st from h1)
  exact h3 _ rfl rfl (fun c hc => by cases hc) (by rintro x ⟨⟩) (by rintro x ⟨⟩) (by rintro - o ⟨⟩) res h

/-- The objects are those of a crate. -/
example : ∃ items, WellNamed items ∧ Typed exPlainCfg.ft items ∧ CrateWorld exPlainCfg.ft items exProjConn (exProjWorld exViewsStock) :=
  project_has_crate exProj_run2

/-- The macro accepts it. -/
example : (filterMacro labelEnv "Post" labelExpr).isSome = true := rfl

end Butane.Props
