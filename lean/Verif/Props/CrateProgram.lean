/-
C85: objects and `Many` fields through the history of a project.
-/
import Verif.Proofs.WorldKept
import Verif.Props.ObjMany
import Verif.Props.ObjKept
import Verif.Proofs.WorldCleared
import Verif.Props.ClearData
import Verif.Props.SqliteUndo

namespace Butane.Props
open Butane Butane.Spec Butane.Ddl Butane.DdlP Butane.Codegen Butane.Proofs.Codegen Butane.Proofs.CrateDb

variable {p : LitPrinters} {g : Cfg} {items : List Item} {k : SqliteConn}

/-- Programs keep the schema. -/
theorem program_schema {u0 u : SDb} {W0 W : World} (h0 : Keeps k u0 W0) (hR : LinksReady k u0 W0)
    (hD : RealLaws k.data) (hr : ProgramRun k u0 W0 u W) {adb : ADB} (hs : HasSchema k.env adb u0) :
    HasSchema k.env adb u := by
  induction hr with
  | start => exact hs
  | objects hrun hw ih => exact world_schema (program_run_partial h0 hR hD hrun).1 hw ih
  | @deleteQuery u W n u' s q e hrun hst hq hd ih =>
    have hW := (program_run_partial h0 hR hD hrun).1
    obtain ⟨hn, t, hT⟩ := tabled_of hW hst
    have := (deleteQuery_stores hT (hW.stock n s hst).2.2 (asks_of hW hD hst hT hq)
      (objs := s.without k W e)
      (fun id o ho hP => by
        unfold Stock.without
        rw [if_pos ⟨o, ho, hP⟩])
      (fun id o ho hP => by
        unfold Stock.without
        rw [if_neg, ho.2]
        rintro ⟨o', ho', hP'⟩
        have := ho.2.symm.trans ho'.2
        cases this
        exact hP hP')
      (fun id hid => by
        unfold Stock.without
        rw [if_neg, hid]
        rintro ⟨o', ho', -⟩
        have := hid.symm.trans ho'.2
        cases this) hd).1
    exact this.schema (sound_of_schema ih) ih
  | manySave hrun hL hm hoth hsv ih =>
    obtain ⟨h1, h2⟩ := program_run_partial h0 hR hD hrun
    exact many_save_schema h1 h2 hL hm hsv ih
  | manySaveFailed hrun hL hm hsv ih =>
    obtain ⟨h1, h2⟩ := program_run_partial h0 hR hD hrun
    exact many_save_schema h1 h2 hL hm hsv ih
  | manyDelete hrun hL hm hd ih =>
    obtain ⟨h1, h2⟩ := program_run_partial h0 hR hD hrun
    unfold TMany.delete at hd
    rw [hm.owner, hm.table] at hd
    simp only at hd
    split at hd
    · cases hd
    · next db' hx =>
      cases hd
      obtain ⟨t, hT⟩ := linkTable_of h1 h2 hL
      exact (link_clear h2.plain hT hm.ownerKey hx).1.schema (sound_of_schema ih) ih

/-- Programs do not add tables, nor forget any. -/
theorem program_covers {u0 u : SDb} {W0 W : World} (hr : ProgramRun k u0 W0 u W) (n : String) :
    (W.stock n).isSome = (W0.stock n).isSome ∧ (W.links n).isSome = (W0.links n).isSome := by
  have hobj : ∀ {W : World} {n' : String} {s : Stock} {objs : Objects s.m}, W.stock n' = some s →
      ((W.setObjs n' s objs).stock n).isSome = (W.stock n).isSome ∧
      ((W.setObjs n' s objs).links n).isSome = (W.links n).isSome := by
    intro W n' s objs hs
    simp only [World.setObjs]
    by_cases e : n = n'
    · subst e
      simp [hs]
    · simp [if_neg e]
  have hlnk : ∀ {W : World} {n' : String} {L L' : Links}, W.links n' = some L →
      ((W.setLinks n' L').stock n).isSome = (W.stock n).isSome ∧
      ((W.setLinks n' L').links n).isSome = (W.links n).isSome := by
    intro W n' L L' hs
    simp only [World.setLinks]
    by_cases e : n = n'
    · subst e
      simp [hs]
    · simp [if_neg e]
  induction hr with
  | start => exact ⟨rfl, rfl⟩
  | objects _ hw ih =>
    rw [← ih.1, ← ih.2]
    clear ih
    induction hw with
    | start => exact ⟨rfl, rfl⟩
    | save _ hs _ _ _ _ _ _ ih2 => exact ⟨(hobj hs).1.trans ih2.1, (hobj hs).2.trans ih2.2⟩
    | delete _ hs _ _ _ ih2 => exact ⟨(hobj hs).1.trans ih2.1, (hobj hs).2.trans ih2.2⟩
  | deleteQuery _ hs _ _ ih => exact ⟨(hobj hs).1.trans ih.1, (hobj hs).2.trans ih.2⟩
  | manySave _ hL _ _ _ ih => exact ⟨(hlnk hL).1.trans ih.1, (hlnk hL).2.trans ih.2⟩
  | manySaveFailed _ hL _ _ ih => exact ⟨(hlnk hL).1.trans ih.1, (hlnk hL).2.trans ih.2⟩
  | manyDelete _ hL _ _ ih => exact ⟨(hlnk hL).1.trans ih.1, (hlnk hL).2.trans ih.2⟩

/-! ### Migrations -/

theorem split_unique {α : Type} {P : α → Prop} {A B C D : List α} (h : A ++ B = C ++ D) (hA : ∀ e ∈ A, P e)
    (hB : ∀ e ∈ B, ¬ P e) (hC : ∀ e ∈ C, P e) (hD : ∀ e ∈ D, ¬ P e) : A = C ∧ B = D := by
  rcases List.append_eq_append_iff.1 h with ⟨x, q1, q2⟩ | ⟨x, q1, q2⟩
  · cases x with
    | nil => exact ⟨by simpa using q1.symm, by simpa using q2⟩
    | cons y x => exact absurd (hC y (by rw [q1]; simp)) (hB y (by rw [q2]; simp))
  · cases x with
    | nil => exact ⟨by simpa using q1, by simpa using q2.symm⟩
    | cons y x => exact absurd (hA y (by rw [q1]; simp)) (hD y (by rw [q2]; simp))

theorem migrates_rows (hk : CoversDdl k.kw k.reserved) (hf : TypesFree k.reserved) (laws : StrictLaws k.env)
    {json : Bool} {s : FsMigrations} {db db' : MigDb SDb} (h : SqliteLife json k.env k.kw k.reserved p s db)
    {made : List (String × ADB)} (hm : HasMigrations json s made) (hv : ∀ e ∈ made, ValidSchema e.2)
    (hr : Migrates k.env k.reserved s db db') :
    ∃ a l b, made = a ++ l ++ b ∧ (∀ e ∈ a, Spec.Recorded db e.1) ∧ (∀ e ∈ l ++ b, ¬ Spec.Recorded db e.1) ∧
      (∀ e ∈ a ++ l, Spec.Recorded db' e.1) ∧ (∀ e ∈ b, ¬ Spec.Recorded db' e.1) ∧
      RowsThrough k.env k.codecs (before a :: l.map (·.2)) db.user db'.user ∧
      HasSchema k.env (before (a ++ l)) db'.user := by
  cases hr with
  | program hc hr =>
    obtain ⟨a, l, b, e1, e2, e3, e4, e5, e6, e7, -⟩ := sqlite_migrate_partial hk hf laws k.codecs h hm hv hc hr
    exact ⟨a, l, b, e1, e2, e3, e4, e5, e6, e7⟩
  | tool hc hr =>
    obtain ⟨a, l, b, e1, e2, e3, e4, e5, e6, e7, -⟩ := sqlite_tool_migrate_partial hk hf laws k.codecs h hm hv hc hr
    exact ⟨a, l, b, e1, e2, e3, e4, e5, e6, e7⟩

theorem migrates_life {json : Bool} {s : FsMigrations} {db db' : MigDb SDb}
    (h : SqliteLife json k.env k.kw k.reserved p s db) (hr : Migrates k.env k.reserved s db db') :
    SqliteLife json k.env k.kw k.reserved p s db' := by
  cases hr with
  | program hc hr => exact .migrate h hc hr
  | tool hc hr => exact .cliMigrate h hc hr

/-- If there is nothing to do, the latest migration has the schema of the code. -/
theorem make_nothing_same {json : Bool} {s s' : FsMigrations} {made : List (String × ADB)} (hi : FsInv s made)
    (hb : ValidSchema (before made)) {get : String → Option MigBackend} {spec : Option (Option MigBackend)}
    {name : String} {new : ADB} (hnew : s.getDb json "current" = .ok new) (hv : ValidSchema new)
    (hmake : Cli.makeMigration json get spec name s = (.ok false, s')) : SameSchema (before made) new := by
  obtain ⟨old, h1, h2, hsame⟩ := fs_before (json := json) hi
  refine sameSchema_trans hb h2.valid hv (sameSchema_symm h2.valid hb hsame) ?_
  refine same_of_diff_nil _ _ h2.valid hv ?_
  rcases make_cases hi hmake with ⟨⟨_, q⟩, -⟩ | ⟨-, bs, toDb, r1, -, q1, q2, q3⟩
  · cases q
  rw [hnew] at q1
  cases q1
  rcases q3 with ⟨_, _, q3⟩ | ⟨_, rfl, q3⟩
  · cases q3
  cases q3
  rcases create_cases q2 with ⟨_, e, _, he⟩ | ⟨old', h0, ⟨_, _, hd⟩ | ⟨hd, hrest⟩⟩
  · rw [h1] at he; cases he
  · rw [h1] at h0
    cases h0
    exact hd
  · obtain ⟨r1, p1, _, ⟨e, _, he, _⟩ | ⟨_, r2, p2, _, ⟨e, _, he, _⟩ | ⟨_, r3, p3, _, ⟨e, _, he, _⟩ |
      ⟨_, r4, _, ⟨e, _, he⟩ | ⟨_, he⟩⟩⟩⟩⟩ := hrest <;> cases he

/-! ### Worlds of a crate -/

theorem link_not_model (hn : WellNamed items) {st st' : Struct} (hs : st ∈ modelsOf items) (hs' : st' ∈ modelsOf items)
    {f : Codegen.Field} (hf : f ∈ st.fields) {q : Path} (hq : IsMany f q) :
    tableOf st' ≠ tableOf st ++ "_" ++ f.ident.name ++ "_Many" := by
  intro e
  have hmem : tableOf st ++ "_" ++ f.ident.name ++ "_Many" ∈ (manyFields st).map
      fun f => tableOf st ++ "_" ++ f.ident.name ++ "_Many" :=
    List.mem_map.2 ⟨f, mem_manyFields.2 ⟨hf, q, hq⟩, rfl⟩
  have h2 : st' = st := flatMap_inj hn.tables hs' hs (tableOf_mem st') (e ▸ List.mem_cons_of_mem _ hmem)
  subst h2
  have := hn.tables
  have hnd : (tablesOf st').Nodup := by
    obtain ⟨l, r, hlr⟩ := List.append_of_mem hs
    rw [hlr, List.flatMap_append, List.flatMap_cons] at this
    exact (List.nodup_append.1 (List.nodup_append.1 this).2.1).1
  unfold tablesOf at hnd
  rw [List.nodup_cons] at hnd
  rw [← e] at hmem
  exact hnd.1 hmem

/-- The key of a model, in its column of a link table. -/
theorem link_fits (hr : ResolverOk g.resolve) (hn : WellNamed items) (ht : Typed g.ft items)
    (hp : PlainCrate g.ft items) {st : Struct} (hs : st ∈ modelsOf items) {m : TModel} {pk : TField}
    (hu : UsableModel g.ft items k st m pk) {n : String} {d : ColDef} (hd : LinkColumn g.ft items st n d) :
    ∃ ty st', pk.ty = some ty ∧ sqliteType ty.sqltype = some st' ∧ d.type = [st'.name] := by
  obtain ⟨db, -, hrec⟩ := recorded hr hn ht
  obtain ⟨kf, hkey, hkf, hkmem, hpkm⟩ := model_key hu.isModel hu.noRaw hu.key
  obtain ⟨kf', p', st', q1, q2, ⟨ty0, q3, q4⟩, q5⟩ := hd.type
  obtain rfl := key_unique hkey q1
  obtain ⟨ty, st2, r1, r2, -⟩ := (model_ok hr hn ht hp hs hu).keyType
  obtain ⟨p2, r3, r4⟩ := hkf.type ty r1
  rw [q2] at r3
  cases r3
  cases has_unique hr hn ht hrec (rustType_sql r4) q3
  exact ⟨ty, st', r1, q4, q5⟩

theorem linkTable_fits (hr : ResolverOk g.resolve) (hn : WellNamed items) (ht : Typed g.ft items)
    (hp : PlainCrate g.ft items) {W : World} (hc : CrateWorld g.ft items k W) {u : SDb} (hct : CrateTables g.ft items u)
    {n : String} {L : Links} (hL : W.links n = some L) : ∃ t, u.lookup n = some t ∧ LinkFits L t ∧
      ∀ c, c ∈ t.cols.map (·.name) ↔ c = "owner" ∨ c = "has" := by
  obtain ⟨st, h1, f, h2, q, h3, st', h4, h5, rfl, ⟨s, h6, h7⟩, s', h8, h9⟩ := hc.links n L hL
  obtain ⟨t, g1, g2⟩ := hct.links st h1 f h2 q h3 st' h4 h5
  obtain ⟨st1, i1, i2, i3⟩ := hc.stock _ s h6
  obtain rfl := tableOf_inj hn h1 i1 i2
  obtain ⟨st2, j1, j2, j3⟩ := hc.stock _ s' h8
  obtain rfl := tableOf_inj hn h4 j1 j2
  obtain ⟨d, d1, d2⟩ := g2.owner
  obtain ⟨d', d1', d2'⟩ := g2.has
  refine ⟨t, g1, ⟨⟨d, d1, d2.name, ?_⟩, ⟨d', d1', d2'.name, ?_⟩⟩, fun c => ⟨fun hcm => ?_, ?_⟩⟩
  · rw [← h7]
    exact link_fits hr hn ht hp h1 i3 d2
  · rw [← h9]
    exact link_fits hr hn ht hp h4 j3 d2'
  · obtain ⟨e, he, rfl⟩ := List.mem_map.1 hcm
    exact g2.columns e he
  · rintro (rfl | rfl)
    · exact d2.name ▸ List.mem_map_of_mem d1
    · exact d2'.name ▸ List.mem_map_of_mem d1'

/-- The database holds the objects and items, and has no other tables. -/
structure UserOk (k : SqliteConn) (u : SDb) (W : World) : Prop where
  keeps : Keeps k u W
  links : LinksReady k u W
  covers : ∀ n t, u.lookup n = some t → (W.stock n).isSome ∨ (W.links n).isSome

/-- The schema of a version of the code. -/
structure VersionOf (g : Cfg) (items : List Item) (new : ADB) : Prop where
  named : WellNamed items
  typed : Typed g.ft items
  plain : PlainCrate g.ft items
  schema : ∃ rec, expandAll g ADB.new items = some rec ∧ rec.resolveTypes g.ft.json (rounds rec) = .ok new

theorem project_step (laws : StrictLaws k.env)
    (hdata : DataLaws k.env k.data) (hcodecs : Faithful k.codecs) (hr : ResolverOk g.resolve)
    {u u' : SDb} {W W' : World} (h : UserOk k u W) {new : ADB} (hver : VersionOf g items new)
    (hschema : HasSchema k.env new u') {a old new' : ADB} (hva : ValidSchema a) (hsa : HasSchema k.env a u)
    (hold : SameSchema old a) (hnew' : SameSchema new' new) (hkept : RowsKept k.env k.codecs old new' u u')
    (hc : CrateWorld g.ft items k W') (hb : WorldBecomes k.codecs items W W') : UserOk k u' W' := by
  obtain ⟨hn, ht, hp, rec, h1, h2⟩ := hver
  have hsch := crate_sqlite hr hn ht hp h1 h2
  have hct := crate_tables hr hn ht hp h1 h2 hschema
  have hready : ∀ n s', W'.stock n = some s' → s'.m.table = n ∧ Ready k s'.m s'.pk u' := by
    intro n s' hs'
    obtain ⟨st, q1, rfl, q2⟩ := hc.stock n s' hs'
    exact ⟨q2.isModel.table, crate_ready hr hn ht hp hct (sound_of_schema hschema) hdata laws hcodecs q1 q2⟩
  have hempty : ∀ n, W.stock n = none → W.links n = none → ∀ t, u'.lookup n = some t → t.rows = [] := by
    intro n q1 q2 t q3
    refine hkept.created n t ?_ q3
    have himp : Implements old u := implements_same (schemaByName_symm (byName_of_same hva hold)) hsa.tables
    have := himp n
    cases hl : u.lookup n with
    | some t0 =>
      rcases h.covers n t0 hl with e | e
      · rw [q1] at e; cases e
      · rw [q2] at e; cases e
    | none =>
      rw [hl] at this
      cases ho : old.getTable n with
      | none => rfl
      | some T => rw [ho] at this; exact this.elim
  refine ⟨⟨?_, ?_⟩, ⟨h.links.plain, ?_, ?_, ?_⟩, ?_⟩
  · intro n s' hs'
    obtain ⟨r1, r2⟩ := hready n s' hs'
    refine ⟨r1, r2, ?_⟩
    obtain ⟨b1, b2, b3⟩ := hb.stock n s' hs'
    cases hw : W.stock n with
    | none =>
      obtain ⟨t, hlk, -⟩ := r2.table
      have : s'.objs = fun _ => none := funext (b2 hw)
      rw [this]
      exact storesObjs_empty hlk (hempty n hw b1 t (r1 ▸ hlk))
    | some s =>
      obtain ⟨st, q1, q2, q3⟩ := b3 s hw
      obtain ⟨st', p1, p2, p3⟩ := hc.stock n s' hs'
      obtain rfl := tableOf_inj hn q1 p1 (q2.symm.trans p2)
      obtain ⟨-, k2, k3⟩ := h.keeps.stock n s hw
      exact stores_migrated k2 r2 q3.model hsa hschema hva hsch.valid hold hnew' hkept
        (fun n t x f1 _ f3 T c => default_filled hr hn ht h1 h2 q1 p3.isModel f1 f3) k3 q3.objs
  · intro n L' hL'
    obtain ⟨b1, b2, b3⟩ := hb.links n L' hL'
    obtain ⟨t', hlk', hfit', hcols'⟩ := linkTable_fits hr hn ht hp hc hct hL'
    obtain ⟨st, q1, f, q2, q, q3, st', q4, q5, rfl, -⟩ := hc.links n L' hL'
    refine ⟨?_, link_name hp q1 q2, ?_⟩
    · cases hw : W'.stock (tableOf st ++ "_" ++ f.ident.name ++ "_Many") with
      | none => rfl
      | some s' =>
        obtain ⟨st2, i1, i2, -⟩ := hc.stock _ s' hw
        exact absurd i2.symm (link_not_model hn q1 i1 q2 q3)
    · cases hw : W.links (tableOf st ++ "_" ++ f.ident.name ++ "_Many") with
      | none =>
        have hrows := hempty _ b1 hw t' hlk'
        exact ⟨t', hlk', hcols', (fun r hr => by rw [hrows] at hr; cases hr), fun x y hxy => absurd hxy (b2 hw x y)⟩
      | some L =>
        obtain ⟨c1, c2, c3⟩ := b3 L hw
        obtain ⟨t, hlk, hfit⟩ := h.links.table _ L hw
        exact links_migrated hlk hlk' hfit hfit' hcols' c1 c2 c3 hsa hschema hva hsch.valid hold hnew' hkept
          (h.keeps.links _ L hw).2.2
  · intro n L hL
    obtain ⟨st, q1, f, q2, q, q3, st', q4, q5, -, ⟨s, q6, q7⟩, -⟩ := hc.links n L hL
    exact ⟨_, s, q6, q7⟩
  · intro n L hL
    obtain ⟨st, q1, f, q2, q, q3, st', q4, q5, -, -, s, q6, q7⟩ := hc.links n L hL
    exact ⟨_, s, q6, q7⟩
  · intro n L hL
    obtain ⟨t, g1, g2, -⟩ := linkTable_fits hr hn ht hp hc hct hL
    exact ⟨t, g1, g2⟩
  · intro n t hl
    obtain ⟨st, q1, q2⟩ := hct.only n t hl
    rcases List.mem_cons.1 q2 with rfl | hmem
    · obtain ⟨s, hs⟩ := hc.models st q1
      exact .inl (by rw [hs]; rfl)
    · obtain ⟨f, hf, rfl⟩ := List.mem_map.1 hmem
      obtain ⟨hf, q, hq⟩ := mem_manyFields.1 hf
      obtain ⟨L, hL⟩ := hc.many st q1 f hf q hq
      exact .inr (by rw [hL]; rfl)

/-- What is true of a project at any time. -/
structure ProjectOk (g : Cfg) (k : SqliteConn) (p : LitPrinters) (s : FsMigrations) (db : MigDb SDb) (W : World)
    (H P : List (String × List Item)) : Prop where
  life : SqliteLife g.ft.json k.env k.kw k.reserved p s db
  pending : ∃ a b, HasMigrations g.ft.json s (a ++ b) ∧ (∀ e ∈ a ++ b, SqliteSchema e.2) ∧
    (∀ e ∈ a, Spec.Recorded db e.1) ∧ (∀ e ∈ b, ¬ Spec.Recorded db e.1) ∧
    AllMatch (fun e q => e.1 = q.1 ∧ VersionOf g q.2 e.2) a H ∧ AllMatch (fun e q => e.1 = q.1 ∧ VersionOf g q.2 e.2) b P
  user : UserOk k db.user W

/-- Migrations that were applied, one after the other. -/
theorem upgrades_ok (laws : StrictLaws k.env) (hdata : DataLaws k.env k.data) (hcodecs : Faithful k.codecs)
    (hr : ResolverOk g.resolve) {l : List (String × ADB)} {Q : List (String × List Item)}
    (hl : AllMatch (fun e q => e.1 = q.1 ∧ VersionOf g q.2 e.2) l Q) {a : ADB} {u u' : SDb} {W W' : World}
    (hv : ValidSchema a) (h : UserOk k u W) (hrows : RowsThrough k.env k.codecs (a :: l.map (·.2)) u u')
    (hup : Upgrades g.ft k (Q.map (·.2)) W W') : UserOk k u' W' := by
  induction hl generalizing a u W with
  | nil =>
    cases hup
    rw [rowsThrough_one hrows]
    exact h
  | @cons e q l Q he hl ih =>
    cases hup with
    | next w1 w2 w3 =>
      cases hrows with
      | step s1 s2 s3 s4 s5 s6 =>
        obtain ⟨-, hver⟩ := he
        obtain ⟨rec, q1, q2⟩ := hver.schema
        have hval := (crate_sqlite hr hver.named hver.typed hver.plain q1 q2).valid
        exact ih hval (project_step laws hdata hcodecs hr h hver s4 hv s3 s1 s2 s5 w1 w2) s6 w3

theorem allMatch_parts {α β : Type} {R : α → β → Prop} {l : List α} {c d : List β} (h : AllMatch R l (c ++ d)) :
    ∃ a b, l = a ++ b ∧ AllMatch R a c ∧ AllMatch R b d := by
  induction c generalizing l with
  | nil => exact ⟨[], l, rfl, .nil, h⟩
  | cons x c ih =>
    cases h with
    | cons h1 h2 =>
      obtain ⟨a, b, rfl, q1, q2⟩ := ih h2
      exact ⟨_ :: a, b, rfl, .cons h1 q1, q2⟩

theorem allMatch_snoc {α β : Type} {R : α → β → Prop} {a : List α} {b : List β} (h : AllMatch R a b) {x : α} {y : β}
    (hxy : R x y) : AllMatch R (a ++ [x]) (b ++ [y]) := by
  induction h with
  | nil => exact .cons hxy .nil
  | cons h1 _ ih => exact .cons h1 ih

theorem allMatch_init {α β : Type} {R : α → β → Prop} {a : List α} {b : List β} {x : α} (h : AllMatch R (a ++ [x]) b) :
    AllMatch R a b.dropLast := by
  induction a generalizing b with
  | nil =>
    cases h with
    | cons h1 h2 =>
      cases h2
      exact .nil
  | cons y a ih =>
    cases h with
    | @cons _ z _ zs h1 h2 =>
      have hne : zs ≠ [] := by
        rintro rfl
        cases a <;> cases h2
      rw [List.dropLast_cons_of_ne_nil hne]
      exact .cons h1 (ih h2)

theorem allMatch_each {α β : Type} {R : α → β → Prop} {a : List α} {b : List β} (h : AllMatch R a b) {x : α} (hx : x ∈ a) :
    ∃ y ∈ b, R x y := by
  induction h with
  | nil => cases hx
  | cons h1 _ ih =>
    rcases List.mem_cons.1 hx with rfl | hx
    · exact ⟨_, List.mem_cons_self .., h1⟩
    · obtain ⟨y, q1, q2⟩ := ih hx
      exact ⟨y, List.mem_cons_of_mem _ q1, q2⟩

theorem compiled_version (hr : ResolverOk g.resolve) (hn : WellNamed items) (ht : Typed g.ft items)
    (hp : PlainCrate g.ft items) {s : FsMigrations} (hcomp : Compiled g items s) :
    ∃ new, s.getDb g.ft.json "current" = .ok new ∧ VersionOf g items new ∧ Settled new ∧ SqliteSchema new := by
  obtain ⟨rec, new, h1, h2, h3⟩ := current_db hr hn ht hcomp
  exact ⟨new, h3, ⟨hn, ht, hp, rec, h1, h2⟩, crate_settled hr hn ht h1 h2, crate_sqlite hr hn ht hp h1 h2⟩

theorem allMatch_both {α β : Type} {R : α → β → Prop} {a c : List α} {b d : List β} (h : AllMatch R a b)
    (h' : AllMatch R c d) : AllMatch R (a ++ c) (b ++ d) := by
  induction h with
  | nil => exact h'
  | cons h1 _ ih => exact .cons h1 ih

theorem allMatch_back {α β : Type} {R : α → β → Prop} {a : List α} {b : List β} (h : AllMatch R a b) :
    AllMatch R a.reverse b.reverse := by
  induction h with
  | nil => exact .nil
  | cons h1 _ ih =>
    rw [List.reverse_cons, List.reverse_cons]
    exact allMatch_snoc ih h1

/-- Code without models has no tables. -/
theorem no_models_version : VersionOf g [] ADB.new where
  named := ⟨.nil, .nil, (fun _ h => by cases h), .nil, (fun _ h => by cases h), (fun _ _ h => by cases h),
    (fun _ h => by cases h), fun _ h => by cases h⟩
  typed := ⟨(fun _ h => by cases h), (fun _ h => by cases h), (fun _ _ h => by cases h), fun _ _ h => by cases h⟩
  plain := ⟨(fun _ h => by cases h), (fun _ h => by cases h), (fun _ h => by cases h), fun _ h => by cases h⟩
  schema := ⟨ADB.new, rfl, rfl⟩

theorem last_version {a : List (String × ADB)} {H : List (String × List Item)}
    (h : AllMatch (fun e q => e.1 = q.1 ∧ VersionOf g q.2 e.2) a H) :
    VersionOf g ((H.map (·.2)).getLastD []) (before a) := by
  have h' := allMatch_back h
  rcases List.eq_nil_or_concat a with rfl | ⟨a0, e, rfl⟩
  · cases h
    exact no_models_version
  · rw [List.concat_eq_append] at h' ⊢
    rw [List.reverse_append] at h'
    generalize hB : H.reverse = B at h'
    cases h' with
    | @cons _ q _ B' h1 h2 =>
      have hHq : H = B'.reverse ++ [q] := by
        have := congrArg List.reverse hB
        simpa using this
      rw [hHq]
      simpa [before] using h1.2

/-- The versions that undoing migrations goes back through. -/
theorem back_versions {a l : List (String × ADB)} {H undone : List (String × List Item)}
    (h : AllMatch (fun e q => e.1 = q.1 ∧ VersionOf g q.2 e.2) l undone)
    (hbase : VersionOf g ((H.map (·.2)).getLastD []) (before a)) :
    (before a :: l.map (·.2)).reverse = before (a ++ l) :: ((("", before a) :: l).dropLast.reverse.map (·.2)) ∧
    backThrough H undone = ((("", (H.map (·.2)).getLastD []) :: undone).dropLast.reverse.map (·.2)) ∧
    AllMatch (fun e q => e.1 = q.1 ∧ VersionOf g q.2 e.2) (("", before a) :: l).dropLast.reverse
      (("", (H.map (·.2)).getLastD []) :: undone).dropLast.reverse := by
  refine ⟨?_, ?_, ?_⟩
  · rcases List.eq_nil_or_concat l with rfl | ⟨l0, y, rfl⟩
    · simp
    · rw [List.concat_eq_append, ← List.cons_append, List.dropLast_concat]
      simp [before, ← List.append_assoc]
  · unfold backThrough
    rw [List.map_reverse, List.map_dropLast]
    rfl
  · refine allMatch_back ?_
    have h' : AllMatch (fun e q => e.1 = q.1 ∧ VersionOf g q.2 e.2) (("", before a) :: l)
        (("", (H.map (·.2)).getLastD []) :: undone) := .cons ⟨rfl, hbase⟩ h
    rcases List.eq_nil_or_concat l with rfl | ⟨l0, y, rfl⟩
    · cases h
      exact .nil
    · rw [List.concat_eq_append, ← List.cons_append] at h'
      rw [List.concat_eq_append, ← List.cons_append, List.dropLast_concat]
      exact allMatch_init h'

/-- The database after its data was deleted. -/
theorem clear_user {json : Bool} {fails : String → Bool} {c : MigConn SDb} (hk : CoversDdl k.kw k.reserved)
    (hf : TypesFree k.reserved) (laws : StrictLaws k.env) {s : FsMigrations} {db db' : MigDb SDb} {W : World}
    (hl : SqliteLife json k.env k.kw k.reserved p s db) (hu : UserOk k db.user W) {shown : List String}
    {r : Except Cli.CliErr Unit} (hc : Cli.clearData json k fails s c db = (shown, r, db')) :
    db'.log = db.log ∧ SqliteLife json k.env k.kw k.reserved p s db' ∧ RowsDeleted (cleared shown r) db.user db'.user ∧
      (r = .ok () → ∀ n t, db.user.lookup n = some t → n ∈ shown) ∧ UserOk k db'.user (W.emptied (cleared shown r)) := by
  obtain ⟨made, j, hi⟩ := life_inv hk hf laws k.codecs hl
  have hcov : CoversReserved k.kw k.reserved ∨ ∀ n, db.user.lookup n = none := by
    by_cases h : ∃ n st, W.stock n = some st
    · obtain ⟨n, st, h⟩ := h
      exact .inl (hu.keeps.stock n st h).2.1.model.covers
    · right
      intro n
      cases ht : db.user.lookup n with
      | none => rfl
      | some t =>
        exfalso
        rcases hu.covers n t ht with h' | h'
        · obtain ⟨st, hst⟩ := Option.isSome_iff_exists.1 h'
          exact h ⟨n, st, hst⟩
        · obtain ⟨L, hL⟩ := Option.isSome_iff_exists.1 h'
          obtain ⟨n', st, hst, -⟩ := hu.links.owner n L hL
          exact h ⟨n', st, hst⟩
  have key : db'.log = db.log ∧ SqliteLife json k.env k.kw k.reserved p s db' ∧
      RowsDeleted (cleared shown r) db.user db'.user ∧ (r = .ok () → ∀ n t, db.user.lookup n = some t → n ∈ shown) := by
    obtain ⟨hlog, h1⟩ := clear_cases hi hc
    rcases h1 with ⟨⟨rfl, rfl, e, rfl⟩, -⟩ | ⟨names, hn, hl'⟩
    · exact ⟨rfl, hl, (fun n => by simp [cleared]), fun h => by cases h⟩
    · rcases hcov with hcov | hno
      · obtain ⟨q1, q2, -⟩ := clearLoop_deleted hcov hn.named hl'
        refine ⟨hlog, clear_data_life hk hf laws hcov hl hc, q1, ?_⟩
        intro hok n t ht
        rw [q2 hok]
        exact hn.all n t ht
      · have : names = [] := by
          cases names with
          | nil => rfl
          | cons n l =>
            obtain ⟨-, t, ht⟩ := hn.named n (List.mem_cons_self ..)
            rw [hno n] at ht
            cases ht
        subst this
        obtain ⟨u', log'⟩ := db'
        cases hlog
        cases hl'
        exact ⟨rfl, hl, (fun n => by simp [cleared]), fun _ n t ht => by rw [hno n] at ht; cases ht⟩
  obtain ⟨k1, k2, k3, k4⟩ := key
  obtain ⟨_, _, hi'⟩ := life_inv hk hf laws k.codecs k2
  exact ⟨k1, k2, k3, k4, keeps_emptied hu.keeps k3 (sound_of_schema hi'.user), linksReady_emptied hu.links k3,
    emptied_covers hu.covers k3⟩

theorem project_ok (hk : CoversDdl k.kw k.reserved) (hf : TypesFree k.reserved) (laws : StrictLaws k.env)
    (hdata : DataLaws k.env k.data) (hcodecs : Faithful k.codecs) (hD : RealLaws k.data) (hr : ResolverOk g.resolve)
    (hplain : PlainName k.reserved "owner") {s : FsMigrations} {db : MigDb SDb} {W : World}
    {H P : List (String × List Item)} (h : ProjectRun g k p s db W H P) : ProjectOk g k p s db W H P := by
  induction h with
  | start =>
    refine ⟨.empty, ?_, ⟨(fun _ _ h => by cases h), fun _ _ h => by cases h⟩,
      ⟨hplain, (fun _ _ h => by cases h), (fun _ _ h => by cases h), fun _ _ h => by cases h⟩, fun _ _ h => by cases h⟩
    obtain ⟨made, hm, -⟩ := cli_history (json := g.ft.json) .empty
    have hl := (reach_inv .empty hm).1.latest
    obtain rfl : made = [] := by
      cases hg : made.getLast? with
      | none => exact List.getLast?_eq_none_iff.1 hg
      | some e => rw [hg] at hl; cases hl
    exact ⟨[], [], hm, (fun _ h => by cases h), (fun _ h => by cases h), (fun _ h => by cases h), .nil, .nil⟩
  | @program s db W H P u W' _ hrun ih =>
    obtain ⟨h1, h2⟩ := program_run_partial ih.user.keeps ih.user.links hD hrun
    have hsc : ∀ adb, HasSchema k.env adb db.user → HasSchema k.env adb u :=
      fun adb hs => program_schema ih.user.keeps ih.user.links hD hrun hs
    refine ⟨.write ih.life hsc, ih.pending, h1, h2, ?_⟩
    intro n t hl
    obtain ⟨c1, c2⟩ := program_covers hrun n
    rw [c1, c2]
    obtain ⟨made, j, hi⟩ := life_inv hk hf laws k.codecs ih.life
    have hs := hsc _ hi.user
    cases hl0 : db.user.lookup n with
    | some t0 => exact ih.user.covers n t0 hl0
    | none =>
      have q1 := hi.user.tables n
      have q2 := hs.tables n
      rw [hl0] at q1
      have hl' : u.lookup n = some t := hl
      rw [hl'] at q2
      cases ha : (before (made.take j)).getTable n with
      | none => rw [ha] at q2; exact q2.elim
      | some T => rw [ha] at q1; exact q1.elim
  | @compile s s' db W H P _ h1 h2 ih =>
    obtain ⟨a, b, hm, hrest⟩ := ih.pending
    have hi := (reach_inv (life_reach ih.life) hm).1
    have hi' : FsInv s' (a ++ b) := by
      refine fsInv_frame hi (n := "current") (fun hm => ?_) ⟨h1, h2⟩
      obtain ⟨e, he, hn⟩ := List.mem_map.1 hm
      exact hi.notCurrent e he hn
    exact ⟨.build ih.life h1 h2, ⟨a, b, hi'.asChain "", hrest⟩, ih.user⟩
  | @make s s' db W H P items get spec name _ hn ht hp hcomp hget hback hfresh hcur hrec hadd hmake ih =>
    obtain ⟨new, h3, hver, hset, hsch⟩ := compiled_version hr hn ht hp hcomp
    have hcond : ∀ n, s.getDb g.ft.json "current" = .ok n → Settled n ∧ SqliteSchema n ∧
        ∀ old, LatestSchema g.ft.json s old → Addable k.env p old n ∧ Addable k.env p n old := by
      intro n hn
      rw [h3] at hn
      cases hn
      exact ⟨hset, hsch, fun old ho => hadd _ _ h3 ho⟩
    obtain ⟨a, b, hm, hs, ha, hb, hH, hP⟩ := ih.pending
    obtain ⟨new', old, backends, g1, g2, -⟩ := cli_make hget (life_reach ih.life) hm hfresh hcur
      (fun n hn => (hcond n hn).1) hmake
    rw [h3] at g1
    cases g1
    refine ⟨.make ih.life hget hback hfresh hcur hrec hcond hmake, ⟨a, b ++ [(name, new)], ?_, ?_, ha, ?_, hH,
      allMatch_snoc hP ⟨rfl, hver⟩⟩, ih.user⟩
    · rw [← List.append_assoc]
      exact g2
    · intro e he
      rw [← List.append_assoc] at he
      rcases List.mem_append.1 he with he | he
      · exact hs e he
      · rw [List.mem_singleton.1 he]
        exact hsch
    · intro e he
      rcases List.mem_append.1 he with he | he
      · exact hb e he
      · rw [List.mem_singleton.1 he]
        exact hrec
  | makeNot _ h1 h2 h3 h4 h5 h6 h7 h8 ih =>
    obtain ⟨a, b, hm, hrest⟩ := ih.pending
    obtain ⟨g1, -⟩ := cli_make_not (life_reach ih.life) hm h7 h8
    exact ⟨.make ih.life h1 h2 h3 h4 h5 h6 h7, ⟨a, b, g1, hrest⟩, ih.user⟩
  | @replace s s' db W W' H items get spec name _ hn ht hp hcomp hmake hcw hbec ih =>
    obtain ⟨new, h3, hver, hset, hsch⟩ := compiled_version hr hn ht hp hcomp
    obtain ⟨a, b, hm, hs, ha, hb, hH, hP⟩ := ih.pending
    cases hP
    obtain ⟨-, -, -, g4⟩ := cli_make_not (life_reach ih.life) hm hmake (fun h => by cases h)
    obtain rfl := g4 rfl
    refine ⟨ih.life, ⟨a, [], hm, hs, ha, hb, hH, .nil⟩, ?_⟩
    rw [List.append_nil] at hm hs
    have hbv := (before_valid hs).valid
    obtain ⟨_, j, hi⟩ := life_inv hk hf laws k.codecs ih.life
    have hi := hi.change hm (fun e he => (hs e he).valid)
    have hj : a.take j = a := by
      have hd : a.drop j = [] := by
        cases hd : a.drop j with
        | nil => rfl
        | cons e l =>
          have hmem : e ∈ a.drop j := by rw [hd]; exact List.mem_cons_self ..
          exact absurd (ha e (List.mem_of_mem_drop hmem)) (hi.others e hmem)
      have := List.take_append_drop j a
      rw [hd, List.append_nil] at this
      exact this
    have hu := hi.user
    rw [hj] at hu
    have hsame := make_nothing_same hi.fs hbv h3 hsch.valid hmake
    have hu' : HasSchema k.env new db.user := hasSchema_same hbv hsch.valid hsame hu
    exact project_step laws hdata hcodecs hr ih.user hver hu' hsch.valid hu' (sameSchema_refl new) (sameSchema_refl new)
      (rowsKept_refl k.codecs hu') hcw hbec
  | @detach s s' db W H P c r _ hd ih =>
    obtain ⟨a, b, hm, hs, ha, hb, hH, hP⟩ := ih.pending
    obtain ⟨-, g2, g3⟩ := cli_detach (life_reach ih.life) hm hd
    have hlife := SqliteLife.detach ih.life hd
    cases r with
    | error e =>
      obtain rfl := g2 (fun h => by cases h)
      exact ⟨hlife, ⟨a, b, hm, hs, ha, hb, hH, hP⟩, ih.user⟩
    | ok z =>
      obtain ⟨c0, x, y, q1, q2, -⟩ := g3 rfl
      have q1' : a ++ b = (c0 ++ [x]) ++ [y] := by rw [q1]; simp
      rcases List.eq_nil_or_concat b with rfl | ⟨b0, y', rfl⟩
      · exfalso
        rw [List.append_nil] at q1' hm
        subst q1'
        obtain ⟨-, e, he, -⟩ := cli_detach_applied (life_reach ih.life) hm (ha y (by simp)) hd
        cases he
      · rw [List.concat_eq_append] at *
        rw [← List.append_assoc] at q1'
        obtain ⟨e1, e2⟩ := List.append_inj' q1' rfl
        refine ⟨hlife, ⟨a, b0, by rw [e1]; exact q2, ?_, ha, ?_, hH, allMatch_init hP⟩, ih.user⟩
        · intro e he
          exact hs e (by rw [← List.append_assoc]; exact List.mem_append_left _ he)
        · intro e he
          exact hb e (List.mem_append_left _ he)
  | addBackend _ h1 h2 h3 ih =>
    obtain ⟨a, b, hm, hrest⟩ := ih.pending
    obtain ⟨g1, -⟩ := cli_add_backend_keeps h1 (life_reach ih.life) hm h3
    exact ⟨.addBackend ih.life h1 h2 h3, ⟨a, b, g1, hrest⟩, ih.user⟩
  | removeBackend _ h1 h2 h3 ih =>
    obtain ⟨a, b, hm, hrest⟩ := ih.pending
    obtain ⟨g1, -⟩ := cli_remove_backend_keeps h1 (life_reach ih.life) hm h3
    exact ⟨.removeBackend ih.life h1 h2 h3, ⟨a, b, g1, hrest⟩, ih.user⟩
  | @clear s db db' W H P c fails shown r _ hc ih =>
    obtain ⟨q1, q2, -, -, q5⟩ := clear_user hk hf laws ih.life ih.user hc
    obtain ⟨a, b, hm, hs, ha, hb, hH, hP⟩ := ih.pending
    refine ⟨q2, ⟨a, b, hm, hs, ?_, ?_, hH, hP⟩, q5⟩
    · intro e he
      unfold Spec.Recorded
      rw [q1]
      exact ha e he
    · intro e he
      unfold Spec.Recorded
      rw [q1]
      exact hb e he
  | @migrate s db db' W W' H done rest _ hm1 hdone hrest hup ih =>
    obtain ⟨a, b, hm, hs, ha, hb, hH, hP⟩ := ih.pending
    obtain ⟨a', l, b', e1, e2, e3, e4, e5, e6, -⟩ := migrates_rows hk hf laws ih.life hm (fun e he => (hs e he).valid) hm1
    rw [List.append_assoc] at e1
    obtain ⟨rfl, e1'⟩ := split_unique (P := fun e => Spec.Recorded db e.1) e1 ha hb e2 e3
    clear e1
    obtain ⟨c, d, rfl, q1, q2⟩ := allMatch_parts hP
    obtain ⟨rfl, rfl⟩ := split_unique (P := fun e => Spec.Recorded db' e.1) e1'
      (fun e he => by
        obtain ⟨y, hy, hn, -⟩ := allMatch_each q1 he
        rw [hn]
        exact hdone y hy)
      (fun e he => by
        obtain ⟨y, hy, hn, -⟩ := allMatch_each q2 he
        rw [hn]
        exact hrest y hy)
      (fun e he => e4 e (List.mem_append_right _ he)) e5
    refine ⟨migrates_life ih.life hm1, ⟨a ++ c, d, by rw [List.append_assoc]; exact hm,
      by rw [List.append_assoc]; exact hs, e4, e5, allMatch_both hH q1, q2⟩, ?_⟩
    exact upgrades_ok laws hdata hcodecs hr q1 (before_valid fun e he => hs e (List.mem_append_left _ he)).valid ih.user e6 hup
  | @undo s db db' W W' H undone P _ hu1 hkept hgone hup ih =>
    obtain ⟨a, b, hm, hs, ha, hb, hH, hP⟩ := ih.pending
    obtain ⟨a', l, b', e1, e2, e3, e4, e5, e6, -⟩ := sqlite_undo_partial hk hf laws k.codecs ih.life hm
      (fun e he => (hs e he).valid) hu1
    obtain ⟨e1', rfl⟩ := split_unique (P := fun e => Spec.Recorded db e.1) e1 ha hb e2 e3
    obtain ⟨c, d, rfl, q1, q2⟩ := allMatch_parts hH
    obtain ⟨rfl, rfl⟩ := split_unique (P := fun e => Spec.Recorded db' e.1) e1'
      (fun e he => by
        obtain ⟨y, hy, hn, -⟩ := allMatch_each q1 he
        rw [hn]
        exact hkept y hy)
      (fun e he => by
        obtain ⟨y, hy, hn, -⟩ := allMatch_each q2 he
        rw [hn]
        exact hgone y hy)
      e4 (fun e he => e5 e (List.mem_append_left _ he))
    have hma : c ++ d ++ b = c ++ (d ++ b) := List.append_assoc ..
    rw [hma] at hm hs
    refine ⟨undoes_life ih.life hu1, ⟨c, d ++ b, hm, hs, e4, e5, q1, allMatch_both q2 hP⟩, ?_⟩
    have hsub : ∀ x, x ∈ c ++ d → SqliteSchema x.2 := fun x hx => hs x (by rw [← hma]; exact List.mem_append_left _ hx)
    have hbase : VersionOf g ((H.map (·.2)).getLastD []) (before c) := last_version q1
    obtain ⟨t1, t2, t3⟩ := back_versions q2 hbase
    rw [t1] at e6
    rw [t2] at hup
    exact upgrades_ok laws hdata hcodecs hr t3 (before_valid hsub).valid ih.user e6 hup

/-! ### The claims -/

/-- C85 (partial).  Whatever happened to a project and its database: the database holds the objects that
were saved and not deleted since, by the models of the code it was last migrated to, with the defaults of
fields added since, and the items that were added to `Many` fields and not removed since.

Missing: what C84 misses for programs and C82 for changes of models; migrations that are not to the
latest code, and the other commands. -/
theorem project_run_partial (hk : CoversDdl k.kw k.reserved) (hf : TypesFree k.reserved) (laws : StrictLaws k.env)
    (hdata : DataLaws k.env k.data) (hcodecs : Faithful k.codecs) (hD : RealLaws k.data) (hr : ResolverOk g.resolve)
    (hplain : PlainName k.reserved "owner") {s : FsMigrations} {db : MigDb SDb} {W : World}
    {H P : List (String × List Item)} (h : ProjectRun g k p s db W H P) : Keeps k db.user W ∧ LinksReady k db.user W :=
  have := project_ok hk hf laws hdata hcodecs hD hr hplain h
  ⟨this.user.keeps, this.user.links⟩

/-- C85, `get` (partial, as above): looking for an object by its key gives the one there should be, or none
if there should be none, and does not fail. -/
theorem project_get_partial (hk : CoversDdl k.kw k.reserved) (hf : TypesFree k.reserved) (laws : StrictLaws k.env)
    (hdata : DataLaws k.env k.data) (hcodecs : Faithful k.codecs) (hD : RealLaws k.data) (hr : ResolverOk g.resolve)
    (hplain : PlainName k.reserved "owner") {s : FsMigrations} {db : MigDb SDb} {W : World}
    {H P : List (String × List Item)} (h : ProjectRun g k p s db W H P) {n : String} {st : Stock} (hs : W.stock n = some st) :
    ShowsObjs k st.m st.pk db.user st.objs := by
  obtain ⟨-, h2, h3⟩ := (project_ok hk hf laws hdata hcodecs hD hr hplain h).user.keeps.stock n st hs
  exact shows_of_stores h2 h3

/-- C85, queries (partial, as above and as C83): `load` returns the objects the filter describes. -/
theorem project_query_partial (hk : CoversDdl k.kw k.reserved) (hf : TypesFree k.reserved) (laws : StrictLaws k.env)
    (hdata : DataLaws k.env k.data) (hcodecs : Faithful k.codecs) (hD : RealLaws k.data) (hr : ResolverOk g.resolve)
    (hplain : PlainName k.reserved "owner") {s : FsMigrations} {db : MigDb SDb} {W : World}
    {H P : List (String × List Item)} (h : ProjectRun g k p s db W H P) {n : String} {st : Stock} (hs : W.stock n = some st)
    {q : Query} {e : Option FOr} (hq : Sendable k W st q e) (hl : NonNeg q.limit) (ho : NonNeg q.offset)
    (hbig : q.limit = none → ∀ o, q.offset = some o → ∀ t, db.user.lookup n = some t →
      (t.rows.length : Int) ≤ o.toInt + 2147483647)
    {res : Except OpErr (List (ObjVals st.m.fields))} (hres : st.m.LoadOut k db.user q res) :
    ∃ os, res = .ok os ∧ Selects k W st e q.sort (count q.limit) (count q.offset) os :=
  query_selects_partial (project_ok hk hf laws hdata hcodecs hD hr hplain h).user.keeps hD hs hq hl ho hbig hres

/-- C86, in the history of a project: if it succeeds there are no objects and no items any more. -/
theorem project_clear (hk : CoversDdl k.kw k.reserved) (hf : TypesFree k.reserved) (laws : StrictLaws k.env)
    (hdata : DataLaws k.env k.data) (hcodecs : Faithful k.codecs) (hD : RealLaws k.data) (hr : ResolverOk g.resolve)
    (hplain : PlainName k.reserved "owner") {s : FsMigrations} {db db' : MigDb SDb} {W : World}
    {H P : List (String × List Item)} (h : ProjectRun g k p s db W H P) {fails : String → Bool} {c : MigConn SDb}
    {shown : List String} (hc : Cli.clearData g.ft.json k fails s c db = (shown, .ok (), db')) :
    ∃ W', W'.Empty ∧ SameShape W W' ∧ ProjectRun g k p s db' W' H P ∧ Keeps k db'.user W' := by
  have hok := project_ok hk hf laws hdata hcodecs hD hr hplain h
  obtain ⟨-, -, -, q4, q5⟩ := clear_user hk hf laws hok.life hok.user hc
  refine ⟨_, ⟨?_, ?_⟩, ⟨?_, ?_⟩, .clear h hc, q5.keeps⟩
  · intro n st hs
    obtain ⟨s0, h1, -, -, -, h5⟩ := emptied_stock hs
    obtain ⟨t, ht, -⟩ := (hok.user.keeps.stock n s0 h1).2.2
    rw [(hok.user.keeps.stock n s0 h1).1] at ht
    rw [h5 (q4 rfl n t ht)]
    intro id
    rfl
  · intro n L hL
    obtain ⟨L0, h1, -, -, -, h5⟩ := emptied_links hL
    obtain ⟨t, ht, -⟩ := (hok.user.keeps.links n L0 h1).2.2
    exact h5 (q4 rfl n t ht)
  · intro n
    unfold World.emptied
    by_cases hn : n ∈ cleared (ε := Cli.CliErr) shown (.ok ())
    · simp only [hn, if_true]
      cases W.stock n <;> rfl
    · simp only [hn, if_false]
  · intro n
    unfold World.emptied
    by_cases hn : n ∈ cleared (ε := Cli.CliErr) shown (.ok ())
    · simp only [hn, if_true]
      cases W.links n <;> rfl
    · simp only [hn, if_false]

/-- What becomes of objects and `Many` fields with new code that can take them over. -/
theorem taken_over {items : List Item} {W V : World}
    (hW : ∀ n s, W.stock n = some s → (s.m.fields.map (·.name)).Nodup) (hn : WellNamed items)
    (hV : CrateWorld g.ft items k V) (ht : TakesOver k.codecs items W V) :
    ∃ W', CrateWorld g.ft items k W' ∧ WorldBecomes k.codecs items W W' ∧ SameShape V W' := by
  classical
  have hstock : ∀ n s', V.stock n = some s' → ∃ objs : Objects s'.m,
      (W.stock n = none → ∀ id, objs id = none) ∧
      ∀ s, W.stock n = some s → ∃ st ∈ modelsOf items, n = tableOf st ∧ StockBecomes k.codecs st s ⟨s'.m, s'.pk, objs⟩ := by
    intro n s' hs'
    obtain ⟨-, h2⟩ := ht.stock n s' hs'
    obtain ⟨st, q1, q2, q3⟩ := hV.stock n s' hs'
    cases hw : W.stock n with
    | none => exact ⟨fun _ => none, (fun _ _ => rfl), fun s h => by cases h⟩
    | some s =>
      obtain ⟨hext, hdef⟩ := h2 s hw
      have hob : ∀ o, ∃ o', ObjBecomes s.m s'.m (StructDefault k.codecs st) o o' :=
        fun o => obj_becomes (hW n s hw) (model_distinct hn q1 q3.isModel) (hdef st q1 q2) o
      refine ⟨fun id => (s.objs id).map fun o => (hob o).choose, (fun h => by cases h), ?_⟩
      intro s0 h0
      cases h0
      refine ⟨st, q1, q2, hext, fun id _ => ?_⟩
      cases ho : s.objs id with
      | none => simp [ho, Both]
      | some o =>
        simp only [ho, Option.map_some, Both]
        exact (hob o).choose_spec
  let W' : World :=
    { stock := fun n => if h : ∃ s', V.stock n = some s' then
        some ⟨h.choose.m, h.choose.pk, (hstock n _ h.choose_spec).choose⟩ else none
      links := fun n => (V.links n).map fun L' => ⟨L'.owner, L'.target, fun x y => ∃ L, W.links n = some L ∧ L.linked x y⟩ }
  have h1 : ∀ n, V.stock n = none → W'.stock n = none := by
    intro n h
    simp only [W']
    rw [dif_neg]
    rintro ⟨s', hs'⟩
    rw [h] at hs'
    cases hs'
  have h2 : ∀ n s', V.stock n = some s' → ∃ objs : Objects s'.m, W'.stock n = some ⟨s'.m, s'.pk, objs⟩ ∧
      (W.stock n = none → ∀ id, objs id = none) ∧
      ∀ s, W.stock n = some s → ∃ st ∈ modelsOf items, n = tableOf st ∧ StockBecomes k.codecs st s ⟨s'.m, s'.pk, objs⟩ := by
    intro n s' hs'
    have hex : ∃ s', V.stock n = some s' := ⟨s', hs'⟩
    have he : hex.choose = s' := Option.some.inj (hex.choose_spec.symm.trans hs')
    subst he
    refine ⟨_, ?_, (hstock n _ hex.choose_spec).choose_spec⟩
    simp only [W']
    rw [dif_pos hex]
  have h3 : ∀ n st, W'.stock n = some st → ∃ s' : Stock, V.stock n = some s' ∧ s'.m = st.m := by
    intro n st h
    cases hv : V.stock n with
    | none => rw [h1 n hv] at h; cases h
    | some s' =>
      obtain ⟨objs, q, -⟩ := h2 n s' hv
      rw [q] at h
      cases h
      exact ⟨s', rfl, rfl⟩
  refine ⟨W', ⟨?_, ?_, ?_, ?_⟩, ⟨?_, ?_⟩, ⟨?_, ?_⟩⟩
  · intro n s hs
    obtain ⟨s', hv, -⟩ := h3 n s hs
    obtain ⟨objs, q, -⟩ := h2 n s' hv
    rw [q] at hs
    cases hs
    exact hV.stock n s' hv
  · intro st hst
    obtain ⟨s', hv⟩ := hV.models st hst
    obtain ⟨objs, q, -⟩ := h2 _ s' hv
    exact ⟨_, q⟩
  · intro n L hL
    obtain ⟨L', hv, rfl⟩ := Option.map_eq_some_iff.1 hL
    obtain ⟨st, q1, f, q2, q, q3, st', q4, q5, q6, ⟨s, q7, q8⟩, s', q9, q10⟩ := hV.links n L' hv
    obtain ⟨_, i1, -⟩ := h2 _ s q7
    obtain ⟨_, i2, -⟩ := h2 _ s' q9
    exact ⟨st, q1, f, q2, q, q3, st', q4, q5, q6, ⟨_, i1, q8⟩, _, i2, q10⟩
  · intro st hst f hf q hq
    obtain ⟨L, hL⟩ := hV.many st hst f hf q hq
    exact ⟨_, Option.map_eq_some_iff.2 ⟨L, hL, rfl⟩⟩
  · intro n s hs
    obtain ⟨s', hv, -⟩ := h3 n s hs
    obtain ⟨objs, q, i1, i2⟩ := h2 n s' hv
    rw [q] at hs
    cases hs
    exact ⟨(ht.stock n s' hv).1, i1, i2⟩
  · intro n L hL
    obtain ⟨L', hv, rfl⟩ := Option.map_eq_some_iff.1 hL
    obtain ⟨i1, i2⟩ := ht.links n L' hv
    refine ⟨i1, ?_, ?_⟩
    · rintro hw x y ⟨L, hL, -⟩
      rw [hw] at hL
      cases hL
    · intro L hL
      refine ⟨(i2 L hL).1, (i2 L hL).2, fun x y => ⟨?_, fun h => ⟨L, hL, h⟩⟩⟩
      rintro ⟨L1, hL1, h⟩
      rw [hL] at hL1
      cases hL1
      exact h
  · intro n
    cases hv : V.stock n with
    | none => rw [h1 n hv]
    | some s' =>
      obtain ⟨objs, q, -⟩ := h2 n s' hv
      rw [q]
      rfl
  · intro n
    show Option.map _ (Option.map _ _) = _
    rw [Option.map_map]
    rfl

theorem stock_shape {V W : World} (h : SameShape V W) {n : String} {s : Stock} (hs : W.stock n = some s) :
    ∃ objs, V.stock n = some ⟨s.m, s.pk, objs⟩ := by
  have := h.stock n
  rw [hs] at this
  cases hv : V.stock n with
  | none => rw [hv] at this; cases this
  | some s' =>
    rw [hv] at this
    obtain ⟨m, pk, objs⟩ := s'
    simp only [Option.map_some, Option.some.injEq, Prod.mk.injEq] at this
    obtain ⟨rfl, rfl⟩ := this
    exact ⟨objs, rfl⟩

theorem links_shape {V W : World} (h : SameShape V W) {n : String} {L : Links} (hL : W.links n = some L) :
    ∃ R, V.links n = some ⟨L.owner, L.target, R⟩ := by
  have := h.links n
  rw [hL] at this
  cases hv : V.links n with
  | none => rw [hv] at this; cases this
  | some L' =>
    rw [hv] at this
    obtain ⟨o, t, R⟩ := L'
    simp only [Option.map_some, Option.some.injEq, Prod.mk.injEq] at this
    obtain ⟨rfl, rfl⟩ := this
    exact ⟨R, rfl⟩

theorem sameShape_symm {V W : World} (h : SameShape V W) : SameShape W V :=
  ⟨fun n => (h.stock n).symm, fun n => (h.links n).symm⟩

/-- Whether code can take over does not depend on the objects. -/
theorem takesOver_shape {codecs : TextCodecs} {U W V : World} (h : SameShape U W) (ht : TakesOver codecs items U V) :
    TakesOver codecs items W V where
  stock := by
    intro n s' hs'
    obtain ⟨h1, h2⟩ := ht.stock n s' hs'
    constructor
    · cases hl : W.links n with
      | none => rfl
      | some L =>
        obtain ⟨R, hR⟩ := links_shape h hl
        rw [h1] at hR
        cases hR
    · intro s hs
      obtain ⟨objs, hU⟩ := stock_shape h hs
      exact h2 ⟨s.m, s.pk, objs⟩ hU
  links := by
    intro n L' hL'
    obtain ⟨h1, h2⟩ := ht.links n L' hL'
    constructor
    · cases hl : W.stock n with
      | none => rfl
      | some s =>
        obtain ⟨objs, hU⟩ := stock_shape h hl
        rw [h1] at hU
        cases hU
    · intro L hL
      obtain ⟨R, hU⟩ := links_shape h hL
      exact h2 ⟨L.owner, L.target, R⟩ hU

/-- What becomes of objects and `Many` fields through versions of the code that can take them over. -/
theorem taken_overs {l : List (List Item)} {U V W : World} (ht : TakeOvers g.ft k l U V) (hn : ∀ items ∈ l, WellNamed items)
    (hW : ∀ n s, W.stock n = some s → (s.m.fields.map (·.name)).Nodup) (hs : SameShape U W) :
    ∃ W', Upgrades g.ft k l W W' ∧ SameShape V W' := by
  induction ht generalizing W with
  | none => exact ⟨W, .none, hs⟩
  | @next items l U V1 V' h1 h2 _ ih =>
    obtain ⟨W1, w1, w2, w3⟩ := taken_over hW (hn items (List.mem_cons_self ..)) h1 (takesOver_shape hs h2)
    obtain ⟨W', q1, q2⟩ := ih (fun i hi => hn i (List.mem_cons_of_mem _ hi)) (fun n s hs1 => by
      obtain ⟨st, p1, -, p2⟩ := w1.stock n s hs1
      exact model_distinct (hn items (List.mem_cons_self ..)) p1 p2.isModel) w3
    exact ⟨W', .next w1 w2 q1, q2⟩

/-- C85, progress (partial).  If each version of the code that has a migration which is not applied can take
over the objects from the one before, and the migrations are changes that SQLite can make (C37) and have
SQL for it, then migrating succeeds on a connection that does not fail, and all of them are applied. -/
theorem project_catches_up_partial (hk : CoversDdl k.kw k.reserved) (hf : TypesFree k.reserved) (laws : StrictLaws k.env)
    (hdata : DataLaws k.env k.data) (hcodecs : Faithful k.codecs) (hD : RealLaws k.data) (hr : ResolverOk g.resolve)
    (hplain : PlainName k.reserved "owner") {s : FsMigrations} {db : MigDb SDb} {W V : World}
    {H P : List (String × List Item)} (h : ProjectRun g k p s db W H P) {made : List (String × ADB)}
    (hm : HasMigrations g.ft.json s made) (hv : ∀ e ∈ made, ValidSchema e.2)
    (hrun : ∀ a e b, made = a ++ e :: b → ¬ Spec.Recorded db e.1 → (s.toMigs "sqlite").up e.1 ≠ .ok none ∧
      ∀ u, HasSchema k.env (before a) u → (NoRows db.user → NoRows u) → Feasible (before a) e.2 u)
    (htake : TakeOvers g.ft k (P.map (·.2)) W V) {c : MigConn SDb} (hc : c.exec = sqliteExec k.env k.reserved) :
    ∃ db' W', (s.toMigs "sqlite").migrate (Cli.rounds s) c.reliable db = (.ok (), db') ∧
      Upgrades g.ft k (P.map (·.2)) W W' ∧ SameShape V W' ∧ ProjectRun g k p s db' W' (H ++ P) [] := by
  have hok := project_ok hk hf laws hdata hcodecs hD hr hplain h
  obtain ⟨a, b, hm', hs, ha, hb, hH, hP⟩ := hok.pending
  have hnamed : ∀ items ∈ P.map (·.2), WellNamed items := by
    intro items hi
    obtain ⟨q, hq, rfl⟩ := List.mem_map.1 hi
    obtain ⟨e, -, -, hver⟩ := allMatch_right hP hq
    exact hver.named
  obtain ⟨W', w1, w2⟩ := taken_overs htake hnamed
    (fun n s hs => (hok.user.keeps.stock n s hs).2.1.model.distinct) ⟨fun _ => rfl, fun _ => rfl⟩
  obtain ⟨db', q1, q2, -⟩ := sqlite_migrate_succeeds_partial (c := c) hk hf laws k.codecs hok.life hm hv hc hrun
  refine ⟨db', W', q1, w1, w2, .migrate (done := P) (rest := []) (by rw [List.append_nil]; exact h)
    (.program (c := c.reliable) hc q1) ?_ (fun e he => by cases he) w1⟩
  intro q hq
  obtain ⟨e, he, hn, -⟩ := allMatch_right hP hq
  have h1 := (reach_inv (life_reach hok.life) hm).1.all
  have h2 := (reach_inv (life_reach hok.life) hm').1.all
  rw [h1] at h2
  have hmem : e.1 ∈ made.map (·.1) := by
    rw [Except.ok.inj h2]
    exact List.mem_map_of_mem (List.mem_append_right _ he)
  obtain ⟨e', he', hn'⟩ := List.mem_map.1 hmem
  rw [← hn, ← hn']
  exact q2 e' he'

theorem latest_before {json : Bool} {s : FsMigrations} {made : List (String × ADB)} (hi : FsInv s made) :
    ∃ old, Settled old ∧ LatestSchema json s old ∧ SameSchema old (before made) := by
  obtain ⟨old, o1, o2, o3⟩ := fs_before (json := json) hi
  refine ⟨old, o2, ?_, o3⟩
  unfold LatestSchema
  unfold readFrom at o1
  split
  · rename_i hl
    rw [hl] at o1
    exact (Except.ok.inj o1).symm
  · rename_i n hl
    rw [hl] at o1
    exact o1

/-- C85, making a migration (partial).  If the code differs from the latest migration and the change is one that
SQLite can make, a migration is made. -/
theorem project_makes_partial (hk : CoversDdl k.kw k.reserved) (hf : TypesFree k.reserved) (laws : StrictLaws k.env)
    (hdata : DataLaws k.env k.data) (hcodecs : Faithful k.codecs) (hD : RealLaws k.data) (hr : ResolverOk g.resolve)
    (hplain : PlainName k.reserved "owner") (hn : WellNamed items) (ht : Typed g.ft items) (hp : PlainCrate g.ft items)
    {s : FsMigrations} {db : MigDb SDb} {W : World} {H P : List (String × List Item)}
    (h : ProjectRun g k p s db W H P) (hcomp : Compiled g items s) {get : String → Option MigBackend}
    (hget : Finds get) (hback : ∀ b, get "sqlite" = some b → b = sqliteBackend k.kw p) {spec : Option (Option MigBackend)}
    (hspec : s.getLatest = none ∧ spec = some (some (sqliteBackend k.kw p)) ∨
      (spec = none ∨ spec = some (some (sqliteBackend k.kw p))) ∧ get "sqlite" = some (sqliteBackend k.kw p) ∧
        ∃ n, s.getLatest = some n ∧ (s.info n).backends = ["sqlite"]) {name : String}
    (hfresh : s.dirs.lookup name = none) (hcur : name ≠ "current") (hrec : ¬ Spec.Recorded db name)
    (hchange : ∀ new old, s.getDb g.ft.json "current" = .ok new → LatestSchema g.ft.json s old →
      ¬ SameSchema old new ∧ Addable k.env p old new ∧ Addable k.env p new old) :
    ∃ s', Cli.makeMigration g.ft.json get spec name s = (.ok true, s') ∧
      ProjectRun g k p s' db W H (P ++ [(name, items)]) ∧ (s'.toMigs "sqlite").up name ≠ .ok none := by
  have hok := project_ok hk hf laws hdata hcodecs hD hr hplain h
  obtain ⟨new, h3, hver, hset, hsch⟩ := compiled_version hr hn ht hp hcomp
  have hadd : ∀ old, LatestSchema g.ft.json s old → Addable k.env p old new ∧ Addable k.env p new old :=
    fun old ho => (hchange new old h3 ho).2
  obtain ⟨a, b, hm, hs, -⟩ := hok.pending
  have hi := (reach_inv (life_reach hok.life) hm).1
  have hbv := before_valid hs
  obtain ⟨old, o2, hlat, o3⟩ := latest_before (json := g.ft.json) hi
  obtain ⟨hdiff, -⟩ := hchange new old h3 hlat
  have hlast : s.getLatest = none ↔ a ++ b = [] := by
    rw [hi.getLatest]
    cases hg : (a ++ b).getLast? with
    | none => exact ⟨fun _ => List.getLast?_eq_none_iff.1 hg, fun _ => rfl⟩
    | some e => exact ⟨fun h => (by cases h), fun h => by rw [h] at hg; cases hg⟩
  obtain ⟨s', hmake⟩ := sqlite_make_succeeds_partial (get := get) (spec := spec) hk hf laws k.codecs hok.life hm
    (fun e he => (hs e he).valid) hfresh (by
      rcases hspec with ⟨q1, q2⟩ | ⟨-, q2, n, q3, q4⟩
      · exact .inl ⟨hlast.1 q1, q2⟩
      · refine .inr ⟨fun e => (by rw [hlast.2 e] at q3; cases q3), ?_⟩
        simp [Cli.latestBackends, q3, q4, q2]) h3 hset hsch hadd
    (fun hs => hdiff (sameSchema_trans o2.valid hbv.valid hsch.valid o3 hs))
  have hback' : ∀ b, get b.name = some b ∨ spec = some (some b) → b.name = "sqlite" → b = sqliteBackend k.kw p := by
    rintro b (hb | hb) hbn
    · rw [hbn] at hb
      exact hback b hb
    · rcases hspec with ⟨-, q2⟩ | ⟨q2 | q2, -⟩ <;> rw [q2] at hb <;> cases hb
      · rfl
      · rfl
  refine ⟨s', hmake, .make h hn ht hp hcomp hget hback' hfresh hcur hrec (fun n o hn' ho => by
      rw [h3] at hn'
      cases hn'
      exact hadd o ho) hmake, ?_⟩
  obtain ⟨new', old', backends, g1, g2, -, -, -, -, g7, g8, -⟩ := cli_make hget (life_reach hok.life) hm hfresh hcur
    (fun n hn => by
      rw [h3] at hn
      cases hn
      exact hset) hmake
  have hmem : sqliteBackend k.kw p ∈ backends := by
    rcases hspec with ⟨i1, i2⟩ | ⟨-, i2, n, i3, i4⟩
    · rcases g7 with ⟨n, hl, -⟩ | ⟨-, b, j1, j2⟩
      · rw [hl] at i1; cases i1
      · rw [i2] at j1
        cases j1
        rw [j2]
        exact List.mem_singleton.2 rfl
    · rcases g7 with ⟨n', hl, -, j1, j2⟩ | ⟨hl, -⟩
      · rw [i3] at hl
        cases hl
        rw [i4] at j1
        obtain ⟨b, hb, hbn⟩ := List.mem_map.1 (j1 ▸ List.mem_singleton.2 rfl : "sqlite" ∈ backends.map (·.name))
        have := j2 b hb
        rw [hbn, i2] at this
        cases this
        exact hb
      · obtain ⟨x, hx, hx'⟩ := hl n i3
        rw [i4, List.mem_singleton] at hx
        rw [hx, i2] at hx'
        cases hx'
  obtain ⟨up, down, up', down', -, -, -, -, k5, -⟩ := g8 _ hmem
  intro hup
  have : (s'.toMigs "sqlite").up name = .ok (some up') := k5
  rw [hup] at this
  cases this

/-- C85, progress (partial).  If the new code can take over the objects, differs from the latest migration,
and the change is one that SQLite can make (C37), then making a migration and migrating succeed on a
connection that does not fail, and the project goes on with the models of the new code. -/
theorem project_migrates_partial (hk : CoversDdl k.kw k.reserved) (hf : TypesFree k.reserved) (laws : StrictLaws k.env)
    (hdata : DataLaws k.env k.data) (hcodecs : Faithful k.codecs) (hD : RealLaws k.data) (hr : ResolverOk g.resolve)
    (hplain : PlainName k.reserved "owner") (hn : WellNamed items) (ht : Typed g.ft items) (hp : PlainCrate g.ft items)
    {s : FsMigrations} {db : MigDb SDb} {W V : World}
    {H : List (String × List Item)} (h : ProjectRun g k p s db W H []) (hcomp : Compiled g items s) {get : String → Option MigBackend}
    (hget : Finds get) (hback : ∀ b, get "sqlite" = some b → b = sqliteBackend k.kw p) {spec : Option (Option MigBackend)}
    (hspec : s.getLatest = none ∧ spec = some (some (sqliteBackend k.kw p)) ∨
      (spec = none ∨ spec = some (some (sqliteBackend k.kw p))) ∧ get "sqlite" = some (sqliteBackend k.kw p) ∧
        ∃ n, s.getLatest = some n ∧ (s.info n).backends = ["sqlite"]) {name : String}
    (hfresh : s.dirs.lookup name = none) (hcur : name ≠ "current") (hrec : ¬ Spec.Recorded db name)
    (hchange : ∀ new old, s.getDb g.ft.json "current" = .ok new → LatestSchema g.ft.json s old →
      ¬ SameSchema old new ∧ Addable k.env p old new ∧ Addable k.env p new old ∧
        ∀ u, HasSchema k.env old u → (NoRows db.user → NoRows u) → Feasible old new u)
    (hV : CrateWorld g.ft items k V) (htake : TakesOver k.codecs items W V) {c : MigConn SDb}
    (hc : c.exec = sqliteExec k.env k.reserved) :
    ∃ s' db' W', Cli.makeMigration g.ft.json get spec name s = (.ok true, s') ∧
      (s'.toMigs "sqlite").migrate (Cli.rounds s') c.reliable db = (.ok (), db') ∧
      WorldBecomes k.codecs items W W' ∧ SameShape V W' ∧ ProjectRun g k p s' db' W' (H ++ [(name, items)]) [] := by
  obtain ⟨s', hmake, hrun, hsql⟩ := project_makes_partial hk hf laws hdata hcodecs hD hr hplain hn ht hp h hcomp hget hback hspec
    hfresh hcur hrec (fun n o hn ho => ⟨(hchange n o hn ho).1, (hchange n o hn ho).2.1, (hchange n o hn ho).2.2.1⟩)
  have hok := project_ok hk hf laws hdata hcodecs hD hr hplain h
  obtain ⟨new, h3, hver, hset, hsch⟩ := compiled_version hr hn ht hp hcomp
  obtain ⟨a, b, hm, hs, ha, -, -, hP⟩ := hok.pending
  cases hP
  rw [List.append_nil] at hm hs
  have hi := (reach_inv (life_reach hok.life) hm).1
  have hbv := before_valid hs
  obtain ⟨old, o2, hlat, o3⟩ := latest_before (json := g.ft.json) hi
  obtain ⟨-, -, -, hfeas⟩ := hchange new old h3 hlat
  obtain ⟨new', old', backends, g1, g2, -⟩ := cli_make hget (life_reach hok.life) hm hfresh hcur
    (fun n hn => by
      rw [h3] at hn
      cases hn
      exact hset) hmake
  rw [h3] at g1
  cases g1
  obtain ⟨db', W', q1, q2, q3, q4⟩ := project_catches_up_partial (c := c) hk hf laws hdata hcodecs hD hr hplain hrun g2 (by
    intro e he
    rcases List.mem_append.1 he with he | he
    · exact (hs e he).valid
    · rw [List.mem_singleton.1 he]
      exact hsch.valid) (by
    intro x e y hab hnr
    have hsplit : x = a ∧ e = (name, new) := by
      rcases List.eq_nil_or_concat y with rfl | ⟨b0, z, rfl⟩
      · have := List.append_inj' hab rfl
        exact ⟨this.1.symm, (List.cons.inj this.2).1.symm⟩
      · exfalso
        have : a ++ [(name, new)] = (x ++ e :: b0) ++ [z] := by rw [hab]; simp
        have := (List.append_inj' this rfl).1
        exact hnr (ha e (by rw [this]; simp))
    obtain ⟨rfl, rfl⟩ := hsplit
    refine ⟨hsql, fun u hu hrows => ?_⟩
    have hu' : HasSchema k.env old u := hasSchema_same hbv.valid o2.valid (sameSchema_symm o2.valid hbv.valid o3) hu
    exact feasible_same o2.valid hbv.valid hsch.valid hsch.valid o3 (sameSchema_refl new) (hfeas u hu' hrows))
    (.next hV htake .none) hc
  refine ⟨s', db', W', hmake, q1, ?_, q3, q4⟩
  cases q2 with
  | next _ w2 w3 =>
    cases w3
    exact w2

/-! ### A project -/

def exProjConn : SqliteConn := ⟨exRowStore, exQueryData, exWords, exDdlRes, exCodecs, fun _ => none⟩

theorem exProj_views : UsableModel exPlainCfg.ft exViews exProjConn exViewsStruct exViewsModel exViewsPk :=
  have h := exViews_usable
  ⟨h.isModel, h.option, h.auto, h.noRaw, h.covers, h.excluded, h.table, h.key, h.plain, h.keyType, h.autoInt⟩

theorem exProj_stars : UsableModel exPlainCfg.ft exStars exProjConn exStarsStruct exStarsModel exViewsPk :=
  have h := exStars_usable
  ⟨h.isModel, h.option, h.auto, h.noRaw, h.covers, h.excluded, h.table, h.key, h.plain, h.keyType, h.autoInt⟩

theorem exProj_faithful : Faithful exProjConn.codecs := ⟨fun _ => rfl, exParse_print, exParse_print⟩
theorem exProj_plain : PlainName exProjConn.reserved "owner" := ⟨nameOf rfl (by decide) (by decide), by decide, rfl⟩

/-- Posts, and nothing else. -/
def exProjWorld (s : Stock) : World := ⟨fun n => if n = "Post" then some s else none, fun _ => none⟩

theorem exProjWorld_stock {s s' : Stock} {n : String} (h : (exProjWorld s).stock n = some s') : n = "Post" ∧ s' = s := by
  simp only [exProjWorld] at h
  split at h
  · exact ⟨‹_›, (Option.some.inj h).symm⟩
  · cases h

theorem exProjWorld_crate {items : List Item} {st : Struct} {s : Stock} (hone : modelsOf items = [st])
    (htable : tableOf st = "Post") (hmany : ∀ f ∈ st.fields, ¬ ∃ q, IsMany f q)
    (hu : UsableModel exPlainCfg.ft items exProjConn st s.m s.pk) :
    CrateWorld exPlainCfg.ft items exProjConn (exProjWorld s) where
  stock := by
    intro n s' h
    obtain ⟨rfl, rfl⟩ := exProjWorld_stock h
    exact ⟨st, by rw [hone]; exact List.mem_singleton.2 rfl, htable.symm, hu⟩
  models := by
    intro st' h
    rw [hone, List.mem_singleton] at h
    subst h
    exact ⟨s, by simp [exProjWorld, htable]⟩
  links := fun _ _ h => by cases h
  many := by
    intro st' h f hf q hq
    rw [hone, List.mem_singleton] at h
    subst h
    exact absurd ⟨q, hq⟩ (hmany f hf)

def exViewsStock0 : Stock := ⟨exViewsModel, exViewsPk, fun _ => none⟩
def exViewsStock : Stock := ⟨exViewsModel, exViewsPk, exViewsStock0.objs.put (.bigInt 1) exViewsSaved⟩

theorem exProj_views_crate : CrateWorld exPlainCfg.ft exViews exProjConn (exProjWorld exViewsStock0) :=
  exProjWorld_crate (st := exViewsStruct) (by simp [exViews, modelsOf, exViewsStruct]) rfl (fun _ => exViews_noMany)
    exProj_views

set_option maxRecDepth 20000 in
theorem exProj_migrates1 : (exViewsMade1.toMigs "sqlite").migrate (Cli.rounds exViewsMade1) exViewsConn ⟨[], none⟩ =
    (.ok (), ⟨exViewsDb [], some ["m1"]⟩) := rfl

theorem exProj_back (b : MigBackend) (h : exWordsGet b.name = some b ∨
    some (some (sqliteBackend exWords exPrinters)) = some (some b)) (_ : b.name = "sqlite") :
    b = sqliteBackend exProjConn.kw exPrinters := by
  rcases h with h | h
  · exact exWordsGet_back b h
  · cases h
    rfl

/-- The posts were compiled and a migration was made. -/
theorem exProj_run0 : ProjectRun exPlainCfg exProjConn exPrinters exViewsMade1 ⟨[], none⟩ ⟨fun _ => none, fun _ => none⟩
    [] [("m1", exViews)] := by
  have h1 : ProjectRun exPlainCfg exProjConn exPrinters exViewsNew ⟨[], none⟩ ⟨fun _ => none, fun _ => none⟩ [] [] :=
    .compile .start rfl exViewsNew_dirs
  refine .make (P := []) (get := exWordsGet) (items := exViews) h1 exViews_named exViews_typed exViews_plain
    ⟨rfl, _, rfl, rfl, rfl⟩ exWordsGet_name exProj_back (exViewsNew_dirs "m1" (by decide)) (by decide) ?_ ?_ exViews_make1
  · rintro ⟨_, h, -⟩
    cases h
  · intro new old _ ho
    cases (show old = ADB.new from ho)
    constructor
    · intro n a b c y hl; cases hl
    · intro n a b c y _ hl; cases hl

/-- The database was migrated. -/
theorem exProj_run1 : ProjectRun exPlainCfg exProjConn exPrinters exViewsMade1 ⟨exViewsDb [], some ["m1"]⟩
    (exProjWorld exViewsStock0) [("m1", exViews)] [] := by
  refine .migrate (done := [("m1", exViews)]) (rest := []) exProj_run0
    (.program (c := exViewsConn) rfl exProj_migrates1)
    (fun e he => ⟨_, rfl, by rw [List.mem_singleton.1 he]; exact List.mem_singleton.2 rfl⟩) (fun _ h => by cases h)
    (.next exProj_views_crate ⟨?_, fun _ _ h => by cases h⟩ .none)
  intro n s' h
  obtain ⟨rfl, rfl⟩ := exProjWorld_stock h
  exact ⟨rfl, (fun _ _ => rfl), fun s hs => by cases hs⟩

/-- A post was saved. -/
theorem exProj_run2 : ProjectRun exPlainCfg exProjConn exPrinters exViewsMade1 exViewsRows (exProjWorld exViewsStock) [("m1", exViews)] [] := by
  have h := WorldRun.save (k := exProjConn) (u0 := exViewsDb []) (W0 := exProjWorld exViewsStock0) (n := "Post")
    (s := exViewsStock0) (o := exViewsPost) (o' := exViewsSaved) (id := .bigInt 1)
    (u' := exViewsDb [[.integer 1, .text "hello", .integer 7]]) .start (by simp [exProjWorld])
    ⟨(fun _ h => by cases h), trivial, trivial, trivial⟩ ⟨(fun _ h => by cases h), trivial, trivial, trivial⟩
    (by
      intro ty I hty hI t j _ _
      cases hty
      cases hI
      simp only [intI64]
      have h1 := Int64.toInt_lt j
      have h2 := Int64.le_toInt j
      omega) (fun _ h => by cases h) rfl rfl
  have hw : (exProjWorld exViewsStock0).setObjs "Post" exViewsStock0 (exViewsStock0.objs.put (.bigInt 1) exViewsSaved) =
      exProjWorld exViewsStock := by
    simp only [World.setObjs, exProjWorld, World.mk.injEq, and_true]
    funext n
    by_cases e : n = "Post"
    · simp [e, exViewsStock, exViewsStock0]
    · simp [e]
  rw [hw] at h
  exact .program exProj_run1 (.objects .start h)

/-- The code was changed and compiled. -/
theorem exProj_compile {db : MigDb SDb} {W : World} {H P : List (String × List Item)}
    (h : ProjectRun exPlainCfg exProjConn exPrinters exViewsMade1 db W H P) :
    ProjectRun exPlainCfg exProjConn exPrinters exStarsStore db W H P := by
  refine .compile h rfl fun n hn => ?_
  change (exViewsMade1.write "current" fun _ => ⟨none, [("Post", exPostStars)], some [], []⟩).dirs.lookup n = _
  rw [FsMigrations.lookup_write, if_neg hn]

theorem exProj_run3 : ProjectRun exPlainCfg exProjConn exPrinters exStarsStore exViewsRows (exProjWorld exViewsStock) [("m1", exViews)] [] :=
  exProj_compile exProj_run2

theorem exStars_feasible (u : SDb) : Feasible (exSqDb exPostViews) (exSqDb exPostStars) u := by
  constructor
  · intro n t h1 h2
    obtain ⟨rfl, rfl⟩ := exPost_table rfl h2
    cases h1
  · intro n t h1 h2
    obtain ⟨rfl, rfl⟩ := exPost_table rfl h1
    cases h2
  · intro n s t c y hs ht hc hy
    obtain ⟨-, rfl⟩ := exPost_table rfl hs
    obtain ⟨-, rfl⟩ := exPost_table rfl ht
    obtain ⟨hm, rfl⟩ := colByName_some hy
    simp only [exPostStars, List.mem_cons, List.not_mem_nil, or_false] at hm
    rcases hm with rfl | rfl | rfl | rfl | rfl
    · cases hc
    · cases hc
    · refine ⟨rfl, rfl, fun _ hv => ?_⟩
      cases hv with
      | default h => cases h
      | null h _ => cases h
    · exact ⟨rfl, rfl, fun h => by cases h⟩
    · refine ⟨rfl, rfl, fun _ hv => ?_⟩
      cases hv with
      | default h => cases h
      | null _ h => cases h
  · intro n s t c x hs ht hx hc
    obtain ⟨-, rfl⟩ := exPost_table rfl hs
    obtain ⟨-, rfl⟩ := exPost_table rfl ht
    obtain ⟨hm, rfl⟩ := colByName_some hx
    simp only [exPostViews, List.mem_cons, List.not_mem_nil, or_false] at hm
    rcases hm with rfl | rfl | rfl
    · cases hc
    · cases hc
    · exact ⟨rfl, rfl, rfl, "id", _, _, rfl, rfl⟩
  · intro n s t c x y hs ht hx hy
    obtain ⟨-, rfl⟩ := exPost_table rfl hs
    obtain ⟨-, rfl⟩ := exPost_table rfl ht
    obtain ⟨hm, rfl⟩ := colByName_some hx
    simp only [exPostViews, List.mem_cons, List.not_mem_nil, or_false] at hm
    left
    rcases hm with rfl | rfl | rfl <;> cases hy <;> exact ⟨SameColumn.refl _, fun r hr => by cases hr⟩

theorem exStars_differs : ¬ SameSchema (exSqDb exPostViews) (exSqDb exPostStars) := by
  intro h
  obtain ⟨-, cols, hp, hm⟩ : SameTable exPostViews exPostStars := h "Post"
  have hl := hp.length_eq
  rcases hm with _ | ⟨-, hm⟩
  rcases hm with _ | ⟨-, hm⟩
  rcases hm with _ | ⟨-, hm⟩
  rcases hm with _ | ⟨-, hm⟩
  simp [exPostViews] at hl

def exStarsStock0 : Stock := ⟨exStarsModel, exViewsPk, fun _ => none⟩

theorem exProj_takes : TakesOver exProjConn.codecs exStars (exProjWorld exViewsStock) (exProjWorld exStarsStock0) where
  stock := by
    intro n s' h
    obtain ⟨rfl, rfl⟩ := exProjWorld_stock h
    refine ⟨rfl, fun s hs => ?_⟩
    obtain ⟨-, rfl⟩ := exProjWorld_stock hs
    refine ⟨exStars_extends, fun st hst _ f t => ?_⟩
    rw [exStars_model hst]
    exact exStars_new
  links := fun _ _ h => by cases h

theorem exProj_stars_crate : CrateWorld exPlainCfg.ft exStars exProjConn (exProjWorld exStarsStock0) :=
  exProjWorld_crate (st := exStarsStruct) (by simp [exStars, modelsOf]) rfl (fun _ => exStars_noMany) exProj_stars

set_option maxRecDepth 20000 in
theorem exProj_views_version {new : ADB} (h : VersionOf exPlainCfg exViews new) : new = exSqDb exPostViews := by
  obtain ⟨rec, h1, h2⟩ := h.schema
  obtain ⟨r, e1, x, e2, rfl⟩ : ∃ rec, expandAll exPlainCfg ADB.new exViews = some rec ∧
      ∃ x, rec.resolveTypes exPlainCfg.ft.json (rounds rec) = .ok x ∧ x = exSqDb exPostViews := ⟨_, rfl, _, rfl, rfl⟩
  rw [e1] at h1
  cases h1
  rw [e2] at h2
  cases h2
  rfl

set_option maxRecDepth 20000 in
theorem exProj_stars_version {new : ADB} (h : VersionOf exPlainCfg exStars new) : new = exSqDb exPostStars := by
  obtain ⟨rec, h1, h2⟩ := h.schema
  obtain ⟨r, e1, x, e2, rfl⟩ : ∃ rec, expandAll exPlainCfg ADB.new exStars = some rec ∧
      ∃ x, rec.resolveTypes exPlainCfg.ft.json (rounds rec) = .ok x ∧ x = exSqDb exPostStars := ⟨_, rfl, _, rfl, rfl⟩
  rw [e1] at h1
  cases h1
  rw [e2] at h2
  cases h2
  rfl

set_option maxRecDepth 20000 in
theorem exProj_up1 {s' : FsMigrations} (h : Cli.makeMigration false exWordsGet none "m2" exStarsStore = (.ok true, s')) :
    (s'.toMigs "sqlite").up "m1" ≠ .ok none := by
  have e : (Cli.makeMigration false exWordsGet none "m2" exStarsStore).2 = s' := by rw [h]
  subst e
  intro h
  cases h

/-- Both migrations are made before the database is migrated, from none, and it catches up. -/
example : ∃ s' db' W', Cli.makeMigration false exWordsGet none "m2" exStarsStore = (.ok true, s') ∧
    ProjectRun exPlainCfg exProjConn exPrinters s' ⟨[], none⟩ ⟨fun _ => none, fun _ => none⟩ [] [("m1", exViews), ("m2", exStars)] ∧
    (s'.toMigs "sqlite").migrate (Cli.rounds s') exViewsConn.reliable ⟨[], none⟩ = (.ok (), db') ∧
    SameShape (exProjWorld exStarsStock0) W' ∧ ProjectRun exPlainCfg exProjConn exPrinters s' db' W' [("m1", exViews), ("m2", exStars)] [] := by
  have hempty : ∀ n, ¬ Spec.Recorded (⟨[], none⟩ : MigDb SDb) n := by
    rintro n ⟨_, h, -⟩
    cases h
  obtain ⟨s', h1, h2, h3⟩ := project_makes_partial (k := exProjConn) (items := exStars) exWords_ddl exDdl_free exRowStore_laws
    exQuery_laws exProj_faithful exQuery_real exResolve_ok exProj_plain exStars_named exStars_typed exStars_plain
    (exProj_compile exProj_run0) exStars_compiled exWordsGet_name
    (fun b hb => exWordsGet_back b (by rw [exWordsGet_name _ _ hb]; exact hb))
    (spec := none) (name := "m2") (.inr ⟨.inl rfl, rfl, "m1", rfl, rfl⟩) rfl (by decide) (hempty _) (fun new old hnew ho => by
      cases exStars_current.symm.trans hnew
      cases exStars_old ho
      exact ⟨exStars_differs, exStars_addable.1, exStars_addable.2⟩)
  obtain ⟨a, b, hm, hs, ha, -, -, hP⟩ := (project_ok (k := exProjConn) exWords_ddl exDdl_free exRowStore_laws
    exQuery_laws exProj_faithful exQuery_real exResolve_ok exProj_plain h2).pending
  obtain rfl : a = [] := by
    cases a with
    | nil => rfl
    | cons e a => exact absurd (ha e (List.mem_cons_self ..)) (hempty _)
  cases hP with
  | @cons e1 _ _ _ he1 hP =>
    cases hP with
    | @cons e2 _ _ _ he2 hP =>
      cases hP
      obtain ⟨n1, a1⟩ := e1
      obtain ⟨n2, a2⟩ := e2
      obtain ⟨he1, hv1⟩ := he1
      obtain ⟨he2, hv2⟩ := he2
      simp only at he1 he2
      subst he1 he2
      cases exProj_views_version hv1
      cases exProj_stars_version hv2
      obtain ⟨db', W', q1, q2, q3, q4⟩ := project_catches_up_partial (c := exViewsConn) (k := exProjConn) exWords_ddl exDdl_free
        exRowStore_laws exQuery_laws exProj_faithful exQuery_real exResolve_ok exProj_plain h2 hm (fun e he => (hs e he).valid)
        (by
          intro a e b hab _
          match a, hab with
          | [], hab =>
            obtain rfl := (List.cons.inj hab).1
            obtain ⟨rec, r1, r2⟩ := hv1.schema
            exact ⟨exProj_up1 h1, fun u _ _ => crate_creatable exResolve_ok exViews_named exViews_typed r1 r2 u⟩
          | [x], hab =>
            simp only [List.nil_append, List.cons_append, List.cons.injEq] at hab
            obtain ⟨rfl, rfl, -⟩ := hab
            exact ⟨h3, fun u _ _ => exStars_feasible u⟩
          | _ :: _ :: _, hab => simp at hab)
        (V := exProjWorld exStarsStock0)
        (.next exProj_views_crate ⟨(fun _ _ _ => ⟨rfl, fun _ h => by cases h⟩), fun _ _ h => by cases h⟩
          (.next exProj_stars_crate ⟨(fun n s' h => by
            obtain ⟨rfl, rfl⟩ := exProjWorld_stock h
            refine ⟨rfl, fun s hs => ?_⟩
            obtain ⟨-, rfl⟩ := exProjWorld_stock hs
            refine ⟨exStars_extends, fun st hst _ f t => ?_⟩
            rw [exStars_model hst]
            exact exStars_new), fun _ _ h => by cases h⟩ .none)) rfl
      exact ⟨s', db', W', h1, h2, q1, q3, q4⟩

/-- The migration to the new code succeeds, and the post is there, with five stars. -/
example : ∃ s' db', Cli.makeMigration false exWordsGet none "m2" exStarsStore = (.ok true, s') ∧
    (s'.toMigs "sqlite").migrate (Cli.rounds s') exViewsConn.reliable exViewsRows = (.ok (), db') ∧
    ∀ res, exStarsModel.TryGetOut exProjConn db'.user (.bigInt 1) res → ∃ o : ObjVals exStarsModel.fields,
      res = .ok (some o) ∧ valueOf "title" _ o = some ⟨.string, "hello"⟩ ∧ valueOf "stars" _ o = some ⟨.i64, (5 : Int64)⟩ := by
  have hV : CrateWorld exPlainCfg.ft exStars exProjConn (exProjWorld exStarsStock0) :=
    exProjWorld_crate (st := exStarsStruct) (by simp [exStars, modelsOf]) rfl (fun _ => exStars_noMany) exProj_stars
  obtain ⟨s', db', W', h1, h2, h3, h4, h5⟩ := project_migrates_partial (k := exProjConn) (items := exStars) exWords_ddl exDdl_free exRowStore_laws
    exQuery_laws exProj_faithful exQuery_real exResolve_ok exProj_plain exStars_named exStars_typed exStars_plain
    exProj_run3 exStars_compiled exWordsGet_name (fun b hb => exWordsGet_back b (by rw [exWordsGet_name _ _ hb]; exact hb))
    (spec := none) (name := "m2") (.inr ⟨.inl rfl, rfl, "m1", rfl, rfl⟩) rfl (by decide) (by
      rintro ⟨names, hn, hm⟩
      cases hn
      simp at hm) (fun new old hnew ho => by
      cases exStars_current.symm.trans hnew
      cases exStars_old ho
      exact ⟨exStars_differs, exStars_addable.1, exStars_addable.2, fun u _ _ => exStars_feasible u⟩)
    hV exProj_takes (c := exViewsConn) rfl
  refine ⟨s', db', h1, h2, fun res hres => ?_⟩
  have hs := h4.stock "Post"
  obtain ⟨st, hst, hmk⟩ : ∃ st, W'.stock "Post" = some st ∧ (st.m, st.pk) = (exStarsModel, exViewsPk) := by
    cases hw : W'.stock "Post" with
    | none => rw [hw] at hs; simp [exProjWorld] at hs
    | some st =>
      rw [hw] at hs
      exact ⟨st, rfl, by simpa [exProjWorld, exStarsStock0] using hs⟩
  obtain ⟨m, pk, objs⟩ := st
  simp only [Prod.mk.injEq] at hmk
  obtain ⟨rfl, rfl⟩ := hmk
  obtain ⟨st', hst', -, hbec⟩ := (h3.stock "Post" _ hst).2.2 exViewsStock rfl
  cases exStars_model hst'
  have hob := hbec.objs (.bigInt 1) (fun ty h => by cases h; rfl)
  have h0 : exViewsStock.objs (.bigInt 1) = some exViewsSaved := by rfl
  rw [h0] at hob
  cases ho : objs (.bigInt 1) with
  | none => simp only [ho] at hob; exact hob.elim
  | some o =>
    simp only [ho] at hob
    obtain ⟨x, hx, hrel⟩ := (project_get_partial (k := exProjConn) exWords_ddl exDdl_free exRowStore_laws
      exQuery_laws exProj_faithful exQuery_real exResolve_ok exProj_plain h5 hst (.bigInt 1) (fun ty h => by cases h; rfl)).2 res hres
    simp only [ho] at hrel
    subst hx
    cases x with
    | none => exact hrel.elim
    | some o' =>
      refine ⟨o', rfl, ?_⟩
      have g1 := hob.kept "title" .string "hello" rfl ⟨_, List.mem_cons_of_mem _ (List.mem_cons_self ..), rfl, rfl⟩
      obtain ⟨z, g2, g3⟩ := hob.added "stars" .i64 ⟨_, List.mem_cons_of_mem _ (List.mem_cons_of_mem _
        (List.mem_cons_self ..)), rfl, rfl⟩ (by rintro ⟨f, hf, hn, -⟩; exact exViews_noField hf (by rw [hn]; decide))
      cases exStars_five g3
      obtain ⟨a, b, c, d, e, z⟩ := o
      obtain ⟨a', b', c', d', e', z'⟩ := o'
      have q1 : b = "hello" := by
        have : (some ⟨.string, b⟩ : Option (Σ t : FieldTy, t.Val)) = some ⟨.string, "hello"⟩ := g1
        simpa using this
      have q2 : c = (5 : Int64) := by
        have : (some ⟨.i64, c⟩ : Option (Σ t : FieldTy, t.Val)) = some ⟨.i64, (5 : Int64)⟩ := g2
        simpa using this
      have r1 : b = b' := hrel.2.1
      have r2 : c = c' := hrel.2.2.1
      subst r1 r2 q1 q2
      exact ⟨rfl, rfl⟩

end Butane.Props
