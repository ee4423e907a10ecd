/-
The schema recorded for a crate is one butane can describe to PostgreSQL, and a database that has it has
the tables of the crate.
-/
import Verif.Spec.PgCrate
import Verif.Proofs.CrateDb
import Verif.Proofs.PgFirst

namespace Butane.Proofs.CrateDb
open Butane Butane.Spec Butane.Ddl Butane.Codegen Butane.Proofs.Codegen Butane.Props
open Butane.PgCat (lower PCol PTable PKind stdName)
open Butane.PgP (withRec withRec_get FirstOk)

variable {g : Cfg} {items : List Item} {db db' : ADB} {kw : String → Bool}

theorem tables_model {s : Struct} : tableOf s ∈ tablesOf s := by unfold tablesOf; simp

theorem tables_link {s : Struct} {f : Codegen.Field} (hf : f ∈ s.fields) {q : Path} (hq : IsMany f q) :
    tableOf s ++ "_" ++ f.ident.name ++ "_Many" ∈ tablesOf s := by
  unfold tablesOf
  exact List.mem_cons_of_mem _ (List.mem_map.2 ⟨f, mem_manyFields.2 ⟨hf, q, hq⟩, rfl⟩)

/-- A column whose type is that of a field. -/
theorem pg_field_type (hr : ResolverOk g.resolve) (hn : WellNamed items) (ht : Typed g.ft items)
    (hp : PgCrate kw g.ft items) (hrec : Codegen.Recorded g items db) {s : Struct} (hs : s ∈ modelsOf items)
    {f : Codegen.Field} (hf : f ∈ rowFields s) {p : Path} (hfp : f.ty = some p) {c : AColumn} {ty}
    (hd : denotes c.sqltype = .inl ty) (h : HasSqlType g.ft items p ty) :
    ∃ ty0 w, ty = .ty ty0 ∧ c.typeid = some (.ty ty0) ∧ pgTypeOf ty0 = some w ∧ PgTypeNames g.ft items p w := by
  obtain ⟨w, ty0, h1, h2⟩ := hp.types s hs f hf p ty hfp h
  have := has_unique hr hn ht hrec h h1
  subst this
  exact ⟨ty0, w, rfl, typeid_denotes hd, h2, ty0, h1, h2⟩

theorem default_real {f : Codegen.Field} {r : F64} (h : DefaultOf f (some (.real r))) :
    .default (some (.float r)) ∈ f.attrs := by
  cases h with
  | @some a l b v h1 h2 h3 =>
    rw [h1]
    cases l with
    | float x => simp only [LitVal, SqlVal.real.injEq] at h3; subst h3; simp
    | int i => cases i <;> simp [LitVal] at h3
    | _ => simp [LitVal] at h3

/-- What a column of a model's table is like. -/
theorem pg_model_column (hr : ResolverOk g.resolve) (hn : WellNamed items) (ht : Typed g.ft items)
    (hp : PgCrate kw g.ft items) (hrec : Codegen.Recorded g items db) {s : Struct} (hs : s ∈ modelsOf items)
    {f : Codegen.Field} (hf : f ∈ rowFields s) {c : AColumn} (hc : ColumnFor g.ft items s f c) :
    PgColumn kw c ∧ ∃ p ty w, f.ty = some p ∧ c.typeid = some (.ty ty) ∧ pgTypeOf ty = some w ∧
      PgTypeNames g.ft items p w := by
  obtain ⟨p, ty, h1, h2, h3⟩ := hc.type
  obtain ⟨ty0, w, rfl, h4, h5, h6⟩ := pg_field_type hr hn ht hp hrec hs hf h1 h2 ((h3 ty).2 rfl)
  have hfm := (mem_rowFields.1 hf).1
  refine ⟨⟨by rw [hc.name]; exact hp.fields s hs f hfm, ⟨ty0, w, h4, h5⟩, ?_, ?_, ?_⟩, p, ty0, w, h1, h4, h5, h6⟩
  · intro ha
    obtain ⟨p', q, e1, e2⟩ := hc.auto.1 ha
    rw [h1] at e1; cases e1
    obtain ⟨k1, k2, k3⟩ := hp.auto s hs f hfm p q h1 e2
    refine ⟨?_, ?_, ?_⟩
    · rcases k2 with k2 | k2
      · have := (h3 _).1 k2; cases this; exact .inl h4
      · have := (h3 _).1 k2; cases this; exact .inr h4
    · have := hc.default
      cases hcd : c.default with
      | none => rfl
      | some v =>
        rw [hcd] at this
        cases this with
        | @some _ l _ _ e _ _ =>
          exact absurd (show Attr.default (some l) ∈ f.attrs by rw [e]; simp) (k3 _)
    · cases hnl : c.nullable with
      | false => rfl
      | true =>
        obtain ⟨p', q', e1, e3⟩ := hc.nullable.1 hnl
        rw [h1] at e1; cases e1
        exact absurd e3 (hp.key s hs f k1 p q' h1)
  · intro hpk
    cases hnl : c.nullable with
    | false => rfl
    | true =>
      obtain ⟨p', q', e1, e3⟩ := hc.nullable.1 hnl
      exact absurd e3 (hp.key s hs f (hc.pk.1 hpk) p' q' e1)
  · intro r hrr
    obtain ⟨s', k, e1, e2, rfl⟩ := column_ref_some ht hs hf hc hrr
    exact ⟨_, _, rfl, hp.tables s' e1 _ tables_model, hp.fields s' e1 k (key_mem e2)⟩

/-- The columns of a link table. -/
theorem pg_link_columns (hr : ResolverOk g.resolve) (hn : WellNamed items) (ht : Typed g.ft items)
    (hp : PgCrate kw g.ft items) (hrec : Codegen.Recorded g items db) {s s' : Struct} (hs : s ∈ modelsOf items)
    (hs' : s' ∈ modelsOf items) {f : Codegen.Field} {q : Path} (hl : q.last.name = s'.ident.name)
    {t : ATable} (h : LinkFor g.ft items s f q t) :
    ∃ o b, t.columns = [o, b] ∧ o.name = "owner" ∧ b.name = "has" ∧
      (o.nullable = false ∧ b.nullable = false ∧ o.pk = false ∧ b.pk = false ∧ o.auto = false ∧
        b.auto = false ∧ o.unique = false ∧ b.unique = false ∧ o.default = none ∧ b.default = none) ∧
      (∃ k p ty w, IsKey s k ∧ k.ty = some p ∧ o.typeid = some (.ty ty) ∧ pgTypeOf ty = some w ∧
        PgTypeNames g.ft items p w ∧ o.reference = some (.literal (tableOf s) k.ident.name)) ∧
      (∃ k p ty w, IsKey s' k ∧ k.ty = some p ∧ b.typeid = some (.ty ty) ∧ pgTypeOf ty = some w ∧
        PgTypeNames g.ft items p w ∧ b.reference = some (.literal (tableOf s') k.ident.name)) := by
  obtain ⟨o, b, h3, h4, h5, h6, h7, n1, n2, n3, n4, n5, n6, n7, n8, n9, n10⟩ := h.columns
  obtain ⟨k, hk, _⟩ := ht.key s hs
  obtain ⟨k1, hk1, _⟩ := ht.key s' hs'
  obtain ⟨p, _, hfp, _⟩ := row_typed ht hs (key_row ht hs hk)
  obtain ⟨p1, _, hfp1, _⟩ := row_typed ht hs' (key_row ht hs' hk1)
  obtain ⟨r1, ty, d1, t1⟩ := h6 k p hk hfp
  obtain ⟨r2, ty2, d2, t2⟩ := h7 s' k1 p1 hs' hl hk1 hfp1
  obtain ⟨a0, a1, -, a2, a3, a4⟩ := pg_field_type hr hn ht hp hrec hs (key_row ht hs hk) hfp d1 t1
  obtain ⟨b0, b1, -, b2, b3, b4⟩ := pg_field_type hr hn ht hp hrec hs' (key_row ht hs' hk1) hfp1 d2 t2
  exact ⟨o, b, h3, h4, h5, ⟨n1, n2, n3, n4, n5, n6, n7, n8, n9, n10⟩, ⟨k, p, a0, a1, hk, hfp, a2, a3, a4, r1⟩,
    k1, p1, b0, b1, hk1, hfp1, b2, b3, b4, r2⟩

theorem pg_word {w : String} (h : IsName w) (hl : lower w = w) : PgName kw w := ⟨h, fun _ => hl⟩

/-- The tables of the schema, with what PostgreSQL needs of their columns. -/
theorem pg_crate_schema (hr : ResolverOk g.resolve) (hn : WellNamed items) (ht : Typed g.ft items)
    (hp : PgCrate kw g.ft items) (h : expandAll g ADB.new items = some db)
    (h' : db.resolveTypes g.ft.json (rounds db) = .ok db') : PgSchema kw db' := by
  obtain ⟨db0, h0, hrec⟩ := recorded hr hn ht
  rw [h] at h0; cases h0
  have href : ∀ {s : Struct} {k : Codegen.Field}, s ∈ modelsOf items → IsKey s k →
      ∃ t c, ARef.literal (tableOf s) k.ident.name = .literal t c ∧ PgName kw t ∧ PgName kw c :=
    fun {s k} hs hk => ⟨_, _, rfl, hp.tables s hs _ tables_model, hp.fields s hs k (key_mem hk)⟩
  intro n t hl
  obtain ⟨s, hs, ⟨h1, h2, h3⟩ | ⟨f, hf, q, hq, h1, h2⟩⟩ := table_cases hr hn ht h h' hl
  · refine ⟨by rw [h2, h1]; exact hp.tables s hs _ tables_model, fun c hc => ?_⟩
    obtain ⟨f, hf, hcf⟩ := h3.mem_right hc
    exact (pg_model_column hr hn ht hp hrec hs hf hcf).1
  · obtain ⟨s', hs', hl'⟩ := many_model ht hr hs hf hq
    obtain ⟨o, b, e1, e2, e3, ⟨a1, a2, a3, a4, a5, a6, -⟩, ⟨k, p, ty, w, j1, _, j2, j3, _, j4⟩, k', p', ty', w', i1, _, i2, i3, _, i4⟩ :=
      pg_link_columns hr hn ht hp hrec hs hs' hl' h2
    refine ⟨by rw [h2.name]; exact hp.tables s hs _ (tables_link hf hq), fun c hc => ?_⟩
    rw [e1] at hc
    simp only [List.mem_cons, List.not_mem_nil, or_false] at hc
    rcases hc with rfl | rfl
    · refine ⟨by rw [e2]; exact pg_word ⟨_, _, rfl, by decide, by decide⟩ (by decide), ⟨ty, w, j2, j3⟩,
        fun ha => ?_, fun ha => ?_, fun r hrr => ?_⟩
      · rw [a5] at ha; cases ha
      · rw [a3] at ha; cases ha
      · rw [j4] at hrr; cases hrr; exact href hs j1
    · refine ⟨by rw [e3]; exact pg_word ⟨_, _, rfl, by decide, by decide⟩ (by decide), ⟨ty', w', i2, i3⟩,
        fun ha => ?_, fun ha => ?_, fun r hrr => ?_⟩
      · rw [a6] at ha; cases ha
      · rw [a4] at ha; cases ha
      · rw [i4] at hrr; cases hrr; exact href hs' i1

/-- The names of the schema, with the table of records, are those of the crate. -/
theorem pg_crate_used (hr : ResolverOk g.resolve) (hn : WellNamed items) (ht : Typed g.ft items)
    (h : expandAll g ADB.new items = some db)
    (h' : db.resolveTypes g.ft.json (rounds db) = .ok db') {n : String} {t : ATable}
    (hl : (withRec db').getTable n = some t) : UsedTable items n ∧ ∀ c ∈ t.columns, UsedColumn items n c.name := by
  rw [withRec_get] at hl
  split at hl
  · next e =>
    cases hl
    subst e
    refine ⟨.inr rfl, fun c hc => ?_⟩
    rw [PgP.records_columns, List.mem_singleton] at hc
    rw [hc]
    exact .record
  · obtain ⟨s, hs, ⟨h1, h2, h3⟩ | ⟨f, hf, q, hq, h1, h2⟩⟩ := table_cases hr hn ht h h' hl
    · refine ⟨.inl ⟨s, hs, h1 ▸ tables_model⟩, fun c hc => ?_⟩
      obtain ⟨f, hf, hcf⟩ := h3.mem_right hc
      rw [h1, hcf.name]
      exact .field hs hf
    · refine ⟨.inl ⟨s, hs, h1 ▸ tables_link hf hq⟩, fun c hc => ?_⟩
      obtain ⟨o, b, e1, e2, e3, -⟩ := h2.columns
      rw [e1] at hc
      simp only [List.mem_cons, List.not_mem_nil, or_false] at hc
      rw [h1]
      rcases hc with rfl | rfl
      · exact .link hs hf hq (.inl e2)
      · exact .link hs hf hq (.inr e3)

theorem pg_crate_apart (hr : ResolverOk g.resolve) (hn : WellNamed items) (ht : Typed g.ft items)
    (hp : PgCrateNames items) (h : expandAll g ADB.new items = some db)
    (h' : db.resolveTypes g.ft.json (rounds db) = .ok db') : NamesApart ADB.new (withRec db') := by
  have h1 : ∀ {n}, HasTable ADB.new (withRec db') n → UsedTable items n := by
    rintro n ⟨t, hl | hl⟩
    · cases hl
    · exact (pg_crate_used hr hn ht h h' hl).1
  have h2 : ∀ {n c}, HasColumn ADB.new (withRec db') n c → UsedColumn items n c := by
    rintro n c ⟨t, hl | hl, x, hx, rfl⟩
    · cases hl
    · exact (pg_crate_used hr hn ht h h' hl).2 x hx
  exact ⟨fun n m a b e => hp.tables n m (h1 a) (h1 b) e, fun n c d a b e => hp.columns n c d (h2 a) (h2 b) e,
    fun n c m d a b e => hp.constraints n c m d (h2 a) (h2 b) e,
    fun m n c k a b e => hp.free m n c k (h1 a) (h2 b) e, fun n c k a e => hp.short n c k (h2 a) e⟩

/-- The tables of the crate can be created in PostgreSQL. -/
theorem pg_crate_first (hr : ResolverOk g.resolve) (hn : WellNamed items) (ht : Typed g.ft items)
    (hp : PgCrate kw g.ft items) (h : expandAll g ADB.new items = some db)
    (h' : db.resolveTypes g.ft.json (rounds db) = .ok db') : FirstOk kw db' := by
  obtain ⟨db0, h0, hrec⟩ := recorded hr hn ht
  rw [h] at h0; cases h0
  have hfree : db'.getTable recordsName = none := by
    cases hl : db'.getTable recordsName with
    | none => rfl
    | some t =>
      obtain ⟨s, hs, ⟨h1, h2, h3⟩ | ⟨f, hf, q, hq, h1, h2⟩⟩ := table_cases hr hn ht h h' hl
      · exact absurd h1.symm (hp.notRecords s hs)
      · exact absurd h1.symm (link_not_records _)
  have hkey : ∀ {s k}, s ∈ modelsOf items → IsKey s k → ∃ x, KeyColumn db' (tableOf s) k.ident.name x := by
    intro s k hs hk
    obtain ⟨t, g1, g2, g3⟩ := model_table_partial g hr items hn ht db db' h h' s hs
    obtain ⟨c, hc, hcf⟩ := g3.mem_left (key_row ht hs hk)
    refine ⟨c, t, g1, ?_, .inl (hcf.pk.2 hk)⟩
    have hnd : (t.columns.map (·.name)).Nodup :=
      (crate_settled hr hn ht h h').valid.3 (tableOf s, t) (SMap.mem_of_lookup g1)
    rw [← hcf.name]
    exact colByName_of_mem hnd hc
  have hfirst := fun n t hl => (table_cases hr hn ht h h' (n := n) (t := t) hl)
  refine ⟨(crate_settled hr hn ht h h').valid, pg_crate_schema hr hn ht hp h h', hfree,
    pg_crate_apart hr hn ht hp.names h h', ?_, ?_, ?_⟩
  · intro n t hl
    obtain ⟨s, hs, ⟨-, -, h3⟩ | ⟨f, hf, q, hq, -, h3⟩⟩ := hfirst n t hl
    · obtain ⟨k, hk, -⟩ := ht.key s hs
      obtain ⟨c, hc, -⟩ := h3.mem_left (key_row ht hs hk)
      intro e
      rw [e] at hc
      cases hc
    · obtain ⟨o, b, e, -⟩ := h3.columns
      rw [e]; simp
  · intro n t hl
    obtain ⟨s, hs, ⟨-, -, h3⟩ | ⟨f, hf, q, hq, -, h3⟩⟩ := hfirst n t hl
    · intro c hc d hd hcp hdp
      obtain ⟨f, -, hcf⟩ := h3.mem_right hc
      obtain ⟨f', -, hdf⟩ := h3.mem_right hd
      rw [hcf.name, hdf.name, key_unique (hcf.pk.1 hcp) (hdf.pk.1 hdp)]
    · obtain ⟨o, b, e, -, -, -, -, -, -, p1, p2, -⟩ := h3.columns
      rw [OneKey, e]
      intro c hc d _ hcp _
      simp only [List.mem_cons, List.not_mem_nil, or_false] at hc
      rcases hc with rfl | rfl
      · rw [p1] at hcp; cases hcp
      · rw [p2] at hcp; cases hcp
  · rintro n r k ⟨t, c, hl, hc, hcr⟩
    obtain ⟨s, hs, ⟨-, -, h3⟩ | ⟨f, hf, q, hq, -, h3⟩⟩ := hfirst n t hl
    · obtain ⟨f, hf, hcf⟩ := h3.mem_right hc
      obtain ⟨s', k', e1, e2, e3⟩ := column_ref_some ht hs hf hcf hcr
      cases e3
      exact hkey e1 e2
    · obtain ⟨s', hs', hl'⟩ := many_model ht hr hs hf hq
      obtain ⟨o, b, e1, e2, e3, -, ⟨k1, p, ty, w, j1, _, j2, j3, _, j4⟩, k2, p', ty', w', i1, _, i2, i3, _, i4⟩ :=
        pg_link_columns hr hn ht hp hrec hs hs' hl' h3
      rw [e1] at hc
      simp only [List.mem_cons, List.not_mem_nil, or_false] at hc
      rcases hc with rfl | rfl
      · rw [j4] at hcr; cases hcr; exact hkey hs j1
      · rw [i4] at hcr; cases hcr; exact hkey hs' i1

/-- Defaults of columns are not not-a-numbers. -/
theorem pg_crate_reals (hr : ResolverOk g.resolve) (hn : WellNamed items) (ht : Typed g.ft items)
    (hp : PgCrate kw g.ft items) (h : expandAll g ADB.new items = some db)
    (h' : db.resolveTypes g.ft.json (rounds db) = .ok db') {n : String} {t : ATable} (hl : db'.getTable n = some t)
    {c : AColumn} (hc : c ∈ t.columns) {r : F64} (hd : c.default = some (.real r)) : r.isNaN = false := by
  obtain ⟨s, hs, ⟨h1, h2, h3⟩ | ⟨f, hf, q, hq, h1, h2⟩⟩ := table_cases hr hn ht h h' hl
  · obtain ⟨f, hf, hcf⟩ := h3.mem_right hc
    have := hcf.default
    rw [hd] at this
    exact hp.real s hs f (mem_rowFields.1 hf).1 r (default_real this)
  · obtain ⟨o, b, h3, h4, h5, h6, h7, n1, n2, n3, n4, n5, n6, n7, n8, n9, n10⟩ := h2.columns
    rw [h3] at hc
    simp only [List.mem_cons, List.not_mem_nil, or_false] at hc
    rcases hc with rfl | rfl
    · rw [n9] at hd; cases hd
    · rw [n10] at hd; cases hd

/-- The scripts of the first migration of a crate. -/
theorem pg_crate_down {res : String → Bool} {p : LitPrinters} (hk : PgWords kw res) (hr : ResolverOk g.resolve)
    (hn : WellNamed items) (ht : Typed g.ft items)
    (hp : PgCrate kw g.ft items) (h : expandAll g ADB.new items = some db)
    (h' : db.resolveTypes g.ft.json (rounds db) = .ok db') :
    ∃ text, PgDdl.migrationSql kw p db' (diff db' ADB.new) = .ok text := by
  have hf := pg_crate_first hr hn ht hp h h'
  obtain ⟨text, h1, -⟩ := PgP.migration_text (p := p) hk hf.valid (new := ADB.new) (DdlP.validSchema_of (by decide)) hf.pg (fun n t hl => by cases hl)
    ⟨fun n t _ hl => (by cases hl), fun n t hl _ c hc r hd => pg_crate_reals hr hn ht hp h h' hl hc hd,
      fun n s t c y _ hl => (by cases hl), fun n s t c x y _ hl => (by cases hl)⟩
  exact ⟨text, h1⟩

theorem pg_text_newline {p : LitPrinters} {cur : ADB} {ops : List Operation} {text : Text}
    (h : PgDdl.migrationSql kw p cur ops = .ok text) : text.getLast? = some '\n' := by
  simp only [PgDdl.migrationSql] at h
  obtain ⟨ts, h1, h⟩ := DdlP.bind_ok h
  cases h
  simp [lit]

theorem pg_sql {p : LitPrinters} {cur : ADB} {ops : List Operation} {text : Text}
    (h : PgDdl.migrationSql kw p cur ops = .ok text) :
    (pgBackend kw p).sql cur ops = .ok (String.ofList text) ∧ String.ofList text ≠ "" := by
  refine ⟨by simp only [pgBackend, h], ?_⟩
  intro e
  have := pg_text_newline h
  rw [← String.toList_ofList (l := text), e] at this
  cases this

/-- The file with the SQL of a migration holds the generated text. -/
theorem pg_file {p : LitPrinters} {cur : ADB} {ops : List Operation} {sql file : String}
    (h : (pgBackend kw p).sql cur ops = .ok sql) (hf : FileText sql file) :
    PgDdl.migrationSql kw p cur ops = .ok file.toList := by
  simp only [pgBackend] at h
  split at h
  · rename_i t ht
    cases h
    have := pg_text_newline ht
    rcases hf with ⟨-, rfl⟩ | ⟨c, h1, h2, -⟩
    · rw [ht, String.toList_ofList]
    · rw [String.toList_ofList, this] at h1
      cases h1
      exact absurd rfl h2
  · cases h
  · cases h

theorem others_lookup (u : PgCat.PDb) (n : String) :
    (pgOthers u).lookup n = if n = recordsName then none else u.lookup n := by
  unfold pgOthers
  induction u with
  | nil => split <;> rfl
  | cons e u ih =>
    obtain ⟨k, v⟩ := e
    by_cases he : k = recordsName
    · rw [List.filter_cons_of_neg (by simp [he]), ih]
      split
      · rfl
      · next hn => simp only [SMap.lookup, Std.LawfulEqOrd.compare_eq_iff_eq, he, if_neg hn]
    · rw [List.filter_cons_of_pos (by simp [he])]
      simp only [SMap.lookup, ih, Std.LawfulEqOrd.compare_eq_iff_eq]
      by_cases hn : n = k
      · subst hn
        rw [if_pos rfl, if_neg he, if_pos rfl]
      · rw [if_neg hn, if_neg hn]

theorem unique_col {cols : List PCol} (h : (cols.map (·.name)).Nodup) {d d' : PCol} (hd : d ∈ cols)
    (hd' : d' ∈ cols) (e : d.name = d'.name) : d = d' := by
  induction cols with
  | nil => cases hd
  | cons x l ih =>
    rw [List.map_cons, List.nodup_cons] at h
    rcases List.mem_cons.1 hd with rfl | h1 <;> rcases List.mem_cons.1 hd' with rfl | h2
    · rfl
    · exact absurd (List.mem_map.2 ⟨d', h2, e.symm⟩) h.1
    · exact (h.1 (List.mem_map.2 ⟨d, h1, e⟩)).elim
    · exact ih h.2 h1 h2

/-- Each column of the database is one of the schema. -/
theorem table_is_column {t : ATable} {st : PTable} (h : PgTableIs t st) (hnd : (st.cols.map (·.name)).Nodup)
    {d : PCol} (hd : d ∈ st.cols) : ∃ c ∈ t.columns, PgColumnIs c d := by
  obtain ⟨c, hc, e⟩ := h.only d hd
  obtain ⟨d', hd', hi⟩ := h.columns c hc
  have := unique_col hnd hd hd' (e.trans hi.name.symm)
  subst this
  exact ⟨c, hc, hi⟩

theorem pg_crate_tables (hr : ResolverOk g.resolve) (hn : WellNamed items) (ht : Typed g.ft items)
    (hp : PgCrate kw g.ft items) (h : expandAll g ADB.new items = some db)
    (h' : db.resolveTypes g.ft.json (rounds db) = .ok db') {u : PgCat.PDb} (hu : PgProper u)
    (hi : PgImplements (withRec db') u) : PgCrateTables g.ft items (pgOthers u) := by
  obtain ⟨db0, h0, hrec⟩ := recorded hr hn ht
  rw [h] at h0; cases h0
  have hother : ∀ {n t}, db'.getTable n = some t →
      ∃ st, (pgOthers u).lookup (lower n) = some st ∧ PgTableIs t st ∧ (st.cols.map (·.name)).Nodup := by
    intro n t hl
    have hnr : n ≠ recordsName := by
      intro e
      have := (pg_crate_first hr hn ht hp h h').free
      rw [← e, hl] at this
      cases this
    have hw : (withRec db').getTable n = some t := by rw [withRec_get, if_neg hnr]; exact hl
    obtain ⟨st, g1, g2⟩ := hi.tables n t hw
    refine ⟨st, ?_, g2, hu.columns _ _ g1⟩
    rw [others_lookup, if_neg]
    · exact g1
    · intro e
      refine hnr (hp.names.tables n recordsName (pg_crate_used hr hn ht h h' hw).1 (.inr rfl) ?_)
      rw [e]
      exact (by decide : recordsName = lower recordsName)
  refine ⟨?_, ?_, ?_⟩
  · intro s hs
    obtain ⟨t, h1, h2, h3⟩ := model_table_partial g hr items hn ht db db' h h' s hs
    obtain ⟨st, g1, g2, g3⟩ := hother h1
    have hcol : ∀ {f c d}, f ∈ rowFields s → ColumnFor g.ft items s f c → PgColumnIs c d →
        PgFieldColumn g.ft items f d := by
      intro f c d hf hc hd
      obtain ⟨-, p, ty, w, e1, e2, e3, e4⟩ := pg_model_column hr hn ht hp hrec hs hf hc
      obtain ⟨ty', i1, i2⟩ := hd.type
      rw [e2] at i1; cases i1
      rw [e3] at i2; cases i2
      refine ⟨hd.name.trans (by rw [hc.name]), ⟨p, e1, e4⟩, ?_, ?_⟩
      · rw [hd.notNull, ← hc.nullable]; cases c.nullable <;> simp
      · rw [hd.serial]; exact hc.auto
    refine ⟨st, g1, g3, ?_, ?_, ?_⟩
    · intro f hf
      obtain ⟨c, hc, hcf⟩ := h3.mem_left hf
      obtain ⟨d, hd, hcd⟩ := g2.columns c hc
      exact ⟨d, hd, hcol hf hcf hcd⟩
    · intro d hd
      obtain ⟨c, hc, hcd⟩ := table_is_column g2 g3 hd
      obtain ⟨f, hf, hcf⟩ := h3.mem_right hc
      exact ⟨f, hf, hcol hf hcf hcd⟩
    · intro k
      rw [g2.constraints k]
      cases k with
      | pk c =>
        constructor
        · rintro ⟨x, hx, hxp, rfl⟩
          obtain ⟨f, hf, hcf⟩ := h3.mem_right hx
          exact ⟨f, hcf.pk.1 hxp, by rw [hcf.name]⟩
        · rintro ⟨f, hf, rfl⟩
          obtain ⟨c, hc, hcf⟩ := h3.mem_left (key_row ht hs hf)
          exact ⟨c, hc, hcf.pk.2 hf, by rw [hcf.name]⟩
      | unique c =>
        constructor
        · rintro ⟨x, hx, hxp, rfl⟩
          obtain ⟨f, hf, hcf⟩ := h3.mem_right hx
          exact ⟨f, hf, hcf.unique.1 hxp, by rw [hcf.name]⟩
        · rintro ⟨f, hf, hu, rfl⟩
          obtain ⟨c, hc, hcf⟩ := h3.mem_left hf
          exact ⟨c, hc, hcf.unique.2 hu, by rw [hcf.name]⟩
      | fk c r k =>
        constructor
        · rintro ⟨x, hx, rfl, r', k', hxr, rfl, rfl⟩
          obtain ⟨f, hf, hcf⟩ := h3.mem_right hx
          exact ⟨f, hf, _, (column_ref ht hs hf hcf _ _).1 hxr, by rw [hcf.name], rfl, rfl⟩
        · rintro ⟨f, hf, fk, hfr, rfl, rfl, rfl⟩
          obtain ⟨c, hc, hcf⟩ := h3.mem_left hf
          obtain ⟨q, s', k, _, _, _, _, e⟩ := id hfr
          refine ⟨c, hc, by rw [e, hcf.name], fk.table, fk.refCol, ?_, rfl, rfl⟩
          rw [column_ref ht hs hf hcf]
          have : fk.col = f.ident.name := by rw [e]
          rw [← this]; exact hfr
  · intro s hs f hf q hq s' hs' hl'
    obtain ⟨t, h1, h2⟩ := link_table_partial g hr items hn ht db db' h h' s hs f hf q hq
    obtain ⟨st, g1, g2, g3⟩ := hother h1
    obtain ⟨o, b, e1, e2, e3, ⟨a1, a2, a3, a4, a5, a6, a7, a8, -⟩, ⟨k1, p, ty, w, j1, j0, j2, j3, j5, j4⟩,
      k2, p', ty', w', i1, i0, i2, i3, i5, i4⟩ := pg_link_columns hr hn ht hp hrec hs hs' hl' h2
    have hlow : lower "owner" = "owner" ∧ lower "has" = "has" := by decide
    refine ⟨st, g1, g3, ?_, ?_, ?_, ?_⟩
    · obtain ⟨d, hd, hcd⟩ := g2.columns o (by rw [e1]; simp)
      refine ⟨d, hd, by rw [hcd.name, e2, hlow.1], ⟨k1, p, j1, j0, ?_⟩, by rw [hcd.notNull, a1]; rfl, by rw [hcd.serial, a5]⟩
      obtain ⟨ty', m1, m2⟩ := hcd.type
      rw [j2] at m1; cases m1
      rw [j3] at m2; cases m2
      exact j5
    · obtain ⟨d, hd, hcd⟩ := g2.columns b (by rw [e1]; simp)
      refine ⟨d, hd, by rw [hcd.name, e3, hlow.2], ⟨k2, p', i1, i0, ?_⟩, by rw [hcd.notNull, a2]; rfl, by rw [hcd.serial, a6]⟩
      obtain ⟨ty', m1, m2⟩ := hcd.type
      rw [i2] at m1; cases m1
      rw [i3] at m2; cases m2
      exact i5
    · intro d hd
      obtain ⟨c, hc, e⟩ := g2.only d hd
      rw [e1] at hc
      simp only [List.mem_cons, List.not_mem_nil, or_false] at hc
      rcases hc with rfl | rfl
      · exact .inl (by rw [e, e2, hlow.1])
      · exact .inr (by rw [e, e3, hlow.2])
    · intro k
      rw [g2.constraints k]
      constructor
      · intro hk
        cases k with
        | pk c =>
          obtain ⟨x, hx, hxp, -⟩ := hk
          rw [e1] at hx
          simp only [List.mem_cons, List.not_mem_nil, or_false] at hx
          rcases hx with rfl | rfl
          · rw [a3] at hxp; cases hxp
          · rw [a4] at hxp; cases hxp
        | unique c =>
          obtain ⟨x, hx, hxp, -⟩ := hk
          rw [e1] at hx
          simp only [List.mem_cons, List.not_mem_nil, or_false] at hx
          rcases hx with rfl | rfl
          · rw [a7] at hxp; cases hxp
          · rw [a8] at hxp; cases hxp
        | fk c r k =>
          obtain ⟨x, hx, rfl, r', k', hxr, rfl, rfl⟩ := hk
          rw [e1] at hx
          simp only [List.mem_cons, List.not_mem_nil, or_false] at hx
          rcases hx with rfl | rfl
          · rw [j4] at hxr; cases hxr
            exact .inl ⟨k1, j1, by rw [e2, hlow.1]⟩
          · rw [i4] at hxr; cases hxr
            exact .inr ⟨k2, i1, by rw [e3, hlow.2]⟩
      · rintro (⟨f', hf', rfl⟩ | ⟨f', hf', rfl⟩)
        · obtain rfl := key_unique j1 hf'
          exact ⟨o, by rw [e1]; simp, by rw [e2, hlow.1], _, _, j4, rfl, rfl⟩
        · obtain rfl := key_unique i1 hf'
          exact ⟨b, by rw [e1]; simp, by rw [e3, hlow.2], _, _, i4, rfl, rfl⟩
  · intro n t hl
    rw [others_lookup] at hl
    split at hl
    · cases hl
    · next hnr =>
      obtain ⟨m, t', hm, rfl⟩ := hi.only n t hl
      rcases (pg_crate_used hr hn ht h h' hm).1 with ⟨s, hs, hmem⟩ | rfl
      · exact ⟨s, hs, m, hmem, rfl⟩
      · exact absurd (by decide : lower recordsName = recordsName) hnr

end Butane.Proofs.CrateDb
