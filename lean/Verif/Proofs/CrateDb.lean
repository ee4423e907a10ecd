/-
The schema recorded for a crate is one butane can describe to SQLite, and a database that has it has
the tables of the crate.
-/
import Verif.Spec.CrateDb
import Verif.Props.Codegen
import Verif.Proofs.DdlRun

namespace Butane.Proofs.CrateDb
open Butane Butane.Spec Butane.Ddl Butane.Codegen Butane.Proofs.Codegen Butane.Props

/-! ### What is read from `current` -/

theorem fold_self {K V : Type} [Ord K] [Std.TransOrd K] [Std.LawfulEqOrd K] [DecidableEq K]
    {m : SMap K V} (h : m.Sorted) : m.foldl (fun (m : SMap K V) e => SMap.insert m e.1 e.2) [] = m := by
  obtain ⟨h1, h2⟩ := fold_insert m [] SMap.sorted_nil (SMap.nodup_keys h) (fun _ _ => rfl)
  apply SMap.ext h1 h
  intro k
  cases hl : m.lookup k with
  | some v =>
    exact SMap.lookup_of_mem h1 ((h2 _).2 (Or.inr (SMap.mem_of_lookup hl)))
  | none =>
    cases hl' : SMap.lookup _ k with
    | none => rfl
    | some v =>
      rcases (h2 _).1 (SMap.mem_of_lookup hl') with h3 | h3
      · cases h3
      · rw [SMap.lookup_of_mem h h3] at hl; cases hl

theorem fold_types (l : List (TypeKey × DeferredSqlType)) : ∀ db : ADB,
    l.foldl (fun (db : ADB) e => db.addType e.1 e.2) db =
      { db with extraTypes := l.foldl (fun m e => m.insert e.1 e.2) db.extraTypes } := by
  induction l with
  | nil => intro db; rfl
  | cons e l ih => intro db; simp only [List.foldl_cons, ih]; rfl

/-- The schema read from `current` after compiling a crate is the resolved one. -/
theorem current_db {g : Cfg} (hr : ResolverOk g.resolve) {items : List Item} (hn : WellNamed items)
    (ht : Typed g.ft items) {s : FsMigrations} (h : Compiled g items s) :
    ∃ db db', expandAll g ADB.new items = some db ∧ db.resolveTypes g.ft.json (rounds db) = .ok db' ∧
      s.getDb g.ft.json "current" = .ok db' := by
  obtain ⟨db, h1, h2, h3⟩ := h.recorded
  obtain ⟨db0, db', g1, g2⟩ := model_schema_resolves g hr items hn ht
  rw [h1] at g1; cases g1
  obtain ⟨db0, g1, hrec⟩ := recorded hr hn ht
  rw [h1] at g1; cases g1
  refine ⟨db, db', h1, g2, ?_⟩
  unfold FsMigrations.getDb
  rw [h.bases, h2]
  simp only [FsMigrations.readBases]
  have hkeyed : (db.tables.values.map fun t => (t.name, t)) = db.tables := by
    unfold SMap.values
    rw [List.map_map]
    conv => rhs; rw [← List.map_id db.tables]
    apply List.map_congr_left
    intro e he
    obtain ⟨_, _, _, _, _, _, hk⟩ := (hrec.tables e).1 he
    simp only [Function.comp_apply, id, ← hk]
  have hfold : db.tables.values.foldl ADB.replaceTable ADB.new = ⟨db.tables, []⟩ := by
    rw [show ADB.replaceTable = (fun db t => ADB.replaceTable db t) from rfl, fold_replace, hkeyed]
    have := fold_self hrec.sortedT
    simp only [ADB.new]
    exact congrArg (fun x => ADB.mk x []) this
  have hgoal : (db.extraTypes.foldl (fun (db : ADB) e => db.addType e.1 e.2) ⟨db.tables, []⟩).resolve g.ft.json =
      .ok db' := by
    rw [fold_types, fold_self hrec.sortedE]
    unfold ADB.resolve
    rw [g2]
  rw [hfold]
  cases hc : (s.dir "current").types with
  | none => rw [hc] at h3; rw [← h3] at hgoal; exact hgoal
  | some m => rw [hc] at h3; rw [← h3] at hgoal; exact hgoal

/-! ### The schema is plain -/

section
variable {g : Cfg} {items : List Item} {db db' : ADB}

/-- The model behind a reference. -/
theorem fk_model {ft : Features} {p q : Path} {ty} (hw : WrittenAs "ForeignKey" p q)
    (h : HasSqlType ft items p ty) : ∃ s k r, s ∈ modelsOf items ∧ q.last.name = s.ident.name ∧
      IsKey s k ∧ k.ty = some r ∧ HasSqlType ft items r ty := by
  cases h with
  | builtin hb =>
    have hl := applied_last hw
    obtain ⟨m, i, rfl, _⟩ := hw
    simp only [Path.last] at hl
    rcases builtin_app1 hb with h | h <;> rw [hl] at h <;> simp at h
  | option h => exact absurd (applied_arg hw h).1 (by decide)
  | autoPk h => exact absurd (applied_arg hw h).1 (by decide)
  | @foreignKey _ q' s f r _ h hs hl hk hty h2 =>
    rw [(applied_arg hw h).2]
    exact ⟨s, f, r, mem_models.2 hs, hl, hk, hty, h2⟩
  | map _ _ _ => obtain ⟨_, _, e, _⟩ := hw; cases e
  | alias _ _ _ => obtain ⟨_, _, e, _⟩ := hw; cases e
  | typed _ _ => obtain ⟨_, _, e, _⟩ := hw; cases e
  | newtype _ _ _ => obtain ⟨_, _, e, _⟩ := hw; cases e
  | enum _ _ => obtain ⟨_, _, e, _⟩ := hw; cases e
  | derived _ _ _ => obtain ⟨_, _, e, _⟩ := hw; cases e

theorem option_arg {ft : Features} {p q : Path} {ty} (hw : WrittenAs "Option" p q)
    (h : HasSqlType ft items p ty) : HasSqlType ft items q ty := by
  cases h with
  | builtin hb =>
    have hl := applied_last hw
    obtain ⟨m, i, rfl, _⟩ := hw
    simp only [Path.last] at hl
    rcases builtin_app1 hb with h | h <;> rw [hl] at h <;> simp at h
  | option h h' => rw [(applied_arg hw h).2]; exact h'
  | autoPk h => exact absurd (applied_arg hw h).1 (by decide)
  | foreignKey h => exact absurd (applied_arg hw h).1 (by decide)
  | map _ _ _ => obtain ⟨_, _, e, _⟩ := hw; cases e
  | alias _ _ _ => obtain ⟨_, _, e, _⟩ := hw; cases e
  | typed _ _ => obtain ⟨_, _, e, _⟩ := hw; cases e
  | newtype _ _ _ => obtain ⟨_, _, e, _⟩ := hw; cases e
  | enum _ _ => obtain ⟨_, _, e, _⟩ := hw; cases e
  | derived _ _ _ => obtain ⟨_, _, e, _⟩ := hw; cases e

/-- The model a field refers to. -/
theorem ref_model {ft : Features} {f : Codegen.Field} {p q : Path} {ty} (hp : f.ty = some p)
    (h : HasSqlType ft items p ty) (hq : IsRef f q) :
    ∃ s k, s ∈ modelsOf items ∧ q.last.name = s.ident.name ∧ IsKey s k := by
  obtain ⟨p', hp', hq⟩ := hq
  rw [hp] at hp'; cases hp'
  rcases hq with hq | ⟨r, hr, hq⟩
  · obtain ⟨s, k, _, h1, h2, h3, _⟩ := fk_model hq h
    exact ⟨s, k, h1, h2, h3⟩
  · obtain ⟨s, k, _, h1, h2, h3, _⟩ := fk_model hq (option_arg hr h)
    exact ⟨s, k, h1, h2, h3⟩

open Classical in
theorem mem_rowFields {s : Struct} {f : Codegen.Field} :
    f ∈ rowFields s ↔ f ∈ s.fields ∧ ¬ ∃ q, IsMany f q := by
  unfold rowFields; rw [List.mem_filter, decide_eq_true_eq]

theorem row_typed (ht : Typed g.ft items) {s : Struct} (hs : s ∈ modelsOf items) {f : Codegen.Field}
    (hf : f ∈ rowFields s) : ∃ p ty, f.ty = some p ∧ HasSqlType g.ft items p ty := by
  rw [mem_rowFields] at hf
  rcases ht.fields s hs f hf.1 with ⟨q, _, h, _⟩ | ⟨p, ty, h1, h2, _⟩
  · exact absurd ⟨q, h⟩ hf.2
  · exact ⟨p, ty, h1, h2⟩

theorem key_row (ht : Typed g.ft items) {s : Struct} (hs : s ∈ modelsOf items) {k : Codegen.Field}
    (hk : IsKey s k) : k ∈ rowFields s := by
  obtain ⟨k', hk', hm⟩ := ht.key s hs
  obtain rfl := key_unique hk hk'
  exact mem_rowFields.2 ⟨key_mem hk, fun ⟨q, h⟩ => hm q h⟩

/-- The reference of a column is that of its field. -/
theorem column_ref (ht : Typed g.ft items) {s : Struct} (hs : s ∈ modelsOf items) {f : Codegen.Field}
    (hf : f ∈ rowFields s) {c : AColumn} (hc : ColumnFor g.ft items s f c) (t k : String) :
    c.reference = some (.literal t k) ↔ FieldRefers items f ⟨f.ident.name, t, k⟩ := by
  obtain ⟨p, ty, hp, hty⟩ := row_typed ht hs hf
  constructor
  · intro h
    by_cases hq : ∃ q, IsRef f q
    · obtain ⟨q, hq⟩ := hq
      obtain ⟨s', k', h1, h2, h3⟩ := ref_model hp hty hq
      have := hc.reference q s' k' hq h1 h2 h3
      rw [h] at this
      simp only [Option.some.injEq, ARef.literal.injEq] at this
      obtain ⟨rfl, rfl⟩ := this
      exact ⟨q, s', k', hq, h1, h2, h3, rfl⟩
    · rw [hc.noReference fun q h => hq ⟨q, h⟩] at h; cases h
  · rintro ⟨q, s', k', hq, h1, h2, h3, e⟩
    simp only [RefCon.mk.injEq, true_and] at e
    rw [e.1, e.2]
    exact hc.reference q s' k' hq h1 h2 h3

/-- Every reference of a column is a table of a model and its key. -/
theorem column_ref_some (ht : Typed g.ft items) {s : Struct} (hs : s ∈ modelsOf items) {f : Codegen.Field}
    (hf : f ∈ rowFields s) {c : AColumn} (hc : ColumnFor g.ft items s f c) {r : ARef}
    (h : c.reference = some r) :
    ∃ s' k, s' ∈ modelsOf items ∧ IsKey s' k ∧ r = .literal (tableOf s') k.ident.name := by
  obtain ⟨p, ty, hp, hty⟩ := row_typed ht hs hf
  by_cases hq : ∃ q, IsRef f q
  · obtain ⟨q, hq⟩ := hq
    obtain ⟨s', k', h1, h2, h3⟩ := ref_model hp hty hq
    have := hc.reference q s' k' hq h1 h2 h3
    rw [h] at this
    exact ⟨s', k', h1, h3, Option.some.inj this⟩
  · rw [hc.noReference fun q h => hq ⟨q, h⟩] at h; cases h

/-- The tables of the resolved schema. -/
theorem table_cases (hr : ResolverOk g.resolve) (hn : WellNamed items) (ht : Typed g.ft items)
    (h : expandAll g ADB.new items = some db) (h' : db.resolveTypes g.ft.json (rounds db) = .ok db')
    {n : String} {t : ATable} (hl : db'.getTable n = some t) : ∃ s ∈ modelsOf items,
      (n = tableOf s ∧ t.name = n ∧ AllMatch (ColumnFor g.ft items s) (rowFields s) t.columns) ∨
      ∃ f ∈ s.fields, ∃ q, IsMany f q ∧ n = tableOf s ++ "_" ++ f.ident.name ++ "_Many" ∧
        LinkFor g.ft items s f q t := by
  obtain ⟨s, hs, hm⟩ := no_other_tables g hr items hn ht db db' h h' n t hl
  refine ⟨s, hs, ?_⟩
  unfold tablesOf at hm
  rcases List.mem_cons.1 hm with rfl | hm
  · obtain ⟨t', h1, h2, h3⟩ := model_table_partial g hr items hn ht db db' h h' s hs
    rw [hl] at h1; cases h1
    exact Or.inl ⟨rfl, h2, h3⟩
  · obtain ⟨f, hf, rfl⟩ := List.mem_map.1 hm
    obtain ⟨hf, q, hq⟩ := mem_manyFields.1 hf
    obtain ⟨t', h1, h2⟩ := link_table_partial g hr items hn ht db db' h h' s hs f hf q hq
    rw [hl] at h1; cases h1
    exact Or.inr ⟨f, hf, q, hq, rfl, h2⟩

theorem rowFields_names (hn : WellNamed items) {s : Struct} (hs : s ∈ modelsOf items) :
    ((rowFields s).map (·.ident.name)).Nodup :=
  ((hn.fields s hs).sublist ((List.filter_sublist).map _))

/-- The schema is one of those the store of migrations keeps. -/
theorem crate_settled (hr : ResolverOk g.resolve) (hn : WellNamed items) (ht : Typed g.ft items)
    (h : expandAll g ADB.new items = some db) (h' : db.resolveTypes g.ft.json (rounds db) = .ok db') :
    Settled db' := by
  obtain ⟨db0, h0, hrec⟩ := recorded hr hn ht
  rw [h] at h0; cases h0
  obtain ⟨hres, hall⟩ := resolve_ok _ _ db db' h'
  have hsort : db'.tables.Sorted := by
    have : db'.tables.map (·.1) = db.tables.map (·.1) :=
      (allMatch_map hres.tables fun e e' h => h.1.symm).symm
    have hs := hrec.sortedT
    unfold SMap.Sorted at hs ⊢
    have key := fun l => List.pairwise_map (l := l) (R := fun a b : String => compare a b = .lt)
      (f := fun e : String × ATable => e.1)
    rw [← key] at hs ⊢
    rw [this]
    exact hs
  have hget : ∀ e ∈ db'.tables, db'.getTable e.1 = some e.2 := fun e he => SMap.lookup_of_mem hsort he
  have hcase := fun e he => table_cases hr hn ht h h' (hget e he)
  refine ⟨⟨hsort, ?_, ?_⟩, ?_, ?_, ?_⟩
  · intro e he
    obtain ⟨s, hs, ⟨h1, h2, _⟩ | ⟨f, hf, q, hq, h1, h2⟩⟩ := hcase e he
    · exact h2.symm
    · rw [h1, h2.name]
  · intro e he
    obtain ⟨s, hs, ⟨h1, h2, h3⟩ | ⟨f, hf, q, hq, h1, h2⟩⟩ := hcase e he
    · rw [← allMatch_map (f := fun f : Codegen.Field => f.ident.name) h3 fun f c hc => hc.name.symm]
      exact rowFields_names hn hs
    · obtain ⟨o, hs', h3, h4, h5, _⟩ := h2.columns
      rw [h3]
      simp [h4, h5]
  · intro e he
    obtain ⟨s, hs, ⟨h1, h2, h3⟩ | ⟨f, hf, q, hq, h1, h2⟩⟩ := hcase e he
    · obtain ⟨k, hk, _⟩ := ht.key s hs
      obtain ⟨c, hc, hcf⟩ := h3.mem_left (key_row ht hs hk)
      exact Or.inl ⟨c, hc, hcf.pk.2 hk⟩
    · exact Or.inr ⟨_, h2.name⟩
  · exact hall
  · intro e he c hc d hd
    obtain ⟨s, hs, ⟨h1, h2, h3⟩ | ⟨f, hf, q, hq, h1, h2⟩⟩ := hcase e he
    · obtain ⟨f, hf, hcf⟩ := h3.mem_right hc
      obtain ⟨_, _, _, _, h⟩ := column_ref_some ht hs hf hcf hd
      cases h
    · obtain ⟨o, hs', h3, _, _, h6, h7, _⟩ := h2.columns
      rw [h3] at hc
      obtain ⟨s1, hs1, e1⟩ := many_model ht hr hs hf hq
      obtain ⟨k, hk, _⟩ := ht.key s hs
      obtain ⟨k1, hk1, _⟩ := ht.key s1 hs1
      obtain ⟨p, ty, hp, _⟩ := row_typed ht hs (key_row ht hs hk)
      obtain ⟨p1, ty1, hp1, _⟩ := row_typed ht hs1 (key_row ht hs1 hk1)
      simp only [List.mem_cons, List.not_mem_nil, or_false] at hc
      rcases hc with rfl | rfl
      · rw [(h6 k p hk hp).1] at hd; cases hd
      · rw [(h7 s1 k1 p1 hs1 e1 hk1 hp1).1] at hd; cases hd

theorem isName_append {a b : String} (ha : IsName a) (hb : b.toList.all Sql.isWordChar = true) :
    IsName (a ++ b) := by
  obtain ⟨c, cs, h1, h2, h3⟩ := ha
  refine ⟨c, cs ++ b.toList, by rw [String.toList_append, h1]; rfl, h2, ?_⟩
  rw [List.all_append, h3, hb]; rfl

theorem isName_word {a : String} (ha : IsName a) : a.toList.all Sql.isWordChar = true := by
  obtain ⟨c, cs, h1, h2, h3⟩ := ha
  rw [h1, List.all_cons, h3, Sql.isWordChar, h2]; rfl

theorem link_not_records (a : String) : a ++ "_Many" ≠ "butane_migrations" := by
  intro h
  have := congrArg (fun s => s.toList.getLast?) h
  simp at this

theorem link_name (hp : PlainCrate g.ft items) {s : Struct} (hs : s ∈ modelsOf items) {f : Codegen.Field}
    (hf : f ∈ s.fields) : IsName (tableOf s ++ "_" ++ f.ident.name ++ "_Many") :=
  isName_append (isName_append (isName_append (hp.tables s hs).1 (by decide))
    (isName_word (hp.fields s hs f hf))) (by decide)

theorem typeid_denotes {c : AColumn} {ty : TypeIdentifier} (h : denotes c.sqltype = .inl ty) :
    c.typeid = some ty := by
  unfold AColumn.typeid
  cases hc : c.sqltype with
  | known t => rw [hc] at h; simp only [denotes, Sum.inl.injEq] at h; subst h; rfl
  | knownId t => rw [hc] at h; simp only [denotes, Sum.inl.injEq] at h; subst h; rfl
  | deferred k => rw [hc] at h; cases h

/-- A column whose type is that of a field of a plain crate. -/
theorem stored_field (hr : ResolverOk g.resolve) (hn : WellNamed items) (ht : Typed g.ft items)
    (hp : PlainCrate g.ft items) (hrec : Codegen.Recorded g items db) {s : Struct} (hs : s ∈ modelsOf items) {f : Codegen.Field}
    (hf : f ∈ rowFields s) {p : Path} (hfp : f.ty = some p) {c : AColumn} {ty}
    (hd : denotes c.sqltype = .inl ty) (h : HasSqlType g.ft items p ty) :
    ∃ st, StoredAs c st ∧ SqliteTypeOf g.ft items p st := by
  obtain ⟨st, ty0, h1, h2⟩ := hp.types s hs f hf p ty hfp h
  have := has_unique hr hn ht hrec h h1
  subst this
  exact ⟨st, ⟨ty0, typeid_denotes hd, h2⟩, ty0, h1, h2⟩

theorem stored_unique {c : AColumn} {a b : SqliteType} (ha : StoredAs c a) (hb : StoredAs c b) : a = b := by
  obtain ⟨x, h1, h2⟩ := ha
  obtain ⟨y, h3, h4⟩ := hb
  rw [h1] at h3; cases h3
  rw [h2] at h4; exact Option.some.inj h4

theorem column_stored (hr : ResolverOk g.resolve) (hn : WellNamed items) (ht : Typed g.ft items)
    (hp : PlainCrate g.ft items) (hrec : Codegen.Recorded g items db) {s : Struct} (hs : s ∈ modelsOf items) {f : Codegen.Field}
    (hf : f ∈ rowFields s) {c : AColumn} (hc : ColumnFor g.ft items s f c) :
    ∃ p st, f.ty = some p ∧ StoredAs c st ∧ SqliteTypeOf g.ft items p st := by
  obtain ⟨p, ty, h1, h2, h3⟩ := hc.type
  obtain ⟨st, h4, h5⟩ := stored_field hr hn ht hp hrec hs hf h1 h2 ((h3 ty).2 rfl)
  exact ⟨p, st, h1, h4, h5⟩

/-- The columns of a link table. -/
theorem link_columns (hr : ResolverOk g.resolve) (hn : WellNamed items) (ht : Typed g.ft items)
    (hp : PlainCrate g.ft items) (hrec : Codegen.Recorded g items db) {s s' : Struct} (hs : s ∈ modelsOf items)
    (hs' : s' ∈ modelsOf items) {f : Codegen.Field} {q : Path} (hl : q.last.name = s'.ident.name)
    {t : ATable} (h : LinkFor g.ft items s f q t) :
    ∃ o b, t.columns = [o, b] ∧ o.name = "owner" ∧ b.name = "has" ∧
      (o.nullable = false ∧ b.nullable = false ∧ o.pk = false ∧ b.pk = false ∧ o.auto = false ∧
        b.auto = false ∧ o.unique = false ∧ b.unique = false) ∧
      (∃ k p st, IsKey s k ∧ k.ty = some p ∧ SqliteTypeOf g.ft items p st ∧ StoredAs o st ∧
        o.reference = some (.literal (tableOf s) k.ident.name)) ∧
      (∃ k p st, IsKey s' k ∧ k.ty = some p ∧ SqliteTypeOf g.ft items p st ∧ StoredAs b st ∧
        b.reference = some (.literal (tableOf s') k.ident.name)) := by
  obtain ⟨o, b, h3, h4, h5, h6, h7, n1, n2, n3, n4, n5, n6, n7, n8, _⟩ := h.columns
  obtain ⟨k, hk, _⟩ := ht.key s hs
  obtain ⟨k1, hk1, _⟩ := ht.key s' hs'
  obtain ⟨p, _, hfp, _⟩ := row_typed ht hs (key_row ht hs hk)
  obtain ⟨p1, _, hfp1, _⟩ := row_typed ht hs' (key_row ht hs' hk1)
  obtain ⟨r1, ty, d1, t1⟩ := h6 k p hk hfp
  obtain ⟨r2, ty2, d2, t2⟩ := h7 s' k1 p1 hs' hl hk1 hfp1
  obtain ⟨st, a1, a2⟩ := stored_field hr hn ht hp hrec hs (key_row ht hs hk) hfp d1 t1
  obtain ⟨st2, b1, b2⟩ := stored_field hr hn ht hp hrec hs' (key_row ht hs' hk1) hfp1 d2 t2
  exact ⟨o, b, h3, h4, h5, ⟨n1, n2, n3, n4, n5, n6, n7, n8⟩, ⟨k, p, st, hk, hfp, a2, a1, r1⟩,
    k1, p1, st2, hk1, hfp1, b2, b1, r2⟩

/-- The schema is one butane can describe to SQLite. -/
theorem crate_sqlite (hr : ResolverOk g.resolve) (hn : WellNamed items) (ht : Typed g.ft items)
    (hp : PlainCrate g.ft items) (h : expandAll g ADB.new items = some db)
    (h' : db.resolveTypes g.ft.json (rounds db) = .ok db') : SqliteSchema db' := by
  obtain ⟨db0, h0, hrec⟩ := recorded hr hn ht
  rw [h] at h0; cases h0
  have href : ∀ {s : Struct} {k : Codegen.Field}, s ∈ modelsOf items → IsKey s k →
      ∃ t c, ARef.literal (tableOf s) k.ident.name = .literal t c ∧ IsName t ∧ IsName c ∧
        ∀ n, t ≠ replacement n :=
    fun {s k} hs hk => ⟨_, _, rfl, (hp.tables s hs).1, hp.fields s hs k (key_mem hk), (hp.tables s hs).2.2⟩
  refine ⟨(crate_settled hr hn ht h h').valid, ?_, ?_, ?_⟩
  · intro n t hl
    obtain ⟨s, hs, ⟨h1, h2, h3⟩ | ⟨f, hf, q, hq, h1, h2⟩⟩ := table_cases hr hn ht h h' hl
    · refine ⟨by rw [h2, h1]; exact (hp.tables s hs).1, fun c hc => ?_⟩
      obtain ⟨f, hf, hcf⟩ := h3.mem_right hc
      obtain ⟨p, st, g1, g2, g3⟩ := column_stored hr hn ht hp hrec hs hf hcf
      have hfm := (mem_rowFields.1 hf).1
      refine ⟨by rw [hcf.name]; exact hp.fields s hs f hfm, ⟨st, g2⟩, ?_, ?_⟩
      · intro ha
        obtain ⟨p', q, e1, e2⟩ := hcf.auto.1 ha
        exact hcf.pk.2 (hp.auto s hs f hfm p' q e1 e2)
      · intro r hrr
        obtain ⟨s', k, e1, e2, rfl⟩ := column_ref_some ht hs hf hcf hrr
        exact href e1 e2
    · obtain ⟨s', hs', hl'⟩ := many_model ht hr hs hf hq
      obtain ⟨o, b, e1, e2, e3, ⟨_, _, _, _, a1, a2, _⟩, ⟨k, p, st, j1, _, _, j2, j3⟩, k', p', st', i1, _, _, i2, i3⟩ :=
        link_columns hr hn ht hp hrec hs hs' hl' h2
      refine ⟨by rw [h2.name]; exact link_name hp hs hf, fun c hc => ?_⟩
      rw [e1] at hc
      simp only [List.mem_cons, List.not_mem_nil, or_false] at hc
      rcases hc with rfl | rfl
      · refine ⟨by rw [e2]; exact ⟨_, _, rfl, by decide, by decide⟩, ⟨st, j2⟩, fun ha => ?_, fun r hrr => ?_⟩
        · rw [a1] at ha; cases ha
        · rw [j3] at hrr; cases hrr; exact href hs j1
      · refine ⟨by rw [e3]; exact ⟨_, _, rfl, by decide, by decide⟩, ⟨st', i2⟩, fun ha => ?_, fun r hrr => ?_⟩
        · rw [a2] at ha; cases ha
        · rw [i3] at hrr; cases hrr; exact href hs' i1
  · cases hl : db'.getTable "butane_migrations" with
    | none => rfl
    | some t =>
      obtain ⟨s, hs, ⟨h1, h2, h3⟩ | ⟨f, hf, q, hq, h1, h2⟩⟩ := table_cases hr hn ht h h' hl
      · exact absurd h1.symm (hp.tables s hs).2.1
      · exact absurd h1.symm (link_not_records _)
  · intro n t hl c hc k hrr
    obtain ⟨s, hs, ⟨h1, h2, h3⟩ | ⟨f, hf, q, hq, h1, h2⟩⟩ := table_cases hr hn ht h h' hl
    · obtain ⟨f, hf, hcf⟩ := h3.mem_right hc
      obtain ⟨s', k', e1, e2, e3⟩ := column_ref_some ht hs hf hcf hrr
      simp only [ARef.literal.injEq] at e3
      exact (hp.tables s' e1).2.1 e3.1.symm
    · obtain ⟨s', hs', hl'⟩ := many_model ht hr hs hf hq
      obtain ⟨o, b, e1, e2, e3, _, ⟨k, p, st, j1, _, _, j2, j3⟩, k', p', st', i1, _, _, i2, i3⟩ :=
        link_columns hr hn ht hp hrec hs hs' hl' h2
      rw [e1] at hc
      simp only [List.mem_cons, List.not_mem_nil, or_false] at hc
      rcases hc with rfl | rfl
      · rw [j3] at hrr
        simp only [Option.some.injEq, ARef.literal.injEq] at hrr
        exact (hp.tables s hs).2.1 hrr.1
      · rw [i3] at hrr
        simp only [Option.some.injEq, ARef.literal.injEq] at hrr
        exact (hp.tables s' hs').2.1 hrr.1

/-! ### The tables -/

/-- A database with the schema has the tables. -/
theorem crate_tables (hr : ResolverOk g.resolve) (hn : WellNamed items) (ht : Typed g.ft items)
    (hp : PlainCrate g.ft items) (h : expandAll g ADB.new items = some db)
    (h' : db.resolveTypes g.ft.json (rounds db) = .ok db') {env : SqliteEnv} {u : SDb}
    (hu : HasSchema env db' u) : CrateTables g.ft items u := by
  obtain ⟨db0, h0, hrec⟩ := recorded hr hn ht
  rw [h] at h0; cases h0
  have hset := crate_settled hr hn ht h h'
  have hdist : ∀ {n t}, db'.getTable n = some t → (t.columns.map (·.name)).Nodup :=
    fun hl => hset.valid.distinct _ (SMap.mem_of_lookup hl)
  refine ⟨?_, ?_, ?_⟩
  · intro s hs
    obtain ⟨t, h1, h2, h3⟩ := model_table_partial g hr items hn ht db db' h h' s hs
    have hb := hu.tables (tableOf s)
    rw [h1] at hb
    cases hl : u.lookup (tableOf s) with
    | none => rw [hl] at hb; exact hb.elim
    | some st =>
      rw [hl] at hb
      have hnd := (hu.proper.tables _ _ hl).distinct
      have hcol : ∀ {f c d}, f ∈ rowFields s → ColumnFor g.ft items s f c → ColumnIs c d →
          FieldColumn g.ft items s f d := by
        intro f c d hf hc hd
        obtain ⟨p, ty, g1, g2, g3⟩ := column_stored hr hn ht hp hrec hs hf hc
        obtain ⟨ty', e1, e2⟩ := hd.type
        obtain rfl := stored_unique g2 e1
        refine ⟨hd.name.trans hc.name, ⟨p, ty, g1, g3, e2⟩, ?_, ?_, ?_, fun hk => hd.keyDefault (hc.pk.2 hk)⟩
        · rw [hd.notNull, ← hc.nullable]; cases c.nullable <;> simp
        · rw [hd.pk]; exact hc.pk
        · rw [hd.unique]; exact hc.unique
      have hcols := hb.columns
      refine ⟨st, rfl, hnd, ?_, ?_, ?_⟩
      · intro f hf
        obtain ⟨c, hc, hcf⟩ := h3.mem_left hf
        have := hcols c.name
        rw [DdlP.column_of_mem (hdist h1) hc] at this
        cases hd : dbColumn st c.name with
        | none => rw [hd] at this; exact this.elim
        | some d =>
          rw [hd] at this
          exact ⟨d, List.mem_of_find?_eq_some hd, hcol hf hcf this⟩
      · intro d hd
        have := hcols d.name
        rw [DdlP.dbColumn_of_mem hnd hd] at this
        cases hc : t.column d.name with
        | none => rw [hc] at this; exact this.elim
        | some c =>
          rw [hc] at this
          obtain ⟨f, hf, hcf⟩ := h3.mem_right (List.mem_of_find?_eq_some hc)
          exact ⟨f, hf, hcol hf hcf this⟩
      · intro fk
        rw [hb.refs fk]
        constructor
        · rintro ⟨c, hc, hrr⟩
          obtain ⟨f, hf, hcf⟩ := h3.mem_right (List.mem_of_find?_eq_some hc)
          have hname : c.name = fk.col := by simpa using List.find?_some hc
          refine ⟨f, hf, ?_⟩
          have := (column_ref ht hs hf hcf _ _).1 hrr
          rw [← hcf.name, hname] at this
          exact this
        · rintro ⟨f, hf, hfr⟩
          obtain ⟨c, hc, hcf⟩ := h3.mem_left hf
          obtain ⟨q, s', k, _, _, _, _, e⟩ := id hfr
          have hcn : fk.col = c.name := by rw [e, hcf.name]
          refine ⟨c, by rw [hcn]; exact DdlP.column_of_mem (hdist h1) hc, ?_⟩
          rw [column_ref ht hs hf hcf]
          rw [← hcf.name, ← hcn]; exact hfr
  · intro s hs f hf q hq s' hs' hl'
    obtain ⟨t, h1, h2⟩ := link_table_partial g hr items hn ht db db' h h' s hs f hf q hq
    have hb := hu.tables (tableOf s ++ "_" ++ f.ident.name ++ "_Many")
    rw [h1] at hb
    cases hl : u.lookup (tableOf s ++ "_" ++ f.ident.name ++ "_Many") with
    | none => rw [hl] at hb; exact hb.elim
    | some st =>
      rw [hl] at hb
      have hnd := (hu.proper.tables _ _ hl).distinct
      have hcols := hb.columns
      obtain ⟨o, b, e1, e2, e3, ⟨n1, n2, n3, n4, a1, a2, u1, u2⟩, ⟨k, p, ty, j1, j4, j5, j2, j3⟩,
        k', p', ty', i1, i4, i5, i2, i3⟩ := link_columns hr hn ht hp hrec hs hs' hl' h2
      have ho : t.column "owner" = some o := by rw [← e2]; exact DdlP.column_of_mem (hdist h1) (by rw [e1]; simp)
      have hh : t.column "has" = some b := by rw [← e3]; exact DdlP.column_of_mem (hdist h1) (by rw [e1]; simp)
      refine ⟨st, rfl, hnd, ?_, ?_, ?_, ?_⟩
      · have := hcols "owner"
        rw [ho] at this
        cases hd : dbColumn st "owner" with
        | none => rw [hd] at this; exact this.elim
        | some d =>
          rw [hd] at this
          obtain ⟨ty1, t1, t2⟩ := this.type
          obtain rfl := stored_unique j2 t1
          exact ⟨d, List.mem_of_find?_eq_some hd, this.name.trans e2, ⟨k, p, ty, j1, j4, j5, t2⟩,
            by rw [this.notNull, n1]; rfl, by rw [this.pk, n3], by rw [this.unique, u1]⟩
      · have := hcols "has"
        rw [hh] at this
        cases hd : dbColumn st "has" with
        | none => rw [hd] at this; exact this.elim
        | some d =>
          rw [hd] at this
          obtain ⟨ty1, t1, t2⟩ := this.type
          obtain rfl := stored_unique i2 t1
          exact ⟨d, List.mem_of_find?_eq_some hd, this.name.trans e3, ⟨k', p', ty', i1, i4, i5, t2⟩,
            by rw [this.notNull, n2]; rfl, by rw [this.pk, n4], by rw [this.unique, u2]⟩
      · intro d hd
        have := hcols d.name
        rw [DdlP.dbColumn_of_mem hnd hd] at this
        cases hc : t.column d.name with
        | none => rw [hc] at this; exact this.elim
        | some c =>
          have hm := List.mem_of_find?_eq_some hc
          have hname : c.name = d.name := by simpa using List.find?_some hc
          rw [e1] at hm
          simp only [List.mem_cons, List.not_mem_nil, or_false] at hm
          rcases hm with rfl | rfl
          · exact Or.inl (hname.symm.trans e2)
          · exact Or.inr (hname.symm.trans e3)
      · intro fk
        rw [hb.refs fk]
        constructor
        · rintro ⟨c, hc, hrr⟩
          have hm := List.mem_of_find?_eq_some hc
          have hname : c.name = fk.col := by simpa using List.find?_some hc
          rw [e1] at hm
          simp only [List.mem_cons, List.not_mem_nil, or_false] at hm
          rcases hm with rfl | rfl
          · rw [j3] at hrr
            simp only [Option.some.injEq, ARef.literal.injEq] at hrr
            refine Or.inl ⟨k, j1, ?_⟩
            rw [hrr.1, hrr.2, ← e2, hname]
          · rw [i3] at hrr
            simp only [Option.some.injEq, ARef.literal.injEq] at hrr
            refine Or.inr ⟨k', i1, ?_⟩
            rw [hrr.1, hrr.2, ← e3, hname]
        · rintro (⟨k1, hk1, rfl⟩ | ⟨k1, hk1, rfl⟩)
          · obtain rfl := key_unique j1 hk1
            exact ⟨o, ho, j3⟩
          · obtain rfl := key_unique i1 hk1
            exact ⟨b, hh, i3⟩
  · intro n st hl
    have hb := hu.tables n
    rw [hl] at hb
    cases hd : db'.getTable n with
    | none => rw [hd] at hb; exact hb.elim
    | some t => exact no_other_tables g hr items hn ht db db' h h' n t hd

end

end Butane.Proofs.CrateDb
