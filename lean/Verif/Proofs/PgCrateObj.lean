/-
The tables of a crate in PostgreSQL fit the objects its models declare.
-/
import Verif.Spec.PgCrateObj
import Verif.Proofs.PgCrate
import Verif.Proofs.CrateObj
import Verif.Proofs.PgAccept

namespace Butane.Proofs.CrateDb
open Butane Butane.Spec Butane.Ddl Butane.Codegen Butane.Proofs.Codegen Butane.Props
open Butane.PgCat (lower PCol PTable PKind)

variable {g : Cfg} {items : List Item} {kw : String → Bool} {k : PgConn}

theorem pgType_of_words {ty : SqlType} {t : PgType} {w : List String} (h1 : pgTypeOf ty = some w)
    (h2 : pgTypeWords t = some w) : t = pgType ty := by
  cases ty <;> simp only [pgTypeOf, Option.some.injEq, reduceCtorEq] at h1 <;> subst h1 <;>
    cases t <;> simp [pgTypeWords, pgType] at h2 ⊢

theorem stored_distinct {n : String} {c : PTable} {l : List PCol} {m : List PgData.Column}
    (h : AllMatch (PgStoredColumn items n c) l m) (hnd : (l.map (·.name)).Nodup) : (m.map (·.name)).Nodup := by
  have e : m.map (fun x => lower x.name) = l.map (·.name) := by
    clear hnd
    induction h with
    | nil => rfl
    | cons hr _ ih => simp only [List.map_cons, ih, hr.name]
  rw [← e] at hnd
  have : m.map (fun x => lower x.name) = (m.map (·.name)).map lower := by simp
  rw [this] at hnd
  exact (List.pairwise_map.1 hnd).imp fun h e => h (congrArg lower e)

/-- The stored table of a model. -/
theorem stored_model {cat : PgCat.PDb} (hc : PgCrateTables g.ft items cat) {u : PgData.PDb}
    (hu : PgStores items cat u) {s : Struct} (hs : s ∈ modelsOf items) :
    ∃ c t, PgModelTable g.ft items s c ∧ u.lookup (tableOf s) = some t ∧ PgStoredTable items (tableOf s) c t := by
  obtain ⟨c, h1, h2⟩ := hc.models s hs
  obtain ⟨t, h3⟩ := hu.all s hs _ tables_model c h1
  obtain ⟨-, c', h4, h5⟩ := hu.tables _ t h3
  rw [h1] at h4
  cases h4
  exact ⟨c, t, h2, h3, h5⟩

/-- The stored column of a field. -/
theorem pg_stored_field (hp : PgCrate kw g.ft items) {s : Struct} (hs : s ∈ modelsOf items) {c : PTable}
    {t : PgData.Table} (hst : PgStoredTable items (tableOf s) c t) {f : Codegen.Field} (hf : f ∈ rowFields s) {d : PCol}
    (hfc : PgFieldColumn g.ft items f d) {e : PgData.Column} (he : PgStoredColumn items (tableOf s) c d e) :
    e.name = f.ident.name :=
  hp.names.columns _ _ _ he.spelled (.field hs hf) (he.name.trans hfc.name)

theorem pg_table_fits (hr : ResolverOk g.resolve) (hn : WellNamed items) (ht : Typed g.ft items)
    (hp : PgCrate kw g.ft items) {s : Struct} (hs : s ∈ modelsOf items) {c : PTable} (hmt : PgModelTable g.ft items s c)
    {t : PgData.Table} (hst : PgStoredTable items (tableOf s) c t) {m : TModel} {pk : TField}
    (hu : PgUsableModel g.ft items k s m pk) : PgTableFits m pk t ∧ OnlyFields m t := by
  obtain ⟨db, -, hrec⟩ := recorded hr hn ht
  obtain ⟨kf, hkey, hkf, hkmem, hpkm⟩ := model_key hu.isModel hu.noRaw hu.key
  refine ⟨⟨stored_distinct hst.columns hmt.distinct, ?_⟩, ?_⟩
  · intro f' hf' ty hty
    obtain ⟨f, hf, hff⟩ := allMatch_right hu.isModel.fields hf'
    have hrow : f ∈ rowFields s := mem_rowFields.2 ⟨hf, fun h => by rw [hff.many.2 h] at hty; cases hty⟩
    obtain ⟨d, hd, hfc⟩ := hmt.fields f hrow
    obtain ⟨e, he, hde⟩ := hst.columns.mem_left hd
    obtain ⟨p, hfp, hpt⟩ := hff.type ty hty
    refine ⟨e, he, (pg_stored_field hp hs hst hrow hfc hde).trans hff.name.symm, ?_, ?_, ?_, ?_⟩
    · obtain ⟨p', h1, ty0, h2, h3⟩ := hfc.type
      rw [hfp] at h1
      cases h1
      cases has_unique hr hn ht hrec (rustType_sql hpt) h2
      exact pgType_of_words h3 hde.type
    · intro hnn habs
      rw [hde.notNull] at hnn
      refine hfc.notNull.1 hnn ?_
      obtain ⟨q, hq⟩ := hu.option f hf p ty hfp hpt habs
      exact ⟨p, q, hfp, hq⟩
    · intro e'
      rw [hff.name, hkf.name] at e'
      have hfk : f = kf := eq_of_name (hn.fields s hs) hf hkmem e'
      subst hfk
      refine ⟨?_, ?_⟩
      · rw [hde.notNull]
        exact hfc.notNull.2 fun ⟨p', q, h1, h2⟩ => hp.key s hs f hkey p' q h1 h2
      · obtain ⟨x, hx, hxk⟩ := (hmt.keys (.pk (lower f.ident.name))).2 ⟨f, hkey, rfl⟩
        exact hde.unique.2 ⟨x, hx, .inl (by rw [hxk, hfc.name])⟩
    · intro ha
      rw [hde.serial]
      unfold TField.isAuto at ha
      split at ha
      · next ty' hty' =>
        rw [hty] at hty'
        cases hty'
        obtain ⟨q, hq⟩ := hu.auto f hf p ty' hfp hpt
        exact hfc.serial.2 ⟨p, q, hfp, hq⟩
      · cases ha
  · intro e he
    obtain ⟨d, hd, hde⟩ := hst.columns.mem_right he
    obtain ⟨f, hf, hfc⟩ := hmt.columns d hd
    obtain ⟨f', hf', hff⟩ := allMatch_left hu.isModel.fields (mem_rowFields.1 hf).1
    exact ⟨f', hf', hff.name.trans (pg_stored_field hp hs hst hf hfc hde).symm,
      fun e => (mem_rowFields.1 hf).2 (hff.many.1 e)⟩

theorem pg_model_ok (hn : WellNamed items) (ht : Typed g.ft items)
    (hp : PgCrate kw g.ft items) {s : Struct} (hs : s ∈ modelsOf items) {m : TModel} {pk : TField}
    (hu : PgUsableModel g.ft items k s m pk) : PgModelOk k m pk := by
  obtain ⟨kf, hkey, hkf, hkmem, hpkm⟩ := model_key hu.isModel hu.noRaw hu.key
  have hnd := model_distinct hn hs hu.isModel
  refine ⟨hu.covers, hu.excluded, ?_, hu.table, ?_, hnd, hu.key, hu.plain, ?_, ?_, hu.autoInt, hu.count⟩
  · rw [hu.isModel.table]
    exact (hp.tables s hs _ tables_model).1
  · intro f' hf'
    obtain ⟨f, hf, hff⟩ := allMatch_right hu.isModel.fields hf'
    rw [hff.name]
    exact (hp.fields s hs f hf).1
  · have hrow := key_row ht hs hkey
    cases hty : pk.ty with
    | none => exact absurd (hkf.many.1 hty) (mem_rowFields.1 hrow).2
    | some ty => exact ⟨ty, rfl, hu.keyType ty hty⟩
  · intro f' hf' ha
    obtain ⟨f, hf, hff⟩ := allMatch_right hu.isModel.fields hf'
    unfold TField.isAuto at ha
    split at ha
    · next ty hty =>
      obtain ⟨p, h1, h2⟩ := hff.type _ hty
      obtain ⟨q, hq⟩ := hu.auto f hf p ty h1 h2
      obtain rfl := key_unique hkey (hp.auto s hs f hf p q h1 hq).1
      exact eq_of_name hnd hf' hpkm (hff.name.trans hkf.name.symm)
    · cases ha

/-- The foreign keys of the crate's tables refer to keys. -/
theorem pg_crate_keyRefs (hr : ResolverOk g.resolve) (hn : WellNamed items) (ht : Typed g.ft items)
    (hp : PgCrate kw g.ft items) {cat : PgCat.PDb} (hc : PgCrateTables g.ft items cat) {u : PgData.PDb}
    (hstore : PgStores items cat u) {s : Struct} (hs : s ∈ modelsOf items) {m : TModel} {pk : TField}
    (hu : PgUsableModel g.ft items k s m pk) : PgKeyRefs m pk u := by
  obtain ⟨kf, hkey, hkf, hkmem, hpkm⟩ := model_key hu.isModel hu.noRaw hu.key
  have hused : ∀ {s'}, s' ∈ modelsOf items → UsedTable items (tableOf s') := fun hs' => .inl ⟨_, hs', tables_model⟩
  have hto : ∀ {s' k' c}, s' ∈ modelsOf items → IsKey s' k' → lower m.table = lower (tableOf s') →
      UsedColumn items m.table c → lower c = lower k'.ident.name → c = pk.name := by
    intro s' k' c hs' hk' e hc e'
    rw [hu.isModel.table] at e hc
    have := hp.names.tables _ _ (hused hs) (hused hs') e
    obtain rfl := tableOf_inj hn hs' hs this.symm
    obtain rfl := key_unique hk' hkey
    rw [hkf.name]
    exact hp.names.columns _ _ _ hc (.field hs (key_row ht hs hk')) e'
  constructor
  · intro n t hl fk hfk e
    obtain ⟨⟨s1, hs1, hmem⟩, c, hcl, hst⟩ := hstore.tables n t hl
    obtain ⟨-, r1, x, hx, hxk⟩ := hst.refs fk hfk
    rw [e] at r1 hxk
    rcases List.mem_cons.1 hmem with rfl | hmem
    · obtain ⟨c', h1, h2⟩ := hc.models s1 hs1
      rw [hcl] at h1
      cases h1
      obtain ⟨f, -, fk', ⟨q, s', k', -, h3, -, h5, rfl⟩, h6, h7, h8⟩ := (h2.keys _).1 ⟨x, hx, hxk⟩
      exact hto h3 h5 h7 r1 h8
    · obtain ⟨f, hf, rfl⟩ := List.mem_map.1 hmem
      obtain ⟨hf, q, hq⟩ := mem_manyFields.1 hf
      obtain ⟨s', hs', hl'⟩ := many_model ht hr hs1 hf hq
      obtain ⟨c', h1, h2⟩ := hc.links s1 hs1 f hf q hq s' hs' hl'
      rw [hcl] at h1
      cases h1
      rcases (h2.keys _).1 ⟨x, hx, hxk⟩ with ⟨k', h3, h4⟩ | ⟨k', h3, h4⟩
      · simp only [PKind.fk.injEq] at h4
        exact hto hs1 h3 h4.2.1 r1 h4.2.2
      · simp only [PKind.fk.injEq] at h4
        exact hto hs' h3 h4.2.1 r1 h4.2.2
  · intro ha t hl fk hfk e
    obtain ⟨c, t', hmt, hl', hst⟩ := stored_model hc hstore hs
    rw [hu.isModel.table, hl'] at hl
    cases hl
    obtain ⟨r0, -, x, hx, hxk⟩ := hst.refs fk hfk
    obtain ⟨f, hf, fk', ⟨q, s', k', ⟨p, hfp, hq⟩, -, -, -, rfl⟩, h6, -⟩ := (hmt.keys _).1 ⟨x, hx, hxk⟩
    have hfn : fk.col = f.ident.name := hp.names.columns _ _ _ r0 (.field hs hf) h6
    rw [e, hkf.name] at hfn
    obtain rfl := eq_of_name (hn.fields s hs) hkmem (mem_rowFields.1 hf).1 hfn
    unfold TField.isAuto at ha
    split at ha
    · next ty hty =>
      obtain ⟨p', e1, e2⟩ := hkf.type _ hty
      rw [hfp] at e1
      cases e1
      obtain ⟨q', hq'⟩ := hu.auto kf hkmem p ty hfp e2
      rcases hq with hq | ⟨r, hq, -⟩
      · exact absurd (applied_arg hq hq').1 (by decide)
      · exact absurd (applied_arg hq hq').1 (by decide)
    · cases ha

/-- All constraints hold in a database without rows. -/
theorem valid_empty {S : PgData.Server} {u : PgData.PDb} (h : ∀ e ∈ u, e.2.rows = []) : PgData.valid S u = true := by
  unfold PgData.valid
  rw [List.all_eq_true]
  intro e he
  simp [PgData.uniqueOk, PgData.refsOk, h e he]

/-- Objects of the models can be stored in a database that has the tables of the crate. -/
theorem pg_crate_ready (hr : ResolverOk g.resolve) (hn : WellNamed items) (ht : Typed g.ft items)
    (hp : PgCrate kw g.ft items) {cat : PgCat.PDb} (hc : PgCrateTables g.ft items cat) {u : PgData.PDb}
    (hstore : PgStores items cat u) (hlaws : PgData.Laws k.server) (hv : PgData.valid k.server u = true)
    {s : Struct} (hs : s ∈ modelsOf items) {m : TModel} {pk : TField} (hu : PgUsableModel g.ft items k s m pk) :
    PgReady k m pk u := by
  obtain ⟨c, t, hmt, hl, hst⟩ := stored_model hc hstore hs
  exact ⟨pg_model_ok hn ht hp hs hu, hlaws, hstore.sorted, hv, t, by rw [hu.isModel.table]; exact hl,
    (pg_table_fits hr hn ht hp hs hmt hst hu).1⟩

/-- Changing rows does not change the catalog. -/
theorem stores_touched {cat : PgCat.PDb} {u u' : PgData.PDb} {S : PgData.Server} {n : String} (h : PgStores items cat u)
    (ht : PgP.Touches S u u' n) : PgStores items cat u' := by
  rcases ht with rfl | ⟨t, rows, h1, h2⟩
  · exact h
  · refine ⟨h2.sorted, ?_, ?_⟩
    · intro n' t' hl
      by_cases e : n' = n
      · subst e
        rw [h2.table] at hl
        cases hl
        obtain ⟨q1, c, q2, q3⟩ := h.tables _ t h1
        exact ⟨q1, c, q2, q3.columns, q3.refs, q3.allRefs⟩
      · rw [h2.others n' e] at hl
        exact h.tables n' t' hl
    · intro s hs n' hn' c hcl
      obtain ⟨t', hl⟩ := h.all s hs n' hn' c hcl
      by_cases e : n' = n
      · subst e
        exact ⟨_, h2.table⟩
      · exact ⟨t', by rw [h2.others n' e]; exact hl⟩

/-! ### There are such databases -/

theorem allMatch_exists {α β : Type} {R : α → β → Prop} {l : List α} (h : ∀ a ∈ l, ∃ b, R a b) : ∃ m, AllMatch R l m := by
  induction l with
  | nil => exact ⟨[], .nil⟩
  | cons a l ih =>
    obtain ⟨b, hb⟩ := h a (List.mem_cons_self ..)
    obtain ⟨m, hm⟩ := ih fun a ha => h a (List.mem_cons_of_mem _ ha)
    exact ⟨b :: m, .cons hb hm⟩

/-- The references of a table, as they are written. -/
theorem refs_exist {n : String} {l : List PgCat.PCon} (h : ∀ x ∈ l, ∀ col r k, x.kind = .fk col r k →
      ∃ fk : RefCon, UsedColumn items n fk.col ∧ UsedColumn items fk.table fk.refCol ∧
        lower fk.col = col ∧ lower fk.table = r ∧ lower fk.refCol = k) :
    ∃ L : List RefCon, (∀ fk ∈ L, UsedColumn items n fk.col ∧ UsedColumn items fk.table fk.refCol ∧
        ∃ x ∈ l, x.kind = .fk (lower fk.col) (lower fk.table) (lower fk.refCol)) ∧
      ∀ x ∈ l, ∀ col r k, x.kind = .fk col r k →
        ∃ fk ∈ L, lower fk.col = col ∧ lower fk.table = r ∧ lower fk.refCol = k := by
  induction l with
  | nil => exact ⟨[], fun _ h => (by cases h), fun _ h => (by cases h)⟩
  | cons x l ih =>
    obtain ⟨L, h1, h2⟩ := ih fun y hy => h y (List.mem_cons_of_mem _ hy)
    have up : ∀ fk ∈ L, UsedColumn items n fk.col ∧ UsedColumn items fk.table fk.refCol ∧
        ∃ y ∈ x :: l, y.kind = .fk (lower fk.col) (lower fk.table) (lower fk.refCol) := by
      intro fk hfk
      obtain ⟨a, b, y, hy, e⟩ := h1 fk hfk
      exact ⟨a, b, y, List.mem_cons_of_mem _ hy, e⟩
    cases hk : x.kind with
    | fk col r k =>
      obtain ⟨fk, a, b, e1, e2, e3⟩ := h x (List.mem_cons_self ..) _ _ _ hk
      refine ⟨fk :: L, ?_, ?_⟩
      · intro fk' hfk'
        rcases List.mem_cons.1 hfk' with rfl | hfk'
        · exact ⟨a, b, x, List.mem_cons_self .., by rw [hk, e1, e2, e3]⟩
        · exact up fk' hfk'
      · intro y hy col' r' k' e
        rcases List.mem_cons.1 hy with rfl | hy
        · rw [hk] at e
          cases e
          exact ⟨fk, List.mem_cons_self .., e1, e2, e3⟩
        · obtain ⟨fk', q1, q2⟩ := h2 y hy _ _ _ e
          exact ⟨fk', List.mem_cons_of_mem _ q1, q2⟩
    | pk c =>
      refine ⟨L, up, fun y hy col r k e => ?_⟩
      rcases List.mem_cons.1 hy with rfl | hy
      · rw [hk] at e; cases e
      · exact h2 y hy _ _ _ e
    | unique c =>
      refine ⟨L, up, fun y hy col r k e => ?_⟩
      rcases List.mem_cons.1 hy with rfl | hy
      · rw [hk] at e; cases e
      · exact h2 y hy _ _ _ e

theorem column_exists {n : String} {c : PTable} {d : PCol} {w : String} (hw : UsedColumn items n w) (hd : d.name = lower w)
    {ty : SqlType} (hty : pgTypeOf ty = some d.type) : ∃ e, PgStoredColumn items n c d e := by
  classical
  refine ⟨⟨w, pgType ty, d.notNull, d.serial, .null,
    decide (∃ x ∈ c.cons, x.kind = .pk d.name ∨ x.kind = .unique d.name)⟩, hw, hd.symm, ?_, rfl, rfl, decide_eq_true_iff⟩
  cases ty <;> simp only [pgTypeOf, reduceCtorEq] at hty <;> exact hty

theorem table_exists {n : String} {c : PTable}
    (hcols : ∀ d ∈ c.cols, ∃ w ty, UsedColumn items n w ∧ d.name = lower w ∧ pgTypeOf ty = some d.type)
    (hrefs : ∀ x ∈ c.cons, ∀ col r k, x.kind = .fk col r k →
      ∃ fk : RefCon, UsedColumn items n fk.col ∧ UsedColumn items fk.table fk.refCol ∧
        lower fk.col = col ∧ lower fk.table = r ∧ lower fk.refCol = k) :
    ∃ t, PgStoredTable items n c t ∧ t.rows = [] := by
  obtain ⟨L, h1, h2⟩ := refs_exist hrefs
  obtain ⟨m, hm⟩ := allMatch_exists (R := PgStoredColumn items n c) (l := c.cols) fun d hd => by
    obtain ⟨w, ty, a1, a2, a3⟩ := hcols d hd
    exact column_exists a1 a2 a3
  exact ⟨⟨m, L, []⟩, ⟨hm, h1, h2⟩, rfl⟩

theorem crate_table_exists (hr : ResolverOk g.resolve) (ht : Typed g.ft items) {cat : PgCat.PDb}
    (hc : PgCrateTables g.ft items cat) {s : Struct} (hs : s ∈ modelsOf items) {n : String} (hmem : n ∈ tablesOf s) :
    ∃ c t, cat.lookup (lower n) = some c ∧ PgStoredTable items n c t ∧ t.rows = [] := by
  rcases List.mem_cons.1 hmem with rfl | hmem
  · obtain ⟨c, h1, h2⟩ := hc.models s hs
    obtain ⟨t, h3, h4⟩ := table_exists (items := items) (n := tableOf s) (c := c) (by
      intro d hd
      obtain ⟨f, hf, hfc⟩ := h2.columns d hd
      obtain ⟨-, -, ty, -, h⟩ := hfc.type
      exact ⟨_, ty, .field hs hf, hfc.name, h⟩) (by
      intro x hx col r k hk
      obtain ⟨f, hf, fk, ⟨q, s', k', -, h3, -, h5, rfl⟩, rfl, rfl, rfl⟩ := (h2.keys _).1 ⟨x, hx, hk⟩
      exact ⟨_, .field hs hf, .field h3 (key_row ht h3 h5), rfl, rfl, rfl⟩)
    exact ⟨c, t, h1, h3, h4⟩
  · obtain ⟨f, hf, rfl⟩ := List.mem_map.1 hmem
    obtain ⟨hf, q, hq⟩ := mem_manyFields.1 hf
    obtain ⟨s', hs', hl'⟩ := many_model ht hr hs hf hq
    obtain ⟨c, h1, h2⟩ := hc.links s hs f hf q hq s' hs' hl'
    have low : lower "owner" = "owner" ∧ lower "has" = "has" := by decide
    obtain ⟨t, h3, h4⟩ := table_exists (items := items) (n := tableOf s ++ "_" ++ f.ident.name ++ "_Many") (c := c) (by
      intro d hd
      obtain ⟨d1, m1, l1⟩ := h2.owner
      obtain ⟨d2, m2, l2⟩ := h2.has
      have huniq : ∀ {e}, e ∈ c.cols → e.name = d.name → e = d := fun he e => unique_col h2.distinct he hd e
      rcases h2.columns d hd with e | e
      · obtain rfl := huniq m1 (l1.name.trans e.symm)
        obtain ⟨-, -, -, -, ty, -, h⟩ := l1.type
        exact ⟨"owner", ty, .link hs hf hq (.inl rfl), by rw [e, low.1], h⟩
      · obtain rfl := huniq m2 (l2.name.trans e.symm)
        obtain ⟨-, -, -, -, ty, -, h⟩ := l2.type
        exact ⟨"has", ty, .link hs hf hq (.inr rfl), by rw [e, low.2], h⟩) (by
      intro x hx col r k hk
      rcases (h2.keys _).1 ⟨x, hx, hk⟩ with ⟨k', h3, h4⟩ | ⟨k', h3, h4⟩
      · cases h4
        exact ⟨⟨"owner", tableOf s, k'.ident.name⟩, .link hs hf hq (.inl rfl), .field hs (key_row ht hs h3), low.1, rfl, rfl⟩
      · cases h4
        exact ⟨⟨"has", tableOf s', k'.ident.name⟩, .link hs hf hq (.inr rfl), .field hs' (key_row ht hs' h3), low.2, rfl,
          rfl⟩)
    exact ⟨c, t, h1, h3, h4⟩

theorem tables_exist {P : String → PgData.Table → Prop} {l : List String} (h : ∀ n ∈ l, ∃ t, P n t) :
    ∃ u : PgData.PDb, u.Sorted ∧ (∀ n t, u.lookup n = some t → n ∈ l ∧ P n t) ∧ ∀ n ∈ l, ∃ t, u.lookup n = some t := by
  induction l with
  | nil => exact ⟨[], List.Pairwise.nil, fun _ _ h => (by cases h), fun _ h => (by cases h)⟩
  | cons a l ih =>
    obtain ⟨t, ht⟩ := h a (List.mem_cons_self ..)
    obtain ⟨u, h1, h2, h3⟩ := ih fun n hn => h n (List.mem_cons_of_mem _ hn)
    refine ⟨u.insert a t, SMap.sorted_insert h1 a t, ?_, ?_⟩
    · intro n t' hl
      rw [SMap.lookup_insert] at hl
      split at hl
      · next e =>
        cases hl
        subst e
        exact ⟨List.mem_cons_self .., ht⟩
      · exact ⟨List.mem_cons_of_mem _ (h2 n t' hl).1, (h2 n t' hl).2⟩
    · intro n hn
      rw [SMap.lookup_insert]
      split
      · exact ⟨_, rfl⟩
      · next e => exact h3 n ((List.mem_cons.1 hn).resolve_left e)

/-- A catalog with the tables of a crate is that of a database without rows. -/
theorem stores_exists (hr : ResolverOk g.resolve) (ht : Typed g.ft items) {cat : PgCat.PDb}
    (hc : PgCrateTables g.ft items cat) : ∃ u, PgStores items cat u ∧ ∀ n t, u.lookup n = some t → t.rows = [] := by
  obtain ⟨u, h1, h2, h3⟩ := tables_exist (l := (modelsOf items).flatMap tablesOf)
    (P := fun n t => ∃ c, cat.lookup (lower n) = some c ∧ PgStoredTable items n c t ∧ t.rows = []) (by
      intro n hn
      obtain ⟨s, hs, hn⟩ := List.mem_flatMap.1 hn
      obtain ⟨c, t, h⟩ := crate_table_exists hr ht hc hs hn
      exact ⟨t, c, h⟩)
  refine ⟨u, ⟨h1, fun n t hl => ?_, fun s hs n hn _ _ => h3 n (List.mem_flatMap.2 ⟨s, hs, hn⟩)⟩, fun n t hl => ?_⟩
  · obtain ⟨q1, c, q2, q3, -⟩ := h2 n t hl
    obtain ⟨s, hs, hn⟩ := List.mem_flatMap.1 q1
    exact ⟨⟨s, hs, hn⟩, c, q2, q3⟩
  · obtain ⟨-, c, -, -, q⟩ := h2 n t hl
    exact q

end Butane.Proofs.CrateDb
