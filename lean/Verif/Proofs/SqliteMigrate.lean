/-
The SQL of a migration on a database with the table of records.
-/
import Verif.Spec.SqliteMigrate
import Verif.Proofs.SqliteFrame
import Verif.Proofs.DdlRun
import Verif.Proofs.SqliteWhole
import Verif.Spec.Migrations

namespace Butane.DdlP
open Butane Butane.Ddl Butane.Spec

variable {env : SqliteEnv} {kw res : String → Bool} {p : LitPrinters}

/-! ### The statements of a migration avoid the table of records -/

/-- The operation does not name the table of records. -/
def OpAvoids : Operation → Prop
  | .addTable t => t.name ≠ recordsName ∧ ∀ c ∈ t.columns, ∀ k, c.reference ≠ some (.literal recordsName k)
  | .removeTable n => n ≠ recordsName
  | .addColumn t c => t ≠ recordsName ∧ ∀ k, c.reference ≠ some (.literal recordsName k)
  | .removeColumn t _ => t ≠ recordsName
  | .changeColumn t _ c => t ≠ recordsName ∧ ∀ k, c.reference ≠ some (.literal recordsName k)
  | .addTableIfNotExists _ => False
  | _ => True

theorem ne_of_getTable {adb : ADB} (h : NoRecordsTable adb) {n : String} {t : ATable}
    (ht : adb.getTable n = some t) : n ≠ recordsName := by
  rintro rfl
  rw [recordsName, h.absent] at ht
  cases ht

theorem refs_of_column {adb : ADB} (h : NoRecordsTable adb) {n c : String} {t : ATable} {x : AColumn}
    (ht : adb.getTable n = some t) (hx : t.column c = some x) :
    ∀ k, x.reference ≠ some (.literal recordsName k) :=
  h.refs n t ht x (colByName_some hx).1

theorem opAvoids_found {old new : ADB} (ho : NoRecordsTable old) (hn : NoRecordsTable new)
    {op : Operation} (h : Found old new op) : OpAvoids op := by
  cases op with
  | addTable t => exact ⟨ne_of_getTable hn h.1, hn.refs _ t h.1⟩
  | removeTable n => obtain ⟨⟨t, ht⟩, -⟩ := h; exact ne_of_getTable ho ht
  | addColumn n c =>
    obtain ⟨s, t, h1, h2, h3, h4⟩ := h
    exact ⟨ne_of_getTable ho h1, refs_of_column hn h2 h4⟩
  | removeColumn n c =>
    obtain ⟨s, t, x, h1, h2, h3, h4⟩ := h
    exact ne_of_getTable ho h1
  | changeColumn n o c =>
    obtain ⟨s, t, h1, h2, h3, h4⟩ := h
    exact ⟨ne_of_getTable ho h1, refs_of_column hn h2 h4⟩
  | addTableIfNotExists t => exact h.elim
  | removeTableConstraints t => trivial
  | addTableConstraints t => trivial

theorem columns_replace {t : ATable} {P : AColumn → Prop} (h : ∀ c ∈ t.columns, P c) {c : AColumn}
    (hc : P c) : ∀ x ∈ (t.replaceColumn c).columns, P x := by
  intro x hx
  rcases names_replaceCol_mem hx with rfl | hx
  · exact hc
  · exact h x hx

theorem columns_remove {t : ATable} {P : AColumn → Prop} (h : ∀ c ∈ t.columns, P c) (n : String) :
    ∀ x ∈ (t.removeColumn n).columns, P x :=
  fun x hx => h x (List.mem_filter.1 hx).1

theorem noRecords_transform {cur : ADB} (hv : cur.tables.Sorted) (h : NoRecordsTable cur) {op : Operation}
    (hop : OpAvoids op) : NoRecordsTable (cur.transformWith op) := by
  have habs := h.absent
  have hrefs := h.refs
  simp only [ADB.getTable] at habs hrefs
  constructor
  · simp only [ADB.getTable]
    cases op with
    | addTable a =>
      simp only [ADB.transformWith, SMap.lookup_insert]
      rw [if_neg (show ¬ "butane_migrations" = a.name from Ne.symm hop.1)]; exact habs
    | addTableIfNotExists a => exact hop.elim
    | addTableConstraints a => exact habs
    | removeTableConstraints a => exact habs
    | removeTable a =>
      simp only [ADB.transformWith, ADB.removeTable, SMap.lookup_erase hv, habs]; simp
    | addColumn a c => simp only [ADB.transformWith, SMap.lookup_modify, habs]; simp
    | removeColumn a c => simp only [ADB.transformWith, SMap.lookup_modify, habs]; simp
    | changeColumn a o c => simp only [ADB.transformWith, SMap.lookup_modify, habs]; simp
  · intro n t ht
    simp only [ADB.getTable] at ht
    cases op with
    | addTable a =>
      simp only [ADB.transformWith, SMap.lookup_insert] at ht
      split at ht
      · cases ht; exact hop.2
      · exact hrefs n t ht
    | addTableIfNotExists a => exact hop.elim
    | addTableConstraints a => exact hrefs n t ht
    | removeTableConstraints a => exact hrefs n t ht
    | removeTable a =>
      simp only [ADB.transformWith, ADB.removeTable, SMap.lookup_erase hv] at ht
      split at ht
      · cases ht
      · exact hrefs n t ht
    | addColumn a c =>
      simp only [ADB.transformWith, SMap.lookup_modify] at ht
      split at ht
      · obtain ⟨u, hu, rfl⟩ := Option.map_eq_some_iff.1 ht
        exact columns_replace (hrefs _ u hu) hop.2
      · exact hrefs n t ht
    | removeColumn a c =>
      simp only [ADB.transformWith, SMap.lookup_modify] at ht
      split at ht
      · obtain ⟨u, hu, rfl⟩ := Option.map_eq_some_iff.1 ht
        exact columns_remove (hrefs _ u hu) c
      · exact hrefs n t ht
    | changeColumn a o c =>
      simp only [ADB.transformWith, SMap.lookup_modify] at ht
      split at ht
      · obtain ⟨u, hu, rfl⟩ := Option.map_eq_some_iff.1 ht
        exact columns_replace (hrefs _ u hu) hop.2
      · exact hrefs n t ht

theorem tmpName_ne (n : String) : SqliteDdl.tmpName n ≠ recordsName := by
  intro h
  have := congrArg (fun s => (String.toList s).reverse.head?) h
  simp [SqliteDdl.tmpName, recordsName, String.toList_append] at this

theorem refsOf_avoid {t : ATable} (h : ∀ c ∈ t.columns, ∀ k, c.reference ≠ some (.literal recordsName k)) :
    ∀ fk ∈ refsOf t, fk.table ≠ recordsName := by
  intro fk hfk he
  obtain ⟨c, hc, hr⟩ := List.mem_filterMap.1 hfk
  unfold refOf at hr
  split at hr
  · rename_i t k hk
    cases hr
    simp only at he
    subst he
    exact h c hc k hk
  · cases hr

theorem changeOf_avoid {old changed : ATable} (hn : old.name ≠ recordsName)
    (h : ∀ c ∈ changed.columns, ∀ k, c.reference ≠ some (.literal recordsName k)) :
    ∀ s ∈ changeOf old changed, Avoids recordsName s := by
  intro s hs
  simp only [changeOf, List.mem_cons, List.not_mem_nil, or_false] at hs
  rcases hs with rfl | rfl | rfl | rfl
  · exact ⟨tmpName_ne _, refsOf_avoid h⟩
  · exact ⟨tmpName_ne _, hn⟩
  · exact hn
  · exact ⟨tmpName_ne _, hn⟩

theorem stmtsOf_avoid {cur : ADB} (hv : ValidSchema cur) (h : NoRecordsTable cur) {op : Operation}
    (hop : OpAvoids op) : ∀ s ∈ stmtsOf p cur op, Avoids recordsName s := by
  have hname : ∀ {n : String} {t : ATable}, cur.getTable n = some t → t.name ≠ recordsName := by
    intro n t ht
    rw [name_of_getTable hv ht]
    exact ne_of_getTable h ht
  intro s hs
  cases op with
  | addTable t =>
    simp only [stmtsOf, List.mem_singleton] at hs
    subst hs
    exact ⟨hop.1, refsOf_avoid hop.2⟩
  | addTableIfNotExists t => exact hop.elim
  | addTableConstraints a => cases hs
  | removeTableConstraints a => cases hs
  | removeTable n =>
    simp only [stmtsOf, List.mem_singleton] at hs
    subst hs
    exact hop
  | addColumn n c =>
    simp only [stmtsOf] at hs
    split at hs
    · rw [List.mem_singleton] at hs
      subst hs
      exact hop.1
    · cases hs
  | removeColumn n c =>
    simp only [stmtsOf] at hs
    split at hs
    · rename_i t ht
      split at hs
      · split at hs
        · exact changeOf_avoid (hname ht) (columns_remove (h.refs _ t ht) _) s hs
        · rw [List.mem_singleton] at hs
          subst hs
          exact hop
      · cases hs
    · cases hs
  | changeColumn n o c =>
    simp only [stmtsOf] at hs
    split at hs
    · rename_i t ht
      exact changeOf_avoid (hname ht) (columns_replace (h.refs _ t ht) hop.2) s hs
    · cases hs

theorem allStmts_avoid {ops : List Operation} (hops : ∀ op ∈ ops, OpAvoids op) (hok : ∀ op ∈ ops, opOk op)
    {cur : ADB} (hv : ValidSchema cur) (h : NoRecordsTable cur) :
    ∀ s ∈ allStmts p cur ops, Avoids recordsName s := by
  induction ops generalizing cur with
  | nil => intro s hs; cases hs
  | cons op ops ih =>
    intro s hs
    rcases List.mem_append.1 hs with hs | hs
    · exact stmtsOf_avoid hv h (hops op (List.mem_cons_self ..)) s hs
    · exact ih (fun o ho => hops o (List.mem_cons_of_mem _ ho)) (fun o ho => hok o (List.mem_cons_of_mem _ ho))
        (valid_transformWith hv op (hok op (List.mem_cons_self ..)))
        (noRecords_transform hv.sorted h (hops op (List.mem_cons_self ..))) s hs

theorem diff_avoid {old new : ADB} (ho : SqliteSchema old) (hn : SqliteSchema new) :
    ∀ s ∈ allStmts p old (diff old new), Avoids recordsName s :=
  allStmts_avoid (fun _ hop => opAvoids_found ho.own hn.own (diff_found ho.valid hn.valid hop))
    (fun _ hop => diff_opOk hn.valid hop) ho.valid ho.own

/-! ### Reading the SQL of a migration -/

theorem records_plain : PlainTable migrationsTable where
  name := ⟨'b', "utane_migrations".toList, rfl, rfl, rfl⟩
  columns c hc := by
    rw [List.mem_singleton.1 (show c ∈ [_] from hc)]
    exact ⟨⟨'n', "ame".toList, rfl, rfl, rfl⟩, ⟨.text, .text, rfl, rfl⟩, (fun h => by cases h), fun r h => by cases h⟩

theorem allStmts_app {cur : ADB} (a b : List Operation) :
    allStmts p cur (a ++ b) = allStmts p cur a ++ allStmts p (cur.transformAll a) b := by
  induction a generalizing cur with
  | nil => rfl
  | cons op a ih =>
    simp only [List.cons_append, allStmts, ih, List.append_assoc]
    rfl

/-- The changes of a migration: those found by comparison, and possibly the table of records. -/
def withRecords (first : Bool) (ops : List Operation) : List Operation :=
  if first then ops ++ [.addTableIfNotExists migrationsTable] else ops

/-- What comes after the statements of the changes. -/
def recordsStmts (first : Bool) : List DStmt := if first then [createOf true migrationsTable] else []

theorem allStmts_withRecords {cur : ADB} (first : Bool) (ops : List Operation) :
    allStmts p cur (withRecords first ops) = allStmts p cur ops ++ recordsStmts first := by
  cases first
  · simp [withRecords, recordsStmts]
  · simp only [withRecords, recordsStmts, if_true, allStmts_app]
    rfl

theorem opTexts_withRecords {cur : ADB} (hv : ValidSchema cur) {first : Bool} {ops : List Operation}
    (hok : ∀ op ∈ ops, opOk op) {ts : List Text}
    (h : SqliteDdl.opTexts kw p cur (withRecords first ops) = .ok ts) :
    ∃ ts', SqliteDdl.opTexts kw p cur ops = .ok ts' := by
  cases first
  · exact ⟨ts, h⟩
  · simp only [withRecords, if_true] at h
    induction ops generalizing cur ts with
    | nil => exact ⟨[], rfl⟩
    | cons op ops ih =>
      simp only [List.cons_append, SqliteDdl.opTexts] at h
      obtain ⟨⟨t, cur'⟩, h1, h⟩ := bind_ok h
      obtain ⟨ts', h2, h⟩ := bind_ok h
      rw [opTexts_step hv h1] at h2
      obtain ⟨ts'', h3⟩ := ih (valid_transformWith hv op (hok op (List.mem_cons_self ..)))
        (fun o ho => hok o (List.mem_cons_of_mem _ ho)) h2
      refine ⟨t :: ts'', ?_⟩
      simp only [SqliteDdl.opTexts, h1, Gen.bind, opTexts_step hv h1, h3]

theorem text_newline {cur : ADB} {ops : List Operation} {text : Text}
    (h : SqliteDdl.migrationSql kw p cur ops = .ok text) : text.getLast? = some '\n' := by
  simp only [SqliteDdl.migrationSql] at h
  obtain ⟨ts, h1, h⟩ := bind_ok h
  cases h
  simp [lit]

/-- The file with the SQL of a migration holds the generated text. -/
theorem sqlite_file {cur : ADB} {ops : List Operation} {sql file : String}
    (h : (sqliteBackend kw p).sql cur ops = .ok sql) (hf : FileText sql file) :
    SqliteDdl.migrationSql kw p cur ops = .ok file.toList := by
  simp only [sqliteBackend] at h
  split at h
  · rename_i t ht
    cases h
    have := text_newline ht
    rcases hf with ⟨-, rfl⟩ | ⟨c, h1, h2, -⟩
    · rw [ht, String.toList_ofList]
    · rw [String.toList_ofList, this] at h1
      cases h1
      exact absurd rfl h2
  · cases h
  · cases h

/-- A change of schema that butane can describe to SQLite. -/
structure Transition (env : SqliteEnv) (p : LitPrinters) (old new : ADB) : Prop where
  src : SqliteSchema old
  dst : SqliteSchema new
  add : Addable env p old new

theorem step_plain {old new : ADB} (h : Transition env p old new) (first : Bool) :
    ∀ op ∈ withRecords first (diff old new), PlainOp env p op := by
  have hd : ∀ op ∈ diff old new, PlainOp env p op := fun op hop =>
    plainOp_found h.src.valid h.src.plain h.dst.plain h.add (diff_found h.src.valid h.dst.valid hop)
  intro op hop
  cases first
  · exact hd op hop
  · rcases List.mem_append.1 hop with hop | hop
    · exact hd op hop
    · rw [List.mem_singleton] at hop
      subst hop
      exact records_plain

theorem step_ok {old new : ADB} (h : Transition env p old new) (first : Bool) :
    ∀ op ∈ withRecords first (diff old new), opOk op := by
  intro op hop
  cases first
  · exact diff_opOk h.dst.valid hop
  · rcases List.mem_append.1 hop with hop | hop
    · exact diff_opOk h.dst.valid hop
    · rw [List.mem_singleton] at hop
      subst hop
      exact (by decide : (migrationsTable.columns.map (·.name)).Nodup)

theorem sqlite_text (hk : CoversDdl kw res) (hf : TypesFree res) {old new : ADB} (h : Transition env p old new)
    {first : Bool} {text : Text}
    (ht : SqliteDdl.migrationSql kw p old (withRecords first (diff old new)) = .ok text) :
    (∃ ts, SqliteDdl.opTexts kw p old (diff old new) = .ok ts) ∧
    (Ddl.parse true res text = some (allStmts p old (diff old new) ++ recordsStmts first) ∨
      Ddl.parse true res text = none) := by
  constructor
  · simp only [SqliteDdl.migrationSql] at ht
    obtain ⟨ts, h1, -⟩ := bind_ok ht
    exact opTexts_withRecords h.src.valid (fun op hop => diff_opOk h.dst.valid hop) h1
  · rw [← allStmts_withRecords]
    exact migrationSql_parse hk hf (step_plain h first) (step_ok h first) h.src.valid h.src.plain ht

/-! ### What the SQL of a migration does -/

theorem otherTables_of {u : SDb} (h : u.lookup recordsName = none) : otherTables u = u := by
  unfold otherTables
  rw [List.filter_eq_self]
  intro e he
  exact decide_eq_true ((SMap.lookup_eq_none_iff _ _).1 h e he)

theorem hasSchema_without {adb : ADB} {u : SDb} (ha : NoRecordsTable adb) (h : HasSchema env adb u) :
    Without recordsName u := by
  refine ⟨h.proper.sorted, ?_, fun n x hx fk hfk => ?_⟩
  · have := h.tables "butane_migrations"
    rw [ha.absent] at this
    cases hl : u.lookup recordsName with
    | none => rfl
    | some x => rw [recordsName] at hl; rw [hl] at this; exact this.elim
  · have := h.tables n
    rw [hx] at this
    obtain ⟨t, ht, hti⟩ := Both.some_right this
    obtain ⟨c, hc, hr⟩ := (hti.refs fk).1 hfk
    intro he
    rw [he] at hr
    exact refs_of_column ha ht hc _ hr

theorem rows_records (names : List String) :
    (recordsTable names).rows.filterMap recordedName = names := by
  simp only [recordsTable, List.filterMap_map]
  induction names with
  | nil => rfl
  | cons n names ih =>
    rw [List.filterMap_cons]
    simp only [Function.comp, recordedName] at ih ⊢
    rw [ih]

theorem filter_lookup {V : Type} (m : SMap String V) (N : String) :
    SMap.lookup (m.filter fun e => decide (e.1 ≠ N)) N = none := by
  rw [SMap.lookup_eq_none_iff]
  intro e he
  exact of_decide_eq_true (List.mem_filter.1 he).2

theorem splitDb_whole_log (db : MigDb SDb) : (splitDb (wholeDb db)).log = db.log := by
  unfold splitDb wholeDb
  cases hl : db.log with
  | none =>
    simp only
    rw [otherTables, filter_lookup]
    rfl
  | some names =>
    simp only [SMap.lookup_insert, if_true, Option.map_some, rows_records]

theorem otherTables_insert {u : SDb} (h : Without recordsName u) (t : STable) :
    otherTables (u.insert recordsName t) = u := by
  refine SMap.ext (List.Pairwise.filter _ (SMap.sorted_insert h.sorted _ _)) h.sorted fun k => ?_
  by_cases hk : k = recordsName
  · subst hk
    rw [otherTables, filter_lookup, h.absent]
  · have hlk : ∀ (m : SDb), SMap.lookup (otherTables m) k = SMap.lookup m k := by
      intro m
      induction m with
      | nil => rfl
      | cons e m ih =>
        obtain ⟨n, x⟩ := e
        by_cases hn : n = recordsName
        · subst hn
          have : otherTables ((recordsName, x) :: m) = otherTables m := by
            simp [otherTables]
          rw [this, ih]
          simp [SMap.lookup, SMap.cmp_eq_iff, hk]
        · have : otherTables ((n, x) :: m) = (n, x) :: otherTables m := by
            simp [otherTables, hn]
          rw [this]
          simp only [SMap.lookup, ih]
    rw [hlk, h.lookup hk]

/-- The two parts of a database without the table, and with it. -/
theorem wholeDb_of {u : SDb} (h : Without recordsName u) (log : Option (List String)) :
    wholeDb ⟨u, log⟩ = match log with
      | none => u
      | some names => u.insert recordsName (recordsTable names) := by
  cases log with
  | none => exact otherTables_of h.absent
  | some names => simp only [wholeDb, otherTables_of h.absent]

theorem recorded_split (d : SDb) (n : String) :
    Recorded (splitDb d) n ↔ ∃ rows, (d.lookup recordsName).map (·.rows) = some rows ∧ n ∈ rows.filterMap recordedName := by
  unfold Recorded splitDb
  cases d.lookup recordsName with
  | none => simp
  | some t => simp

theorem execAll_append_iff {a b : List DStmt} {d d' : SDb} :
    execAll env d (a ++ b) = some d' ↔ ∃ d1, execAll env d a = some d1 ∧ execAll env d1 b = some d' := by
  induction a generalizing d with
  | nil => simp [execAll]
  | cons s a ih =>
    simp only [List.cons_append, execAll]
    cases exec env d s with
    | none => simp
    | some d1 => exact ih

/-- Creating the table of records, if it is not there. -/
theorem exec_records (d : SDb) : ∃ d', exec env d (createOf true migrationsTable) = some d' ∧
    (d' = d ∧ (∃ t, d.lookup recordsName = some t) ∨
      d.lookup recordsName = none ∧ d' = d.insert recordsName (recordsTable [])) := by
  have hc : createOf true migrationsTable =
      .createTable true recordsName (recordsTable []).cols [] true := rfl
  rw [hc]
  simp only [exec]
  cases hl : d.lookup recordsName with
  | some t => exact ⟨d, rfl, .inl ⟨rfl, t, rfl⟩⟩
  | none => exact ⟨_, rfl, .inr ⟨rfl, rfl⟩⟩

theorem recordsStmts_keep {first : Bool} {d d' : SDb} (h : execAll env d (recordsStmts first) = some d') (n : String) :
    Recorded (splitDb d') n ↔ Recorded (splitDb d) n := by
  cases first
  · cases h; exact Iff.rfl
  · simp only [recordsStmts, if_true, execAll] at h
    obtain ⟨d1, h1, h2⟩ := exec_records (env := env) d
    rw [h1] at h
    cases h
    rcases h2 with ⟨rfl, -⟩ | ⟨h2, rfl⟩
    · exact Iff.rfl
    · rw [recorded_split, recorded_split, h2, SMap.lookup_insert, if_pos rfl]
      constructor
      · rintro ⟨rows, h3, h4⟩
        cases h3
        cases h4
      · rintro ⟨rows, h3, -⟩
        cases h3

/-- The SQL of a migration keeps the records. -/
theorem sqlite_keeps (hk : CoversDdl kw res) (hf : TypesFree res) {old new : ADB} (h : Transition env p old new)
    {first : Bool} {file : String}
    (ht : SqliteDdl.migrationSql kw p old (withRecords first (diff old new)) = .ok file.toList)
    {db db1 : MigDb SDb} (hx : sqliteExec env res file db = .ok db1) (n : String) :
    Recorded db1 n ↔ Recorded db n := by
  unfold sqliteExec execScript at hx
  obtain ⟨-, hp | hp⟩ := sqlite_text hk hf h ht
  · rw [hp] at hx
    simp only at hx
    split at hx
    · cases hx
    · rename_i d hd
      cases hx
      obtain ⟨d1, h1, h2⟩ := execAll_append_iff.1 hd
      rw [recordsStmts_keep h2, recorded_split, execAll_keeps (diff_avoid h.src h.dst) h1, ← recorded_split]
      unfold Recorded
      rw [splitDb_whole_log]
  · rw [hp] at hx
    cases hx

/-- What the SQL of a migration does to the user's tables and the records. -/
theorem sqlite_does (hk : CoversDdl kw res) (hf : TypesFree res) (laws : StrictLaws env) (codecs : TextCodecs)
    {old new : ADB} (h : Transition env p old new) {first : Bool} {file : String}
    (ht : SqliteDdl.migrationSql kw p old (withRecords first (diff old new)) = .ok file.toList)
    {db db1 : MigDb SDb} (hs : HasSchema env old db.user) (hx : sqliteExec env res file db = .ok db1) :
    HasSchema env new db1.user ∧ RowsKept env codecs old new db.user db1.user ∧
    execAll env db.user (allStmts p old (diff old new)) = some db1.user ∧
    db1.log = match db.log with
      | some names => some names
      | none => if first then some [] else none := by
  obtain ⟨u, log⟩ := db
  simp only at hs
  have hw := hasSchema_without h.src.own hs
  unfold sqliteExec execScript at hx
  obtain ⟨⟨ts, h1⟩, hp | hp⟩ := sqlite_text hk hf h ht
  case inr =>
    rw [hp] at hx
    cases hx
  rw [hp, wholeDb_of hw] at hx
  simp only at hx
  split at hx
  · cases hx
  rename_i d hd
  cases hx
  obtain ⟨d1, g1, g2⟩ := execAll_append_iff.1 hd
  have hav := diff_avoid (p := p) h.src h.dst
  cases log with
  | some names =>
    simp only at g1
    obtain ⟨e1, e2⟩ := execAll_frame (env := env) hw (t := recordsTable names) rfl hav
    rw [e1] at g1
    obtain ⟨u', hu', rfl⟩ := Option.map_eq_some_iff.1 g1
    have hw' := e2 u' hu'
    obtain ⟨q1, q2, q3⟩ := migration_stmts (codecs := codecs) laws h.src.valid h.dst.valid h.src.plain h.dst.plain
      h.add h1 hs.tables hs.proper hu'
    have hd : d = u'.insert recordsName (recordsTable names) := by
      cases first
      · exact (Option.some.inj g2).symm
      · simp only [recordsStmts, if_true, execAll] at g2
        obtain ⟨d2, k1, k2⟩ := exec_records (env := env) (u'.insert recordsName (recordsTable names))
        rw [k1] at g2
        cases g2
        rcases k2 with ⟨rfl, -⟩ | ⟨k2, -⟩
        · rfl
        · rw [SMap.lookup_insert, if_pos rfl] at k2
          cases k2
    subst hd
    have hu : (splitDb (u'.insert recordsName (recordsTable names))).user = u' := otherTables_insert hw' _
    rw [hu]
    refine ⟨⟨q1, q2, execAll_whole hs.whole hu'⟩, q3, hu', ?_⟩
    simp only [splitDb, SMap.lookup_insert, if_true, Option.map_some, rows_records]
  | none =>
    simp only at g1
    obtain ⟨-, e2⟩ := execAll_frame (env := env) hw (t := recordsTable []) rfl hav
    have hw' := e2 d1 g1
    obtain ⟨q1, q2, q3⟩ := migration_stmts (codecs := codecs) laws h.src.valid h.dst.valid h.src.plain h.dst.plain
      h.add h1 hs.tables hs.proper g1
    cases first
    · cases g2
      have hu : (splitDb d).user = d := otherTables_of hw'.absent
      rw [hu]
      refine ⟨⟨q1, q2, execAll_whole hs.whole g1⟩, q3, g1, ?_⟩
      simp only [splitDb, hw'.absent]
      rfl
    · simp only [recordsStmts, if_true, execAll] at g2
      obtain ⟨d2, k1, k2⟩ := exec_records (env := env) d1
      rw [k1] at g2
      cases g2
      rcases k2 with ⟨-, t, k2⟩ | ⟨-, rfl⟩
      · rw [hw'.absent] at k2
        cases k2
      have hu : (splitDb (d1.insert recordsName (recordsTable []))).user = d1 := otherTables_insert hw' _
      rw [hu]
      refine ⟨⟨q1, q2, execAll_whole hs.whole g1⟩, q3, g1, ?_⟩
      simp only [splitDb, SMap.lookup_insert, if_true, Option.map_some, rows_records]

theorem opTexts_last {cur : ADB} {ops : List Operation} {ts : List Text} {r : Text}
    (hr : SqliteDdl.createTable kw migrationsTable true = .ok r)
    (h : SqliteDdl.opTexts kw p cur ops = .ok ts) :
    SqliteDdl.opTexts kw p cur (ops ++ [.addTableIfNotExists migrationsTable]) = .ok (ts ++ [r]) := by
  induction ops generalizing cur ts with
  | nil =>
    cases h
    simp only [List.nil_append, SqliteDdl.opTexts, SqliteDdl.sqlForOp, hr, Gen.bind]
  | cons op ops ih =>
    simp only [List.cons_append, SqliteDdl.opTexts] at h ⊢
    obtain ⟨⟨t, cur'⟩, h1, h⟩ := bind_ok h
    obtain ⟨ts', h2, h⟩ := bind_ok h
    cases h
    simp only [h1, Gen.bind, ih h2, List.cons_append]

/-- The SQL of a migration is generated and runs. -/
theorem sqlite_runs (hk : CoversDdl kw res) (hf : TypesFree res) (laws : StrictLaws env) (codecs : TextCodecs)
    {old new : ADB} (h : Transition env p old new) (first : Bool)
    {db : MigDb SDb} (hs : HasSchema env old db.user) (hfe : Feasible old new db.user) :
    ∃ text db1, SqliteDdl.migrationSql kw p old (withRecords first (diff old new)) = .ok text ∧
      sqliteExec env res (String.ofList text) db = .ok db1 := by
  obtain ⟨u, log⟩ := db
  simp only at hs hfe
  have hw := hasSchema_without h.src.own hs
  obtain ⟨ts, sss, u', h1, h2, h3, h4⟩ := migration_stmts_run (kw := kw) (res := res) hk hf laws codecs
    h.src.valid h.dst.valid h.src.plain h.dst.plain h.add hfe hs.tables hs.proper
  obtain ⟨ts', sss', g1, g2, g3⟩ : ∃ ts' sss', SqliteDdl.opTexts kw p old (withRecords first (diff old new)) = .ok ts' ∧
      AllMatch (Scripted res true) ts' sss' ∧ sss'.flatten = allStmts p old (diff old new) ++ recordsStmts first := by
    cases first
    · exact ⟨ts, sss, h1, h2, by rw [h3]; simp [recordsStmts]⟩
    · obtain ⟨r, k1, k2⟩ := createTable_scripted (kw := kw) (res := res) hk hf records_plain.name
        records_plain.columns (by decide) true
      exact ⟨ts ++ [r], sss ++ [[createOf true migrationsTable]], opTexts_last k1 h1, h2.append (.cons k2 .nil), by
        rw [List.flatten_append, h3]; simp [recordsStmts]⟩
  obtain ⟨sss'', f1, f2⟩ := scripted_filter g2
  have hscr := (scripted_join f1).append (scripted_newline (res := res) (sq := true))
  rw [List.append_nil, f2, g3] at hscr
  have hav := diff_avoid (p := p) h.src h.dst
  have hd : ∃ d, execAll env (wholeDb ⟨u, log⟩) (allStmts p old (diff old new) ++ recordsStmts first) = some d := by
    have : ∃ d1, execAll env (wholeDb ⟨u, log⟩) (allStmts p old (diff old new)) = some d1 := by
      rw [wholeDb_of hw]
      cases log with
      | none => exact ⟨u', h4⟩
      | some names =>
        simp only
        obtain ⟨e1, -⟩ := execAll_frame (env := env) hw (t := recordsTable names) rfl hav
        rw [e1, h4]
        exact ⟨_, rfl⟩
    obtain ⟨d1, hd1⟩ := this
    cases first
    · exact ⟨d1, execAll_append_iff.2 ⟨d1, hd1, rfl⟩⟩
    · obtain ⟨d2, k1, -⟩ := exec_records (env := env) d1
      exact ⟨d2, execAll_append_iff.2 ⟨d1, hd1, by simp only [recordsStmts, if_true, execAll, k1]⟩⟩
  obtain ⟨d, hd⟩ := hd
  refine ⟨_, splitDb d, by simp only [SqliteDdl.migrationSql, g1, Gen.bind]; rfl, ?_⟩
  simp only [sqliteExec, execScript, String.toList_ofList, hscr.parse, hd]

end Butane.DdlP
