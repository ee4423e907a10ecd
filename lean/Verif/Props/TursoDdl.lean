import Verif.Proofs.TursoRun
import Verif.Props.Ddl
/-
Properties C68 and C69: executing a script on Turso, and migrations on Turso.
-/
namespace Butane.Props
open Butane Butane.Spec Butane.Ddl Butane.DdlP

/-- A Turso database that stores values in columns of their own class. -/
def exTurso (renames : Bool) : TursoEnv := ⟨exStore, renames⟩

/-! ### C68: scripts -/

/-- C68: a script of statements Turso can read, in which no semicolon is between quotes, is
executed statement by statement, in order, until one fails.  Missing: scripts with a semicolon
between quotes, which always fail (below). -/
theorem turso_execute_partial (e : TursoEnv) {res : String → Bool} {text : Text} {ss : List DStmt}
    (h : Ddl.parse true res text = some ss) (hq : semicolonQuoted .outside text = false)
    (db : SDb) : TursoDdl.execute (tursoSend e res) db text = tursoAll e db ss := by
  rw [execute_eq, send_script e (parse_readable h) hq, h]
  rfl

/-- Two statements, with line breaks, spaces and an empty statement between them. -/
example : let text := lit "DROP TABLE T ;\n ;; CREATE TABLE \"a b\" (id INTEGER NOT NULL)\n"
    ∃ ss, Ddl.parse true exDdlRes text = some ss ∧ ss.length = 2 ∧
      semicolonQuoted .outside text = false ∧
      TursoDdl.execute (tursoSend (exTurso false) exDdlRes) [("T", ⟨[], [], []⟩)] text =
        some [("a b", ⟨[⟨"id", ["INTEGER"], [.notNull]⟩], [], []⟩)] :=
  ⟨_, rfl, rfl, by decide, by decide⟩

/-- **C68 fails for a semicolon between quotes**: the script is cut there, and fails whatever the
database is. -/
theorem turso_execute_violated (e : TursoEnv) (res : String → Bool) {text : Text}
    (hq : semicolonQuoted .outside text = true) (db : SDb) :
    TursoDdl.execute (tursoSend e res) db text = none := by
  rw [execute_eq]
  exact send_quoted e hq db

/-- A statement that can be read and that SQLite executes. -/
example : let text := lit "ALTER TABLE T ADD COLUMN a TEXT NOT NULL DEFAULT 'a;b';"
    (∃ ss, Ddl.parse true exDdlRes text = some ss ∧ ss.length = 1) ∧
    semicolonQuoted .outside text = true ∧
    (execScript exStore exDdlRes [("T", ⟨[⟨"id", ["INTEGER"], []⟩], [], [[.integer 1]]⟩)] text).isSome :=
  ⟨⟨_, rfl, rfl⟩, by decide, by decide⟩

/-! ### C69: migrations -/

/-- C69: if the SQL generated for the difference of two schemas is executed on a Turso database
with the old schema and no statement fails, the database has the new schema; every row of a table
of both schemas is kept, with the values of the columns of both, and new columns have their
default.  Missing: schemas with custom types, names that need quoting, and new columns that are
references or have a default that is no plain literal (as for SQLite, C37). -/
theorem turso_migration_partial {e : TursoEnv} {kw res : String → Bool}
    (hk : CoversDdl kw res) (hf : TypesFree res)
    (laws : StrictLaws e.store) (codecs : TextCodecs) {p : LitPrinters} {old new : ADB}
    (ho : ValidSchema old) (hn : ValidSchema new) (po : PlainSchema old) (pn : PlainSchema new)
    (hadd : ∀ n s t c y, old.getTable n = some s → new.getTable n = some t → s.column c = none →
      t.column c = some y → AddableColumn e.store p y)
    {text : Text} (h : TursoDdl.migrationSql kw p old (diff old new) = .ok text)
    {db db' : SDb} (hi : Implements old db) (hp : Proper.Db e.store db)
    (hx : TursoDdl.execute (tursoSend e res) db text = some db') :
    Implements new db' ∧ Proper.Db e.store db' ∧ RowsKept e.store codecs old new db db' := by
  have hplain : ∀ op ∈ diff old new, PlainOp e.store p op :=
    fun op hop => plainOp_found ho po pn hadd (diff_found ho hn hop)
  have hok : ∀ op ∈ diff old new, opOk op := fun op hop => diff_opOk hn hop
  obtain ⟨t', h1, h2, h3, h4⟩ := turso_script hk hf hplain hok ho po h
  rw [execute_eq] at hx
  cases hm : (diff old new).any opMark with
  | true => rw [h2 hm] at hx; cases hx
  | false =>
    cases hs : Ddl.parse true res t' with
    | none => rw [h3 hm hs] at hx; cases hx
    | some ss =>
      obtain ⟨rfl, h5⟩ := h4 hm ss hs
      rw [h5] at hx
      have hx' := tursoAll_some (allStmts_strict _ _ _) hx
      refine migration_exec hk hf laws ho hn po pn hadd h1 hi hp ?_
      simp only [execScript, hs, hx']

/-- C69: the SQL is generated and runs without an error if the change is one SQLite's statements
can make (`Feasible`), no new column has a default text with a semicolon, and either the database
can rename a table in the transaction that created it or no column is changed.  Missing: the other
changes, which fail (below, and C37), and changes of columns in tables with rows, which may. -/
theorem turso_migration_runs_partial {e : TursoEnv} {kw res : String → Bool}
    (hk : CoversDdl kw res) (hf : TypesFree res) (laws : StrictLaws e.store)
    (codecs : TextCodecs) {p : LitPrinters} {old new : ADB}
    (ho : ValidSchema old) (hn : ValidSchema new) (po : PlainSchema old) (pn : PlainSchema new)
    (hadd : ∀ n s t c y, old.getTable n = some s → new.getTable n = some t → s.column c = none →
      t.column c = some y → AddableColumn e.store p y)
    (hsemi : ∀ n s t c y v, old.getTable n = some s → new.getTable n = some t → s.column c = none →
      t.column c = some y → NewValue y (.text v) → ';' ∉ v.toList)
    (hren : e.renames = true ∨ ∀ n s t c x y, old.getTable n = some s → new.getTable n = some t →
      s.column c = some x → t.column c = some y →
      SameColumn x y ∧ ∀ r, x.default = some (.real r) → r.isNaN = false)
    {db : SDb} (hfe : Feasible old new db) (hi : Implements old db) (hp : Proper.Db e.store db) :
    ∃ text db', TursoDdl.migrationSql kw p old (diff old new) = .ok text ∧
      TursoDdl.execute (tursoSend e res) db text = some db' ∧ Implements new db' ∧
      Proper.Db e.store db' ∧ RowsKept e.store codecs old new db db' := by
  obtain ⟨t', db', g1, g2⟩ := migration_runs hk hf laws codecs ho hn po pn hadd hfe hi hp
  have hfound : ∀ op ∈ diff old new, Found old new op := fun op hop => diff_found ho hn hop
  have hplain : ∀ op ∈ diff old new, PlainOp e.store p op :=
    fun op hop => plainOp_found ho po pn hadd (hfound op hop)
  have hok : ∀ op ∈ diff old new, opOk op := fun op hop => diff_opOk hn hop
  have hm : (diff old new).any opMark = false := by
    rw [Bool.eq_false_iff]
    intro hm
    obtain ⟨op, hop, hmark⟩ := List.any_eq_true.1 hm
    have hfo := hfound op hop
    cases op with
    | addColumn n c =>
      obtain ⟨s, t, a1, a2, a3, a4⟩ := hfo
      simp only [opMark] at hmark
      have hpc := (pn _ _ a2).columns c (colByName_some a4).1
      cases hd : columnDefault c with
      | ok v =>
        simp only [hd] at hmark
        cases v with
        | text v =>
          exact hsemi n s t c.name c v a1 a2 a3 a4 ((newValue_iff hpc.type).2 hd) (of_decide_eq_true hmark)
        | _ => cases hmark
      | _ => simp [hd] at hmark
    | _ => cases hmark
  rcases migrationSql_twin (res := res) hk hf hplain hok ho po with ⟨t1, text, f1, f2, -⟩ | ⟨f, -⟩
  case inr => exact absurd g1 (f _)
  obtain ⟨t2, k1, -, -, k4⟩ := turso_script hk hf hplain hok ho po f2
  rw [g1] at k1
  cases k1
  simp only [execScript] at g2
  cases hs : Ddl.parse true res t' with
  | none => simp [hs] at g2
  | some ss =>
    simp only [hs] at g2
    obtain ⟨rfl, k5⟩ := k4 hm ss hs
    have hx : TursoDdl.execute (tursoSend e res) db text = some db' := by
      rw [execute_eq, k5, ← g2]
      rcases hren with he | hch
      · exact tursoAll_renames he (allStmts_strict _ _ _) db
      · exact tursoAll_same (allStmts_strict _ _ _) (no_rename ho hn p hch fun n s t c x a1 a2 a3 a4 =>
          (hfe.removed n s t c x a1 a2 a3 a4).2.2.1) db
    exact ⟨text, db', f2, hx,
      turso_migration_partial hk hf laws codecs ho hn po pn hadd f2 hi hp hx⟩

/-- The example of C37 on Turso: the database it ends with has the kept rows. -/
example : ∃ text db', TursoDdl.migrationSql exDdlKw exPrinters exFrom (diff exFrom exTo) = .ok text ∧
    TursoDdl.execute (tursoSend (exTurso true) exDdlRes) (withRows exFrom exRows) text = some db' ∧
    Implements exTo db' ∧ Proper.Db exStore db' ∧
    RowsKept exStore exCodecs exFrom exTo (withRows exFrom exRows) db' :=
  turso_migration_runs_partial (e := exTurso true) exDdl_covers exDdl_free exStore_laws exCodecs
    exFrom_valid exTo_valid exFrom_plain exTo_plain exTo_addable (by
      intro n s t c y v hs ht hc hy hv
      obtain ⟨hm, rfl⟩ := colByName_some hy
      rcases exTables hs ht with ⟨rfl, rfl, rfl⟩ | ⟨rfl, rfl, rfl⟩
      · simp only [List.mem_cons, List.not_mem_nil, or_false] at hm
        rcases hm with rfl | rfl | rfl
        · cases hc
        · cases hc
        · cases hv with
          | default h => cases h
          | text _ _ h => cases h
      · simp only [List.mem_cons, List.not_mem_nil, or_false] at hm
        subst hm
        cases hc) (.inl rfl) exTo_feasible exFromDb_implements exFromDb_proper
set_option maxRecDepth 20000 in
example : ∃ text, TursoDdl.migrationSql exDdlKw exPrinters exFrom (diff exFrom exTo) = .ok text ∧
    TursoDdl.execute (tursoSend (exTurso true) exDdlRes) (withRows exFrom exRows) text =
      some exToDb := ⟨_, rfl, by decide⟩

/-- **C69 fails for new columns whose default text has a semicolon**: every such migration fails. -/
theorem turso_semicolon_violated {env : SqliteEnv} {kw res : String → Bool}
    (hk : CoversDdl kw res) (hf : TypesFree res) {p : LitPrinters} {old new : ADB}
    (ho : ValidSchema old) (hn : ValidSchema new) (po : PlainSchema old) (pn : PlainSchema new)
    (hadd : ∀ n s t c y, old.getTable n = some s → new.getTable n = some t → s.column c = none →
      t.column c = some y → AddableColumn env p y)
    {n c v : String} {s t : ATable} {y : AColumn} (hs : old.getTable n = some s)
    (ht : new.getTable n = some t) (hc : s.column c = none) (hy : t.column c = some y)
    (hv : NewValue y (.text v)) (hsemi : ';' ∈ v.toList) {text : Text}
    (h : TursoDdl.migrationSql kw p old (diff old new) = .ok text) (e : TursoEnv) (db : SDb) :
    TursoDdl.execute (tursoSend e res) db text = none := by
  have hplain : ∀ op ∈ diff old new, PlainOp env p op :=
    fun op hop => plainOp_found ho po pn hadd (diff_found ho hn hop)
  have hok : ∀ op ∈ diff old new, opOk op := fun op hop => diff_opOk hn hop
  obtain ⟨-, -, h2, -⟩ := turso_script hk hf hplain hok ho po h
  rw [execute_eq]
  refine h2 (List.any_eq_true.2 ⟨_, diff_added ho hn hs ht hc hy, ?_⟩) e db
  have hpc := (pn _ _ ht).columns y (colByName_some hy).1
  simp only [opMark, (newValue_iff hpc.type).1 hv, litMark, hsemi, decide_true]

/-- SQLite makes this change. -/
example : let old := exOne [exKeyCol]
    let new := exOne [exKeyCol, { exCol "a" .text false with default := some (.text "a;b") }]
    ∃ text text', SqliteDdl.migrationSql exDdlKw exPrinters old (diff old new) = .ok text ∧
      TursoDdl.migrationSql exDdlKw exPrinters old (diff old new) = .ok text' ∧
      (execScript exStore exDdlRes (withRows old exNoRows) text).isSome = true ∧
      TursoDdl.execute (tursoSend (exTurso true) exDdlRes) (withRows old exNoRows) text' = none :=
  ⟨_, _, rfl, rfl, by decide, by decide⟩

/-- **C69 fails for changed columns** where a table cannot be renamed in the transaction that
created it, as the code says of Turso: every such migration fails. -/
theorem turso_change_violated {env : SqliteEnv} {kw res : String → Bool}
    (hk : CoversDdl kw res) (hf : TypesFree res) {p : LitPrinters} {old new : ADB}
    (ho : ValidSchema old) (hn : ValidSchema new) (po : PlainSchema old) (pn : PlainSchema new)
    (hadd : ∀ n s t c y, old.getTable n = some s → new.getTable n = some t → s.column c = none →
      t.column c = some y → AddableColumn env p y)
    {n c : String} {s t : ATable} {x y : AColumn} (hs : old.getTable n = some s)
    (ht : new.getTable n = some t) (hx : s.column c = some x) (hy : t.column c = some y)
    (hd : ¬ SameColumn x y) {text : Text}
    (h : TursoDdl.migrationSql kw p old (diff old new) = .ok text) {e : TursoEnv}
    (he : e.renames = false) (db : SDb) :
    TursoDdl.execute (tursoSend e res) db text = none := by
  have hplain : ∀ op ∈ diff old new, PlainOp env p op :=
    fun op hop => plainOp_found ho po pn hadd (diff_found ho hn hop)
  have hok : ∀ op ∈ diff old new, opOk op := fun op hop => diff_opOk hn hop
  obtain ⟨t', -, h2, h3, h4⟩ := turso_script hk hf hplain hok ho po h
  rw [execute_eq]
  cases hm : (diff old new).any opMark with
  | true => exact h2 hm e db
  | false =>
    cases hp : Ddl.parse true res t' with
    | none => exact h3 hm hp e db
    | some ss =>
      obtain ⟨rfl, h5⟩ := h4 hm ss hp
      obtain ⟨a, b, hab⟩ := changed_rename ho hn hs ht hx hy hd p
      rw [h5]
      exact tursoAll_rename he hab db

set_option maxRecDepth 20000 in
/-- The example of C37 changes a column. -/
example : ∃ text, TursoDdl.migrationSql exDdlKw exPrinters exFrom (diff exFrom exTo) = .ok text ∧
    TursoDdl.execute (tursoSend (exTurso false) exDdlRes) (withRows exFrom exRows) text = none :=
  ⟨_, rfl, by decide⟩
example : ∃ s t x y, exFrom.getTable "Tag" = some s ∧ exTo.getTable "Tag" = some t ∧
    s.column "tag" = some x ∧ t.column "tag" = some y ∧ ¬ SameColumn x y :=
  ⟨_, _, _, _, rfl, rfl, rfl, rfl, fun h => by cases h.nullable⟩

end Butane.Props
