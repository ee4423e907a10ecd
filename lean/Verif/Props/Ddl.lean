import Verif.Proofs.DdlCheck
import Verif.Props.Convert
/-
Properties C37 and C39: the SQL of migrations on SQLite, and literals.
-/
namespace Butane.Props
open Butane Butane.Spec Butane.Ddl Butane.DdlP

/-! ### A concrete database -/

/-- A column with only a name, a type and nullability. -/
def exCol (n : String) (ty : SqlType) (nullable : Bool) : AColumn :=
  ⟨n, .known ty, nullable, false, false, false, none, none⟩

def exKeyCol : AColumn := ⟨"id", .known .bigInt, false, true, true, false, none, none⟩

/-- Values are stored only in columns of their own class. -/
def exStore : SqliteEnv where
  coerce st v :=
    match st, v with
    | _, .null => some .null
    | .integer, .integer i => some (.integer i)
    | .real, .real r => some (.real r)
    | .text, .text t => some (.text t)
    | .blob, .blob b => some (.blob b)
    | _, _ => none
  readReal _ := ⟨0⟩

theorem exStore_laws : StrictLaws exStore where
  null st := by cases st <;> rfl
  integer _ := rfl
  text _ := rfl
  blob _ := rfl
  stable st v w h := by cases st <;> cases v <;> cases h <;> rfl

def exDdlKw (w : String) : Bool := decide (Sql.upper w.toList ∈ grammarWords)
def exDdlRes (_ : String) : Bool := false

theorem exDdl_covers : CoversDdl exDdlKw exDdlRes := by
  intro w h
  rcases h with h | h
  · exact decide_eq_true h
  · cases h
theorem exDdl_free : TypesFree exDdlRes := fun _ _ => rfl

def exPrinters : LitPrinters where
  real _ := lit "0.0"
  json j := j.toList
  date _ := lit "0001-01-01"
  timestampT _ := lit "1970-01-01T00:00:00"

/-- Posts with a flag, and tags. -/
def exFrom : ADB := ⟨[
  ("Post", ⟨"Post", [exKeyCol, exCol "title" .text false, exCol "draft" .bool true]⟩),
  ("Tag", ⟨"Tag", [exCol "tag" .text false]⟩)], []⟩
/-- Blogs that posts can be counted by, posts with a number of views, tags that may be missing. -/
def exTo : ADB := ⟨[
  ("Blog", ⟨"Blog", [exKeyCol,
    ⟨"first", .knownId (.ty .bigInt), true, false, false, false, none, some (.literal "Post" "id")⟩]⟩),
  ("Post", ⟨"Post", [exKeyCol, exCol "title" .text false, exCol "views" .int false]⟩),
  ("Tag", ⟨"Tag", [exCol "tag" .text true]⟩)], []⟩

def exRows : String → List (List SqliteVal)
  | "Post" => [[.integer 1, .text "one", .integer 0], [.integer 2, .text "two", .null]]
  | _ => []

def exToDb : SDb := [
  ("Blog", ⟨[⟨"id", ["INTEGER"], [.notNull, .primaryKey]⟩, ⟨"first", ["INTEGER"], []⟩],
    [⟨"first", "Post", "id"⟩], []⟩),
  ("Post", ⟨[⟨"id", ["INTEGER"], [.notNull, .primaryKey]⟩, ⟨"title", ["TEXT"], [.notNull]⟩,
    ⟨"views", ["INTEGER"], [.notNull, .default (.num false ['0'])]⟩], [],
    [[.integer 1, .text "one", .integer 0], [.integer 2, .text "two", .integer 0]]⟩),
  ("Tag", ⟨[⟨"tag", ["TEXT"], []⟩], [], []⟩)]

theorem exFrom_valid : ValidSchema exFrom := validSchema_of (by decide)
theorem exTo_valid : ValidSchema exTo := validSchema_of (by decide)
theorem exFrom_plain : PlainSchema exFrom := plainSchema_of (by decide)
theorem exTo_plain : PlainSchema exTo := plainSchema_of (by decide)
theorem exFromDb_implements : Implements exFrom (withRows exFrom exRows) :=
  withRows_implements exFrom_valid exFrom_plain _
theorem exFromDb_proper : Proper.Db exStore (withRows exFrom exRows) :=
  withRows_proper exFrom_valid (by decide)

theorem exTables {n : String} {s t : ATable} (hs : exFrom.getTable n = some s)
    (ht : exTo.getTable n = some t) :
    (n = "Post" ∧ s = ⟨"Post", [exKeyCol, exCol "title" .text false, exCol "draft" .bool true]⟩ ∧
      t = ⟨"Post", [exKeyCol, exCol "title" .text false, exCol "views" .int false]⟩) ∨
    (n = "Tag" ∧ s = ⟨"Tag", [exCol "tag" .text false]⟩ ∧ t = ⟨"Tag", [exCol "tag" .text true]⟩) := by
  have h1 := SMap.mem_of_lookup hs
  have h2 := SMap.mem_of_lookup ht
  simp only [exFrom, exTo, List.mem_cons, Prod.mk.injEq, List.not_mem_nil, or_false] at h1 h2
  rcases h1 with ⟨rfl, rfl⟩ | ⟨rfl, rfl⟩ <;> simpa using h2

theorem exTo_addable : ∀ n s t c y, exFrom.getTable n = some s → exTo.getTable n = some t →
    s.column c = none → t.column c = some y → AddableColumn exStore exPrinters y := by
  intro n s t c y hs ht hc hy
  obtain ⟨hm, rfl⟩ := colByName_some hy
  rcases exTables hs ht with ⟨rfl, rfl, rfl⟩ | ⟨rfl, rfl, rfl⟩
  · simp only [List.mem_cons, List.not_mem_nil, or_false] at hm
    rcases hm with rfl | rfl | rfl
    · cases hc
    · cases hc
    · refine ⟨rfl, fun v st hv hst => ?_⟩
      obtain ⟨ty, h1, h2⟩ := hst
      cases h1
      cases h2
      cases hv <;> first | rfl | (rename_i h; cases h) | skip
      all_goals (rename_i h1 h2; first | cases h1 | cases h2)
  · simp only [List.mem_cons, List.not_mem_nil, or_false] at hm
    subst hm
    cases hc

theorem exTo_feasible : Feasible exFrom exTo (withRows exFrom exRows) where
  created n t h1 h2 := by
    have := SMap.mem_of_lookup h2
    simp only [exTo, List.mem_cons, Prod.mk.injEq, List.not_mem_nil, or_false] at this
    rcases this with ⟨rfl, rfl⟩ | ⟨rfl, rfl⟩ | ⟨rfl, rfl⟩
    · refine ⟨by simp, ?_⟩
      unfold OneKey
      decide
    · cases h1
    · cases h1
  dropped n t h1 h2 := by
    have := SMap.mem_of_lookup h1
    simp only [exFrom, List.mem_cons, Prod.mk.injEq, List.not_mem_nil, or_false] at this
    rcases this with ⟨rfl, rfl⟩ | ⟨rfl, rfl⟩ <;> cases h2
  added n s t c y hs ht hc hy := by
    obtain ⟨hm, rfl⟩ := colByName_some hy
    rcases exTables hs ht with ⟨rfl, rfl, rfl⟩ | ⟨rfl, rfl, rfl⟩
    · simp only [List.mem_cons, List.not_mem_nil, or_false] at hm
      rcases hm with rfl | rfl | rfl
      · cases hc
      · cases hc
      · refine ⟨rfl, rfl, fun _ h => ?_⟩
        cases h <;> (rename_i h; cases h)
    · simp only [List.mem_cons, List.not_mem_nil, or_false] at hm
      subst hm
      cases hc
  removed n s t c x hs ht hx hc := by
    obtain ⟨hm, rfl⟩ := colByName_some hx
    rcases exTables hs ht with ⟨rfl, rfl, rfl⟩ | ⟨rfl, rfl, rfl⟩
    · simp only [List.mem_cons, List.not_mem_nil, or_false] at hm
      rcases hm with rfl | rfl | rfl
      · cases hc
      · cases hc
      · exact ⟨rfl, rfl, rfl, "id", _, _, rfl, rfl⟩
    · simp only [List.mem_cons, List.not_mem_nil, or_false] at hm
      subst hm
      cases hc
  changed n s t c x y hs ht hx hy := by
    obtain ⟨hm, rfl⟩ := colByName_some hx
    rcases exTables hs ht with ⟨rfl, rfl, rfl⟩ | ⟨rfl, rfl, rfl⟩
    · left
      simp only [List.mem_cons, List.not_mem_nil, or_false] at hm
      rcases hm with rfl | rfl | rfl <;> cases hy
      · exact ⟨SameColumn.refl _, fun r h => by cases h⟩
      · exact ⟨SameColumn.refl _, fun r h => by cases h⟩
    · right
      simp only [List.mem_cons, List.not_mem_nil, or_false] at hm
      subst hm
      cases hy
      refine ⟨rfl, ?_, ?_, rfl, rfl⟩
      · unfold OneKey
        decide
      · intro u hu
        cases hu
        rfl

/-! ### C37: what a migration does on SQLite -/

/-- C37: if the SQL generated for the difference of two schemas is executed on a database with
the old schema and no statement fails, the database has the new schema; every row of a table of
both schemas is kept, with the values of the columns of both, and new columns have their default.
Missing: schemas with custom types, names that need quoting, and new columns that are references
or have a default that is no plain literal (see the violations below). -/
theorem sqlite_migration_partial {env : SqliteEnv} {kw res : String → Bool}
    (hk : CoversDdl kw res) (hf : TypesFree res)
    (laws : StrictLaws env) (codecs : TextCodecs) {p : LitPrinters} {old new : ADB}
    (ho : ValidSchema old) (hn : ValidSchema new) (po : PlainSchema old) (pn : PlainSchema new)
    (hadd : ∀ n s t c y, old.getTable n = some s → new.getTable n = some t → s.column c = none →
      t.column c = some y → AddableColumn env p y)
    {text : Text} (h : SqliteDdl.migrationSql kw p old (diff old new) = .ok text)
    {db db' : SDb} (hi : Implements old db) (hp : Proper.Db env db)
    (hx : execScript env res db text = some db') :
    Implements new db' ∧ Proper.Db env db' ∧ RowsKept env codecs old new db db' :=
  migration_exec hk hf laws ho hn po pn hadd h hi hp hx

/-- C37: the SQL is generated and runs without an error if the change is one SQLite's statements
can make (`Feasible`).  Missing: the other changes, which fail (see below), and changes of
columns in tables with rows, which may. -/
theorem sqlite_migration_runs_partial {env : SqliteEnv} {kw res : String → Bool}
    (hk : CoversDdl kw res) (hf : TypesFree res) (laws : StrictLaws env)
    (codecs : TextCodecs) {p : LitPrinters} {old new : ADB}
    (ho : ValidSchema old) (hn : ValidSchema new) (po : PlainSchema old) (pn : PlainSchema new)
    (hadd : ∀ n s t c y, old.getTable n = some s → new.getTable n = some t → s.column c = none →
      t.column c = some y → AddableColumn env p y)
    {db : SDb} (hfe : Feasible old new db) (hi : Implements old db) (hp : Proper.Db env db) :
    ∃ text db', SqliteDdl.migrationSql kw p old (diff old new) = .ok text ∧
      execScript env res db text = some db' ∧ Implements new db' ∧ Proper.Db env db' ∧
      RowsKept env codecs old new db db' := by
  obtain ⟨text, db', h1, h2⟩ := migration_runs hk hf laws codecs ho hn po pn hadd hfe hi hp
  exact ⟨text, db', h1, h2, migration_exec hk hf laws ho hn po pn hadd h1 hi hp h2⟩

/-- The example meets the hypotheses of both; the database it ends with has the kept rows. -/
example : ∃ text db', SqliteDdl.migrationSql exDdlKw exPrinters exFrom (diff exFrom exTo) = .ok text ∧
    execScript exStore exDdlRes (withRows exFrom exRows) text = some db' ∧ Implements exTo db' ∧
    Proper.Db exStore db' ∧ RowsKept exStore exCodecs exFrom exTo (withRows exFrom exRows) db' :=
  sqlite_migration_runs_partial exDdl_covers exDdl_free exStore_laws exCodecs exFrom_valid exTo_valid
    exFrom_plain exTo_plain exTo_addable exTo_feasible exFromDb_implements exFromDb_proper
example : ∃ text, SqliteDdl.migrationSql exDdlKw exPrinters exFrom (diff exFrom exTo) = .ok text ∧
    execScript exStore exDdlRes (withRows exFrom exRows) text = some exToDb := ⟨_, rfl, by decide⟩

/-- A pair of schemas, and a database with the first, for which the generated SQL fails. -/
def SqliteFails (old new : ADB) (db : SDb) : Prop :=
  ValidSchema old ∧ ValidSchema new ∧ PlainSchema old ∧ PlainSchema new ∧
  Implements old db ∧ Proper.Db exStore db ∧
  ∃ text, SqliteDdl.migrationSql exDdlKw exPrinters old (diff old new) = .ok text ∧
    execScript exStore exDdlRes db text = none

theorem sqliteFails_of {old new : ADB} {rows : String → List (List SqliteVal)} {text : Text}
    (h : (validSchemaB old && validSchemaB new && plainSchemaB old && plainSchemaB new &&
      properB exStore old rows) = true)
    (hs : SqliteDdl.migrationSql exDdlKw exPrinters old (diff old new) = .ok text)
    (hx : execScript exStore exDdlRes (withRows old rows) text = none) :
    SqliteFails old new (withRows old rows) := by
  simp only [Bool.and_eq_true] at h
  obtain ⟨⟨⟨⟨h1, h2⟩, h3⟩, h4⟩, h5⟩ := h
  have hv := validSchema_of h1
  have hp := plainSchema_of h3
  exact ⟨hv, validSchema_of h2, hp, plainSchema_of h4, withRows_implements hv hp _,
    withRows_proper hv h5, text, hs, hx⟩

/-- One table. -/
def exOne (cols : List AColumn) : ADB := ⟨[("T", ⟨"T", cols⟩)], []⟩
def exNoRows : String → List (List SqliteVal) := fun _ => []

/-- **C37 fails for new unique columns**: SQLite cannot add them, even to an empty table. -/
theorem sqlite_add_unique_violated : ∃ old new db, SqliteFails old new db :=
  ⟨exOne [exKeyCol], exOne [exKeyCol, { exCol "a" .text true with unique := true }],
    withRows _ exNoRows, sqliteFails_of (by decide) rfl (by decide)⟩

/-- **C37 fails for removed unique columns**: SQLite cannot drop them. -/
theorem sqlite_remove_unique_violated : ∃ old new db, SqliteFails old new db :=
  ⟨exOne [exKeyCol, { exCol "a" .text true with unique := true }], exOne [exKeyCol],
    withRows _ exNoRows, sqliteFails_of (by decide) rfl (by decide)⟩

/-- **C37 fails for new required dates**: the default is quoted twice. -/
theorem sqlite_add_date_violated : ∃ old new db, SqliteFails old new db :=
  ⟨exOne [exKeyCol], exOne [exKeyCol, exCol "a" .date false], withRows _ exNoRows,
    sqliteFails_of (by decide) rfl (by decide)⟩

/-- **C37 fails for new required JSON columns** in tables with rows: the default is NULL. -/
theorem sqlite_add_json_violated : ∃ old new db, SqliteFails old new db :=
  ⟨exOne [exKeyCol], exOne [exKeyCol, exCol "a" .json false],
    withRows _ (fun _ => [[.integer 1]]), sqliteFails_of (by decide) rfl (by decide)⟩

/-- **C37 fails for new columns whose default text has a quote**. -/
theorem sqlite_add_quote_violated : ∃ old new db, SqliteFails old new db :=
  ⟨exOne [exKeyCol],
    exOne [exKeyCol, { exCol "a" .text false with default := some (.text "it's") }],
    withRows _ exNoRows, sqliteFails_of (by decide) rfl (by decide)⟩

/-- **C37 fails when the key is moved** to a column whose name comes before: the intermediate
table would have two keys. -/
theorem sqlite_move_key_violated : ∃ old new db, SqliteFails old new db :=
  ⟨exOne [exCol "a" .bigInt false, exKeyCol],
    exOne [{ exCol "a" .bigInt false with pk := true }, exCol "id" .bigInt false],
    withRows _ exNoRows, sqliteFails_of (by decide) rfl (by decide)⟩

/-- Posts that refer to blogs. -/
def exRef (name : String) : ADB := ⟨[
  ("Blog", ⟨"Blog", [exKeyCol, exCol "name" .text (name = "nullable")]⟩),
  ("Post", ⟨"Post", [exKeyCol,
    ⟨"blog", .knownId (.ty .bigInt), false, false, false, false, none,
      some (.literal "Blog" "id")⟩]⟩)], []⟩

/-- **C37 fails for changed columns of tables other rows refer to**: the table is replaced by a
copy, and the original cannot be dropped. -/
theorem sqlite_change_referenced_violated : ∃ old new db, SqliteFails old new db :=
  ⟨exRef "required", exRef "nullable",
    withRows _ (fun n => if n = "Blog" then [[.integer 1, .text "a"]] else [[.integer 7, .integer 1]]),
    sqliteFails_of (by decide) rfl (by decide)⟩

/-- **C37 fails for new references**: the column is added without a foreign key, so the database
does not have the new schema although nothing fails. -/
theorem sqlite_add_reference_violated : ∃ old new db text db',
    ValidSchema old ∧ ValidSchema new ∧ PlainSchema old ∧ PlainSchema new ∧
    Implements old db ∧ Proper.Db exStore db ∧
    SqliteDdl.migrationSql exDdlKw exPrinters old (diff old new) = .ok text ∧
    execScript exStore exDdlRes db text = some db' ∧ ¬ Implements new db' := by
  let old := exOne [exKeyCol]
  let new := exOne [exKeyCol, ⟨"up", .knownId (.ty .bigInt), true, false, false, false, none,
    some (.literal "T" "id")⟩]
  have hv : ValidSchema old := validSchema_of (by decide)
  have hp : PlainSchema old := plainSchema_of (by decide)
  refine ⟨old, new, withRows old exNoRows, _, _, hv, validSchema_of (by decide), hp,
    plainSchema_of (by decide), withRows_implements hv hp _, withRows_proper hv (by decide), rfl,
    rfl, fun h => ?_⟩
  have h1 : TableIs _ _ := h "T"
  have h2 := (h1.refs ⟨"up", "T", "id"⟩).2 ⟨_, rfl, rfl⟩
  revert h2
  decide

/-- **C37 fails for automatic columns that are not the key**: SQLite has no such columns. -/
theorem sqlite_auto_violated : ∃ old new text, ValidSchema old ∧ ValidSchema new ∧
    SqliteDdl.migrationSql exDdlKw exPrinters old (diff old new) = .ok text ∧
    execScript exStore exDdlRes (withRows old exNoRows) text = none :=
  ⟨⟨[], []⟩, exOne [{ exKeyCol with auto := false }, { exCol "n" .bigInt false with auto := true }],
    _, validSchema_of (by decide), validSchema_of (by decide), rfl, by decide⟩

/-! ### C39: literals -/

/-- C39, SQLite: the literal a value is written as is read as one literal, which in a column of
the value's type is stored as the value butane stores itself, and read back as the value.
Missing: dates, timestamps, JSON, texts with quotes, and reals whose literal is not a plain
numeral: for all of these the statement is false (below). -/
theorem sqlite_literal_partial {env : SqliteEnv} (res : String → Bool) (laws : StrictLaws env)
    (codecs : TextCodecs) {p : LitPrinters} {ty : SqlType} {st : SqliteType} {v : SqlVal}
    (hst : sqliteType ty = some st) (hty : v = .null ∨ v.sqltype = some ty)
    (h : LiteralReads env p st v) :
    ∃ text l b, sqlLiteral p v = .ok text ∧ readLiteral res text = some l ∧
      (litVal env l).bind (env.coerce st) = some b ∧ toSqlite codecs v = .ok b ∧
      fromSqlite codecs b ty = .ok v := by
  obtain ⟨text, h1, h2⟩ := sqlLiteral_ok (res := res) h
  obtain ⟨b, hb, -⟩ := toSqlite_reads (codecs := codecs) h
  refine ⟨text, _, b, h1, readLiteral_of h2, literal_value laws h hb, hb, ?_⟩
  cases v <;> first | (exact h.elim; done) | skip
  case null => cases hb; cases ty <;> rfl
  all_goals
    obtain rfl : _ = ty := by simpa [SqlVal.sqltype] using hty
    cases hb
  case bool b => cases b <;> rfl
  case int i => simp [fromSqlite, SqliteVal.asI64, Conv.bind]
  all_goals rfl

example : LiteralReads exStore exPrinters .integer (.bigInt (-9223372036854775808)) := rfl
example : LiteralReads exStore exPrinters .text (.text "a \"quoted\" word; DROP TABLE t") :=
  ⟨rfl, by decide⟩
example : sqlLiteral exPrinters (.blob [0, 255]) = .ok (lit "x'00FF'") := rfl

/-- **C39 fails for texts with quotes**, for every such text. -/
theorem text_literal_violated (p : LitPrinters) (res : String → Bool) (s : String)
    (hs : '\'' ∈ s.toList) : ∃ text, sqlLiteral p (.text s) = .ok text ∧
      readLiteral res text ≠ some (.str s.toList) := by
  refine ⟨_, rfl, fun h => ?_⟩
  have hl : lex res (squote s.toList) = [.str s.toList] := by
    unfold readLiteral at h
    split at h
    · cases h
    · next t e =>
      rw [e]
      unfold litTok at h
      split at h <;> first | (cases h; rfl) | cases h
    · cases h
  have : lexFrom res (.str []) (s.toList ++ ['\'']) = [.str s.toList] := hl
  have := (lex_str_length _ _ _ _ (Nat.le_refl _) this).2 hs
  simp at this

example : '\'' ∈ "O'Brien".toList := by decide
/-- Such a text can be read as another text. -/
example : readLiteral exDdlRes (squote "it''s".toList) = some (.str "it's".toList) := by decide

/-- **C39 fails for dates**: no date is written as a literal. -/
theorem date_literal_violated (p : LitPrinters) (res : String → Bool) (d : Int) {c : Char}
    {r : Text} (hd : p.date d = c :: r) (hc : c ≠ '\'') :
    ∃ text, sqlLiteral p (.date d) = .ok text ∧ readLiteral res text = none := by
  refine ⟨_, rfl, ?_⟩
  have : lex res (squote (squote (p.date d))) =
      .str [] :: ((start c).1 ++ lexFrom res (start c).2 ((r ++ ['\'']) ++ ['\''])) := by
    rw [hd]
    show (step res (.strQ []) c).1 ++ lexFrom res (step res (.strQ []) c).2 _ = _
    simp [step, hc, flush, pending, squote]
  have hne := lex_ends_quote (res := res) (start c).2 (r ++ ['\''])
  unfold readLiteral
  rw [this]
  split
  · next e => cases e
  · next e =>
    simp only [List.cons.injEq, List.append_eq_nil_iff] at e
    exact absurd e.2.2 hne
  · rfl

example : exPrinters.date 1 = '0' :: lit "001-01-01" := rfl

/-- **C39 fails for JSON objects and arrays**: they are no literals.  The JSON `null` is written as
the SQL NULL. -/
theorem json_literal_violated (p : LitPrinters) (res : String → Bool) (j : String) {r : Text}
    (hj : p.json j = '{' :: r ∨ p.json j = '[' :: r) :
    ∃ text, sqlLiteral p (.json j) = .ok text ∧ readLiteral res text = none := by
  refine ⟨_, rfl, ?_⟩
  have : ∃ k, lex res (p.json j) = .bad :: k := by
    rcases hj with h | h <;> rw [h] <;> exact ⟨_, rfl⟩
  obtain ⟨k, hk⟩ := this
  unfold readLiteral
  rw [hk]
  split
  · next e => cases e
  · next e => cases e; rfl
  · rfl

example : exPrinters.json "{}" = '{' :: ['}'] := by decide
example : readLiteral exDdlRes (exPrinters.json "null") = some .null := by decide

/-- **C39 fails for timestamps**: the text stored for the literal is the one with a `T`, which the
backend does not read. -/
theorem timestamp_literal_violated {env : SqliteEnv} (laws : StrictLaws env) (res : String → Bool)
    (codecs : TextCodecs) (p : LitPrinters) (t : Int) (hq : '\'' ∉ p.timestampT t)
    (hT : codecs.parseTimestamp (String.ofList (p.timestampT t)) = none) :
    ∃ text l b e, sqlLiteral p (.timestamp t) = .ok text ∧ readLiteral res text = some l ∧
      (litVal env l).bind (env.coerce .text) = some b ∧ fromSqlite codecs b .timestamp = .err e := by
  refine ⟨_, _, _, .parse, rfl, readLiteral_of ⟨_, lex_squote hq, by simp, by simp, rfl⟩,
    laws.text _, ?_⟩
  simp [fromSqlite, hT, SqliteVal.asStr, Conv.bind, parsed]

example : '\'' ∉ exPrinters.timestampT 0 ∧
    { exCodecs with
      parseTimestamp := fun s => if 'T' ∈ s.toList then none else exParse s }.parseTimestamp
        (String.ofList (exPrinters.timestampT 0)) = none := by decide

end Butane.Props
