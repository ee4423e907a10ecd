import Verif.Proofs.PgCheck
import Verif.Proofs.PgLive
import Verif.Props.Ddl
/-
Property C38: the SQL of migrations on PostgreSQL.
-/
namespace Butane.Props
open Butane Butane.Spec Butane.DdlP Butane.PgP Butane.PgCat
open Butane.Ddl hiding exec execAll execScript

/-! ### A concrete PostgreSQL -/

/-- Two of the words PostgreSQL does not read as identifiers. -/
def exPgRes (w : String) : Bool := w ∈ ["user", "order"]
def exPgKw (w : String) : Bool := exDdlKw w || exPgRes (lower w)

theorem exPg_words : PgWords exPgKw exPgRes where
  covers w h := by
    rcases h with h | h
    · exact Bool.or_eq_true_iff.2 (.inl (decide_eq_true h))
    · exact Bool.or_eq_true_iff.2 (.inr h)
  types := by decide
  labels w := by
    have key : ∀ s : String, 'k' ∈ s.toList → exPgRes (w ++ s) = false := by
      intro s hs
      refine decide_eq_false fun h => ?_
      have hk : 'k' ∈ (w ++ s).toList := by
        rw [String.toList_append]
        exact List.mem_append_right _ hs
      simp only [List.mem_cons, List.not_mem_nil, or_false] at h
      rcases h with h | h <;> rw [h] at hk <;> revert hk <;> decide
    exact ⟨key _ (by decide), key _ (by decide), key _ (by decide)⟩

theorem length_le_flatMap {s : String} {used : List String} (h : s ∈ used) :
    s.toList.length ≤ (used.flatMap (·.toList)).length := by
  induction used with
  | nil => cases h
  | cons a l ih =>
    rw [List.flatMap_cons, List.length_append]
    rcases List.mem_cons.1 h with rfl | h
    · omega
    · have := ih h
      omega

/-- Values are stored in columns of their own class, texts also as dates and JSON; numbers can be
widened, and everything can become a text. -/
def exPgEnv : PgEnv where
  choose used n :=
    if n ∉ used ∧ n.utf8ByteSize ≤ 63 then n else String.ofList (used.flatMap (·.toList) ++ ['x'])
  fits ty l :=
    match l with
    | .null => true
    | .bool _ => decide (ty = ["boolean"])
    | .num _ _ => decide (ty ∈ [["integer"], ["bigint"], ["double", "precision"]])
    | .str _ => decide (ty ∈ [["text"], ["date"], ["timestamp"], ["bytea"], ["jsonb"]])
    | .hex _ => false
  castable a b := decide (a = b ∨ b = ["text"] ∨
    (a = ["integer"] ∧ b = ["bigint"]) ∨ (a = ["bigint"] ∧ b = ["integer"]))
  permits _ _ := true

theorem exPg_naming : Naming exPgEnv where
  std used n h1 h2 := if_pos ⟨h1, h2⟩
  fresh used n := by
    show (if _ then _ else _) ∉ used
    split
    · next h => exact h.1
    · intro hm
      have := length_le_flatMap hm
      rw [String.toList_ofList, List.length_append, List.length_singleton] at this
      omega

/-- Authors, and posts that refer to them. -/
def exPgOld : ADB := ⟨[
  ("Author", ⟨"Author", [exKeyCol, exCol "name" .text false]⟩),
  ("Draft", ⟨"Draft", [exKeyCol]⟩),
  ("Post", ⟨"Post", [exKeyCol, { exCol "title" .text false with unique := true },
    exCol "views" .int true, exCol "old" .text true,
    ⟨"author", .knownId (.ty .bigInt), true, false, false, false, none,
      some (.literal "Author" "id")⟩]⟩)], []⟩
/-- Authors with unique names, posts with more views and an order, and tags that refer to posts. -/
def exPgNew : ADB := ⟨[
  ("Author", ⟨"Author", [exKeyCol, { exCol "name" .text false with unique := true }]⟩),
  ("Post", ⟨"Post", [exKeyCol, exCol "title" .text true,
    { exCol "views" .bigInt false with default := some (.int 7) }, exCol "order" .int false,
    ⟨"author", .knownId (.ty .bigInt), true, false, false, false, none, none⟩,
    ⟨"editor", .knownId (.ty .bigInt), true, false, false, false, none,
      some (.literal "Author" "id")⟩]⟩),
  ("Tag", ⟨"Tag", [{ exCol "tag" .text false with pk := true },
    ⟨"post", .knownId (.ty .bigInt), false, false, false, false, none,
      some (.literal "Post" "id")⟩]⟩)], []⟩

theorem exPgOld_valid : ValidSchema exPgOld := validSchema_of (by decide)
theorem exPgNew_valid : ValidSchema exPgNew := validSchema_of (by decide)
theorem exPgOld_pg : PgSchema exPgKw exPgOld := pgSchema_of (by decide)
theorem exPgNew_pg : PgSchema exPgKw exPgNew := pgSchema_of (by decide)

/-! ### C38: what a migration does on PostgreSQL -/

/-- C38: the SQL for the difference of two schemas is generated, and if it is executed on a
PostgreSQL database with the old schema and no statement fails, the database has the new schema:
its tables, their columns with type, nullability and numbering, and their primary, unique and
foreign keys.
Missing: what happens to rows; custom types; names that collide in lower case, names that need
quotes, and quoted reserved words with capitals; defaults that are no plain literal; keys that are
dropped, and columns that become automatic or stop being so (see the violations below). -/
theorem pg_migration_partial {kw res : String → Bool} (hk : PgWords kw res) {env : PgEnv}
    (hen : Naming env) {p : LitPrinters} {old new : ADB}
    (ho : ValidSchema old) (hn : ValidSchema new) (po : PgSchema kw old) (pn : PgSchema kw new)
    (ha : NamesApart old new) (hw : PgWritable p old new) (hkk : KeepsKeys old new) {db : PDb}
    (hp : PgProper db) (hi : PgImplements old db) :
    ∃ text, PgDdl.migrationSql kw p old (diff old new) = .ok text ∧
      ∀ db', execScript env res db text = some db' → PgImplements new db' ∧ PgProper db' := by
  obtain ⟨s, h1, h2⟩ := pg_migration hk hen ho hn po pn ha hw hkk hp hi
  exact ⟨s, h1, fun db' h => ⟨(h2 db' h).2, (h2 db' h).1⟩⟩

/-- The example meets the hypotheses, and its SQL runs. -/
example : ∃ text db', PgDdl.migrationSql exPgKw exPrinters exPgOld (diff exPgOld exPgNew) = .ok text ∧
    execScript exPgEnv exPgRes (pgDbOf exPgOld) text = some db' ∧ PgImplements exPgNew db' := by
  obtain ⟨text, h1, h2⟩ := pg_migration_partial exPg_words exPg_naming (p := exPrinters)
    exPgOld_valid exPgNew_valid exPgOld_pg exPgNew_pg (namesApart_of (by decide))
    (pgWritable_of (by decide)) (keepsKeys_of (by decide)) (pgDb_proper (by decide))
    (pgDb_implements exPgOld_pg exPgOld_valid (by decide))
  have h3 : (match PgDdl.migrationSql exPgKw exPrinters exPgOld (diff exPgOld exPgNew) with
      | .ok t => (execScript exPgEnv exPgRes (pgDbOf exPgOld) t).isSome
      | _ => false) = true := by decide
  rw [h1] at h3
  obtain ⟨db', h3⟩ := Option.isSome_iff_exists.1 h3
  exact ⟨text, db', h1, h3, (h2 db' h3).1⟩

/-- C38: the SQL runs, and the database has the new schema, if the rows allow every statement (as
they do where there are none), no column that stays becomes a key or stops being one, new columns
are not automatic, not a second key and have a default PostgreSQL accepts for their type, types can
be cast, all references are to keys, and what a table of both schemas refers to, before or
afterwards, is a key before and afterwards.
Missing: as above; and when the rows that are there allow the statements. -/
theorem pg_migration_runs_partial {kw res : String → Bool} (hk : PgWords kw res) {env : PgEnv}
    (hen : Naming env) (hrows : ∀ db st, env.permits db st = true) {p : LitPrinters} {old new : ADB}
    (ho : ValidSchema old) (hn : ValidSchema new) (po : PgSchema kw old) (pn : PgSchema kw new)
    (ha : NamesApart old new) (hw : PgWritable p old new) (hkk : KeepsKeys old new)
    (hf : PgFeasible env res p old new) {db : PDb}
    (hp : PgProper db) (hi : PgImplements old db) :
    ∃ text db', PgDdl.migrationSql kw p old (diff old new) = .ok text ∧
      execScript env res db text = some db' ∧ PgImplements new db' ∧ PgProper db' := by
  obtain ⟨s, db', h1, h2, h3, h4⟩ := pg_migration_runs hk hen hrows ho hn po pn ha hw hkk hf hp hi
  exact ⟨s, db', h1, h2, h4, h3⟩

/-- The example meets the hypotheses. -/
example : ∃ text db', PgDdl.migrationSql exPgKw exPrinters exPgOld (diff exPgOld exPgNew) = .ok text ∧
    execScript exPgEnv exPgRes (pgDbOf exPgOld) text = some db' ∧ PgImplements exPgNew db' ∧
    PgProper db' :=
  pg_migration_runs_partial exPg_words exPg_naming (fun _ _ => rfl) (p := exPrinters)
    exPgOld_valid exPgNew_valid exPgOld_pg exPgNew_pg (namesApart_of (by decide))
    (pgWritable_of (by decide)) (keepsKeys_of (by decide)) (pgFeasible_of (by decide))
    (pgDb_proper (by decide)) (pgDb_implements exPgOld_pg exPgOld_valid (by decide))

/-- From nothing: the first migration. -/
example : ∃ text db', PgDdl.migrationSql exPgKw exPrinters ⟨[], []⟩ (diff ⟨[], []⟩ exPgNew) =
      .ok text ∧ execScript exPgEnv exPgRes [] text = some db' ∧ PgImplements exPgNew db' ∧
    PgProper db' :=
  pg_migration_runs_partial exPg_words exPg_naming (fun _ _ => rfl) (p := exPrinters)
    (validSchema_of (by decide)) exPgNew_valid (pgSchema_of (by decide)) exPgNew_pg
    (namesApart_of (by decide)) (pgWritable_of (by decide)) (keepsKeys_of (by decide))
    (pgFeasible_of (by decide)) (pgDb_proper (adb := ⟨[], []⟩) (by decide))
    (pgDb_implements (adb := ⟨[], []⟩) (pgSchema_of (kw := exPgKw) (by decide))
      (validSchema_of (by decide)) (by decide))

/-! ### Changes that fail -/

/-- A database is made for the first schema, and then the SQL for the change to the second
schema is run and fails. -/
def PgFails (old new : ADB) : Prop :=
  ValidSchema old ∧ ValidSchema new ∧
  ∃ t1 db t2, PgDdl.migrationSql exPgKw exPrinters ⟨[], []⟩ (diff ⟨[], []⟩ old) = .ok t1 ∧
    execScript exPgEnv exPgRes [] t1 = some db ∧
    PgDdl.migrationSql exPgKw exPrinters old (diff old new) = .ok t2 ∧
    execScript exPgEnv exPgRes db t2 = none

/-- The same, but nothing fails and the database does not have the second schema. -/
def PgWrong (old new : ADB) : Prop :=
  ValidSchema old ∧ ValidSchema new ∧
  ∃ t1 db t2 db', PgDdl.migrationSql exPgKw exPrinters ⟨[], []⟩ (diff ⟨[], []⟩ old) = .ok t1 ∧
    execScript exPgEnv exPgRes [] t1 = some db ∧
    PgDdl.migrationSql exPgKw exPrinters old (diff old new) = .ok t2 ∧
    execScript exPgEnv exPgRes db t2 = some db' ∧ ¬ PgImplements new db'

/-- **C38 fails for new automatic columns**: a `SERIAL` column is given a second default. -/
theorem pg_add_auto_violated : ∃ old new, PgFails old new :=
  ⟨exOne [exCol "a" .text true], exOne [exCol "a" .text true, exKeyCol],
    validSchema_of (by decide), validSchema_of (by decide), _, _, _, rfl, rfl, rfl, by decide⟩

/-- **C38 fails for numbers that become automatic with another type**: `SERIAL` is no type a column
can be changed to. -/
theorem pg_serial_type_violated : ∃ old new, PgFails old new :=
  ⟨exOne [exCol "a" .int false], exOne [{ exCol "a" .bigInt false with auto := true }],
    validSchema_of (by decide), validSchema_of (by decide), _, _, _, rfl, rfl, rfl, by decide⟩

/-- **C38 fails for numbers that become automatic**: no SQL is generated, and the column is not
numbered. -/
theorem pg_auto_violated : ∃ old new, PgWrong old new := by
  refine ⟨exOne [exCol "a" .int false], exOne [{ exCol "a" .int false with auto := true }],
    validSchema_of (by decide), validSchema_of (by decide), _, _, _, _, rfl, rfl, rfl, rfl, ?_⟩
  intro h
  obtain ⟨s, h1, h2⟩ := h.tables "T" _ rfl
  cases h1
  obtain ⟨d, h3, h4⟩ := h2.columns _ (.head _)
  obtain rfl := List.mem_singleton.1 h3
  exact absurd h4.serial (by decide)

/-- **C38 fails for a key that is dropped**: no SQL is generated, and the column is still the key. -/
theorem pg_drop_key_violated : ∃ old new, PgWrong old new := by
  refine ⟨exOne [{ exCol "a" .int false with pk := true }], exOne [exCol "a" .int false],
    validSchema_of (by decide), validSchema_of (by decide), _, _, _, _, rfl, rfl, rfl, rfl, ?_⟩
  intro h
  obtain ⟨s, h1, h2⟩ := h.tables "T" _ rfl
  cases h1
  obtain ⟨x, h3, h4, -⟩ := (h2.constraints (.pk "a")).1 ⟨_, .head _, rfl⟩
  obtain rfl := List.mem_singleton.1 h3
  cases h4

/-- **C38 fails when the key column is replaced** by another: the new key is added while the old
one is still there. -/
theorem pg_replace_key_violated : ∃ old new, PgFails old new :=
  ⟨exOne [{ exCol "a" .int false with pk := true }], exOne [{ exCol "b" .int false with pk := true }],
    validSchema_of (by decide), validSchema_of (by decide), _, _, _, rfl, rfl, rfl, by decide⟩

/-- **C38 fails for new required columns of bytes**: their default is written as a bit string. -/
theorem pg_add_bytes_violated : ∃ old new, PgFails old new :=
  ⟨exOne [exKeyCol], exOne [exKeyCol, exCol "a" .blob false],
    validSchema_of (by decide), validSchema_of (by decide), _, _, _, rfl, rfl, rfl, by decide⟩

/-- **C38 fails for new required dates**: their default is quoted twice. -/
theorem pg_add_date_violated : ∃ old new, PgFails old new :=
  ⟨exOne [exKeyCol], exOne [exKeyCol, exCol "a" .date false],
    validSchema_of (by decide), validSchema_of (by decide), _, _, _, rfl, rfl, rfl, by decide⟩

/-- **C38 fails for columns with a JSON default**: it is not quoted. -/
theorem pg_json_default_violated : ∃ old new, PgFails old new :=
  ⟨exOne [exKeyCol], exOne [exKeyCol, { exCol "a" .json false with default := some (.json "{}") }],
    validSchema_of (by decide), validSchema_of (by decide), _, _, _, rfl, rfl, rfl, by decide⟩

/-- **C38 fails for new columns whose default text has a quote**. -/
theorem pg_add_quote_violated : ∃ old new, PgFails old new :=
  ⟨exOne [exKeyCol], exOne [exKeyCol, { exCol "a" .text false with default := some (.text "it's") }],
    validSchema_of (by decide), validSchema_of (by decide), _, _, _, rfl, rfl, rfl, by decide⟩

/-- **C38 fails for changes of type that are no automatic casts**: there is no `USING`. -/
theorem pg_type_violated : ∃ old new, PgFails old new :=
  ⟨exOne [exKeyCol, exCol "a" .text true], exOne [exKeyCol, exCol "a" .int true],
    validSchema_of (by decide), validSchema_of (by decide), _, _, _, rfl, rfl, rfl, by decide⟩

/-- **C38 fails for tables whose name is a reserved word with capitals**: the name is quoted, but
not in the names of constraints. -/
theorem pg_reserved_violated : ∃ old new, PgFails old new :=
  ⟨⟨[("User", ⟨"User", [exKeyCol, { exCol "a" .text true with unique := true }]⟩)], []⟩,
    ⟨[("User", ⟨"User", [exKeyCol, exCol "a" .text true]⟩)], []⟩,
    validSchema_of (by decide), validSchema_of (by decide), _, _, _, rfl, rfl, rfl, by decide⟩

/-- **C38 fails for tables whose names differ only in capitals**. -/
theorem pg_capitals_violated : ∃ old new, PgFails old new :=
  ⟨⟨[("Post", ⟨"Post", [exKeyCol]⟩)], []⟩,
    ⟨[("Post", ⟨"Post", [exKeyCol]⟩), ("post", ⟨"post", [exKeyCol]⟩)], []⟩,
    validSchema_of (by decide), validSchema_of (by decide), _, _, _, rfl, rfl, rfl, by decide⟩

/-- **C38 fails when two constraints would have the same name**: butane does not know the name
PostgreSQL chose for the second. -/
theorem pg_constraint_name_violated : ∃ old new, PgFails old new :=
  ⟨⟨[("a", ⟨"a", [{ exCol "b_c" .text true with unique := true }]⟩),
      ("a_b", ⟨"a_b", [{ exCol "c" .text true with unique := true }]⟩)], []⟩,
    ⟨[("a", ⟨"a", [{ exCol "b_c" .text true with unique := true }]⟩),
      ("a_b", ⟨"a_b", [exCol "c" .text true]⟩)], []⟩,
    validSchema_of (by decide), validSchema_of (by decide), _, _, _, rfl, rfl, rfl, by decide⟩

/-- **C38 fails when a reference moves away from a column that is removed**: tables are changed in
the order of their names, and the column is removed first. -/
theorem pg_reference_moved_violated : ∃ old new, PgFails old new :=
  ⟨⟨[("A", ⟨"A", [exKeyCol, { exCol "alt" .bigInt false with unique := true }]⟩),
      ("B", ⟨"B", [⟨"a", .knownId (.ty .bigInt), true, false, false, false, none,
        some (.literal "A" "alt")⟩]⟩)], []⟩,
    ⟨[("A", ⟨"A", [exKeyCol]⟩),
      ("B", ⟨"B", [⟨"a", .knownId (.ty .bigInt), true, false, false, false, none,
        some (.literal "A" "id")⟩]⟩)], []⟩,
    validSchema_of (by decide), validSchema_of (by decide), _, _, _, rfl, rfl, rfl, by decide⟩

/-- **C38 fails when a table is removed together with the columns that refer to it**: the table is
removed first. -/
theorem pg_remove_referenced_violated : ∃ old new, PgFails old new :=
  ⟨⟨[("A", ⟨"A", [exKeyCol]⟩),
      ("B", ⟨"B", [exKeyCol, ⟨"a", .knownId (.ty .bigInt), true, false, false, false, none,
        some (.literal "A" "id")⟩]⟩)], []⟩,
    ⟨[("B", ⟨"B", [exKeyCol]⟩)], []⟩,
    validSchema_of (by decide), validSchema_of (by decide), _, _, _, rfl, rfl, rfl, by decide⟩

end Butane.Props
