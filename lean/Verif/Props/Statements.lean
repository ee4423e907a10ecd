/-
C15 - C18: what the generated statements do to the database.

`execText` and `QueryOut` (Spec/Stmt.lean) tokenize, parse and execute a statement text
with its bound values; `Stored`, `matching` and `LoadResult` (Spec/Data.lean) say what
the statement is supposed to do.
-/
import Verif.Proofs.Exec
import Verif.Props.Filter

namespace Butane.Props
open Butane Sql Spec

/-- On PostgreSQL at most 126 placeholders can be written by `PgPlaceholderSource`
(`pg_placeholder_overflow_violated`). -/
def Fits (b : Backend) (n : Nat) : Prop := b = .pg → n ≤ 126

/-! ### Fixtures -/

/-- A new `post` row gets the next number as its key. -/
def exEnv : Env where
  key t := if t = "tag" then "tag" else "id"
  template t rows :=
    if t = "post" then
      rowOf [("id", .int (rows.length + 1)), ("title", .null), ("order", .int 0)]
    else if t = "tag" then rowOf [("tag", .null)] else rowOf [("id", .null), ("name", .null)]

def postDb : Db where
  has t := t ∈ ["blog", "tag", "post"]
  rows t :=
    if t = "post" then
      [rowOf [("id", .int 1), ("title", text "b"), ("order", .int 5)],
       rowOf [("id", .int 2), ("title", text "a"), ("order", .int 5)],
       rowOf [("id", .int 3), ("title", .null), ("order", .int 2)]]
    else if t = "tag" then [rowOf [("tag", text "pets")]]
    else if t = "blog" then [rowOf [("id", .int 1), ("name", text "cats")],
                             rowOf [("id", .int 2), ("name", text "dogs")]]
    else []

/-! ### C15 -/

/-- C15, insert: the i-th value goes into the i-th column of one new row, the other
columns get what the database gives them, nothing else changes; an existing row with the
same key makes the statement fail. -/
theorem insert_stores_partial {b : Backend} (rel : Compare) {kw res : String → Bool}
    (hk : CoversReserved kw res) (env : Env) {db : Db} {table : String} {cols : List String}
    {vals : List SqlVal} (ht : IsName table) (hs : ∀ c ∈ cols, IsName c) (hne : cols ≠ [])
    (hnd : cols.Nodup) (hl : vals.length = cols.length) (hf : Fits b cols.length)
    (hdb : db.has table = true)
    (hcols : ∀ c ∈ cols, (env.template table (db.rows table)).has c = true) :
    ∃ new, Stored (env.template table (db.rows table)) cols vals new ∧
      ((∃ r ∈ db.rows table, Equal rel (r.val (env.key table)) (new.val (env.key table))) →
        execText b.isSqlite rel res env db (b.insert kw table cols vals).text
          (b.insert kw table cols vals).params = none) ∧
      ((¬∃ r ∈ db.rows table, Equal rel (r.val (env.key table)) (new.val (env.key table))) →
        execText b.isSqlite rel res env db (b.insert kw table cols vals).text
          (b.insert kw table cols vals).params =
          some (setRows db table (db.rows table ++ [new]), 1, none)) := by
  have hlex : lex res (b.insert kw table cols vals).text = toksInsert table cols := by
    cases b with
    | sqlite => exact (reads_insert (d := sqliteDialect kw) (cnt := fun n => n) (B := cols.length)
        hk (phReads_sqlite kw res _) ht hs (Nat.le_refl _)).lex rfl
    | pg => exact (reads_insert (d := pgDialect kw) (cnt := fun _ => 0) (B := 127)
        hk (phReads_pg kw res) ht hs (Nat.le_trans (hf rfl) (by decide))).lex rfl
  have hpar : (b.insert kw table cols vals).params = vals := by cases b <;> rfl
  have hp := parse_insert (sq := b.isSqlite) (table := table) hne (r := []) (conf := none)
    (ret := none) rfl
  rw [List.append_nil] at hp
  have := exec_insert (rel := rel) (env := env) (ret := none) hnd hl hdb hcols (by simp)
  simpa only [execText, hlex, hp, hpar, Option.map_none] using this

theorem postCols : ∀ c ∈ ["title", "order"], IsName c := by
  intro c hc
  simp only [List.mem_cons, List.not_mem_nil, or_false] at hc
  rcases hc with rfl | rfl <;> exact nameOf rfl (by decide) (by decide)

example : ∃ new, Stored (exEnv.template "post" (postDb.rows "post")) ["title", "order"]
      [.text "x", .int 7] new ∧
    execText false exRel exRes exEnv postDb
      (lit "INSERT INTO post (title, \"order\") VALUES ($1, $2)") [.text "x", .int 7] =
      some (setRows postDb "post" (postDb.rows "post" ++ [new]), 1, none) := by
  obtain ⟨new, h1, _, h3⟩ := insert_stores_partial (b := .pg) exRel exCovers exEnv (db := postDb)
    (table := "post") (cols := ["title", "order"]) (vals := [.text "x", .int 7])
    (nameOf rfl (by decide) (by decide)) postCols (by simp) (by decide) rfl (fun _ => by decide) rfl
    (by decide)
  refine ⟨new, h1, h3 ?_⟩
  have : new.val "id" = .int 4 := h1.2.2 "id" (by decide)
  show ¬∃ r ∈ postDb.rows "post", Equal exRel (r.val "id") (new.val "id")
  rw [this]
  intro ⟨r, hr, he⟩
  simp only [postDb, if_true, List.mem_cons, List.not_mem_nil, or_false] at hr
  rcases hr with rfl | rfl | rfl <;> revert he <;> unfold Equal <;> decide

/-- C15, insert with no columns: one new row with the database's values. -/
theorem insert_default_stores {b : Backend} (rel : Compare) {kw res : String → Bool}
    (hk : CoversReserved kw res) (env : Env) {db : Db} {table : String}
    (ht : IsName table) (hdb : db.has table = true)
    (hnew : ¬∃ r ∈ db.rows table, Equal rel (r.val (env.key table))
      ((env.template table (db.rows table)).val (env.key table))) :
    ∃ new, Stored (env.template table (db.rows table)) [] [] new ∧
      execText b.isSqlite rel res env db (b.insert kw table [] []).text
        (b.insert kw table [] []).params =
        some (setRows db table (db.rows table ++ [new]), 1, none) := by
  have hlex : lex res (b.insert kw table [] []).text = toksInsert table [] := by
    cases b with
    | sqlite => exact (reads_insert (d := sqliteDialect kw) (cnt := fun n => n) (B := 0) (cols := [])
        hk (phReads_sqlite kw res _) ht (by simp) (Nat.le_refl _)).lex rfl
    | pg => exact (reads_insert (d := pgDialect kw) (cnt := fun _ => 0) (B := 127) (cols := [])
        hk (phReads_pg kw res) ht (by simp) (by simp)).lex rfl
  have hp := parse_insert_default (sq := b.isSqlite) (table := table) (r := []) (ret := none) rfl
  rw [List.append_nil] at hp
  obtain ⟨new, h1, _, h3⟩ := exec_insert (rel := rel) (env := env) (db := db) (table := table)
    (cols := []) (vals := []) (ret := none) .nil rfl hdb (by simp) (by simp)
  refine ⟨new, h1, ?_⟩
  have hv : new.val (env.key table) = (env.template table (db.rows table)).val (env.key table) :=
    h1.2.2 _ (by simp)
  rw [hv] at h3
  have := h3 hnew
  have hpar : (b.insert kw table [] []).params = [] := by cases b <;> rfl
  simp only [execText, hlex, hp, hpar]
  exact this

example : ∃ new, execText true exRel exRes exEnv postDb
      (lit "INSERT INTO tag DEFAULT VALUES ") [] =
      some (setRows postDb "tag" (postDb.rows "tag" ++ [new]), 1, none) := by
  obtain ⟨new, _, h⟩ := insert_default_stores (b := .sqlite) exRel exCovers exEnv (db := postDb)
    (table := "tag") (nameOf rfl (by decide) (by decide)) rfl (by
      rintro ⟨r, hr, _, h, _⟩
      exact h rfl)
  exact ⟨new, h⟩

/-- C15, PostgreSQL's insert that returns the key: as `insert_stores_partial`, and the
statement returns the new row's key.  Partial: the key column is written unquoted, so it
must not be a keyword (`pg_returning_reserved_violated`). -/
theorem pg_insert_returning_partial (rel : Compare) {kw res : String → Bool}
    (hk : CoversReserved kw res) (env : Env) {db : Db} {table pkcol : String} {cols : List String}
    {vals : List SqlVal} (ht : IsName table) (hpk : PlainName res pkcol)
    (hs : ∀ c ∈ cols, IsName c) (hnd : cols.Nodup)
    (hl : vals.length = cols.length) (hf : cols.length ≤ 126) (hdb : db.has table = true)
    (hcols : ∀ c ∈ cols, (env.template table (db.rows table)).has c = true)
    (hpkc : (env.template table (db.rows table)).has pkcol = true) :
    ∃ new, Stored (env.template table (db.rows table)) cols vals new ∧
      ((∃ r ∈ db.rows table, Equal rel (r.val (env.key table)) (new.val (env.key table))) →
        execText false rel res env db (pgInsertReturning kw table cols pkcol vals).text
          (pgInsertReturning kw table cols pkcol vals).params = none) ∧
      ((¬∃ r ∈ db.rows table, Equal rel (r.val (env.key table)) (new.val (env.key table))) →
        execText false rel res env db (pgInsertReturning kw table cols pkcol vals).text
          (pgInsertReturning kw table cols pkcol vals).params =
          some (setRows db table (db.rows table ++ [new]), 1, some (new.val pkcol))) := by
  have hlex : lex res (pgInsertReturning kw table cols pkcol vals).text =
      toksInsert table cols ++ [.kw "RETURNING", .ident pkcol] := by
    simp only [pgInsertReturning, List.append_assoc]
    refine Reads.lex (cnt := fun _ => 0) (n := cols.length) ?_ rfl
    refine Reads.append (reads_insert (d := pgDialect kw) (cnt := fun _ => 0) (B := 127)
        hk (phReads_pg kw res) ht hs (Nat.le_trans hf (by decide))) (soft_cons (by decide) _) ?_
    refine Opens.reads (t := lit " RETURNING ") (k := [.kw "RETURNING"]) (fun _ _ => rfl) ?_
    intro r hr
    exact lex_plain hpk _ r hr
  have hp : parseStmt false (toksInsert table cols ++ [.kw "RETURNING", .ident pkcol]) =
      some (.insert table cols ((List.range cols.length).map .param) none (some pkcol)) := by
    by_cases hne : cols = []
    · subst hne
      exact parse_insert_default rfl
    · exact parse_insert hne rfl
  have := exec_insert (rel := rel) (env := env) (ret := some pkcol) hnd hl hdb hcols
    (by simpa using hpkc)
  have hpar : (pgInsertReturning kw table cols pkcol vals).params = vals := rfl
  simpa only [execText, hlex, hp, hpar, Option.map_some] using this

example : ∃ new, Stored (exEnv.template "post" (postDb.rows "post")) ["title", "order"]
      [.text "x", .int 7] new ∧
    execText false exRel exRes exEnv postDb
      (lit "INSERT INTO post (title, \"order\") VALUES ($1, $2) RETURNING id") [.text "x", .int 7] =
      some (setRows postDb "post" (postDb.rows "post" ++ [new]), 1, some (.int 4)) := by
  obtain ⟨new, h1, _, h3⟩ := pg_insert_returning_partial exRel exCovers exEnv (db := postDb)
    (table := "post") (pkcol := "id") (cols := ["title", "order"]) (vals := [.text "x", .int 7])
    (nameOf rfl (by decide) (by decide)) ⟨nameOf rfl (by decide) (by decide), by decide⟩
    postCols (by decide) rfl (by decide) rfl (by decide) rfl
  have : new.val "id" = .int 4 := h1.2.2 "id" (by decide)
  refine ⟨new, h1, ?_⟩
  rw [← this]
  refine h3 ?_
  show ¬∃ r ∈ postDb.rows "post", Equal exRel (r.val "id") (new.val "id")
  rw [this]
  intro ⟨r, hr, he⟩
  simp only [postDb, if_true, List.mem_cons, List.not_mem_nil, or_false] at hr
  rcases hr with rfl | rfl | rfl <;> revert he <;> unfold Equal <;> decide

/-- C15 violated: a model whose automatic key is called `order` cannot be inserted into
PostgreSQL, the statement is not readable. -/
theorem pg_returning_reserved_violated (rel : Compare) (env : Env) (db : Db) (v : SqlVal) :
    execText false rel exRes env db (pgInsertReturning exKw "post" ["title"] "order" [v]).text
      (pgInsertReturning exKw "post" ["title"] "order" [v]).params = none := by
  have : parseStmt false (lex exRes (pgInsertReturning exKw "post" ["title"] "order" [v]).text)
      = none := rfl
  simp only [execText, this]

/-- C15, update: exactly the rows with the given key get the i-th value in the i-th
column, their other columns and all other rows stay as they are. -/
theorem update_stores_partial {b : Backend} (rel : Compare) {kw res : String → Bool}
    (hk : CoversReserved kw res) (env : Env) {db : Db} {table pkcol : String} {pk : SqlVal}
    {cols : List String} {vals : List SqlVal} (ht : IsName table) (hpk : IsName pkcol)
    (hs : ∀ c ∈ cols, IsName c) (hne : cols ≠ []) (hnd : cols.Nodup)
    (hl : vals.length = cols.length) (hf : Fits b (cols.length + 1)) (hdb : db.has table = true)
    (hcols : ∀ c ∈ cols, (env.template table (db.rows table)).has c = true)
    (hpkr : ∀ r ∈ db.rows table, r.has pkcol = true) :
    ∃ f : Row → Row,
      (∀ r, Equal rel (r.val pkcol) (toDb pk) → Stored r cols vals (f r)) ∧
      (∀ r, ¬ Equal rel (r.val pkcol) (toDb pk) → f r = r) ∧
      execText b.isSqlite rel res env db (b.update kw table pkcol pk cols vals).text
        (b.update kw table pkcol pk cols vals).params =
        some (setRows db table ((db.rows table).map f),
          ((db.rows table).filter fun r => sameKey rel (r.val pkcol) (toDb pk)).length, none) := by
  have hlex : lex res (b.update kw table pkcol pk cols vals).text = toksUpdate table pkcol cols := by
    cases b with
    | sqlite => exact (reads_update (d := sqliteDialect kw) (cnt := fun n => n)
        (B := cols.length + 1) hk (phReads_sqlite kw res _) ht hpk hs (Nat.le_refl _)).lex rfl
    | pg => exact (reads_update (d := pgDialect kw) (cnt := fun _ => 0) (B := 127)
        hk (phReads_pg kw res) ht hpk hs (Nat.le_trans (hf rfl) (by decide))).lex rfl
  obtain ⟨f, h1, h2, h3⟩ := exec_update (rel := rel) (env := env) (pk := pk) hnd hl hdb hcols hpkr
  refine ⟨f, h1, h2, ?_⟩
  simp only [execText, hlex, parse_update hne]
  exact h3

example : ∃ f : Row → Row,
    (∀ r, Equal exRel (r.val "id") (.int 2) → Stored r ["title", "order"] [.text "x", .int 7] (f r)) ∧
    (∀ r, ¬ Equal exRel (r.val "id") (.int 2) → f r = r) ∧
    execText true exRel exRes exEnv postDb
      (lit "UPDATE post SET title = ?, \"order\" = ? WHERE id = ?") [.text "x", .int 7, .int 2] =
      some (setRows postDb "post" ((postDb.rows "post").map f), 1, none) :=
  update_stores_partial (b := .sqlite) exRel exCovers exEnv (db := postDb) (table := "post")
    (pkcol := "id") (pk := .int 2) (cols := ["title", "order"]) (vals := [.text "x", .int 7])
    (nameOf rfl (by decide) (by decide)) (nameOf rfl (by decide) (by decide)) postCols (by simp)
    (by decide) rfl (fun h => by cases h) rfl (by decide) (by decide)

/-- C15, upsert: if a row has the key, exactly such rows get the values; otherwise one
new row does.  There is no limit on the number of columns. -/
theorem upsert_stores {b : Backend} (rel : Compare) {kw res : String → Bool}
    (hk : CoversReserved kw res) (hx : res "excluded" = false) (env : Env) {db : Db}
    {table : String} {cols : List String} {vals : List SqlVal} (ht : IsName table)
    (htx : table ≠ "excluded") (hpk : IsName (env.key table)) (hs : ∀ c ∈ cols, IsName c)
    (hnd : cols.Nodup) (hl : vals.length = cols.length) (hone : 1 < cols.length)
    (hdb : db.has table = true)
    (hcols : ∀ c ∈ cols, (env.template table (db.rows table)).has c = true) :
    ∃ new, Stored (env.template table (db.rows table)) cols vals new ∧
      ((∃ r ∈ db.rows table, Equal rel (r.val (env.key table)) (new.val (env.key table))) →
        ∃ f : Row → Row,
          (∀ r, Equal rel (r.val (env.key table)) (new.val (env.key table)) →
            Stored r cols vals (f r)) ∧
          (∀ r, ¬ Equal rel (r.val (env.key table)) (new.val (env.key table)) → f r = r) ∧
          execText b.isSqlite rel res env db (b.upsert kw table cols (env.key table) vals).text
            (b.upsert kw table cols (env.key table) vals).params =
            some (setRows db table ((db.rows table).map f), 1, none)) ∧
      ((¬∃ r ∈ db.rows table, Equal rel (r.val (env.key table)) (new.val (env.key table))) →
        execText b.isSqlite rel res env db (b.upsert kw table cols (env.key table) vals).text
            (b.upsert kw table cols (env.key table) vals).params =
          some (setRows db table (db.rows table ++ [new]), 1, none)) := by
  have hne : cols ≠ [] := by rintro rfl; simp at hone
  have hlex : lex res (b.upsert kw table cols (env.key table) vals).text =
      toksInsert table cols ++ toksConflict cols (env.key table) := by
    cases b with
    | sqlite =>
      refine (reads_upsert (d := sqliteDialect kw) (cnt := fun n => n) hk hx hne ht hpk hs ?_).lex rfl
      have := readsList_phs (res := res) (cnt := fun n => n) (f := fun _ => lit "?") (n := 0)
        (count := cols.length) (fun i _ r _ => rfl)
      rw [Nat.zero_add] at this
      have e : (cols.map fun _ => lit "?") = (List.range cols.length).map fun _ => lit "?" := by
        apply List.ext_getElem <;> simp
      rw [e]
      exact this
    | pg =>
      refine (reads_upsert (d := pgDialect kw) (cnt := fun _ => 0) hk hx hne ht hpk hs ?_).lex rfl
      have := readsList_phs (res := res) (cnt := fun _ => 0) (f := fun i => '$' :: natText (i + 1))
        (n := 0) (count := cols.length) (fun i _ r hr => by
          rw [Nat.zero_add]
          exact lex_dollar res i 0 r hr)
      rw [Nat.zero_add] at this
      exact this
  have hp := parse_insert (sq := b.isSqlite) (table := table) hne
    (pTail_conflict (cols := cols) (pkcol := env.key table))
  rw [if_pos (show cols.length > 1 from hone)] at hp
  have hpar : (b.upsert kw table cols (env.key table) vals).params = vals := by cases b <;> rfl
  have := exec_upsert (rel := rel) (env := env) hnd hl hone htx hdb hcols
  simpa only [execText, hlex, hp, hpar] using this

example : ∃ f : Row → Row,
    (∀ r, Equal exRel (r.val "id") (.int 2) → Stored r ["id", "name"] [.int 2, .text "x"] (f r)) ∧
    (∀ r, ¬ Equal exRel (r.val "id") (.int 2) → f r = r) ∧
    execText true exRel exRes exEnv postDb
      (lit "INSERT INTO blog (id, name) VALUES (?, ?) ON CONFLICT (id) DO UPDATE SET (id, name) = (excluded.id, excluded.name)")
      [.int 2, .text "x"] =
      some (setRows postDb "blog" ((postDb.rows "blog").map f), 1, none) := by
  obtain ⟨new, h1, h2, _⟩ := upsert_stores (b := .sqlite) exRel exCovers rfl exEnv (db := postDb)
    (table := "blog") (cols := ["id", "name"]) (vals := [.int 2, .text "x"])
    (nameOf rfl (by decide) (by decide)) (by decide) (nameOf (s := "id") rfl (by decide) (by decide))
    (by
      intro c hc
      simp only [List.mem_cons, List.not_mem_nil, or_false] at hc
      rcases hc with rfl | rfl <;> exact nameOf rfl (by decide) (by decide))
    (by decide) rfl (by decide) rfl (by decide)
  have hid : new.val "id" = .int 2 := h1.2.1 0 "id" (.int 2) rfl rfl
  have hk : exEnv.key "blog" = "id" := rfl
  rw [hk, hid] at h2
  exact h2 ⟨rowOf [("id", .int 2), ("name", text "dogs")], by simp [postDb], by
    unfold Equal; decide⟩

/-- C15, upsert of a single column: nothing changes if the key is there, otherwise one new
row is added. -/
theorem upsert_single_stores {b : Backend} (rel : Compare) {kw res : String → Bool}
    (hk : CoversReserved kw res) (hx : res "excluded" = false) (env : Env) {db : Db}
    {table c : String} {v : SqlVal} (ht : IsName table)
    (hpk : IsName (env.key table)) (hs : IsName c) (hdb : db.has table = true)
    (hcols : (env.template table (db.rows table)).has c = true) :
    ∃ new, Stored (env.template table (db.rows table)) [c] [v] new ∧
      ((∃ r ∈ db.rows table, Equal rel (r.val (env.key table)) (new.val (env.key table))) →
        execText b.isSqlite rel res env db (b.upsert kw table [c] (env.key table) [v]).text
            (b.upsert kw table [c] (env.key table) [v]).params = some (db, 0, none)) ∧
      ((¬∃ r ∈ db.rows table, Equal rel (r.val (env.key table)) (new.val (env.key table))) →
        execText b.isSqlite rel res env db (b.upsert kw table [c] (env.key table) [v]).text
            (b.upsert kw table [c] (env.key table) [v]).params =
          some (setRows db table (db.rows table ++ [new]), 1, none)) := by
  have hs' : ∀ x ∈ [c], IsName x := by simpa using hs
  have hlex : lex res (b.upsert kw table [c] (env.key table) [v]).text =
      toksInsert table [c] ++ toksConflict [c] (env.key table) := by
    cases b with
    | sqlite =>
      refine (reads_upsert (d := sqliteDialect kw) (cnt := fun n => n) hk hx (by simp) ht hpk hs'
        ?_).lex rfl
      exact .cons (fun r _ => rfl) (.nil _)
    | pg =>
      refine (reads_upsert (d := pgDialect kw) (cnt := fun _ => 0) hk hx (by simp) ht hpk hs'
        ?_).lex rfl
      exact .cons (n1 := 1) (fun r hr => lex_dollar res 0 0 r hr) (.nil _)
  have hp := parse_insert (sq := b.isSqlite) (table := table) (cols := [c]) (by simp)
    (pTail_conflict (cols := [c]) (pkcol := env.key table))
  rw [if_neg (by simp)] at hp
  have hpar : (b.upsert kw table [c] (env.key table) [v]).params = [v] := by cases b <;> rfl
  have := exec_upsert_one (rel := rel) (env := env) (cols := [c]) (vals := [v]) (by simp) rfl hdb
    (by simpa using hcols)
  simpa only [execText, hlex, hp, hpar] using this

example : execText false exRel exRes exEnv postDb
    (lit "INSERT INTO tag (tag) VALUES ($1) ON CONFLICT (tag) DO NOTHING") [.text "pets"] =
      some (postDb, 0, none) := by
  obtain ⟨new, h1, h2, _⟩ := upsert_single_stores (b := .pg) exRel exCovers rfl exEnv (db := postDb)
    (table := "tag") (c := "tag") (v := .text "pets") (nameOf rfl (by decide) (by decide))
    (nameOf (s := "tag") rfl (by decide) (by decide)) (nameOf rfl (by decide) (by decide)) rfl rfl
  have hid : new.val "tag" = text "pets" := h1.2.1 0 "tag" (.text "pets") rfl rfl
  have hk : exEnv.key "tag" = "tag" := rfl
  rw [hk, hid] at h2
  exact h2 ⟨rowOf [("tag", text "pets")], by simp [postDb], by unfold Equal; decide⟩

/-! ### C16 -/

/-- C16.  The possible results of `load` are exactly those described by the query: the
matching rows in an order that the order terms allow, without the first `offset` and cut
to `limit`, the columns in the order asked for.
Partial: conditions as in C11 (`QueryOK`), limit and offset not negative
(`load_negative_limit`), and on SQLite an offset without limit returns at most 2147483647
rows (`load_offset_only_violated`). -/
theorem load_result_partial {b : Backend} (rel : Compare) (le : DbVal → DbVal → Bool)
    {kw res : String → Bool} (hk : CoversReserved kw res) {db : Db} {q : Query}
    {cols : List String} (hq : QueryOK b.isSqlite res db q cols)
    (hl : NonNeg q.limit) (ho : NonNeg q.offset)
    (hbig : b = .sqlite → q.limit = none → ∀ o ∈ q.offset,
      (matching rel db q.table q.filter).length ≤ o.toInt.toNat + 2147483647)
    (out : Option (List (List DbVal))) :
    QueryOut b.isSqlite rel le res db (q.load b kw cols).text (q.load b kw cols).params out ↔
      ∃ rows, LoadResult rel le db q.table q.filter (Spec.count q.limit) (Spec.count q.offset)
          q.sort rows ∧ out = some (rows.map fun r => cols.map r.val) := by
  by_cases hcase : b = .sqlite ∧ q.limit = none ∧ q.offset ≠ none
  · obtain ⟨rfl, hlim, hoff⟩ := hcase
    obtain ⟨o, ho'⟩ := Option.ne_none_iff_exists'.1 hoff
    have key := queryOut_iff (b := .sqlite) (rel := rel) (le := le) hk hq (some 2147483647) q.offset
      (by simp) (readCount_nonneg (n := some 2147483647) (by
        intro x hx
        simp only [Option.mem_def, Option.some.injEq] at hx
        subst hx
        decide)) (readCount_nonneg ho) out
    have htext : q.load .sqlite kw cols =
        Backend.query .sqlite kw q.table cols q.filter (some 2147483647) q.offset q.sort := by
      simp only [Query.load, Query.fetch, Backend.query, sqliteQuery, hlim, ho', List.append_nil,
        List.append_assoc, List.nil_append]
    rw [htext]
    refine key.trans ?_
    have hb := hbig rfl hlim o ho'
    have hc1 : Spec.count (some (2147483647 : Int32)) = some 2147483647 := rfl
    have hc2 : Spec.count q.offset = some o.toInt.toNat := by rw [ho']; rfl
    have hc3 : Spec.count q.limit = none := by rw [hlim]; rfl
    rw [hc1, hc2, hc3]
    constructor
    · rintro ⟨rows, ⟨all, h1, h2, h3⟩, h4⟩
      refine ⟨rows, ⟨all, h1, h2, ?_⟩, h4⟩
      rw [h3]
      simp only
      rw [List.take_of_length_le]
      rw [List.length_drop, h1.length_eq]
      omega
    · rintro ⟨rows, ⟨all, h1, h2, h3⟩, h4⟩
      refine ⟨rows, ⟨all, h1, h2, ?_⟩, h4⟩
      rw [h3]
      simp only
      rw [List.take_of_length_le]
      rw [List.length_drop, h1.length_eq]
      omega
  · exact queryOut_iff hk hq q.limit q.offset (by
      intro hb hlim
      by_cases ho : q.offset = none
      · exact ho
      · exact absurd ⟨hb, hlim, ho⟩ hcase) (readCount_nonneg hl) (readCount_nonneg ho) out

/-- Order of integers; everything else is equal. -/
def exLe : DbVal → DbVal → Bool
  | .int a, .int b => decide (a ≤ b)
  | _, _ => true

/-- `Post::query().filter(order > 3).order_desc("order").order_asc("id").offset(1)`. -/
def exQuery : Query :=
  (((Query.new "post").withFilter (.cmp .ge "id" (.val (.int 0)))).order "order" .desc).order "id" .asc
    |>.withOffset 1

theorem exQuery_ok (b : Bool) : QueryOK b exRes postDb exQuery ["id", "title"] where
  table := nameOf (s := "post") rfl (by decide) (by decide)
  exists_ := rfl
  cols_ne := by simp
  cols := by
    intro c hc
    simp only [List.mem_cons, List.not_mem_nil, or_false] at hc
    rcases hc with rfl | rfl <;> exact ⟨nameOf rfl (by decide) (by decide), by decide⟩
  sort := by
    intro o ho
    have : o ∈ [Order.mk .desc "order", ⟨.asc, "id"⟩] := ho
    simp only [List.mem_cons, List.not_mem_nil, or_false] at this
    rcases this with rfl | rfl <;> exact ⟨nameOf rfl (by decide) (by decide), by decide⟩
  filter := by
    intro e he
    obtain rfl : BoolExpr.cmp .ge "id" (.val (.int 0)) = e := Option.some.inj he
    refine ⟨?_, ?_, ?_, ?_⟩
    · simp only [NamesOK, NamesExprOK, PlainName, and_true]
      exact ⟨nameOf rfl (by decide) (by decide), by decide⟩
    · simp [NeedsNoParens, SimpleOperand]
    · simp only [Scoped, Visible]
      decide
    · intro _
      simp [valsBool, valsExpr, valsVal, isNullTest]

def leRel : Compare
  | .ge, .int a, .int b => decide (b ≤ a)
  | op, a, b => exRel op a b

example : ∀ out, QueryOut true leRel exLe exRes postDb
      (lit "SELECT id, title FROM post WHERE id >= 0 ORDER BY \"order\" DESC, id ASC LIMIT 2147483647 OFFSET 1")
      [] out ↔
    ∃ rows, LoadResult leRel exLe postDb "post" exQuery.filter none (some 1) exQuery.sort rows ∧
      out = some (rows.map fun r => [r.val "id", r.val "title"]) :=
  load_result_partial (b := .sqlite) leRel exLe exCovers (exQuery_ok _) (by simp [NonNeg, exQuery,
    Query.withOffset, Query.order, Query.withFilter, Query.new]) (by
    intro x hx
    obtain rfl : (1 : Int32) = x := Option.some.inj hx
    decide) (by
    intro _ _ o ho
    have h : (matching leRel postDb exQuery.table exQuery.filter).length ≤ (postDb.rows "post").length :=
      List.length_filter_le _ _
    have h2 : (postDb.rows "post").length = 3 := rfl
    omega)

/-- Such a result: the second and third row. -/
example : LoadResult leRel exLe postDb "post" exQuery.filter none (some 1) exQuery.sort
    [rowOf [("id", .int 2), ("title", text "a"), ("order", .int 5)],
     rowOf [("id", .int 3), ("title", .null), ("order", .int 2)]] := by
  refine ⟨postDb.rows "post", ?_, ?_, rfl⟩
  · have : matching leRel postDb "post" exQuery.filter = postDb.rows "post" := rfl
    rw [this]
  · show List.Pairwise (Before exLe [("order", .desc), ("id", .asc)]) _
    simp only [postDb, if_true, List.pairwise_cons, List.mem_cons, List.not_mem_nil, or_false,
      forall_eq_or_imp, forall_eq, Before, false_implies, implies_true, List.Pairwise.nil, and_true]
    decide

/-- C16: a negative limit means no limit to SQLite, and PostgreSQL refuses it. -/
theorem load_negative_limit (rel : Compare) (le : DbVal → DbVal → Bool)
    {kw res : String → Bool} (hk : CoversReserved kw res) {db : Db} {q : Query}
    {cols : List String} {l : Int32} (hl : l.toInt < 0) (hlim : q.limit = some l)
    (hoff : q.offset = none) (out : Option (List (List DbVal))) :
    (QueryOK true res db q cols →
      (QueryOut true rel le res db (q.load .sqlite kw cols).text (q.load .sqlite kw cols).params out ↔
        ∃ rows, LoadResult rel le db q.table q.filter none none q.sort rows ∧
          out = some (rows.map fun r => cols.map r.val))) ∧
    (QueryOK false res db q cols →
      (QueryOut false rel le res db (q.load .pg kw cols).text (q.load .pg kw cols).params out ↔
        out = none)) := by
  have hneg : ∃ k, l.toInt = .negSucc k := by
    cases h : l.toInt with
    | ofNat k => rw [h] at hl; simp at hl; omega
    | negSucc k => exact ⟨k, rfl⟩
  obtain ⟨k, hk'⟩ := hneg
  constructor
  · intro hq
    have := queryOut_iff (b := .sqlite) (rel := rel) (le := le) hk hq (some l) none (nl := none)
      (no := none) (by simp) (by simp [hk', readCount, Backend.isSqlite]) rfl out
    simpa only [Query.load, Query.fetch, hlim, hoff, Backend.isSqlite] using this
  · intro hq
    simp only [Query.load, Query.fetch, hlim, hoff]
    exact queryOut_neg_limit_pg hk hq hk' out

example : ∀ out, QueryOut false leRel exLe exRes postDb
      (lit "SELECT id, title FROM post WHERE id >= 0 LIMIT -1") [] out ↔ out = none := fun out =>
  (load_negative_limit leRel exLe exCovers (cols := ["id", "title"]) (l := -1)
    (q := (Query.new "post").withFilter (.cmp .ge "id" (.val (.int 0))) |>.withLimit (-1))
    (by decide) rfl rfl out).2
    { exQuery_ok false with sort := by intro o ho; exact absurd ho (by simp [Query.withLimit, Query.withFilter, Query.new]) }

/-- A table with `n` rows. -/
def bigDb (n : Nat) : Db where
  has t := t = "tag"
  rows _ := List.replicate n (rowOf [("tag", text "pets")])

theorem bigDb_matching (n : Nat) : (matching exRel (bigDb n) "tag" none).length = n := by
  have : matching exRel (bigDb n) "tag" none = List.replicate n (rowOf [("tag", text "pets")]) :=
    List.filter_eq_self.2 (fun _ _ => rfl)
  rw [this, List.length_replicate]

theorem bigDb_ok (n : Nat) : QueryOK true exRes (bigDb n) ((Query.new "tag").withOffset 1) ["tag"] where
  table := nameOf (s := "tag") rfl (by decide) (by decide)
  exists_ := rfl
  cols_ne := by simp
  cols := by
    intro c hc
    simp only [List.mem_cons, List.not_mem_nil, or_false] at hc
    subst hc
    refine ⟨nameOf rfl (by decide) (by decide), ?_⟩
    intro r hr
    have hr : r ∈ List.replicate n (rowOf [("tag", text "pets")]) := hr
    rw [List.eq_of_mem_replicate hr]
    decide
  sort := by
    intro o ho
    exact absurd ho (by simp [Query.withOffset, Query.new])
  filter := by
    intro o ho
    exact absurd ho (by simp [Query.withOffset, Query.new])

/-- C16 violated: on SQLite an offset without limit does not return all remaining rows. -/
theorem load_offset_only_violated :
    ¬∀ (rel : Compare) (le : DbVal → DbVal → Bool) (kw res : String → Bool) (db : Db) (q : Query)
      (cols : List String), CoversReserved kw res → QueryOK true res db q cols → q.limit = none →
      NonNeg q.offset → ∃ rows,
        LoadResult rel le db q.table q.filter none (Spec.count q.offset) q.sort rows ∧
        QueryOut true rel le res db (q.load .sqlite kw cols).text (q.load .sqlite kw cols).params
          (some (rows.map fun r => cols.map r.val)) := by
  intro h
  obtain ⟨n, hn⟩ : ∃ n, n = 2147483649 := ⟨_, rfl⟩
  have hq := bigDb_ok n
  obtain ⟨rows, h1, h2⟩ := h exRel exLe exKw exRes (bigDb n) ((Query.new "tag").withOffset 1) ["tag"]
    exCovers hq rfl (by
      intro x hx
      obtain rfl : (1 : Int32) = x := Option.some.inj hx
      decide)
  have htext : ((Query.new "tag").withOffset 1).load .sqlite exKw ["tag"] =
      Backend.query .sqlite exKw "tag" ["tag"] none (some 2147483647) (some 1) [] := rfl
  rw [htext] at h2
  obtain ⟨rows', ⟨all', h3, _, h4⟩, h5⟩ := (queryOut_iff (b := .sqlite) exCovers hq (some 2147483647)
    (some 1) (nl := some 2147483647) (no := some 1) (by simp) rfl rfl _).1 h2
  obtain ⟨all, h6, _, h7⟩ := h1
  have hm := bigDb_matching n
  have l1 : rows.length = rows'.length := by
    have := congrArg List.length (Option.some.inj h5)
    simpa using this
  have l2 : rows'.length ≤ 2147483647 := by
    rw [h4]
    exact List.length_take_le _ _
  have l3 : rows.length = 2147483648 := by
    rw [h7]
    show (all.drop 1).length = _
    rw [List.length_drop, h6.length_eq]
    show (matching exRel (bigDb n) "tag" none).length - 1 = _
    rw [hm, hn]
  omega

/-- C53.  A chain of builder calls gives a query with the last limit, the last offset,
all the order terms in the order of the calls, and, if there was at most one condition,
the objects that satisfy it.  Partial: with several conditions only the last one counts
(`filter_twice_violated`). -/
theorem builder_calls_partial (rel : Compare) (db : Db) (table : String) (calls : List QCall)
    (h : (filtersOf calls).length ≤ 1) :
    (Query.build table calls).table = table ∧
    (Query.build table calls).limit = (limitsOf calls).getLast? ∧
    (Query.build table calls).offset = (offsetsOf calls).getLast? ∧
    (Query.build table calls).sort = ordersOf calls ∧
    matching rel db table (Query.build table calls).filter =
      (db.rows table).filter fun r =>
        (filtersOf calls).all fun e => decide (boolValue rel db r e = some true) := by
  have key : ∀ (calls : List QCall) (q : Query),
      (calls.foldl Query.call q).table = q.table ∧
      (calls.foldl Query.call q).limit = (limitsOf calls).getLast?.or q.limit ∧
      (calls.foldl Query.call q).offset = (offsetsOf calls).getLast?.or q.offset ∧
      (calls.foldl Query.call q).sort = q.sort ++ ordersOf calls ∧
      (calls.foldl Query.call q).filter = (filtersOf calls).getLast?.or q.filter := by
    intro calls
    induction calls with
    | nil => intro q; simp [limitsOf, offsetsOf, ordersOf, filtersOf]
    | cons c rest ih =>
      intro q
      obtain ⟨h1, h2, h3, h4, h5⟩ := ih (q.call c)
      rw [List.foldl_cons, h1, h2, h3, h4, h5]
      cases c <;>
        simp [Query.call, Query.withFilter, Query.withLimit, Query.withOffset, Query.order,
          limitsOf, offsetsOf, ordersOf, filtersOf, List.getLast?_cons] <;>
        rw [← Option.or_some] <;> simp
  obtain ⟨h1, h2, h3, h4, h5⟩ := key calls (Query.new table)
  refine ⟨h1, ?_, ?_, ?_, ?_⟩
  · rw [Query.build, h2]; exact Option.or_none
  · rw [Query.build, h3]; exact Option.or_none
  · rw [Query.build, h4]; rfl
  · rw [Query.build, h5]
    show matching rel db table ((filtersOf calls).getLast?.or none) = _
    rw [Option.or_none]
    generalize filtersOf calls = fs at h
    match fs, h with
    | [], _ => rfl
    | [e], _ => simp [matching]

example : (Query.build "post" [.limit 3, .order "order" .desc, .limit 2, .order "id" .asc]).limit =
    some 2 := (builder_calls_partial exRel postDb "post" _ (by decide)).2.1

example : (filtersOf [.limit 3, .filter .true_, .order "id" .asc]).length ≤ 1 := by decide

/-- C53 violated: the second condition replaces the first one. -/
theorem filter_twice_violated :
    ¬∀ (rel : Compare) (db : Db) (table : String) (a b : BoolExpr),
      matching rel db table (Query.build table [.filter a, .filter b]).filter =
        (db.rows table).filter fun r =>
          decide (boolValue rel db r a = some true) && decide (boolValue rel db r b = some true) := by
  intro h
  have h := h exRel postDb "post" (.cmp .eq "id" (.val (.int 1))) .true_
  have h1 : (matching exRel postDb "post" (Query.build "post"
    [.filter (.cmp .eq "id" (.val (.int 1))), .filter .true_]).filter).length = 3 := rfl
  rw [h] at h1
  exact absurd h1 (by decide)

/-! ### C17 -/

/-- C17.  `load_first` keeps the first row of the result of its statement.  The possible
results are exactly the first row of a possible result of `load`, or none if that is
empty.  Partial: as `load_result_partial`, and a limit of 0 is ignored
(`load_first_limit_zero_violated`). -/
theorem load_first_partial {b : Backend} (rel : Compare) (le : DbVal → DbVal → Bool)
    {kw res : String → Bool} (hk : CoversReserved kw res) {db : Db} {q : Query}
    {cols : List String} (hq : QueryOK b.isSqlite res db q cols)
    (hl : ∀ x ∈ q.limit, 0 < x.toInt) (ho : NonNeg q.offset) (first : Option (List DbVal)) :
    (∃ out, QueryOut b.isSqlite rel le res db (q.loadFirst b kw cols).text
        (q.loadFirst b kw cols).params (some out) ∧ out.head? = first) ↔
      ∃ rows, LoadResult rel le db q.table q.filter (Spec.count q.limit) (Spec.count q.offset)
          q.sort rows ∧ first = (rows.map fun r => cols.map r.val).head? := by
  have key := queryOut_iff (b := b) (rel := rel) (le := le) hk hq (some 1) q.offset (by simp)
    (readCount_nonneg (n := some 1) (by
      intro x hx
      obtain rfl : (1 : Int32) = x := Option.some.inj hx
      decide)) (readCount_nonneg ho)
  have hc : Spec.count (some (1 : Int32)) = some 1 := rfl
  have hlim : Spec.count q.limit = none ∨ ∃ n, Spec.count q.limit = some (n + 1) := by
    cases h : q.limit with
    | none => exact .inl rfl
    | some x =>
      have := hl x h
      refine .inr ⟨x.toInt.toNat - 1, ?_⟩
      simp only [Spec.count, Option.map_some, Option.some.injEq]
      omega
  constructor
  · rintro ⟨out, h1, rfl⟩
    obtain ⟨rows, ⟨all, h2, h3, h4⟩, h5⟩ := (key _).1 h1
    rw [hc] at h4
    obtain rfl := Option.some.inj h5
    rcases hlim with hn | ⟨n, hn⟩
    · refine ⟨_, ⟨all, h2, h3, rfl⟩, ?_⟩
      rw [hn, h4]
      cases Spec.count q.offset with
      | none => cases all <;> rfl
      | some o => simp only; cases all.drop o <;> rfl
    · refine ⟨_, ⟨all, h2, h3, rfl⟩, ?_⟩
      rw [hn, h4]
      cases Spec.count q.offset with
      | none => cases all <;> rfl
      | some o => simp only; cases all.drop o <;> rfl
  · rintro ⟨rows, ⟨all, h2, h3, h4⟩, rfl⟩
    refine ⟨_, (key _).2 ⟨_, ⟨all, h2, h3, rfl⟩, rfl⟩, ?_⟩
    rw [hc, h4]
    rcases hlim with hn | ⟨n, hn⟩
    · rw [hn]
      cases Spec.count q.offset with
      | none => cases all <;> rfl
      | some o => simp only; cases all.drop o <;> rfl
    · rw [hn]
      cases Spec.count q.offset with
      | none => cases all <;> rfl
      | some o => simp only; cases all.drop o <;> rfl

example : ∀ first, (∃ out, QueryOut false leRel exLe exRes postDb
      (lit "SELECT id, title FROM post WHERE id >= 0 ORDER BY \"order\" DESC, id ASC LIMIT 1 OFFSET 1")
      [] (some out) ∧ out.head? = first) ↔
    ∃ rows, LoadResult leRel exLe postDb "post" exQuery.filter none (some 1) exQuery.sort rows ∧
      first = (rows.map fun r => [r.val "id", r.val "title"]).head? :=
  load_first_partial (b := .pg) leRel exLe exCovers (exQuery_ok _) (by
    intro x hx
    exact absurd hx (by simp [exQuery, Query.withOffset, Query.order, Query.withFilter, Query.new]))
    (by
    intro x hx
    obtain rfl : (1 : Int32) = x := Option.some.inj hx
    decide)

/-- The query of `exQuery` with another limit. -/
theorem exQuery_limit_ok (b : Bool) (n : Int32) :
    QueryOK b exRes postDb (exQuery.withLimit n) ["id", "title"] where
  table := (exQuery_ok b).table
  exists_ := (exQuery_ok b).exists_
  cols_ne := (exQuery_ok b).cols_ne
  cols := (exQuery_ok b).cols
  sort := (exQuery_ok b).sort
  filter := (exQuery_ok b).filter

/-- C17 violated: with a limit of 0 `load` returns nothing, but `load_first` returns an
object, on both backends. -/
theorem load_first_limit_zero_violated (b : Backend) :
    (∀ out, QueryOut b.isSqlite leRel exLe exRes postDb
      ((exQuery.withLimit 0).load b exKw ["id", "title"]).text
      ((exQuery.withLimit 0).load b exKw ["id", "title"]).params out → out = some []) ∧
    (∃ out, QueryOut b.isSqlite leRel exLe exRes postDb
      ((exQuery.withLimit 0).loadFirst b exKw ["id", "title"]).text
      ((exQuery.withLimit 0).loadFirst b exKw ["id", "title"]).params (some out) ∧
      out.head? = some [.int 2, text "a"]) := by
  constructor
  · intro out h
    obtain ⟨rows, ⟨all, _, _, h1⟩, rfl⟩ := (queryOut_iff exCovers (exQuery_limit_ok _ 0) (some 0)
      (some 1) (nl := some 0) (no := some 1) (by simp) (by cases b <;> rfl) (by cases b <;> rfl) _).1 h
    simp only [List.take_zero] at h1
    rw [h1]
    rfl
  · have : (exQuery.withLimit 0).loadFirst b exKw ["id", "title"] =
        (exQuery.withLimit 1).load b exKw ["id", "title"] := rfl
    refine ⟨[[.int 2, text "a"]], ?_, rfl⟩
    rw [this]
    refine (queryOut_iff exCovers (exQuery_limit_ok _ 1) (some 1)
      (some 1) (nl := some 1) (no := some 1) (by simp) (by cases b <;> rfl) (by cases b <;> rfl) _).2
      ⟨_, ⟨postDb.rows "post", ?_, ?_, rfl⟩, rfl⟩
    · have : matching leRel postDb "post" exQuery.filter = postDb.rows "post" := rfl
      exact .of_eq this.symm
    · show List.Pairwise (Before exLe [("order", .desc), ("id", .asc)]) _
      simp only [postDb, if_true, List.pairwise_cons, List.mem_cons, List.not_mem_nil, or_false,
        forall_eq_or_imp, forall_eq, Before, false_implies, implies_true, List.Pairwise.nil, and_true]
      decide

/-! ### C18 -/

/-- C18.  `delete` removes exactly the rows of the table that `load` of the same query
returns, leaves all others, and returns their number.
Partial: conditions as in C11, and the query has no limit and no offset
(`query_delete_limit_violated`). -/
theorem query_delete_partial {b : Backend} (rel : Compare) (le : DbVal → DbVal → Bool)
    {kw res : String → Bool} (hk : CoversReserved kw res) (env : Env) {db : Db} {q : Query}
    {cols : List String} (hq : QueryOK b.isSqlite res db q cols) (hl : q.limit = none)
    (ho : q.offset = none) (rows : List Row)
    (hload : LoadResult rel le db q.table q.filter (Spec.count q.limit) (Spec.count q.offset)
      q.sort rows) :
    ∃ keep, execText b.isSqlite rel res env db (q.delete b kw).text (q.delete b kw).params =
        some (setRows db q.table keep, rows.length, none) ∧
      keep.Sublist (db.rows q.table) ∧
      ((rows ++ keep).Perm (db.rows q.table)) ∧
      ∀ r ∈ keep, r ∉ rows := by
  have hrows : rows.Perm (matching rel db q.table q.filter) := by
    obtain ⟨all, h1, _, h2⟩ := hload
    rw [hl, ho] at h2
    simp only [Spec.count, Option.map_none] at h2
    rw [h2]
    exact h1
  -- the condition
  have main : ∀ e : BoolExpr, NamesOK res e → NeedsNoParens b.isSqlite .or e →
      (∀ r ∈ db.rows q.table, Scoped db r [] e) →
      (b.isSqlite = false → (valsBool e).length ≤ 126) →
      matching rel db q.table q.filter =
        (db.rows q.table).filter (fun r => decide (boolValue rel db r e = some true)) →
      q.delete b kw = b.deleteWhere kw q.table e →
      ∃ keep, execText b.isSqlite rel res env db (q.delete b kw).text (q.delete b kw).params =
          some (setRows db q.table keep, rows.length, none) ∧
        keep.Sublist (db.rows q.table) ∧
        ((rows ++ keep).Perm (db.rows q.table)) ∧
        ∀ r ∈ keep, r ∉ rows := by
    intro e hn hp hs hv hm hd
    have hcnt : cntBool e = (valsBool e).length := (valsBool_len e (noPlaceholder_of e _ hp)).symm
    have hlex : lex res (b.deleteWhere kw q.table e).text =
        [.kw "DELETE", .kw "FROM", .ident q.table, .kw "WHERE"] ++ toksBool e 0 := by
      cases b with
      | sqlite => exact (reads_delete (d := sqliteDialect kw) (cnt := fun n => n) hk
          (phReads_sqlite kw res (cntBool e)) hq.table (oneJoin_of e _ hp) hn (Nat.le_refl _)).lex rfl
      | pg => exact (reads_delete (d := pgDialect kw) (cnt := fun _ => 0) (B := 127) hk
          (phReads_pg kw res) hq.table (oneJoin_of e _ hp) hn (by
            have := hv rfl
            omega)).lex rfl
    have hpar : (b.deleteWhere kw q.table e).params = valsBool e := by
      cases b <;> exact renderBool_vals _ e 0
    refine ⟨_, ?_, List.filter_sublist (p := fun r => !decide (boolValue rel db r e = some true)),
      ?_, ?_⟩
    · simp only [hd, execText, hlex, hpar, parse_delete hp]
      rw [exec_delete hp hs hq.exists_, hrows.length_eq, hm]
    · refine (List.Perm.append_right _ (hrows.trans (.of_eq hm))).trans ?_
      exact List.filter_append_perm _ _
    · intro r hr hc
      have h1 := hrows.subset hc
      rw [hm] at h1
      have h2 := (List.mem_filter.1 h1).2
      have h3 := (List.mem_filter.1 hr).2
      simp [h2] at h3
  cases hf : q.filter with
  | none =>
    refine main .true_ (by simp [NamesOK]) (by simp [NeedsNoParens]) (by simp [Scoped])
      (by simp [valsBool]) ?_ (by simp [Query.delete, hf])
    rw [hf]
    simp only [matching]
    congr 1
  | some e =>
    obtain ⟨h1, h2, h3, h4⟩ := hq.filter e hf
    refine main e h1 h2 h3 h4 ?_ (by simp [Query.delete, hf])
    rw [hf]
    rfl

/-- `Post::query().filter(id >= 0).order_desc("order")`. -/
def exDelQuery : Query := ((Query.new "post").withFilter (.cmp .gt "id" (.val (.int 1)))).order "order" .desc

theorem exDelQuery_ok (b : Bool) : QueryOK b exRes postDb exDelQuery ["id", "title"] where
  table := (exQuery_ok b).table
  exists_ := rfl
  cols_ne := by simp
  cols := (exQuery_ok b).cols
  sort := by
    intro o ho
    have : o ∈ [Order.mk .desc "order"] := ho
    simp only [List.mem_cons, List.not_mem_nil, or_false] at this
    subst this
    exact ⟨nameOf rfl (by decide) (by decide), by decide⟩
  filter := by
    intro e he
    obtain rfl : BoolExpr.cmp .gt "id" (.val (.int 1)) = e := Option.some.inj he
    refine ⟨?_, ?_, ?_, ?_⟩
    · simp only [NamesOK, NamesExprOK, PlainName, and_true]
      exact ⟨nameOf rfl (by decide) (by decide), by decide⟩
    · simp [NeedsNoParens, SimpleOperand]
    · simp only [Scoped, Visible]
      decide
    · intro _
      simp [valsBool, valsExpr, valsVal, isNullTest]

example : ∃ keep, execText false exRel exRes exEnv postDb
      (lit "DELETE FROM post WHERE id > 1") [] = some (setRows postDb "post" keep, 2, none) ∧
      keep.Sublist (postDb.rows "post") := by
  obtain ⟨keep, h1, h2, _⟩ := query_delete_partial (b := .pg) exRel (fun _ _ => true) exCovers exEnv
    (exDelQuery_ok _) rfl rfl
    [rowOf [("id", .int 2), ("title", text "a"), ("order", .int 5)],
     rowOf [("id", .int 3), ("title", .null), ("order", .int 2)]]
    ⟨_, .of_eq rfl, by
      show List.Pairwise (Before (fun _ _ => true) [("order", .desc)]) _
      simp [Before, List.pairwise_of_forall], rfl⟩
  exact ⟨keep, h1, h2⟩

/-- C18 violated: a query with a limit of 1 deletes all matching rows. -/
theorem query_delete_limit_violated (b : Backend) :
    (∀ rows, LoadResult exRel (fun _ _ => true) postDb "post"
      (exDelQuery.withLimit 1).filter (Spec.count (exDelQuery.withLimit 1).limit)
      (Spec.count (exDelQuery.withLimit 1).offset) (exDelQuery.withLimit 1).sort rows →
      rows.length = 1) ∧
    ∃ keep, execText b.isSqlite exRel exRes exEnv postDb ((exDelQuery.withLimit 1).delete b exKw).text
      ((exDelQuery.withLimit 1).delete b exKw).params = some (setRows postDb "post" keep, 2, none) := by
  constructor
  · rintro rows ⟨all, h1, _, h2⟩
    have : rows = all.take 1 := h2
    rw [this, List.length_take, h1.length_eq]
    rfl
  · have e : (exDelQuery.withLimit 1).delete b exKw = exDelQuery.delete b exKw := rfl
    rw [e]
    obtain ⟨keep, h1, _⟩ := query_delete_partial (b := b) exRel (fun _ _ => true) exCovers exEnv
      (exDelQuery_ok _) rfl rfl
      [rowOf [("id", .int 2), ("title", text "a"), ("order", .int 5)],
       rowOf [("id", .int 3), ("title", .null), ("order", .int 2)]]
      ⟨_, .of_eq rfl, by
        show List.Pairwise (Before (fun _ _ => true) [("order", .desc)]) _
        simp [Before, List.pairwise_of_forall], rfl⟩
    exact ⟨keep, h1⟩

end Butane.Props
