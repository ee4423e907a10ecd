/-
C10 - C14: what the SQL generated for query expressions means to the database.

`whereValue` (Spec/Sql.lean) tokenizes, parses and evaluates a `WHERE` text for one row,
`none` being a database error; `FilterHolds` and `boolValue` (Spec/Filter.lean) give the
meaning of the expressions.  `kw` is the keyword list of `quote_reserved_word`, `res` the
words the database refuses as identifiers.
-/
import Verif.Proofs.Filter

namespace Butane.Props
open Butane Sql Spec

/-! ### A small database for the examples -/

/-- A row from a list of columns. -/
def rowOf (cs : List (String × DbVal)) : Row :=
  ⟨fun c => (cs.lookup c).isSome, fun c => (cs.lookup c).getD .null⟩

def text (s : String) : DbVal := .other (.text s)

/-- Two blogs, one tag, and the link table of `Post.tags`. -/
def exDb : Db where
  has t := t ∈ ["blog", "tag", "post_tags_Many"]
  rows t :=
    if t = "blog" then [rowOf [("id", .int 1), ("name", text "cats")],
                        rowOf [("id", .int 2), ("name", text "dogs")]]
    else if t = "tag" then [rowOf [("tag", text "pets")]]
    else if t = "post_tags_Many" then [rowOf [("owner", .int 7), ("has", text "pets")]]
    else []

def exRow : Row := rowOf [("id", .int 7), ("title", text "hi"), ("blog", .int 2), ("likes", .null),
  ("a", .int 1), ("b", .int 0), ("c", .int 0)]

/-- Keywords: the words of the grammar. -/
def exKw (w : String) : Bool := decide (upper w.toList ∈ grammarWords)

/-- No further reserved words. -/
def exRes (_ : String) : Bool := false

/-- Equality of values; order of integers. -/
def exRel : Compare
  | .eq, a, b => decide (a = b)
  | .ne, a, b => decide (a ≠ b)
  | .gt, .int a, .int b => decide (b < a)
  | _, _, _ => false

theorem exCovers : CoversReserved exKw exRes := by
  intro w h
  simpa [exKw, exRes] using h

/-- `filter!(Post, title == "hi" && blog.matches(name == "dogs") || likes == None && tags.contains("pets"))`. -/
def exFilter : FOr :=
  .or (.one (.and (.one (.cmp .eq "title" (.text "hi")))
      (.matches "blog" ⟨"blog", "id"⟩ (.one (.one (.cmp .eq "name" (.text "dogs")))))))
    (.and (.one (.cmp .eq "likes" .null))
      (.containsPk "post_tags_Many" ⟨"post", "id"⟩ ⟨"tag", "tag"⟩ (.text "pets")))

/-- The name test, decided. -/
theorem nameOf {s : String} {c : Char} {cs : List Char} (h : s.toList = c :: cs)
    (h1 : isWordStart c = true) (h2 : cs.all isWordChar = true) : IsName s := ⟨c, cs, h, h1, h2⟩

theorem exFilter_names : FilterNames exRes exFilter := by
  simp only [exFilter, FilterNames, AndNames, AtomNames, PlainName]
  refine ⟨⟨⟨nameOf rfl (by decide) (by decide), by decide⟩,
      nameOf rfl (by decide) (by decide), nameOf rfl (by decide) (by decide),
      nameOf rfl (by decide) (by decide), nameOf rfl (by decide) (by decide), by decide⟩,
    ⟨nameOf rfl (by decide) (by decide), by decide⟩,
    nameOf rfl (by decide) (by decide), nameOf rfl (by decide) (by decide),
    nameOf rfl (by decide) (by decide), nameOf rfl (by decide) (by decide), by decide⟩

theorem exFilter_scoped : FilterScoped exDb exRow [] exFilter := by
  simp only [exFilter, FilterScoped, AndScoped, AtomScoped, LinkOK, Visible]
  decide

/-! ### C10 -/

/-- C10, SQLite.  The `WHERE` clause generated for a `filter!` expression is accepted by
the database, and is true of a row exactly when the filter holds of the row.
Partial: fields compared with a value must not be keywords (`filter_reserved_field_violated`),
and the fields of a model searched through `contains` must not be called `owner` or `has`
(`filter_owner_field_violated`, excluded by `FilterScoped`). -/
theorem filter_selects_sqlite_partial (rel : Compare) {kw res : String → Bool}
    (hk : CoversReserved kw res) {db : Db} {row : Row} {e : FOr}
    (hn : FilterNames res e) (hs : FilterScoped db row [] e) (table : String) :
    ∃ b, whereValue true rel res db table row (renderBool (sqliteDialect kw) e.toBool 0).text
        (renderBool (sqliteDialect kw) e.toBool 0).vals = some b ∧
      (b = some true ↔ FilterHolds rel db row e) :=
  ⟨_, whereValue_ok (B := (renderBool (sqliteDialect kw) e.toBool 0).vals.length)
      (cnt := fun n => n) hk (phReads_sqlite kw res _) rfl
      (filter_noParens e (.inl rfl)) (filter_names e hn) (filter_scoped e row [] hs)
      (Nat.le_refl _) table,
    filter_holds e row [] hs⟩

example : ∃ b, whereValue true exRel exRes exDb "post" exRow
      (renderBool (sqliteDialect exKw) exFilter.toBool 0).text
      (renderBool (sqliteDialect exKw) exFilter.toBool 0).vals = some b ∧
    (b = some true ↔ FilterHolds exRel exDb exRow exFilter) :=
  filter_selects_sqlite_partial exRel exCovers exFilter_names exFilter_scoped "post"

set_option maxRecDepth 20000 in
/-- The example's text and values. -/
example : String.ofList (renderBool (sqliteDialect exKw) exFilter.toBool 0).text =
    "title = ? AND blog IN (SELECT id FROM blog WHERE name = ?) OR likes IS NULL AND id IN \
     (SELECT post_tags_Many.owner FROM tag INNER JOIN post_tags_Many ON \
     post_tags_Many.has = tag.tag WHERE tag = ?)" ∧
    (renderBool (sqliteDialect exKw) exFilter.toBool 0).vals =
      [.text "hi", .text "dogs", .text "pets"] := ⟨rfl, rfl⟩

/-- C10, PostgreSQL.  As for SQLite, for filters with at most 126 bound values
(`pg_placeholder_overflow_violated`) and without an empty `is_in`
(`is_in_empty_pg_violated`). -/
theorem filter_selects_pg_partial (rel : Compare) {kw res : String → Bool}
    (hk : CoversReserved kw res) {db : Db} {row : Row} {e : FOr}
    (hn : FilterNames res e) (hs : FilterScoped db row [] e) (hl : FilterLists e)
    (hv : (renderBool (pgDialect kw) e.toBool 0).vals.length ≤ 126) (table : String) :
    ∃ b, whereValue false rel res db table row (renderBool (pgDialect kw) e.toBool 0).text
        (renderBool (pgDialect kw) e.toBool 0).vals = some b ∧
      (b = some true ↔ FilterHolds rel db row e) :=
  ⟨_, whereValue_ok (cnt := fun _ => 0) hk (phReads_pg kw res) rfl
      (filter_noParens e (.inr hl)) (filter_names e hn) (filter_scoped e row [] hs)
      (Nat.le_trans hv (by decide)) table,
    filter_holds e row [] hs⟩

example : ∃ b, whereValue false exRel exRes exDb "post" exRow
      (renderBool (pgDialect exKw) exFilter.toBool 0).text
      (renderBool (pgDialect exKw) exFilter.toBool 0).vals = some b ∧
    (b = some true ↔ FilterHolds exRel exDb exRow exFilter) :=
  filter_selects_pg_partial exRel exCovers exFilter_names exFilter_scoped
    (by simp [exFilter, FilterLists, AndLists, AtomLists]) (by decide) "post"

/-- C10 violated: a field named like a keyword makes the generated text unreadable, since
comparisons write the column without quoting it (helper.rs:56-70). -/
theorem filter_reserved_field_violated :
    whereValue true exRel exRes exDb "post" (rowOf [("order", .int 1)])
      (renderBool (sqliteDialect exKw) (FOr.one (.one (.cmp .eq "order" (.text "x")))).toBool 0).text
      [.text "x"] = none := by decide

/-- A database whose tag rows have a field `owner`. -/
def ownerDb : Db where
  has t := t ∈ ["tag", "post_tags_Many"]
  rows t :=
    if t = "tag" then [rowOf [("tag", text "pets"), ("owner", text "ann")]]
    else if t = "post_tags_Many" then [rowOf [("owner", .int 7), ("has", text "pets")]]
    else []

/-- `filter!(Post, tags.contains(owner == "ann"))`. -/
def ownerFilter : FOr :=
  .one (.one (.contains "post_tags_Many" ⟨"post", "id"⟩ ⟨"tag", "tag"⟩
    (.one (.one (.cmp .eq "owner" (.text "ann"))))))

/-- C10 violated: searching through a `Many` for a field called `owner` is an error
(ambiguous column), although the filter holds of the row. -/
theorem filter_owner_field_violated :
    FilterHolds exRel ownerDb exRow ownerFilter ∧
    whereValue true exRel exRes ownerDb "post" exRow
      (renderBool (sqliteDialect exKw) ownerFilter.toBool 0).text
      (renderBool (sqliteDialect exKw) ownerFilter.toBool 0).vals = none := by
  constructor
  · simp only [ownerFilter, FilterHolds, AndHolds, AtomHolds, CmpHolds, Equal]
    decide
  · decide

/-! ### C11 -/

/-- C11, SQLite.  The `WHERE` clause generated for an expression has the expression's
value on every row.  Partial: the generator writes no parentheses, so this needs
`NeedsNoParens` (see the `_violated` theorems below). -/
theorem condition_means_sqlite_partial (rel : Compare) {kw res : String → Bool}
    (hk : CoversReserved kw res) {db : Db} {row : Row} {e : BoolExpr}
    (hn : NamesOK res e) (hs : Scoped db row [] e) (h : NeedsNoParens true .or e) (table : String) :
    whereValue true rel res db table row (renderBool (sqliteDialect kw) e 0).text
      (renderBool (sqliteDialect kw) e 0).vals = some (boolValue rel db row e) :=
  whereValue_ok (B := (renderBool (sqliteDialect kw) e 0).vals.length)
    (cnt := fun n => n) hk (phReads_sqlite kw res _) rfl h hn hs (Nat.le_refl _) table

/-- C11, PostgreSQL. -/
theorem condition_means_pg_partial (rel : Compare) {kw res : String → Bool}
    (hk : CoversReserved kw res) {db : Db} {row : Row} {e : BoolExpr}
    (hn : NamesOK res e) (hs : Scoped db row [] e) (h : NeedsNoParens false .or e)
    (hv : (renderBool (pgDialect kw) e 0).vals.length ≤ 126) (table : String) :
    whereValue false rel res db table row (renderBool (pgDialect kw) e 0).text
      (renderBool (pgDialect kw) e 0).vals = some (boolValue rel db row e) :=
  whereValue_ok (cnt := fun _ => 0) hk (phReads_pg kw res) rfl h hn hs
    (Nat.le_trans hv (by decide)) table

/-- `NOT a = 1 AND (b IN (..) AND c > 0) OR ..`, an expression no `filter!` builds. -/
def exCond : BoolExpr :=
  .or (.allOf [.not (.cmp .eq "a" (.val (.int 1))), .inVals "b" [.bool true, .int 3, .null],
      .and (.cmp .gt "c" (.val (.int (-4)))) .true_])
    (.not (.subquery "blog" "blog" "id" (.or (.cmp .ne "name" (.val (.text "x")))
      (.cmp .eq "id" (.column "name")))))

example : whereValue true exRel exRes exDb "post" exRow
      (renderBool (sqliteDialect exKw) exCond 0).text
      (renderBool (sqliteDialect exKw) exCond 0).vals = some (boolValue exRel exDb exRow exCond) ∧
    whereValue false exRel exRes exDb "post" exRow
      (renderBool (pgDialect exKw) exCond 0).text
      (renderBool (pgDialect exKw) exCond 0).vals = some (boolValue exRel exDb exRow exCond) := by
  have hn : NamesOK exRes exCond := by
    simp only [exCond, NamesOK, NamesAllOK, NamesExprOK, PlainName, and_true]
    have n1 : IsName "a" := nameOf rfl (by decide) (by decide)
    have n2 : IsName "b" := nameOf rfl (by decide) (by decide)
    have n3 : IsName "c" := nameOf rfl (by decide) (by decide)
    have n4 : IsName "blog" := nameOf rfl (by decide) (by decide)
    have n5 : IsName "id" := nameOf rfl (by decide) (by decide)
    have n6 : IsName "name" := nameOf rfl (by decide) (by decide)
    simp only [n1, n2, n3, n4, n5, n6, true_and]
    decide
  have hs : Scoped exDb exRow [] exCond := by
    simp only [exCond, Scoped, ScopedAll, Visible]
    decide
  have h : ∀ eo, NeedsNoParens eo .or exCond := by
    simp [exCond, NeedsNoParens, NoParensAll, SimpleOperand]
  exact ⟨condition_means_sqlite_partial exRel exCovers hn hs (h _) "post",
    condition_means_pg_partial exRel exCovers hn hs (h _) (by decide) "post"⟩

/-- The columns `a`, `b`, `c` of the example row, compared with one. -/
def isOne (c : String) : BoolExpr := .cmp .eq c (.val (.int 1))

/-- C11 violated: `And(Or(a, b), c)` with `a` true and `c` false is false, but its text
`a OR b AND c` is true. -/
theorem condition_or_under_and_violated :
    boolValue exRel exDb exRow (.and (.or (isOne "a") (isOne "b")) (isOne "c")) = some false ∧
    whereValue true exRel exRes exDb "post" exRow
      (renderBool (sqliteDialect exKw) (.and (.or (isOne "a") (isOne "b")) (isOne "c")) 0).text [] =
      some (some true) := by decide

/-- C11 violated: `Not(And(b, c))` with `b` and `c` false is true, its text is false. -/
theorem condition_not_and_violated :
    boolValue exRel exDb exRow (.not (.and (isOne "b") (isOne "c"))) = some true ∧
    whereValue true exRel exRes exDb "post" exRow
      (renderBool (sqliteDialect exKw) (.not (.and (isOne "b") (isOne "c"))) 0).text [] =
      some (some false) := by decide

/-- C11 violated: `AllOf([])` is rendered as nothing, which is a syntax error. -/
theorem condition_allOf_empty_violated :
    boolValue exRel exDb exRow (.allOf []) = some true ∧
    whereValue true exRel exRes exDb "post" exRow
      (renderBool (sqliteDialect exKw) (.allOf []) 0).text [] = none := by decide

/-- C11 violated: two joins run together (`..idINNER JOIN..`). -/
theorem condition_two_joins_violated :
    let j : Join := ⟨"post_tags_Many", ⟨some "post_tags_Many", "has"⟩, ⟨some "tag", "tag"⟩⟩
    let k : Join := ⟨"blog", ⟨some "post_tags_Many", "owner"⟩, ⟨some "blog", "id"⟩⟩
    let e : BoolExpr := .subqueryJoin "id" "tag" ⟨some "tag", "tag"⟩ [j, k] .true_
    boolValue exRel exDb exRow e = some false ∧
    whereValue true exRel exRes exDb "post" exRow
      (renderBool (sqliteDialect exKw) e 0).text [] = none := by decide

/-! ### C12 -/

/-- C12: the text does not depend on the contents of any value that is not an integer:
expressions that differ only there have the same text, on every dialect. -/
theorem text_independent_of_values (d : Dialect) {e e' : BoolExpr}
    (h : skeleton e = skeleton e') (n : Nat) :
    (renderBool d e n).text = (renderBool d e' n).text := by
  rw [← (render_skeleton d e n).1, h, (render_skeleton d e' n).1]

example : (renderBool (sqliteDialect exKw) (.cmp .eq "title" (.val (.text "hi"))) 0).text =
    (renderBool (sqliteDialect exKw) (.cmp .eq "title" (.val (.text "' OR 1=1 --"))) 0).text :=
  text_independent_of_values _ (by simp [skeleton, skeletonExpr, blank, isInline]) 0

/-- C12: the bound values are the non-integer values of the expression in reading order. -/
theorem values_in_reading_order (d : Dialect) (e : BoolExpr) (n : Nat) :
    (renderBool d e n).vals = valsBool e := renderBool_vals d e n

example : (renderBool (pgDialect exKw) exCond 5).vals = [.bool true, .null, .text "x"] :=
  values_in_reading_order _ _ _

/-- C12, SQLite: the k-th placeholder of the text stands for the k-th bound value, and
there are as many placeholders as values.  Partial: not with `Expr::Placeholder`
(`placeholder_operand_violated`), names as in C11, at most one join per subquery. -/
theorem placeholders_aligned_sqlite_partial {kw res : String → Bool} (hk : CoversReserved kw res)
    {e : BoolExpr} (hn : NamesOK res e) (hj : OneJoin e) (hp : NoPlaceholder e) :
    paramsOf (lex res (renderBool (sqliteDialect kw) e 0).text) =
      List.range (renderBool (sqliteDialect kw) e 0).vals.length :=
  params_render (B := (renderBool (sqliteDialect kw) e 0).vals.length)
    (cnt := fun n => n) hk (phReads_sqlite kw res _) rfl hj hp hn (Nat.le_refl _)

/-- C12 and C13, PostgreSQL: the placeholders are `$1` to `$n` in order, for expressions
with at most 126 bound values. -/
theorem placeholders_aligned_pg_partial {kw res : String → Bool} (hk : CoversReserved kw res)
    {e : BoolExpr} (hn : NamesOK res e) (hj : OneJoin e) (hp : NoPlaceholder e)
    (hv : (renderBool (pgDialect kw) e 0).vals.length ≤ 126) :
    paramsOf (lex res (renderBool (pgDialect kw) e 0).text) =
      List.range (renderBool (pgDialect kw) e 0).vals.length :=
  params_render (cnt := fun _ => 0) hk (phReads_pg kw res) rfl hj hp hn
    (Nat.le_trans hv (by decide))

/-- An expression that needs parentheses: alignment holds there as well. -/
def exAlign : BoolExpr :=
  .and (.or (.cmp .eq "a" (.val (.text "x"))) (.inVals "b" [.text "y", .int 2, .null]))
    (.not (.and (.cmp .ne "c" (.val (.bool true))) .true_))

example : paramsOf (lex exRes (renderBool (sqliteDialect exKw) exAlign 0).text) = [0, 1, 2, 3] ∧
    paramsOf (lex exRes (renderBool (pgDialect exKw) exAlign 0).text) = [0, 1, 2, 3] := by
  have hn : NamesOK exRes exAlign := by
    simp only [exAlign, NamesOK, NamesExprOK, PlainName]
    exact ⟨⟨⟨⟨nameOf rfl (by decide) (by decide), by decide⟩, trivial⟩,
      nameOf rfl (by decide) (by decide)⟩,
      ⟨⟨nameOf rfl (by decide) (by decide), by decide⟩, trivial⟩, trivial⟩
  have hj : OneJoin exAlign := by simp [exAlign, OneJoin, OneJoinExpr]
  have hp : NoPlaceholder exAlign := by simp [exAlign, NoPlaceholder, NoPlaceholderExpr]
  exact ⟨placeholders_aligned_sqlite_partial exCovers hn hj hp,
    placeholders_aligned_pg_partial exCovers hn hj hp (by decide)⟩

/-- C12 violated: `Expr::Placeholder` takes a placeholder and binds no value, so the
following values move to the wrong placeholder. -/
theorem placeholder_operand_violated :
    let f := renderBool (sqliteDialect exKw)
      (.and (.cmp .eq "a" .placeholder) (.cmp .eq "b" (.val (.text "x")))) 0
    f.text = lit "a = ? AND b = ?" ∧ f.vals = [.text "x"] ∧
    paramsOf (lex exRes f.text) = [0, 1] := by decide

/-! ### C13 -/

/-- C13: the k-th placeholder PostgreSQL is given is `$k`, for the first 127. -/
theorem pg_placeholder_numbering_partial {k : Nat} (h : k < 127) :
    pgPlaceholder k = '$' :: natText (k + 1) := by
  have : (pgCounter k).toInt = ((k + 1 : Nat) : Int) := by
    simp only [pgCounter]
    rw [Int8.toInt_ofNat_of_lt (by omega)]
  rw [pgPlaceholder, this]
  rfl

example : pgPlaceholder 11 = lit "$12" := pg_placeholder_numbering_partial (k := 11) (by decide)

/-- C13: in a build with overflow checks the first 126 calls return, with the same
numbers. -/
theorem pg_placeholder_checked_partial {k : Nat} (h : k < 127) :
    pgCounterChecked k = some (pgCounter k) := by
  induction k with
  | zero => rfl
  | succ k ih =>
    have hk := ih (by omega)
    simp only [pgCounterChecked, hk]
    have h1 : pgCounter k ≠ 127 := by
      intro hc
      have h2 : (pgCounter k).toInt = ((k + 1 : Nat) : Int) := by
        simp only [pgCounter]
        rw [Int8.toInt_ofNat_of_lt (by omega)]
      rw [hc] at h2
      have h3 : (127 : Int8).toInt = 127 := by decide
      rw [h3] at h2
      omega
    rw [if_neg h1]
    simp [pgCounter, Int8.ofNat_add]

/-- C13 violated: the 127th call panics in a build with overflow checks; without them the
128th placeholder is `$-128`. -/
theorem pg_placeholder_overflow_violated :
    (∀ k, 127 ≤ k → pgCounterChecked k = none) ∧ pgPlaceholder 127 = lit "$-128" := by
  constructor
  · intro k hk
    induction k with
    | zero => omega
    | succ k ih =>
      by_cases h : 127 ≤ k
      · simp [pgCounterChecked, ih h]
      · have : k = 126 := by omega
        subst this
        decide
  · decide

/-! ### C14 -/

/-- C14: `field == None` selects exactly the rows where the field is null, `field != None`
exactly the others; on both backends. -/
theorem null_tests {kw res : String → Bool} (hk : CoversReserved kw res) (rel : Compare)
    (db : Db) {row : Row} {f : String} (hf : PlainName res f) (hr : row.has f = true)
    (emptyIn : Bool) (d : Dialect) (hd : d = sqliteDialect kw ∨ d = pgDialect kw) (table : String) :
    whereValue emptyIn rel res db table row (renderBool d (fieldCmp .eq f .null) 0).text
      (renderBool d (fieldCmp .eq f .null) 0).vals = some (some (decide (row.val f = .null))) ∧
    whereValue emptyIn rel res db table row (renderBool d (fieldCmp .ne f .null) 0).text
      (renderBool d (fieldCmp .ne f .null) 0).vals = some (some (!decide (row.val f = .null))) := by
  have key : ∀ op, (op = .eq ∨ op = .ne) →
      whereValue emptyIn rel res db table row (renderBool d (fieldCmp op f .null) 0).text
        (renderBool d (fieldCmp op f .null) 0).vals =
        some (boolValue rel db row (fieldCmp op f .null)) := by
    intro op hop
    have hn : NamesOK res (fieldCmp op f .null) := by
      simpa [fieldCmp, NamesOK, NamesExprOK] using hf
    have hs : Scoped db row [] (fieldCmp op f .null) := by
      simpa [fieldCmp, Scoped, Visible] using hr
    have hp : NeedsNoParens emptyIn .or (fieldCmp op f .null) := by
      simp [fieldCmp, NeedsNoParens, SimpleOperand]
    rcases hd with rfl | rfl
    · exact whereValue_ok (B := (renderBool (sqliteDialect kw) (fieldCmp op f .null) 0).vals.length)
        (cnt := fun n => n) hk (phReads_sqlite kw res _) rfl hp hn hs (Nat.le_refl _) table
    · refine whereValue_ok (cnt := fun _ => 0) hk (phReads_pg kw res) rfl hp hn hs ?_ table
      rcases hop with rfl | rfl <;> simp [fieldCmp, renderBool]
  exact ⟨key .eq (.inl rfl), key .ne (.inr rfl)⟩

example : whereValue false exRel exRes exDb "post" exRow
    (renderBool (pgDialect exKw) (fieldCmp .eq "likes" .null) 0).text [] = some (some true) :=
  (null_tests exCovers exRel exDb (row := exRow)
    ⟨nameOf (s := "likes") rfl (by decide) (by decide), by decide⟩ rfl false _ (.inr rfl) "post").1

/-- C14: `is_in` selects exactly the rows whose value is in the list, for every list of
every length: SQLite. -/
theorem is_in_sqlite {kw res : String → Bool} (hk : CoversReserved kw res) (rel : Compare)
    (db : Db) {row : Row} {f : String} (hf : IsName f) (hr : row.has f = true)
    (vs : List SqlVal) (table : String) :
    ∃ b, whereValue true rel res db table row (renderBool (sqliteDialect kw) (fieldIsIn f vs) 0).text
        (renderBool (sqliteDialect kw) (fieldIsIn f vs) 0).vals = some b ∧
      (b = some true ↔ ∃ v ∈ vs, Equal rel (row.val f) (toDb v)) := by
  have h := filter_selects_sqlite_partial rel hk (db := db) (row := row)
    (e := .one (.one (.isIn f vs)))
    (by simpa only [FilterNames, AndNames, AtomNames] using hf)
    (by simpa [FilterScoped, AndScoped, AtomScoped, Visible] using hr) table
  simpa only [FilterHolds, AndHolds, AtomHolds, FOr.toBool, FAnd.toBool, FAtom.toBool] using h

example : ∃ b, whereValue true exRel exRes exDb "post" exRow
      (renderBool (sqliteDialect exKw) (fieldIsIn "title" []) 0).text [] = some b ∧
    (b = some true ↔ ∃ v ∈ ([] : List SqlVal), Equal exRel (exRow.val "title") (toDb v)) :=
  is_in_sqlite exCovers exRel exDb (nameOf rfl (by decide) (by decide)) rfl [] "post"

/-- C14, PostgreSQL: non-empty lists with at most 126 bound values. -/
theorem is_in_pg_partial {kw res : String → Bool} (hk : CoversReserved kw res) (rel : Compare)
    (db : Db) {row : Row} {f : String} (hf : IsName f) (hr : row.has f = true)
    {vs : List SqlVal} (hne : vs ≠ [])
    (hv : (renderBool (pgDialect kw) (fieldIsIn f vs) 0).vals.length ≤ 126) (table : String) :
    ∃ b, whereValue false rel res db table row (renderBool (pgDialect kw) (fieldIsIn f vs) 0).text
        (renderBool (pgDialect kw) (fieldIsIn f vs) 0).vals = some b ∧
      (b = some true ↔ ∃ v ∈ vs, Equal rel (row.val f) (toDb v)) := by
  have h := filter_selects_pg_partial rel hk (db := db) (row := row)
    (e := .one (.one (.isIn f vs)))
    (by simpa only [FilterNames, AndNames, AtomNames] using hf)
    (by simpa [FilterScoped, AndScoped, AtomScoped, Visible] using hr)
    (by simpa only [FilterLists, AndLists, AtomLists] using hne)
    (by simpa only [FOr.toBool, FAnd.toBool, FAtom.toBool] using hv) table
  simpa only [FilterHolds, AndHolds, AtomHolds, FOr.toBool, FAnd.toBool, FAtom.toBool] using h

example : ∃ b, whereValue false exRel exRes exDb "post" exRow
      (renderBool (pgDialect exKw) (fieldIsIn "title" [.text "hi", .null]) 0).text
      [.text "hi", .null] = some b ∧
    (b = some true ↔ ∃ v ∈ [SqlVal.text "hi", .null], Equal exRel (exRow.val "title") (toDb v)) :=
  is_in_pg_partial exCovers exRel exDb (nameOf rfl (by decide) (by decide)) rfl (by simp)
    (by decide) "post"

/-- C14 violated: an empty `is_in` is a syntax error on PostgreSQL. -/
theorem is_in_empty_pg_violated (res : String → Bool) (hres : res "title" = false) :
    whereValue false exRel res exDb "post" exRow
      (renderBool (pgDialect exKw) (fieldIsIn "title" []) 0).text [] = none := by
  have : lex res (renderBool (pgDialect exKw) (fieldIsIn "title" []) 0).text =
      [.ident "title", .kw "IN", .lparen, .rparen] := by
    have h1 : wordTok res ("title".toList) = .ident "title" := by
      simp only [wordTok]
      rw [if_neg (by decide)]
      have : String.ofList "title".toList = "title" := by decide
      rw [this, hres]
      rfl
    have : lex res (renderBool (pgDialect exKw) (fieldIsIn "title" []) 0).text =
      [wordTok res "title".toList, .kw "IN", .lparen, .rparen] := rfl
    rw [this, h1]
  unfold whereValue
  rw [this]
  rfl

end Butane.Props
