/-
C99: what is written inside `filter!` is what the query asks the database for.

`filterMacro E T e` (Model/FilterMacro.lean) is the condition `filter!(T, e)` evaluates to,
`none` if it does not compile; `TrueOf` (Spec/FilterMacro.lean) is what the text `e` says
of an object of model `T`.
-/
import Verif.Proofs.FilterMacro
import Verif.Props.Filter

namespace Butane.Props
open Butane Sql Spec Macro

/-! ### The models of the examples -/

/-- `Post` with `title`, `likes`, `a`, `b`, `c`, `blog: ForeignKey<Blog>`,
`tags: Many<Tag>`; `Blog` with `id` and `name`; `Tag` with key `tag`. -/
def macEnv : MEnv where
  obj T := if T = "Blog" then ⟨"blog", "id"⟩ else if T = "Tag" then ⟨"tag", "tag"⟩
    else ⟨"post", "id"⟩
  field T f :=
    if T = "Post" then
      if f = "blog" then some (.fkey "Blog")
      else if f = "tags" then some (.many "post_tags_Many" "Tag")
      else if f ∈ ["id", "title", "likes", "a", "b", "c"] then some .plain else none
    else if T = "Blog" then if f ∈ ["id", "name"] then some .plain else none
    else if T = "Tag" then if f = "tag" then some .plain else none
    else none
  cmpOk _ _ _ _ := true
  keyOk _ _ := true

/-- `title == "hi" && blog.matches(name == {n}) || likes == None && tags.contains("pets")`,
where `n` is `"dogs"`. -/
def macExpr : RExpr :=
  .binary .or
    (.binary .and (.binary .eq (.path "title") (.lit (.text "hi")))
      (.call (.path "blog") "matches"
        (.binary .eq (.path "name") (.block (.val (.text "dogs")))) 0))
    (.binary .and (.binary .eq (.path "likes") (.path "None"))
      (.call (.path "tags") "contains" (.lit (.text "pets")) 0))

theorem macExpr_ok : filterMacro macEnv "Post" macExpr = some exFilter.toBool := rfl

theorem macExpr_parsed : Parsed 0 macExpr := by simp [macExpr, Parsed]

theorem macExpr_noSplices : NoSplices macExpr := by simp [macExpr, NoSplices]

theorem macEnv_col {T f : String} (h : isCol (macEnv.field T f) = true) :
    f ∈ ["blog", "id", "title", "likes", "a", "b", "c", "name", "tag"] ∧
    (T = "Blog" → f ∈ ["id", "name"]) ∧ (T = "Tag" → f = "tag") ∧
    (T = "Post" → f ∈ ["blog", "id", "title", "likes", "a", "b", "c"]) := by
  simp only [macEnv] at h
  repeat' split at h
  all_goals simp_all [isCol]
  all_goals grind

theorem macEnv_fkey {T f t : String} (h : macEnv.field T f = some (.fkey t)) : t = "Blog" := by
  simp only [macEnv] at h
  repeat' split at h
  all_goals simp_all

theorem macEnv_many {T f m t : String} (h : macEnv.field T f = some (.many m t)) :
    m = "post_tags_Many" ∧ t = "Tag" := by
  simp only [macEnv] at h
  repeat' split at h
  all_goals simp_all

theorem macEnv_names : EnvNames exRes macEnv where
  table T := by
    simp only [macEnv]
    repeat' split
    all_goals exact ⟨nameOf rfl (by decide) (by decide), nameOf rfl (by decide) (by decide),
      by decide⟩
  col T f h := by
    have := (macEnv_col h).1
    simp only [List.mem_cons, List.not_mem_nil, or_false] at this
    rcases this with h | h | h | h | h | h | h | h | h <;> subst h <;>
      exact ⟨nameOf rfl (by decide) (by decide), by decide⟩
  link T f m t h := by
    rw [(macEnv_many h).1]
    exact nameOf rfl (by decide) (by decide)

theorem exRow_post : RowOf macEnv "Post" exRow [] := by
  refine ⟨⟨by decide, fun o h => (by cases h)⟩, fun f h => ?_⟩
  have := (macEnv_col h).2.2.2 rfl
  simp only [List.mem_cons, List.not_mem_nil, or_false] at this
  rcases this with h | h | h | h | h | h | h <;> subst h <;>
    exact ⟨by decide, fun o h => (by cases h)⟩

theorem exDb_for : DbFor macEnv exDb where
  target T f t h := by
    have ht := macEnv_fkey h
    subst ht
    refine ⟨by decide, fun r hr => ?_⟩
    have hr : r ∈ [rowOf [("id", .int 1), ("name", text "cats")],
      rowOf [("id", .int 2), ("name", text "dogs")]] := hr
    simp only [List.mem_cons, List.not_mem_nil, or_false] at hr
    refine ⟨⟨?_, fun o h => (by cases h)⟩, fun f h => ⟨?_, fun o h => (by cases h)⟩⟩
    · rcases hr with hr | hr <;> subst hr <;> decide
    · have := (macEnv_col h).2.1 rfl
      simp only [List.mem_cons, List.not_mem_nil, or_false] at this
      rcases hr with hr | hr <;> subst hr <;> rcases this with h | h <;> subst h <;> decide
  link T f m t h := by
    obtain ⟨hm, ht⟩ := macEnv_many h
    subst hm ht
    refine ⟨by simp only [LinkOK]; decide, fun r hr l hl => ?_⟩
    have hr : r ∈ [rowOf [("tag", text "pets")]] := hr
    have hl : l ∈ [rowOf [("owner", .int 7), ("has", text "pets")]] := hl
    simp only [List.mem_cons, List.not_mem_nil, or_false] at hr hl
    subst hr hl
    refine ⟨⟨by decide, by decide⟩, fun f h => ?_⟩
    have := (macEnv_col h).2.2.1 rfl
    subst this
    exact ⟨by decide, by decide⟩
  linkKey T f m t h := by
    obtain ⟨hm, ht⟩ := macEnv_many h
    subst hm ht
    decide

/-- `a == 1`. -/
def macOne (f : String) : RExpr := .binary .eq (.path f) (.lit (.int 1))

/-! ### C99 -/

/-- C99.  An accepted expression is a filter over the fields of the model, and the filter
holds of a row exactly when the expression, as written, is true of it.
Partial: without spliced conditions (`macro_group_violated`, `macro_block_violated`). -/
theorem macro_means_partial {E : MEnv} {T : String} {e : RExpr} {b : BoolExpr}
    (h : filterMacro E T e = some b) (hp : Parsed 0 e) (hn : NoSplices e) :
    ∃ f : FOr, b = f.toBool ∧ FilterIn E T f ∧
      ∀ rel db row, FilterHolds rel db row f ↔ TrueOf E rel db T row e := by
  obtain ⟨f, hb, hi, _, hs⟩ := MacroP.filter_says h hp hn
  exact ⟨f, hb, hi, hs⟩

example : ∃ f : FOr, exFilter.toBool = f.toBool ∧ FilterIn macEnv "Post" f ∧
    ∀ rel db row, FilterHolds rel db row f ↔ TrueOf macEnv rel db "Post" row macExpr :=
  macro_means_partial macExpr_ok macExpr_parsed macExpr_noSplices

/-- C99, SQLite.  From the text inside `filter!` to the database's answer: the `WHERE`
clause of an accepted expression is accepted by the database and is true of a row exactly
when the expression, as written, is true of it.
Partial: names as in `filter_selects_sqlite_partial` (`EnvNames`, and the columns of link
tables in `DbFor`), and no spliced conditions. -/
theorem macro_selects_sqlite_partial (rel : Compare) {kw res : String → Bool}
    (hk : CoversReserved kw res) {E : MEnv} (hE : EnvNames res E) {db : Db} (hD : DbFor E db)
    {T : String} {row : Row} (hr : RowOf E T row []) {e : RExpr} {b : BoolExpr}
    (h : filterMacro E T e = some b) (hp : Parsed 0 e) (hn : NoSplices e) (table : String) :
    ∃ r, whereValue true rel res db table row (renderBool (sqliteDialect kw) b 0).text
        (renderBool (sqliteDialect kw) b 0).vals = some r ∧
      (r = some true ↔ TrueOf E rel db T row e) := by
  obtain ⟨f, hb, hi, hs⟩ := macro_means_partial h hp hn
  subst hb
  obtain ⟨r, h1, h2⟩ := filter_selects_sqlite_partial rel hk (MacroP.filter_names' hE f T hi)
    (MacroP.filter_scoped' hD f T row [] hi hr) table
  exact ⟨r, h1, h2.trans (hs rel db row)⟩

example : ∃ r, whereValue true exRel exRes exDb "post" exRow
      (renderBool (sqliteDialect exKw) exFilter.toBool 0).text
      (renderBool (sqliteDialect exKw) exFilter.toBool 0).vals = some r ∧
    (r = some true ↔ TrueOf macEnv exRel exDb "Post" exRow macExpr) :=
  macro_selects_sqlite_partial exRel exCovers macEnv_names exDb_for exRow_post macExpr_ok
    macExpr_parsed macExpr_noSplices "post"

/-- C99, PostgreSQL.  As for SQLite, with at most 126 bound values, and for expressions
without an empty `is_in`, which PostgreSQL rejects. -/
theorem macro_selects_pg_partial (rel : Compare) {kw res : String → Bool}
    (hk : CoversReserved kw res) {E : MEnv} (hE : EnvNames res E) {db : Db} (hD : DbFor E db)
    {T : String} {row : Row} (hr : RowOf E T row []) {e : RExpr} {b : BoolExpr}
    (h : filterMacro E T e = some b) (hp : Parsed 0 e) (hn : NoSplices e)
    (hl : NoEmptyLists e) (hv : (renderBool (pgDialect kw) b 0).vals.length ≤ 126)
    (table : String) :
    ∃ r, whereValue false rel res db table row (renderBool (pgDialect kw) b 0).text
        (renderBool (pgDialect kw) b 0).vals = some r ∧
      (r = some true ↔ TrueOf E rel db T row e) := by
  obtain ⟨f, hb, hi, hz, hs⟩ := MacroP.filter_says h hp hn
  subst hb
  obtain ⟨r, h1, h2⟩ := filter_selects_pg_partial rel hk (MacroP.filter_names' hE f T hi)
    (MacroP.filter_scoped' hD f T row [] hi hr)
    (hz hl) hv table
  exact ⟨r, h1, h2.trans (hs rel db row)⟩

example : ∃ r, whereValue false exRel exRes exDb "post" exRow
      (renderBool (pgDialect exKw) exFilter.toBool 0).text
      (renderBool (pgDialect exKw) exFilter.toBool 0).vals = some r ∧
    (r = some true ↔ TrueOf macEnv exRel exDb "Post" exRow macExpr) :=
  macro_selects_pg_partial exRel exCovers macEnv_names exDb_for exRow_post macExpr_ok
    macExpr_parsed macExpr_noSplices (by simp [macExpr, NoEmptyLists]) (by decide) "post"

/-- C99, conditions spliced in.  The condition of any accepted expression, with conditions
in braces and invisible groups anywhere, is true of a row exactly when the expression is. -/
theorem macro_condition {E : MEnv} (hm : LinksApart E) {T : String} {e : RExpr} {b : BoolExpr}
    (h : filterMacro E T e = some b) (rel : Compare) (db : Db) (row : Row) :
    boolValue rel db row b = some true ↔ TrueOf E rel db T row e :=
  MacroP.handle_true hm e T b row (MacroP.handle_of h)

theorem macEnv_apart : LinksApart macEnv := by
  intro T f m t h
  obtain ⟨hm, ht⟩ := macEnv_many h
  subst hm ht
  decide

/-- `{ c } || blog.matches($x && name == "dogs")` with `c` the condition `a = 1` and `$x`
the expression `id == 1 || id == 2`. -/
def macSplice : RExpr :=
  .binary .or (.block (.cond (isOne "a")))
    (.call (.path "blog") "matches"
      (.binary .and
        (.group (.binary .or (macOne "id") (.binary .eq (.path "id") (.lit (.int 2)))))
        (.binary .eq (.path "name") (.lit (.text "dogs")))) 0)

example (rel : Compare) (db : Db) (row : Row) : ∃ b, filterMacro macEnv "Post" macSplice = some b ∧
    (boolValue rel db row b = some true ↔ TrueOf macEnv rel db "Post" row macSplice) :=
  ⟨_, rfl, macro_condition macEnv_apart rfl rel db row⟩

/-- C99, SQLite, conditions spliced in: what is selected is what is written if the whole
condition reads the same without parentheses (`NeedsNoParens`).
Partial: for the others see `macro_group_violated`. -/
theorem macro_splice_sqlite_partial (rel : Compare) {kw res : String → Bool}
    (hk : CoversReserved kw res) {E : MEnv} (hm : LinksApart E) {db : Db} {T : String} {row : Row}
    {e : RExpr} {b : BoolExpr} (h : filterMacro E T e = some b) (hn : NamesOK res b)
    (hs : Scoped db row [] b) (hp : NeedsNoParens true .or b) (table : String) :
    ∃ r, whereValue true rel res db table row (renderBool (sqliteDialect kw) b 0).text
        (renderBool (sqliteDialect kw) b 0).vals = some r ∧
      (r = some true ↔ TrueOf E rel db T row e) :=
  ⟨_, condition_means_sqlite_partial rel hk hn hs hp table, macro_condition hm h rel db row⟩

/-- C99, PostgreSQL, conditions spliced in. -/
theorem macro_splice_pg_partial (rel : Compare) {kw res : String → Bool}
    (hk : CoversReserved kw res) {E : MEnv} (hm : LinksApart E) {db : Db} {T : String} {row : Row}
    {e : RExpr} {b : BoolExpr} (h : filterMacro E T e = some b) (hn : NamesOK res b)
    (hs : Scoped db row [] b) (hp : NeedsNoParens false .or b)
    (hv : (renderBool (pgDialect kw) b 0).vals.length ≤ 126) (table : String) :
    ∃ r, whereValue false rel res db table row (renderBool (pgDialect kw) b 0).text
        (renderBool (pgDialect kw) b 0).vals = some r ∧
      (r = some true ↔ TrueOf E rel db T row e) :=
  ⟨_, condition_means_pg_partial rel hk hn hs hp hv table, macro_condition hm h rel db row⟩

/-- A condition in braces beside `||`: `filter!(Post, { c } || b == 1)`. -/
example (table : String) :
    ∃ b, filterMacro macEnv "Post" (.binary .or (.block (.cond (isOne "a"))) (macOne "b")) = some b ∧
      (∃ r, whereValue true exRel exRes exDb table exRow (renderBool (sqliteDialect exKw) b 0).text
          (renderBool (sqliteDialect exKw) b 0).vals = some r ∧
        (r = some true ↔ TrueOf macEnv exRel exDb "Post" exRow
          (.binary .or (.block (.cond (isOne "a"))) (macOne "b")))) ∧
      (∃ r, whereValue false exRel exRes exDb table exRow (renderBool (pgDialect exKw) b 0).text
          (renderBool (pgDialect exKw) b 0).vals = some r ∧
        (r = some true ↔ TrueOf macEnv exRel exDb "Post" exRow
          (.binary .or (.block (.cond (isOne "a"))) (macOne "b")))) := by
  have hn : NamesOK exRes (.or (isOne "a") (isOne "b")) := by
    simp only [isOne, NamesOK, NamesExprOK, PlainName, and_true]
    exact ⟨⟨nameOf rfl (by decide) (by decide), by decide⟩,
      nameOf rfl (by decide) (by decide), by decide⟩
  have hs : Scoped exDb exRow [] (.or (isOne "a") (isOne "b")) := by
    simp only [isOne, Scoped, Visible]
    decide
  have hp : ∀ eo, NeedsNoParens eo .or (.or (isOne "a") (isOne "b")) := by
    simp [isOne, NeedsNoParens, SimpleOperand]
  exact ⟨.or (isOne "a") (isOne "b"), rfl,
    macro_splice_sqlite_partial exRel exCovers macEnv_apart rfl hn hs (hp _) table,
    macro_splice_pg_partial exRel exCovers macEnv_apart rfl hn hs (hp _) (by decide) table⟩

/-- C99.  Every filter over the fields of a model can be written: some expression, without
splices, that Rust's parser builds makes exactly its condition. -/
theorem macro_complete {E : MEnv} (hN : ∀ T, E.field T "None" = none) {T : String} {f : FOr}
    (h : FilterIn E T f) :
    ∃ e, filterMacro E T e = some f.toBool ∧ Parsed 0 e ∧ NoSplices e := by
  obtain ⟨e, he, hp, hn, _⟩ := MacroP.filter_writes hN f T h
  exact ⟨e, by simp only [filterMacro, he], hp, hn⟩

example : FilterIn macEnv "Post" exFilter ∧ ∀ T, macEnv.field T "None" = none := by
  constructor
  · simp only [exFilter, FilterIn, AndIn, AtomIn]
    exact ⟨⟨⟨rfl, .inr rfl⟩, "Blog", rfl, rfl, rfl, .inr rfl⟩, ⟨rfl, .inr rfl⟩,
      "tags", "Tag", rfl, rfl, rfl, rfl⟩
  · intro T
    simp only [macEnv]
    repeat' split
    all_goals simp_all

/-- C99.  Nothing else compiles: an expression with parentheses, negation, an unknown
operator or method, or other Rust code outside braces and `is_in`, is rejected. -/
theorem macro_rejects {E : MEnv} {T : String} {e : RExpr} (h : ¬ OnlyDocumented e) :
    filterMacro E T e = none := by
  unfold filterMacro
  split
  · rename_i hc
    exact absurd (MacroP.documented e T _ hc) h
  · rfl

/-- `(a == 1 || b == 1) && c == 1` does not compile. -/
example : ¬ OnlyDocumented (.binary .and
    (.paren (.binary .or (.binary .eq (.path "a") (.lit (.int 1)))
      (.binary .eq (.path "b") (.lit (.int 1)))))
    (.binary .eq (.path "c") (.lit (.int 1)))) := by simp [OnlyDocumented]

/-- C99 violated: with `$x` standing for `a == 1 || b == 1` in a `macro_rules!` macro,
`filter!(Post, $x && c == 1)` compiles.  The example row has `a = 1` and `c = 0`, so it is
not described, but the database selects it. -/
theorem macro_group_violated :
    ∃ b, filterMacro macEnv "Post"
        (.binary .and (.group (.binary .or (macOne "a") (macOne "b"))) (macOne "c")) = some b ∧
      ¬ TrueOf macEnv exRel exDb "Post" exRow
        (.binary .and (.group (.binary .or (macOne "a") (macOne "b"))) (macOne "c")) ∧
      whereValue true exRel exRes exDb "post" exRow (renderBool (sqliteDialect exKw) b 0).text [] =
        some (some true) := by
  refine ⟨.and (.or (isOne "a") (isOne "b")) (isOne "c"), rfl, ?_,
    condition_or_under_and_violated.2⟩
  simp [TrueOf, macOne, opMeans, nameOf?, writtenValue, CmpHolds]
  intro _ _ _
  decide

/-- C99 violated: the same with a condition in braces, `filter!(Post, { x } && c == 1)`. -/
theorem macro_block_violated :
    ∃ b, filterMacro macEnv "Post"
        (.binary .and (.block (.cond (.or (isOne "a") (isOne "b")))) (macOne "c")) = some b ∧
      ¬ TrueOf macEnv exRel exDb "Post" exRow
        (.binary .and (.block (.cond (.or (isOne "a") (isOne "b")))) (macOne "c")) ∧
      whereValue true exRel exRes exDb "post" exRow (renderBool (sqliteDialect exKw) b 0).text [] =
        some (some true) := by
  refine ⟨.and (.or (isOne "a") (isOne "b")) (isOne "c"), rfl, ?_,
    condition_or_under_and_violated.2⟩
  simp [TrueOf, macOne, opMeans, nameOf?, writtenValue, CmpHolds]
  intro _ _ _
  decide

end Butane.Props
