/-
C66: what filters select on Turso.

On Turso the library runs the subqueries of a filter first and puts their values into the
condition (`transform`), because the database may not support subqueries.  `Answers`
(Spec/Turso.lean) says what the database answers to these statements, `TursoQueryOut` and
`tursoExec` what it makes of the last one; `subs` says whether it supports subqueries.
-/
import Verif.Proofs.Turso
import Verif.Props.Statements

namespace Butane.Props
open Butane Sql Spec

theorem turso_supported {kw res : String → Bool} (hk : CoversReserved kw res) {db : Db} {q : Query}
    {cols : List String} (hq : QueryOK true res db q cols) (subs : Bool)
    (hs : ∀ e ∈ q.filter, subs = true ∨ noSub e = true) :
    ∃ s, parseStmt true (lex res (q.load .sqlite kw cols).text) = some s ∧
      supported subs s = true := by
  have hsup : ∀ l o : Option Int, supported subs (.select ⟨cols, q.table,
      q.filter.map fun e => .any (disjs e 0), q.sort.map dirOf, l, o⟩) = true := by
    intro l o
    cases hf : q.filter with
    | none => simp [supported]
    | some e =>
      simp only [supported, Option.map_some, noSelect,
        Turso.noSelect_disjs e (hq.filter e hf).2.1, Bool.or_eq_true]
      exact hs e hf
  by_cases hcase : q.limit = none ∧ q.offset ≠ none
  · obtain ⟨hlim, hoff⟩ := hcase
    obtain ⟨o, ho'⟩ := Option.ne_none_iff_exists'.1 hoff
    have htext : q.load .sqlite kw cols =
        Backend.query .sqlite kw q.table cols q.filter (some 2147483647) q.offset q.sort := by
      simp only [Query.load, Query.fetch, Backend.query, sqliteQuery, hlim, ho', List.append_nil,
        List.append_assoc, List.nil_append]
    rw [htext]
    exact ⟨_, parse_query (b := .sqlite) hk hq (some 2147483647) q.offset (by simp), hsup _ _⟩
  · refine ⟨_, parse_query (b := .sqlite) hk hq q.limit q.offset ?_, hsup _ _⟩
    intro _ hlim
    by_cases ho : q.offset = none
    · exact ho
    · exact absurd ⟨hlim, ho⟩ hcase

theorem turso_plain (subs : Bool) (rel : Compare) (le : DbVal → DbVal → Bool)
    {kw res : String → Bool} (hk : CoversReserved kw res) {db : Db} {q : Query}
    {cols : List String} (hq : QueryOK true res db q cols) (hp : ∀ e ∈ q.filter, noSub e = true)
    (hl : NonNeg q.limit) (ho : NonNeg q.offset)
    (hbig : q.limit = none → ∀ o ∈ q.offset,
      (matching rel db q.table q.filter).length ≤ o.toInt.toNat + 2147483647)
    (out : Option (List (List DbVal))) :
    TursoQueryOut subs rel le res db (q.load .sqlite kw cols).text
        (q.load .sqlite kw cols).params out ↔
      ∃ rows, LoadResult rel le db q.table q.filter (Spec.count q.limit) (Spec.count q.offset)
          q.sort rows ∧ out = some (rows.map fun r => cols.map r.val) := by
  obtain ⟨s, hs1, hs2⟩ := turso_supported hk hq subs (fun e he => .inr (hp e he))
  unfold TursoQueryOut
  rw [hs1]
  simp only [hs2, if_true]
  exact load_result_partial (b := .sqlite) rel le hk hq hl ho (fun _ => hbig) out

/-- The conditions on a query carry over to the condition without subqueries. -/
theorem turso_query_ok {res : String → Bool} {db : Db} {q : Query} {cols : List String}
    (hq : QueryOK true res db q cols) {e' : BoolExpr} (h1 : NamesOK res e')
    (h2 : NeedsNoParens true .or e') (h3 : ∀ r ∈ db.rows q.table, Scoped db r [] e') :
    QueryOK true res db { q with filter := some e' } cols where
  table := hq.table
  exists_ := hq.exists_
  cols_ne := hq.cols_ne
  cols := hq.cols
  sort := hq.sort
  filter := by
    intro x hx
    obtain rfl : e' = x := Option.some.inj hx
    exact ⟨h1, h2, h3, by simp⟩

/-- C66.  Loading a query on Turso runs the subqueries and then a statement whose possible
results are exactly those the query describes: the rows of the table for which the whole
filter is true, in an order that the order terms allow, without the first `offset` and cut to
`limit`.
Partial: conditions as in C16 (`load_result_partial`); if the database does not support
subqueries, no subquery inside a subquery (`turso_nested_violated`); and nobody changes the
database while the statements run (`turso_snapshot_violated`). -/
theorem turso_load_partial (subs : Bool) (rel : Compare) (le : DbVal → DbVal → Bool)
    {kw res : String → Bool} (hk : CoversReserved kw res) {db : Db} {q : Query}
    {cols : List String} (hq : QueryOK true res db q cols)
    (hsub : ∀ e ∈ q.filter, SubScoped db e ∧ (subs = true ∨ flat e = true))
    {ask : Turso.Ask} (hask : Answers subs rel res (fun _ => db) ask)
    (hl : NonNeg q.limit) (ho : NonNeg q.offset)
    (hbig : q.limit = none → ∀ o ∈ q.offset,
      (matching rel db q.table q.filter).length ≤ o.toInt.toNat + 2147483647) :
    ∃ s n, Turso.load ask kw q cols = some (s, n) ∧
      ∀ out, TursoQueryOut subs rel le res db s.text s.params out ↔
        ∃ rows, LoadResult rel le db q.table q.filter (Spec.count q.limit) (Spec.count q.offset)
            q.sort rows ∧ out = some (rows.map fun r => cols.map r.val) := by
  cases hf : q.filter with
  | none =>
    refine ⟨q.load .sqlite kw cols, 0, ?_, ?_⟩
    · simp only [Turso.load, Turso.query, hf]
      simp only [Query.load, Query.fetch, hf]
      rfl
    · have := turso_plain subs rel le hk hq (by simp [hf]) hl ho hbig
      rwa [hf] at this
  | some e =>
    obtain ⟨h1, h2, h3, _⟩ := hq.filter e hf
    obtain ⟨s1, s2⟩ := hsub e hf
    obtain ⟨e', n, ht, hsame⟩ := Turso.transform_ok hk hask e .or h2 h1 s1 s2 0
    have hm : matching rel db q.table (some e') = matching rel db q.table q.filter := by
      simp only [hf, matching, hsame.value]
    refine ⟨({ q with filter := some e' } : Query).load .sqlite kw cols, n, ?_, ?_⟩
    · simp only [Turso.load, Turso.query, hf, ht]
      rfl
    · intro out
      refine (turso_plain subs rel le hk (turso_query_ok hq hsame.names hsame.parens
        (fun r hr => hsame.scope r [] (h3 r hr))) (by
          intro x hx
          obtain rfl : e' = x := Option.some.inj hx
          exact hsame.plain) hl ho (by
          intro hn o hof
          rw [hm]
          exact hbig hn o hof) out).trans ?_
      unfold LoadResult
      simp only [hm, hf]

/-- C66.  `load_first` on Turso gives the first row of a possible result of `load`, or none if
that is empty.  Partial: as above and in C17. -/
theorem turso_load_first_partial (subs : Bool) (rel : Compare) (le : DbVal → DbVal → Bool)
    {kw res : String → Bool} (hk : CoversReserved kw res) {db : Db} {q : Query}
    {cols : List String} (hq : QueryOK true res db q cols)
    (hsub : ∀ e ∈ q.filter, SubScoped db e ∧ (subs = true ∨ flat e = true))
    {ask : Turso.Ask} (hask : Answers subs rel res (fun _ => db) ask)
    (hl : ∀ x ∈ q.limit, 0 < x.toInt) (ho : NonNeg q.offset) :
    ∃ s n, Turso.loadFirst ask kw q cols = some (s, n) ∧
      ∀ first, (∃ out, TursoQueryOut subs rel le res db s.text s.params (some out) ∧
          out.head? = first) ↔
        ∃ rows, LoadResult rel le db q.table q.filter (Spec.count q.limit) (Spec.count q.offset)
            q.sort rows ∧ first = (rows.map fun r => cols.map r.val).head? := by
  have plain : ∀ q' : Query, QueryOK true res db q' cols → (∀ e ∈ q'.filter, noSub e = true) →
      ∀ out, TursoQueryOut subs rel le res db (q'.loadFirst .sqlite kw cols).text
          (q'.loadFirst .sqlite kw cols).params out ↔
        QueryOut true rel le res db (q'.loadFirst .sqlite kw cols).text
          (q'.loadFirst .sqlite kw cols).params out := by
    intro q' hq' hp out
    obtain ⟨s, hs1, hs2⟩ := turso_supported (q := q'.withLimit 1) hk
      { table := hq'.table, exists_ := hq'.exists_, cols_ne := hq'.cols_ne, cols := hq'.cols,
        sort := hq'.sort, filter := hq'.filter } subs (fun e he => .inr (hp e he))
    have he : q'.loadFirst .sqlite kw cols = (q'.withLimit 1).load .sqlite kw cols := rfl
    rw [he]
    unfold TursoQueryOut
    rw [hs1]
    simp only [hs2, if_true]
  cases hf : q.filter with
  | none =>
    refine ⟨q.loadFirst .sqlite kw cols, 0, ?_, fun first => ?_⟩
    · simp only [Turso.loadFirst, Turso.query, hf]
      simp only [Query.loadFirst, Query.fetch, hf]
      rfl
    · simp only [plain q hq (by simp [hf])]
      have := load_first_partial (b := .sqlite) rel le hk hq hl ho first
      rwa [hf] at this
  | some e =>
    obtain ⟨h1, h2, h3, _⟩ := hq.filter e hf
    obtain ⟨s1, s2⟩ := hsub e hf
    obtain ⟨e', n, ht, hsame⟩ := Turso.transform_ok hk hask e .or h2 h1 s1 s2 0
    have hm : matching rel db q.table (some e') = matching rel db q.table q.filter := by
      simp only [hf, matching, hsame.value]
    have hq' := turso_query_ok hq hsame.names hsame.parens
        (fun r hr => hsame.scope r [] (h3 r hr))
    refine ⟨({ q with filter := some e' } : Query).loadFirst .sqlite kw cols, n, ?_, fun first => ?_⟩
    · simp only [Turso.loadFirst, Turso.query, hf, ht]
      rfl
    · simp only [plain _ hq' (by
        intro x hx
        obtain rfl : e' = x := Option.some.inj hx
        exact hsame.plain)]
      refine (load_first_partial (b := .sqlite) rel le hk hq' hl ho first).trans ?_
      unfold LoadResult
      simp only [hm, hf]

/-- C66, for `filter!` expressions: the condition that is sent last is accepted and is true
of a row exactly when the filter holds of the row.  Partial: as in C10 and above. -/
theorem turso_filter_partial (subs : Bool) (rel : Compare) {kw res : String → Bool}
    (hk : CoversReserved kw res) {db : Db} {row : Row} {e : FOr}
    (hn : FilterNames res e) (hs : FilterScoped db row [] e)
    (hflat : subs = true ∨ flat e.toBool = true) {ask : Turso.Ask}
    (hask : Answers subs rel res (fun _ => db) ask) (table : String) :
    ∃ e' n, Turso.transform (Turso.dialect kw) ask e.toBool 0 = some (e', n) ∧
      noSub e' = true ∧
      ∃ b, whereValue true rel res db table row (renderBool (Turso.dialect kw) e' 0).text
          (renderBool (Turso.dialect kw) e' 0).vals = some b ∧
        (b = some true ↔ FilterHolds rel db row e) := by
  have hsc := filter_scoped e row [] hs
  obtain ⟨e', n, ht, hsame⟩ := Turso.transform_ok hk hask e.toBool .or
    (filter_noParens e (.inl rfl)) (filter_names e hn) (Turso.subScoped_of _ hsc) hflat 0
  refine ⟨e', n, ht, hsame.plain, _, whereValue_ok
      (B := (renderBool (sqliteDialect kw) e' 0).vals.length)
      (cnt := fun n => n) hk (phReads_sqlite kw res _) rfl hsame.parens hsame.names
      (hsame.scope row [] hsc) (Nat.le_refl _) table, ?_⟩
  rw [hsame.value]
  exact filter_holds e row [] hs

/-- C66 violated, in general: on a database without subqueries, loading a query whose filter
has a subquery inside a subquery fails, whatever is stored. -/
theorem turso_nested_violated (rel : Compare) {kw res : String → Bool}
    (hk : CoversReserved kw res) {q : Query} {cols : List String} {e : BoolExpr}
    (hf : q.filter = some e) (hn : NamesOK res e) (hp : NeedsNoParens true .or e)
    (hflat : flat e = false) {dbs : Nat → Db} {ask : Turso.Ask}
    (hask : Answers false rel res dbs ask) : Turso.load ask kw q cols = none := by
  simp only [Turso.load, Turso.query, hf, Turso.transform_fails hk hask e .or hp hn hflat 0]

/-! ### Fixtures -/

/-- Values of the five kinds only. -/
def storable : DbVal → Bool
  | .null => true
  | .int i => decide ((Int64.ofInt i).toInt = i)
  | .other (.real _) => true
  | .other (.text _) => true
  | .other (.blob _) => true
  | .other _ => false

theorem storable_ok {v : DbVal} (h : storable v = true) : ∃ w, ofTurso w = v := by
  unfold storable at h
  split at h
  · exact ⟨.null, rfl⟩
  · exact ⟨.integer (Int64.ofInt _), by simpa [ofTurso] using h⟩
  · exact ⟨.real _, rfl⟩
  · exact ⟨.text _, rfl⟩
  · exact ⟨.blob _, rfl⟩
  · cases h

theorem storable_row {cs : List (String × DbVal)} (h : ∀ x ∈ cs, storable x.2 = true) (c : String) :
    ∃ w, ofTurso w = (rowOf cs).val c := by
  simp only [rowOf]
  cases hl : cs.lookup c with
  | none => exact ⟨.null, rfl⟩
  | some v =>
    have : ∀ l : List (String × DbVal), l.lookup c = some v → (c, v) ∈ l := by
      intro l
      induction l with
      | nil => simp
      | cons x l ih =>
        intro hx
        rw [List.lookup_cons] at hx
        split at hx
        · rename_i hc
          simp only [Option.some.injEq] at hx
          rw [beq_iff_eq] at hc
          rw [← hx, hc]
          simp
        · exact .tail _ (ih hx)
    exact storable_ok (h _ (this cs hl))

theorem exDb_storable : Turso.Storable exDb := by
  intro t r hr c
  simp only [exDb] at hr
  split at hr
  · rcases List.mem_cons.1 hr with rfl | hr
    · exact storable_row (by decide) c
    · obtain rfl := List.mem_singleton.1 hr
      exact storable_row (by decide) c
  · split at hr
    · obtain rfl := List.mem_singleton.1 hr
      exact storable_row (by decide) c
    · split at hr
      · obtain rfl := List.mem_singleton.1 hr
        exact storable_row (by decide) c
      · cases hr

/-- The filter of the C10 example, which has two subqueries, meets the conditions. -/
example : ∃ ask, Answers false exRel exRes (fun _ => exDb) ask ∧
    ∃ e' n, Turso.transform (Turso.dialect exKw) ask exFilter.toBool 0 = some (e', n) ∧
      noSub e' = true ∧
      ∃ b, whereValue true exRel exRes exDb "post" exRow
          (renderBool (Turso.dialect exKw) e' 0).text
          (renderBool (Turso.dialect exKw) e' 0).vals = some b ∧
        (b = some true ↔ FilterHolds exRel exDb exRow exFilter) := by
  obtain ⟨ask, h⟩ := Turso.answers_exist false exRel exRes (dbs := fun _ => exDb)
    (fun _ => exDb_storable)
  exact ⟨ask, h, turso_filter_partial false exRel exCovers exFilter_names exFilter_scoped
    (.inr (by decide)) h "post"⟩

/-- Blogs and one post, which belongs to `blog`. -/
def blogDb (name : String) (blog : Int) : Db where
  has t := t ∈ ["blog", "post"]
  rows t :=
    if t = "blog" then [rowOf [("id", .int 1), ("name", text name)],
                        rowOf [("id", .int 2), ("name", text "dogs")]]
    else if t = "post" then [rowOf [("id", .int 7), ("blog", .int blog)]]
    else []

/-- `filter!(Post, blog.matches(name == "cats"))` as a query. -/
def blogQuery : Query :=
  (Query.new "post").withFilter (.subquery "blog" "blog" "id" (.cmp .eq "name" (.val (.text "cats"))))

theorem blogDb_storable {name : String} {blog : Int} (h : storable (.int blog) = true) :
    Turso.Storable (blogDb name blog) := by
  intro t r hr c
  simp only [blogDb] at hr
  split at hr
  · rcases List.mem_cons.1 hr with rfl | hr
    · exact storable_row (by
        intro x hx
        simp only [List.mem_cons, List.not_mem_nil, or_false] at hx
        rcases hx with rfl | rfl
        · decide
        · rfl) c
    · obtain rfl := List.mem_singleton.1 hr
      exact storable_row (by decide) c
  · split at hr
    · obtain rfl := List.mem_singleton.1 hr
      exact storable_row (by
        intro x hx
        simp only [List.mem_cons, List.not_mem_nil, or_false] at hx
        rcases hx with rfl | rfl
        · decide
        · exact h) c
    · cases hr

theorem blogQuery_names : NamesOK exRes
    (.subquery "blog" "blog" "id" (.cmp .eq "name" (.val (.text "cats")))) := by
  simp only [NamesOK, NamesExprOK, PlainName, and_true]
  exact ⟨nameOf rfl (by decide) (by decide), nameOf rfl (by decide) (by decide),
    nameOf rfl (by decide) (by decide), nameOf rfl (by decide) (by decide), by decide⟩

theorem blogQuery_scoped {name : String} {blog : Int} : SubScoped (blogDb name blog)
    (.subquery "blog" "blog" "id" (.cmp .eq "name" (.val (.text "cats")))) := by
  simp only [SubScoped, Scoped, Visible, blogDb, if_true, List.mem_cons, List.not_mem_nil, or_false,
    forall_eq_or_imp, forall_eq]
  refine ⟨rfl, ⟨rfl, ⟨rfl, by simp⟩, trivial⟩, rfl, ⟨rfl, by simp⟩, trivial⟩

theorem blogQuery_ok {name : String} {blog : Int} :
    QueryOK true exRes (blogDb name blog) blogQuery ["id"] where
  table := nameOf rfl (by decide) (by decide)
  exists_ := rfl
  cols_ne := by simp
  cols := by
    intro c hc
    obtain rfl := List.mem_singleton.1 hc
    refine ⟨nameOf rfl (by decide) (by decide), fun r hr => ?_⟩
    obtain rfl := List.mem_singleton.1 (show r ∈ [rowOf [("id", .int 7), ("blog", .int blog)]] from hr)
    rfl
  sort := by intro o ho; cases ho
  filter := by
    intro e he
    obtain rfl : BoolExpr.subquery "blog" "blog" "id" (.cmp .eq "name" (.val (.text "cats"))) = e :=
      Option.some.inj he
    refine ⟨blogQuery_names, by simp [NeedsNoParens, SimpleOperand], fun r hr => ?_, by simp⟩
    obtain rfl := List.mem_singleton.1 (show r ∈ [rowOf [("id", .int 7), ("blog", .int blog)]] from hr)
    have := blogQuery_scoped (name := name) (blog := blog)
    simp only [SubScoped] at this
    simp only [Scoped]
    exact ⟨⟨rfl, by simp⟩, this⟩

/-- `turso_load_partial` applies to this query. -/
example : ∃ ask, Answers false exRel exRes (fun _ => blogDb "cats" 1) ask ∧
    ∃ s n, Turso.load ask exKw blogQuery ["id"] = some (s, n) ∧
      ∀ out, TursoQueryOut false exRel exLe exRes (blogDb "cats" 1) s.text s.params out ↔
        out = some [[.int 7]] := by
  obtain ⟨ask, h⟩ := Turso.answers_exist false exRel exRes (dbs := fun _ => blogDb "cats" 1)
    (fun _ => blogDb_storable rfl)
  obtain ⟨s, n, h1, h2⟩ := turso_load_partial false exRel exLe exCovers
    (blogQuery_ok (name := "cats") (blog := 1)) (by
      intro e he
      obtain rfl : BoolExpr.subquery "blog" "blog" "id" (.cmp .eq "name" (.val (.text "cats"))) = e :=
        Option.some.inj he
      exact ⟨blogQuery_scoped, .inr rfl⟩) h (by intro x hx; cases hx) (by intro x hx; cases hx)
    (by intro _ o ho; cases ho)
  refine ⟨ask, h, s, n, h1, fun out => (h2 out).trans ?_⟩
  have hm : matching exRel (blogDb "cats" 1) blogQuery.table blogQuery.filter =
      [rowOf [("id", .int 7), ("blog", .int 1)]] := rfl
  constructor
  · rintro ⟨rows, ⟨all, p1, _, p2⟩, rfl⟩
    rw [hm] at p1
    rw [List.perm_singleton.1 p1] at p2
    rw [p2]
    rfl
  · rintro rfl
    exact ⟨[rowOf [("id", .int 7), ("blog", .int 1)]], ⟨_, .of_eq hm.symm, by simp, rfl⟩, rfl⟩

/-- `turso_load_first_partial` applies as well. -/
example : ∃ ask, Answers false exRel exRes (fun _ => blogDb "cats" 1) ask ∧
    ∃ s n, Turso.loadFirst ask exKw blogQuery ["id"] = some (s, n) ∧
      ∃ out, TursoQueryOut false exRel exLe exRes (blogDb "cats" 1) s.text s.params (some out) ∧
        out.head? = some [.int 7] := by
  obtain ⟨ask, h⟩ := Turso.answers_exist false exRel exRes (dbs := fun _ => blogDb "cats" 1)
    (fun _ => blogDb_storable rfl)
  obtain ⟨s, n, h1, h2⟩ := turso_load_first_partial false exRel exLe exCovers
    (blogQuery_ok (name := "cats") (blog := 1)) (by
      intro e he
      obtain rfl : BoolExpr.subquery "blog" "blog" "id" (.cmp .eq "name" (.val (.text "cats"))) = e :=
        Option.some.inj he
      exact ⟨blogQuery_scoped, .inr rfl⟩) h (by intro x hx; cases hx) (by intro x hx; cases hx)
  refine ⟨ask, h, s, n, h1, (h2 _).2 ?_⟩
  exact ⟨[rowOf [("id", .int 7), ("blog", .int 1)]],
    ⟨[rowOf [("id", .int 7), ("blog", .int 1)]], .of_eq rfl, List.pairwise_singleton _ _, rfl⟩, rfl⟩

/-- C66 violated: the statements of one call see different states of the database.  While a
query for the posts of the blog "cats" runs, somebody renames that blog and moves post 7 from
another blog to it.  Post 7 belongs to a blog of that name neither before nor after, but the
query returns it. -/
theorem turso_snapshot_violated {ask : Turso.Ask}
    (hask : Answers false exRel exRes
      (fun n => if n = 0 then blogDb "cats" 2 else blogDb "birds" 1) ask) :
    matching exRel (blogDb "cats" 2) blogQuery.table blogQuery.filter = [] ∧
    matching exRel (blogDb "birds" 1) blogQuery.table blogQuery.filter = [] ∧
    ∃ s, Turso.load ask exKw blogQuery ["id"] = some (s, 1) ∧
      ∀ out, TursoQueryOut false exRel exLe exRes (blogDb "birds" 1) s.text s.params out ↔
        out = some [[.int 7]] := by
  refine ⟨by decide, by decide, ?_⟩
  have hask' : Answers false exRel exRes (fun _ => blogDb "cats" 2) (fun _ => ask 0) :=
    fun n text vals => hask 0 text vals
  obtain ⟨e', n, ht, hsame⟩ := Turso.transform_ok exCovers hask' _ .or
    (by simp [NeedsNoParens, SimpleOperand]) blogQuery_names blogQuery_scoped (.inr rfl) 0
  have hn : n = 1 := by
    simp only [Turso.transform, Turso.collect] at ht
    split at ht
    · simp only [Option.some.injEq, Prod.mk.injEq] at ht
      exact ht.2.symm
    · cases ht
  subst hn
  have hl : Turso.load ask exKw blogQuery ["id"] =
      some (({ blogQuery with filter := some e' } : Query).load .sqlite exKw ["id"], 1) := by
    have ht' : Turso.transform (Turso.dialect exKw) ask
        (.subquery "blog" "blog" "id" (.cmp .eq "name" (.val (.text "cats")))) 0 = some (e', 1) := by
      simp only [Turso.transform, Turso.collect] at ht ⊢
      exact ht
    show Turso.query ask exKw "post" ["id"]
      (some (.subquery "blog" "blog" "id" (.cmp .eq "name" (.val (.text "cats"))))) none none [] = _
    simp only [Turso.query, ht']
    rfl
  refine ⟨_, hl, fun out => (turso_plain false exRel exLe exCovers
    (turso_query_ok (blogQuery_ok (name := "birds") (blog := 1)) hsame.names hsame.parens ?_) (by
      intro x hx
      obtain rfl : e' = x := Option.some.inj hx
      exact hsame.plain) (by intro x hx; cases hx) (by intro x hx; cases hx)
    (by intro _ o ho; cases ho) out).trans ?_⟩
  · intro r hr
    obtain rfl := List.mem_singleton.1 (show r ∈ [rowOf [("id", .int 7), ("blog", .int 1)]] from hr)
    simp only [Turso.transform, Turso.collect] at ht
    split at ht
    · simp only [Option.some.injEq, Prod.mk.injEq] at ht
      rw [← ht.1]
      simp only [Scoped]
      exact ⟨rfl, by simp⟩
    · cases ht
  · have hm : matching exRel (blogDb "birds" 1) blogQuery.table (some e') =
        [rowOf [("id", .int 7), ("blog", .int 1)]] := by
      simp only [matching]
      have hv : boolValue exRel (blogDb "birds" 1) (rowOf [("id", .int 7), ("blog", .int 1)]) e' =
          some true := by
        rw [Turso.noSub_value _ (blogDb "cats" 2) _ e' hsame.parens hsame.plain, hsame.value]
        decide
      show List.filter _ [rowOf [("id", .int 7), ("blog", .int 1)]] = _
      simp [hv]
    constructor
    · rintro ⟨rows, ⟨all, p1, _, p2⟩, rfl⟩
      simp only [hm] at p1
      rw [List.perm_singleton.1 p1] at p2
      rw [p2]
      rfl
    · rintro rfl
      exact ⟨[rowOf [("id", .int 7), ("blog", .int 1)]], ⟨_, .of_eq hm.symm, List.pairwise_singleton _ _, rfl⟩, rfl⟩

/-- Such answers exist. -/
example : ∃ ask, Answers false exRel exRes
    (fun n => if n = 0 then blogDb "cats" 2 else blogDb "birds" 1) ask :=
  Turso.answers_exist false exRel exRes (fun n => by
    by_cases h : n = 0
    · simp only [h, if_true]
      exact blogDb_storable rfl
    · simp only [h, if_false]
      exact blogDb_storable rfl)

/-! ### Deleting -/

/-- C66.  `delete` on Turso removes exactly the rows that `load` of the same query returns
and leaves all others.  Partial: as C18, and the filter has no subquery if the database
does not support them (`turso_delete_violated`). -/
theorem turso_delete_partial (subs : Bool) (rel : Compare) (le : DbVal → DbVal → Bool)
    {kw res : String → Bool} (hk : CoversReserved kw res) (env : Env) {db : Db} {q : Query}
    {cols : List String} (hq : QueryOK true res db q cols)
    (hsub : ∀ e ∈ q.filter, subs = true ∨ noSub e = true) (hl : q.limit = none)
    (ho : q.offset = none) (rows : List Row)
    (hload : LoadResult rel le db q.table q.filter (Spec.count q.limit) (Spec.count q.offset)
      q.sort rows) :
    ∃ keep, tursoExec subs rel res env db (Turso.delete kw q).text (Turso.delete kw q).params =
        some (setRows db q.table keep, rows.length, none) ∧
      keep.Sublist (db.rows q.table) ∧
      ((rows ++ keep).Perm (db.rows q.table)) ∧
      ∀ r ∈ keep, r ∉ rows := by
  obtain ⟨keep, h1, h2⟩ := query_delete_partial (b := .sqlite) rel le hk env hq hl ho rows hload
  refine ⟨keep, ?_, h2⟩
  have he : Turso.delete kw q = q.delete .sqlite kw := by
    unfold Turso.delete Query.delete Turso.deleteWhere Backend.deleteWhere
    cases q.filter <;> rfl
  rw [he]
  have main : ∀ e : BoolExpr, NamesOK res e → NeedsNoParens true .or e →
      (subs = true ∨ noSub e = true) → q.delete .sqlite kw = sqlDelete (sqliteDialect kw) q.table e →
      tursoExec subs rel res env db (q.delete .sqlite kw).text (q.delete .sqlite kw).params =
        execText true rel res env db (q.delete .sqlite kw).text (q.delete .sqlite kw).params := by
    intro e hn hp hs hd
    have hlex : lex res (q.delete .sqlite kw).text =
        [.kw "DELETE", .kw "FROM", .ident q.table, .kw "WHERE"] ++ toksBool e 0 := by
      rw [hd]
      exact (reads_delete (d := sqliteDialect kw) (cnt := fun n => n) hk
        (phReads_sqlite kw res (cntBool e)) hq.table (oneJoin_of e _ hp) hn (Nat.le_refl _)).lex rfl
    unfold tursoExec
    rw [hlex, parse_delete hp]
    simp only [supported, noSelect, Turso.noSelect_disjs e hp, Bool.or_eq_true, hs, if_true]
  rw [← h1]
  cases hf : q.filter with
  | none =>
    exact main .true_ (by simp [NamesOK]) (by simp [NeedsNoParens]) (.inr rfl)
      (by simp only [Query.delete, hf]; rfl)
  | some e =>
    obtain ⟨p1, p2, _⟩ := hq.filter e hf
    exact main e p1 p2 (hsub e hf) (by simp only [Query.delete, hf]; rfl)

example : ∃ keep, tursoExec false exRel exRes exEnv postDb
      (lit "DELETE FROM post WHERE id > 1") [] = some (setRows postDb "post" keep, 2, none) ∧
      keep.Sublist (postDb.rows "post") := by
  obtain ⟨keep, h1, h2, _⟩ := turso_delete_partial false exRel (fun _ _ => true) exCovers exEnv
    (exDelQuery_ok _) (by
      intro e he
      obtain rfl : BoolExpr.cmp .gt "id" (.val (.int 1)) = e := Option.some.inj he
      exact .inr rfl) rfl rfl
    [rowOf [("id", .int 2), ("title", text "a"), ("order", .int 5)],
     rowOf [("id", .int 3), ("title", .null), ("order", .int 2)]]
    ⟨_, .of_eq rfl, by
      show List.Pairwise (Before (fun _ _ => true) [("order", .desc)]) _
      simp [Before, List.pairwise_of_forall], rfl⟩
  exact ⟨keep, h1, h2⟩

/-- C66 violated, in general: `delete` sends the filter with its subqueries, so on a database
without subqueries it fails for every filter that has one, whatever is stored. -/
theorem turso_delete_violated (rel : Compare) {kw res : String → Bool}
    (hk : CoversReserved kw res) (env : Env) {db : Db} {q : Query} {e : BoolExpr}
    (ht : IsName q.table) (hf : q.filter = some e) (hn : NamesOK res e)
    (hp : NeedsNoParens true .or e) (hs : noSub e = false) :
    tursoExec false rel res env db (Turso.delete kw q).text (Turso.delete kw q).params = none := by
  have hd : Turso.delete kw q = sqlDelete (sqliteDialect kw) q.table e := by
    simp only [Turso.delete, hf]
    rfl
  have hlex : lex res (Turso.delete kw q).text =
      [.kw "DELETE", .kw "FROM", .ident q.table, .kw "WHERE"] ++ toksBool e 0 := by
    rw [hd]
    exact (reads_delete (d := sqliteDialect kw) (cnt := fun n => n) hk
      (phReads_sqlite kw res (cntBool e)) ht (oneJoin_of e _ hp) hn (Nat.le_refl _)).lex rfl
  unfold tursoExec
  rw [hlex, parse_delete hp]
  simp [supported, noSelect, Turso.noSelect_disjs e hp, hs]

/-- The posts of the blog "cats" can be loaded (above) but not deleted. -/
example : tursoExec false exRel exRes exEnv (blogDb "cats" 1)
    (Turso.delete exKw blogQuery).text (Turso.delete exKw blogQuery).params = none :=
  turso_delete_violated exRel exCovers exEnv (nameOf rfl (by decide) (by decide)) rfl
    blogQuery_names (by simp [NeedsNoParens, SimpleOperand]) rfl

/-- `filter!(Comment, post.matches(blog.matches(name == "cats")))` as a query. -/
def nestedQuery : Query :=
  (Query.new "comment").withFilter (.subquery "post" "post" "id"
    (.subquery "blog" "blog" "id" (.cmp .eq "name" (.val (.text "cats")))))

example {dbs : Nat → Db} {ask : Turso.Ask} (h : Answers false exRel exRes dbs ask) :
    Turso.load ask exKw nestedQuery ["id"] = none :=
  turso_nested_violated exRel exCovers rfl (by
    have := blogQuery_names
    simp only [NamesOK] at this ⊢
    exact ⟨nameOf rfl (by decide) (by decide), nameOf rfl (by decide) (by decide),
      nameOf rfl (by decide) (by decide), this⟩) (by simp [NeedsNoParens, SimpleOperand]) rfl h

end Butane.Props
