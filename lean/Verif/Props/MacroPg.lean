/-
C101: on PostgreSQL, the objects found and deleted with `filter!` are those of which the text inside it
is true.
-/
import Verif.Proofs.MacroPg
import Verif.Props.PgErase

namespace Butane.Props
open Butane Sql Spec Macro PgData

variable {k : PgConn} {m : TModel} {pk : TField} {u : PDb}

/-- C101, the macro.  An accepted expression about the fields of the model is a filter that says of every
object what is written, and that fits the model.  Partial: no `matches` and `contains`, no spliced
conditions. -/
theorem pg_macro_objects_partial {E : MEnv} {T : String} {e : RExpr} {b : BoolExpr}
    (h : filterMacro E T e = some b) (hp : Parsed 0 e) (hn : NoSplices e) (hO : OwnFields e) :
    ∃ f : FOr, b = f.toBool ∧ (∀ k m o, PgFilterMeans k m o f ↔ PgTrueOf k m o e) ∧
      ∀ k m, PgEnvFor E k T m → PgCallsOk m e → PgFilterFits k m f :=
  MacroPg.filter_says h hp hn hO

/-- What was written is what is sent. -/
theorem pg_macro_sendable {E : MEnv} {T : String} (hE : PgEnvFor E k T m) {e : RExpr} {b : BoolExpr}
    (hm : filterMacro E T e = some b) (hp : Parsed 0 e) (hn : NoSplices e) (hO : OwnFields e)
    (hc : PgCallsOk m e) {q : Query} (hq : PgAsks m q b) :
    ∃ f : FOr, PgSendable k m q (some f) ∧
      ∀ o, PgFilterMeans k m o f ↔ PgTrueOf k m o e := by
  obtain ⟨f, hb, h1, h2⟩ := pg_macro_objects_partial hm hp hn hO
  subst hb
  exact ⟨f, ⟨hq.table, hq.filter, fun g hg => (by cases hg; exact h2 k m hE hc),
    fun g hg => (by cases hg; exact hq.count), hq.sort, hq.limit, hq.offset⟩, h1 k m⟩

/-- C101, `load`: whatever it returns is no error, and it is all objects of the model of which `e`, as
written, is true, each once, in an order that the order terms allow, cut to the page.
Partial: no `matches` and `contains`, no spliced conditions (`macro_group_violated`), and the restrictions
of C96 on names, values, lists, `like` and limits (`PgEnvFor`, `PgCallsOk`, `PgAsks`). -/
theorem pg_macro_load_partial (h : PgReady k m pk u) {st : Objects m} (hs : PgKeepsObjs m pk u st)
    {E : MEnv} {T : String} (hE : PgEnvFor E k T m) {e : RExpr} {b : BoolExpr}
    (hm : filterMacro E T e = some b) (hp : Parsed 0 e) (hn : NoSplices e) (hO : OwnFields e)
    (hc : PgCallsOk m e) {q : Query} (hq : PgAsks m q b)
    {res : Except OpErr (List (ObjVals m.fields))} (hl : m.PgLoadOut k u q res) :
    ∃ os, res = .ok os ∧ PgLists k m (fun id o => PgHas pk st id o ∧ PgTrueOf k m o e) q.sort
      (count q.limit) (count q.offset) os := by
  obtain ⟨f, h1, h2⟩ := pg_macro_sendable hE hm hp hn hO hc hq
  obtain ⟨os, hr, hsel⟩ := pg_query_selects_partial h hs h1 hl
  refine ⟨os, hr, ?_⟩
  unfold PgSelects at hsel
  unfold PgLists
  simpa only [Option.mem_def, Option.some.injEq, forall_eq', h2] using hsel

/-- C101: and `load` does return (partial, as above). -/
theorem pg_macro_load_returns_partial (h : PgReady k m pk u) (hL : PgOrderLaws k.server) {st : Objects m}
    (hs : PgKeepsObjs m pk u st) {E : MEnv} {T : String} (hE : PgEnvFor E k T m) {e : RExpr}
    {b : BoolExpr} (hm : filterMacro E T e = some b) (hp : Parsed 0 e) (hn : NoSplices e)
    (hO : OwnFields e) (hc : PgCallsOk m e) {q : Query} (hq : PgAsks m q b) :
    ∃ res, m.PgLoadOut k u q res := by
  obtain ⟨f, h1, -⟩ := pg_macro_sendable hE hm hp hn hO hc hq
  exact pg_query_returns_partial h hL hs h1

/-- C101, `load_first` (partial, as above; and the limit is not 0): the first object of a list that `load`
may return, or nothing if that is empty. -/
theorem pg_macro_first_partial (h : PgReady k m pk u) {st : Objects m} (hs : PgKeepsObjs m pk u st)
    {E : MEnv} {T : String} (hE : PgEnvFor E k T m) {e : RExpr} {b : BoolExpr}
    (hm : filterMacro E T e = some b) (hp : Parsed 0 e) (hn : NoSplices e) (hO : OwnFields e)
    (hc : PgCallsOk m e) {q : Query} (hq : PgAsks m q b) (hlim : ∀ x ∈ q.limit, 0 < x.toInt)
    {res : Except OpErr (Option (ObjVals m.fields))} (hl : m.PgLoadFirstOut k u q res) :
    ∃ os, res = .ok os.head? ∧ PgLists k m (fun id o => PgHas pk st id o ∧ PgTrueOf k m o e) q.sort
      (count q.limit) (count q.offset) os := by
  obtain ⟨f, h1, h2⟩ := pg_macro_sendable hE hm hp hn hO hc hq
  obtain ⟨os, hr, hsel⟩ := pg_query_first_partial h hs h1 hlim hl
  refine ⟨os, hr, ?_⟩
  unfold PgSelects at hsel
  unfold PgLists
  simpa only [Option.mem_def, Option.some.injEq, forall_eq', h2] using hsel

/-- C101, `delete` of a query (partial, as above): afterwards the table holds exactly the objects of
which `e`, as written, is not true, the other tables are as before, and the number returned is that of the
objects deleted. -/
theorem pg_macro_delete_partial (h : PgReady k m pk u) {st : Objects m} (hs : PgKeepsObjs m pk u st)
    {E : MEnv} {T : String} (hE : PgEnvFor E k T m) {e : RExpr} {b : BoolExpr}
    (hm : filterMacro E T e = some b) (hp : Parsed 0 e) (hn : NoSplices e) (hO : OwnFields e)
    (hc : PgCallsOk m e) {q : Query} (hq : PgAsks m q b) {u' : PDb} {n : Nat}
    (hd : k.deleteQuery u q = .ok (u', n)) :
    PgReady k m pk u' ∧ (∀ n', n' ≠ m.table → u'.lookup n' = u.lookup n') ∧
    ∃ st', PgKeepsObjs m pk u' st' ∧
      (∀ id o, PgHas pk st' id o ↔ PgHas pk st id o ∧ ¬ PgTrueOf k m o e) ∧
      ∃ gone : List (SqlVal × ObjVals m.fields), gone.length = n ∧ (gone.map (·.1)).Nodup ∧
        ∀ id o, (id, o) ∈ gone ↔ PgHas pk st id o ∧ PgTrueOf k m o e := by
  obtain ⟨f, h1, h2⟩ := pg_macro_sendable hE hm hp hn hO hc hq
  obtain ⟨h0, h3, st', h4, h5⟩ := pg_query_delete_partial h hs h1 hd
  refine ⟨h0, h3, st', h4, ?_⟩
  unfold PgErased PgDescribes at h5
  simpa only [Option.mem_def, Option.some.injEq, forall_eq', h2] using h5

/-- C101: and it succeeds if no row refers to the table (partial, as above). -/
theorem pg_macro_delete_succeeds_partial (h : PgReady k m pk u) {st : Objects m}
    (hs : PgKeepsObjs m pk u st) {E : MEnv} {T : String} (hE : PgEnvFor E k T m) {e : RExpr}
    {b : BoolExpr} (hm : filterMacro E T e = some b) (hp : Parsed 0 e) (hn : NoSplices e)
    (hO : OwnFields e) (hc : PgCallsOk m e) {q : Query} (hq : PgAsks m q b)
    (hun : PgUnreferenced m u) : ∃ u' n, k.deleteQuery u q = .ok (u', n) := by
  obtain ⟨f, h1, -⟩ := pg_macro_sendable hE hm hp hn hO hc hq
  exact pg_query_delete_succeeds_partial h hs h1 hun

/-- C101: after `delete` of a query with `filter!`, `load` of it finds nothing (partial, as above). -/
theorem pg_macro_delete_then_load_partial (h : PgReady k m pk u) {st : Objects m}
    (hs : PgKeepsObjs m pk u st) {E : MEnv} {T : String} (hE : PgEnvFor E k T m) {e : RExpr}
    {b : BoolExpr} (hm : filterMacro E T e = some b) (hp : Parsed 0 e) (hn : NoSplices e)
    (hO : OwnFields e) (hc : PgCallsOk m e) {q : Query} (hq : PgAsks m q b) {u' : PDb} {n : Nat}
    (hd : k.deleteQuery u q = .ok (u', n)) {res : Except OpErr (List (ObjVals m.fields))}
    (hl : m.PgLoadOut k u' q res) : res = .ok [] := by
  obtain ⟨f, h1, -⟩ := pg_macro_sendable hE hm hp hn hO hc hq
  exact pg_delete_then_load_partial h hs h1 hd hl

/-- The objects that are left. -/
theorem pg_without_has {st : Objects m} {e : RExpr} (id : SqlVal) (o : ObjVals m.fields) :
    PgHas pk (PgWithout k m pk st e) id o ↔ PgHas pk st id o ∧ ¬ PgTrueOf k m o e := by
  constructor
  · rintro ⟨h1, h2⟩
    simp only [PgWithout] at h2
    split at h2
    · cases h2
    · rename_i hne
      exact ⟨⟨h1, h2⟩, fun ht => hne ⟨o, ⟨h1, h2⟩, ht⟩⟩
  · rintro ⟨⟨h1, h2⟩, hnt⟩
    refine ⟨h1, ?_⟩
    simp only [PgWithout]
    rw [if_neg, h2]
    rintro ⟨o', ⟨_, ho'⟩, ht⟩
    rw [h2] at ho'
    cases ho'
    exact hnt ht

theorem pg_keeps_congr {st st' : Objects m} (h : PgKeepsObjs m pk u st)
    (hs : ∀ id o, PgHas pk st id o ↔ PgHas pk st' id o) : PgKeepsObjs m pk u st' := by
  obtain ⟨t, h1, h2, h3⟩ := h
  refine ⟨t, h1, fun r hr => ?_, fun id o ho => ?_⟩
  · obtain ⟨id, o, hi⟩ := h2 r hr
    exact ⟨id, o, ⟨(hs id o).1 hi.has, hi.key, hi.proper, hi.whole, hi.holds⟩⟩
  · obtain ⟨r, hr, hi⟩ := h3 id o ((hs id o).2 ho)
    exact ⟨r, hr, ⟨ho, hi.key, hi.proper, hi.whole, hi.holds⟩⟩

/-- C101, histories (partial, as above and as C91): after any history of saves, deletions and deleted
`filter!` queries, the table holds the objects that were saved and not deleted since, one by one or by
their description. -/
theorem pg_program_partial {u0 : PDb} {st0 st : Objects m} (h : PgReady k m pk u0)
    (h0 : PgKeepsObjs m pk u0 st0) (hr : PgProgram k m pk u0 st0 u st) :
    PgReady k m pk u ∧ PgKeepsObjs m pk u st := by
  induction hr with
  | start => exact ⟨h, h0⟩
  | objects _ hrun ih => exact pg_stores_run_partial ih.1 ih.2 hrun
  | deleteFilter _ hE hm hp hn hO hc hq hd ih =>
    obtain ⟨h1, -, st', h2, h3, -⟩ := pg_macro_delete_partial ih.1 ih.2 hE hm hp hn hO hc hq hd
    exact ⟨h1, pg_keeps_congr h2 fun id o => (h3 id o).trans (pg_without_has id o).symm⟩

/-- C101, queries in histories (partial, as above). -/
theorem pg_macro_history_partial {u0 : PDb} {st0 st : Objects m} (h : PgReady k m pk u0)
    (h0 : PgKeepsObjs m pk u0 st0) (hr : PgProgram k m pk u0 st0 u st)
    {E : MEnv} {T : String} (hE : PgEnvFor E k T m) {e : RExpr} {b : BoolExpr}
    (hm : filterMacro E T e = some b) (hp : Parsed 0 e) (hn : NoSplices e) (hO : OwnFields e)
    (hc : PgCallsOk m e) {q : Query} (hq : PgAsks m q b)
    {res : Except OpErr (List (ObjVals m.fields))} (hl : m.PgLoadOut k u q res) :
    ∃ os, res = .ok os ∧ PgLists k m (fun id o => PgHas pk st id o ∧ PgTrueOf k m o e) q.sort
      (count q.limit) (count q.offset) os := by
  obtain ⟨h1, h2⟩ := pg_program_partial h h0 hr
  exact pg_macro_load_partial h1 h2 hE hm hp hn hO hc hq hl

/-! ### Examples -/

/-- `Post` with `likes: Option<u8>`, `name: String` and `blog: ForeignKey<Blog>`. -/
def pgMacEnv : MEnv where
  obj T := if T = "Post" then ⟨"post", "id"⟩ else ⟨"blog", "id"⟩
  field T f :=
    if T = "Post" then
      if f = "blog" then some (.fkey "Blog") else if f ∈ ["likes", "name"] then some .plain else none
    else none
  cmpOk _ f _ v := match v with
    | .text _ => f == "name"
    | .null => f == "likes"
    | _ => false
  keyOk _ _ := false

/-- `likes == None && name == "z" || blog.is_in([3, 4])`. -/
def pgMacExpr : RExpr :=
  .binary .or
    (.binary .and (.binary .eq (.path "likes") (.path "None"))
      (.binary .eq (.path "name") (.lit (.text "z"))))
    (.call (.path "blog") "is_in" (.rust (.list [.int 3, .int 4])) 0)

theorem pgMacExpr_ok : filterMacro pgMacEnv "Post" pgMacExpr = some exPgFilter.toBool := rfl

theorem pgMac_field {f : String} {ty ty' : FieldTy} (h : HasField exRowPost f ty)
    (hf : (f = "name" ∧ ty' = .string) ∨ (f = "likes" ∧ ty' = .option .u8) ∨
      (f = "blog" ∧ ty' = .fkey .i32)) : ty = ty' := by
  obtain ⟨g, hg, h1, h2⟩ := h
  simp only [exRowPost, exFields, List.mem_cons, List.not_mem_nil, or_false] at hg
  rcases hf with ⟨rfl, rfl⟩ | ⟨rfl, rfl⟩ | ⟨rfl, rfl⟩ <;>
    rcases hg with rfl | rfl | rfl | rfl | rfl <;> simp_all

theorem pgMacEnv_for : PgEnvFor pgMacEnv exPgConn "Post" exRowPost where
  col f hf := by
    simp only [pgMacEnv] at hf
    repeat' split at hf
    · next h =>
      subst h
      exact ⟨⟨nameOf rfl (by decide) (by decide), by decide, rfl⟩, _,
        exPg_field _ false (.fkey .i32) (by simp [exRowPost, exFields])⟩
    · next h =>
      simp only [List.mem_cons, List.not_mem_nil, or_false] at h
      rcases h with rfl | rfl
      · exact ⟨⟨nameOf rfl (by decide) (by decide), by decide, rfl⟩, _,
          exPg_field _ false (.option .u8) (by simp [exRowPost, exFields])⟩
      · exact ⟨⟨nameOf rfl (by decide) (by decide), by decide, rfl⟩, _,
          exPg_field _ false .string (by simp [exRowPost, exFields])⟩
    all_goals simp [isCol] at hf
  fits f op v hv ty hty := by
    cases v <;> simp [pgMacEnv] at hv
    · exact .inl rfl
    · subst hv
      obtain rfl := pgMac_field hty (.inl ⟨rfl, rfl⟩)
      exact .inr ⟨rfl, by decide, id⟩

theorem pgMacExpr_calls : PgCallsOk exRowPost pgMacExpr := by
  refine ⟨⟨⟨trivial, trivial⟩, trivial, trivial⟩, fun h => absurd h (by decide), ?_⟩
  intro _ f vs hf hvs
  cases hf
  cases hvs
  refine ⟨by simp, fun ty hty v hv => ?_⟩
  obtain rfl := pgMac_field hty (.inr (.inr ⟨rfl, rfl⟩))
  simp only [List.mem_cons, List.not_mem_nil, or_false] at hv
  rcases hv with rfl | rfl <;> exact .inr ⟨rfl, by decide, id⟩

theorem pgMac_asks : PgAsks exRowPost exPgQuery exPgFilter.toBool :=
  ⟨rfl, rfl, by decide, exPg_sendable.sort, exPg_sendable.limit, exPg_sendable.offset⟩

theorem pgMacExpr_shape : Parsed 0 pgMacExpr ∧ NoSplices pgMacExpr ∧ OwnFields pgMacExpr := by
  simp [pgMacExpr, Parsed, NoSplices, OwnFields]

/-- The query returns, and what it returns is as described. -/
example : ∃ os, exRowPost.PgLoadOut exPgConn (exPgDb [exPgEditedRow]) exPgQuery (.ok os) ∧
    PgLists exPgConn exRowPost
      (fun id o => PgHas exRowPk exPgObjects id o ∧ PgTrueOf exPgConn exRowPost o pgMacExpr)
      [⟨.asc, "name"⟩] (some 5) none os := by
  obtain ⟨h1, h2⟩ := pg_stores_run_partial exPg_ready exPg_stores exPg_run
  obtain ⟨hp, hn, hO⟩ := pgMacExpr_shape
  obtain ⟨res, h⟩ := pg_macro_load_returns_partial h1 exPg_order h2 pgMacEnv_for pgMacExpr_ok hp hn hO
    pgMacExpr_calls pgMac_asks
  obtain ⟨os, rfl, h3⟩ := pg_macro_load_partial h1 h2 pgMacEnv_for pgMacExpr_ok hp hn hO
    pgMacExpr_calls pgMac_asks h
  exact ⟨os, h, h3⟩

/-- `load_first`. -/
example {res : Except OpErr (Option (ObjVals exRowPost.fields))}
    (h : exRowPost.PgLoadFirstOut exPgConn (exPgDb [exPgEditedRow]) exPgQuery res) :
    ∃ os, res = .ok os.head? ∧ PgLists exPgConn exRowPost
      (fun id o => PgHas exRowPk exPgObjects id o ∧ PgTrueOf exPgConn exRowPost o pgMacExpr)
      [⟨.asc, "name"⟩] (some 5) none os := by
  obtain ⟨h1, h2⟩ := pg_stores_run_partial exPg_ready exPg_stores exPg_run
  obtain ⟨hp, hn, hO⟩ := pgMacExpr_shape
  exact pg_macro_first_partial h1 h2 pgMacEnv_for pgMacExpr_ok hp hn hO pgMacExpr_calls pgMac_asks
    (by rintro x ⟨⟩; decide) h

/-- The query can be deleted. -/
example : ∃ u' n st', exPgConn.deleteQuery (exPgDb [exPgEditedRow]) exPgQuery = .ok (u', n) ∧
    PgKeepsObjs exRowPost exRowPk u' st' ∧ ∀ id o, PgHas exRowPk st' id o ↔
      PgHas exRowPk exPgObjects id o ∧ ¬ PgTrueOf exPgConn exRowPost o pgMacExpr := by
  obtain ⟨h1, h2⟩ := pg_stores_run_partial exPg_ready exPg_stores exPg_run
  obtain ⟨hp, hn, hO⟩ := pgMacExpr_shape
  obtain ⟨u', n, h3⟩ := pg_macro_delete_succeeds_partial h1 h2 pgMacEnv_for pgMacExpr_ok hp hn hO
    pgMacExpr_calls pgMac_asks (exPg_unreferenced _)
  obtain ⟨-, -, st', h4, h5, -⟩ := pg_macro_delete_partial h1 h2 pgMacEnv_for pgMacExpr_ok hp hn hO
    pgMacExpr_calls pgMac_asks h3
  exact ⟨u', n, st', h3, h4, h5⟩

/-- Then it finds nothing. -/
example : ∃ u' n, exPgConn.deleteQuery (exPgDb [exPgEditedRow]) exPgQuery = .ok (u', n) ∧
    ∀ res, exRowPost.PgLoadOut exPgConn u' exPgQuery res → res = .ok [] := by
  obtain ⟨h1, h2⟩ := pg_stores_run_partial exPg_ready exPg_stores exPg_run
  obtain ⟨hp, hn, hO⟩ := pgMacExpr_shape
  obtain ⟨u', n, h3⟩ := pg_macro_delete_succeeds_partial h1 h2 pgMacEnv_for pgMacExpr_ok hp hn hO
    pgMacExpr_calls pgMac_asks (exPg_unreferenced _)
  exact ⟨u', n, h3, fun res h => pg_macro_delete_then_load_partial h1 h2 pgMacEnv_for pgMacExpr_ok hp hn
    hO pgMacExpr_calls pgMac_asks h3 h⟩

/-- A post is saved, edited and deleted by a query; the query then finds nothing that is left of it. -/
example : ∃ u', PgProgram exPgConn exRowPost exRowPk (exPgDb []) (fun _ => none) u'
      (PgWithout exPgConn exRowPost exRowPk exPgObjects pgMacExpr) ∧
    ∀ res, exRowPost.PgLoadOut exPgConn u' exPgQuery res →
      ∃ os, res = .ok os ∧ PgLists exPgConn exRowPost
        (fun id o => PgHas exRowPk (PgWithout exPgConn exRowPost exRowPk exPgObjects pgMacExpr) id o ∧
          PgTrueOf exPgConn exRowPost o pgMacExpr) [⟨.asc, "name"⟩] (some 5) none os := by
  obtain ⟨h1, h2⟩ := pg_stores_run_partial exPg_ready exPg_stores exPg_run
  obtain ⟨hp, hn, hO⟩ := pgMacExpr_shape
  obtain ⟨u', n, h3⟩ := pg_macro_delete_succeeds_partial h1 h2 pgMacEnv_for pgMacExpr_ok hp hn hO
    pgMacExpr_calls pgMac_asks (exPg_unreferenced _)
  have hr := (PgProgram.start.objects exPg_run).deleteFilter pgMacEnv_for pgMacExpr_ok hp hn hO
    pgMacExpr_calls pgMac_asks h3
  exact ⟨u', hr, fun res h => pg_macro_history_partial exPg_ready exPg_stores hr pgMacEnv_for
    pgMacExpr_ok hp hn hO pgMacExpr_calls pgMac_asks h⟩

/-- The expression is true of the edited post. -/
example : PgTrueOf exPgConn exRowPost exPgEdited pgMacExpr := by
  refine .inl ⟨⟨.eq, "likes", .null, .null, rfl, rfl, rfl, ⟨.option .u8, none, rfl, rfl⟩, rfl⟩,
    .eq, "name", .text "z", .text "z", rfl, rfl, rfl, ⟨.string, "z", rfl, rfl⟩,
    (pg_compares_eq exPgServer_laws (ty := .text) rfl (.inr rfl) (.inr rfl) id id).2 rfl⟩

end Butane.Props
