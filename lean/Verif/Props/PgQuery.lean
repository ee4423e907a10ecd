/-
C96: queries on PostgreSQL find the objects the filter describes.
-/
import Verif.Proofs.PgKept
import Verif.Props.PgObj

namespace Butane.Props
open Butane Butane.Spec Butane.PgData

variable {k : PgConn} {m : TModel} {pk : TField} {u : PDb}

/-- C96, `load` (partial).  The table of the model holds the objects `st`.  Then whatever `load` of a query
returns is no error: it is all objects that the filter describes, each once, in an order that the order
terms allow, cut to the page that offset and limit give.

Missing: filters on related objects (`matches`, `contains`), empty lists, more than 126 values, fields
named by SQL keywords in a comparison, values with fractions of microseconds, comparisons of JSON
(`pg_json_filter_violated`), `like` on other fields than texts, and negative limits and offsets. -/
theorem pg_query_selects_partial (h : PgReady k m pk u) {st : Objects m} (hs : PgKeepsObjs m pk u st) {q : Query}
    {e : Option FOr} (hq : PgSendable k m q e) {res : Except OpErr (List (ObjVals m.fields))}
    (hl : m.PgLoadOut k u q res) :
    ∃ os, res = .ok os ∧ PgSelects k m pk st e q.sort (count q.limit) (count q.offset) os := by
  obtain ⟨t, hT⟩ := PgP.pg_tabled h hs
  exact PgP.pg_load_selects hT hq hl

/-- C96: and `load` does return (partial, as above). -/
theorem pg_query_returns_partial (h : PgReady k m pk u) (hO : PgOrderLaws k.server) {st : Objects m}
    (hs : PgKeepsObjs m pk u st) {q : Query} {e : Option FOr} (hq : PgSendable k m q e) :
    ∃ res, m.PgLoadOut k u q res := by
  obtain ⟨t, hT⟩ := PgP.pg_tabled h hs
  exact PgP.pg_load_exists hO hT hq

/-- C96, `load_first` (partial, as above; and the limit is not 0, `load_first_limit_zero_violated`): it
returns the first object of a list that `load` may return, or nothing if that is empty. -/
theorem pg_query_first_partial (h : PgReady k m pk u) {st : Objects m} (hs : PgKeepsObjs m pk u st) {q : Query}
    {e : Option FOr} (hq : PgSendable k m q e) (hlim : ∀ x ∈ q.limit, 0 < x.toInt)
    {res : Except OpErr (Option (ObjVals m.fields))} (hl : m.PgLoadFirstOut k u q res) :
    ∃ os, res = .ok os.head? ∧ PgSelects k m pk st e q.sort (count q.limit) (count q.offset) os := by
  obtain ⟨t, hT⟩ := PgP.pg_tabled h hs
  exact PgP.pg_first_selects hT hq hlim hl

/-- C96: and `load_first` does return (partial, as above). -/
theorem pg_first_returns_partial (h : PgReady k m pk u) (hO : PgOrderLaws k.server) {st : Objects m}
    (hs : PgKeepsObjs m pk u st) {q : Query} {e : Option FOr} (hq : PgSendable k m q e) :
    ∃ res, m.PgLoadFirstOut k u q res := by
  obtain ⟨t, hT⟩ := PgP.pg_tabled h hs
  exact PgP.pg_first_exists hO hT hq

/-- What `==` means in a filter: the values are equal (if they are not reals, for which it is PostgreSQL's
equality of numbers, nor of types of others). -/
theorem pg_compares_eq (hS : Laws k.server) {ty : SqlType} (hex : exactType (pgType ty) = true) {x v : SqlVal}
    (hx : x = .null ∨ x.sqltype = some ty) (hv : v = .null ∨ v.sqltype = some ty) (hxm : ¬ SubMicro x)
    (hvm : ¬ SubMicro v) : PgCompares k .eq x v ↔ x = v := by
  by_cases hvn : v = .null
  · subst hvn; exact Iff.rfl
  have key : PgCompares k .eq x v ↔ PgRelated k .eq x v := by
    cases v <;> first | exact absurd rfl hvn | exact Iff.rfl
  rw [key]
  by_cases hxn : x = .null
  · subst hxn
    exact ⟨fun h => absurd rfl h.1, fun h => absurd h.symm hvn⟩
  obtain ⟨a, ha, ha'⟩ := pg_round_trip_partial x ty hx hxm
  obtain ⟨b, hb, hb'⟩ := pg_round_trip_partial v ty hv hvm
  have := hS.eq _ a b hex (PgP.ofType_of_toPg ha) (PgP.ofType_of_toPg hb) (PgP.toPg_ne_null ha hxn)
    (PgP.toPg_ne_null hb hvn)
  rw [seen, seen, ha', hb'] at this
  unfold PgRelated
  constructor
  · rintro ⟨-, -, h3⟩
    rw [← ha', ← hb', this.1 h3]
  · rintro rfl
    have e := ha.symm.trans hb
    cases e
    exact ⟨hxn, hvn, this.2 rfl⟩

/-! ### Histories -/

/-- An empty table holds no objects. -/
theorem pg_stores_empty {t : Table} (hlk : u.lookup m.table = some t) (he : t.rows = []) :
    PgKeepsObjs m pk u fun _ => none := PgP.stores_empty hlk he

/-- C96, histories (partial, as C91): whatever objects are saved and deleted, of this model and of models
with other tables, the table holds the objects that were saved and not deleted since. -/
theorem pg_stores_run_partial {u0 : PDb} (h : PgReady k m pk u0) {st0 st : Objects m}
    (h0 : PgKeepsObjs m pk u0 st0) (hr : PgRun k m pk u0 st0 u st) :
    PgReady k m pk u ∧ PgKeepsObjs m pk u st := PgP.stores_run h h0 hr

/-- C96, queries in histories (partial, as above). -/
theorem pg_history_query_partial {u0 : PDb} (h : PgReady k m pk u0) {st0 st : Objects m}
    (h0 : PgKeepsObjs m pk u0 st0) (hr : PgRun k m pk u0 st0 u st) {q : Query} {e : Option FOr}
    (hq : PgSendable k m q e) {res : Except OpErr (List (ObjVals m.fields))} (hl : m.PgLoadOut k u q res) :
    ∃ os, res = .ok os ∧ PgSelects k m pk st e q.sort (count q.limit) (count q.offset) os := by
  obtain ⟨h1, h2⟩ := PgP.stores_run h h0 hr
  exact pg_query_selects_partial h1 h2 hq hl

/-! ### JSON -/

/-- C96, the full statement is false: a filter that compares a JSON field with a JSON value compiles, and
`load` always fails.  The parameter is declared as `json` while the column is `jsonb`, and PostgreSQL does
not compare the two. -/
theorem pg_json_filter_violated (h : PgReady k m pk u) {f : String} {ty : FieldTy} (hf : HasField m f ty)
    (hj : ty.sqltype = .json) (hp : PlainName k.reserved f) (op : CmpOp) (j : String)
    {res : Except OpErr (List (ObjVals m.fields))}
    (hl : m.PgLoadOut k u ((Query.new m.table).withFilter (fieldCmp op f (.json j))) res) :
    ∃ e, res = .error e := PgP.json_fails h hf hj hp op j hl

/-! ### Examples -/

theorem exPg_order : PgOrderLaws exPgServer := ⟨fun _ _ => .inl rfl, fun _ _ _ _ _ => rfl⟩

theorem exPg_stores : PgKeepsObjs exRowPost exRowPk (exPgDb []) fun _ => none :=
  pg_stores_empty (t := exPgPostTable []) rfl rfl

def exPgObjects : Objects exRowPost :=
  Objects.put (Objects.put (fun _ => none) (.bigInt 7) exPgSaved) (.bigInt 7) exPgEdited

/-- `filter!(Post, likes == None && name == "z" || blog in [3, 4])`, ordered by name, the first 5. -/
def exPgFilter : FOr :=
  .or (.one (.and (.one (.cmp .eq "likes" .null)) (.cmp .eq "name" (.text "z"))))
    (.one (.isIn "blog" [.int 3, .int 4]))
def exPgQuery : Query :=
  { table := "post", filter := some exPgFilter.toBool, limit := some 5, sort := [⟨.asc, "name"⟩] }

theorem exPg_field (n : String) (p : Bool) (t : FieldTy) (h : (⟨n, p, some t⟩ : TField) ∈ exRowPost.fields) :
    HasField exRowPost n t := ⟨_, h, rfl, rfl⟩

theorem exPg_sendable : PgSendable exPgConn exRowPost exPgQuery (some exPgFilter) where
  table := rfl
  filter := rfl
  fits := by
    rintro f ⟨⟩
    refine ⟨⟨⟨⟨nameOf rfl (by decide) (by decide), by decide, rfl⟩, .option .u8,
        exPg_field _ false _ (by simp [exRowPost, exFields]), .inl rfl, (fun h => by cases h)⟩,
      ⟨nameOf rfl (by decide) (by decide), by decide, rfl⟩, .string,
        exPg_field _ false _ (by simp [exRowPost, exFields]), .inr ⟨rfl, by decide, id⟩, fun _ => rfl⟩,
      by simp, .fkey .i32, exPg_field _ false _ (by simp [exRowPost, exFields]), ?_⟩
    intro v hv
    simp only [List.mem_cons, List.not_mem_nil, or_false] at hv
    rcases hv with rfl | rfl <;> exact .inr ⟨rfl, by decide, id⟩
  count := by
    rintro f ⟨⟩
    decide
  sort := by
    intro c hc
    simp only [exPgQuery, List.mem_singleton] at hc
    subst hc
    exact ⟨.string, exPg_field _ false _ (by simp [exRowPost, exFields])⟩
  limit := by rintro x ⟨⟩; decide
  offset := by rintro x ⟨⟩

/-- After a post was saved and edited, the query returns, and what it returns is as described. -/
example : ∃ res, exRowPost.PgLoadOut exPgConn (exPgDb [exPgEditedRow]) exPgQuery res := by
  obtain ⟨h1, h2⟩ := pg_stores_run_partial exPg_ready exPg_stores exPg_run
  exact pg_query_returns_partial h1 exPg_order h2 exPg_sendable
example {res} (h : exRowPost.PgLoadOut exPgConn (exPgDb [exPgEditedRow]) exPgQuery res) :
    ∃ os, res = .ok os ∧ PgSelects exPgConn exRowPost exRowPk exPgObjects (some exPgFilter)
      [⟨.asc, "name"⟩] (some 5) none os :=
  pg_history_query_partial exPg_ready exPg_stores exPg_run exPg_sendable h
/-- And so does `load_first`. -/
example : ∃ os res, exRowPost.PgLoadFirstOut exPgConn (exPgDb [exPgEditedRow]) exPgQuery res ∧
    res = .ok os.head? ∧ PgSelects exPgConn exRowPost exRowPk exPgObjects (some exPgFilter)
      [⟨.asc, "name"⟩] (some 5) none os := by
  obtain ⟨h1, h2⟩ := pg_stores_run_partial exPg_ready exPg_stores exPg_run
  obtain ⟨res, h⟩ := pg_first_returns_partial h1 exPg_order h2 exPg_sendable
  obtain ⟨os, h3, h4⟩ := pg_query_first_partial h1 h2 exPg_sendable (by rintro x ⟨⟩; decide) h
  exact ⟨os, res, h, h3, h4⟩
/-- The filter describes the edited post. -/
example : PgFilterMeans exPgConn exRowPost exPgEdited exPgFilter :=
  .inl ⟨⟨.null, ⟨(.option .u8), none, rfl, rfl⟩, rfl⟩, .text "z", ⟨.string, "z", rfl, rfl⟩,
    (pg_compares_eq exPgServer_laws (ty := .text) rfl (.inr rfl) (.inr rfl) id id).2 rfl⟩

/-- A model with a JSON field. -/
def exJsonType : JsonType := ⟨String, some, some, fun _ => true⟩
def exJsonPk : TField := ⟨"id", true, some .i32⟩
def exJsonModel : TModel := ⟨"doc", [exJsonPk, ⟨"data", false, some (.json exJsonType)⟩]⟩
def exJsonDb : PDb :=
  [("doc", ⟨[⟨"id", .int4, true, false, .null, true⟩, ⟨"data", .jsonb, true, false, .null, false⟩], [],
    [exRowOf [("id", .int4 1), ("data", .jsonb "{}")]]⟩)]

theorem exJson_ok : PgModelOk exPgConn exJsonModel exJsonPk where
  covers := exCovers
  excluded := rfl
  table := nameOf rfl (by decide) (by decide)
  table_ne := by decide
  names := by
    intro f hf
    simp only [exJsonModel, exJsonPk, List.mem_cons, List.not_mem_nil, or_false] at hf
    rcases hf with rfl | rfl <;> exact nameOf rfl (by decide) (by decide)
  distinct := by decide
  key := rfl
  plain := ⟨nameOf rfl (by decide) (by decide), by decide, rfl⟩
  keyType := ⟨.i32, rfl, by decide, by decide, id⟩
  auto := by
    intro f hf
    simp only [exJsonModel, exJsonPk, List.mem_cons, List.not_mem_nil, or_false] at hf
    rcases hf with rfl | rfl <;> intro h <;> cases h
  autoInt := by intro ty h; cases h
  count := by decide

theorem exJson_ready : PgReady exPgConn exJsonModel exJsonPk exJsonDb := by
  refine ⟨exJson_ok, exPgServer_laws, by decide, rfl, _, rfl, by decide, ?_⟩
  intro f hf ty hty
  simp only [exJsonModel, exJsonPk, List.mem_cons, List.not_mem_nil, or_false] at hf
  rcases hf with rfl | rfl <;> cases hty
  · exact ⟨⟨"id", .int4, true, false, .null, true⟩, by simp, rfl, rfl, fun _ => id,
      fun _ => ⟨rfl, rfl⟩, (fun h => by cases h)⟩
  · exact ⟨⟨"data", .jsonb, true, false, .null, false⟩, by simp, rfl, rfl, fun _ => id,
      (fun h => absurd h (by decide)), (fun h => by cases h)⟩

/-- `query!(Doc, data == {})` fails, although there is such a document. -/
example {res} (h : exJsonModel.PgLoadOut exPgConn exJsonDb
    ((Query.new "doc").withFilter (fieldCmp .eq "data" (.json "{}"))) res) : ∃ e, res = .error e :=
  pg_json_filter_violated exJson_ready (f := "data") (ty := .json exJsonType) 
    ⟨⟨"data", false, some (.json exJsonType)⟩, by simp [exJsonModel], rfl, rfl⟩
    rfl ⟨nameOf rfl (by decide) (by decide), by decide, rfl⟩ .eq "{}" h

end Butane.Props
