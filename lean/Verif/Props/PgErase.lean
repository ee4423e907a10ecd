/-
C97: deleting the objects that a filter describes, on PostgreSQL.
-/
import Verif.Proofs.PgErase
import Verif.Props.PgQuery

namespace Butane.Props
open Butane Butane.Spec Butane.PgData

variable {k : PgConn} {m : TModel} {pk : TField} {u : PDb}

/-- C97 (partial).  The table of the model holds the objects `st`.  When `delete` of a query succeeds, the
objects that the filter describes (all, without a filter) are gone, the others are left, no other table has
changed, and the number returned is that of the objects deleted.  Limit, offset and order of the query do
not matter (`query_delete_limit_violated`).

Missing: the filters that are missing in `pg_query_selects_partial`. -/
theorem pg_query_delete_partial (h : PgReady k m pk u) {st : Objects m} (hs : PgKeepsObjs m pk u st) {q : Query}
    {e : Option FOr} (hq : PgSendable k m q e) {u' : PDb} {n : Nat} (hd : k.deleteQuery u q = .ok (u', n)) :
    PgReady k m pk u' ∧ (∀ n', n' ≠ m.table → u'.lookup n' = u.lookup n') ∧
      ∃ st', PgKeepsObjs m pk u' st' ∧ PgErased k m pk e st st' n := by
  obtain ⟨t, hT⟩ := PgP.pg_tabled h hs
  exact PgP.erase_ok hT hq hd

/-- C97: `delete` of a query succeeds if no row refers to the table (partial, as above). -/
theorem pg_query_delete_succeeds_partial (h : PgReady k m pk u) {st : Objects m} (hs : PgKeepsObjs m pk u st)
    {q : Query} {e : Option FOr} (hq : PgSendable k m q e) (hun : PgUnreferenced m u) :
    ∃ u' n, k.deleteQuery u q = .ok (u', n) := by
  obtain ⟨t, hT⟩ := PgP.pg_tabled h hs
  exact PgP.erase_succeeds hT hq hun

/-- C97: after `delete` of a query, `load` of it finds nothing (partial, as above). -/
theorem pg_delete_then_load_partial (h : PgReady k m pk u) {st : Objects m} (hs : PgKeepsObjs m pk u st)
    {q : Query} {e : Option FOr} (hq : PgSendable k m q e) {u' : PDb} {n : Nat}
    (hd : k.deleteQuery u q = .ok (u', n)) {res : Except OpErr (List (ObjVals m.fields))}
    (hl : m.PgLoadOut k u' q res) : res = .ok [] := by
  obtain ⟨h1, -, st', h2, h3, -⟩ := pg_query_delete_partial h hs hq hd
  obtain ⟨os, rfl, all, -, h4, -, h5⟩ := pg_query_selects_partial h1 h2 hq hl
  have : all = [] := by
    cases all with
    | nil => rfl
    | cons p ps =>
      obtain ⟨g1, g2⟩ := (h4 p.1 p.2).1 (List.mem_cons_self ..)
      exact absurd g2 ((h3 p.1 p.2).1 g1).2
  subst this
  have hp : page (count q.limit) (count q.offset) ([] : List (SqlVal × ObjVals m.fields)) = [] := by
    unfold page
    cases count q.limit <;> cases count q.offset <;> simp
  rw [hp] at h5
  cases h5
  rfl

/-! ### Examples -/

/-- The post of `exPg_run` is deleted by the query: nothing refers to posts. -/
theorem exPg_unreferenced (rows : List PRow) : PgUnreferenced exRowPost (exPgDb rows) := by
  intro n s hl fk hfk e
  have hmem := SMap.mem_of_lookup hl
  simp only [exPgDb, List.mem_cons, List.not_mem_nil, or_false, Prod.mk.injEq] at hmem
  rcases hmem with ⟨-, rfl⟩ | ⟨-, rfl⟩
  · simp [exPgBlogTable] at hfk
  · simp only [exPgPostTable, List.mem_singleton] at hfk
    subst hfk
    exact absurd e (by decide)

example : ∃ u' n st', exPgConn.deleteQuery (exPgDb [exPgEditedRow]) exPgQuery = .ok (u', n) ∧
    PgKeepsObjs exRowPost exRowPk u' st' ∧
    PgErased exPgConn exRowPost exRowPk (some exPgFilter) exPgObjects st' n := by
  obtain ⟨h1, h2⟩ := pg_stores_run_partial exPg_ready exPg_stores exPg_run
  obtain ⟨u', n, h3⟩ := pg_query_delete_succeeds_partial h1 h2 exPg_sendable (exPg_unreferenced _)
  obtain ⟨-, -, st', h4, h5⟩ := pg_query_delete_partial h1 h2 exPg_sendable h3
  exact ⟨u', n, st', h3, h4, h5⟩

end Butane.Props
