/-
Butane can describe every change between plain schemas to SQLite: generating the SQL is no error.
-/
import Verif.Proofs.SqliteMigrate
import Verif.Props.Diff

namespace Butane.DdlP
open Butane Butane.Ddl Spec
variable {env : SqliteEnv} {kw res : String → Bool} {p : LitPrinters}

/-- A plain column has a value for the rows that are there when it is added. -/
theorem columnDefault_total {c : AColumn} (h : PlainColumn c) : ∃ v, columnDefault c = .ok v := by
  obtain ⟨st, ty, hty, hst⟩ := h.type
  simp only [columnDefault]
  cases c.default with
  | some v => exact ⟨v, rfl⟩
  | none =>
    simp only
    split
    · exact ⟨_, rfl⟩
    · rw [hty]
      cases ty <;> first | exact ⟨_, rfl⟩ | (simp [sqliteType] at hst)

theorem changeColumn_total (hk : CoversDdl kw res) (hf : TypesFree res) {cur : ADB} {n : String} {t : ATable}
    (hn : IsName t.name) (h : cur.getTable n = some t) (o : AColumn) (new : Option AColumn)
    (hc : ∀ c ∈ (SqliteDdl.changedTable t o new).columns, PlainColumn c) :
    ∃ x cur', SqliteDdl.changeColumn kw cur n o new = .ok (x, cur') := by
  obtain ⟨s, h1, -⟩ := createTable_reads (t := { SqliteDdl.changedTable t o new with name := SqliteDdl.tmpName t.name })
    hk hf (tmpName_name hn) hc false
  exact ⟨_, _, by simp only [SqliteDdl.changeColumn, h, h1, Gen.bind]; rfl⟩

theorem sqlForOp_total (hk : CoversDdl kw res) (hf : TypesFree res) {cur : ADB} (hv : ValidSchema cur)
    (hp : PlainSchema cur) {op : Operation} (hop : PlainOp env p op) (ha : Applicable cur op) :
    ∃ t cur', SqliteDdl.sqlForOp kw p cur op = .ok (t, cur') := by
  cases op with
  | addTable t =>
    obtain ⟨s, h1, -⟩ := createTable_reads (res := res) hk hf hop.name hop.columns false
    exact ⟨s, cur, by simp only [SqliteDdl.sqlForOp, h1, Gen.bind]⟩
  | addTableIfNotExists t =>
    obtain ⟨s, h1, -⟩ := createTable_reads (res := res) hk hf hop.name hop.columns true
    exact ⟨s, cur, by simp only [SqliteDdl.sqlForOp, h1, Gen.bind]⟩
  | addTableConstraints t => exact ⟨_, _, rfl⟩
  | removeTableConstraints t => exact ⟨_, _, rfl⟩
  | removeTable n => exact ⟨_, _, rfl⟩
  | addColumn n c =>
    obtain ⟨v, hv'⟩ := columnDefault_total hop.2.1
    obtain ⟨st, hst⟩ := hop.2.1.type
    obtain ⟨s, h1, -⟩ := addColumn_reads (res := res) hk hf hop.1 hop.2.1 hv'
      (hop.2.2.value v st ((newValue_iff ⟨st, hst⟩).2 hv') hst)
    exact ⟨s, cur, by simp only [SqliteDdl.sqlForOp, h1, Gen.bind]⟩
  | removeColumn n c =>
    obtain ⟨t, h1, x, hx, rfl⟩ := ha
    have hcol := column_of_mem (distinct_of_getTable hv h1) hx
    simp only [SqliteDdl.sqlForOp, SqliteDdl.removeColumn, h1, hcol]
    split
    · exact changeColumn_total hk hf (hp _ _ h1).name h1 x none (columnsPlain_remove (hp _ _ h1).columns _)
    · exact ⟨_, _, rfl⟩
  | changeColumn n o c =>
    obtain ⟨-, t, h1, -⟩ := ha
    exact changeColumn_total hk hf (hp _ _ h1).name h1 o (some c) (columnsPlain_replace (hp _ _ h1).columns hop.2)

theorem opTexts_total (hk : CoversDdl kw res) (hf : TypesFree res) {ops : List Operation} {cur : ADB}
    (hv : ValidSchema cur) (hp : PlainSchema cur) (hops : ∀ op ∈ ops, PlainOp env p op) (hok : ∀ op ∈ ops, opOk op)
    (ha : ∀ pre op post, ops = pre ++ op :: post → Applicable (cur.transformAll pre) op) :
    ∃ ts, SqliteDdl.opTexts kw p cur ops = .ok ts := by
  induction ops generalizing cur with
  | nil => exact ⟨[], rfl⟩
  | cons op ops ih =>
    have hop := hops op (List.mem_cons_self ..)
    obtain ⟨t, cur', h1⟩ := sqlForOp_total (kw := kw) hk hf hv hp hop (ha [] op ops rfl)
    obtain ⟨ts, h2⟩ := ih (valid_transformWith hv op (hok op (List.mem_cons_self ..)))
      (plain_transform hv.sorted hp hop) (fun o ho => hops o (List.mem_cons_of_mem _ ho))
      (fun o ho => hok o (List.mem_cons_of_mem _ ho))
      (fun pre o post e => ha (op :: pre) o post (by rw [e]; rfl))
    exact ⟨t :: ts, by simp only [SqliteDdl.opTexts, h1, Gen.bind, opTexts_step hv h1, h2]⟩

/-- The SQL of a migration between schemas that butane can describe to SQLite is generated. -/
theorem sqlite_generates (hk : CoversDdl kw res) (hf : TypesFree res) {old new : ADB} (h : Transition env p old new)
    (first : Bool) :
    ∃ text, (sqliteBackend kw p).sql old (withRecords first (diff old new)) = .ok text ∧ text ≠ "" := by
  obtain ⟨ts, h1⟩ := opTexts_total (kw := kw) hk hf h.src.valid h.src.plain (step_plain h false) (step_ok h false)
    (fun pre op post e => Props.diff_op_applicable old new h.src.valid h.dst.valid pre post op e)
  have : ∃ ts', SqliteDdl.opTexts kw p old (withRecords first (diff old new)) = .ok ts' := by
    cases first with
    | false => exact ⟨ts, h1⟩
    | true =>
      obtain ⟨r, hr, -⟩ := createTable_reads (res := res) hk hf records_plain.name records_plain.columns true
      exact ⟨_, opTexts_last hr h1⟩
  obtain ⟨ts', h2⟩ := this
  have hm : ∃ t, SqliteDdl.migrationSql kw p old (withRecords first (diff old new)) = .ok t :=
    ⟨_, by simp only [SqliteDdl.migrationSql, h2, Gen.bind]; rfl⟩
  obtain ⟨t, ht⟩ := hm
  refine ⟨String.ofList t, by simp only [sqliteBackend, ht], fun e => ?_⟩
  have hnl := text_newline ht
  have : t = [] := by simpa using congrArg String.toList e
  rw [this] at hnl
  cases hnl

end Butane.DdlP
