/-
Where the script of a migration on Turso has quoted semicolons, and which migrations run.
-/
import Verif.Proofs.TursoDdl

namespace Butane.DdlP
open Butane.Ddl Spec
open Butane.Sql (isWordChar isWordStart isDigit upper)

variable {res : String → Bool} {kw : String → Bool}

/-! ### Quoted semicolons -/

/-- The text ends outside quotes, and `b` says if it has a quoted semicolon. -/
def Marked (t : Text) (b : Bool) : Prop :=
  ∀ r, semicolonQuoted .outside (t ++ r) = (b || semicolonQuoted .outside r)

theorem Marked.append {t u : Text} {a b : Bool} (h1 : Marked t a) (h2 : Marked u b) :
    Marked (t ++ u) (a || b) := by
  intro r
  rw [List.append_assoc, h1, h2, Bool.or_assoc]

theorem marked_nil : Marked [] false := fun _ => rfl

theorem marked_unquoted {t : Text} (h : ∀ c ∈ t, c ≠ '\'' ∧ c ≠ '"') : Marked t false := by
  induction t with
  | nil => exact marked_nil
  | cons c t ih =>
    intro r
    have hc := h c (List.mem_cons_self ..)
    have := ih (fun d hd => h d (List.mem_cons_of_mem _ hd)) r
    rw [List.cons_append, semicolonQuoted.eq_4 _ _ hc.1 hc.2, this]

theorem inString {t : Text} (h : '\'' ∉ t) (r : Text) :
    semicolonQuoted .string (t ++ '\'' :: r) =
      (decide (';' ∈ t) || semicolonQuoted .outside r) := by
  induction t with
  | nil => simp [semicolonQuoted]
  | cons c t ih =>
    simp only [List.mem_cons, not_or] at h
    rw [List.cons_append, semicolonQuoted.eq_6 _ _ (Ne.symm h.1), ih h.2]
    by_cases hc : c = ';'
    · subst hc; simp
    · simp [hc, Ne.symm hc]

theorem inName {t : Text} (h : '"' ∉ t) (r : Text) :
    semicolonQuoted .name (t ++ '"' :: r) =
      (decide (';' ∈ t) || semicolonQuoted .outside r) := by
  induction t with
  | nil => simp [semicolonQuoted]
  | cons c t ih =>
    simp only [List.mem_cons, not_or] at h
    rw [List.cons_append, semicolonQuoted.eq_8 _ _ (Ne.symm h.1), ih h.2]
    by_cases hc : c = ';'
    · subst hc; simp
    · simp [hc, Ne.symm hc]

theorem marked_squote {t : Text} (h : '\'' ∉ t) : Marked (squote t) (decide (';' ∈ t)) := by
  intro r
  simp only [squote, List.cons_append, List.append_assoc, List.nil_append, semicolonQuoted]
  exact inString h r

theorem name_chars {s : String} (h : IsName s) : ∀ c ∈ s.toList, c ≠ '\'' ∧ c ≠ '"' ∧ c ≠ ';' := by
  obtain ⟨c, cs, h1, h2, h3⟩ := h
  intro d hd
  rw [h1] at hd
  have : isWordChar d = true := by
    rcases List.mem_cons.1 hd with rfl | hd
    · simp [isWordChar, h2]
    · exact List.all_eq_true.1 h3 d hd
  refine ⟨?_, ?_, ?_⟩ <;> (rintro rfl; revert this; decide)

theorem marked_quoteName {s : String} (h : IsName s) : Marked (quoteName kw s) false := by
  have hc := name_chars h
  unfold quoteName
  split
  · intro r
    have hq : '"' ∉ s.toList := fun m => (hc _ m).2.1 rfl
    have hs : ';' ∉ s.toList := fun m => (hc _ m).2.2 rfl
    have := inName hq r
    simp only [hs, decide_false, Bool.false_or] at this
    simpa only [List.cons_append, List.append_assoc, List.nil_append, semicolonQuoted,
      Bool.false_or] using this
  · exact marked_unquoted fun c m => ⟨(hc c m).1, (hc c m).2.1⟩

theorem marked_join {sep : Text} (hs : Marked sep false) {ts : List Text}
    (h : ∀ t ∈ ts, Marked t false) : Marked (joinText sep ts) false := by
  induction ts with
  | nil => exact marked_nil
  | cons t ts ih =>
    cases ts with
    | nil => exact h t (List.mem_cons_self ..)
    | cons u ts =>
      exact ((h t (List.mem_cons_self ..)).append hs).append
        (ih fun x hx => h x (List.mem_cons_of_mem _ hx))

theorem marked_lit {s : String} (h : (lit s).all (fun c => c != '\'' && c != '"') = true) :
    Marked (lit s) false :=
  marked_unquoted fun c hc => by
    have := List.all_eq_true.1 h c hc
    simpa using this

/-! ### Columns and tables -/

theorem marked_column {c : AColumn} (hc : PlainColumn c) {t : Text}
    (h : SqliteDdl.defineColumn kw c = .ok t) : Marked t false := by
  obtain ⟨st, ty, h1, h2⟩ := hc.type
  have hty : Marked st.name.toList false := by
    cases st <;> exact marked_lit (s := SqliteType.name _) (by decide)
  simp only [SqliteDdl.defineColumn, SqliteDdl.colType, h1, h2, Gen.bind, Gen.ok.injEq] at h
  have base := ((marked_quoteName (kw := kw) hc.name).append (marked_lit (s := " ") (by decide))).append hty
  have hcons : ∀ x ∈ SqliteDdl.colConstraints c, Marked x false := by
    intro x hx
    have hx' : x ∈ [lit "NOT NULL", lit "PRIMARY KEY", lit "AUTOINCREMENT", lit "UNIQUE"] := by
      simp only [SqliteDdl.colConstraints, List.mem_append] at hx
      rcases hx with ((hx | hx) | hx) | hx <;> split at hx <;> simp_all
    simp only [List.mem_cons, List.not_mem_nil, or_false] at hx'
    rcases hx' with rfl | rfl | rfl | rfl <;> exact marked_lit (by decide)
  have hj := marked_join (marked_lit (s := " ") (by decide)) hcons
  split at h
  · rw [← h]; exact base
  · rw [← h]; exact (base.append (marked_lit (s := " ") (by decide))).append hj

theorem marked_columns {cols : List AColumn} (hc : ∀ c ∈ cols, PlainColumn c) {ts : List Text}
    (h : Gen.mapM (SqliteDdl.defineColumn kw) cols = .ok ts) : ∀ t ∈ ts, Marked t false := by
  induction cols generalizing ts with
  | nil => cases h; simp
  | cons c cols ih =>
    simp only [Gen.mapM] at h
    obtain ⟨x, h1, h⟩ := bind_ok h
    obtain ⟨xs, h2, h⟩ := bind_ok h
    cases h
    intro t ht
    rcases List.mem_cons.1 ht with rfl | ht
    · exact marked_column (hc c (List.mem_cons_self ..)) h1
    · exact ih (fun d hd => hc d (List.mem_cons_of_mem _ hd)) h2 t ht

theorem marked_constraints {cols : List AColumn} (hc : ∀ c ∈ cols, PlainColumn c) {ts : List Text}
    (h : Gen.mapM (fun (p : AColumn × ARef) => SqliteDdl.defineConstraint kw p.1 p.2)
      (cols.filterMap fun c => c.reference.map fun r => (c, r)) = .ok ts) :
    ∀ t ∈ ts, Marked t false := by
  induction cols generalizing ts with
  | nil => cases h; simp
  | cons c cols ih =>
    have ih' := fun {ts} => @ih (fun d hd => hc d (List.mem_cons_of_mem _ hd)) ts
    cases hr : c.reference with
    | none =>
      simp only [List.filterMap_cons, hr, Option.map_none] at h
      exact ih' h
    | some r =>
      simp only [List.filterMap_cons, hr, Option.map_some, Gen.mapM] at h
      obtain ⟨x, h1, h⟩ := bind_ok h
      obtain ⟨xs, h2, h⟩ := bind_ok h
      cases h
      have hp := hc c (List.mem_cons_self ..)
      obtain ⟨t, k, rfl, ht, hk, -⟩ := hp.reference r hr
      cases h1
      intro u hu
      rcases List.mem_cons.1 hu with rfl | hu
      · exact ((((((marked_lit (by decide)).append (marked_quoteName hp.name)).append
          (marked_lit (by decide))).append (marked_quoteName ht)).append
          (marked_lit (by decide))).append (marked_quoteName hk)).append (marked_lit (by decide))
      · exact ih' h2 u hu

theorem marked_table {t : ATable} (hn : IsName t.name) (hc : ∀ c ∈ t.columns, PlainColumn c)
    {b : Bool} {s : Text} (h : TursoDdl.createTable kw t b = .ok s) : Marked s false := by
  simp only [TursoDdl.createTable] at h
  obtain ⟨d, h1, h⟩ := bind_ok h
  obtain ⟨e, h2, h⟩ := bind_ok h
  have hd := marked_columns hc h1
  have he := marked_constraints hc h2
  have hall : ∀ t ∈ d ++ e, Marked t false := fun t m => (List.mem_append.1 m).elim (hd t) (he t)
  have hif : Marked (if b = true then lit "IF NOT EXISTS " else []) false := by
    cases b
    · exact marked_nil
    · exact marked_lit (by decide)
  have pre := (((marked_lit (s := "CREATE TABLE ") (by decide)).append hif).append
    (marked_quoteName (kw := kw) hn)).append (marked_lit (s := " (") (by decide))
  simp only [Gen.ok.injEq] at h
  generalize (if b = true then lit "IF NOT EXISTS " else []) = I at h pre
  generalize TursoDdl.byteLen _ = n at h
  by_cases hl : n ≤ 120
  · rw [if_pos hl] at h
    rw [← h]
    exact (pre.append (marked_join (marked_lit (by decide)) hall)).append (marked_lit (by decide))
  · rw [if_neg hl] at h
    rw [← h]
    have hin : ∀ t ∈ (d ++ e).map (fun d => lit "    " ++ d), Marked t false := by
      intro t ht
      obtain ⟨x, hx, rfl⟩ := List.mem_map.1 ht
      exact (marked_lit (s := "    ") (by decide)).append (hall x hx)
    exact ((pre.append (marked_lit (s := "\n") (by decide))).append
      (marked_join (marked_lit (by decide)) hin)).append (marked_lit (by decide))

theorem marked_copy {old new : ATable} (ho : IsName old.name) (hn : IsName new.name)
    (hc : ∀ c ∈ new.columns, IsName c.name) : Marked (TursoDdl.copyTable kw old new) false := by
  have hall : ∀ t ∈ new.columns.map (fun c => quoteName kw c.name), Marked t false := by
    intro t ht
    obtain ⟨x, hx, rfl⟩ := List.mem_map.1 ht
    exact marked_quoteName (hc x hx)
  unfold TursoDdl.copyTable
  simp only
  generalize TursoDdl.byteLen _ = n
  by_cases hl : n ≤ 120
  · rw [if_pos hl]
    exact ((((((marked_lit (by decide)).append (marked_quoteName hn)).append
      (marked_lit (by decide))).append (marked_join (marked_lit (by decide)) hall)).append
      (marked_lit (by decide))).append (marked_quoteName ho)).append (marked_lit (by decide))
  · rw [if_neg hl]
    exact ((((((marked_lit (by decide)).append (marked_quoteName hn)).append
      (marked_lit (by decide))).append (marked_join (marked_lit (by decide)) hall)).append
      (marked_lit (by decide))).append (marked_quoteName ho)).append (marked_lit (by decide))

/-! ### Literals -/

/-- The literal of the value has a semicolon between its quotes. -/
def litMark : SqlVal → Bool
  | .text s => decide (';' ∈ s.toList)
  | _ => false

theorem hexDigit_no_semi (d : Nat) (h : d < 16) : hexDigit d ≠ ';' := by
  have : ∀ d : Fin 16, hexDigit d.val ≠ ';' := by decide
  exact this ⟨d, h⟩

theorem hexUpper_no_semi (b : List UInt8) : ';' ∉ hexUpper b := by
  induction b with
  | nil => simp [hexUpper]
  | cons x b ih =>
    have hx : x.toNat < 256 := x.toNat_lt
    simp only [hexUpper, List.mem_cons, not_or]
    exact ⟨(hexDigit_no_semi _ (by omega)).symm, (hexDigit_no_semi _ (by omega)).symm, ih⟩

theorem marked_numeral {s : Text} (h : IsNumeral s) : Marked s false := by
  obtain ⟨c, r, rfl, h1, h2⟩ := h
  have hd : ∀ d, isDigit d = true ∨ d = '.' → d ≠ '\'' ∧ d ≠ '"' := by
    intro d hd
    constructor <;> (rintro rfl; revert hd; decide)
  refine marked_unquoted fun d m => ?_
  rcases List.mem_cons.1 m with rfl | m
  · exact hd _ (.inl h1)
  · exact hd _ (h2 d m)

theorem marked_neg {s : Text} (h : Marked s false) : Marked ('-' :: s) false :=
  (marked_lit (s := "-") (by decide)).append h

theorem marked_int (i : Int) : Marked (intText i) false := by
  cases i with
  | ofNat n => exact marked_numeral (natText_numeral n)
  | negSucc n => exact marked_neg (marked_numeral (natText_numeral _))

theorem marked_literal {env : SqliteEnv} {p : LitPrinters} {st : SqliteType} {v : SqlVal}
    (h : LiteralReads env p st v) {t : Text} (ht : sqlLiteral p v = .ok t) :
    Marked t (litMark v) := by
  cases v with
  | null => cases ht; exact marked_lit (by decide)
  | bool b => cases ht; cases b <;> exact marked_lit (by decide)
  | int i => cases ht; exact marked_int _
  | bigInt i => cases ht; exact marked_int _
  | real r =>
    cases ht
    obtain ⟨-, neg, s, h1, h2, -⟩ := h
    rw [h1]
    cases neg
    · exact marked_numeral h2
    · exact marked_neg (marked_numeral h2)
  | text s => cases ht; exact marked_squote h.2
  | blob b =>
    cases ht
    have := (marked_lit (s := "x") (by decide)).append (marked_squote (hexUpper_no_quote b))
    simp only [hexUpper_no_semi, decide_false, Bool.or_false] at this
    exact this
  | json j => exact h.elim
  | date j => exact h.elim
  | timestamp j => exact h.elim
  | custom j => exact h.elim

/-! ### Operations -/

/-- The operation adds a column whose default has a semicolon. -/
def opMark : Operation → Bool
  | .addColumn _ c => match columnDefault c with
    | .ok v => litMark v
    | _ => false
  | _ => false

theorem marked_four {t1 t2 t3 t4 : Text} (h1 : Marked t1 false) (h2 : Marked t2 false)
    (h3 : Marked t3 false) (h4 : Marked t4 false) :
    Marked (joinText (lit "\n") [t1, t2, t3, t4]) false := by
  refine marked_join (marked_lit (by decide)) fun x hx => ?_
  simp only [List.mem_cons, List.not_mem_nil, or_false] at hx
  rcases hx with h | h | h | h <;> rw [h] <;> assumption

theorem marked_change {cur : ADB} (hv : ValidSchema cur) (hp : PlainSchema cur) {tbl : String}
    {c : AColumn} {new : Option AColumn} {u : ATable} (hu : cur.getTable tbl = some u)
    (hpl : ∀ x ∈ (SqliteDdl.changedTable u c new).columns, PlainColumn x) {t : Text} {cur' : ADB}
    (h : TursoDdl.changeColumn kw cur tbl c new = .ok (t, cur')) : Marked t false := by
  have hname := name_of_getTable hv hu
  have hun := (hp _ u hu).name
  have htmp := tmpName_name hun
  have hun' : IsName tbl := by rw [← hname]; exact hun
  simp only [TursoDdl.changeColumn, hu] at h
  obtain ⟨s, h1, h⟩ := bind_ok h
  simp only [Gen.ok.injEq, Prod.mk.injEq] at h
  rw [← h.1]
  have a := marked_table (t := { SqliteDdl.changedTable u c new with
    name := SqliteDdl.tmpName u.name }) htmp hpl h1
  have b := marked_copy (kw := kw) (new := { SqliteDdl.changedTable u c new with
    name := SqliteDdl.tmpName u.name }) hun htmp fun x hx => (hpl x hx).name
  have d : Marked (SqliteDdl.dropTable kw u.name) false :=
    ((marked_lit (by decide)).append (marked_quoteName hun)).append (marked_lit (by decide))
  have e : Marked (lit "ALTER TABLE " ++ quoteName kw (SqliteDdl.tmpName u.name) ++
      lit " RENAME TO " ++ quoteName kw tbl ++ lit ";") false :=
    ((((marked_lit (by decide)).append (marked_quoteName htmp)).append
      (marked_lit (by decide))).append (marked_quoteName hun')).append (marked_lit (by decide))
  exact marked_four a b d e

theorem marked_op {env : SqliteEnv} {p : LitPrinters} {cur : ADB} (hv : ValidSchema cur)
    (hp : PlainSchema cur) {op : Operation} (hop : PlainOp env p op) {t : Text} {cur' : ADB}
    (h : TursoDdl.sqlForOp kw p cur op = .ok (t, cur')) : Marked t (opMark op) := by
  have hcreate : ∀ {a : ATable} {b : Bool}, PlainTable a →
      ((TursoDdl.createTable kw a b).bind fun s => .ok (s, cur)) = .ok (t, cur') →
      Marked t false := by
    intro a b ha h
    obtain ⟨s, h1, h⟩ := bind_ok h
    cases h
    exact marked_table ha.name ha.columns h1
  cases op with
  | addTable a => exact hcreate hop h
  | addTableIfNotExists a => exact hcreate hop h
  | addTableConstraints a => cases h; exact marked_nil
  | removeTableConstraints a => cases h; exact marked_nil
  | removeTable a =>
    cases h
    exact ((marked_lit (by decide)).append (marked_quoteName hop)).append (marked_lit (by decide))
  | addColumn a c =>
    simp only [TursoDdl.sqlForOp] at h
    obtain ⟨s, h1, h⟩ := bind_ok h
    cases h
    simp only [SqliteDdl.addColumn] at h1
    obtain ⟨v, hv', h1⟩ := bind_ok h1
    obtain ⟨d, h2, h1⟩ := bind_ok h1
    obtain ⟨l, h3, h1⟩ := bind_ok h1
    obtain ⟨st, hst⟩ := hop.2.1.type
    have hl := hop.2.2.value v st ((newValue_iff ⟨st, hst⟩).2 hv') hst
    cases h1
    simp only [opMark, hv']
    have := (((((((marked_lit (s := "ALTER TABLE ") (by decide)).append
      (marked_quoteName (kw := kw) hop.1)).append (marked_lit (s := " ADD COLUMN ") (by decide))).append
      (marked_column hop.2.1 h2)).append (marked_lit (s := " DEFAULT ") (by decide))).append
      (marked_literal hl h3)).append (marked_lit (s := ";") (by decide)))
    simpa only [Bool.false_or, Bool.or_false] using this
  | removeColumn a c =>
    simp only [TursoDdl.sqlForOp, TursoDdl.removeColumn] at h
    cases ht : cur.getTable a with
    | none => simp [ht] at h
    | some u =>
      simp only [ht] at h
      cases hc : u.column c with
      | none => simp [hc] at h
      | some x =>
        simp only [hc] at h
        split at h
        · exact marked_change (c := x) (new := none) hv hp ht (columnsPlain_remove (hp _ u ht).columns _) h
        · cases h
          exact ((((marked_lit (by decide)).append (marked_quoteName hop.1)).append
            (marked_lit (by decide))).append (marked_quoteName hop.2)).append (marked_lit (by decide))
  | changeColumn a o c =>
    simp only [TursoDdl.sqlForOp] at h
    cases ht : cur.getTable a with
    | none =>
      simp only [TursoDdl.changeColumn, ht, Gen.ok.injEq, Prod.mk.injEq] at h
      rw [← h.1]
      exact marked_nil
    | some u =>
      exact marked_change (c := o) (new := some c) hv hp ht (columnsPlain_replace (hp _ u ht).columns hop.2) h

theorem step_turso {p : LitPrinters} {cur : ADB} (hv : ValidSchema cur) {op : Operation} {t : Text}
    {cur' : ADB} (h : TursoDdl.sqlForOp kw p cur op = .ok (t, cur')) :
    cur'.transformWith op = cur.transformWith op := by
  obtain ⟨s, hs⟩ := (op_both p cur op cur').2 ⟨t, h⟩
  exact opTexts_step hv hs

/-- A text for each operation. -/
theorem marked_ops {env : SqliteEnv} {p : LitPrinters} {ops : List Operation}
    (hops : ∀ op ∈ ops, PlainOp env p op) (hok : ∀ op ∈ ops, opOk op) {cur : ADB}
    (hv : ValidSchema cur) (hp : PlainSchema cur) {ts : List Text}
    (h : TursoDdl.opTexts kw p cur ops = .ok ts) :
    AllMatch (fun t op => Marked t (opMark op)) ts ops := by
  induction ops generalizing cur ts with
  | nil => cases h; exact .nil
  | cons op ops ih =>
    simp only [TursoDdl.opTexts] at h
    obtain ⟨⟨t, cur'⟩, h1, h⟩ := bind_ok h
    obtain ⟨ts', h2, h⟩ := bind_ok h
    cases h
    have hop := hops op (List.mem_cons_self ..)
    rw [step_turso hv h1] at h2
    exact .cons (marked_op hv hp hop h1) (ih (fun o ho => hops o (List.mem_cons_of_mem _ ho))
      (fun o ho => hok o (List.mem_cons_of_mem _ ho))
      (valid_transformWith hv op (hok op (List.mem_cons_self ..)))
      (plain_transform hv.sorted hp hop) h2)

theorem marked_filter {ts : List Text} {bs : List Bool} (h : AllMatch Marked ts bs) :
    Marked (joinText (lit "\n") (ts.filter fun t => !t.isEmpty)) (bs.any id) := by
  have hn : Marked (lit "\n") false := marked_lit (by decide)
  induction h with
  | nil => exact marked_nil
  | @cons t b ts bs h1 h2 ih =>
    simp only [List.filter_cons, List.any_cons, id]
    cases t with
    | nil =>
      have : b = false := by
        have := h1 []
        simpa [semicolonQuoted] using this.symm
      subst this
      simpa using ih
    | cons c t =>
      simp only [List.isEmpty_cons, Bool.not_false, ↓reduceIte]
      cases hf : ts.filter fun t => !t.isEmpty with
      | nil =>
        rw [hf] at ih
        have : bs.any id = false := by
          have := ih []
          simpa [semicolonQuoted, joinText] using this.symm
        rw [this, Bool.or_false]
        exact h1
      | cons u us =>
        rw [hf] at ih
        simpa only [joinText, Bool.or_false] using (h1.append hn).append ih

theorem allMatch_map_right {α β γ : Type} {R : α → γ → Prop} {f : β → γ} {as : List α} {bs : List β}
    (h : AllMatch (fun a b => R a (f b)) as bs) : AllMatch R as (bs.map f) := by
  induction h with
  | nil => exact .nil
  | cons h _ ih => exact .cons h ih

/-- The script has a quoted semicolon if and only if a new column's default has one. -/
theorem migrationSql_marked {env : SqliteEnv} {p : LitPrinters} {ops : List Operation}
    (hops : ∀ op ∈ ops, PlainOp env p op) (hok : ∀ op ∈ ops, opOk op) {cur : ADB}
    (hv : ValidSchema cur) (hp : PlainSchema cur) {t : Text}
    (h : TursoDdl.migrationSql kw p cur ops = .ok t) :
    semicolonQuoted .outside t = ops.any opMark := by
  simp only [TursoDdl.migrationSql] at h
  obtain ⟨ts, h1, h⟩ := bind_ok h
  cases h
  have := (marked_filter (allMatch_map_right (marked_ops hops hok hv hp h1))).append
    (marked_lit (s := "\n") (by decide))
  have := this []
  rw [List.append_nil] at this
  rw [this]
  simp [semicolonQuoted, List.any_map, Function.comp_def]

/-! ### Migrations -/

theorem strict_stmts (p : LitPrinters) (cur : ADB) (op : Operation) : AllStrict (stmtsOf p cur op) := by
  intro s hs i n cs fs b e
  subst e
  have hch : ∀ {o c : ATable}, DStmt.createTable i n cs fs b ∈ changeOf o c → b = true := by
    intro o c h
    simp only [changeOf, createOf, List.mem_cons, List.not_mem_nil, or_false, reduceCtorEq,
      DStmt.createTable.injEq] at h
    exact h.2.2.2.2
  cases op with
  | addTable t =>
    simp only [stmtsOf, createOf, List.mem_singleton, DStmt.createTable.injEq] at hs
    exact hs.2.2.2.2
  | addTableIfNotExists t =>
    simp only [stmtsOf, createOf, List.mem_singleton, DStmt.createTable.injEq] at hs
    exact hs.2.2.2.2
  | addTableConstraints t => cases hs
  | removeTableConstraints t => cases hs
  | removeTable t => simp [stmtsOf] at hs
  | addColumn t c => simp only [stmtsOf] at hs; split at hs <;> simp at hs
  | removeColumn t c =>
    simp only [stmtsOf] at hs
    split at hs
    · split at hs
      · split at hs
        · exact hch hs
        · simp at hs
      · cases hs
    · cases hs
  | changeColumn t o c =>
    simp only [stmtsOf] at hs
    split at hs
    · exact hch hs
    · cases hs

theorem allStmts_strict (p : LitPrinters) (cur : ADB) (ops : List Operation) :
    AllStrict (allStmts p cur ops) := by
  induction ops generalizing cur with
  | nil => intro s hs; cases hs
  | cons op ops ih =>
    intro s hs
    rcases List.mem_append.1 hs with h | h
    · exact strict_stmts p cur op s h
    · exact ih _ s h

/-- The script of a migration is executed on Turso as that of SQLite, unless a column is renamed or
a default has a semicolon. -/
theorem turso_script (hk : CoversDdl kw res) (hf : TypesFree res) {env : SqliteEnv}
    {p : LitPrinters} {ops : List Operation} (hops : ∀ op ∈ ops, PlainOp env p op)
    (hok : ∀ op ∈ ops, opOk op) {cur : ADB} (hv : ValidSchema cur) (hp : PlainSchema cur)
    {t : Text} (h : TursoDdl.migrationSql kw p cur ops = .ok t) :
    ∃ t', SqliteDdl.migrationSql kw p cur ops = .ok t' ∧
      (ops.any opMark = true → ∀ e db, tursoSendAll e res db (TursoDdl.statements t) = none) ∧
      (ops.any opMark = false → Ddl.parse true res t' = none →
        ∀ e db, tursoSendAll e res db (TursoDdl.statements t) = none) ∧
      (ops.any opMark = false → ∀ ss, Ddl.parse true res t' = some ss → ss = allStmts p cur ops ∧
        ∀ e db, tursoSendAll e res db (TursoDdl.statements t) = tursoAll e db (ss.map unstrict)) := by
  have hm := migrationSql_marked (kw := kw) hops hok hv hp h
  rcases migrationSql_twin (res := res) hk hf hops hok hv hp with ⟨t1, t2, g1, g2, g3⟩ | ⟨-, g⟩
  case inr => exact absurd h (g t)
  rw [h] at g2
  cases g2
  obtain ⟨e1, e2⟩ := g3.parse
  refine ⟨t1, g1, fun hb e db => ?_, fun hb hn e db => ?_, fun hb ss hs => ⟨?_, fun e db => ?_⟩⟩
  · exact send_quoted e (by rw [hm, hb]) db
  · rw [send_script e e2 (by rw [hm, hb]), e1, hn]
    rfl
  · rcases migrationSql_parse hk hf hops hok hv hp g1 with hq | hq
    · rw [hs] at hq
      exact Option.some.inj hq
    · rw [hs] at hq
      cases hq
  · rw [send_script e e2 (by rw [hm, hb]), e1, hs]
    rfl

/-- A script with RENAME fails where tables are not renamed. -/
theorem tursoAll_rename {e : TursoEnv} (he : e.renames = false) {ss : List DStmt} {a b : String}
    (h : .renameTable a b ∈ ss) (db : SDb) : tursoAll e db (ss.map unstrict) = none := by
  induction ss generalizing db with
  | nil => cases h
  | cons s ss ih =>
    simp only [List.map_cons, tursoAll]
    rcases List.mem_cons.1 h with h | h
    · subst h
      simp [unstrict, tursoExec, he]
    · cases tursoExec e db (unstrict s) with
      | none => rfl
      | some d => exact ih h d

theorem allStmts_append (p : LitPrinters) (cur : ADB) (a b : List Operation) :
    allStmts p cur (a ++ b) = allStmts p cur a ++ allStmts p (cur.transformAll a) b := by
  induction a generalizing cur with
  | nil => rfl
  | cons op a ih =>
    simp only [List.cons_append, allStmts, ih, List.append_assoc, ADB.transformAll, List.foldl_cons]

/-- A changed column is among the operations. -/
theorem diff_changed {old new : ADB} (ho : ValidSchema old) (hn : ValidSchema new) {n c : String}
    {s t : ATable} {x y : AColumn} (hs : old.getTable n = some s) (ht : new.getTable n = some t)
    (hx : s.column c = some x) (hy : t.column c = some y) (hd : ¬ SameColumn x y) :
    .changeColumn n x y ∈ diff old new := by
  have h1 := diff_filter ho hn n
  rw [hs, ht] at h1
  have h2 := diffTable_filter s t c
  have hb : y.beq x = false := by
    cases hb : y.beq x with
    | false => rfl
    | true => exact absurd (col_beq_same hb).symm hd
  simp only [ATable.column] at hx hy
  rw [hx, hy] at h2
  simp only [diffColFor, hb, Bool.false_eq_true, ↓reduceIte, name_of_getTable hn ht] at h2
  have h3 : Operation.changeColumn n x y ∈ diffTable s t :=
    (List.mem_filter.1 (h2 ▸ List.mem_singleton.2 rfl :
      Operation.changeColumn n x y ∈ (diffTable s t).filter fun op => op.colTarget == some c)).1
  have h4 : Operation.changeColumn n x y ∈ (diff old new).filter fun op => op.target == n := by
    rw [h1]; exact h3
  exact (List.mem_filter.1 h4).1

/-- A new column is among the operations. -/
theorem diff_added {old new : ADB} (ho : ValidSchema old) (hn : ValidSchema new) {n c : String}
    {s t : ATable} {y : AColumn} (hs : old.getTable n = some s) (ht : new.getTable n = some t)
    (hx : s.column c = none) (hy : t.column c = some y) : .addColumn n y ∈ diff old new := by
  have h1 := diff_filter ho hn n
  rw [hs, ht] at h1
  have h2 := diffTable_filter s t c
  simp only [ATable.column] at hx hy
  rw [hx, hy] at h2
  simp only [diffColFor, name_of_getTable hn ht] at h2
  have h3 : Operation.addColumn n y ∈ diffTable s t :=
    (List.mem_filter.1 (h2 ▸ List.mem_singleton.2 rfl :
      Operation.addColumn n y ∈ (diffTable s t).filter fun op => op.colTarget == some c)).1
  have h4 : Operation.addColumn n y ∈ (diff old new).filter fun op => op.target == n := by
    rw [h1]; exact h3
  exact (List.mem_filter.1 h4).1

/-- A changed column needs RENAME. -/
theorem changed_rename {old new : ADB} (ho : ValidSchema old) (hn : ValidSchema new) {n c : String}
    {s t : ATable} {x y : AColumn} (hs : old.getTable n = some s) (ht : new.getTable n = some t)
    (hx : s.column c = some x) (hy : t.column c = some y) (hd : ¬ SameColumn x y) (p : LitPrinters) :
    ∃ a b, .renameTable a b ∈ allStmts p old (diff old new) := by
  obtain ⟨pre, post, he⟩ := List.append_of_mem (diff_changed ho hn hs ht hx hy hd)
  obtain ⟨u, hu, -⟩ := between_both ho hn hs ht he
  rw [he, allStmts_append]
  refine ⟨SqliteDdl.tmpName u.name, u.name, List.mem_append_right _ ?_⟩
  simp [allStmts, stmtsOf, hu, changeOf]

/-- Only changed columns, and removed references, need RENAME. -/
theorem no_rename {old new : ADB} (ho : ValidSchema old) (hn : ValidSchema new) (p : LitPrinters)
    (hch : ∀ n s t c x y, old.getTable n = some s → new.getTable n = some t → s.column c = some x →
      t.column c = some y → SameColumn x y ∧ ∀ r, x.default = some (.real r) → r.isNaN = false)
    (hrm : ∀ n s t c x, old.getTable n = some s → new.getTable n = some t → s.column c = some x →
      t.column c = none → x.reference = none) (a b : String) :
    .renameTable a b ∉ allStmts p old (diff old new) := by
  have key : ∀ pre post, diff old new = pre ++ post →
      DStmt.renameTable a b ∉ allStmts p (old.transformAll pre) post := by
    intro pre post
    induction post generalizing pre with
    | nil => intro _ h; cases h
    | cons op post ih =>
      intro he h
      have hop : op ∈ diff old new := by rw [he]; exact List.mem_append_right _ (List.mem_cons_self ..)
      rcases List.mem_append.1 h with h | h
      · have hfo := diff_found ho hn hop
        cases op with
        | addTable t => simp [stmtsOf, createOf] at h
        | addTableIfNotExists t => simp [stmtsOf, createOf] at h
        | addTableConstraints t => cases h
        | removeTableConstraints t => cases h
        | removeTable t => simp [stmtsOf] at h
        | addColumn t c => simp only [stmtsOf] at h; split at h <;> simp at h
        | removeColumn t c =>
          obtain ⟨s, t', x, h1, h2, h3, h4⟩ := hfo
          obtain ⟨u, hu, -, hk⟩ := between_both ho hn h1 h2 he
          have hu' := hk _ _ rfl rfl c rfl
          simp only [stmtsOf, hu, hu', h3, hrm _ _ _ _ _ h1 h2 h3 h4] at h
          simp at h
        | changeColumn t o c =>
          obtain ⟨s, t', h1, h2, h3, h4⟩ := hfo
          obtain ⟨hs, hnan⟩ := hch _ _ _ _ _ _ h1 h2 h3 h4
          have g1 := diff_filter ho hn t
          rw [h1, h2] at g1
          have g2 := diffTable_filter s t' c.name
          simp only [ATable.column] at h3 h4
          have hb : c.beq o = true := col_same_beq hs.symm hnan
          rw [h3, h4] at g2
          simp only [diffColFor, hb, ↓reduceIte] at g2
          have m1 : Operation.changeColumn t o c ∈ diffTable s t' := by
            have : Operation.changeColumn t o c ∈ (diff old new).filter fun op => op.target == t :=
              List.mem_filter.2 ⟨hop, by simp [Operation.target]⟩
            rw [g1] at this
            exact this
          have m2 : Operation.changeColumn t o c ∈
              (diffTable s t').filter fun op => op.colTarget == some c.name :=
            List.mem_filter.2 ⟨m1, by simp [Operation.colTarget]⟩
          rw [g2] at m2
          cases m2
      · refine ih (pre ++ [op]) (by rw [he]; simp) ?_
        simpa only [ADB.transformAll, List.foldl_append, List.foldl_cons, List.foldl_nil] using h
  exact key [] _ rfl

theorem tursoAll_same {e : TursoEnv} {ss : List DStmt} (hs : AllStrict ss)
    (hr : ∀ a b, .renameTable a b ∉ ss) (db : SDb) :
    tursoAll e db (ss.map unstrict) = execAll e.store db ss := by
  induction ss generalizing db with
  | nil => rfl
  | cons s ss ih =>
    simp only [List.map_cons, tursoAll, execAll]
    rcases tursoExec_strict (e := e) (db := db) (hs s (List.mem_cons_self ..)) with h1 | ⟨-, -, a, b, h0⟩
    · rw [h1]
      cases exec e.store db s with
      | none => rfl
      | some d =>
        exact ih (fun s' m => hs s' (List.mem_cons_of_mem _ m))
          (fun a b m => hr a b (List.mem_cons_of_mem _ m)) d
    · exact absurd (h0 ▸ List.mem_cons_self ..) (hr a b)

end Butane.DdlP
