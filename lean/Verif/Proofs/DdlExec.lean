/-
Executing the statements of a migration on SQLite gives the intended schema and keeps the rows.
-/
import Verif.Proofs.DdlSqlite
import Verif.Proofs.Resolve

namespace Butane.DdlP
open Butane.Ddl Spec

variable {env : SqliteEnv}

/-! ### Rows -/

theorem field_nil (row : List SqliteVal) (c : String) : field [] row c = none := by
  simp [field, List.lookup]

theorem field_cons (d : ColDef) (cols : List ColDef) (v : SqliteVal) (row : List SqliteVal)
    (c : String) :
    field (d :: cols) (v :: row) c = if c = d.name then some v else field cols row c := by
  simp only [field, List.map_cons, List.zip_cons_cons, List.lookup_cons]
  by_cases h : c = d.name
  · simp [h]
  · have : (c == d.name) = false := by simpa using h
    simp [this, h]

theorem field_snoc {cols : List ColDef} {row : List SqliteVal} (hl : cols.length = row.length)
    (d : ColDef) (w : SqliteVal) (hd : d.name ∉ cols.map (·.name)) (c : String) :
    field (cols ++ [d]) (row ++ [w]) c = if c = d.name then some w else field cols row c := by
  induction cols generalizing row with
  | nil =>
    cases row with
    | nil => simp only [List.nil_append, field_cons, field_nil]
    | cons => cases hl
  | cons x cols ih =>
    cases row with
    | nil => cases hl
    | cons v row =>
      simp only [List.map_cons, List.mem_cons, not_or] at hd
      simp only [List.cons_append, field_cons, ih (by simpa using hl) hd.2]
      by_cases h1 : c = x.name
      · simp [h1, Ne.symm hd.1]
      · simp [h1]

theorem allMatch_length {α β : Type} {R : α → β → Prop} {l : List α} {m : List β}
    (h : AllMatch R l m) : l.length = m.length := by
  induction h with
  | nil => rfl
  | cons _ _ ih => simp [ih]

theorem allSome_match {α β : Type} {f : α → Option β} {l : List α} {bs : List β}
    (h : allSome f l = some bs) : AllMatch (fun a b => f a = some b) l bs := by
  induction l generalizing bs with
  | nil => cases h; exact .nil
  | cons a l ih =>
    simp only [allSome] at h
    split at h
    · next b bs' h1 h2 => cases h; exact .cons h1 (ih h2)
    · cases h

/-- A value of a matched row. -/
theorem field_of_match {f : ColDef → Option SqliteVal} {cols : List ColDef} {row : List SqliteVal}
    (h : AllMatch (fun d v => f d = some v) cols row) {d : ColDef} (hd : d ∈ cols)
    (hn : (cols.map (·.name)).Nodup) : field cols row d.name = f d := by
  induction h with
  | nil => cases hd
  | @cons x v cols row h1 h2 ih =>
    simp only [List.map_cons, List.nodup_cons] at hn
    rw [field_cons]
    rcases List.mem_cons.1 hd with rfl | hd
    · simp [h1]
    · have : d.name ≠ x.name := fun e => hn.1 (e ▸ List.mem_map_of_mem hd)
      rw [if_neg this, ih hd hn.2]

theorem field_some_of_mem {R : ColDef → SqliteVal → Prop} {cols : List ColDef}
    {row : List SqliteVal} (h : AllMatch R cols row) (hn : (cols.map (·.name)).Nodup)
    {d : ColDef} (hd : d ∈ cols) : ∃ v, field cols row d.name = some v ∧ R d v := by
  induction h with
  | nil => cases hd
  | @cons x v cols row h1 h2 ih =>
    simp only [List.map_cons, List.nodup_cons] at hn
    rw [field_cons]
    rcases List.mem_cons.1 hd with rfl | hd
    · exact ⟨v, by simp, h1⟩
    · have : d.name ≠ x.name := fun e => hn.1 (e ▸ List.mem_map_of_mem hd)
      rw [if_neg this]
      exact ih hn.2 hd

theorem field_mem {cols : List ColDef} {row : List SqliteVal} {c : String} {v : SqliteVal}
    (h : field cols row c = some v) : ∃ d ∈ cols, d.name = c := by
  induction cols generalizing row with
  | nil => simp [field_nil] at h
  | cons x cols ih =>
    cases row with
    | nil => simp [field, List.lookup] at h
    | cons w row =>
      rw [field_cons] at h
      split at h
      · next e => exact ⟨x, List.mem_cons_self .., e.symm⟩
      · obtain ⟨d, h1, h2⟩ := ih h
        exact ⟨d, List.mem_cons_of_mem _ h1, h2⟩

/-- Storing a row in other columns. -/
theorem storeRow_match {cols : List ColDef} {vs ws : List SqliteVal}
    (h : storeRow env cols vs = some ws) {g : String → Option SqliteVal}
    (hv : allSome g (cols.map (·.name)) = some vs) :
    AllMatch (fun d w => ∃ v st, g d.name = some v ∧ strictType d.type = some st ∧
      env.coerce st v = some w) cols ws := by
  induction cols generalizing vs ws with
  | nil =>
    cases hv
    cases h
    exact .nil
  | cons d cols ih =>
    simp only [List.map_cons, allSome] at hv
    split at hv
    · next v vs' h1 h2 =>
      cases hv
      simp only [storeRow] at h
      split at h
      · next w ws' g1 g2 =>
        split at h
        · cases h
        · cases h
          obtain ⟨st, hst, hc⟩ := Option.bind_eq_some_iff.1 g1
          exact .cons ⟨v, st, h1, hst, hc⟩ (ih g2 h2)
      · cases h
    · cases hv

/-! ### Columns of the database -/

theorem strictType_name (st : SqliteType) : strictType [st.name] = some st := by
  cases st <;> rfl

theorem columnIs_colDefOf {c : AColumn} (hc : PlainColumn c) : ColumnIs c (colDefOf c) := by
  obtain ⟨st, hst⟩ := hc.type
  refine ⟨rfl, ⟨st, hst, by simp only [colDefOf, typeWord_eq hst]⟩, ?_, ?_, ?_, ?_⟩ <;>
  · simp only [ColDef.notNull, ColDef.pk, ColDef.unique, ColDef.default, colDefOf, conList]
    cases c.nullable <;> cases c.pk <;> cases c.unique <;> simp

theorem pk_default (c : AColumn) (l : Lit) :
    ColDef.pk { colDefOf c with cons := conList c ++ [.default l] } = c.pk := by
  simp only [ColDef.pk, colDefOf, conList]
  cases c.nullable <;> cases c.pk <;> cases c.unique <;> simp

theorem columnIs_default {c : AColumn} (hc : PlainColumn c) (hk : c.pk = false) (l : Lit) :
    ColumnIs c { colDefOf c with cons := conList c ++ [.default l] } := by
  obtain ⟨st, hst⟩ := hc.type
  refine ⟨rfl, ⟨st, hst, by simp only [colDefOf, typeWord_eq hst]⟩, ?_, ?_, ?_, fun h => by rw [hk] at h; cases h⟩ <;>
  · simp only [ColDef.notNull, ColDef.pk, ColDef.unique, colDefOf, conList]
    cases c.nullable <;> cases c.pk <;> cases c.unique <;> simp

theorem dbColumn_map (cols : List AColumn) (fks : List RefCon) (rows : List (List SqliteVal))
    (n : String) : dbColumn ⟨cols.map colDefOf, fks, rows⟩ n = (colByName cols n).map colDefOf := by
  simp only [dbColumn, colByName, List.find?_map]
  congr 1

theorem names_map (cols : List AColumn) :
    (cols.map colDefOf).map (·.name) = cols.map (·.name) := by simp [colDefOf, Function.comp_def]

theorem mem_refs {t : ATable} (hn : (t.columns.map (·.name)).Nodup) (fk : RefCon) :
    fk ∈ refsOf t ↔
      ∃ c, t.column fk.col = some c ∧ c.reference = some (.literal fk.table fk.refCol) := by
  simp only [refsOf, List.mem_filterMap]
  constructor
  · rintro ⟨c, hc, hr⟩
    simp only [refOf] at hr
    split at hr
    · next a b e =>
      cases hr
      exact ⟨c, colByName_of_mem hn hc, e⟩
    · cases hr
  · rintro ⟨c, hc, hr⟩
    obtain ⟨h1, h2⟩ := colByName_some hc
    refine ⟨c, h1, ?_⟩
    simp only [refOf, hr, h2]

theorem tableIs_create {t : ATable} (hp : ∀ c ∈ t.columns, PlainColumn c)
    (hn : (t.columns.map (·.name)).Nodup) (rows : List (List SqliteVal)) :
    TableIs t ⟨t.columns.map colDefOf, refsOf t, rows⟩ := by
  refine ⟨fun n => ?_, mem_refs hn⟩
  rw [dbColumn_map]
  simp only [ATable.column]
  cases h : colByName t.columns n with
  | none => trivial
  | some c => exact columnIs_colDefOf (hp c (colByName_some h).1)

/-! ### One operation -/

/-- The operation is about the whole table `n`. -/
def Whole (n : String) : Operation → Prop
  | .addTable t => t.name = n
  | .addTableIfNotExists t => t.name = n
  | .removeTable m => m = n
  | _ => False

theorem whole_target {n : String} {op : Operation} (h : Whole n op) : op.target = n := by
  cases op <;> first | exact h | exact h.elim

/-- The operation removes the column. -/
def Removes (n c : String) : Operation → Prop
  | .removeColumn m d => m = n ∧ d = c
  | _ => False

/-- What the operation does to a value of the column. -/
def Converts (env : SqliteEnv) (n c : String) (v w : SqliteVal) : Operation → Prop
  | .changeColumn m _ new =>
    if m = n ∧ new.name = c then ∃ st, StoredAs new st ∧ env.coerce st v = some w else w = v
  | _ => w = v

/-- The rows of a table after an operation. -/
def RowStep (env : SqliteEnv) (codecs : TextCodecs) (n : String) (op : Operation)
    (s s' : STable) (r r' : List SqliteVal) : Prop :=
  (∀ c v, field s.cols r c = some v → ¬ Removes n c op →
    ∃ w, field s'.cols r' c = some w ∧ Converts env n c v w op) ∧
  (∀ col v b, op = .addColumn n col → NewValue col v → toSqlite codecs v = .ok b →
    field s'.cols r' col.name = some b)

def StepRows (env : SqliteEnv) (codecs : TextCodecs) (op : Operation) (db db' : SDb) : Prop :=
  ∀ n s, db.lookup n = some s → ¬ Whole n op →
    ∃ s', db'.lookup n = some s' ∧ AllMatch (RowStep env codecs n op s s') s.rows s'.rows

theorem allMatch_self {α : Type} {R : α → α → Prop} (h : ∀ a, R a a) (l : List α) :
    AllMatch R l l := by
  induction l with
  | nil => exact .nil
  | cons a l ih => exact .cons (h a) ih

theorem rowStep_other {codecs : TextCodecs} {n : String} {op : Operation} (h : op.target ≠ n)
    (s : STable) (r : List SqliteVal) : RowStep env codecs n op s s r r := by
  constructor
  · intro c v hv _
    refine ⟨v, hv, ?_⟩
    cases op <;> simp_all [Converts, Operation.target]
  · rintro col v b rfl
    exact absurd rfl h

theorem Both.some_left {α β : Type} {R : α → β → Prop} {a : α} {o : Option β}
    (h : Both R (some a) o) : ∃ b, o = some b ∧ R a b := by
  cases o with
  | none => exact h.elim
  | some b => exact ⟨b, rfl, h⟩

theorem Both.some_right {α β : Type} {R : α → β → Prop} {b : β} {o : Option α}
    (h : Both R o (some b)) : ∃ a, o = some a ∧ R a b := by
  cases o with
  | none => exact h.elim
  | some a => exact ⟨a, rfl, h⟩

theorem Both.none_right {α β : Type} {R : α → β → Prop} {o : Option α}
    (h : Both R o (none : Option β)) : o = none := by
  cases o with
  | none => rfl
  | some a => exact h.elim

theorem Both.none_left {α β : Type} {R : α → β → Prop} {o : Option β}
    (h : Both R (none : Option α) o) : o = none := by
  cases o with
  | none => rfl
  | some a => exact h.elim

/-- What holds after an operation. -/
structure After (env : SqliteEnv) (codecs : TextCodecs) (cur : ADB) (op : Operation)
    (db db' : SDb) : Prop where
  schema : Implements (cur.transformWith op) db'
  proper : Proper.Db env db'
  rows : StepRows env codecs op db db'
  fresh : ∀ n, (db.lookup n = none ∨ Whole n op) → ∀ s', db'.lookup n = some s' → s'.rows = []

/-- The table an operation is about is replaced, the others stay. -/
theorem after_of {codecs : TextCodecs} {cur : ADB} (hs : cur.tables.Sorted) {op : Operation}
    {db db' : SDb} (hi : Implements cur db) (hp : Proper.Db env db) (hsorted : db'.Sorted)
    (hother : ∀ k, k ≠ op.target → db'.lookup k = db.lookup k)
    (htable : Both TableIs (tableEff (cur.getTable op.target) op) (db'.lookup op.target))
    (hproper : ∀ s', db'.lookup op.target = some s' → Proper.Table env s')
    (hrows : ¬ Whole op.target op → ∀ s, db.lookup op.target = some s →
      ∃ s', db'.lookup op.target = some s' ∧
        AllMatch (RowStep env codecs op.target op s s') s.rows s'.rows)
    (hfresh : (db.lookup op.target ≠ none ∧ ¬ Whole op.target op) ∨
      ∀ s', db'.lookup op.target = some s' → s'.rows = []) :
    After env codecs cur op db db' := by
  refine ⟨fun n => ?_, ⟨hsorted, fun n s hn => ?_⟩, fun n s hn hw => ?_, fun n hn s' hs' => ?_⟩
  · simp only [ADB.getTable, lookup_transformWith hs]
    by_cases h : op.target = n
    · subst h; rw [if_pos rfl]; exact htable
    · rw [if_neg h, hother n (Ne.symm h)]; exact hi n
  · by_cases h : op.target = n
    · subst h; exact hproper s hn
    · rw [hother n (Ne.symm h)] at hn; exact hp.tables n s hn
  · by_cases h : op.target = n
    · subst h; exact hrows hw s hn
    · exact ⟨s, by rw [hother n (Ne.symm h)]; exact hn,
        allMatch_self (fun r => rowStep_other h s r) _⟩
  · by_cases h : op.target = n
    · subst h
      rcases hfresh with ⟨h1, h2⟩ | h1
      · rcases hn with hn | hn
        · exact absurd hn h1
        · exact absurd hn h2
      · exact h1 s' hs'
    · rcases hn with hn | hn
      · rw [hother n (Ne.symm h), hn] at hs'
        cases hs'
      · exact absurd (whole_target hn) h

theorem execAll_one {db db' : SDb} {s : DStmt} (h : execAll env db [s] = some db') :
    exec env db s = some db' := by
  simp only [execAll] at h
  split at h
  · next h1 => cases h; exact h1
  · cases h

theorem execAll_cons {db db' : SDb} {s : DStmt} {ss : List DStmt}
    (h : execAll env db (s :: ss) = some db') :
    ∃ db1, exec env db s = some db1 ∧ execAll env db1 ss = some db' := by
  simp only [execAll] at h
  split at h
  · next db1 h1 => exact ⟨db1, h1, h⟩
  · cases h

theorem execAll_append {db db' : SDb} {ss ss' : List DStmt}
    (h : execAll env db (ss ++ ss') = some db') :
    ∃ db1, execAll env db ss = some db1 ∧ execAll env db1 ss' = some db' := by
  induction ss generalizing db with
  | nil => exact ⟨db, rfl, h⟩
  | cons s ss ih =>
    obtain ⟨d, h1, h2⟩ := execAll_cons h
    obtain ⟨d', h3, h4⟩ := ih h2
    exact ⟨d', by simp only [execAll, h1, h3], h4⟩

theorem exec_create {db db' : SDb} {n : String} {cols : List ColDef} {fks : List RefCon}
    (h : exec env db (.createTable false n cols fks true) = some db') :
    db.lookup n = none ∧ (cols.map (·.name)).Nodup ∧ db' = db.insert n ⟨cols, fks, []⟩ := by
  simp only [exec] at h
  split at h
  · simp at h
  · next hn =>
    split at h
    · next hc =>
      cases h
      simp only [Bool.and_eq_true, decide_eq_true_eq] at hc
      exact ⟨hn, hc.1.1.1.2, rfl⟩
    · cases h

theorem after_addTable {codecs : TextCodecs} {cur : ADB} (hs : cur.tables.Sorted) {t : ATable}
    (ht : PlainTable t) {db db' : SDb} (hi : Implements cur db) (hp : Proper.Db env db)
    (h : exec env db (createOf false t) = some db') :
    After env codecs cur (.addTable t) db db' := by
  obtain ⟨h1, h2, rfl⟩ := exec_create h
  rw [names_map] at h2
  refine after_of hs hi hp (SMap.sorted_insert hp.sorted _ _) ?_ ?_ ?_ ?_ ?_
  · intro k hk
    rw [SMap.lookup_insert, if_neg]
    exact hk
  · simp only [tableEff, Operation.target, SMap.lookup_insert, ↓reduceIte]
    exact tableIs_create ht.columns h2 []
  · simp only [Operation.target, SMap.lookup_insert, ↓reduceIte, Option.some.injEq]
    rintro s' rfl
    exact ⟨by rw [names_map]; exact h2, by simp⟩
  · exact fun hw => absurd rfl hw
  · right
    simp only [Operation.target, SMap.lookup_insert, ↓reduceIte, Option.some.injEq]
    rintro s' rfl
    rfl

theorem after_removeTable {codecs : TextCodecs} {cur : ADB} (hs : cur.tables.Sorted) {n : String}
    {db db' : SDb} (hi : Implements cur db) (hp : Proper.Db env db)
    (h : exec env db (.dropTable n) = some db') :
    After env codecs cur (.removeTable n) db db' := by
  simp only [exec] at h
  split at h
  · next t ht =>
    split at h
    · cases h
    · cases h
      refine after_of hs hi hp (SMap.sorted_erase hp.sorted _) ?_ ?_ ?_ ?_ ?_
      · intro k hk
        rw [SMap.lookup_erase hp.sorted, if_neg]
        exact hk
      · simp [tableEff, Operation.target, SMap.lookup_erase hp.sorted, Both]
      · simp [Operation.target, SMap.lookup_erase hp.sorted]
      · exact fun hw => absurd rfl hw
      · simp [Operation.target, SMap.lookup_erase hp.sorted]
  · cases h

theorem after_nothing {codecs : TextCodecs} {cur : ADB} (hs : cur.tables.Sorted) {op : Operation}
    {db : SDb} (hi : Implements cur db) (hp : Proper.Db env db)
    (he : tableEff (cur.getTable op.target) op = cur.getTable op.target)
    (hw : ∀ n, ¬ Whole n op)
    (hc : ∀ n s, db.lookup n = some s → ∀ r, RowStep env codecs n op s s r r) :
    After env codecs cur op db db := by
  refine after_of hs hi hp hp.sorted (fun _ _ => rfl) ?_ (fun s' => hp.tables _ s') ?_ ?_
  · rw [he]; exact hi _
  · exact fun _ s h => ⟨s, h, allMatch_self (hc _ _ h) _⟩
  · by_cases hn : db.lookup op.target = none
    · right
      rw [hn]
      rintro s' h
      cases h
    · exact .inl ⟨hn, hw _⟩

theorem _root_.Butane.Spec.AllMatch.append {α β : Type} {R : α → β → Prop} {l l' : List α} {m m' : List β}
    (h : AllMatch R l m) (h' : AllMatch R l' m') : AllMatch R (l ++ l') (m ++ m') := by
  induction h with
  | nil => exact h'
  | cons h1 _ ih => exact .cons h1 ih

theorem contains_false {cols : List ColDef} {n : String}
    (h : (cols.map (·.name)).contains n = false) : n ∉ cols.map (·.name) := by
  intro hm
  rw [← List.contains_iff_mem, h] at hm
  cases hm

theorem dbColumn_none {s : STable} {n : String} : dbColumn s n = none ↔ n ∉ s.cols.map (·.name) := by
  simp only [dbColumn, List.find?_eq_none, decide_eq_true_eq, List.mem_map, not_exists, not_and]

theorem dbColumn_some {s : STable} {n : String} {d : ColDef} (h : dbColumn s n = some d) :
    d ∈ s.cols ∧ d.name = n := by
  simp only [dbColumn] at h
  exact ⟨List.mem_of_find?_eq_some h, by simpa using List.find?_some h⟩

theorem dbColumn_of_mem {s : STable} (hn : (s.cols.map (·.name)).Nodup) {d : ColDef}
    (hd : d ∈ s.cols) : dbColumn s d.name = some d := by
  obtain ⟨cols, fks, rows⟩ := s
  simp only [dbColumn] at *
  induction cols with
  | nil => cases hd
  | cons x cols ih =>
    simp only [List.map_cons, List.nodup_cons] at hn
    rw [List.find?_cons]
    rcases List.mem_cons.1 hd with rfl | hd
    · simp
    · have : x.name ≠ d.name := fun e => hn.1 (e ▸ List.mem_map_of_mem hd)
      simp only [this, decide_false]
      exact ih hn.2 hd

/-! ### Literals -/

theorem hexVal_hexDigit {d : Nat} (h : d < 16) : hexVal (hexDigit d) = some d := by
  have : d = 0 ∨ d = 1 ∨ d = 2 ∨ d = 3 ∨ d = 4 ∨ d = 5 ∨ d = 6 ∨ d = 7 ∨ d = 8 ∨ d = 9 ∨ d = 10 ∨
    d = 11 ∨ d = 12 ∨ d = 13 ∨ d = 14 ∨ d = 15 := by omega
  rcases this with h | h | h | h | h | h | h | h | h | h | h | h | h | h | h | h <;> subst h <;> decide

theorem hexBytes_hexUpper (b : List UInt8) : hexBytes (hexUpper b) = some b := by
  induction b with
  | nil => rfl
  | cons x b ih =>
    have hx : x.toNat < 256 := x.toNat_lt
    simp only [hexUpper, hexBytes, hexVal_hexDigit (d := x.toNat / 16) (by omega),
      hexVal_hexDigit (d := x.toNat % 16) (by omega), ih, Option.some.injEq, List.cons.injEq,
      and_true]
    rw [Nat.div_add_mod]
    exact UInt8.ofNat_toNat

theorem decimal_natText (n : Nat) : decimal (natText n) = n := (natText_spec n).choose_spec.choose_spec.2.2.2

theorem natText_digits (n : Nat) : (natText n).all Sql.isDigit = true := by
  obtain ⟨c, cs, h1, h2, h3, -⟩ := natText_spec n
  rw [h1, List.all_cons, h2, h3]; rfl

theorem litVal_numLit {i : Int} (h1 : -2 ^ 63 ≤ i) (h2 : i < 2 ^ 63) :
    litVal env (numLit i) = some (.integer (Int64.ofInt i)) := by
  cases i with
  | ofNat n =>
    have e : decide (-2 ^ 63 ≤ (Int.ofNat n)) = true := decide_eq_true h1
    have e' : decide (Int.ofNat n < 2 ^ 63) = true := decide_eq_true h2
    simp only [numLit, litVal, decimal_natText, natText_digits, Bool.false_eq_true, ↓reduceIte,
      Bool.true_and]
    rw [if_pos]
    · rfl
    · rw [Bool.and_eq_true]; exact ⟨e, e'⟩
  | negSucc n =>
    have e0 : -((n + 1 : Nat) : Int) = Int.negSucc n := rfl
    simp only [numLit, litVal, decimal_natText, natText_digits, ↓reduceIte, Bool.true_and, e0]
    rw [if_pos]
    rw [Bool.and_eq_true]
    exact ⟨decide_eq_true h1, decide_eq_true h2⟩

/-- The value of a literal in a column of the value's own class. -/
theorem literal_value (laws : StrictLaws env) {codecs : TextCodecs} {p : LitPrinters}
    {st : SqliteType} {v : SqlVal} (h : LiteralReads env p st v) {b : SqliteVal}
    (hb : toSqlite codecs v = .ok b) :
    (litVal env (litOf p v)).bind (env.coerce st) = some b := by
  cases v with
  | null => cases hb; exact laws.null st
  | bool x =>
    obtain rfl : st = .integer := h
    cases hb
    exact laws.integer _
  | int i =>
    obtain rfl : st = .integer := h
    cases hb
    have h1 := i.le_toInt
    have h2 := i.toInt_lt
    simp only [litOf]
    rw [litVal_numLit (by omega) (by omega)]
    simp only [Option.bind_some]
    have : Int64.ofInt i.toInt = i.toInt64 := by
      rw [← Int32.toInt_toInt64, Int64.ofInt_toInt]
    rw [this]
    exact laws.integer _
  | bigInt i =>
    obtain rfl : st = .integer := h
    cases hb
    have h1 := i.le_toInt
    have h2 := i.toInt_lt
    simp only [litOf]
    rw [litVal_numLit h1 h2, Int64.ofInt_toInt]
    exact laws.integer _
  | real r =>
    obtain ⟨rfl, neg, s, h1, h2, h3⟩ := h
    cases hb
    rw [litOf_real (env := env) h1 h2]
    exact h3
  | text s =>
    obtain ⟨rfl, -⟩ := h
    cases hb
    simp only [litOf, litVal, Option.bind_some, String.ofList_toList]
    exact laws.text _
  | blob x =>
    obtain rfl : st = .blob := h
    cases hb
    simp only [litOf, litVal, hexBytes_hexUpper, Option.map_some, Option.bind_some]
    exact laws.blob _
  | json j => exact h.elim
  | date j => exact h.elim
  | timestamp j => exact h.elim
  | custom j => exact h.elim

theorem default_of {c : AColumn} (l : Lit) :
    ColDef.default { colDefOf c with cons := conList c ++ [.default l] } = some l := by
  simp only [ColDef.default, conList]
  cases c.nullable <;> cases c.pk <;> cases c.unique <;> rfl

theorem after_addColumn (laws : StrictLaws env) {codecs : TextCodecs} {p : LitPrinters} {cur : ADB}
    (hs : cur.tables.Sorted) {t : String} {c : AColumn} {v : SqlVal} (hc : PlainColumn c)
    (ha : AddableColumn env p c) (hv : columnDefault c = .ok v) {d : ColDef} (hname : d.name = c.name)
    (htype : ∃ st, StoredAs c st ∧ d.type = [st.name]) (hcol : d.pk = false → ColumnIs c d)
    (hdef : d.default = some (litOf p v))
    {db db' : SDb} (hi : Implements cur db) (hp : Proper.Db env db)
    (h : exec env db (.addColumn t d) = some db') :
    After env codecs cur (.addColumn t c) db db' := by
  obtain ⟨st, hst, hdt⟩ := htype
  have hty : strictType d.type = some st := by rw [hdt, strictType_name]
  simp only [exec, hty, hdef] at h
  cases hl : db.lookup t with
  | none => simp [hl] at h
  | some s =>
    simp only [hl] at h
    split at h
    · cases h
    next hcond =>
    simp only [Bool.not_eq_true, Bool.or_eq_false_iff] at hcond
    have hnew := contains_false hcond.1.1
    have hnew' : c.name ∉ s.cols.map (·.name) := hname ▸ hnew
    have hps := hp.tables t s hl
    simp only [Option.elim_some] at h
    split at h
    · cases h
    next lv hlv =>
    split at h
    case h_2 => cases h
    next rows hrows =>
    cases h
    have hm := allSome_match hrows
    obtain ⟨tbl, htbl, his⟩ := Both.some_right (hl ▸ hi t)
    have hnone : tbl.column c.name = none := by
      have := his.columns c.name
      rw [dbColumn_none.2 hnew'] at this
      exact Both.none_right this
    -- one row
    have hrow : ∀ r ∈ s.rows, ∀ r', (match env.coerce st lv with
        | some w => if (d.notNull && decide (w = .null)) = true then none else some (r ++ [w])
        | none => none) = some r' → ∃ w, env.coerce st lv = some w ∧ r' = r ++ [w] := by
      intro r _ r' h
      split at h
      · next w hw =>
        split at h
        · cases h
        · cases h; exact ⟨w, hw, rfl⟩
      · cases h
    refine after_of hs hi hp (SMap.sorted_insert hp.sorted _ _) ?_ ?_ ?_ ?_
      (.inl ⟨fun e => (by cases hl.symm.trans e), fun w => w⟩)
    · intro k hk
      rw [SMap.lookup_insert, if_neg]
      exact hk
    · simp only [Operation.target, SMap.lookup_insert, ↓reduceIte, htbl, tableEff, Option.map_some]
      refine ⟨fun n => ?_, fun fk => ?_⟩
      · simp only [ATable.addColumn, ATable.replaceColumn, ATable.column, colByName_replaceCol]
        simp only [dbColumn, List.find?_append, List.find?_cons, List.find?_nil]
        have := his.columns n
        by_cases e : n = c.name
        · subst e
          have hnone' := dbColumn_none.2 hnew'
          simp only [dbColumn] at hnone'
          simp only [↓reduceIte, hnone']
          have e1 : decide (d.name = c.name) = true := by simp [hname]
          simp only [e1, Option.none_or]
          exact hcol hcond.1.2
        · have e1 : decide (d.name = n) = false := by
            rw [hname]; exact decide_eq_false (Ne.symm e)
          simp only [e, ↓reduceIte, e1, Option.or_none]
          exact this
      · rw [his.refs fk]
        simp only [ATable.addColumn, ATable.replaceColumn, ATable.column, colByName_replaceCol]
        by_cases e : fk.col = c.name
        · simp only [ATable.column] at hnone
          rw [e, hnone]
          simp [ha.reference]
        · simp only [e, ↓reduceIte]
    · simp only [Operation.target, SMap.lookup_insert, ↓reduceIte, Option.some.injEq]
      rintro s' rfl
      refine ⟨?_, ?_⟩
      · simp only [List.map_append, List.map_cons, List.map_nil]
        refine List.nodup_append.2 ⟨hps.distinct, by simp, ?_⟩
        intro a ha b hb
        rcases List.mem_singleton.1 hb with rfl
        exact fun e => hnew (e ▸ ha)
      · intro r' hr'
        obtain ⟨r, hr, hrr⟩ := hm.mem_right hr'
        obtain ⟨w, hw, rfl⟩ := hrow r hr r' hrr
        exact (hps.stored r hr).append (.cons ⟨st, hty, laws.stable st lv w hw⟩ .nil)
    · intro _ s0 hs0
      simp only [Operation.target] at hs0
      rw [hl] at hs0
      cases hs0
      refine ⟨_, by simp only [Operation.target, SMap.lookup_insert, ↓reduceIte]; rfl, ?_⟩
      refine hm.imp ?_
      intro r hr r' _ hrr
      obtain ⟨w, hw, rfl⟩ := hrow r hr r' hrr
      have hlen := allMatch_length (hps.stored r hr)
      refine ⟨fun k u hu _ => ⟨u, ?_, rfl⟩, ?_⟩
      · rw [field_snoc hlen _ _ hnew, if_neg, hu]
        rintro rfl
        obtain ⟨x, hx, e⟩ := field_mem hu
        exact hnew (e ▸ List.mem_map_of_mem hx)
      · rintro col v' b he hv' hb
        cases he
        rw [newValue_iff hc.type, hv] at hv'
        cases hv'
        have := literal_value laws (ha.value v st ((newValue_iff hc.type).2 hv) hst) hb
        rw [hlv, Option.bind_some, hw] at this
        cases this
        rw [field_snoc hlen _ _ hnew, if_pos hname.symm]

theorem after_dropColumn {codecs : TextCodecs} {cur : ADB}
    (hs : cur.tables.Sorted) {t c : String}
    {db db' : SDb} (hi : Implements cur db) (hp : Proper.Db env db)
    (h : exec env db (.dropColumn t c) = some db') :
    After env codecs cur (.removeColumn t c) db db' := by
  simp only [exec] at h
  cases hl : db.lookup t with
  | none => simp [hl] at h
  | some s =>
    simp only [hl] at h
    have hps := hp.tables t s hl
    obtain ⟨tbl, htbl, his⟩ := Both.some_right (hl ▸ hi t)
    split at h
    case h_2 => cases h
    next col hcol =>
    split at h
    · cases h
    next hcond =>
    split at h
    case h_2 => cases h
    next rows hrows =>
    cases h
    have hnofk : ∀ fk ∈ s.fks, fk.col ≠ c := by
      intro fk hfk e
      refine hcond ?_
      have : s.fks.any (fun fk => decide (fk.col = c)) = true :=
        List.any_eq_true.2 ⟨fk, hfk, by simpa using e⟩
      simp only [this, Bool.or_true, Bool.true_or]
    have hm := allSome_match hrows
    have hdist : ((s.cols.filter fun d => decide (d.name ≠ c)).map (·.name)).Nodup :=
      List.Nodup.sublist (List.Sublist.map _ List.filter_sublist) hps.distinct
    refine after_of hs hi hp (SMap.sorted_insert hp.sorted _ _) ?_ ?_ ?_ ?_
      (.inl ⟨fun e => (by cases hl.symm.trans e), fun w => w⟩)
    · intro k hk
      rw [SMap.lookup_insert, if_neg]
      exact hk
    · simp only [Operation.target, SMap.lookup_insert, ↓reduceIte, htbl, tableEff, Option.map_some]
      refine ⟨fun n => ?_, fun fk => ?_⟩
      · simp only [ATable.removeColumn, ATable.column, colByName_filter, dbColumn,
          List.find?_filter]
        have := his.columns n
        simp only [ATable.column, dbColumn] at this
        by_cases e : n = c
        · subst e
          simp only [↓reduceIte]
          have : s.cols.find? (fun a => decide (decide (a.name ≠ n) = true ∧
              decide (a.name = n) = true)) = none := by
            rw [List.find?_eq_none]
            intro x _
            by_cases e : x.name = n <;> simp [e]
          rw [this]
          trivial
        · simp only [e, ↓reduceIte]
          have e2 : (fun a : ColDef => decide (decide (a.name ≠ c) = true ∧
              decide (a.name = n) = true)) = fun a => decide (a.name = n) := by
            funext a
            by_cases e3 : a.name = n
            · have : a.name ≠ c := fun e4 => e (e3 ▸ e4)
              simp [e3, e]
            · simp [e3]
          rw [e2]
          exact this
      · rw [his.refs fk]
        simp only [ATable.removeColumn, ATable.column, colByName_filter]
        by_cases e : fk.col = c
        · constructor
          · intro hh
            exact absurd e (hnofk fk ((his.refs fk).2 hh))
          · simp [e]
        · simp only [e, ↓reduceIte]
    · simp only [Operation.target, SMap.lookup_insert, ↓reduceIte, Option.some.injEq]
      rintro s' rfl
      refine ⟨hdist, ?_⟩
      intro r' hr'
      obtain ⟨r, hr, hrr⟩ := hm.mem_right hr'
      refine (allSome_match hrr).imp ?_
      intro d hd v _ hv
      obtain ⟨w, hw, hst⟩ := field_some_of_mem (hps.stored r hr) hps.distinct (List.mem_filter.1 hd).1
      rw [hv] at hw
      cases hw
      exact hst
    · intro _ s0 hs0
      simp only [Operation.target] at hs0
      rw [hl] at hs0
      cases hs0
      refine ⟨_, by simp only [Operation.target, SMap.lookup_insert, ↓reduceIte]; rfl, ?_⟩
      refine hm.imp ?_
      intro r hr r' _ hrr
      refine ⟨fun k u hu hrem => ⟨u, ?_, rfl⟩, ?_⟩
      · obtain ⟨x, hx, rfl⟩ := field_mem hu
        have hxc : x.name ≠ c := fun e => hrem ⟨rfl, e.symm⟩
        have := field_of_match (allSome_match hrr) (d := x)
          (List.mem_filter.2 ⟨hx, by simpa using hxc⟩) hdist
        rw [this, hu]
      · rintro col v' b he
        cases he

theorem map_renameRefs {m : SDb} {old new : String}
    (h : ∀ e ∈ m, ∀ fk ∈ e.2.fks, fk.table ≠ old) :
    m.map (fun e => (e.1, renameRefs old new e.2)) = m := by
  induction m with
  | nil => rfl
  | cons e m ih =>
    rw [List.map_cons]
    have h1 : renameRefs old new e.2 = e.2 := by
      have : (e.2.fks.map fun fk => if fk.table = old then { fk with table := new } else fk) =
          e.2.fks := by
        refine (List.map_congr_left ?_).trans (List.map_id _)
        intro fk hfk
        simp [h e (List.mem_cons_self ..) fk hfk]
      simp only [renameRefs, this]
    rw [h1]
    congr 1
    exact ih fun x hx => h x (List.mem_cons_of_mem _ hx)

theorem tmp_ne (n : String) : SqliteDdl.tmpName n ≠ n := by
  intro h
  have := congrArg String.toList h
  simp only [SqliteDdl.tmpName, String.toList_append] at this
  have := congrArg List.length this
  simp at this

theorem exec_insertSelect {db db' : SDb} {dst src : String} {cols : List String}
    (h : exec env db (.insertSelect dst cols src) = some db') :
    ∃ d s new, db.lookup dst = some d ∧ db.lookup src = some s ∧
      AllMatch (fun r r' => ∃ vs, allSome (field s.cols r) cols = some vs ∧
        storeRow env d.cols vs = some r') s.rows new ∧
      (∀ c ∈ cols, c ∈ s.cols.map (·.name)) ∧
      db' = db.insert dst { d with rows := d.rows ++ new } := by
  simp only [exec] at h
  split at h
  case h_2 => cases h
  next d s h1 h2 =>
  split at h
  case h_2 => cases h
  next new h3 =>
  split at h
  case isFalse => cases h
  next hcond =>
  cases h
  refine ⟨d, s, new, h1, h2, ?_, ?_, rfl⟩
  · refine (allSome_match h3).imp ?_
    intro r _ r' _ hr
    split at hr
    · next vs hvs => exact ⟨vs, hvs, hr⟩
    · cases hr
  · simp only [Bool.and_eq_true] at hcond
    intro c hc
    have := List.all_eq_true.1 hcond.1.1.1 c hc
    simpa using this

/-- Recreating a table with other columns. -/
theorem after_change (laws : StrictLaws env) {codecs : TextCodecs} {cur : ADB}
    (hv : ValidSchema cur) (hpl : PlainSchema cur) {tbl changed : ATable} {op : Operation}
    (ht : cur.getTable op.target = some tbl)
    (heff : tableEff (some tbl) op = some changed)
    (hplain : ∀ c ∈ changed.columns, PlainColumn c)
    (hw : ¬ Whole op.target op)
    (hkeep : ∀ n c, tbl.column n = some c → ¬ Removes op.target n op →
      changed.column n = some c ∧ (∀ m o new, op = .changeColumn m o new → new.name ≠ n) ∨
      ∃ o new, op = .changeColumn op.target o new ∧ new.name = n ∧
        changed.column n = some new)
    (hadd : ∀ n col, op ≠ .addColumn n col)
    {db db' : SDb} (hi : Implements cur db) (hp : Proper.Db env db)
    (h : execAll env db (changeOf tbl changed) = some db') :
    After env codecs cur op db db' := by
  have hname : tbl.name = op.target := name_of_getTable hv ht
  obtain ⟨db1, h1, h⟩ := execAll_cons h
  obtain ⟨db2, h2, h⟩ := execAll_cons h
  obtain ⟨db3, h3, h⟩ := execAll_cons h
  have h4 := execAll_one h
  clear h
  have htmp := tmp_ne tbl.name
  -- create
  obtain ⟨c1, c2, rfl⟩ := exec_create h1
  rw [names_map] at c2
  simp only at c1 c2 h2
  have so1 := SMap.sorted_insert hp.sorted (SqliteDdl.tmpName tbl.name)
    (⟨changed.columns.map colDefOf, refsOf { changed with name := SqliteDdl.tmpName tbl.name }, []⟩ : STable)
  -- copy
  obtain ⟨d, s, new, d1, d2, d3, d4, rfl⟩ := exec_insertSelect h2
  rw [SMap.lookup_insert, if_pos rfl] at d1
  rw [SMap.lookup_insert, if_neg (Ne.symm htmp)] at d2
  cases d1
  simp only [List.nil_append] at d3 h3 h4
  -- drop
  generalize hT : (⟨changed.columns.map colDefOf,
    refsOf { changed with name := SqliteDdl.tmpName tbl.name }, new⟩ : STable) = T at h3
  have so2 := SMap.sorted_insert so1 (SqliteDdl.tmpName tbl.name) T
  simp only [exec] at h3
  split at h3
  case h_2 => cases h3
  split at h3
  · cases h3
  cases h3
  -- rename
  have so3 := SMap.sorted_erase so2 tbl.name
  simp only [exec] at h4
  split at h4
  case h_2 => cases h4
  next T' r1 r2 =>
  rw [SMap.lookup_erase so2, if_neg htmp, SMap.lookup_insert, if_pos rfl] at r1
  cases r1
  cases h4
  have so4 := SMap.sorted_erase so3 (SqliteDdl.tmpName tbl.name)
  have so5 := SMap.sorted_insert so4 tbl.name T
  have hlook : ∀ k, SMap.lookup (SMap.insert (SMap.erase (SMap.erase (SMap.insert (SMap.insert db
      (SqliteDdl.tmpName tbl.name) ⟨changed.columns.map colDefOf,
        refsOf { changed with name := SqliteDdl.tmpName tbl.name }, []⟩)
      (SqliteDdl.tmpName tbl.name) T) tbl.name) (SqliteDdl.tmpName tbl.name)) tbl.name T) k =
      if k = tbl.name then some T else db.lookup k := by
    intro k
    rw [SMap.lookup_insert, SMap.lookup_erase so3, SMap.lookup_erase so2, SMap.lookup_insert,
      SMap.lookup_insert]
    by_cases e1 : k = tbl.name
    · simp [e1]
    · by_cases e2 : k = SqliteDdl.tmpName tbl.name
      · simp [e1, e2, c1]
      · simp [e1, e2]
  generalize hfin : (SMap.insert (SMap.erase (SMap.erase (SMap.insert (SMap.insert db
      (SqliteDdl.tmpName tbl.name) ⟨changed.columns.map colDefOf,
        refsOf { changed with name := SqliteDdl.tmpName tbl.name }, []⟩)
      (SqliteDdl.tmpName tbl.name) T) tbl.name) (SqliteDdl.tmpName tbl.name)) tbl.name T) = fin
    at hlook so5
  have hrefs : ∀ t : ATable, (∀ c ∈ t.columns, PlainColumn c) → ∀ fk : RefCon,
      (∃ c, t.column fk.col = some c ∧ c.reference = some (.literal fk.table fk.refCol)) →
      fk.table ≠ SqliteDdl.tmpName tbl.name := by
    rintro t htp fk ⟨c, hc, hr⟩
    obtain ⟨a, b, e, -, -, hne⟩ := (htp c (colByName_some hc).1).reference _ hr
    cases e
    exact hne tbl.name
  have his := tableIs_create hplain c2 new
  have hmap : fin.map (fun e => (e.1, renameRefs (SqliteDdl.tmpName tbl.name) tbl.name e.2)) = fin := by
    refine map_renameRefs ?_
    intro e he fk hfk
    have hl := SMap.lookup_of_mem so5 he
    rw [hlook] at hl
    split at hl
    · have hl := (Option.some.inj hl).symm.trans hT.symm
      rw [hl] at hfk
      exact hrefs changed hplain fk ((his.refs fk).1 hfk)
    · obtain ⟨u, hu, hus⟩ := Both.some_right (hl ▸ hi e.1)
      exact hrefs u (hpl _ u hu).columns fk ((hus.refs fk).1 hfk)
  rw [hmap]
  have hps := hp.tables _ s d2
  rw [hname] at d2 hlook
  refine after_of hv.sorted hi hp so5 ?_ ?_ ?_ ?_ (.inl ⟨by rw [d2]; simp, hw⟩)
  · intro k hk
    rw [hlook, if_neg hk]
  · rw [hlook, if_pos rfl, ht, heff, ← hT]
    exact his
  · rw [hlook, if_pos rfl]
    rintro s' e
    cases e
    subst hT
    refine ⟨by simp only [names_map]; exact c2, ?_⟩
    intro r' hr'
    obtain ⟨r, hr, vs, g1, g2⟩ := d3.mem_right hr'
    rw [← names_map] at g1
    refine (storeRow_match g2 g1).imp ?_
    rintro x _ w _ ⟨v, st, -, k2, k3⟩
    exact ⟨st, k2, laws.stable _ _ _ k3⟩
  · intro _ s0 hs0
    rw [d2] at hs0
    cases hs0
    refine ⟨T, by rw [hlook, if_pos rfl], ?_⟩
    subst hT
    refine d3.imp ?_
    rintro r hr r' _ ⟨vs, g1, g2⟩
    rw [← names_map] at g1
    have hst := storeRow_match g2 g1
    have hdist : ((changed.columns.map colDefOf).map (·.name)).Nodup := by
      rw [names_map]; exact c2
    refine ⟨fun n v hvv hrem => ?_, fun col _ _ e => absurd e (hadd _ col)⟩
    obtain ⟨x, hx, rfl⟩ := field_mem hvv
    obtain ⟨tb, htb, htis⟩ := Both.some_right (d2 ▸ hi op.target)
    rw [ht] at htb
    cases htb
    obtain ⟨ac, hac, hacx⟩ := Both.some_right (dbColumn_of_mem hps.distinct hx ▸ htis.columns x.name)
    rcases hkeep x.name ac hac hrem with ⟨hk, hno⟩ | ⟨o, nw, hop, hnw, hk⟩
    · have hm := (colByName_some hk)
      obtain ⟨w, hw, v', st, k1, k2, k3⟩ := field_some_of_mem hst hdist
        (List.mem_map_of_mem (f := colDefOf) hm.1)
      simp only [colDefOf] at hw k1
      rw [hm.2] at hw k1
      rw [hvv] at k1
      cases k1
      refine ⟨w, hw, ?_⟩
      obtain ⟨v2, q1, st2, q2, q3⟩ := field_some_of_mem (hps.stored r hr) hps.distinct hx
      rw [hvv] at q1
      cases q1
      obtain ⟨st3, q4, q5⟩ := hacx.type
      rw [q5, strictType_name] at q2
      cases q2
      simp only [colDefOf, typeWord_eq q4, strictType_name, Option.some.injEq] at k2
      subst k2
      rw [q3] at k3
      cases k3
      cases op with
      | changeColumn m o nw =>
        simp only [Converts]
        split
        · next hh => exact absurd hh.2 (hno _ _ _ rfl)
        · trivial
      | _ => rfl
    · have hm := (colByName_some hk)
      obtain ⟨w, hw, v', st, k1, k2, k3⟩ := field_some_of_mem hst hdist
        (List.mem_map_of_mem (f := colDefOf) hm.1)
      simp only [colDefOf] at hw k1
      rw [hm.2] at hw k1
      rw [hvv] at k1
      cases k1
      refine ⟨w, hw, ?_⟩
      obtain ⟨st3, q4⟩ := (hplain nw hm.1).type
      simp only [colDefOf, typeWord_eq q4, strictType_name, Option.some.injEq] at k2
      subst k2
      rw [hop]
      simp only [Converts, Operation.target, hnw, and_self, ↓reduceIte]
      exact ⟨_, q4, k3⟩

/-- Executing the statements of one operation. -/
theorem exec_op (laws : StrictLaws env) {codecs : TextCodecs} {p : LitPrinters} {cur : ADB}
    (hv : ValidSchema cur) (hpl : PlainSchema cur) {op : Operation} (hop : PlainOp env p op)
    (hne : ∀ t, op ≠ .addTableIfNotExists t)
    {r : Text × ADB} {kw : String → Bool} (hsql : SqliteDdl.sqlForOp kw p cur op = .ok r)
    {db db' : SDb} (hi : Implements cur db) (hp : Proper.Db env db)
    (h : execAll env db (stmtsOf p cur op) = some db') :
    After env codecs cur op db db' := by
  cases op with
  | addTable t => exact after_addTable hv.sorted hop hi hp (execAll_one h)
  | addTableIfNotExists t => exact absurd rfl (hne t)
  | addTableConstraints t =>
    cases h
    exact after_nothing hv.sorted hi hp rfl (fun _ w => w) fun n s _ r =>
      ⟨fun c v hv _ => ⟨v, hv, rfl⟩, fun _ _ _ e => by cases e⟩
  | removeTableConstraints t =>
    cases h
    exact after_nothing hv.sorted hi hp rfl (fun _ w => w) fun n s _ r =>
      ⟨fun c v hv _ => ⟨v, hv, rfl⟩, fun _ _ _ e => by cases e⟩
  | removeTable n => exact after_removeTable hv.sorted hi hp (execAll_one h)
  | addColumn t c =>
    simp only [SqliteDdl.sqlForOp] at hsql
    obtain ⟨_, h1, -⟩ := bind_ok hsql
    simp only [SqliteDdl.addColumn] at h1
    obtain ⟨v, hv', -⟩ := bind_ok h1
    simp only [stmtsOf, hv'] at h
    obtain ⟨st, hst⟩ := hop.2.1.type
    exact after_addColumn laws hv.sorted hop.2.1 hop.2.2 hv' rfl
      ⟨st, hst, by simp only [colDefOf, typeWord_eq hst]⟩
      (fun hk => columnIs_default hop.2.1 (pk_default c _ ▸ hk) _)
      (default_of _) hi hp (execAll_one h)
  | removeColumn t n =>
    simp only [SqliteDdl.sqlForOp, SqliteDdl.removeColumn] at hsql
    simp only [stmtsOf] at h
    cases ht : cur.getTable t with
    | none => simp [ht] at hsql
    | some u =>
      simp only [ht] at hsql h
      cases hc : u.column n with
      | none => simp [hc] at hsql
      | some x =>
        simp only [hc] at hsql h
        split at h
        · refine after_change (op := .removeColumn t n) laws hv hpl ht rfl (columnsPlain_remove (hpl _ u ht).columns _)
            (fun w => w) ?_ (fun _ _ e => by cases e) hi hp h
          intro k c hk hrem
          left
          refine ⟨?_, fun _ _ _ e => by cases e⟩
          simp only [ATable.removeColumn, ATable.column, colByName_filter]
          rw [if_neg (fun e => hrem ⟨rfl, e.symm⟩)]
          exact hk
        · exact after_dropColumn hv.sorted hi hp (execAll_one h)
  | changeColumn t o new =>
    simp only [stmtsOf] at h
    cases ht : cur.getTable t with
    | none =>
      simp only [ht] at h
      cases h
      refine after_nothing hv.sorted hi hp ?_ (fun _ w => w) ?_
      · simp only [Operation.target, ht, tableEff, Option.map_none]
      · intro n s hs r
        refine rowStep_other ?_ s r
        rintro rfl
        simp only [Operation.target] at hs
        have := hi t
        rw [ht, hs] at this
        exact this
    | some u =>
      simp only [ht] at h
      refine after_change (op := .changeColumn t o new) laws hv hpl ht rfl (columnsPlain_replace (hpl _ u ht).columns hop.2)
        (fun w => w) ?_ (fun _ _ e => by cases e) hi hp h
      intro k c hk _
      simp only [ATable.replaceColumn, ATable.column, colByName_replaceCol]
      by_cases e : k = new.name
      · right
        exact ⟨o, new, rfl, e.symm, if_pos e⟩
      · left
        rw [if_neg e]
        refine ⟨hk, ?_⟩
        intro m o' new' he
        cases he
        exact Ne.symm e

/-! ### All operations -/

/-- What the operations do to a value of the column. -/
def ConvertsAll (env : SqliteEnv) (n c : String) : List Operation → SqliteVal → SqliteVal → Prop
  | [], v, w => w = v
  | op :: ops, v, w => ∃ u, Converts env n c v u op ∧ ConvertsAll env n c ops u w

/-- The operation changes the column. -/
def Changes (n c : String) : Operation → Prop
  | .changeColumn m _ new => m = n ∧ new.name = c
  | _ => False

theorem convertsAll_id {n c : String} {ops : List Operation} (h : ∀ op ∈ ops, ¬ Changes n c op)
    {v w : SqliteVal} (hc : ConvertsAll env n c ops v w) : w = v := by
  induction ops generalizing v with
  | nil => exact hc
  | cons op ops ih =>
    obtain ⟨u, h1, h2⟩ := hc
    have := ih (fun o ho => h o (List.mem_cons_of_mem _ ho)) h2
    have hop := h op (List.mem_cons_self ..)
    have h3 : u = v := by
      cases op with
      | changeColumn m o new =>
        simp only [Converts] at h1
        split at h1
        · next hh => exact absurd hh hop
        · exact h1
      | _ => exact h1
    rw [this, h3]

/-- Changes to one type only. -/
theorem convertsAll_same (laws : StrictLaws env) {n c : String} {st : SqliteType}
    {ops : List Operation}
    (h : ∀ m o new, Operation.changeColumn m o new ∈ ops → m = n → new.name = c →
      ∀ st', StoredAs new st' → st' = st)
    {v w : SqliteVal} (hc : ConvertsAll env n c ops v w) :
    w = v ∨ env.coerce st v = some w := by
  induction ops generalizing v with
  | nil => exact .inl hc
  | cons op ops ih =>
    obtain ⟨u, h1, h2⟩ := hc
    have h3 := ih (fun m o new ho => h m o new (List.mem_cons_of_mem _ ho)) h2
    have h4 : u = v ∨ env.coerce st v = some u := by
      cases op with
      | changeColumn m o new =>
        simp only [Converts] at h1
        split at h1
        · next hh =>
          obtain ⟨st', k1, k2⟩ := h1
          rw [h m o new (List.mem_cons_self ..) hh.1 hh.2 st' k1] at k2
          exact .inr k2
        · exact .inl h1
      | _ => exact .inl h1
    rcases h3 with rfl | h3
    · exact h4
    · rcases h4 with rfl | h4
      · exact .inr h3
      · rw [laws.stable _ _ _ h4] at h3
        cases h3
        exact .inr h4

/-- The rows of a table after the operations. -/
def RowSteps (env : SqliteEnv) (codecs : TextCodecs) (n : String) (ops : List Operation)
    (s s' : STable) (r r' : List SqliteVal) : Prop :=
  (∀ c v, field s.cols r c = some v → (∀ op ∈ ops, ¬ Removes n c op) →
    ∃ w, field s'.cols r' c = some w ∧ ConvertsAll env n c ops v w) ∧
  (∀ col v b, Operation.addColumn n col ∈ ops → NewValue col v → toSqlite codecs v = .ok b →
    (∀ op ∈ ops, ¬ Removes n col.name op ∧ ¬ Changes n col.name op) →
    field s'.cols r' col.name = some b)

/-- What holds after the operations. -/
structure AfterAll (env : SqliteEnv) (codecs : TextCodecs) (cur : ADB) (ops : List Operation)
    (db db' : SDb) : Prop where
  schema : Implements (cur.transformAll ops) db'
  proper : Proper.Db env db'
  rows : ∀ n s, db.lookup n = some s → (∀ op ∈ ops, ¬ Whole n op) →
    ∃ s', db'.lookup n = some s' ∧ AllMatch (RowSteps env codecs n ops s s') s.rows s'.rows
  fresh : ∀ n, (∀ s, db.lookup n = some s → s.rows = []) → ∀ s', db'.lookup n = some s' → s'.rows = []

/-- Tables without rows stay so. -/
theorem After.empty {codecs : TextCodecs} {cur : ADB} {op : Operation} {db db' : SDb}
    (a : After env codecs cur op db db') {n : String} (h : ∀ s, db.lookup n = some s → s.rows = []) :
    ∀ s', db'.lookup n = some s' → s'.rows = [] := by
  intro s' hs'
  cases hl : db.lookup n with
  | none => exact a.fresh n (.inl hl) s' hs'
  | some s =>
    by_cases hw : Whole n op
    · exact a.fresh n (.inr hw) s' hs'
    · obtain ⟨s1, h1, h2⟩ := a.rows n s hl hw
      rw [hs'] at h1
      cases h1
      rw [h s hl] at h2
      cases h : s'.rows with
      | nil => rfl
      | cons r l => rw [h] at h2; cases h2

theorem exec_ops (laws : StrictLaws env) {codecs : TextCodecs} {p : LitPrinters}
    {kw : String → Bool} {ops : List Operation} (hops : ∀ op ∈ ops, PlainOp env p op)
    (hok : ∀ op ∈ ops, opOk op) (hne : ∀ op ∈ ops, ∀ t, op ≠ .addTableIfNotExists t)
    {cur : ADB} (hv : ValidSchema cur) (hpl : PlainSchema cur) {ts : List Text}
    (hsql : SqliteDdl.opTexts kw p cur ops = .ok ts)
    {db db' : SDb} (hi : Implements cur db) (hp : Proper.Db env db)
    (h : execAll env db (allStmts p cur ops) = some db') :
    AfterAll env codecs cur ops db db' := by
  induction ops generalizing cur ts db with
  | nil =>
    cases h
    refine ⟨hi, hp, fun n s hs _ => ⟨s, hs, allMatch_self (fun r => ⟨fun c v hv _ => ⟨v, hv, rfl⟩,
      fun col v b hm => by cases hm⟩) _⟩, fun n h => h⟩
  | cons op ops ih =>
    simp only [SqliteDdl.opTexts] at hsql
    obtain ⟨⟨t, cur'⟩, h1, hsql⟩ := bind_ok hsql
    obtain ⟨ts', h2, hsql⟩ := bind_ok hsql
    cases hsql
    have hop := hops op (List.mem_cons_self ..)
    rw [opTexts_step hv h1] at h2
    obtain ⟨db1, e1, e2⟩ := execAll_append h
    have a1 := exec_op (codecs := codecs) laws hv hpl hop (hne op (List.mem_cons_self ..)) h1 hi hp e1
    have a2 := ih (fun o ho => hops o (List.mem_cons_of_mem _ ho))
      (fun o ho => hok o (List.mem_cons_of_mem _ ho))
      (fun o ho => hne o (List.mem_cons_of_mem _ ho))
      (valid_transformWith hv _ (hok op (List.mem_cons_self ..)))
      (plain_transform hv.sorted hpl hop) h2 a1.schema a1.proper e2
    refine ⟨a2.schema, a2.proper, fun n s hs hw => ?_, fun n h => a2.fresh n (a1.empty h)⟩
    obtain ⟨s1, hs1, m1⟩ := a1.rows n s hs (hw op (List.mem_cons_self ..))
    obtain ⟨s2, hs2, m2⟩ := a2.rows n s1 hs1 (fun o ho => hw o (List.mem_cons_of_mem _ ho))
    refine ⟨s2, hs2, m1.comp m2 ?_⟩
    intro r r1 r2 k1 k2
    constructor
    · intro c v hvv hrem
      obtain ⟨u, hu, cu⟩ := k1.1 c v hvv (hrem op (List.mem_cons_self ..))
      obtain ⟨w, hw, cw⟩ := k2.1 c u hu (fun o ho => hrem o (List.mem_cons_of_mem _ ho))
      exact ⟨w, hw, u, cu, cw⟩
    · intro col v b hm hnv hb hno
      rcases List.mem_cons.1 hm with hm | hm
      · obtain ⟨w, hw, cw⟩ := k2.1 col.name b (k1.2 col v b hm.symm hnv hb)
          (fun o ho => (hno o (List.mem_cons_of_mem _ ho)).1)
        rw [hw, convertsAll_id (fun o ho => (hno o (List.mem_cons_of_mem _ ho)).2) cw]
      · exact k2.2 col v b hm hnv hb (fun o ho => hno o (List.mem_cons_of_mem _ ho))

/-! ### Migrations found by comparison -/

/-- What an operation found by comparison says about the schemas. -/
def Found (old new : ADB) : Operation → Prop
  | .addTable t => new.getTable t.name = some t ∧ old.getTable t.name = none
  | .removeTable n => (∃ t, old.getTable n = some t) ∧ new.getTable n = none
  | .addColumn n c => ∃ s t, old.getTable n = some s ∧ new.getTable n = some t ∧
      s.column c.name = none ∧ t.column c.name = some c
  | .removeColumn n c => ∃ s t x, old.getTable n = some s ∧ new.getTable n = some t ∧
      s.column c = some x ∧ t.column c = none
  | .changeColumn n o c => ∃ s t, old.getTable n = some s ∧ new.getTable n = some t ∧
      s.column c.name = some o ∧ t.column c.name = some c
  | .addTableIfNotExists _ => False
  | .removeTableConstraints t => old.getTable t.name = some t ∧ new.getTable t.name = none
  | .addTableConstraints t => new.getTable t.name = some t ∧ old.getTable t.name = none

theorem lookup_none_of_keys {α : Type} {m : SMap String α} {n : String} (h : m.keys.contains n = false) :
    m.lookup n = none := by
  cases hl : m.lookup n with
  | none => rfl
  | some v =>
    have : n ∈ m.keys := (SMap.mem_keys_iff ..).2 ⟨v, hl⟩
    simp [this] at h

theorem column_none_of_set {t : ATable} {n : String} (h : (colNameSet t.columns).contains n = false) :
    t.column n = none := by
  cases hl : colByName t.columns n with
  | none => exact hl
  | some v =>
    have : n ∈ colNameSet t.columns := (mem_colNameSet_iff_some ..).2 (by rw [hl]; rfl)
    simp [this] at h

theorem diff_found {old new : ADB} (ho : ValidSchema old) (hn : ValidSchema new) {op : Operation}
    (hop : op ∈ diff old new) : Found old new op := by
  have hnew : ∀ {e : String × ATable}, e ∈ new.tables → new.getTable e.1 = some e.2 :=
    fun he => SMap.lookup_of_mem hn.sorted he
  have hold : ∀ {e : String × ATable}, e ∈ old.tables → old.getTable e.1 = some e.2 :=
    fun he => SMap.lookup_of_mem ho.sorted he
  simp only [diff, List.mem_append, List.mem_map, List.mem_flatMap, List.mem_filter,
    Bool.not_eq_true'] at hop
  rcases hop with (((⟨e, he, rfl⟩ | ⟨e, he, rfl⟩) | ⟨e, he, rfl⟩) | ⟨e, he, h⟩) | ⟨e, he, rfl⟩
  · rw [Found, ← hn.keyed e he.1]
    exact ⟨hnew he.1, lookup_none_of_keys he.2⟩
  · rw [Found, ← ho.keyed e he.1]
    exact ⟨hold he.1, lookup_none_of_keys he.2⟩
  · exact ⟨⟨_, hold he.1⟩, lookup_none_of_keys he.2⟩
  · split at h
    case h_2 => cases h
    next s hs =>
    have hsn : s.name = e.1 := name_of_getTable ho hs
    have hen := hn.keyed e he
    simp only [diffTable, List.mem_append, List.mem_filterMap, List.mem_map, List.mem_filter,
      Bool.not_eq_true'] at h
    rcases h with (⟨n, h1, h2⟩ | ⟨n, h1, h2⟩) | ⟨n, h1, h2⟩
    · simp only [Option.map_eq_some_iff] at h2
      obtain ⟨c, hc, rfl⟩ := h2
      have := (colByName_some hc).2
      rw [Found, ← hen]
      exact ⟨s, e.2, hs, hnew he, by rw [this]; exact column_none_of_set h1.2, by rw [this]; exact hc⟩
    · subst h2
      obtain ⟨x, hx⟩ := colByName_of_mem_colNameSet h1.1
      rw [Found, hsn]
      exact ⟨s, e.2, x, hs, hnew he, hx, column_none_of_set h1.2⟩
    · split at h2
      case h_2 => cases h2
      next col oldCol hc hoc =>
      split at h2
      · cases h2
      · cases h2
        have := (colByName_some hc).2
        rw [Found, ← hen]
        exact ⟨s, e.2, hs, hnew he, by rw [this]; exact hoc, by rw [this]; exact hc⟩
  · rw [Found, ← hn.keyed e he.1.1]
    exact ⟨hnew he.1.1, lookup_none_of_keys he.1.2⟩

theorem diff_adds {old new : ADB} (hn : ValidSchema new) {n c : String}
    {s t : ATable} {y : AColumn} (hs : old.getTable n = some s) (ht : new.getTable n = some t)
    (h1 : s.column c = none) (h2 : t.column c = some y) : Operation.addColumn n y ∈ diff old new := by
  have hm := SMap.mem_of_lookup ht
  simp only [diff, List.mem_append, List.mem_flatMap]
  refine .inl (.inr ⟨(n, t), hm, ?_⟩)
  have : old.tables.lookup n = some s := hs
  simp only [this, diffTable, List.mem_append, List.mem_filterMap, List.mem_filter,
    Bool.not_eq_true', Option.map_eq_some_iff]
  refine .inl (.inl ⟨c, ⟨(mem_colNameSet_iff_some ..).2 (by rw [show colByName t.columns c = _ from h2]; rfl), ?_⟩,
    y, h2, by rw [name_of_getTable hn ht]⟩)
  cases hc : (colNameSet s.columns).contains c with
  | false => rfl
  | true =>
    have : c ∈ colNameSet s.columns := by simpa using hc
    obtain ⟨x, hx⟩ := colByName_of_mem_colNameSet this
    simp only [ATable.column] at h1
    rw [hx] at h1
    cases h1

theorem typeid_of_denotes {a b : AColumn} (h : denotes a.sqltype = denotes b.sqltype) :
    a.typeid = b.typeid := by
  simp only [AColumn.typeid]
  cases ha : a.sqltype <;> cases hb : b.sqltype <;> simp_all [denotes]

theorem storedAs_same {a b : AColumn} (h : SameColumn a b) {st : SqliteType} :
    StoredAs a st ↔ StoredAs b st := by
  simp only [StoredAs, typeid_of_denotes h.type]

theorem columnIs_same {a b : AColumn} (h : SameColumn a b) {d : ColDef} (hd : ColumnIs a d) :
    ColumnIs b d := by
  obtain ⟨st, h1, h2⟩ := hd.type
  exact ⟨hd.name.trans h.name, ⟨st, (storedAs_same h).1 h1, h2⟩, by rw [hd.notNull, h.nullable],
    by rw [hd.pk, h.pk], by rw [hd.unique, h.unique], fun hk => hd.keyDefault (h.pk ▸ hk)⟩

theorem literal_same {a b : AColumn} (h : SameColumn a b) (t k : String) :
    a.reference = some (.literal t k) ↔ b.reference = some (.literal t k) := by
  have := h.reference
  cases ha : a.reference with
  | none => cases hb : b.reference with
    | none => simp
    | some r => rw [ha, hb] at this; exact this.elim
  | some r => cases hb : b.reference with
    | none => rw [ha, hb] at this; exact this.elim
    | some r' =>
      rw [ha, hb] at this
      cases r <;> cases r' <;> simp_all [OptRel, SameRef]

theorem tableIs_same {a b : ATable} (h : SameByName a b) {s : STable} (hs : TableIs a s) :
    TableIs b s := by
  refine ⟨fun n => ?_, fun fk => ?_⟩
  · have h1 := h.2 n
    have h2 := hs.columns n
    simp only [ATable.column] at *
    cases ha : colByName a.columns n <;> cases hb : colByName b.columns n <;>
      cases hd : dbColumn s n <;> simp_all only [OptRel, Both]
    exact columnIs_same h1 h2
  · rw [hs.refs fk]
    have h1 := h.2 fk.col
    simp only [ATable.column] at *
    cases ha : colByName a.columns fk.col <;> cases hb : colByName b.columns fk.col <;>
      simp_all only [OptRel]
    simp only [Option.some.injEq, exists_eq_left']
    exact literal_same h1 ..

theorem implements_same {a b : ADB} (h : SchemaByName a b) {db : SDb} (hi : Implements a db) :
    Implements b db := by
  intro n
  have h1 := h n
  have h2 := hi n
  cases ha : a.getTable n <;> cases hb : b.getTable n <;>
    cases hd : SMap.lookup db n <;> simp_all only [OptRel, Both]
  exact tableIs_same h1 h2

theorem storedAs_unique {c : AColumn} {a b : SqliteType} (ha : StoredAs c a) (hb : StoredAs c b) :
    a = b := by
  obtain ⟨ty, h1, h2⟩ := ha
  obtain ⟨ty', h3, h4⟩ := hb
  rw [h1] at h3
  cases h3
  rw [h2] at h4
  exact Option.some.inj h4

/-- What the operations found by comparison need. -/
theorem plainOp_found {p : LitPrinters} {old new : ADB} (ho : ValidSchema old)
    (po : PlainSchema old) (pn : PlainSchema new)
    (hadd : ∀ n s t c y, old.getTable n = some s → new.getTable n = some t → s.column c = none →
      t.column c = some y → AddableColumn env p y) {op : Operation} (h : Found old new op) :
    PlainOp env p op := by
  have hname : ∀ {n t}, old.getTable n = some t → IsName n := fun {n t} ht => by
    rw [← name_of_getTable ho ht]
    exact (po n t ht).name
  have hcol : ∀ {n : String} {t : ATable} {c : String} {x : AColumn}, new.getTable n = some t →
      t.column c = some x → PlainColumn x :=
    fun ht hx => (pn _ _ ht).columns _ (colByName_some hx).1
  cases op with
  | addTable t => exact pn _ _ h.1
  | removeTable n => obtain ⟨⟨t, ht⟩, -⟩ := h; exact hname ht
  | addColumn n c =>
    obtain ⟨s, t, h1, h2, h3, h4⟩ := h
    exact ⟨hname h1, hcol h2 h4, hadd n s t c.name c h1 h2 h3 h4⟩
  | removeColumn n c =>
    obtain ⟨s, t, x, h1, h2, h3, h4⟩ := h
    refine ⟨hname h1, ?_⟩
    have := colByName_some h3
    rw [← this.2]
    exact ((po _ _ h1).columns _ this.1).name
  | changeColumn n o c =>
    obtain ⟨s, t, h1, h2, h3, h4⟩ := h
    exact ⟨hname h1, hcol h2 h4⟩
  | addTableIfNotExists t => exact h.elim
  | removeTableConstraints t => trivial
  | addTableConstraints t => trivial

theorem found_ne {old new : ADB} {op : Operation} (h : Found old new op) (t : ATable) :
    op ≠ .addTableIfNotExists t := by
  rintro rfl
  exact h

/-- The statements for the difference of two schemas. -/
theorem migration_stmts {kw : String → Bool}
    (laws : StrictLaws env) {codecs : TextCodecs} {p : LitPrinters} {old new : ADB}
    (ho : ValidSchema old) (hn : ValidSchema new) (po : PlainSchema old) (pn : PlainSchema new)
    (hadd : ∀ n s t c y, old.getTable n = some s → new.getTable n = some t → s.column c = none →
      t.column c = some y → AddableColumn env p y)
    {ts : List Text} (h1 : SqliteDdl.opTexts kw p old (diff old new) = .ok ts)
    {db db' : SDb} (hi : Implements old db) (hp : Proper.Db env db)
    (hx : execAll env db (allStmts p old (diff old new)) = some db') :
    Implements new db' ∧ Proper.Db env db' ∧ RowsKept env codecs old new db db' := by
  have hfound : ∀ op ∈ diff old new, Found old new op := fun op hop => diff_found ho hn hop
  have hplain : ∀ op ∈ diff old new, PlainOp env p op :=
    fun op hop => plainOp_found ho po pn hadd (hfound op hop)
  have hok : ∀ op ∈ diff old new, opOk op := fun op hop => diff_opOk hn hop
  have a := exec_ops (codecs := codecs) laws hplain hok (fun op hop => found_ne (hfound op hop))
    ho po h1 hi hp hx
  have hi' : Implements new db' :=
    implements_same (diff_result ho hn ho.sorted (schemaByName_refl old)) a.schema
  refine ⟨hi', a.proper, ?_, ?_⟩
  case refine_2 =>
    intro n s' hn
    refine a.fresh n (fun s hs => ?_) s'
    have := hi n
    rw [hn, hs] at this
    exact this.elim
  intro n t t' s s' ht ht' hs hs'
  have hwhole : ∀ op ∈ diff old new, ¬ Whole n op := by
    intro op hop hw
    have hfo := hfound op hop
    cases op with
    | addTable a =>
      obtain rfl : a.name = n := hw
      rw [hfo.2] at ht
      cases ht
    | addTableIfNotExists a => exact hfo
    | removeTable m =>
      obtain rfl : m = n := hw
      rw [hfo.2] at ht'
      cases ht'
    | _ => exact hw
  obtain ⟨s2, hs2, hm⟩ := a.rows n s hs hwhole
  rw [hs'] at hs2
  cases hs2
  have hps := hp.tables n s hs
  have hps' := a.proper.tables n s' hs'
  have tis : TableIs t s := by have := hi n; rw [ht, hs] at this; exact this
  have tis' : TableIs t' s' := by have := hi' n; rw [ht', hs'] at this; exact this
  refine hm.imp ?_
  intro r hr r' hr' hrr
  constructor
  · intro c x y st hxc hyc hst
    obtain ⟨d, hd, hxd⟩ := Both.some_left (hxc ▸ tis.columns c)
    obtain ⟨dm, dn⟩ := dbColumn_some hd
    obtain ⟨v, hvv, stx, q1, q2⟩ := field_some_of_mem (hps.stored r hr) hps.distinct dm
    rw [dn] at hvv
    have hnorem : ∀ op ∈ diff old new, ¬ Removes n c op := by
      intro op hop hw
      have hfo := hfound op hop
      cases op with
      | removeColumn m k =>
        obtain ⟨rfl, rfl⟩ := hw
        obtain ⟨s0, t0, x0, e1, e2, e3, e4⟩ := hfo
        rw [ht'] at e2
        cases e2
        rw [hyc] at e4
        cases e4
      | _ => exact hw
    obtain ⟨w, hww, hcw⟩ := hrr.1 c v hvv hnorem
    have hconv := convertsAll_same (st := st) laws (ops := diff old new) ?_ hcw
    · have hfix : env.coerce st w = some w := by
        obtain ⟨d', hd', hyd⟩ := Both.some_left (hyc ▸ tis'.columns c)
        obtain ⟨dm', dn'⟩ := dbColumn_some hd'
        obtain ⟨w', hw', stw, r1, r2⟩ := field_some_of_mem (hps'.stored r' hr') hps'.distinct dm'
        rw [dn', hww] at hw'
        cases hw'
        obtain ⟨sty, k1, k2⟩ := hyd.type
        rw [k2, strictType_name] at r1
        cases r1
        rw [storedAs_unique hst k1]
        exact r2
      have hcv : env.coerce st v = some w := by
        rcases hconv with rfl | hconv
        · exact hfix
        · exact hconv
      refine ⟨v, w, hvv, hww, hcv, fun hsx => ?_⟩
      obtain ⟨sty, k1, k2⟩ := hxd.type
      rw [k2, strictType_name] at q1
      cases q1
      rw [storedAs_unique k1 hsx, hcv] at q2
      exact Option.some.inj q2
    · intro m o nw hop hm' hnw st' hst'
      obtain ⟨s0, t0, e1, e2, e3, e4⟩ := hfound _ hop
      subst hm'
      rw [ht'] at e2
      cases e2
      rw [hnw, hyc] at e4
      cases e4
      exact storedAs_unique hst' hst
  · intro c y v b hnone hyc hnv hb
    have hy := (colByName_some hyc).2
    have hmem := diff_adds hn ht ht' hnone hyc
    have := hrr.2 y v b hmem hnv hb ?_
    · rw [hy] at this; exact this
    · intro op hop
      have hfo := hfound op hop
      constructor
      · intro hw
        cases op with
        | removeColumn m k =>
          obtain ⟨rfl, rfl⟩ := hw
          obtain ⟨s0, t0, x0, e1, e2, e3, e4⟩ := hfo
          rw [ht'] at e2
          cases e2
          rw [hy, hyc] at e4
          cases e4
        | _ => exact hw
      · intro hw
        cases op with
        | changeColumn m o k =>
          obtain ⟨rfl, hk'⟩ := hw
          obtain ⟨s0, t0, e1, e2, e3, e4⟩ := hfo
          rw [ht] at e1
          cases e1
          rw [hk', hy, hnone] at e3
          cases e3
        | _ => exact hw

theorem migration_exec {kw res : String → Bool} (hk : CoversDdl kw res) (hf : TypesFree res)
    (laws : StrictLaws env) {codecs : TextCodecs} {p : LitPrinters} {old new : ADB}
    (ho : ValidSchema old) (hn : ValidSchema new) (po : PlainSchema old) (pn : PlainSchema new)
    (hadd : ∀ n s t c y, old.getTable n = some s → new.getTable n = some t → s.column c = none →
      t.column c = some y → AddableColumn env p y)
    {text : Text} (h : SqliteDdl.migrationSql kw p old (diff old new) = .ok text)
    {db db' : SDb} (hi : Implements old db) (hp : Proper.Db env db)
    (hx : execScript env res db text = some db') :
    Implements new db' ∧ Proper.Db env db' ∧ RowsKept env codecs old new db db' := by
  have hplain : ∀ op ∈ diff old new, PlainOp env p op :=
    fun op hop => plainOp_found ho po pn hadd (diff_found ho hn hop)
  have hok : ∀ op ∈ diff old new, opOk op := fun op hop => diff_opOk hn hop
  have hparse := migrationSql_parse hk hf hplain hok ho po h
  simp only [execScript] at hx
  rcases hparse with hparse | hparse
  case inr => rw [hparse] at hx; cases hx
  rw [hparse] at hx
  simp only at hx
  simp only [SqliteDdl.migrationSql] at h
  obtain ⟨ts, h1, -⟩ := bind_ok h
  exact migration_stmts laws ho hn po pn hadd h1 hi hp hx

end Butane.DdlP
