/-
C43: objects survive the trip through a row, on both backends.  C58: PostgreSQL storage.
-/
import Verif.Proofs.ObjRow

namespace Butane.Props
open Butane Spec

/-- **C43**: the columns written and the values written line up.  For any struct and object and
any choice of its columns, there is one value for each column, in the same order, and it has the
column's type or is NULL.  (That each is the value of the field with that name follows from the
round trips below.) -/
theorem columns_values_line_up (keep : TField → Bool) :
    ∀ (fs : List TField) (o : ObjVals fs), AllProper fs o →
      ∃ vals, pushValues keep fs o = .ok vals ∧
        AllMatch (fun col v => v = .null ∨ v.sqltype = some col.2)
          (tcolumns (fun f => !f.isAuto && keep f) fs) vals
  | [], _, _ => ⟨[], rfl, .nil⟩
  | ⟨n, p, none⟩ :: fs, (x, os), hp => columns_values_line_up keep fs os hp
  | ⟨n, p, some t⟩ :: fs, (x, os), hp => by
    obtain ⟨vals, h1, h2⟩ := columns_values_line_up keep fs os hp.2
    by_cases hk : (!(TField.mk n p (some t)).isAuto && keep ⟨n, p, some t⟩) = true
    · obtain ⟨v, h3, -, h4, h5⟩ := field_round_trip_partial (fun _ => none) t x hp.1
      refine ⟨v :: vals, by simp only [pushValues, hk, ↓reduceIte, h3, h1, Conv.bind], ?_⟩
      simp only [tcolumns, hk, ↓reduceIte]
      refine .cons ?_ h2
      by_cases hpres : Present t x
      · exact .inr (h4 hpres)
      · exact .inl (h5 hpres)
    · exact ⟨vals, by simp only [pushValues, hk, ↓reduceIte, h1, Bool.false_eq_true],
        by simpa only [tcolumns, hk, ↓reduceIte, Bool.false_eq_true] using h2⟩

/-- **C43**: a row with the wrong number of columns is rejected. -/
theorem wrong_number_of_columns (parse : String → Option (Vector UInt8 16)) (len : Nat)
    (get : Nat → SqlType → Conv SqlVal) (fs : List TField)
    (h : len ≠ (tcolumns (fun _ => true) fs).length) : tfromRow parse len get fs = none := by
  rw [tcolumns_all_length] at h
  simp [tfromRow, h]

/-- The types of field columns are never custom types. -/
theorem field_not_custom : ∀ (t : FieldTy) (n : String), t.sqltype ≠ .custom n
  | .newtype t, n | .autoPk t, n | .fkey t, n | .option t, n => field_not_custom t n
  | .bool, _ | .i64, _ | .i32, _ | .u32, _ | .u16, _ | .i16, _ | .u8, _ | .f64, _ | .f32, _
  | .i8, _ | .string, _ | .bytes, _ | .uuid, _ | .json _, _ | .date, _
  | .timestamp, _ | .dateTimeUtc, _ | .enum_ _, _ => by simp [FieldTy.sqltype]

/-- A field that holds no NaN is not stored as one. -/
theorem field_no_nan : ∀ (t : FieldTy) (x : t.Val) (v : SqlVal), NoNaNField t x →
    t.toSql x = .ok v → ¬ IsNaN v := by
  intro t
  induction t with
  | newtype t ih => intro x v h hv; exact ih x v h hv
  | autoPk t ih =>
    intro x v h hv
    cases x with
    | none => cases hv
    | some y => exact ih y v (h y rfl) hv
  | option t ih =>
    intro x v h hv
    cases x with
    | none => cases hv; exact id
    | some y => exact ih y v (h y rfl) hv
  | fkey t _ => intro x v h hv; cases hv; exact h
  | f64 => intro x v h hv; cases hv; simp only [IsNaN]; rw [show x.isNaN = false from h]; simp
  | f32 =>
    intro x v h hv; cases hv; simp only [IsNaN]
    rw [F32.widen_isNaN, show x.isNaN = false from h]; simp
  | json j =>
    intro x v h hv
    simp only [FieldTy.toSql] at hv
    split at hv <;> cases hv
    exact id
  | _ => intro x v h hv; cases hv; exact id

theorem present_dec (t : FieldTy) (x : t.Val) (v : SqlVal) (hp : Proper t x)
    (hv : t.toSql x = .ok v) : v = .null ∨ v.sqltype = some t.sqltype := by
  obtain ⟨w, h1, -, h3, h4⟩ := field_round_trip_partial (fun _ => none) t x hp
  rw [hv] at h1
  cases h1
  by_cases h : Present t x
  · exact .inr (h3 h)
  · exact .inl (h4 h)

/-- **C43** on SQLite (partial).  For every struct and every object without NaN: write the
object's values to the columns they line up with; then reading the struct's columns from that row
gives the object back (reals as the same number).  An automatic key is in the row because
the database made it.  Missing: objects with a NaN (`sqlite_nan_violated`). -/
theorem object_row_sqlite_partial (parse : String → Option (Vector UInt8 16)) (c : TextCodecs)
    (hc : Faithful c) (fs : List TField) (o : ObjVals fs) (hp : AllProper fs o) (hn : NoNaNs fs o)
    (vals : List SqlVal) (hv : pushValues (fun _ => true) fs o = .ok vals)
    (row : String → SqliteVal)
    (hw : AllMatch (SqliteHolds c row) (tcolumns (fun f => !f.isAuto) fs) vals)
    (ha : AutoHolds (SqliteHolds c row) fs o) :
    ∃ o', tfromRow parse (tcolumns (fun _ => true) fs).length
        (sqliteGet c ((tcolumns (fun _ => true) fs).map fun col => row col.1)) fs = some (.ok o') ∧
      SameFields fs o o' := by
  have hread := fieldsRead_of_holds (Holds := SqliteHolds c row) (R := SameVal)
    (G := fun col => fromSqlite c (row col.1) col.2) (Good := NoNaNField)
    (fun t y h => h y rfl)
    (fun t x n v hpx hg hvx ⟨ty, a, h1, h2, h3⟩ => by
      obtain ⟨name, a', g1, g2, -, g3⟩ := sqlite_round_trip_partial c hc v t.sqltype
        (present_dec t x v hpx hvx) (field_not_custom t) (field_no_nan t x v hg hvx)
      rw [h1] at g1
      rw [h2] at g2
      cases g1
      cases g2
      exact g3 _ h3)
    NoNaNs (fun _ _ _ _ _ _ h => h) (fun _ _ _ _ _ h => h) fs o vals hp hn hv hw ha
  obtain ⟨o', h1, h2⟩ := readFields_same parse
    (sqliteGet c ((tcolumns (fun _ => true) fs).map fun col => row col.1))
    (fun col => fromSqlite c (row col.1) col.2) fs o 0 hp (fun j col hj => by
      simp [sqliteGet, hj]) hread
  exact ⟨o', by simp only [tfromRow, tcolumns_all_length, ne_eq, not_true_eq_false, ↓reduceIte, h1], h2⟩

/-- **C58** (partial): a value sent to a PostgreSQL column of its type is read back as exactly that
value.  Missing: time stamps with a fraction of a microsecond (`pg_timestamp_violated`). -/
theorem pg_round_trip_partial (v : SqlVal) (ty : SqlType) (hty : v = .null ∨ v.sqltype = some ty)
    (hmicro : ¬ SubMicro v) : ∃ w, toPg (pgType ty) v = .ok w ∧ fromPg w = v := by
  cases v
  case null => exact ⟨_, rfl, rfl⟩
  all_goals
    simp only [SqlVal.sqltype, reduceCtorEq, Option.some.injEq, false_or] at hty
    subst hty
  case timestamp t =>
    refine ⟨_, by simp only [toPg, pgType, ↓reduceIte]; rfl, ?_⟩
    have ht : t % 1000 = 0 := by simpa [SubMicro] using hmicro
    simp only [fromPg, SqlVal.timestamp.injEq]
    exact Int.tdiv_mul_cancel (Int.dvd_of_emod_eq_zero ht)
  all_goals exact ⟨_, by simp only [toPg, pgType, ↓reduceIte]; rfl, rfl⟩

/-- **C58 fails for fractions of a microsecond**: every such time stamp is read back as another. -/
theorem pg_timestamp_violated (t : Int) (h : t % 1000 ≠ 0) :
    ∃ w, toPg (pgType .timestamp) (.timestamp t) = .ok w ∧ fromPg w ≠ .timestamp t := by
  refine ⟨_, rfl, fun he => h ?_⟩
  simp only [fromPg, SqlVal.timestamp.injEq] at he
  rw [← he]
  exact Int.mul_emod_left _ _

/-- **C58**: a value of another type than the column is an error, not converted. -/
theorem pg_wrong_type (v : SqlVal) (ty : SqlType) (hnull : v ≠ .null) (h : v.sqltype ≠ some ty) :
    toPg (pgType ty) v = .err .backendType := by
  cases v <;> cases ty <;> first
    | exact absurd rfl hnull
    | exact absurd rfl h
    | rfl
    | (rename_i n _ m
       have : m ≠ n := fun e => h (by rw [e]; rfl)
       simp [toPg, pgType, this])

/-- A field without fractions of a microsecond is stored without. -/
theorem field_whole_micros : ∀ (t : FieldTy) (x : t.Val) (v : SqlVal), WholeMicros t x →
    t.toSql x = .ok v → ¬ SubMicro v := by
  intro t
  induction t with
  | newtype t ih => intro x v h hv; exact ih x v h hv
  | autoPk t ih =>
    intro x v h hv
    cases x with
    | none => cases hv
    | some y => exact ih y v (h y rfl) hv
  | option t ih =>
    intro x v h hv
    cases x with
    | none => cases hv; exact id
    | some y => exact ih y v (h y rfl) hv
  | fkey t _ => intro x v h hv; cases hv; exact h
  | timestamp => intro x v h hv; cases hv; exact fun hs => hs h
  | dateTimeUtc => intro x v h hv; cases hv; exact fun hs => hs h
  | json j =>
    intro x v h hv
    simp only [FieldTy.toSql] at hv
    split at hv <;> cases hv
    exact id
  | _ => intro x v h hv; cases hv; exact id

/-- **C43** on PostgreSQL (partial).  For every struct and every object without fractions of a
microsecond: write the object's values to the columns they line up with; then reading the
struct's columns from that row gives an equal object.  Missing: fractions of a microsecond
(`pg_timestamp_violated`). -/
theorem object_row_pg_partial (parse : String → Option (Vector UInt8 16))
    (fs : List TField) (o : ObjVals fs) (hp : AllProper fs o) (hn : AllWholeMicros fs o)
    (vals : List SqlVal) (hv : pushValues (fun _ => true) fs o = .ok vals)
    (row : String → PgVal)
    (hw : AllMatch (PgHolds row) (tcolumns (fun f => !f.isAuto) fs) vals)
    (ha : AutoHolds (PgHolds row) fs o) :
    ∃ o', tfromRow parse (tcolumns (fun _ => true) fs).length
        (pgGet ((tcolumns (fun _ => true) fs).map fun col => row col.1)) fs = some (.ok o') ∧
      EqualFields fs o o' := by
  have hread := fieldsRead_of_holds (Holds := PgHolds row) (R := Eq)
    (G := fun col => .ok (fromPg (row col.1))) (Good := WholeMicros)
    (fun t y h => h y rfl)
    (fun t x n v hpx hg hvx hh => by
      obtain ⟨w, g1, g2⟩ := pg_round_trip_partial v t.sqltype
        (present_dec t x v hpx hvx) (field_whole_micros t x v hg hvx)
      have hh' : toPg (pgType t.sqltype) v = .ok (row n) := hh
      rw [hh'] at g1
      cases g1
      exact ⟨_, rfl, g2.symm⟩)
    AllWholeMicros (fun _ _ _ _ _ _ h => h) (fun _ _ _ _ _ h => h) fs o vals hp hn hv hw ha
  obtain ⟨o', h1, h2⟩ := readFields_equal parse
    (pgGet ((tcolumns (fun _ => true) fs).map fun col => row col.1))
    (fun col => .ok (fromPg (row col.1))) fs o 0 hp (fun j col hj => by
      simp [pgGet, hj]) hread
  exact ⟨o', by simp only [tfromRow, tcolumns_all_length, ne_eq, not_true_eq_false, ↓reduceIte, h1], h2⟩

/-! A struct with a key made by the database, an option, a reference, and a `Many` between
them, and an object of it with its rows. -/

def exFields : List TField :=
  [⟨"id", false, some (.autoPk .i64)⟩, ⟨"name", false, some .string⟩, ⟨"tags", false, none⟩,
   ⟨"likes", false, some (.option .u8)⟩, ⟨"blog", false, some (.fkey .i32)⟩]

def exObject : ObjVals exFields := (some 7, "x", (), some 200, .int 3, ())

def exSqliteRow : String → SqliteVal := fun n =>
  (([("id", .integer 7), ("name", .text "x"), ("likes", .integer 200), ("blog", .integer 3)] :
    List (String × SqliteVal)).lookup n).elim .null id
def exPgRow : String → PgVal := fun n =>
  (([("id", .int8 7), ("name", .text "x"), ("likes", .int4 200), ("blog", .int4 3)] :
    List (String × PgVal)).lookup n).elim .null id

theorem exObject_proper : AllProper exFields exObject :=
  ⟨trivial, trivial, ⟨trivial, trivial⟩, rfl, trivial⟩
theorem exObject_values : pushValues (fun _ => true) exFields exObject =
    .ok [.text "x", .int 200, .int 3] := by rfl

example : AllMatch (SqliteHolds exCodecs exSqliteRow) (tcolumns (fun f => !f.isAuto) exFields)
    [.text "x", .int 200, .int 3] :=
  .cons ⟨_, _, rfl, rfl, .text _⟩ (.cons ⟨_, _, rfl, rfl, .integer _⟩
    (.cons ⟨_, _, rfl, rfl, .integer _⟩ .nil))
example : AutoHolds (SqliteHolds exCodecs exSqliteRow) exFields exObject :=
  ⟨⟨_, _, rfl, rfl, _, _, rfl, rfl, .integer _⟩, trivial⟩
example : NoNaNs exFields exObject :=
  ⟨fun _ _ => trivial, trivial, fun _ _ => trivial, id, trivial⟩
example : AllMatch (PgHolds exPgRow) (tcolumns (fun f => !f.isAuto) exFields)
    [.text "x", .int 200, .int 3] := .cons rfl (.cons rfl (.cons rfl .nil))
example : AutoHolds (PgHolds exPgRow) exFields exObject :=
  ⟨⟨_, _, rfl, rfl, rfl⟩, trivial⟩
example : AllWholeMicros exFields exObject :=
  ⟨fun _ _ => trivial, trivial, fun _ _ => trivial, id, trivial⟩
example : (tcolumns (fun f => !f.isAuto) exFields).map (·.1) = ["name", "likes", "blog"] := by decide
example : ¬ SubMicro (.timestamp 5000) := by simp [SubMicro]
example : (SqlVal.bigInt 3).sqltype ≠ some .int := by decide

end Butane.Props
