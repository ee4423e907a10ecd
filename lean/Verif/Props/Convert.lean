/-
Properties of the conversion between Rust values, database values and SQLite values.
-/
import Verif.Proofs.Convert

namespace Butane.Props
open Butane Spec

/-! ### C40: field values survive the conversion -/

/-- **C40** (partial).  Every value of every field type that has a stored form of its own is
converted to a database value of the declared type (or NULL if it is absent) and back to
itself.  Missing: `Some` of an absent value (`nested_option_violated`), and what other
libraries do with JSON. -/
theorem field_round_trip_partial (parse : String → Option (Vector UInt8 16)) :
    ∀ (t : FieldTy) (x : t.Val), Proper t x →
      ∃ v, t.toSql x = .ok v ∧ t.fromSql parse v = .ok x ∧
        (Present t x → v.sqltype = some t.sqltype) ∧ (¬ Present t x → v = .null)
  | .bool, x, _ => ⟨_, rfl, rfl, fun _ => rfl, fun h => absurd trivial h⟩
  | .i64, x, _ => ⟨_, rfl, rfl, fun _ => rfl, fun h => absurd trivial h⟩
  | .i32, x, _ => ⟨_, rfl, rfl, fun _ => rfl, fun h => absurd trivial h⟩
  | .u32, x, _ => ⟨_, rfl, by simp [FieldTy.fromSql], fun _ => rfl, fun h => absurd trivial h⟩
  | .u16, x, _ => ⟨_, rfl, by simp [FieldTy.fromSql], fun _ => rfl, fun h => absurd trivial h⟩
  | .i16, x, _ => ⟨_, rfl, by simp [FieldTy.fromSql], fun _ => rfl, fun h => absurd trivial h⟩
  | .u8, x, _ => ⟨_, rfl, by simp [FieldTy.fromSql], fun _ => rfl, fun h => absurd trivial h⟩
  | .i8, x, _ => ⟨_, rfl, by simp [FieldTy.fromSql], fun _ => rfl, fun h => absurd trivial h⟩
  | .f64, x, _ => ⟨_, rfl, rfl, fun _ => rfl, fun h => absurd trivial h⟩
  | .f32, x, hp =>
    ⟨_, rfl, by simp only [FieldTy.fromSql, F32.narrow_widen x hp], fun _ => rfl,
      fun h => absurd trivial h⟩
  | .string, x, _ => ⟨_, rfl, rfl, fun _ => rfl, fun h => absurd trivial h⟩
  | .bytes, x, _ => ⟨_, rfl, rfl, fun _ => rfl, fun h => absurd trivial h⟩
  | .uuid, x, _ =>
    ⟨_, rfl, by simp only [FieldTy.fromSql, FieldTy.uuidFromSlice_toList], fun _ => rfl,
      fun h => absurd trivial h⟩
  | .json j, x, ⟨s, h1, h2, h3⟩ =>
    ⟨.json s, by simp only [FieldTy.toSql, h1], by simp only [FieldTy.fromSql, h2, h3, ↓reduceIte],
      fun _ => rfl, fun h => absurd trivial h⟩
  | .date, x, _ => ⟨_, rfl, rfl, fun _ => rfl, fun h => absurd trivial h⟩
  | .timestamp, x, _ => ⟨_, rfl, rfl, fun _ => rfl, fun h => absurd trivial h⟩
  | .dateTimeUtc, x, _ => ⟨_, rfl, rfl, fun _ => rfl, fun h => absurd trivial h⟩
  | .enum_ vs, i, hp =>
    ⟨_, rfl, by simp only [FieldTy.fromSql, FieldTy.variantOf_get vs hp i], fun _ => rfl,
      fun h => absurd trivial h⟩
  | .newtype t, x, hp => field_round_trip_partial parse t x hp
  | .autoPk t, some x, hp => by
    obtain ⟨v, h1, h2, h3, h4⟩ := field_round_trip_partial parse t x hp
    exact ⟨v, h1, by simp only [FieldTy.fromSql, h2, Conv.bind], h3, h4⟩
  | .autoPk _, none, hp => hp.elim
  | .fkey t, k, hp => ⟨k, rfl, rfl, fun _ => hp, fun h => by
      have hp : k.sqltype = some t.sqltype := hp
      exact absurd (fun hk : k = .null => by rw [hk] at hp; cases hp) h⟩
  | .option _, none, _ =>
    ⟨.null, rfl, by simp only [FieldTy.fromSql, ↓reduceIte], fun h => h.elim, fun _ => rfl⟩
  | .option t, some x, hp => by
    obtain ⟨v, h1, h2, h3, h4⟩ := field_round_trip_partial parse t x hp.1
    have hv : v ≠ .null := fun h => by have := h3 hp.2; rw [h] at this; cases this
    exact ⟨v, h1, by simp only [FieldTy.fromSql, hv, ↓reduceIte, h2, Conv.bind], h3, h4⟩

/-- A NaN in an `f32` field is still a NaN after the conversion to `f64` and back. -/
theorem f32_nan_round_trip (parse : String → Option (Vector UInt8 16)) (x : F32)
    (h : x.isNaN = true) :
    ∃ v y, FieldTy.f32.toSql x = .ok v ∧ FieldTy.f32.fromSql parse v = .ok y ∧ y.isNaN = true :=
  ⟨_, _, rfl, rfl, F32.nan_narrow_widen x h⟩

/-- **C40 fails for nested options**: `Some(None)` is stored as NULL and read as `None`. -/
theorem nested_option_violated (parse : String → Option (Vector UInt8 16)) (t : FieldTy) :
    ∃ (x y : (FieldTy.option (.option t)).Val) (v : SqlVal), x ≠ y ∧
      (FieldTy.option (.option t)).toSql x = .ok v ∧
      (FieldTy.option (.option t)).fromSql parse v = .ok y :=
  ⟨some none, none, .null, by simp, rfl, by simp only [FieldTy.fromSql, ↓reduceIte]⟩

/-- A value of another kind is an error, not a guess: reading succeeds only from a value of the
declared type, with three exceptions that the code makes on purpose or by not checking: a
UUID is also read from text, an option also from NULL, and a foreign key from anything. -/
theorem read_needs_type (parse : String → Option (Vector UInt8 16)) :
    ∀ (t : FieldTy) (v : SqlVal) (x : t.Val), t.fromSql parse v = .ok x →
      v.sqltype = some t.sqltype ∨
        match t with
        | .uuid => ∃ s, v = .text s
        | .option u => v = .null ∨ ∃ y, u.fromSql parse v = .ok y
        | .newtype u => u.fromSql parse v = .ok x
        | .autoPk u => ∃ y, u.fromSql parse v = .ok y
        | .fkey _ => True
        | _ => False := by
  intro t v x h
  cases t
  case option u =>
    right
    simp only [FieldTy.fromSql] at h
    by_cases hv : v = .null
    · exact .inl hv
    · right
      rw [if_neg hv] at h
      cases hu : u.fromSql parse v with
      | ok y => exact ⟨y, rfl⟩
      | err e => rw [hu] at h; cases h
      | panic => rw [hu] at h; cases h
  case newtype u => right; simpa only [FieldTy.fromSql] using h
  case autoPk u =>
    right
    simp only [FieldTy.fromSql] at h
    cases hu : u.fromSql parse v with
    | ok y => exact ⟨y, hu⟩
    | err e => rw [hu] at h; cases h
    | panic => rw [hu] at h; cases h
  case fkey u => right; trivial
  case uuid =>
    cases v <;> first
      | (left; rfl)
      | (right; exact ⟨_, rfl⟩)
      | (simp only [FieldTy.fromSql] at h; cases h)
  all_goals
    left
    cases v <;> first
      | rfl
      | (simp only [FieldTy.fromSql] at h; cases h)

/-! Cases that meet the hypotheses. -/
example : Proper (.option .u8) (some 200) := ⟨trivial, trivial⟩
example : (FieldTy.option .u8).toSql (some (200 : UInt8)) = .ok (.int 200) := by decide
example : Proper (.option (.fkey (.autoPk .i64))) (some (.bigInt 7)) := ⟨rfl, by simp [Present]⟩
example : Proper .f32 ⟨0x3f800001⟩ := by show F32.isNaN _ = false; decide
/-- 1.1920929e-7 above one, a subnormal and the greatest finite value widen to the right `f64`. -/
example : F32.widen ⟨0x3f800001⟩ = ⟨0x3ff0000020000000⟩ ∧ F32.widen ⟨0x00000003⟩ = ⟨0x36b8000000000000⟩
    ∧ F32.widen ⟨0x7f7fffff⟩ = ⟨0x47efffffe0000000⟩ := by decide
/-- Rounding: 1 + 2^-24 rounds to even, 1 + 3·2^-24 up, the greatest `f64` to infinity. -/
example : F64.narrow ⟨0x3ff0000010000000⟩ = ⟨0x3f800000⟩ ∧ F64.narrow ⟨0x3ff0000030000000⟩ = ⟨0x3f800002⟩
    ∧ F64.narrow ⟨0x7fefffffffffffff⟩ = ⟨0x7f800000⟩ := by decide
example : F32.isNaN ⟨0x7fc00000⟩ = true := by decide

/-! ### C41: numbers that do not fit -/

/-- Every value of an integer field type is within its range. -/
theorem int_range {t : FieldTy} {I : IntType t} (hI : IsIntType I) (x : t.Val) :
    I.lo ≤ I.num x ∧ I.num x ≤ I.hi := by
  cases hI
  case i8 => exact ⟨Int8.le_toInt x, Int8.toInt_le x⟩
  case i16 => exact ⟨Int16.le_toInt x, Int16.toInt_le x⟩
  case i32 => exact ⟨Int32.le_toInt x, Int32.toInt_le x⟩
  case i64 => exact ⟨Int64.le_toInt x, Int64.toInt_le x⟩
  case u8 => have := UInt8.toNat_lt x; simp only [intU8]; omega
  case u16 => have := UInt16.toNat_lt x; simp only [intU16]; omega
  case u32 => have := UInt32.toNat_lt x; simp only [intU32]; omega

private theorem toInt32_cond (i : Int32) :
    i.toInt = if 2 * i.toUInt32.toNat < 2 ^ 32 then (i.toUInt32.toNat : Int)
      else (i.toUInt32.toNat : Int) - 2 ^ 32 := by
  have := BitVec.toInt_eq_toNat_cond i.toBitVec
  exact_mod_cast this

private theorem toInt64_cond (i : Int64) :
    i.toInt = if 2 * i.toUInt64.toNat < 2 ^ 64 then (i.toUInt64.toNat : Int)
      else (i.toUInt64.toNat : Int) - 2 ^ 64 := by
  have := BitVec.toInt_eq_toNat_cond i.toBitVec
  exact_mod_cast this

/-- **C41** (partial).  An integer that fits in the field's type is read as that number.
Missing: one that does not fit should be an error, `int_out_of_range_violated`. -/
theorem int_in_range_partial (parse : String → Option (Vector UInt8 16)) {t : FieldTy}
    {I : IntType t} (hI : IsIntType I) (v : SqlVal) (hty : v.sqltype = some t.sqltype) (n : Int)
    (hn : intOf v = some n) (hlo : I.lo ≤ n) (hhi : n ≤ I.hi) :
    ∃ x, t.fromSql parse v = .ok x ∧ I.num x = n := by
  cases hI <;> cases v <;> first | (cases hty; done) | skip
  all_goals
    simp only [intOf, Option.some.injEq] at hn
    subst hn
  case i32.int i => exact ⟨i, rfl, rfl⟩
  case i64.bigInt i => exact ⟨i, rfl, rfl⟩
  case i8.int i =>
    refine ⟨_, rfl, ?_⟩
    simp only [intI8] at *
    rw [Int32.toInt_toInt8]
    exact Int.bmod_eq_of_le (by omega) (by omega)
  case i16.int i =>
    refine ⟨_, rfl, ?_⟩
    simp only [intI16] at *
    rw [Int32.toInt_toInt16]
    exact Int.bmod_eq_of_le (by omega) (by omega)
  case u8.int i =>
    refine ⟨_, rfl, ?_⟩
    have := toInt32_cond i
    have h2 := i.toUInt32.toNat_lt
    simp only [intU8, UInt32.toNat_toUInt8] at *
    split at this <;> omega
  case u16.int i =>
    refine ⟨_, rfl, ?_⟩
    have := toInt32_cond i
    have h2 := i.toUInt32.toNat_lt
    simp only [intU16, UInt32.toNat_toUInt16] at *
    split at this <;> omega
  case u32.bigInt i =>
    refine ⟨_, rfl, ?_⟩
    have := toInt64_cond i
    have h2 := i.toUInt64.toNat_lt
    simp only [intU32, UInt64.toNat_toUInt32] at *
    split at this <;> omega

/-- **C41 fails**: no integer field type reports a number that does not fit.  Whenever a stored
integer of the field's column type is out of the field's range, reading succeeds with
a different number. -/
theorem int_out_of_range_violated (parse : String → Option (Vector UInt8 16)) {t : FieldTy}
    {I : IntType t} (hI : IsIntType I) (v : SqlVal) (hty : v.sqltype = some t.sqltype) (n : Int)
    (hn : intOf v = some n) (hout : n < I.lo ∨ I.hi < n) :
    ∃ x, t.fromSql parse v = .ok x ∧ I.num x ≠ n := by
  have hr := int_range hI
  cases hI <;> cases v <;> first | (cases hty; done) | skip
  all_goals
    refine ⟨_, rfl, fun h => ?_⟩
    have hb := h ▸ hr _
    omega

/-- 300 in an `u8` field is read as 44. -/
example (parse) : FieldTy.u8.fromSql parse (.int 300) = .ok (44 : UInt8) := by
  simp only [FieldTy.fromSql]; decide
example : IsIntType intU8 ∧ (SqlVal.int 300).sqltype = some FieldTy.u8.sqltype ∧
    intOf (.int 300) = some 300 ∧ intU8.hi < 300 := ⟨.u8, rfl, by decide, by decide⟩
example : intOf (.int 200) = some 200 ∧ intU8.lo ≤ 200 ∧ 200 ≤ intU8.hi := by decide

/-- A database value that is not an integer of the column's kind is an error. -/
theorem int_wrong_kind (parse : String → Option (Vector UInt8 16)) {t : FieldTy}
    {I : IntType t} (hI : IsIntType I) (v : SqlVal) (hty : v.sqltype ≠ some t.sqltype) :
    t.fromSql parse v = .err .cannotConvert := by
  cases hI <;> cases v <;> first
    | rfl
    | exact absurd rfl hty

example : (SqlVal.text "7").sqltype ≠ some FieldTy.i32.sqltype := by decide

/-! ### C42: SQLite storage -/

/-- **C42** (partial).  A value of the column's type, or NULL, bound to a statement and stored in
a column of the declared SQLite type, is read back as the same value.  Missing: NaN
(`sqlite_nan_violated`) and custom types, which SQLite does not support
(`sqlite_custom_rejected`). -/
theorem sqlite_round_trip_partial (c : TextCodecs) (hc : Faithful c) (v : SqlVal) (ty : SqlType)
    (hty : v = .null ∨ v.sqltype = some ty) (hcustom : ∀ n, ty ≠ .custom n) (hnan : ¬ IsNaN v) :
    ∃ name a, sqliteType ty = some name ∧ toSqlite c v = .ok a ∧
      (∃ b, ColumnHolds name a b) ∧
      ∀ b, ColumnHolds name a b → ∃ v', fromSqlite c b ty = .ok v' ∧ SameVal v v' := by
  have hreal : ∀ r : F64, r.isNaN = false → r.eq r = true := by
    intro r h; simp [F64.eq, h]
  cases v
  case null =>
    cases ty
    case custom n => exact absurd rfl (hcustom n)
    all_goals
      exact ⟨_, _, rfl, rfl, ⟨_, .null⟩, fun b hb => by cases hb; exact ⟨_, rfl, .inl rfl⟩⟩
  all_goals
    simp only [SqlVal.sqltype, reduceCtorEq, Option.some.injEq, false_or] at hty
    subst hty
  case bool x =>
    exact ⟨_, _, rfl, rfl, ⟨_, .integer _⟩, fun b hb => by
      cases hb; exact ⟨.bool x, by cases x <;> rfl, .inl rfl⟩⟩
  case int i =>
    refine ⟨_, _, rfl, rfl, ⟨_, .integer _⟩, fun b hb => ?_⟩
    cases hb
    refine ⟨.int i, ?_, .inl rfl⟩
    show Conv.ok (SqlVal.int i.toInt64.toInt32) = _
    rw [Int32.toInt32_toInt64]
  case bigInt i =>
    exact ⟨_, _, rfl, rfl, ⟨_, .integer _⟩, fun b hb => by cases hb; exact ⟨_, rfl, .inl rfl⟩⟩
  case real r =>
    have hr : r.isNaN = false := by simpa [IsNaN] using hnan
    refine ⟨_, _, rfl, rfl, ⟨_, .real r r (hreal r hr)⟩, fun b hb => ?_⟩
    cases hb
    case nan h => rw [hr] at h; cases h
    case real r' h => exact ⟨_, rfl, .inr ⟨_, _, rfl, rfl, h⟩⟩
  case text s =>
    exact ⟨_, _, rfl, rfl, ⟨_, .text _⟩, fun b hb => by cases hb; exact ⟨_, rfl, .inl rfl⟩⟩
  case blob s =>
    exact ⟨_, _, rfl, rfl, ⟨_, .blob _⟩, fun b hb => by cases hb; exact ⟨_, rfl, .inl rfl⟩⟩
  case json s =>
    refine ⟨_, _, rfl, rfl, ⟨_, .text _⟩, fun b hb => ?_⟩
    cases hb
    exact ⟨.json s, by simp [fromSqlite, SqliteVal.asStr, Conv.bind, hc.json, parsed], .inl rfl⟩
  case date s =>
    refine ⟨_, _, rfl, rfl, ⟨_, .text _⟩, fun b hb => ?_⟩
    cases hb
    exact ⟨.date s, by simp [fromSqlite, SqliteVal.asStr, Conv.bind, hc.date, parsed], .inl rfl⟩
  case timestamp s =>
    refine ⟨_, _, rfl, rfl, ⟨_, .text _⟩, fun b hb => ?_⟩
    cases hb
    exact ⟨.timestamp s, by simp [fromSqlite, SqliteVal.asStr, Conv.bind, hc.timestamp, parsed],
      .inl rfl⟩
  case custom n d => exact absurd rfl (hcustom n)

/-- **C42 fails for NaN**: it is read back as NULL. -/
theorem sqlite_nan_violated (c : TextCodecs) (r : F64) (hr : r.isNaN = true) :
    ∃ name a b, sqliteType .real = some name ∧ toSqlite c (.real r) = .ok a ∧
      ColumnHolds name a b ∧ fromSqlite c b .real = .ok .null :=
  ⟨_, _, _, rfl, rfl, .nan r hr, rfl⟩

/-- A custom value panics when it is bound, and a custom column is an error when it is read. -/
theorem sqlite_custom_rejected (c : TextCodecs) (n : String) (d : List UInt8) (b : SqliteVal)
    (hb : b ≠ .null) :
    toSqlite c (.custom n d) = .panic ∧ fromSqlite c b (.custom n) = .err .custom :=
  ⟨rfl, by simp [fromSqlite, hb]⟩

/-- Every integer but 0 is read as true in a column of truth values. -/
theorem sqlite_bool_nonzero (c : TextCodecs) (i : Int64) :
    fromSqlite c (.integer i) .bool = .ok (.bool (decide (i ≠ 0))) := by
  simp [fromSqlite, SqliteVal.asI64, Conv.bind]

/-- **C41 also fails in the SQLite backend**: an integer of more than 32 bits in a column declared
`Int` is read, without an error, as another number.  One that fits is read as it is. -/
theorem sqlite_int_violated (c : TextCodecs) (i : Int64) :
    ∃ j, fromSqlite c (.integer i) .int = .ok (.int j) ∧
      (j.toInt = i.toInt ↔ -2147483648 ≤ i.toInt ∧ i.toInt ≤ 2147483647) := by
  refine ⟨i.toInt32, rfl, ?_, ?_⟩
  · intro h
    rw [← h]
    exact ⟨Int32.le_toInt _, Int32.toInt_le _⟩
  · intro ⟨h1, h2⟩
    rw [Int64.toInt_toInt32]
    exact Int.bmod_eq_of_le (by omega) (by omega)

/-- A value of the wrong storage class is an error. -/
theorem sqlite_wrong_class (c : TextCodecs) (b : SqliteVal) (ty : SqlType) (v : SqlVal)
    (h : fromSqlite c b ty = .ok v) (hb : b ≠ .null) :
    v.sqltype = some ty ∧
      match b with
      | .null => False
      | .integer _ => sqliteType ty = some .integer
      | .real _ => sqliteType ty = some .real
      | .text _ => sqliteType ty = some .text
      | .blob _ => sqliteType ty = some .blob := by
  simp only [fromSqlite, if_neg hb] at h
  cases b <;> cases ty <;>
    simp only [SqliteVal.asI64, SqliteVal.asF64, SqliteVal.asStr, SqliteVal.asBlob, Conv.bind,
      reduceCtorEq] at h
  all_goals first
    | (cases h; exact ⟨rfl, rfl⟩)
    | exact absurd rfl hb
    | (rename_i s _
       first
       | (cases hp : c.parseJson s <;> rw [hp] at h <;> simp only [parsed] at h <;> cases h
          exact ⟨rfl, rfl⟩)
       | (cases hp : c.parseDate s <;> rw [hp] at h <;> simp only [parsed] at h <;> cases h
          exact ⟨rfl, rfl⟩)
       | (cases hp : c.parseTimestamp s <;> rw [hp] at h <;> simp only [parsed] at h <;> cases h
          exact ⟨rfl, rfl⟩))

/-- A number as a text: a sign and as many letters. -/
def exPrint : Int → String
  | .ofNat n => String.ofList (List.replicate n 'x')
  | .negSucc n => String.ofList ('-' :: List.replicate n 'x')
/-- The inverse of `exPrint`. -/
def exParse (s : String) : Option Int :=
  match s.toList with
  | '-' :: cs => some (.negSucc cs.length)
  | cs => some (.ofNat cs.length)
theorem exParse_print (d : Int) : exParse (exPrint d) = some d := by
  cases d with
  | negSucc n => simp [exParse, exPrint]
  | ofNat n => cases n <;> simp [exParse, exPrint, List.replicate_succ]

/-- Printers and parsers that are inverse to each other, to show that the hypothesis can be
met. -/
def exCodecs : TextCodecs where
  printJson := id
  parseJson := some
  printDate := exPrint
  parseDate := exParse
  printTimestamp := exPrint
  parseTimestamp := exParse

example : Faithful exCodecs := ⟨fun _ => rfl, exParse_print, exParse_print⟩
example : ¬ IsNaN (.real ⟨0x3ff0000000000000⟩) := by simp only [IsNaN]; decide
example : F64.isNaN ⟨0x7ff8000000000000⟩ = true := by decide

/-! ### C44: enums -/

/-- **C44**.  A derived enum without data stores each variant as its own text, two variants as
different texts, and reads the text of a variant as that variant; any other text is an
error. -/
theorem enum_fields (parse : String → Option (Vector UInt8 16)) (variants : List (String × Bool))
    (j : JsonType) (hunit : ∀ v ∈ variants, v.2 = false) (hnames : (variants.map (·.1)).Nodup) :
    ∃ names : List String, derivedType (.enum_ variants j) = .enum_ names ∧
      names = variants.map (·.1) ∧
      (∀ i : Fin names.length, ∃ s, (FieldTy.enum_ names).toSql i = .ok (.text s) ∧
        (FieldTy.enum_ names).fromSql parse (.text s) = .ok i) ∧
      (∀ i k : Fin names.length, (FieldTy.enum_ names).toSql i = (FieldTy.enum_ names).toSql k →
        i = k) ∧
      (∀ s, (∀ i, (FieldTy.enum_ names).toSql i ≠ .ok (.text s)) →
        (FieldTy.enum_ names).fromSql parse (.text s) = .err .unknownVariant) ∧
      (∀ v, (∀ s, v ≠ .text s) → (FieldTy.enum_ names).fromSql parse v = .err .cannotConvert) := by
  refine ⟨variants.map (·.1), ?_, rfl, ?_, ?_, ?_, ?_⟩
  · have : variants.any (·.2) = false := by
      simp only [List.any_eq_false]
      intro v hv
      simp [hunit v hv]
    simp [derivedType, this]
  · intro i
    exact ⟨_, rfl, by simp only [FieldTy.fromSql, FieldTy.variantOf_get _ hnames i]⟩
  · intro i k h
    simp only [FieldTy.toSql, Conv.ok.injEq, SqlVal.text.injEq] at h
    have h1 := FieldTy.variantOf_get _ hnames i
    rw [h, FieldTy.variantOf_get _ hnames k] at h1
    exact (Option.some.inj h1).symm
  · intro s hs
    have : FieldTy.variantOf (variants.map (·.1)) s = none := by
      rw [FieldTy.variantOf_none]
      intro hmem
      obtain ⟨i, hi⟩ := List.get_of_mem hmem
      exact hs i (by simp only [FieldTy.toSql, hi])
    simp only [FieldTy.fromSql, this]
  · intro v hv
    cases v <;> first
      | rfl
      | exact absurd rfl (hv _)

/-- An enum in which some variant carries data is stored as JSON. -/
theorem enum_with_data (variants : List (String × Bool)) (j : JsonType)
    (h : ∃ v ∈ variants, v.2 = true) : derivedType (.enum_ variants j) = .json j := by
  have : variants.any (·.2) = true := by simpa using h
  simp [derivedType, this]

/-- A derived struct of one field of a primitive type is stored as that field. -/
theorem newtype_fields (t : FieldTy) (j : JsonType)
    (ht : t.isPrimitive = true) :
    ∃ u, derivedType (.tupleStruct [t] j) = .newtype u ∧ u = t ∧
      (FieldTy.newtype u).sqltype = t.sqltype := by
  refine ⟨t, ?_, rfl, rfl⟩
  simp [derivedType, ht]

example : ∀ v ∈ [("Red", false), ("Green", false)], v.2 = false := by decide
example : ([("Red", false), ("Green", false)].map (·.1)).Nodup := by decide

end Butane.Props
