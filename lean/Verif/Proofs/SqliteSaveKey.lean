/-
The key of a new object.
-/
import Verif.Proofs.SqliteSave

namespace Butane
open Butane.Ddl Butane.DdlP Spec

/-- A key SQLite made, in a field it fits in. -/
theorem new_key {t : FieldTy} {I : IntType t} (hI : IsIntType I) {c : TextCodecs}
    (parse : String → Option (Vector UInt8 16)) {j : Int64} (hlo : I.lo ≤ j.toInt) (hhi : j.toInt ≤ I.hi) :
    ∃ w y v, fromSqlite c (.integer j) t.sqltype = .ok w ∧ t.fromSql parse w = .ok y ∧
      t.toSql y = .ok v ∧ toSqlite c v = .ok (.integer j) ∧ v.sqltype = some t.sqltype ∧
      sqliteType t.sqltype = some .integer := by
  have h32 : ∀ i : Int64, -2147483648 ≤ i.toInt → i.toInt ≤ 2147483647 → i.toInt32.toInt = i.toInt := by
    intro i h1 h2
    rw [Int64.toInt_toInt32]
    exact Int.bmod_eq_of_le (by omega) (by omega)
  obtain ⟨w, h1, h2, h3⟩ : ∃ w, fromSqlite c (.integer j) t.sqltype = .ok w ∧
      w.sqltype = some t.sqltype ∧ intOf w = some j.toInt := by
    cases hI
    case i64 => exact ⟨_, rfl, rfl, rfl⟩
    case u32 => exact ⟨_, rfl, rfl, rfl⟩
    all_goals
      refine ⟨.int j.toInt32, rfl, rfl, ?_⟩
      simp only [intOf, Option.some.injEq]
      simp only [intI8, intU8, intI16, intU16, intI32] at hlo hhi
      exact h32 j (by omega) (by omega)
  obtain ⟨y, h4, h5⟩ := Props.int_in_range_partial parse hI w h2 _ h3 hlo hhi
  refine ⟨w, y, ?_⟩
  cases hI
  case i64 =>
    refine ⟨.bigInt y, h1, h4, rfl, ?_, rfl, rfl⟩
    simp only [toSqlite, Conv.ok.injEq, SqliteVal.integer.injEq]
    exact Int64.toInt_inj.1 h5
  case u32 =>
    refine ⟨_, h1, h4, rfl, ?_, rfl, rfl⟩
    simp only [toSqlite, Conv.ok.injEq, SqliteVal.integer.injEq]
    refine Int64.toInt_inj.1 ?_
    rw [← h5]
    simp only [intU32]
    have := UInt32.toNat_lt y
    have h6 : (Int64.toBitVec ⟨UInt32.toUInt64 y⟩).toNat = UInt32.toNat y := UInt32.toNat_toUInt64 y
    simp only [Int64.toInt, UInt64.toInt64, BitVec.toInt_eq_toNat_cond]
    rw [h6, if_pos (by omega)]
  case i32 =>
    refine ⟨.int y, h1, h4, rfl, ?_, rfl, rfl⟩
    simp only [toSqlite, Conv.ok.injEq, SqliteVal.integer.injEq]
    refine Int64.toInt_inj.1 ?_
    rw [← h5, Int32.toInt_toInt64]
    rfl
  case i16 =>
    refine ⟨.int y.toInt32, h1, h4, rfl, ?_, rfl, rfl⟩
    simp only [toSqlite, Conv.ok.injEq, SqliteVal.integer.injEq]
    refine Int64.toInt_inj.1 ?_
    rw [← h5, Int32.toInt_toInt64, Int16.toInt_toInt32]
    rfl
  case i8 =>
    refine ⟨.int y.toInt32, h1, h4, rfl, ?_, rfl, rfl⟩
    simp only [toSqlite, Conv.ok.injEq, SqliteVal.integer.injEq]
    refine Int64.toInt_inj.1 ?_
    rw [← h5, Int32.toInt_toInt64, Int8.toInt_toInt32]
    rfl
  case u16 =>
    refine ⟨_, h1, h4, rfl, ?_, rfl, rfl⟩
    simp only [toSqlite, Conv.ok.injEq, SqliteVal.integer.injEq]
    refine Int64.toInt_inj.1 ?_
    rw [← h5, Int32.toInt_toInt64]
    simp only [intU16]
    have := UInt16.toNat_lt y
    have h6 : (Int32.toBitVec ⟨UInt16.toUInt32 y⟩).toNat = UInt16.toNat y := UInt16.toNat_toUInt32 y
    simp only [Int32.toInt, UInt32.toInt32, BitVec.toInt_eq_toNat_cond]
    rw [h6, if_pos (by omega)]
  case u8 =>
    refine ⟨_, h1, h4, rfl, ?_, rfl, rfl⟩
    simp only [toSqlite, Conv.ok.injEq, SqliteVal.integer.injEq]
    refine Int64.toInt_inj.1 ?_
    rw [← h5, Int32.toInt_toInt64]
    simp only [intU8]
    have := UInt8.toNat_lt y
    have h6 : (Int32.toBitVec ⟨UInt8.toUInt32 y⟩).toNat = UInt8.toNat y := UInt8.toNat_toUInt32 y
    simp only [Int32.toInt, UInt32.toInt32, BitVec.toInt_eq_toNat_cond]
    rw [h6, if_pos (by omega)]

/-- Putting the key into an object without one. -/
theorem initKey_new {parse : String → Option (Vector UInt8 16)} {n : String} {w : SqlVal}
    {t : FieldTy} {y : t.Val} (hw : t.fromSql parse w = .ok y) {v : SqlVal} (hv : t.toSql y = .ok v)
    (hp : Proper t y) (hnan : NoNaNField t y) :
    ∀ {fs : List TField} (o : ObjVals fs), (∀ f ∈ fs, f.isAuto = true → f.name = n) →
    (∃ f ∈ fs, f.name = n ∧ f.ty = some (.autoPk t)) → (fs.map (·.name)).Nodup →
    keyValid n fs o = false → Storable fs o → NoNaNs fs o →
    ∃ o', initKey parse n w fs o = .ok o' ∧ SameButAuto fs o o' ∧ Storable fs o' ∧ NoNaNs fs o' ∧
      keyValid n fs o' = true ∧ keySql n fs o' = .ok v ∧
      ∀ keep, pushValues keep fs o' = pushValues keep fs o
  | [], _, _, ⟨f, hf, _⟩, _, _, _, _ => by cases hf
  | ⟨n', p, ty⟩ :: fs, (x, os), ha, ⟨f, hf, he, hty⟩, hn, hval, hst, hnn => by
    simp only [List.map_cons, List.nodup_cons] at hn
    by_cases e : n' = n
    · have hfe : f = ⟨n', p, ty⟩ := by
        rcases List.mem_cons.1 hf with h | h
        · exact h
        · exact absurd (List.mem_map.2 ⟨f, h, he.trans e.symm⟩) hn.1
      subst hfe
      simp only at hty
      subst hty
      subst e
      simp only [keyValid, ↓reduceIte] at hval
      cases x with
      | some y => simp at hval
      | none =>
        have hsame : SameButAuto fs os os := by
          clear hf ha he hn hval hst hnn
          induction fs with
          | nil => trivial
          | cons g fs ih =>
            obtain ⟨gn, gp, gt⟩ := g
            obtain ⟨z, os⟩ := os
            cases gt with
            | none => exact ⟨rfl, ih os⟩
            | some gt => cases gt <;> first | exact ⟨rfl, ih os⟩ | exact ih os
        refine ⟨(some y, os), ?_, hsame, ⟨?_, hst.2⟩, ⟨?_, hnn.2⟩, ?_, ?_, ?_⟩
        · simp only [initKey, ↓reduceIte, FieldTy.fromSql, hw, Conv.bind]
        · rintro _ ⟨⟩; exact hp
        · rintro _ ⟨⟩; exact hnan
        · simp [keyValid]
        · simp only [keySql, ↓reduceIte]
          exact hv
        · intro keep
          simp [pushValues, TField.isAuto]
    · have hf' : f ∈ fs := by
        rcases List.mem_cons.1 hf with h | h
        · subst h; exact absurd he e
        · exact h
      have hna : (TField.mk n' p ty).isAuto = false := by
        cases hauto : (TField.mk n' p ty).isAuto with
        | false => rfl
        | true => exact absurd (ha _ (List.mem_cons_self ..) hauto) e
      have hval' : keyValid n fs os = false := by
        cases ty with
        | none => simpa only [keyValid, if_neg e] using hval
        | some ty =>
          cases ty <;> simpa only [keyValid, if_neg e] using hval
      have hst' : Storable fs os := by
        cases ty with
        | none => exact hst
        | some ty => cases ty <;> exact hst.2
      have hnn' : NoNaNs fs os := by
        cases ty with
        | none => exact hnn
        | some ty => exact hnn.2
      obtain ⟨os', h1, h2, h3, h4, h5, h6, h7⟩ := initKey_new hw hv hp hnan (n := n) os
        (fun f hf => ha f (List.mem_cons_of_mem _ hf)) ⟨f, hf', he, hty⟩ hn.2 hval' hst' hnn'
      refine ⟨(x, os'), ?_, ?_, ?_, ?_, ?_, ?_, ?_⟩
      · cases ty with
        | none => simp only [initKey, h1, Conv.bind]
        | some ty => cases ty <;> simp only [initKey, h1, Conv.bind, if_neg e]
      · cases ty with
        | none => exact ⟨rfl, h2⟩
        | some ty => cases ty <;> first | exact ⟨rfl, h2⟩ | exact h2
      · cases ty with
        | none => exact h3
        | some ty => cases ty <;> exact ⟨hst.1, h3⟩
      · cases ty with
        | none => exact h4
        | some ty => exact ⟨hnn.1, h4⟩
      · cases ty with
        | none => simpa only [keyValid, if_neg e] using h5
        | some ty => cases ty <;> simpa only [keyValid, if_neg e] using h5
      · cases ty with
        | none => simpa only [keySql] using h6
        | some ty => simpa only [keySql, if_neg e] using h6
      · intro keep
        cases ty with
        | none => simpa only [pushValues] using h7 keep
        | some ty => simp only [pushValues, h7 keep]

end Butane
