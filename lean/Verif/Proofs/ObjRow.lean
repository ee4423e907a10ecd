/-
Reading and writing typed rows.
-/
import Verif.Props.Convert
import Verif.Spec.ObjRow

namespace Butane
open Spec Props

theorem F64.zero_narrow_widen (r : F64) (h : r.isZero = true) : r.narrow.widen.isZero = true := by
  obtain ⟨b⟩ := r
  rw [F64.isZero_iff] at h
  have hb : b.toNat < 2 ^ 64 := b.toNat_lt
  have hr : roundShift 0 925 = 0 := by simpa using roundShift_exact 0 925
  have h1 : b.toNat / 2 ^ 52 % 2 ^ 11 = 0 := by omega
  have h2 : b.toNat % 2 ^ 52 = 0 := by omega
  have hn : F64.narrow ⟨b⟩ = ⟨UInt32.ofNat (b.toNat / 2 ^ 63 * 2 ^ 31)⟩ := by
    simp [F64.narrow, h1, h2, hr]
  have hs : b.toNat / 2 ^ 63 < 2 := by omega
  obtain ⟨s, e, m, hs', he, hm, hb', he', hm', E, M, hE, hM, hw, hcase⟩ :=
    F32.widen_parts (UInt32.ofNat (b.toNat / 2 ^ 63 * 2 ^ 31))
  rw [UInt32.toNat_ofNat_of_lt' (by show _ < 2 ^ 32; omega)] at hb' he' hm'
  have : e = 0 ∧ m = 0 := by omega
  obtain ⟨rfl, rfl⟩ := this
  have hEM : E = 0 ∧ M = 0 := by omega
  obtain ⟨rfl, rfl⟩ := hEM
  rw [hn, hw, F64.isZero_iff, UInt64.toNat_ofNat_of_lt' (by show _ < 2 ^ 64; omega)]
  omega

theorem F64.zero_not_nan (r : F64) (h : r.isZero = true) : r.isNaN = false := by
  obtain ⟨b⟩ := r
  rw [F64.isZero_iff] at h
  cases hn : F64.isNaN ⟨b⟩ with
  | false => rfl
  | true => rw [F64.isNaN_iff] at hn; omega

/-- Numerically equal reals are read as the same `f32`. -/
theorem F64.narrow_same {r r' : F64} (h : r.eq r' = true) :
    r.narrow = r'.narrow ∨ r.narrow.widen.eq r'.narrow.widen = true := by
  simp only [F64.eq, Bool.and_eq_true, Bool.or_eq_true, beq_iff_eq] at h
  rcases h.2 with h2 | h2
  · left
    obtain ⟨a⟩ := r; obtain ⟨b⟩ := r'
    cases h2
    rfl
  · right
    have h3 := F64.zero_narrow_widen r h2.1
    have h4 := F64.zero_narrow_widen r' h2.2
    simp [F64.eq, h3, h4, F64.zero_not_nan _ h3, F64.zero_not_nan _ h4]

theorem SameField.refl : ∀ (t : FieldTy) (x : t.Val), SameField t x x
  | .f64, x => .inl rfl
  | .f32, x => .inl rfl
  | .newtype t, x => SameField.refl t x
  | .autoPk t, none => trivial
  | .autoPk t, some x => SameField.refl t x
  | .option t, none => trivial
  | .option t, some x => SameField.refl t x
  | .fkey _, x => .inl rfl
  | .bool, _ | .i64, _ | .i32, _ | .u32, _ | .u16, _ | .i16, _ | .u8, _
  | .i8, _ | .string, _ | .bytes, _ | .uuid, _ | .json _, _ | .date, _
  | .timestamp, _ | .dateTimeUtc, _ | .enum_ _, _ => rfl

/-- Reading a value that is the same as another gives the same field value. -/
theorem fromSql_same (parse : String → Option (Vector UInt8 16)) :
    ∀ (t : FieldTy) (v v' : SqlVal) (x : t.Val), t.fromSql parse v = .ok x → SameVal v v' →
      ∃ y, t.fromSql parse v' = .ok y ∧ SameField t x y := by
  intro t
  induction t with
  | newtype t ih => intro v v' x h hs; exact ih v v' x h hs
  | autoPk t ih =>
    intro v v' x h hs
    simp only [FieldTy.fromSql] at h ⊢
    cases ht : t.fromSql parse v with
    | ok a =>
      rw [ht] at h
      cases h
      obtain ⟨y, h1, h2⟩ := ih v v' a ht hs
      exact ⟨some y, by rw [h1]; rfl, h2⟩
    | err e => rw [ht] at h; cases h
    | panic => rw [ht] at h; cases h
  | option t ih =>
    intro v v' x h hs
    rcases hs with rfl | ⟨a, b, rfl, rfl, hab⟩
    · exact ⟨x, h, SameField.refl _ _⟩
    · have ha : ¬ SqlVal.real a = .null := by simp
      have hb : ¬ SqlVal.real b = .null := by simp
      simp only [FieldTy.fromSql, if_neg ha, if_neg hb] at h ⊢
      cases ht : t.fromSql parse (.real a) with
      | ok z =>
        rw [ht] at h
        cases h
        obtain ⟨y, h1, h2⟩ := ih (.real a) (.real b) z ht (.inr ⟨_, _, rfl, rfl, hab⟩)
        exact ⟨some y, by rw [h1]; rfl, h2⟩
      | err e => rw [ht] at h; cases h
      | panic => rw [ht] at h; cases h
  | fkey t _ =>
    intro v v' x h hs
    simp only [FieldTy.fromSql, Conv.ok.injEq] at h
    subst h
    exact ⟨v', rfl, hs⟩
  | f64 =>
    intro v v' x h hs
    rcases hs with rfl | ⟨a, b, rfl, rfl, hab⟩
    · exact ⟨x, h, SameField.refl _ _⟩
    · cases h
      exact ⟨b, rfl, .inr hab⟩
  | f32 =>
    intro v v' x h hs
    rcases hs with rfl | ⟨a, b, rfl, rfl, hab⟩
    · exact ⟨x, h, SameField.refl _ _⟩
    · cases h
      exact ⟨b.narrow, rfl, F64.narrow_same hab⟩
  | _ =>
    intro v v' x h hs
    rcases hs with rfl | ⟨a, b, rfl, rfl, hab⟩
    · exact ⟨x, h, SameField.refl _ _⟩
    · cases h

/-- A field: written, and read as the same value. -/
theorem field_read_same (parse : String → Option (Vector UInt8 16)) (t : FieldTy) (x : t.Val)
    (hp : Proper t x) (v v' : SqlVal) (hv : t.toSql x = .ok v) (hs : SameVal v v') :
    ∃ y, t.fromSql parse v' = .ok y ∧ SameField t x y := by
  obtain ⟨w, h1, h2, -⟩ := field_round_trip_partial parse t x hp
  rw [hv] at h1
  cases h1
  exact fromSql_same parse t v v' x h2 hs

/-- Every column field is read, from the row's column of its name and type, as a value that is
the same as the one it has. -/
def FieldsRead (R : SqlVal → SqlVal → Prop) (G : String × SqlType → Conv SqlVal) :
    (fs : List TField) → ObjVals fs → Prop
  | [], _ => True
  | ⟨_, _, none⟩ :: fs, (_, os) => FieldsRead R G fs os
  | ⟨n, _, some t⟩ :: fs, (x, os) =>
    (∃ v v', t.toSql x = .ok v ∧ G (n, t.sqltype) = .ok v' ∧ R v v') ∧ FieldsRead R G fs os

theorem tcolumns_all_length : ∀ fs : List TField,
    (tcolumns (fun _ => true) fs).length = (fs.filter fun f => f.ty.isSome).length
  | [] => rfl
  | ⟨n, p, none⟩ :: fs => by simp [tcolumns, tcolumns_all_length fs]
  | ⟨n, p, some t⟩ :: fs => by simp [tcolumns, tcolumns_all_length fs]

theorem readFields_same (parse : String → Option (Vector UInt8 16))
    (get : Nat → SqlType → Conv SqlVal) (G : String × SqlType → Conv SqlVal) :
    ∀ (fs : List TField) (o : ObjVals fs) (i : Nat), AllProper fs o →
      (∀ j col, (tcolumns (fun _ => true) fs)[j]? = some col → get (i + j) col.2 = G col) →
      FieldsRead SameVal G fs o →
      ∃ o', readFields parse get fs i = .ok o' ∧ SameFields fs o o'
  | [], _, _, _, _, _ => ⟨(), rfl, trivial⟩
  | ⟨n, p, none⟩ :: fs, (x, os), i, hp, hg, hr => by
    obtain ⟨o', h1, h2⟩ := readFields_same parse get G fs os i hp hg hr
    exact ⟨((), o'), by simp only [readFields, h1, Conv.bind], h2⟩
  | ⟨n, p, some t⟩ :: fs, (x, os), i, hp, hg, hr => by
    obtain ⟨⟨v, v', h1, h2, h3⟩, hr'⟩ := hr
    obtain ⟨y, h4, h5⟩ := field_read_same parse t x hp.1 v v' h1 h3
    obtain ⟨o', h6, h7⟩ := readFields_same parse get G fs os (i + 1) hp.2 (fun j col hj => by
      have := hg (j + 1) col (by simpa [tcolumns] using hj)
      rwa [show i + (j + 1) = i + 1 + j by omega] at this) hr'
    have h0 := hg 0 (n, t.sqltype) (by simp [tcolumns])
    exact ⟨(y, o'), by simp only [readFields, Nat.add_zero] at h0 ⊢; simp only [h0, h2, h4, h6, Conv.bind], h5, h7⟩

theorem readFields_equal (parse : String → Option (Vector UInt8 16))
    (get : Nat → SqlType → Conv SqlVal) (G : String × SqlType → Conv SqlVal) :
    ∀ (fs : List TField) (o : ObjVals fs) (i : Nat), AllProper fs o →
      (∀ j col, (tcolumns (fun _ => true) fs)[j]? = some col → get (i + j) col.2 = G col) →
      FieldsRead Eq G fs o →
      ∃ o', readFields parse get fs i = .ok o' ∧ EqualFields fs o o'
  | [], _, _, _, _, _ => ⟨(), rfl, trivial⟩
  | ⟨n, p, none⟩ :: fs, (x, os), i, hp, hg, hr => by
    obtain ⟨o', h1, h2⟩ := readFields_equal parse get G fs os i hp hg hr
    exact ⟨((), o'), by simp only [readFields, h1, Conv.bind], h2⟩
  | ⟨n, p, some t⟩ :: fs, (x, os), i, hp, hg, hr => by
    obtain ⟨⟨v, v', h1, h2, rfl⟩, hr'⟩ := hr
    obtain ⟨w, h3, h4, -⟩ := field_round_trip_partial parse t x hp.1
    rw [h1] at h3
    cases h3
    obtain ⟨o', h6, h7⟩ := readFields_equal parse get G fs os (i + 1) hp.2 (fun j col hj => by
      have := hg (j + 1) col (by simpa [tcolumns] using hj)
      rwa [show i + (j + 1) = i + 1 + j by omega] at this) hr'
    have h0 := hg 0 (n, t.sqltype) (by simp [tcolumns])
    exact ⟨(x, o'), by simp only [readFields, Nat.add_zero] at h0 ⊢; simp only [h0, h2, h4, h6, Conv.bind], rfl, h7⟩

theorem Conv.bind_ok {α β : Type} {x : Conv α} {f : α → Conv β} {b : β} (h : x.bind f = .ok b) :
    ∃ a, x = .ok a ∧ f a = .ok b := by
  cases x with
  | ok a => exact ⟨a, rfl, h⟩
  | err e => cases h
  | panic => cases h

/-- The written values and the key of the object, put together field by field. -/
theorem fieldsRead_of_holds {Holds : String × SqlType → SqlVal → Prop}
    {R : SqlVal → SqlVal → Prop} {G : String × SqlType → Conv SqlVal}
    {Good : (t : FieldTy) → t.Val → Prop}
    (hgoodAuto : ∀ t (y : t.Val), Good (.autoPk t) (some y) → Good t y)
    (hread : ∀ (t : FieldTy) (x : t.Val) (n : String) (v : SqlVal), Proper t x → Good t x →
      t.toSql x = .ok v → Holds (n, t.sqltype) v → ∃ v', G (n, t.sqltype) = .ok v' ∧ R v v')
    (AllGood : (fs : List TField) → ObjVals fs → Prop)
    (hall : ∀ n p t fs x os, AllGood (⟨n, p, some t⟩ :: fs) (x, os) → Good t x ∧ AllGood fs os)
    (hallMany : ∀ n p fs x os, AllGood (⟨n, p, none⟩ :: fs) (x, os) → AllGood fs os) :
    ∀ (fs : List TField) (o : ObjVals fs) (vals : List SqlVal), AllProper fs o → AllGood fs o →
      pushValues (fun _ => true) fs o = .ok vals →
      AllMatch Holds (tcolumns (fun f => !f.isAuto) fs) vals → AutoHolds Holds fs o →
      FieldsRead R G fs o
  | [], _, _, _, _, _, _, _ => trivial
  | ⟨n, p, none⟩ :: fs, (x, os), vals, hp, hg, hv, hm, ha => by
    have ha' : AutoHolds Holds fs os := ha
    exact fieldsRead_of_holds hgoodAuto hread AllGood hall hallMany fs os vals hp
      (hallMany _ _ _ _ _ hg) hv hm ha'
  | ⟨n, p, some t⟩ :: fs, (x, os), vals, hp, hg, hv, hm, ha => by
    have hg' := hall _ _ _ _ _ _ hg
    by_cases hauto : (TField.mk n p (some t)).isAuto = true
    · cases t with
      | autoPk u =>
        obtain ⟨⟨y, v, rfl, h2, h3⟩, ha'⟩ := ha
        have hp1 : Proper u y := hp.1
        obtain ⟨v', h4, h5⟩ := hread u y n v hp1 (hgoodAuto _ _ hg'.1) h2 h3
        simp only [pushValues, hauto, Bool.not_true, Bool.false_and, Bool.false_eq_true,
          ↓reduceIte] at hv
        simp only [tcolumns, hauto, Bool.not_true, Bool.false_eq_true, ↓reduceIte] at hm
        exact ⟨⟨v, v', h2, h4, h5⟩, fieldsRead_of_holds hgoodAuto hread AllGood hall hallMany fs os vals
          hp.2 hg'.2 hv hm ha'⟩
      | _ => cases hauto
    · have hauto' : (TField.mk n p (some t)).isAuto = false := by simpa using hauto
      have ha' : AutoHolds Holds fs os := by
        cases t
        case autoPk => cases hauto'
        all_goals exact ha
      simp only [pushValues, hauto', Bool.not_false, Bool.and_self, ↓reduceIte] at hv
      obtain ⟨v, h1, hv⟩ := Conv.bind_ok hv
      obtain ⟨vs, h2, hv⟩ := Conv.bind_ok hv
      cases hv
      simp only [tcolumns, hauto', Bool.not_false, ↓reduceIte] at hm
      cases hm with
      | cons hm1 hm2 =>
        obtain ⟨v', h4, h5⟩ := hread t x n v hp.1 hg'.1 h1 hm1
        exact ⟨⟨v, v', h1, h4, h5⟩, fieldsRead_of_holds hgoodAuto hread AllGood hall hallMany fs os vs
          hp.2 hg'.2 h2 hm2 ha'⟩

end Butane
