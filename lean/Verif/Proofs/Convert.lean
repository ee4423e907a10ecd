/-
Facts about the conversion of floats, enums and byte strings.
-/
import Verif.Spec.Convert

namespace Butane

theorem roundShift_exact (q k : Nat) : roundShift (q * 2 ^ k) k = q := by
  have h : 0 < 2 ^ k := Nat.two_pow_pos k
  unfold roundShift
  simp only [Nat.mul_div_cancel _ h, Nat.mul_mod_left]
  rw [if_neg]
  omega

/-- The parts of a 64-bit pattern put together from parts. -/
theorem parts64 {s e m : Nat} (hs : s < 2) (he : e < 2 ^ 11) (hm : m < 2 ^ 52) :
    (UInt64.ofNat (s * 2 ^ 63 + (e * 2 ^ 52 + m))).toNat / 2 ^ 63 = s ∧
    (UInt64.ofNat (s * 2 ^ 63 + (e * 2 ^ 52 + m))).toNat / 2 ^ 52 % 2 ^ 11 = e ∧
    (UInt64.ofNat (s * 2 ^ 63 + (e * 2 ^ 52 + m))).toNat % 2 ^ 52 = m := by
  rw [UInt64.toNat_ofNat_of_lt' (by show _ < 2 ^ 64; omega)]
  omega

/-- `narrow` of a pattern put together from parts. -/
theorem F64.narrow_parts {s e m : Nat} (hs : s < 2) (he : e < 2 ^ 11) (hm : m < 2 ^ 52) :
    F64.narrow ⟨UInt64.ofNat (s * 2 ^ 63 + (e * 2 ^ 52 + m))⟩ =
      ⟨UInt32.ofNat (s * 2 ^ 31 +
        if e = 2047 then if m = 0 then 255 * 2 ^ 23 else 255 * 2 ^ 23 + 2 ^ 22
        else if 897 ≤ e then min ((e - 896) * 2 ^ 23 + roundShift m 29) (255 * 2 ^ 23)
        else if e = 0 then roundShift m 925
        else roundShift (m + 2 ^ 52) (926 - e))⟩ := by
  obtain ⟨h1, h2, h3⟩ := parts64 hs he hm
  simp only [F64.narrow, h1, h2, h3]

/-- `widen` by parts. -/
theorem F32.widen_parts (b : UInt32) :
    ∃ s e m : Nat, s < 2 ∧ e < 2 ^ 8 ∧ m < 2 ^ 23 ∧ b.toNat = s * 2 ^ 31 + (e * 2 ^ 23 + m) ∧
      e = b.toNat / 2 ^ 23 % 2 ^ 8 ∧ m = b.toNat % 2 ^ 23 ∧
      ∃ E M : Nat, E < 2 ^ 11 ∧ M < 2 ^ 52 ∧
        F32.widen ⟨b⟩ = ⟨UInt64.ofNat (s * 2 ^ 63 + (E * 2 ^ 52 + M))⟩ ∧
        ((e = 255 ∧ E = 2047 ∧ M = m * 2 ^ 29) ∨ (e = 0 ∧ m = 0 ∧ E = 0 ∧ M = 0) ∨
         (e = 0 ∧ m ≠ 0 ∧ E = Nat.log2 m + 874 ∧ Nat.log2 m < 23 ∧
            M + 2 ^ 52 = m * 2 ^ (52 - Nat.log2 m)) ∨
         (e ≠ 0 ∧ e ≠ 255 ∧ E = e + 896 ∧ M = m * 2 ^ 29)) := by
  have hb : b.toNat < 2 ^ 32 := b.toNat_lt
  refine ⟨b.toNat / 2 ^ 31, b.toNat / 2 ^ 23 % 2 ^ 8, b.toNat % 2 ^ 23, by omega, by omega,
    by omega, by omega, rfl, rfl, ?_⟩
  unfold F32.widen
  dsimp only
  by_cases h1 : b.toNat / 2 ^ 23 % 2 ^ 8 = 255
  · exact ⟨2047, b.toNat % 2 ^ 23 * 2 ^ 29, by omega, by omega, by simp only [h1, ↓reduceIte], .inl ⟨h1, rfl, rfl⟩⟩
  · by_cases h0 : b.toNat / 2 ^ 23 % 2 ^ 8 = 0
    · by_cases hm : b.toNat % 2 ^ 23 = 0
      · exact ⟨0, 0, by omega, by omega, by rw [if_neg h1, if_pos h0, if_pos hm], .inr (.inl ⟨h0, hm, rfl, rfl⟩)⟩
      · have hlt : b.toNat % 2 ^ 23 < 2 ^ 23 := Nat.mod_lt _ (by omega)
        have hlog : Nat.log2 (b.toNat % 2 ^ 23) < 23 := (Nat.log2_lt hm).2 hlt
        generalize b.toNat % 2 ^ 23 = m at *
        have hle : 2 ^ Nat.log2 m ≤ m := Nat.log2_self_le hm
        have hsucc : m < 2 ^ (Nat.log2 m + 1) := Nat.lt_log2_self
        have hpow : (2 : Nat) ^ Nat.log2 m * 2 ^ (52 - Nat.log2 m) = 2 ^ 52 := by
          rw [← Nat.pow_add]; congr 1; omega
        have hM : (m - 2 ^ Nat.log2 m) * 2 ^ (52 - Nat.log2 m) + 2 ^ 52 =
            m * 2 ^ (52 - Nat.log2 m) := by
          rw [Nat.sub_mul, hpow, Nat.sub_add_cancel]
          rw [← hpow]; exact Nat.mul_le_mul_right _ hle
        have hlt' : m * 2 ^ (52 - Nat.log2 m) < 2 ^ 53 := by
          calc m * 2 ^ (52 - Nat.log2 m) < 2 ^ (Nat.log2 m + 1) * 2 ^ (52 - Nat.log2 m) :=
                Nat.mul_lt_mul_of_pos_right hsucc (Nat.two_pow_pos _)
            _ = 2 ^ 53 := by rw [← Nat.pow_add]; congr 1; omega
        exact ⟨Nat.log2 m + 874, (m - 2 ^ Nat.log2 m) * 2 ^ (52 - Nat.log2 m), by omega, by omega,
          by rw [if_neg h1, if_pos h0, if_neg hm], .inr (.inr (.inl ⟨h0, hm, rfl, hlog, hM⟩))⟩
    · exact ⟨b.toNat / 2 ^ 23 % 2 ^ 8 + 896, b.toNat % 2 ^ 23 * 2 ^ 29, by omega, by omega,
        by simp only [h1, h0, ↓reduceIte], .inr (.inr (.inr ⟨h0, h1, rfl, rfl⟩))⟩

theorem F32.isNaN_iff (b : UInt32) :
    (F32.mk b).isNaN = true ↔ b.toNat / 2 ^ 23 % 2 ^ 8 = 255 ∧ b.toNat % 2 ^ 23 ≠ 0 := by
  have hb : b.toNat < 2 ^ 32 := b.toNat_lt
  simp only [F32.isNaN, decide_eq_true_eq, gt_iff_lt, UInt32.lt_iff_toNat_lt, UInt32.toNat_and]
  have : b.toNat &&& (0x7fffffff : UInt32).toNat = b.toNat % 2 ^ 31 :=
    Nat.and_two_pow_sub_one_eq_mod b.toNat 31
  rw [this]
  show (0x7f800000 : Nat) < _ ↔ _
  omega

theorem F64.isNaN_iff (b : UInt64) :
    (F64.mk b).isNaN = true ↔ b.toNat / 2 ^ 52 % 2 ^ 11 = 2047 ∧ b.toNat % 2 ^ 52 ≠ 0 := by
  have hb : b.toNat < 2 ^ 64 := b.toNat_lt
  simp only [F64.isNaN, decide_eq_true_eq, gt_iff_lt, UInt64.lt_iff_toNat_lt, UInt64.toNat_and]
  have : b.toNat &&& (0x7fffffffffffffff : UInt64).toNat = b.toNat % 2 ^ 63 :=
    Nat.and_two_pow_sub_one_eq_mod b.toNat 63
  rw [this]
  show (0x7ff0000000000000 : Nat) < _ ↔ _
  omega

theorem F64.isZero_iff (b : UInt64) : (F64.mk b).isZero = true ↔ b.toNat % 2 ^ 63 = 0 := by
  have : b.toNat &&& (0x7fffffffffffffff : UInt64).toNat = b.toNat % 2 ^ 63 :=
    Nat.and_two_pow_sub_one_eq_mod b.toNat 63
  simp only [F64.isZero, beq_iff_eq, ← UInt64.toNat_inj, UInt64.toNat_and, this]
  rfl

theorem F32.narrow_widen (x : F32) (h : x.isNaN = false) : x.widen.narrow = x := by
  obtain ⟨b⟩ := x
  have hnan : ¬ _ := fun hn => by
    have := (F32.isNaN_iff b).2 hn
    rw [this] at h
    cases h
  obtain ⟨s, e, m, hs, he, hm, hb, he', hm', E, M, hE, hM, hw, hcase⟩ := F32.widen_parts b
  rw [hw, F64.narrow_parts hs hE hM]
  rw [← he', ← hm'] at hnan
  congr 1
  suffices hh : s * 2 ^ 31 + (if E = 2047 then if M = 0 then 255 * 2 ^ 23 else 255 * 2 ^ 23 + 2 ^ 22
        else if 897 ≤ E then min ((E - 896) * 2 ^ 23 + roundShift M 29) (255 * 2 ^ 23)
        else if E = 0 then roundShift M 925
        else roundShift (M + 2 ^ 52) (926 - E)) = b.toNat by
    rw [hh]; exact UInt32.ofNat_toNat
  rw [hb]
  congr 1
  rcases hcase with ⟨h1, h2, h3⟩ | ⟨h1, h2, h3, h4⟩ | ⟨h1, h2, h3, h4, h5⟩ | ⟨h1, h2, h3, h4⟩
  · have : m = 0 := by omega
    subst this h2 h3
    simp [h1]
  · subst h1 h2 h3 h4
    have := roundShift_exact 0 925
    simp only [Nat.zero_mul] at this
    simp [this]
  · rw [if_neg (by omega), if_neg (by omega), if_neg (by omega), h5, h3]
    have : 926 - (Nat.log2 m + 874) = 52 - Nat.log2 m := by omega
    rw [this, roundShift_exact, h1]
    simp
  · rw [if_neg (by omega), if_pos (by omega), h4, roundShift_exact, h3]
    omega

/-- A NaN stays a NaN. -/
theorem F32.nan_narrow_widen (x : F32) (h : x.isNaN = true) : x.widen.narrow.isNaN = true := by
  obtain ⟨b⟩ := x
  have hn := (F32.isNaN_iff b).1 h
  obtain ⟨s, e, m, hs, he, hm, hb, he', hm', E, M, hE, hM, hw, hcase⟩ := F32.widen_parts b
  rw [hw, F64.narrow_parts hs hE hM, F32.isNaN_iff]
  rw [← he', ← hm'] at hn
  have hEM : E = 2047 ∧ M ≠ 0 := by omega
  rw [if_pos hEM.1, if_neg hEM.2, UInt32.toNat_ofNat_of_lt' (by show _ < 2 ^ 32; omega)]
  omega

theorem F32.widen_isNaN (x : F32) : x.widen.isNaN = x.isNaN := by
  obtain ⟨b⟩ := x
  obtain ⟨s, e, m, hs, he, hm, hb, he', hm', E, M, hE, hM, hw, hcase⟩ := F32.widen_parts b
  rw [Bool.eq_iff_iff, hw, F64.isNaN_iff, F32.isNaN_iff, ← he', ← hm']
  obtain ⟨-, h2, h3⟩ := parts64 hs hE hM
  rw [h2, h3]
  omega

namespace FieldTy

theorem variantOf_eq : ∀ (vs : List String) (s : String) (i : Fin vs.length),
    variantOf vs s = some i → vs.get i = s
  | [], _, i, _ => i.elim0
  | v :: vs, s, i, h => by
    simp only [variantOf] at h
    split at h
    · rename_i hv
      cases h
      exact hv
    · simp only [Option.map_eq_some_iff] at h
      obtain ⟨j, hj, rfl⟩ := h
      exact variantOf_eq vs s j hj

theorem variantOf_none (vs : List String) (s : String) : variantOf vs s = none ↔ s ∉ vs := by
  induction vs with
  | nil => simp [variantOf]
  | cons v vs ih =>
    simp only [variantOf]
    split
    · rename_i hv
      simp [hv]
    · rename_i hv
      have hv' : ¬ s = v := fun h => hv h.symm
      simp [ih, hv']

theorem variantOf_get (vs : List String) (hnd : vs.Nodup) (i : Fin vs.length) :
    variantOf vs (vs.get i) = some i := by
  cases h : variantOf vs (vs.get i) with
  | none => exact absurd (List.get_mem vs i) ((variantOf_none vs _).1 h)
  | some j =>
    have := variantOf_eq vs _ j h
    have hji : j.1 = i.1 := (List.getElem?_inj j.2 hnd).1 (by
      simp only [List.get_eq_getElem] at this
      rw [List.getElem?_eq_getElem j.2, List.getElem?_eq_getElem i.2, this])
    rw [Fin.ext hji]

theorem uuidFromSlice_toList (u : Vector UInt8 16) : uuidFromSlice u.toList = some u := by
  have : u.toList.length = 16 := by simp
  simp [uuidFromSlice, ← Vector.toArray_toList] 

end FieldTy
end Butane
