/-
C88: comparing keys.

The comparisons are those of Model/KeyCmp.lean and Model/FKey.lean; the laws are in
Spec/KeyCmp.lean.
-/
import Verif.Spec.KeyCmp
import Verif.Props.FKey

namespace Butane.Props
open Butane Spec

variable {K : Type} {c : KeyCmp K}

theorem autopk_eq_iff (a b : Option K) :
    AutoPk.eq c a b = true ↔ ∃ x y, a = some x ∧ b = some y ∧ c.isValid x = true ∧ c.isValid y = true ∧
      c.eq x y = true := by
  cases a with
  | none => simp [AutoPk.eq, AutoPk.isValid]
  | some x =>
    cases b with
    | none => simp [AutoPk.eq, AutoPk.isValid]
    | some y =>
      cases hx : c.isValid x <;> cases hy : c.isValid y <;>
        simp [AutoPk.eq, AutoPk.isValid, hx, hy]

/-- C88: equality of automatic keys is symmetric and transitive, and an automatic key equals
itself exactly when it is initialised: two objects that have not been saved are different, even
an object and itself. -/
theorem autopk_eq_laws (h : OrdLaws c.eq c.cmp) :
    PartialEqLaws (AutoPk.eq c) ∧ ∀ a, AutoPk.eq c a a = AutoPk.isValid c a := by
  refine ⟨⟨fun a b => ?_, fun a b d h1 h2 => ?_⟩, fun a => ?_⟩
  · rw [Bool.eq_iff_iff, autopk_eq_iff, autopk_eq_iff]
    constructor
    · rintro ⟨x, y, rfl, rfl, h1, h2, h3⟩
      exact ⟨y, x, rfl, rfl, h2, h1, h.peq.symm x y ▸ h3⟩
    · rintro ⟨x, y, rfl, rfl, h1, h2, h3⟩
      exact ⟨y, x, rfl, rfl, h2, h1, h.peq.symm x y ▸ h3⟩
  · obtain ⟨x, y, rfl, rfl, h3, h4, h5⟩ := (autopk_eq_iff a b).1 h1
    obtain ⟨_, z, he, rfl, _, h6, h7⟩ := (autopk_eq_iff _ d).1 h2
    cases he
    exact (autopk_eq_iff _ _).2 ⟨x, z, rfl, rfl, h3, h6, h.peq.trans x y z h5 h7⟩
  · rw [Bool.eq_iff_iff, autopk_eq_iff]
    cases a with
    | none => simp [AutoPk.isValid]
    | some x =>
      constructor
      · rintro ⟨_, _, he, _, h1, _⟩
        cases he
        exact h1
      · exact fun h1 => ⟨x, x, rfl, rfl, h1, h1, h.refl x⟩

/-- C88: comparing an automatic key with a plain key agrees with comparing two automatic keys. -/
theorem autopk_eq_key (a : Option K) (k : K) : AutoPk.eqKey c a k = AutoPk.eq c a (some k) := by
  cases a with
  | none => simp [AutoPk.eqKey, AutoPk.eq, AutoPk.isValid]
  | some x => rfl

/-- C88: the order of automatic keys is that of the keys, agrees with equality, and is defined
exactly between initialised keys.  (Every key that is a plain value counts as initialised.) -/
theorem autopk_order (h : OrdLaws c.eq c.cmp) (hv : ∀ k, c.isValid k = true) :
    PartialOrdLaws (AutoPk.eq c) (AutoPk.partialCmp c) ∧
    (∀ a b, AutoPk.partialCmp c a b ≠ none ↔ AutoPk.isValid c a = true ∧ AutoPk.isValid c b = true) ∧
    ∀ x y, AutoPk.partialCmp c (some x) (some y) = some (c.cmp x y) := by
  refine ⟨⟨fun a b => ?_, fun a b => ?_, fun a b d => ?_⟩, fun a b => ?_, fun _ _ => rfl⟩
  · rw [autopk_eq_iff]
    cases a with
    | none => simp [AutoPk.partialCmp]
    | some x =>
      cases b with
      | none => simp [AutoPk.partialCmp]
      | some y =>
        have := h.pord.agrees x y
        constructor
        · rintro ⟨_, _, h1, h2, _, _, h3⟩
          cases h1
          cases h2
          exact this.1 h3
        · exact fun h1 => ⟨x, y, rfl, rfl, hv x, hv y, this.2 h1⟩
  · cases a with
    | none => cases b <;> rfl
    | some x =>
      cases b with
      | none => rfl
      | some y => exact h.pord.dual x y
  · cases a with
    | none => exact fun h1 => nomatch h1
    | some x =>
      cases b with
      | none => exact fun h1 => nomatch h1
      | some y =>
        cases d with
        | none => exact fun _ h1 => nomatch h1
        | some z => exact h.pord.trans x y z
  · cases a with
    | none => simp [AutoPk.partialCmp, AutoPk.isValid]
    | some x =>
      cases b with
      | none => simp [AutoPk.partialCmp, AutoPk.isValid]
      | some y => simp [AutoPk.partialCmp, AutoPk.isValid, hv]

/-- Whole numbers. -/
def i64Cmp : KeyCmp Int where
  eq a b := a == b
  cmp a b := if a < b then .lt else if b < a then .gt else .eq
  isValid _ := true

theorem beq_symm {α : Type} [BEq α] [LawfulBEq α] (a b : α) : (a == b) = (b == a) := by
  rw [Bool.eq_iff_iff, beq_iff_eq, beq_iff_eq]
  exact ⟨Eq.symm, Eq.symm⟩

theorem i64Cmp_laws : OrdLaws i64Cmp.eq i64Cmp.cmp where
  peq := ⟨fun a b => beq_symm a b, fun a b d h1 h2 => by
    simp only [i64Cmp, beq_iff_eq] at *
    exact h1.trans h2⟩
  refl a := by simp [i64Cmp]
  pord :=
    { agrees := fun a b => by
        simp only [i64Cmp, beq_iff_eq, Option.some.injEq]
        by_cases h1 : a < b
        · simp only [h1, if_true]
          exact ⟨fun h => absurd h (by omega), fun h => nomatch h⟩
        · by_cases h2 : b < a
          · simp only [h1, h2, if_true, if_false]
            exact ⟨fun h => absurd h (by omega), fun h => nomatch h⟩
          · simp only [h1, h2, if_false, iff_true]
            omega
      dual := fun a b => by
        simp only [i64Cmp, Option.map_some, Option.some.injEq]
        by_cases h1 : a < b
        · simp [h1, show ¬ b < a by omega]
        · by_cases h2 : b < a <;> simp [h1, h2]
      trans := fun a b d => by
        simp only [i64Cmp, Option.some.injEq]
        intro h1 h2
        have e1 : a < b := by
          by_cases h : a < b
          · exact h
          · rw [if_neg h] at h1; split at h1 <;> cases h1
        have e2 : b < d := by
          by_cases h : b < d
          · exact h
          · rw [if_neg h] at h2; split at h2 <;> cases h2
        rw [if_pos (by omega)] }

example : AutoPk.eq i64Cmp (some 7) (some 7) = true ∧ AutoPk.eq i64Cmp none none = false ∧
    AutoPk.partialCmp i64Cmp (some 7) (some 9) = some .lt ∧ AutoPk.partialCmp i64Cmp none (some 9) = none :=
  ⟨(autopk_eq_laws i64Cmp_laws).2 (some 7), (autopk_eq_laws i64Cmp_laws).2 none, rfl, rfl⟩

/-! ### Foreign keys -/

variable {T : Type} {ops : KeyOps T K}

/-- C88: comparing foreign keys, in any state of loading, compares the keys of the objects that
they refer to; so does comparing an object with a foreign key, from either side.  Comparisons
are symmetric, and a foreign key equals itself.

Partial: the keys must be initialised (`fkey_eq_refl_violated`, `fkey_eq_unsaved_violated`). -/
theorem fkey_cmp_partial {k l : K} {f g : FKey T} (hrt : KeyRoundTrip ops)
    (hf : KeyIs ops k f) (hg : KeyIs ops l g)
    (hfv : ∀ v, f.valpk = some v → ops.toSql k = some v)
    (hgv : ∀ v, g.valpk = some v → ops.toSql l = some v)
    (hk : ops.toSql k ≠ none) (hl : ops.toSql l ≠ none)
    (heq : ∀ a b v w, ops.toSql a = some v → ops.toSql b = some w → v.beq w = ops.eq a b)
    (hsymm : ∀ a b, ops.eq a b = ops.eq b a) (hrefl : ops.eq k k = true) :
    f.eqFk ops g = .ok (ops.eq k l) ∧ g.eqFk ops f = .ok (ops.eq k l) ∧ f.eqFk ops f = .ok true ∧
    ∀ t, ops.pkOf t = l → f.eq ops (ops.pkOf t) = .ok (ops.eq k l) ∧
      FKey.objEq ops t f = .ok (ops.eq k l) := by
  have hpk : ∀ {m : K} {e : FKey T}, KeyIs ops m e → ops.toSql m ≠ none → e.pk ops = .ok m := by
    intro m e he hm
    have := (fStep_refers (o := .pk) hrt hm he (fun _ h => nomatch h)).1
    simpa [fStep, GoodReply] using this
  have h1 := fkey_eq_partial hf hfv hl heq
  refine ⟨?_, ?_, ?_, ?_⟩
  · simp only [FKey.eqFk, hpk hg hl, h1]
  · simp only [FKey.eqFk, hpk hf hk, fkey_eq_partial hg hgv hk heq, hsymm l k]
  · simp only [FKey.eqFk, hpk hf hk, fkey_eq_partial hf hfv hk heq, hrefl]
  · intro t ht
    simp only [FKey.objEq, ht, h1, and_self]

/-- One foreign key holds the blog, the other its key. -/
example : FKey.eqFk blogKey (FKey.ofObj (some 7, "cats")) (FKey.fromSqlRef (.bigInt 7)) = .ok true ∧
    FKey.eqFk blogKey (FKey.fromSqlRef (.bigInt 7)) (FKey.ofObj (some 7, "cats")) = .ok true := by
  obtain ⟨h1, h2, _⟩ := fkey_cmp_partial (ops := blogKey) (k := some 7) (l := some 7) blogKey_roundTrip
    ((fkey_made blogKey_roundTrip).2.1 (some 7, "cats"))
    ((fkey_made blogKey_roundTrip).2.2.2 (.bigInt 7) (some 7) rfl)
    (fun v hv => nomatch hv) (fun v hv => by cases hv; rfl) (by decide) (by decide) blogKey_eq
    (fun a b => by
      cases a with
      | none => cases b <;> rfl
      | some x =>
        cases b with
        | none => rfl
        | some y => exact beq_symm x y) rfl
  exact ⟨h1, h2⟩

/-- C88 is false of a foreign key that holds an object that has not been saved: it does not
equal itself, although `ForeignKey` is `Eq`. -/
theorem fkey_eq_refl_violated :
    FKey.eqFk blogKey (FKey.ofObj (none, "dogs")) (FKey.ofObj (none, "dogs")) = .ok false := rfl

end Butane.Props
