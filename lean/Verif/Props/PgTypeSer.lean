/-
C89: PostgreSQL types survive being written down.

The conversions are those of Model/PgTypeSer.lean; when two types are the same is in
Spec/PgTypeSer.lean.
-/
import Verif.Spec.PgTypeSer

namespace Butane.Props
open Butane Spec

mutual
theorem pgType_same : ∀ t : PgTy, TypeFree IsMultirange t → ∃ s, t.ser = some s ∧ SameType t s.de
  | .mk b name oid k schema, h => by
    obtain ⟨s, h1, h2⟩ := pgKind_same k h.1 h.2
    exact ⟨.mk name oid s schema, by simp [PgTy.ser, h1], .mk h2⟩
theorem pgKind_same {b : Bool} : ∀ k : PgKind, ¬ IsMultirange b k → KindFree IsMultirange k →
    ∃ s, k.ser = some s ∧ SameKind k s.de
  | .simple, _, _ => ⟨.simple, by rw [PgKind.ser], .simple⟩
  | .enum_ v, _, _ => ⟨.enum_ v, by rw [PgKind.ser], .enum_ v⟩
  | .pseudo, _, _ => ⟨.pseudo, by rw [PgKind.ser], .pseudo⟩
  | .array t, _, h => by
    obtain ⟨s, h1, h2⟩ := pgType_same t h
    exact ⟨.array s, by simp [PgKind.ser, h1], .array h2⟩
  | .range t, _, h => by
    obtain ⟨s, h1, h2⟩ := pgType_same t h
    exact ⟨.range s, by simp [PgKind.ser, h1], .range h2⟩
  | .multirange t, h, _ => absurd ⟨t, rfl⟩ h
  | .domain t, _, h => by
    obtain ⟨s, h1, h2⟩ := pgType_same t h
    exact ⟨.domain s, by simp [PgKind.ser, h1], .domain h2⟩
  | .composite f, _, h => by
    obtain ⟨s, h1, h2⟩ := pgFields_same f h
    exact ⟨.composite s, by simp [PgKind.ser, h1], .composite h2⟩
theorem pgFields_same : ∀ f : PgFields, FieldsFree IsMultirange f → ∃ s, f.ser = some s ∧ SameTyFields f s.de
  | .nil, _ => ⟨.nil, by rw [PgFields.ser], .nil⟩
  | .cons name t f, h => by
    obtain ⟨s, h1, h2⟩ := pgType_same t h.1
    obtain ⟨ss, h3, h4⟩ := pgFields_same f h.2
    exact ⟨.cons name s ss, by simp [PgFields.ser, h1, h3], .cons h2 h4⟩
end

mutual
theorem spgType_back : ∀ s : SPgTy, s.de.ser = some s
  | .mk name oid k schema => by simp [SPgTy.de, PgTy.ser, spgKind_back k]
theorem spgKind_back : ∀ k : SPgKind, k.de.ser = some k
  | .simple => by simp [SPgKind.de, PgKind.ser]
  | .enum_ v => by simp [SPgKind.de, PgKind.ser]
  | .pseudo => by simp [SPgKind.de, PgKind.ser]
  | .array t => by simp [SPgKind.de, PgKind.ser, spgType_back t]
  | .range t => by simp [SPgKind.de, PgKind.ser, spgType_back t]
  | .domain t => by simp [SPgKind.de, PgKind.ser, spgType_back t]
  | .composite f => by simp [SPgKind.de, PgKind.ser, spgFields_back f]
theorem spgFields_back : ∀ f : SPgFields, f.de.ser = some f
  | .nil => by simp [SPgFields.de, PgFields.ser]
  | .cons name t f => by simp [SPgFields.de, PgFields.ser, spgType_back t, spgFields_back f]
end

mutual
theorem pgType_exact : ∀ (t : PgTy) (s : SPgTy), TypeFree IsBuiltin t → t.ser = some s → s.de = t
  | .mk b name oid k schema, s, h, hs => by
    obtain ⟨h1, h2⟩ : ¬ b = true ∧ KindFree IsBuiltin k := h
    cases hk : k.ser with
    | none => simp [PgTy.ser, hk] at hs
    | some k' =>
      simp only [PgTy.ser, hk, Option.some.injEq] at hs
      subst hs
      rw [SPgTy.de, pgKind_exact k k' h2 hk]
      simp [Bool.eq_false_iff.2 h1]
theorem pgKind_exact : ∀ (k : PgKind) (s : SPgKind), KindFree IsBuiltin k → k.ser = some s → s.de = k
  | .simple, s, _, hs => by
    simp only [PgKind.ser, Option.some.injEq] at hs
    subst hs
    rw [SPgKind.de]
  | .enum_ v, s, _, hs => by
    simp only [PgKind.ser, Option.some.injEq] at hs
    subst hs
    rw [SPgKind.de]
  | .pseudo, s, _, hs => by
    simp only [PgKind.ser, Option.some.injEq] at hs
    subst hs
    rw [SPgKind.de]
  | .array t, s, h, hs => by
    cases ht : t.ser with
    | none => simp [PgKind.ser, ht] at hs
    | some t' =>
      simp only [PgKind.ser, ht, Option.some.injEq] at hs
      subst hs
      rw [SPgKind.de, pgType_exact t t' h ht]
  | .range t, s, h, hs => by
    cases ht : t.ser with
    | none => simp [PgKind.ser, ht] at hs
    | some t' =>
      simp only [PgKind.ser, ht, Option.some.injEq] at hs
      subst hs
      rw [SPgKind.de, pgType_exact t t' h ht]
  | .multirange t, s, _, hs => by simp [PgKind.ser] at hs
  | .domain t, s, h, hs => by
    cases ht : t.ser with
    | none => simp [PgKind.ser, ht] at hs
    | some t' =>
      simp only [PgKind.ser, ht, Option.some.injEq] at hs
      subst hs
      rw [SPgKind.de, pgType_exact t t' h ht]
  | .composite f, s, h, hs => by
    cases hf : f.ser with
    | none => simp [PgKind.ser, hf] at hs
    | some f' =>
      simp only [PgKind.ser, hf, Option.some.injEq] at hs
      subst hs
      rw [SPgKind.de, pgFields_exact f f' h hf]
theorem pgFields_exact : ∀ (f : PgFields) (s : SPgFields), FieldsFree IsBuiltin f → f.ser = some s → s.de = f
  | .nil, s, _, hs => by
    simp only [PgFields.ser, Option.some.injEq] at hs
    subst hs
    rw [SPgFields.de]
  | .cons name t f, s, h, hs => by
    cases ht : t.ser with
    | none => simp [PgFields.ser, ht] at hs
    | some t' =>
      cases hf : f.ser with
      | none => simp [PgFields.ser, hf] at hs
      | some f' =>
        simp only [PgFields.ser, ht, hf, Option.some.injEq] at hs
        subst hs
        rw [SPgFields.de, pgType_exact t t' h.1 ht, pgFields_exact f f' h.2 hf]
end

/-- C89: a PostgreSQL type, however nested, is written and read back as a type with the same
name, number, schema and structure; exactly the same one if it has no constant of the library
in it.  Writing what was read gives the same text again.

Partial: multiranges are excluded (`pgtype_multirange_violated`), and constants of the library
are read back as types of their own (`pgtype_builtin_violated`). -/
theorem pgtype_survives_partial (t : PgTy) (h : TypeFree IsMultirange t) :
    ∃ s, t.ser = some s ∧ SameType t s.de ∧ s.de.name = t.name ∧ s.de.ser = some s ∧
      (TypeFree IsBuiltin t → s.de = t) := by
  obtain ⟨s, h1, h2⟩ := pgType_same t h
  refine ⟨s, h1, h2, ?_, spgType_back s, fun hb => pgType_exact t s hb h1⟩
  cases t
  cases hd : s.de
  rw [hd] at h2
  cases h2
  rfl

/-- C89: what has been read once does not change any more. -/
theorem pgtype_stable (s : SPgTy) : ∃ s', s.de.ser = some s' ∧ s'.de = s.de :=
  ⟨s, spgType_back s, rfl⟩

/-- A composite type of a point and a list of colours. -/
def exPgType : PgTy :=
  .mk false "mark" 17000
    (.composite (.cons "at" (.mk true "point" 600 .simple "pg_catalog")
      (.cons "colours" (.mk false "_colour" 17003
        (.array (.mk false "colour" 17002 (.enum_ ["red", "green"]) "public")) "public") .nil))) "public"

theorem exPgType_free : TypeFree IsMultirange exPgType := by
  simp [exPgType, TypeFree, KindFree, FieldsFree, IsMultirange]

example : ∃ s, exPgType.ser = some s ∧ SameType exPgType s.de ∧ s.de.name = "mark" := by
  obtain ⟨s, h1, h2, h3, _⟩ := pgtype_survives_partial exPgType exPgType_free
  exact ⟨s, h1, h2, h3⟩

/-- Without the point nothing changes. -/
example : ∃ s, PgTy.ser (.mk false "_colour" 17003
      (.array (.mk false "colour" 17002 (.enum_ ["red", "green"]) "public")) "public") = some s ∧
    s.de = .mk false "_colour" 17003
      (.array (.mk false "colour" 17002 (.enum_ ["red", "green"]) "public")) "public" := by
  obtain ⟨s, h1, _, _, _, h2⟩ := pgtype_survives_partial (.mk false "_colour" 17003
      (.array (.mk false "colour" 17002 (.enum_ ["red", "green"]) "public")) "public")
    (by simp [TypeFree, KindFree, IsMultirange])
  exact ⟨s, h1, h2 (by simp [TypeFree, KindFree, IsBuiltin])⟩

/-- C89 is false of the constants of the library: the type read back is not the one written. -/
theorem pgtype_builtin_violated (name : String) (oid : UInt32) (k : PgKind) (schema : String) :
    ∀ s, PgTy.ser (.mk true name oid k schema) = some s → s.de ≠ .mk true name oid k schema := by
  intro s _ he
  cases s
  simp [SPgTy.de] at he

/-- C89 is false of multiranges: writing one panics. -/
theorem pgtype_multirange_violated (b : Bool) (name : String) (oid : UInt32) (t : PgTy) (schema : String) :
    PgTy.ser (.mk b name oid (.multirange t) schema) = none := by
  simp [PgTy.ser, PgKind.ser]

example : (PgTy.ser (.mk true "point" 600 .simple "pg_catalog")) =
    some (.mk "point" 600 .simple "pg_catalog") := by simp [PgTy.ser, PgKind.ser]

end Butane.Props
