/-
C57: the program with embedded migrations has the migrations that were embedded.
-/
import Verif.Model.Embed
import Mathlib.Data.List.Infix

namespace Butane.Props
open Butane

theorem readRaw_shape {l : List Char} {v after : List Char} (h : readRaw l = some (v, after)) :
    l = v ++ ['"', '#'] ++ after ∧ ¬ ['"', '#'] <:+: v := by
  induction l generalizing v with
  | nil => cases h
  | cons c rest ih =>
    unfold readRaw at h
    split at h
    · rename_i hc
      cases h
      obtain ⟨rfl, hc⟩ := hc
      cases rest with
      | nil => cases hc
      | cons d rest =>
        cases hc
        refine ⟨rfl, ?_⟩
        rintro ⟨a, b, hab⟩
        simp at hab
    · rename_i hc
      split at h
      · cases h
      · rename_i v' after' hr
        cases h
        obtain ⟨h1, h2⟩ := ih hr
        refine ⟨by rw [h1]; simp, fun hi => ?_⟩
        rcases List.infix_cons_iff.1 hi with hi | hi
        · obtain ⟨w, hw⟩ := hi
          rw [List.cons_append, List.cons.injEq, List.cons_append] at hw
          refine hc ⟨hw.1.symm, ?_⟩
          rw [h1, ← hw.2]
          rfl
        · exact h2 hi

theorem readRaw_total (l after : List Char) : ∃ r, readRaw (l ++ ['"', '#'] ++ after) = some r := by
  induction l with
  | nil => exact ⟨_, rfl⟩
  | cons c l ih =>
    obtain ⟨r, hr⟩ := ih
    rw [List.cons_append, List.cons_append, readRaw]
    split
    · exact ⟨_, rfl⟩
    · rw [hr]
      exact ⟨_, rfl⟩

/-- C57: the compiler reads the embedded text as it was, with nothing left over, exactly if
the text does not contain a quote followed by a number sign. -/
theorem embedded_text_partial (json : List Char) :
    readLiteral (embedLiteral json) = some (json, []) ↔ ¬ ['"', '#'] <:+: json := by
  change readRaw (json ++ ['"', '#']) = _ ↔ _
  constructor
  · exact fun h => (readRaw_shape h).2
  · intro h
    obtain ⟨⟨v, after⟩, hr⟩ := readRaw_total json []
    rw [List.append_nil] at hr
    rw [hr]
    obtain ⟨h1, h2⟩ := readRaw_shape hr
    -- the value is a prefix of the text, and reaches its end
    have hp : v <+: json ∨ json <+: v := by
      apply List.prefix_or_prefix_of_prefix (l₃ := json ++ ['"', '#'])
      · exact ⟨['"', '#'] ++ after, by rw [h1]; simp⟩
      · exact ⟨_, rfl⟩
    have hlen := congrArg List.length h1
    simp only [List.length_append, List.length_cons, List.length_nil] at hlen
    rcases hp with ⟨w, hw⟩ | ⟨w, hw⟩
    · subst hw
      rw [List.append_assoc, List.append_assoc, List.append_cancel_left_eq] at h1
      -- `w ++ "# = "# ++ after`
      match w, h1 with
      | [], h1 =>
        have : after = [] := by simpa using h1
        simp [this]
      | [a], h1 => simp at h1
      | a :: b :: w, h1 =>
        simp at h1
        obtain ⟨rfl, rfl, h1⟩ := h1
        exact absurd ⟨v, w, by simp⟩ h
    · subst hw
      rw [List.append_assoc, List.append_assoc, List.append_cancel_left_eq] at h1
      have : w = [] := by
        simp only [List.length_append] at hlen
        exact List.length_eq_zero_iff.1 (by omega)
      subst this
      have : after = [] := by simpa using h1
      simp [this]

/-- The texts that butane writes contain strings such as names, SQL and defaults in JSON. -/
example : readLiteral (embedLiteral "{\"Text\": \"a \\\"quoted\\\" # b\"}".toList) =
    some ("{\"Text\": \"a \\\"quoted\\\" # b\"}".toList, []) :=
  (embedded_text_partial _).2 (by decide)

/-- C57 fails: any string that begins with a number sign, such as a default color, makes the
compiler read something else. -/
theorem embedded_hash_violated (before_ after s : List Char) :
    readLiteral (embedLiteral (before_ ++ jsonString ('#' :: s) ++ after)) ≠
      some (before_ ++ jsonString ('#' :: s) ++ after, []) := by
  intro h
  refine (embedded_text_partial _).1 h ⟨before_, s.flatMap jsonChar ++ ['"'] ++ after, ?_⟩
  simp [jsonString, jsonChar]

example : readLiteral (embedLiteral "{\"default\": {\"Text\": \"#fff\"}}".toList) =
    some ("{\"default\": {\"Text\": ".toList, "fff\"}}\"#".toList) := by decide

end Butane.Props
