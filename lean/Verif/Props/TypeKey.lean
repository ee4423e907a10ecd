import Verif.Proofs.TypeKey
import Verif.Proofs.Resolve
/-
Property C08 (type keys as text) and C09 (link table names).
-/
namespace Butane.Props
open Butane Butane.Spec

/-! ### C08 -/

/-- C08: every type key is read back from its text. -/
theorem typekey_roundtrip (k : TypeKey) : TypeKey.deserialize k.serialize = .key k := by
  cases k with
  | pk s =>
    have h1 : ("PK:" ++ s).toList = 'P' :: 'K' :: ':' :: s.toList := by simp
    have h2 : startsWithStr ("PK:" ++ s) "PK:" = true := (startsWith_iff _ _).2 ⟨s.toList, by simp⟩
    simp only [TypeKey.serialize, TypeKey.deserialize, h1,
      splitOffBytes_ascii3 'P' 'K' ':' s.toList (by decide) (by decide) (by decide), h2, if_true,
      String.ofList_toList]
  | customType s =>
    have h1 : ("CT:" ++ s).toList = 'C' :: 'T' :: ':' :: s.toList := by simp
    have h2 : startsWithStr ("CT:" ++ s) "CT:" = true := (startsWith_iff _ _).2 ⟨s.toList, by simp⟩
    have h3 : startsWithStr ("CT:" ++ s) "PK:" = false := by
      rw [Bool.eq_false_iff]
      intro h
      obtain ⟨rest, hr⟩ := (startsWith_iff _ _).1 h
      simp at hr
    simp only [TypeKey.serialize, TypeKey.deserialize, h1,
      splitOffBytes_ascii3 'C' 'T' ':' s.toList (by decide) (by decide) (by decide), h2, h3, if_true,
      String.ofList_toList, Bool.false_eq_true, if_false]

example : TypeKey.deserialize (TypeKey.pk "Blog").serialize = .key (.pk "Blog") := typekey_roundtrip _

/-- C08: distinct keys have distinct texts. -/
theorem typekey_text_injective (a b : TypeKey) (h : a.serialize = b.serialize) : a = b := by
  have ha := typekey_roundtrip a
  rw [h, typekey_roundtrip b] at ha
  exact (KeyResult.key.inj ha).symm

/-- C08: only the text of a key is read as that key. -/
theorem typekey_accepts_only_keys (v : String) (k : TypeKey) (h : TypeKey.deserialize v = .key k) :
    v = k.serialize := by
  unfold TypeKey.deserialize at h
  split at h
  · cases h
  · rename_i rest hr
    split at h
    · rename_i hs
      cases h
      obtain ⟨r, e⟩ := (startsWith_iff _ _).1 hs
      have : v.toList = 'P' :: 'K' :: ':' :: r := by rw [e]; rfl
      rw [this, splitOffBytes_ascii3 'P' 'K' ':' r (by decide) (by decide) (by decide)] at hr
      cases hr
      rw [← String.toList_inj, this]
      simp [TypeKey.serialize]
    · split at h
      · rename_i hs
        cases h
        obtain ⟨r, e⟩ := (startsWith_iff _ _).1 hs
        have : v.toList = 'C' :: 'T' :: ':' :: r := by rw [e]; rfl
        rw [this, splitOffBytes_ascii3 'C' 'T' ':' r (by decide) (by decide) (by decide)] at hr
        cases hr
        rw [← String.toList_inj, this]
        simp [TypeKey.serialize]
      · cases h

/-- C08, part that holds: a text of at least three ASCII characters that is not the text
of a key is an error. Missing: other texts, for which the code panics. -/
theorem typekey_rejects_others_partial (a b c : Char) (rest : String)
    (ha : a.utf8Size = 1) (hb : b.utf8Size = 1) (hc : c.utf8Size = 1) (v : String)
    (hv : v = String.ofList [a, b, c] ++ rest)
    (hk : ∀ k : TypeKey, v ≠ k.serialize) : TypeKey.deserialize v = .err := by
  cases h : TypeKey.deserialize v with
  | key k => exact absurd (typekey_accepts_only_keys v k h) (hk k)
  | err => rfl
  | panic =>
    unfold TypeKey.deserialize at h
    have : v.toList = a :: b :: c :: rest.toList := by rw [hv]; simp
    rw [this, splitOffBytes_ascii3 a b c _ ha hb hc] at h
    simp only at h
    split at h
    · cases h
    · split at h <;> cases h

example : TypeKey.deserialize "XX:Blog" = .err :=
  typekey_rejects_others_partial 'X' 'X' ':' "Blog" (by decide) (by decide) (by decide) _ (by decide)
    (by intro k; cases k <;> simp [TypeKey.serialize, ← String.toList_inj])

/-- C08 fails in full: a short text is not reported as an error but panics. -/
theorem typekey_rejects_others_violated :
    (∀ k : TypeKey, "P" ≠ k.serialize) ∧ TypeKey.deserialize "P" = .panic := by
  constructor
  · intro k; cases k <;> simp [TypeKey.serialize, ← String.toList_inj]
  · decide

/-- C08: the order on keys is a total order consistent with equality. -/
theorem typekey_order (a b c : TypeKey) :
    (compare a b = .eq ↔ a = b) ∧
    (compare a b = .lt ↔ compare b a = .gt) ∧
    (compare a b = .lt ∨ a = b ∨ compare b a = .lt) ∧
    (compare a b = .lt → compare b c = .lt → compare a c = .lt) := by
  refine ⟨SMap.cmp_eq_iff, ⟨SMap.cmp_gt_of_lt, SMap.cmp_lt_of_gt⟩, ?_, SMap.lt_trans'⟩
  cases h : compare a b with
  | lt => exact Or.inl rfl
  | eq => exact Or.inr (Or.inl (SMap.cmp_eq_iff.1 h))
  | gt => exact Or.inr (Or.inr (SMap.cmp_lt_of_gt h))

example : compare (TypeKey.pk "B") (.customType "A") = .lt := by decide

/-! ### C09 -/

/-- The name of the link table of a field. -/
theorem many_table_name (table field pk : String) (ty pkty : DeferredSqlType) :
    (createManyTable table field ty pk pkty).name = table ++ "_" ++ field ++ "_Many" := by
  unfold createManyTable
  cases ty <;> rfl

theorem append_sep_inj {sep : Char} {a b c d : List Char} (ha : sep ∉ a) (hc : sep ∉ c)
    (h : a ++ sep :: b = c ++ sep :: d) : a = c ∧ b = d := by
  induction a generalizing c with
  | nil =>
    cases c with
    | nil => simp at h; exact ⟨rfl, h⟩
    | cons x xs =>
      simp at h
      exact absurd (h.1 ▸ List.mem_cons_self) hc
  | cons x xs ih =>
    cases c with
    | nil =>
      simp at h
      exact absurd (h.1 ▸ List.mem_cons_self) ha
    | cons y ys =>
      simp only [List.cons_append, List.cons.injEq] at h
      obtain ⟨e1, e2⟩ := ih (fun hm => ha (List.mem_cons_of_mem _ hm))
        (fun hm => hc (List.mem_cons_of_mem _ hm)) h.2
      exact ⟨by rw [h.1, e1], e2⟩

/-- C09, part that holds: if model table names contain no underscore, different fields (of
any two models) have different link tables. Missing: table names with underscores. -/
theorem many_tables_distinct_partial (t f p t' f' p' : String) (ty ty' pkty pkty' : DeferredSqlType)
    (ht : '_' ∉ t.toList) (ht' : '_' ∉ t'.toList)
    (h : (createManyTable t f ty p pkty).name = (createManyTable t' f' ty' p' pkty').name) :
    t = t' ∧ f = f' := by
  rw [many_table_name, many_table_name, ← String.toList_inj] at h
  simp only [String.toList_append, List.append_assoc] at h
  have h' : t.toList ++ '_' :: (f.toList ++ "_Many".toList) = t'.toList ++ '_' :: (f'.toList ++ "_Many".toList) := h
  obtain ⟨e1, e2⟩ := append_sep_inj ht ht' h'
  exact ⟨String.toList_inj.1 e1, String.toList_inj.1 (List.append_cancel_right e2)⟩

/-- C09, part that holds for every table name: two fields of one model never share. -/
theorem many_tables_distinct_same_model (t f p f' p' : String) (ty ty' pkty pkty' : DeferredSqlType)
    (h : (createManyTable t f ty p pkty).name = (createManyTable t f' ty' p' pkty').name) : f = f' := by
  rw [many_table_name, many_table_name, ← String.toList_inj] at h
  simp only [String.toList_append, List.append_assoc] at h
  have := List.append_cancel_left (List.append_cancel_left h)
  exact String.toList_inj.1 (List.append_cancel_right this)

/-- C09, part that holds: a link table is not a model table without underscores. -/
theorem many_table_not_model_partial (t f p m : String) (ty pkty : DeferredSqlType)
    (hm : '_' ∉ m.toList) : (createManyTable t f ty p pkty).name ≠ m := by
  intro h
  apply hm
  rw [← h, many_table_name]
  simp

example : (createManyTable "Post" "tags" (.deferred (.pk "Tag")) "id" (.known .int)).name ≠
    (createManyTable "Blog" "tags" (.deferred (.pk "Tag")) "id" (.known .int)).name := fun h =>
  absurd (many_tables_distinct_partial _ _ _ _ _ _ _ _ _ _ (by decide) (by decide) h) (by decide)

/-- C09 fails in full: two different models with different fields share one link table, and
a link table can be the table of a model. -/
theorem many_tables_distinct_violated :
    (createManyTable "user" "group_tags" (.deferred (.pk "Tag")) "id" (.known .int)).name =
      (createManyTable "user_group" "tags" (.deferred (.pk "Tag")) "id" (.known .int)).name ∧
    (createManyTable "Post" "tags" (.deferred (.pk "Tag")) "id" (.known .int)).name =
      "Post_tags_Many" := by
  constructor <;> rfl

end Butane.Props
