/-
Lemmas about the code generator: what it takes a type for, and what it records.
-/
import Verif.Spec.Codegen
import Verif.Props.Resolve

namespace Butane.Proofs.Codegen
open Butane Butane.Spec Butane.Codegen

theorem split_names {m : List String} {x : String} {L : List String} (h : m ++ [x] = L) :
    m = L.dropLast ∧ some x = L.getLast? := by
  subst h; simp

theorem text_eq {i : Ident} {s : String} (h : i.text = s) (hs : ¬ ['r', '#'] <+: s.toList) :
    i.name = s ∧ i.raw = false := by
  unfold Ident.text at h
  cases hr : i.raw with
  | false => rw [hr] at h; exact ⟨h, rfl⟩
  | true =>
    rw [hr] at h
    exfalso; apply hs; subst h
    exact ⟨i.name.toList, by simp⟩

/-- The last name of a spelling. -/
theorem applied_last {n : String} {p q : Path} (h : WrittenAs n p q) : p.last.name = n := by
  obtain ⟨m, i, rfl, hw⟩ := h
  unfold written at hw
  simp only [Path.mods, Path.last] at hw ⊢
  unfold spellings at hw
  split at hw <;> simp only [List.mem_cons, List.not_mem_nil, or_false] at hw
  all_goals
    rcases hw with hw | hw | hw <;>
    · have := (split_names hw).2
      simp at this
      exact (text_eq this (by decide)).1

theorem applied_name {n : String} {p q : Path} (h : WrittenAs n p q) :
    n ∈ ["Option", "ForeignKey", "AutoPk", "Many"] := by
  obtain ⟨m, i, rfl, hw⟩ := h
  unfold spellings at hw
  split at hw <;> simp_all

theorem applied_resolve {r : Path → Option String} (hr : ResolverOk r) {n : String} {p q : Path}
    (h : WrittenAs n p q) : r p = some n := by
  obtain ⟨m, i, rfl, hw⟩ := h
  exact hr.known n _ rfl hw

theorem applied_arg {n n' : String} {p q q' : Path} (h : WrittenAs n p q) (h' : WrittenAs n' p q') :
    n = n' ∧ q = q' := by
  refine ⟨(applied_last h).symm.trans (applied_last h'), ?_⟩
  obtain ⟨m, i, rfl, _⟩ := h
  obtain ⟨m', i', e, _⟩ := h'
  cases e; rfl

theorem builtin_prim {ft : Features} {p : Path} {ty : SqlType} (h : Builtin ft p ty) :
    prim ft p = some ty := by
  cases h with
  | @simple i ty h =>
    simp only [List.mem_cons, Prod.mk.injEq, List.not_mem_nil, or_false] at h
    rcases h with ⟨h, rfl⟩ | ⟨h, rfl⟩ | ⟨h, rfl⟩ | ⟨h, rfl⟩ | ⟨h, rfl⟩ | ⟨h, rfl⟩ | ⟨h, rfl⟩ |
      ⟨h, rfl⟩ | ⟨h, rfl⟩ | ⟨h, rfl⟩ <;> simp [prim, primPlain, h]
  | @string l m i h =>
    simp only [Path.names, Path.mods, Path.last] at h
    rcases h with h | ⟨rfl, h⟩
    · obtain ⟨h1, h2⟩ := split_names h
      simp at h1 h2
      cases l <;> simp [prim, primPlain, h1, h2]
    · obtain ⟨h1, h2⟩ := split_names h
      simp at h1 h2
      simp [prim, primPlain, h1, h2]
  | @bytes l m i j h hj =>
    simp only [Path.names, Path.mods, Path.last] at h
    rcases h with h | ⟨rfl, h⟩
    · obtain ⟨h1, h2⟩ := split_names h
      simp at h1 h2
      simp [prim, primVec, isU8, h1, h2, hj]
    · obtain ⟨h1, h2⟩ := split_names h
      simp at h1 h2
      simp [prim, primVec, isU8, h1, h2, hj]
  | @json m i hf h =>
    simp only [Path.names, Path.mods, Path.last, List.mem_cons, List.not_mem_nil, or_false] at h
    rcases h with h | h <;>
    · obtain ⟨h1, h2⟩ := split_names h
      simp at h1 h2
      simp [prim, primPlain, h1, h2, hf]
  | @uuid m i hf h =>
    simp only [Path.names, Path.mods, Path.last, List.mem_cons, List.not_mem_nil, or_false] at h
    rcases h with h | h <;>
    · obtain ⟨h1, h2⟩ := split_names h
      simp at h1 h2
      simp [prim, primPlain, h1, h2, hf]
  | @date m i hf h =>
    simp only [Path.names, Path.mods, Path.last, List.mem_cons, List.not_mem_nil, or_false] at h
    rcases h with h | h | h <;>
    · obtain ⟨h1, h2⟩ := split_names h
      simp at h1 h2
      simp [prim, primPlain, primTime, h1, h2, hf]
  | @naive m i hf h =>
    simp only [Path.names, Path.mods, Path.last, List.mem_cons, List.not_mem_nil, or_false] at h
    rcases h with h | h | h <;>
    · obtain ⟨h1, h2⟩ := split_names h
      simp at h1 h2
      simp [prim, primPlain, primTime, h1, h2, hf]
  | @utc m i m' j hf h h' =>
    simp only [Path.names, Path.mods, Path.last, List.mem_cons, List.not_mem_nil, or_false] at h h'
    have hj : j.name = "Utc" := by
      rcases h' with h' | h' | h' <;> simpa using (split_names h').2
    have hi : i.name = "DateTime" := by
      rcases h with h | h | h <;> simpa using (split_names h).2
    simp [prim, primVec, primTime, hf, hi, hj, Path.last]

/-- The name of a built-in type that has an argument. -/
theorem builtin_app1 {ft : Features} {l m i a ty} (h : Builtin ft (.app1 l m i a) ty) :
    i.name = "Vec" ∨ i.name = "DateTime" := by
  cases h with
  | bytes h hj =>
    simp only [Path.names, Path.mods, Path.last] at h
    left
    rcases h with h | ⟨_, h⟩ <;> simpa using (split_names h).2
  | utc hf h h' =>
    simp only [Path.names, Path.mods, Path.last, List.mem_cons, List.not_mem_nil, or_false] at h
    right
    rcases h with h | h | h <;> simpa using (split_names h).2

/-- A path that is written as one of butane's generic types is not a built-in type. -/
theorem applied_prim {ft : Features} {n : String} {p q : Path} (h : WrittenAs n p q) :
    prim ft p = none := by
  have hl := applied_last h
  have hn := applied_name h
  obtain ⟨m, i, rfl, _⟩ := h
  simp only [Path.last] at hl
  simp only [List.mem_cons, List.not_mem_nil, or_false] at hn
  rcases hn with rfl | rfl | rfl | rfl <;> simp [prim, primVec, primTime, hl]

theorem plain_prim {ft : Features} {i : Ident} (h : i.name ∉ builtinNames) :
    prim ft (.plain false [] i) = none := by
  simp only [builtinNames, List.mem_cons, List.not_mem_nil, or_false, not_or] at h
  simp [prim, primPlain, primTime, h]

/-- What a type that has an SQL type and one argument can be. -/
theorem has_app1 {ft : Features} {items : List Item} {l m i a ty}
    (h : HasSqlType ft items (.app1 l m i a) ty) :
    (i.name = "Vec" ∨ i.name = "DateTime") ∨ WrittenAs "Option" (.app1 l m i a) a ∨
      WrittenAs "AutoPk" (.app1 l m i a) a ∨ WrittenAs "ForeignKey" (.app1 l m i a) a := by
  cases h with
  | builtin h => exact Or.inl (builtin_app1 h)
  | option h => obtain ⟨_, _, e, _⟩ := id h; cases e; exact Or.inr (Or.inl h)
  | autoPk h => obtain ⟨_, _, e, _⟩ := id h; cases e; exact Or.inr (Or.inr (Or.inl h))
  | foreignKey h => obtain ⟨_, _, e, _⟩ := id h; cases e; exact Or.inr (Or.inr (Or.inr h))

theorem has_app2 {ft : Features} {items : List Item} {l m i a b ty}
    (h : HasSqlType ft items (.app2 l m i a b) ty) : i.name = "HashMap" ∨ i.name = "BTreeMap" := by
  cases h with
  | builtin h => cases h
  | option h => obtain ⟨_, _, e, _⟩ := h; cases e
  | autoPk h => obtain ⟨_, _, e, _⟩ := h; cases e
  | foreignKey h => obtain ⟨_, _, e, _⟩ := h; cases e
  | map hj h _ =>
    simp only [Path.names, Path.mods, Path.last, List.mem_cons, List.not_mem_nil, or_false] at h
    rcases h with h | h | h | h | h | h
    · left; simpa using (split_names h).2
    · left; simpa using (split_names h).2
    · left; simpa using (split_names h).2
    · right; simpa using (split_names h).2
    · right; simpa using (split_names h).2
    · right; simpa using (split_names h).2

theorem has_other {ft : Features} {items : List Item} {l m i a ty} :
    ¬ HasSqlType ft items (.other l m i a) ty := by
  intro h
  cases h with
  | builtin h => cases h
  | option h => obtain ⟨_, _, e, _⟩ := h; cases e
  | autoPk h => obtain ⟨_, _, e, _⟩ := h; cases e
  | foreignKey h => obtain ⟨_, _, e, _⟩ := h; cases e

/-- The argument of a type that has an SQL type is found exactly when it is written so. -/
theorem pathArg_has {g : Cfg} (hr : ResolverOk g.resolve) {items : List Item} {p : Path} {ty}
    (h : HasSqlType g.ft items p ty) {n : String}
    (hn : n ∈ ["Option", "ForeignKey", "AutoPk", "Many"]) :
    ∃ r, pathArg g p n = some r ∧ ∀ q, r = some q ↔ WrittenAs n p q := by
  unfold pathArg
  by_cases hp : g.resolve p = some n
  · rw [if_pos hp]
    have hl := hr.sound n p hn hp
    cases p with
    | plain l m i =>
      refine ⟨_, rfl, fun q => ⟨(fun h => by cases h), fun h => ?_⟩⟩
      obtain ⟨_, _, e, _⟩ := h; cases e
    | app2 l m i a b =>
      exfalso
      have := has_app2 h
      simp only [Path.last] at hl
      subst hl
      simp only [List.mem_cons, List.not_mem_nil, or_false] at hn
      rcases this with h1 | h1 <;> rw [h1] at hn <;> simp at hn
    | other l m i a => exact absurd h has_other
    | app1 l m i a =>
      refine ⟨_, rfl, fun q => ⟨fun e => ?_, fun h => ?_⟩⟩
      · cases e
        simp only [Path.last] at hl
        rcases has_app1 h with h1 | h1 | h1 | h1
        · exfalso
          subst hl
          simp only [List.mem_cons, List.not_mem_nil, or_false] at hn
          rcases h1 with h1 | h1 <;> rw [h1] at hn <;> simp at hn
        all_goals
          have := applied_last h1
          simp only [Path.last] at this
          rw [← hl, this]; exact h1
      · obtain ⟨_, _, e, _⟩ := h; cases e; rfl
  · rw [if_neg hp]
    refine ⟨_, rfl, fun q => ⟨(fun h => by cases h), fun h => ?_⟩⟩
    exact absurd (applied_resolve hr h) hp

/-- What a type is taken for, if it is written as one of butane's generic types. -/
theorem deferred_wrap {g : Cfg} (hr : ResolverOk g.resolve) {n : String} {p q : Path}
    (h : WrittenAs n p q) (hn : n = "Option" ∨ n = "AutoPk") : deferredType g p = deferredType g q := by
  have h1 := applied_prim (ft := g.ft) h
  have h2 := applied_resolve hr h
  obtain ⟨m, i, rfl, _⟩ := h
  rcases hn with rfl | rfl <;> rw [deferredType] <;> simp [h1, h2]

theorem deferred_fk {g : Cfg} (hr : ResolverOk g.resolve) {p q : Path}
    (h : WrittenAs "ForeignKey" p q) : deferredType g p = some (.deferred (.pk q.last.name)) := by
  have h1 := applied_prim (ft := g.ft) h
  have h2 := applied_resolve hr h
  obtain ⟨m, i, rfl, _⟩ := h
  rw [deferredType]; simp [h1, h2]

theorem deferred_builtin {g : Cfg} {p : Path} {ty} (h : Builtin g.ft p ty) :
    deferredType g p = some (.knownId (.ty ty)) := by
  have := builtin_prim h
  cases p <;> simp [deferredType, this]

theorem deferred_plain {g : Cfg} {i : Ident} (h : i.name ∉ builtinNames) :
    deferredType g (.plain false [] i) = some (.deferred (.customType i.name)) := by
  rw [deferredType, plain_prim h]
  simp [Path.text, Path.headText, String.join]

end Butane.Proofs.Codegen
