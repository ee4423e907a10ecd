import Verif.Proofs.LiveRefs
import Verif.Props.Ddl
/-
Property C05: tables are dropped only when no foreign key refers to them.
-/
namespace Butane.Props
open Butane Butane.Spec Butane.Ddl Butane.DdlP

/-- C05, PostgreSQL: at the moment a table is dropped, no foreign key of another table refers to
it.  Missing: old schemas in which a table that stays refers to one that goes; there it is false
(below). -/
theorem drop_unreferenced_partial {old new : ADB} (ho : ValidSchema old) (hv : ValidSchema new)
    (hn : NoDangling new)
    (hkept : ∀ m s t c n k, old.getTable m = some s → new.getTable m = some t → c ∈ s.columns →
      c.reference = some (.literal n k) → ∃ u, new.getTable n = some u)
    {before after : List Operation} {n : String}
    (h : diff old new = before ++ .removeTable n :: after) :
    ¬ ReferredTo (liveAll old before) n :=
  LiveP.not_referred ho hv hn (fun m s t c n k h1 h2 h3 h4 hr => by
    obtain ⟨u, hu⟩ := hkept m s t c n k h1 h2 h3 h4
    rw [hr.2] at hu
    cases hu) h

/-- A reference to the key of a table. -/
def exLiveRef (name table : String) : AColumn :=
  ⟨name, .knownId (.ty .bigInt), true, false, false, false, none, some (.literal table "id")⟩

/-- Two tables that refer to each other and go, and one that stays. -/
def exLive : ADB := ⟨[
  ("A", ⟨"A", [exKeyCol, exLiveRef "b" "B"]⟩),
  ("B", ⟨"B", [exKeyCol, exLiveRef "a" "A"]⟩),
  ("C", ⟨"C", [exKeyCol, exLiveRef "c" "C"]⟩)], []⟩
def exLiveNew : ADB := ⟨[("C", ⟨"C", [exKeyCol, exLiveRef "c" "C"]⟩)], []⟩

example : diff exLive exLiveNew =
    [.removeTableConstraints ⟨"A", [exKeyCol, exLiveRef "b" "B"]⟩,
      .removeTableConstraints ⟨"B", [exKeyCol, exLiveRef "a" "A"]⟩, .removeTable "A"] ++
    .removeTable "B" :: [] := by decide
example : NoDangling exLiveNew := by
  intro m t c n k h1 h2 h3
  have := SMap.mem_of_lookup h1
  simp only [exLiveNew, List.mem_cons, Prod.mk.injEq, List.not_mem_nil, or_false] at this
  obtain ⟨rfl, rfl⟩ := this
  simp only [List.mem_cons, List.not_mem_nil, or_false] at h2
  rcases h2 with rfl | rfl <;> cases h3
  exact ⟨_, rfl⟩
/-- The order matters: right at the beginning there is a reference. -/
example : ReferredTo exLive "A" := ⟨"B", _, _, "id", by decide, rfl, List.mem_cons_of_mem _ List.mem_cons_self, rfl⟩
example : ¬ ReferredTo (liveAll exLive
    [.removeTableConstraints ⟨"A", [exKeyCol, exLiveRef "b" "B"]⟩,
      .removeTableConstraints ⟨"B", [exKeyCol, exLiveRef "a" "A"]⟩]) "A" := by
  refine drop_unreferenced_partial (old := exLive) (new := exLiveNew)
    (validSchema_of (by decide)) (validSchema_of (by decide)) ?_ ?_
    (after := [.removeTable "B"]) (by decide)
  · intro m t c n k h1 h2 h3
    have := SMap.mem_of_lookup h1
    simp only [exLiveNew, List.mem_cons, Prod.mk.injEq, List.not_mem_nil, or_false] at this
    obtain ⟨rfl, rfl⟩ := this
    simp only [List.mem_cons, List.not_mem_nil, or_false] at h2
    rcases h2 with rfl | rfl <;> cases h3
    exact ⟨_, rfl⟩
  · intro m s t c n k h1 h2 h3 h4
    have h5 := SMap.mem_of_lookup h2
    simp only [exLiveNew, List.mem_cons, Prod.mk.injEq, List.not_mem_nil, or_false] at h5
    obtain ⟨rfl, rfl⟩ := h5
    cases h1
    simp only [List.mem_cons, List.not_mem_nil, or_false] at h3
    rcases h3 with rfl | rfl <;> cases h4
    exact ⟨_, rfl⟩

/-- **C05 fails** when a table is removed together with the column that referred to it: the
table is dropped first. -/
theorem drop_referenced_violated : ∃ old new before after n,
    ValidSchema old ∧ ValidSchema new ∧ NoDangling old ∧ NoDangling new ∧
    diff old new = before ++ .removeTable n :: after ∧ ReferredTo (liveAll old before) n := by
  refine ⟨⟨[("A", ⟨"A", [exKeyCol]⟩), ("B", ⟨"B", [exKeyCol, exLiveRef "a" "A"]⟩)], []⟩,
    ⟨[("B", ⟨"B", [exKeyCol]⟩)], []⟩, [.removeTableConstraints ⟨"A", [exKeyCol]⟩],
    [.removeColumn "B" "a"], "A", validSchema_of (by decide), validSchema_of (by decide), ?_, ?_,
    by decide, "B", _, _, "id", by decide, rfl, List.mem_cons_of_mem _ List.mem_cons_self, rfl⟩
  · intro m t c n k h1 h2 h3
    have := SMap.mem_of_lookup h1
    simp only [List.mem_cons, Prod.mk.injEq, List.not_mem_nil, or_false] at this
    rcases this with ⟨rfl, rfl⟩ | ⟨rfl, rfl⟩
    · simp only [List.mem_cons, List.not_mem_nil, or_false] at h2
      subst h2
      cases h3
    · simp only [List.mem_cons, List.not_mem_nil, or_false] at h2
      rcases h2 with rfl | rfl <;> cases h3
      exact ⟨_, rfl⟩
  · intro m t c n k h1 h2 h3
    have := SMap.mem_of_lookup h1
    simp only [List.mem_cons, Prod.mk.injEq, List.not_mem_nil, or_false] at this
    obtain ⟨rfl, rfl⟩ := this
    simp only [List.mem_cons, List.not_mem_nil, or_false] at h2
    subst h2
    cases h3

/-- **C05 fails on SQLite** even when both tables are removed, as constraints are not removed
first: the table whose name comes first is dropped first, and that fails if rows refer to it. -/
theorem sqlite_drop_referenced_violated : ∃ old db, SqliteFails old ⟨[], []⟩ db :=
  ⟨⟨[("A", ⟨"A", [exKeyCol]⟩), ("B", ⟨"B", [exKeyCol, exLiveRef "a" "A"]⟩)], []⟩,
    withRows _ (fun n => if n = "A" then [[.integer 1]] else [[.integer 5, .integer 1]]),
    sqliteFails_of (by decide) rfl (by decide)⟩

end Butane.Props
