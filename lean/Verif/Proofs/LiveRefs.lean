import Verif.Spec.LiveRefs
import Verif.Proofs.DdlExec
/-
Foreign keys while a migration runs.
-/
namespace Butane.LiveP
open Butane Spec DdlP

theorem split_at {α : Type} {x : α} {a b l m : List α} (hx : x ∉ l) (h : a ++ x :: b = l ++ m) :
    ∃ l', a = l ++ l' ∧ m = l' ++ x :: b := by
  induction l generalizing a with
  | nil => exact ⟨a, rfl, h.symm⟩
  | cons y l ih =>
    cases a with
    | nil =>
      simp only [List.nil_append, List.cons_append, List.cons.injEq] at h
      exact absurd (h.1 ▸ List.mem_cons_self) hx
    | cons z a =>
      simp only [List.cons_append, List.cons.injEq] at h
      obtain ⟨l', h1, h2⟩ := ih (fun hm => hx (List.mem_cons_of_mem _ hm)) h.2
      exact ⟨l', by rw [h.1, h1, List.cons_append], h2⟩

/-- The table is removed. -/
def Removed (old new : ADB) (n : String) : Prop := (∃ t, old.getTable n = some t) ∧ new.getTable n = none

/-- No foreign key refers to a removed table. -/
def Clear (old new db : ADB) : Prop :=
  ∀ m t c n k, db.getTable m = some t → c ∈ t.columns → c.reference = some (.literal n k) →
    ¬ Removed old new n

theorem withoutRefs_ref {t : ATable} {c : AColumn} (h : c ∈ (withoutRefs t).columns) :
    c.reference = none := by
  simp only [withoutRefs, List.mem_map] at h
  obtain ⟨d, -, rfl⟩ := h
  rfl

theorem mem_replaceCol {cols : List AColumn} {c d : AColumn} (h : d ∈ replaceCol cols c) :
    d = c ∨ d ∈ cols := by
  induction cols with
  | nil => simpa [replaceCol] using h
  | cons x cols ih =>
    simp only [replaceCol] at h
    split at h
    · rcases List.mem_cons.1 h with h | h
      · exact .inl h
      · exact .inr (List.mem_cons_of_mem _ h)
    · rcases List.mem_cons.1 h with h | h
      · exact .inr (h ▸ List.mem_cons_self)
      · exact (ih h).imp id (List.mem_cons_of_mem _)

theorem clear_step {old new db : ADB} (hs : db.tables.Sorted) (hn : NoDangling new) {op : Operation}
    (hf : Found old new op) (h : Clear old new db) : Clear old new (liveStep db op) := by
  have fresh : ∀ {m t c n k}, new.getTable m = some t → c ∈ t.columns →
      c.reference = some (.literal n k) → ¬ Removed old new n := by
    intro m t c n k h1 h2 h3 hr
    obtain ⟨u, hu⟩ := hn m t c n k h1 h2 h3
    rw [hr.2] at hu
    cases hu
  intro m t c n k h1 h2 h3
  cases op with
  | addTable t' =>
    simp only [liveStep, ADB.getTable, SMap.lookup_insert] at h1
    split at h1
    · cases h1
      rw [withoutRefs_ref h2] at h3
      cases h3
    · exact h m t c n k h1 h2 h3
  | addTableIfNotExists t' => exact hf.elim
  | removeTable t' =>
    simp only [liveStep, ADB.removeTable, ADB.getTable, SMap.lookup_erase hs] at h1
    split at h1
    · cases h1
    · exact h m t c n k h1 h2 h3
  | addTableConstraints t' =>
    simp only [liveStep, ADB.getTable, SMap.lookup_modify] at h1
    split at h1
    · obtain ⟨u, -, rfl⟩ := Option.map_eq_some_iff.1 h1
      exact fresh hf.1 h2 h3
    · exact h m t c n k h1 h2 h3
  | removeTableConstraints t' =>
    simp only [liveStep, ADB.getTable, SMap.lookup_modify] at h1
    split at h1
    · obtain ⟨u, -, rfl⟩ := Option.map_eq_some_iff.1 h1
      rw [withoutRefs_ref h2] at h3
      cases h3
    · exact h m t c n k h1 h2 h3
  | addColumn tbl x =>
    simp only [liveStep, ADB.getTable, SMap.lookup_modify] at h1
    split at h1
    · obtain ⟨u, hu, rfl⟩ := Option.map_eq_some_iff.1 h1
      obtain ⟨s, v, -, hv, -, hx⟩ := hf
      rcases mem_replaceCol h2 with rfl | h2
      · exact fresh hv (colByName_some hx).1 h3
      · exact h m u c n k hu h2 h3
    · exact h m t c n k h1 h2 h3
  | removeColumn tbl x =>
    simp only [liveStep, ADB.getTable, SMap.lookup_modify] at h1
    split at h1
    · obtain ⟨u, hu, rfl⟩ := Option.map_eq_some_iff.1 h1
      refine h m u c n k hu ?_ h3
      simp only [ATable.removeColumn] at h2
      exact (List.mem_filter.1 h2).1
    · exact h m t c n k h1 h2 h3
  | changeColumn tbl o x =>
    simp only [liveStep, ADB.getTable, SMap.lookup_modify] at h1
    split at h1
    · obtain ⟨u, hu, rfl⟩ := Option.map_eq_some_iff.1 h1
      obtain ⟨s, v, -, hv, -, hx⟩ := hf
      rcases mem_replaceCol h2 with rfl | h2
      · exact fresh hv (colByName_some hx).1 h3
      · exact h m u c n k hu h2 h3
    · exact h m t c n k h1 h2 h3

theorem sorted_step {db : ADB} (hs : db.tables.Sorted) (op : Operation) :
    (liveStep db op).tables.Sorted := by
  cases op <;> first
    | exact SMap.sorted_insert hs _ _
    | exact SMap.sorted_erase hs _
    | exact SMap.sorted_modify hs _ _

theorem clear_all {old new db : ADB} (hs : db.tables.Sorted) (hn : NoDangling new)
    {ops : List Operation} (hf : ∀ op ∈ ops, Found old new op) (h : Clear old new db) :
    Clear old new (liveAll db ops) := by
  induction ops generalizing db with
  | nil => exact h
  | cons op ops ih =>
    exact ih (sorted_step hs op) (fun o ho => hf o (List.mem_cons_of_mem _ ho))
      (clear_step hs hn (hf op List.mem_cons_self) h)

/-- No foreign key of a table outside `rem` refers to a removed table. -/
def ClearBut (old new db : ADB) (rem : List String) : Prop :=
  ∀ m t c n k, db.getTable m = some t → m ∉ rem → c ∈ t.columns →
    c.reference = some (.literal n k) → ¬ Removed old new n

theorem clear_added {old new : ADB} (l : List (String × ATable)) {db : ADB} {rem : List String}
    (h : ClearBut old new db rem) :
    ClearBut old new (liveAll db (l.map fun e => .addTable e.2)) rem := by
  induction l generalizing db with
  | nil => exact h
  | cons e l ih =>
    refine ih ?_
    intro m t c n k h1 hm h2 h3
    simp only [liveStep, ADB.getTable, SMap.lookup_insert] at h1
    split at h1
    · cases h1
      rw [withoutRefs_ref h2] at h3
      cases h3
    · exact h m t c n k h1 hm h2 h3

theorem clear_stripped {old new : ADB} (l : List (String × ATable)) {db : ADB}
    (hl : ∀ e ∈ l, e.1 = e.2.name)
    (h : ClearBut old new db (l.map (·.1))) :
    ClearBut old new (liveAll db (l.map fun e => .removeTableConstraints e.2)) [] := by
  induction l generalizing db with
  | nil => exact h
  | cons e l ih =>
    refine ih (fun e he => hl e (List.mem_cons_of_mem _ he)) ?_
    intro m t c n k h1 hm h2 h3
    simp only [liveStep, ADB.getTable, SMap.lookup_modify] at h1
    split at h1
    · obtain ⟨u, -, rfl⟩ := Option.map_eq_some_iff.1 h1
      rw [withoutRefs_ref h2] at h3
      cases h3
    · next hne =>
      refine h m t c n k h1 ?_ h2 h3
      simp only [List.map_cons, List.mem_cons, not_or]
      exact ⟨by rw [hl e List.mem_cons_self]; exact hne, hm⟩

theorem sorted_all {db : ADB} (hs : db.tables.Sorted) (ops : List Operation) :
    (liveAll db ops).tables.Sorted := by
  induction ops generalizing db with
  | nil => exact hs
  | cons op ops ih => exact ih (sorted_step hs op)

theorem liveAll_append (db : ADB) (a b : List Operation) :
    liveAll db (a ++ b) = liveAll (liveAll db a) b := List.foldl_append ..

theorem not_referred {old new : ADB} (ho : ValidSchema old) (hv : ValidSchema new)
    (hn : NoDangling new)
    (hkept : ∀ m s t c n k, old.getTable m = some s → new.getTable m = some t → c ∈ s.columns →
      c.reference = some (.literal n k) → ¬ Removed old new n)
    {before after : List Operation} {n : String}
    (h : diff old new = before ++ .removeTable n :: after) :
    ¬ ReferredTo (liveAll old before) n := by
  have hmem : Operation.removeTable n ∈ diff old new := by rw [h]; simp
  have hrem : Removed old new n := diff_found ho hv hmem
  let added := new.tables.filter (fun e => !old.tables.keys.contains e.1)
  let removed := old.tables.filter (fun e => !new.tables.keys.contains e.1)
  have hd : ∃ r, diff old new = (added.map (fun e => Operation.addTable e.2) ++
      removed.map (fun e => Operation.removeTableConstraints e.2)) ++ r := by
    simp only [diff, List.append_assoc]
    exact ⟨_, rfl⟩
  obtain ⟨r, hr⟩ := hd
  rw [hr] at h
  obtain ⟨l', h1, h2⟩ := split_at (by simp) h.symm
  have hclear : Clear old new (liveAll old (added.map (fun e => Operation.addTable e.2) ++
      removed.map (fun e => Operation.removeTableConstraints e.2))) := by
    rw [liveAll_append]
    have hb : ClearBut old new old (removed.map (·.1)) := by
      intro m t c a k g1 g2 g3 g4
      cases ht : new.getTable m with
      | some u => exact hkept m t u c a k g1 ht g3 g4
      | none =>
        refine absurd ?_ g2
        refine List.mem_map.2 ⟨(m, t), List.mem_filter.2 ⟨SMap.mem_of_lookup g1, ?_⟩, rfl⟩
        simp only [Bool.not_eq_true', ← Bool.not_eq_true, List.contains_iff_mem, SMap.mem_keys_iff]
        rintro ⟨v, hv⟩
        rw [show new.tables.lookup m = none from ht] at hv
        cases hv
    have := clear_stripped removed (fun e he => ho.keyed e (List.mem_filter.1 he).1)
      (clear_added added hb)
    intro m t c a k g1 g2 g3
    exact this m t c a k g1 (by simp) g2 g3
  have hfound : ∀ op ∈ l', Found old new op := by
    intro op hop
    refine diff_found ho hv ?_
    rw [hr, h2]
    simp [hop]
  have := clear_all (sorted_all ho.sorted _) hn hfound hclear
  rw [← liveAll_append, ← h1] at this
  rintro ⟨m, t, c, k, -, g1, g2, g3⟩
  exact this m t c n k g1 g2 g3 hrem

end Butane.LiveP
