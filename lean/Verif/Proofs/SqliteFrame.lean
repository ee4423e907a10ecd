/-
Statements that do not name a table leave it alone, and do the same whether it is there or not.
-/
import Verif.Spec.Ddl
import Verif.Proofs.DdlCheck

namespace Butane.DdlP
open Butane Butane.Ddl

/-- The statement does not name the table. -/
def Avoids (N : String) : DStmt → Prop
  | .createTable _ n _ fks _ => n ≠ N ∧ ∀ fk ∈ fks, fk.table ≠ N
  | .dropTable n => n ≠ N
  | .addColumn n _ => n ≠ N
  | .dropColumn n _ => n ≠ N
  | .insertSelect d _ s => d ≠ N ∧ s ≠ N
  | .renameTable o n => o ≠ N ∧ n ≠ N
  | _ => True

theorem lookup_erase_ne {V : Type} (m : SMap String V) {k k' : String} (h : k' ≠ k) :
    (m.erase k).lookup k' = m.lookup k' := by
  induction m with
  | nil => rfl
  | cons p rest ih =>
    obtain ⟨k1, v1⟩ := p
    simp only [SMap.erase]
    split
    · rename_i e
      have := SMap.cmp_eq_iff.1 e
      subst this
      simp [SMap.lookup, SMap.cmp_eq_iff, h]
    · simp only [SMap.lookup, ih]

/-- Such a statement keeps the rows of the table. -/
theorem exec_keeps {env : SqliteEnv} {N : String} {d d' : SDb} {s : DStmt} (hs : Avoids N s)
    (h : exec env d s = some d') :
    (d'.lookup N).map (·.rows) = (d.lookup N).map (·.rows) := by
  have ins : ∀ {n : String} (x : STable), n ≠ N → ((d.insert n x).lookup N).map (·.rows) = (d.lookup N).map (·.rows) := by
    intro n x hn
    rw [SMap.lookup_insert, if_neg (Ne.symm hn)]
  cases s with
  | createTable ifNot n cols fks strict =>
    simp only [exec] at h
    split at h
    · split at h
      · cases h; rfl
      · cases h
    · split at h
      · cases h; exact ins _ hs.1
      · cases h
  | dropTable n =>
    simp only [exec] at h
    split at h
    · split at h
      · cases h
      · cases h; rw [lookup_erase_ne _ (Ne.symm hs)]
    · cases h
  | addColumn n c =>
    simp only [exec] at h
    split at h
    · split at h
      · cases h
      · split at h
        · cases h
        · split at h
          · cases h; exact ins _ hs
          · cases h
    · cases h
  | dropColumn n c =>
    simp only [exec] at h
    split at h
    · split at h
      · split at h
        · cases h
        · split at h
          · cases h; exact ins _ hs
          · cases h
      · cases h
    · cases h
  | insertSelect dst cols src =>
    simp only [exec] at h
    split at h
    · split at h
      · split at h
        · cases h; exact ins _ hs.1
        · cases h
      · cases h
    · cases h
  | renameTable o n =>
    simp only [exec] at h
    split at h
    · cases h
      rw [lookup_map _ (fun _ t => renameRefs o n t), SMap.lookup_insert, if_neg (Ne.symm hs.2),
        lookup_erase_ne _ (Ne.symm hs.1), Option.map_map]
      rfl
    · cases h
  | _ => cases h

theorem execAll_keeps {env : SqliteEnv} {N : String} {ss : List DStmt} {d d' : SDb}
    (hs : ∀ s ∈ ss, Avoids N s) (h : execAll env d ss = some d') :
    (d'.lookup N).map (·.rows) = (d.lookup N).map (·.rows) := by
  induction ss generalizing d with
  | nil => cases h; rfl
  | cons s ss ih =>
    simp only [execAll] at h
    split at h
    · rename_i d1 h1
      rw [ih (fun s hs' => hs s (List.mem_cons_of_mem _ hs')) h, exec_keeps (hs s (List.mem_cons_self ..)) h1]
    · cases h

/-- The table is not there, and nothing refers to it. -/
structure Without (N : String) (u : SDb) : Prop where
  sorted : u.Sorted
  absent : u.lookup N = none
  refs : ∀ n x, u.lookup n = some x → ∀ fk ∈ x.fks, fk.table ≠ N

theorem insert_comm {V : Type} {u : SMap String V} (hs : u.Sorted) {n N : String} (hn : n ≠ N) (x t : V) :
    (u.insert N t).insert n x = (u.insert n x).insert N t := by
  refine SMap.ext (SMap.sorted_insert (SMap.sorted_insert hs _ _) _ _)
    (SMap.sorted_insert (SMap.sorted_insert hs _ _) _ _) fun k => ?_
  simp only [SMap.lookup_insert]
  by_cases h1 : k = n
  · subst h1; simp [hn]
  · simp [h1]

theorem erase_insert {V : Type} {u : SMap String V} (hs : u.Sorted) {n N : String} (hn : n ≠ N) (t : V) :
    (u.insert N t).erase n = (u.erase n).insert N t := by
  refine SMap.ext (SMap.sorted_erase (SMap.sorted_insert hs _ _) _)
    (SMap.sorted_insert (SMap.sorted_erase hs _) _ _) fun k => ?_
  simp only [SMap.lookup_insert, SMap.lookup_erase hs, SMap.lookup_erase (SMap.sorted_insert hs N t)]
  by_cases h1 : k = n
  · subst h1; simp [hn]
  · simp [h1]

theorem any_insert {V : Type} {u : SMap String V} {N : String} (h : u.lookup N = none) (t : V)
    (f : String × V → Bool) : (u.insert N t).any f = (f (N, t) || u.any f) := by
  induction u with
  | nil => rfl
  | cons p rest ih =>
    obtain ⟨k1, v1⟩ := p
    have hne := (SMap.lookup_eq_none_iff _ _).1 h
    have h' : SMap.lookup rest N = none :=
      (SMap.lookup_eq_none_iff _ _).2 fun q hq => hne q (List.mem_cons_of_mem _ hq)
    simp only [SMap.insert]
    split
    · rfl
    · rename_i e
      exact absurd (SMap.cmp_eq_iff.1 e).symm (hne _ (List.mem_cons_self ..))
    · simp only [List.any_cons, ih h']
      cases f (N, t) <;> cases f (k1, v1) <;> simp

theorem sorted_map {V W : Type} {m : SMap String V} (h : m.Sorted) (f : String → V → W) :
    SMap.Sorted (m.map fun e => (e.1, f e.1 e.2)) := by
  rw [SMap.sorted_iff_keys] at h ⊢
  have : SMap.keys (m.map fun e => (e.1, f e.1 e.2)) = SMap.keys m := by
    simp [SMap.keys, List.map_map]
  rw [this]
  exact h

variable {env : SqliteEnv} {N : String} {u : SDb}

theorem Without.lookup (_h : Without N u) {n : String} (hn : n ≠ N) (t : STable) :
    (u.insert N t).lookup n = u.lookup n := by
  rw [SMap.lookup_insert, if_neg hn]

theorem Without.insert (h : Without N u) {n : String} (hn : n ≠ N) {x : STable}
    (hx : ∀ fk ∈ x.fks, fk.table ≠ N) : Without N (u.insert n x) := by
  refine ⟨SMap.sorted_insert h.sorted _ _, ?_, fun m y hy => ?_⟩
  · rw [SMap.lookup_insert, if_neg (Ne.symm hn)]
    exact h.absent
  · rw [SMap.lookup_insert] at hy
    split at hy
    · cases hy; exact hx
    · exact h.refs m y hy

theorem Without.erase (h : Without N u) (n : String) : Without N (u.erase n) := by
  refine ⟨SMap.sorted_erase h.sorted _, ?_, fun m y hy => ?_⟩
  · rw [SMap.lookup_erase h.sorted, h.absent]; simp
  · rw [SMap.lookup_erase h.sorted] at hy
    split at hy
    · cases hy
    · exact h.refs m y hy

theorem isReferenced_insert (h : Without N u) {t : STable} (ht : t.fks = []) (n : String) (x : STable) :
    isReferenced (u.insert N t) n x = isReferenced u n x := by
  unfold isReferenced
  rw [any_insert h.absent]
  simp [ht]

theorem fksOk_insert (h : Without N u) (t : STable) {cols : List ColDef} {fks : List RefCon}
    {rows : List (List SqliteVal)} (hf : ∀ fk ∈ fks, fk.table ≠ N) :
    fksOk (u.insert N t) cols fks rows = fksOk u cols fks rows := by
  unfold fksOk
  rw [Bool.eq_iff_iff]
  simp only [List.all_eq_true]
  constructor <;>
  · intro hh fk hfk r hr
    have := hh fk hfk r hr
    rw [h.lookup (hf fk hfk) t] at *
    exact this

/-- What the statement does does not depend on the table, and leaves it alone. -/
theorem exec_frame (h : Without N u) {t : STable} (ht : t.fks = []) {s : DStmt} (hs : Avoids N s) :
    exec env (u.insert N t) s = (exec env u s).map (SMap.insert · N t) ∧
    ∀ u', exec env u s = some u' → Without N u' := by
  cases s with
  | createTable ifNot n cols fks strict =>
    simp only [exec, h.lookup hs.1]
    cases hu : u.lookup n with
    | some x =>
      simp only
      cases ifNot
      · exact ⟨rfl, fun _ h => by cases h⟩
      · exact ⟨rfl, fun _ e => by cases e; exact h⟩
    | none =>
      simp only
      split
      · exact ⟨by rw [Option.map_some, insert_comm h.sorted hs.1],
          fun _ e => by cases e; exact h.insert hs.1 hs.2⟩
      · exact ⟨rfl, fun _ h => by cases h⟩
  | dropTable n =>
    simp only [exec, h.lookup hs]
    cases hu : u.lookup n with
    | none => exact ⟨rfl, fun _ h => by cases h⟩
    | some x =>
      simp only [isReferenced_insert h ht]
      split
      · exact ⟨rfl, fun _ h => by cases h⟩
      · exact ⟨by rw [Option.map_some, erase_insert h.sorted hs], fun _ e => by cases e; exact h.erase n⟩
  | addColumn n c =>
    simp only [exec, h.lookup hs]
    cases hu : u.lookup n with
    | none => exact ⟨rfl, fun _ h => by cases h⟩
    | some x =>
      cases strictType c.type with
      | none => exact ⟨rfl, fun _ h => by cases h⟩
      | some ty =>
        simp only
        split
        · exact ⟨rfl, fun _ h => by cases h⟩
        · split
          · exact ⟨rfl, fun _ h => by cases h⟩
          · split
            · exact ⟨by rw [Option.map_some, insert_comm h.sorted hs],
                fun _ e => by cases e; exact h.insert hs (h.refs n x hu)⟩
            · exact ⟨rfl, fun _ h => by cases h⟩
  | dropColumn n c =>
    simp only [exec, h.lookup hs]
    cases hu : u.lookup n with
    | none => exact ⟨rfl, fun _ h => by cases h⟩
    | some x =>
      simp only
      split
      · split
        · exact ⟨rfl, fun _ h => by cases h⟩
        · split
          · exact ⟨by rw [Option.map_some, insert_comm h.sorted hs],
              fun _ e => by cases e; exact h.insert hs (h.refs n x hu)⟩
          · exact ⟨rfl, fun _ h => by cases h⟩
      · exact ⟨rfl, fun _ h => by cases h⟩
  | insertSelect dst cols src =>
    simp only [exec, h.lookup hs.1, h.lookup hs.2]
    cases hd : u.lookup dst with
    | none => exact ⟨rfl, fun _ h => by cases h⟩
    | some d =>
      cases hc : u.lookup src with
      | none => exact ⟨rfl, fun _ h => by cases h⟩
      | some x =>
        simp only [fksOk_insert h t (h.refs dst d hd)]
        split
        · split
          · exact ⟨by rw [Option.map_some, insert_comm h.sorted hs.1],
              fun _ e => by cases e; exact h.insert hs.1 (h.refs dst d hd)⟩
          · exact ⟨rfl, fun _ h => by cases h⟩
        · exact ⟨rfl, fun _ h => by cases h⟩
  | renameTable o n =>
    simp only [exec, h.lookup hs.1, h.lookup hs.2]
    cases ho : u.lookup o with
    | none => exact ⟨rfl, fun _ h => by cases h⟩
    | some x =>
      cases hn : u.lookup n with
      | some y => exact ⟨rfl, fun _ h => by cases h⟩
      | none =>
        simp only [Option.map_some, Option.some.injEq]
        have hsrt := SMap.sorted_insert (SMap.sorted_erase h.sorted o) n x
        have hren : renameRefs o n t = t := by
          cases t; simp only at ht; subst ht; rfl
        constructor
        · refine SMap.ext (sorted_map (SMap.sorted_insert (SMap.sorted_erase (SMap.sorted_insert h.sorted _ _) _) _ _)
            (fun _ => renameRefs o n)) (SMap.sorted_insert (sorted_map hsrt (fun _ => renameRefs o n)) _ _) fun k => ?_
          rw [lookup_map _ (fun _ t => renameRefs o n t), SMap.lookup_insert, SMap.lookup_insert,
            lookup_map _ (fun _ t => renameRefs o n t), SMap.lookup_insert,
            SMap.lookup_erase (SMap.sorted_insert h.sorted _ _), SMap.lookup_erase h.sorted, SMap.lookup_insert]
          by_cases h1 : k = N
          · subst h1
            simp [Ne.symm hs.2, Ne.symm hs.1, hren]
          · simp [h1]
        · rintro u' rfl
          refine ⟨sorted_map hsrt (fun _ => renameRefs o n), ?_, fun m y hy fk hfk => ?_⟩
          · rw [lookup_map _ (fun _ t => renameRefs o n t), SMap.lookup_insert, if_neg (Ne.symm hs.2),
              SMap.lookup_erase h.sorted, h.absent]
            simp
          · rw [lookup_map _ (fun _ t => renameRefs o n t)] at hy
            obtain ⟨z, hz, rfl⟩ := Option.map_eq_some_iff.1 hy
            have hzr : ∀ fk ∈ z.fks, fk.table ≠ N :=
              ((h.erase o).insert hs.2 (h.refs o x ho)).refs m z hz
            simp only [renameRefs, List.mem_map] at hfk
            obtain ⟨f, hf, rfl⟩ := hfk
            split
            · exact hs.2
            · exact hzr f hf
  | _ => exact ⟨rfl, fun _ h => by cases h⟩

theorem execAll_frame (h : Without N u) {t : STable} (ht : t.fks = []) {ss : List DStmt}
    (hs : ∀ s ∈ ss, Avoids N s) :
    execAll env (u.insert N t) ss = (execAll env u ss).map (SMap.insert · N t) ∧
    ∀ u', execAll env u ss = some u' → Without N u' := by
  induction ss generalizing u with
  | nil => exact ⟨rfl, fun _ e => by cases e; exact h⟩
  | cons s ss ih =>
    obtain ⟨h1, h2⟩ := exec_frame (env := env) h ht (hs s (List.mem_cons_self ..))
    simp only [execAll, h1]
    cases he : exec env u s with
    | none => exact ⟨rfl, fun _ h => by cases h⟩
    | some u1 =>
      exact ih (h2 u1 he) fun s hs' => hs s (List.mem_cons_of_mem _ hs')

end Butane.DdlP
