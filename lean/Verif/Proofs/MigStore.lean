/-
Lemmas about making migrations.
-/
import Verif.Spec.MigStore
import Verif.Props.Resolve
import Verif.Props.Diff
import Verif.Props.Migrations

namespace Butane
open Spec

/-! ### Settled schemas -/

structure SettledTable (t : ATable) : Prop where
  distinct : (t.columns.map (·.name)).Nodup
  pk : (∃ c ∈ t.columns, c.pk = true) ∨ ∃ p, t.name = p ++ "_Many"
  types : ∀ c ∈ t.columns, ∃ ty, denotes c.sqltype = .inl ty
  refs : ∀ c ∈ t.columns, ∀ d, c.reference ≠ some (.deferred d)

theorem settled_iff {db : ADB} : Settled db ↔ db.tables.Sorted ∧ ∀ e ∈ db.tables, e.1 = e.2.name ∧ SettledTable e.2 :=
  ⟨fun h => ⟨h.valid.sorted, fun e he => ⟨h.valid.keyed e he, h.valid.distinct e he, h.pk e he,
      h.types e he, h.refs e he⟩⟩,
   fun h => ⟨⟨h.1, fun e he => (h.2 e he).1, fun e he => (h.2 e he).2.1⟩,
      fun e he => (h.2 e he).2.2, fun e he => (h.2 e he).2.3, fun e he => (h.2 e he).2.4⟩⟩

theorem settled_resolve' {db : ADB} (h : Settled db) (hx : ∀ e ∈ db.extraTypes, e.2.isKnown = true)
    (json : Bool) : db.resolve json = .ok db := by
  have hknown : ∀ e ∈ db.tables, ∀ c ∈ e.2.columns, c.sqltype.isKnown = true := by
    intro e he c hc
    obtain ⟨ty, hty⟩ := h.types e he c hc
    revert hty
    cases c.sqltype <;> simp [denotes, DeferredSqlType.isKnown]
  have hg : Generated db := ⟨h.pk, fun e he c hc d hd => absurd hd (h.refs e he c hc d)⟩
  have href : resolveReferences db = some db.tables := by
    apply mapPanic_id
    intro e he
    have : mapPanic (AColumn.resolveReferenceTarget db.extraTypes db.tables) e.2.columns =
        some e.2.columns := by
      apply mapPanic_id
      intro c hc
      unfold AColumn.resolveReferenceTarget
      cases hr : c.reference with
      | none => rfl
      | some a =>
        cases a with
        | literal _ _ => rfl
        | deferred d => exact absurd hr (h.refs e he c hc d)
    simp only [this]
  have hi := resolveReferences_inv (json := json) href
  have hbound := (Props.resolve_terminates json db).1
  have hnp := Props.resolve_no_panic json (rounds db) db hg
  unfold ADB.resolve
  unfold ADB.resolveTypes at hbound hnp ⊢
  simp only [href] at hbound hnp ⊢
  cases hl : resolveLoop json (rounds db) ⟨[], db.tables, db.extraTypes⟩ with
  | panic => rw [hl] at hnp; exact absurd rfl hnp
  | outOfFuel => rw [hl] at hbound; exact absurd rfl hbound
  | done s2 =>
    obtain ⟨e1, e2⟩ := resolveLoop_stuck hi rfl rfl hknown
      (fun k k' hm => absurd (hx _ hm) (by simp [DeferredSqlType.isKnown])) hl
    have : firstDeferred db.tables = none := by
      cases hf : firstDeferred db.tables with
      | none => rfl
      | some k =>
        obtain ⟨e, he, c, hc, hk⟩ := firstDeferred_some hf
        have := hknown e he c hc
        rw [hk] at this
        cases this
    simp only [e1, e2, this]

theorem settled_resolve {db : ADB} (h : Settled db) (hx : db.extraTypes = []) (json : Bool) :
    db.resolve json = .ok db :=
  settled_resolve' h (by simp [hx]) json

theorem settled_new : Settled ADB.new := settled_iff.2 ⟨SMap.sorted_nil, by simp [ADB.new]⟩

theorem settled_replace {db : ADB} (h : Settled db) {t : ATable} (ht : SettledTable t) :
    Settled (db.replaceTable t) := by
  rw [settled_iff] at h ⊢
  refine ⟨SMap.sorted_insert h.1 _ _, fun e he => ?_⟩
  rcases SMap.mem_insert_of he with rfl | he
  · exact ⟨rfl, ht⟩
  · exact h.2 e he

theorem settled_get {db : ADB} (h : Settled db) {n : String} {t : ATable}
    (ht : db.getTable n = some t) : t.name = n ∧ SettledTable t :=
  have := (settled_iff.1 h).2 _ (SMap.mem_of_lookup ht)
  ⟨this.1.symm, this.2⟩

theorem settled_values {db : ADB} (h : Settled db) {t : ATable} (ht : t ∈ db.tables.values) :
    db.getTable t.name = some t ∧ SettledTable t := by
  obtain ⟨e, he, rfl⟩ := List.mem_map.1 ht
  have := (settled_iff.1 h).2 e he
  exact ⟨by rw [← this.1]; exact SMap.lookup_of_mem h.valid.sorted he, this.2⟩

theorem nodup_values {db : ADB} (h : Settled db) : (db.tables.values.map (·.name)).Nodup := by
  have := SMap.nodup_keys h.valid.sorted
  unfold SMap.keys at this
  unfold SMap.values
  rw [List.map_map]
  have e : db.tables.map ((fun t : ATable => t.name) ∘ fun e => e.2) = db.tables.map (fun e => e.1) :=
    List.map_congr_left (fun e he => (h.valid.keyed e he).symm)
  rw [e]
  exact this

theorem mem_values {db : ADB} {n : String} {t : ATable}
    (ht : db.getTable n = some t) : t ∈ db.tables.values :=
  List.mem_map.2 ⟨_, SMap.mem_of_lookup ht, rfl⟩

/-! ### Which tables count as modified -/

theorem diffTable_modified {s t : ATable} {op : Operation} (h : op ∈ diffTable s t) :
    modifiedTable op = some op.target := by
  have := diffTable_isCol h
  cases op <;> simp [Operation.colTarget] at this <;> rfl

/-- A table that no operation modifies is the same as before. -/
theorem unmodified_same {old new : ADB} (ho : ValidSchema old) (hn : ValidSchema new) {n : String}
    {t : ATable} (ht : new.getTable n = some t)
    (hm : n ∉ (diff old new).filterMap modifiedTable) :
    ∃ s, old.getTable n = some s ∧ SameTable s t := by
  have hempty : (diff old new).filter (fun op => op.target == n) = [] := by
    rw [List.eq_nil_iff_forall_not_mem]
    intro op hop
    have hop' := (List.mem_filter.1 hop).1
    have htar : op.target = n := by simpa using (List.mem_filter.1 hop).2
    rw [diff_filter ho hn, ht] at hop
    have : modifiedTable op = some op.target := by
      cases h : old.getTable n with
      | none =>
        rw [h] at hop
        simp only [diffFor, List.mem_cons] at hop
        rcases hop with rfl | hop
        · rfl
        · split at hop
          · simp at hop; subst hop; rfl
          · simp at hop
      | some s =>
        rw [h] at hop
        exact diffTable_modified hop
    exact hm (List.mem_filterMap.2 ⟨op, hop', by rw [this, htar]⟩)
  have := Props.diff_reaches_target old new ho hn n
  simp only [ADB.getTable] at this ht ⊢
  rw [lookup_transformAll ho.sorted, hempty, ht] at this
  simp only [List.foldl_nil] at this
  cases h : old.tables.lookup n with
  | none => rw [h] at this; exact absurd this id
  | some s => rw [h] at this; exact ⟨s, rfl, this⟩

theorem sameSchema_refl (a : ADB) : SameSchema a a := fun _ =>
  OptRel.refl (fun t => ⟨rfl, t.columns, .refl _, AllMatch.refl SameColumn.refl _⟩) _

/-! ### Loops -/

/-- A loop whose steps all succeed keeps an invariant on what is still to do. -/
theorem forSteps_ok {α σ : Type} {f : α → Step σ Unit} (P : List α → σ → Prop)
    (hstep : ∀ x rest s, P (x :: rest) s → ∃ s', f x s = (.ok (), s') ∧ P rest s') {l : List α} {s : σ}
    (h : P l s) : ∃ s', forSteps f l s = (.ok (), s') ∧ P [] s' := by
  induction l generalizing s with
  | nil => exact ⟨s, rfl, h⟩
  | cons x rest ih =>
    obtain ⟨s1, h1, h2⟩ := hstep x rest s h
    obtain ⟨s2, h3, h4⟩ := ih h2
    exact ⟨s2, by simp only [forSteps, h1, h3], h4⟩

/-- What every step keeps, the loop keeps, also if it fails. -/
theorem forSteps_keeps {α σ : Type} {f : α → Step σ Unit} (P : σ → Prop)
    (hstep : ∀ x s, P s → P (f x s).2) {l : List α} {s : σ} (h : P s) : P (forSteps f l s).2 := by
  induction l generalizing s with
  | nil => exact h
  | cons x rest ih =>
    have := hstep x s h
    unfold forSteps
    split
    · rename_i heq; rw [heq] at this; exact this
    · rename_i heq; rw [heq] at this; exact ih this

/-- What the steps that succeed keep, the loop keeps if it succeeds. -/
theorem forSteps_inv {α σ : Type} {f : α → Step σ Unit} (P : List α → σ → Prop)
    (hstep : ∀ x rest s s', P (x :: rest) s → f x s = (.ok (), s') → P rest s') {l : List α} {s s' : σ}
    (h : P l s) (hf : forSteps f l s = (.ok (), s')) : P [] s' := by
  induction l generalizing s with
  | nil => cases hf; exact h
  | cons x rest ih =>
    unfold forSteps at hf
    split at hf
    · cases hf
    · rename_i s1 h1
      exact ih (hstep x rest s s1 h h1) hf

/-! ### Longer chains -/

section
variable {M : Type}

theorem isPath_extend {ms ms' : Migs M} {l : List M} (h : IsPath ms l) (hc : Complete ms l) {m : M}
    (hlatest : ms'.latest = some m) (hfrom : ∀ x ∈ l, ms'.from_ x = ms.from_ x)
    (hget : ∀ n, ∀ x ∈ l, ms.get n = some x → ms'.get n = some x)
    (hfirst : l = [] → ms'.from_ m = .ok none)
    (hlast : ∀ p, l.getLast? = some p → ∃ n, ms'.from_ m = .ok (some n) ∧ ms'.get n = some p) :
    IsPath ms' (l ++ [m]) ∧ Complete ms' (l ++ [m]) := by
  have hc' : Complete ms' (l ++ [m]) := by
    intro x hx
    cases l with
    | nil => cases hx; exact hfirst rfl
    | cons y l =>
      cases hx
      rw [hfrom _ (by simp)]
      exact hc _ rfl
  refine ⟨⟨by simp [hlatest], ?_, fun x hx => .inl (hc' x hx)⟩, hc'⟩
  intro p x hpx
  rcases infix_concat2.1 hpx with hpx | ⟨hp, rfl⟩
  · obtain ⟨n, h1, h2⟩ := h.link p x hpx
    have hp : p ∈ l := hpx.subset (by simp)
    have hx : x ∈ l := hpx.subset (by simp)
    exact ⟨n, by rw [hfrom x hx, h1], hget n p hp h2⟩
  · exact hlast p hp

theorem isPath_frame {ms ms' : Migs M} {l : List M} (h : IsPath ms l) (hc : Complete ms l)
    (hlatest : ms'.latest = ms.latest) (hfrom : ∀ x ∈ l, ms'.from_ x = ms.from_ x)
    (hget : ∀ n, ∀ x ∈ l, ms.get n = some x → ms'.get n = some x) :
    IsPath ms' l ∧ Complete ms' l := by
  have hc' : Complete ms' l := fun x hx => by
    rw [hfrom x (List.mem_of_head? hx)]
    exact hc x hx
  refine ⟨⟨by rw [hlatest]; exact h.latest, ?_, fun x hx => .inl (hc' x hx)⟩, hc'⟩
  intro p x hpx
  obtain ⟨n, h1, h2⟩ := h.link p x hpx
  exact ⟨n, by rw [hfrom x (hpx.subset (by simp)), h1], hget n p (hpx.subset (by simp)) h2⟩

end

/-! ### The stages of `create_migration_to` -/

section
variable {S M : Type} (ops : StoreOps S M)

def readFrom (from_ : Option M) (s : S) : Except MErr ADB :=
  match from_ with
  | none => .ok ADB.new
  | some m => ops.db s m

def tableStep (modified : List String) (from_ : Option M) (table : ATable) : Step (S × M) Unit :=
  if modified.contains table.name then ops.addModified table
  else
    match from_ with
    | none => fun s => (.error .noFrom, s)
    | some f => ops.addUnmodified table (ops.name f)

def upChanges (from_ : Option M) (changes : List Operation) : List Operation :=
  if from_.isNone then changes ++ [.addTableIfNotExists migrationsTable] else changes

def sqlStep (fromDb toDb : ADB) (changes : List Operation) (b : MigBackend) : Step (S × M) Unit := fun s =>
  match b.sql fromDb changes with
  | .error e => (.error e, s)
  | .ok up =>
    match b.sql toDb (diff toDb fromDb) with
    | .error e => (.error e, s)
    | .ok down => ops.addSql b.name up down s

variable {ops}

theorem create_eq (backends : List MigBackend) (name : String) (from_ : Option M) (toDb : ADB) (s : S) :
    createMigrationTo ops backends name from_ toDb s =
      match readFrom ops from_ s with
      | .error e => (.error e, s)
      | .ok fromDb =>
        if (diff fromDb toDb).isEmpty then (.ok false, s)
        else
          match forSteps (tableStep ops ((diff fromDb toDb).filterMap modifiedTable) from_) toDb.tables.values
              (s, ops.newMigration s name) with
          | (.error e, s1) => (.error e, s1.1)
          | (.ok (), s1) =>
            match forSteps (sqlStep ops fromDb toDb (upChanges from_ (diff fromDb toDb))) backends s1 with
            | (.error e, s2) => (.error e, s2.1)
            | (.ok (), s2) =>
              match ops.setFrom (from_.map ops.name) s2 with
              | (.error e, s3) => (.error e, s3.1)
              | (.ok (), s3) =>
                match ops.addMigration s3.2 s3.1 with
                | (.error e, s4) => (.error e, s4)
                | (.ok (), s4) => (.ok true, s4) := rfl

theorem create_cases {backends : List MigBackend} {name : String} {from_ : Option M} {toDb : ADB}
    {s s' : S} {r : Except MErr Bool} (h : createMigrationTo ops backends name from_ toDb s = (r, s')) :
    (s' = s ∧ ∃ e, r = .error e ∧ readFrom ops from_ s = .error e) ∨
    ∃ fromDb, readFrom ops from_ s = .ok fromDb ∧
      ((s' = s ∧ r = .ok false ∧ diff fromDb toDb = []) ∨
       (diff fromDb toDb ≠ [] ∧ ∃ r1 p1,
        forSteps (tableStep ops ((diff fromDb toDb).filterMap modifiedTable) from_) toDb.tables.values
          (s, ops.newMigration s name) = (r1, p1) ∧
        ((∃ e, r1 = .error e ∧ r = .error e ∧ s' = p1.1) ∨
         (r1 = .ok () ∧ ∃ r2 p2,
          forSteps (sqlStep ops fromDb toDb (upChanges from_ (diff fromDb toDb))) backends p1 = (r2, p2) ∧
          ((∃ e, r2 = .error e ∧ r = .error e ∧ s' = p2.1) ∨
           (r2 = .ok () ∧ ∃ r3 p3, ops.setFrom (from_.map ops.name) p2 = (r3, p3) ∧
            ((∃ e, r3 = .error e ∧ r = .error e ∧ s' = p3.1) ∨
             (r3 = .ok () ∧ ∃ r4, ops.addMigration p3.2 p3.1 = (r4, s') ∧
              ((∃ e, r4 = .error e ∧ r = .error e) ∨ (r4 = .ok () ∧ r = .ok true)))))))))) := by
  rw [create_eq] at h
  cases hr : readFrom ops from_ s with
  | error e =>
    rw [hr] at h
    cases h
    exact .inl ⟨rfl, e, rfl, rfl⟩
  | ok fromDb =>
    refine .inr ⟨fromDb, rfl, ?_⟩
    rw [hr] at h
    dsimp only at h
    by_cases hd : diff fromDb toDb = []
    · rw [if_pos (by simp [hd])] at h
      cases h
      exact .inl ⟨rfl, rfl, hd⟩
    · rw [if_neg (by simp [hd])] at h
      refine .inr ⟨hd, ?_⟩
      split at h
      · rename_i e s1 h1
        cases h
        exact ⟨_, _, h1, .inl ⟨e, rfl, rfl, rfl⟩⟩
      · rename_i s1 h1
        refine ⟨_, _, h1, .inr ⟨rfl, ?_⟩⟩
        split at h
        · rename_i e s2 h2
          cases h
          exact ⟨_, _, h2, .inl ⟨e, rfl, rfl, rfl⟩⟩
        · rename_i s2 h2
          refine ⟨_, _, h2, .inr ⟨rfl, ?_⟩⟩
          split at h
          · rename_i e s3 h3
            cases h
            exact ⟨_, _, h3, .inl ⟨e, rfl, rfl, rfl⟩⟩
          · rename_i s3 h3
            refine ⟨_, _, h3, .inr ⟨rfl, ?_⟩⟩
            split at h
            · rename_i e s4 h4
              cases h
              exact ⟨_, h4, .inl ⟨e, rfl, rfl⟩⟩
            · rename_i s4 h4
              cases h
              exact ⟨_, h4, .inr ⟨rfl, rfl⟩⟩

/-- The successful runs. -/
theorem create_true {backends : List MigBackend} {name : String} {from_ : Option M} {toDb : ADB}
    {s s' : S} (h : createMigrationTo ops backends name from_ toDb s = (.ok true, s')) :
    ∃ fromDb p1 p2 p3, readFrom ops from_ s = .ok fromDb ∧ diff fromDb toDb ≠ [] ∧
      forSteps (tableStep ops ((diff fromDb toDb).filterMap modifiedTable) from_) toDb.tables.values
          (s, ops.newMigration s name) = (.ok (), p1) ∧
      forSteps (sqlStep ops fromDb toDb (upChanges from_ (diff fromDb toDb))) backends p1 = (.ok (), p2) ∧
      ops.setFrom (from_.map ops.name) p2 = (.ok (), p3) ∧ ops.addMigration p3.2 p3.1 = (.ok (), s') := by
  rcases create_cases h with ⟨_, e, he, _⟩ | ⟨fromDb, h0, ⟨_, he, _⟩ | ⟨hd, r1, p1, h1, ⟨e, _, he, _⟩ |
    ⟨rfl, r2, p2, h2, ⟨e, _, he, _⟩ | ⟨rfl, r3, p3, h3, ⟨e, _, he, _⟩ | ⟨rfl, r4, h4, ⟨e, _, he⟩ | ⟨rfl, _⟩⟩⟩⟩⟩⟩
  · cases he
  · cases he
  · cases he
  · cases he
  · cases he
  · cases he
  · exact ⟨fromDb, p1, p2, p3, h0, hd, h1, h2, h3, h4⟩

theorem create_true_intro {backends : List MigBackend} {name : String} {from_ : Option M} {toDb fromDb : ADB}
    {s s' : S} {p1 p2 p3 : S × M} (h0 : readFrom ops from_ s = .ok fromDb) (hd : diff fromDb toDb ≠ [])
    (h1 : forSteps (tableStep ops ((diff fromDb toDb).filterMap modifiedTable) from_) toDb.tables.values
          (s, ops.newMigration s name) = (.ok (), p1))
    (h2 : forSteps (sqlStep ops fromDb toDb (upChanges from_ (diff fromDb toDb))) backends p1 = (.ok (), p2))
    (h3 : ops.setFrom (from_.map ops.name) p2 = (.ok (), p3)) (h4 : ops.addMigration p3.2 p3.1 = (.ok (), s')) :
    createMigrationTo ops backends name from_ toDb s = (.ok true, s') := by
  rcases hc : createMigrationTo ops backends name from_ toDb s with ⟨r, s''⟩
  rcases create_cases hc with ⟨_, e, he, g0⟩ | ⟨fd, g0, ⟨_, he, g0'⟩ | ⟨_, r1, q1, g1, ⟨e, he, _, _⟩ |
    ⟨_, r2, q2, g2, ⟨e, he, _, _⟩ | ⟨_, r3, q3, g3, ⟨e, he, _, _⟩ | ⟨_, r4, g4, ⟨e, he, _⟩ | ⟨_, he⟩⟩⟩⟩⟩⟩
  · rw [h0] at g0; cases g0
  all_goals (rw [h0] at g0; cases g0)
  · exact absurd g0' hd
  all_goals (rw [h1] at g1; cases g1)
  · cases he
  all_goals (rw [h2] at g2; cases g2)
  · cases he
  all_goals (rw [h3] at g3; cases g3)
  · cases he
  all_goals (rw [h4] at g4; cases g4)
  · cases he
  · rw [he]

end

end Butane
