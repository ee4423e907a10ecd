/-
The tables while a migration runs on PostgreSQL, and why its statements succeed.
-/
import Verif.Proofs.PgGo
import Verif.Proofs.DdlCheck

namespace Butane.PgP
open Butane.Ddl hiding exec execAll execScript
open Butane.PgCat Butane.DdlP Spec

variable {env : PgEnv} {old new : ADB} {kw : String → Bool} {p : LitPrinters}

/-! ### The order of the operations -/

/-- The part of a comparison the operation belongs to. -/
def phase : Operation → Nat
  | .addTable _ => 0
  | .addTableIfNotExists _ => 0
  | .removeTableConstraints _ => 1
  | .removeTable _ => 2
  | .addTableConstraints _ => 4
  | _ => 3

theorem phase_col {op : Operation} (h : op.colTarget.isSome = true) : phase op = 3 := by
  cases op <;> first | rfl | cases h

theorem pairwise_at {l : List Operation} {k : Nat} (h : ∀ a ∈ l, phase a = k) :
    l.Pairwise fun a b => phase a ≤ phase b := by
  induction l with
  | nil => exact .nil
  | cons a l ih =>
    refine .cons ?_ (ih fun x hx => h x (List.mem_cons_of_mem _ hx))
    intro b hb
    rw [h a (List.mem_cons_self ..), h b (List.mem_cons_of_mem _ hb)]
    exact Nat.le_refl _

theorem diff_phases (old new : ADB) :
    (diff old new).Pairwise fun a b => phase a ≤ phase b := by
  have h3 : ∀ a ∈ new.tables.flatMap (fun e =>
      match old.tables.lookup e.1 with
      | some oldTable => diffTable oldTable e.2
      | none => []), phase a = 3 := by
    intro a ha
    obtain ⟨e, -, h⟩ := List.mem_flatMap.1 ha
    split at h
    · exact phase_col (diffTable_isCol h)
    · cases h
  have hm : ∀ {α : Type} (l : List α) (f : α → Operation) (k : Nat), (∀ x, phase (f x) = k) →
      ∀ a ∈ l.map f, phase a = k := by
    intro α l f k h a ha
    obtain ⟨x, -, rfl⟩ := List.mem_map.1 ha
    exact h x
  have h0 := hm (new.tables.filter (fun e => !old.tables.keys.contains e.1))
    (fun e => Operation.addTable e.2) 0 fun _ => rfl
  have h1 := hm (old.tables.filter (fun e => !new.tables.keys.contains e.1))
    (fun e => Operation.removeTableConstraints e.2) 1 fun _ => rfl
  have h2 := hm (old.tables.filter (fun e => !new.tables.keys.contains e.1))
    (fun e => Operation.removeTable e.1) 2 fun _ => rfl
  have h4 := hm ((new.tables.filter (fun e => !old.tables.keys.contains e.1)).filter
    (fun e => e.2.columns.any (fun c => c.reference.isSome)))
    (fun e => Operation.addTableConstraints e.2) 4 fun _ => rfl
  simp only [diff]
  refine List.pairwise_append.2 ⟨List.pairwise_append.2 ⟨List.pairwise_append.2
    ⟨List.pairwise_append.2 ⟨pairwise_at h0, pairwise_at h1, ?_⟩, pairwise_at h2, ?_⟩,
    pairwise_at h3, ?_⟩, pairwise_at h4, ?_⟩
  · intro a ha b hb
    rw [h0 a ha, h1 b hb]
    omega
  · intro a ha b hb
    rw [h2 b hb]
    rcases List.mem_append.1 ha with ha | ha
    · rw [h0 a ha]; omega
    · rw [h1 a ha]; omega
  · intro a ha b hb
    rw [h3 b hb]
    rcases List.mem_append.1 ha with ha | ha
    · rcases List.mem_append.1 ha with ha | ha
      · rw [h0 a ha]; omega
      · rw [h1 a ha]; omega
    · rw [h2 a ha]; omega
  · intro a ha b hb
    rw [h4 b hb]
    rcases List.mem_append.1 ha with ha | ha
    · rcases List.mem_append.1 ha with ha | ha
      · rcases List.mem_append.1 ha with ha | ha
        · rw [h0 a ha]; omega
        · rw [h1 a ha]; omega
      · rw [h2 a ha]; omega
    · rw [h3 a ha]; omega

/-- Operations of earlier parts have been executed. -/
theorem phase_before {pre post : List Operation} {op b : Operation}
    (h : diff old new = pre ++ op :: post) (hb : b ∈ diff old new) (hlt : phase b < phase op) :
    b ∈ pre := by
  have hp := diff_phases old new
  rw [h] at hb hp
  obtain ⟨-, hp, -⟩ := List.pairwise_append.1 hp
  rcases List.mem_append.1 hb with hb | hb
  · exact hb
  · exfalso
    rcases List.mem_cons.1 hb with rfl | hb
    · omega
    · have := (List.pairwise_cons.1 hp).1 b hb
      omega

/-- Operations of later parts have not been executed. -/
theorem phase_after {pre post : List Operation} {op b : Operation}
    (h : diff old new = pre ++ op :: post) (hlt : phase op < phase b) : b ∉ pre := by
  intro hb
  have hp := diff_phases old new
  rw [h] at hp
  obtain ⟨-, -, hp⟩ := List.pairwise_append.1 hp
  have := hp b hb op (List.mem_cons_self ..)
  omega

/-! ### One table while the migration runs -/

theorem cut_target {pre rest : List Operation} (ho : ValidSchema old) (hn : ValidSchema new)
    (h : diff old new = pre ++ rest) (n : String) :
    pre.filter (fun o => o.target == n) ++ rest.filter (fun o => o.target == n) =
      diffFor n (old.getTable n) (new.getTable n) := by
  rw [← diff_filter ho hn, h, List.filter_append]

theorem live_none {pre rest : List Operation} (ho : ValidSchema old) (hn : ValidSchema new)
    (h : diff old new = pre ++ rest) {n : String} (h1 : old.getTable n = none)
    (h2 : new.getTable n = none) : (pre.foldl pgEff old.getTable) n = none := by
  have hc := cut_target ho hn h n
  rw [h1, h2] at hc
  rw [pgEff_all, (List.append_eq_nil_iff.1 hc).1]
  exact h1

theorem live_created {pre rest : List Operation} (ho : ValidSchema old) (hn : ValidSchema new)
    (h : diff old new = pre ++ rest) {n : String} {t : ATable} (h1 : old.getTable n = none)
    (h2 : new.getTable n = some t) :
    ((pre.foldl pgEff old.getTable) n = none ∧ .addTable t ∉ pre) ∨
    (pre.foldl pgEff old.getTable) n = some (withoutRefs t) ∨
    ((pre.foldl pgEff old.getTable) n = some t ∧ .addTableConstraints t ∈ pre) := by
  have hc := cut_target ho hn h n
  rw [h1, h2] at hc
  rw [pgEff_all, h1]
  simp only [diffFor] at hc
  cases hA : pre.filter (fun o => o.target == n) with
  | nil =>
    refine .inl ⟨rfl, fun hm => ?_⟩
    have : Operation.addTable t ∈ pre.filter (fun o => o.target == n) :=
      List.mem_filter.2 ⟨hm, by simp [Operation.target, name_of_getTable hn h2]⟩
    rw [hA] at this
    cases this
  | cons a X =>
    rw [hA] at hc
    simp only [List.cons_append, List.cons.injEq] at hc
    obtain ⟨rfl, hc⟩ := hc
    have hX : X = [] ∨ X = [.addTableConstraints t] := by
      rcases append_short hc (by split <;> simp) with e | ⟨e, -⟩
      · exact .inl e
      · rw [e]
        split
        · exact .inr rfl
        · exact .inl rfl
    rcases hX with rfl | rfl
    · exact .inr (.inl rfl)
    · refine .inr (.inr ⟨rfl, ?_⟩)
      have : Operation.addTableConstraints t ∈ pre.filter (fun o => o.target == n) := by
        rw [hA]; simp
      exact (List.mem_filter.1 this).1

theorem live_removed {pre rest : List Operation} (ho : ValidSchema old) (hn : ValidSchema new)
    (h : diff old new = pre ++ rest) {n : String} {s : ATable} (h1 : old.getTable n = some s)
    (h2 : new.getTable n = none) :
    ((pre.foldl pgEff old.getTable) n = some s ∧ .removeTableConstraints s ∉ pre) ∨
    ((pre.foldl pgEff old.getTable) n = some (withoutRefs s)) ∨
    (pre.foldl pgEff old.getTable) n = none := by
  have hc := cut_target ho hn h n
  rw [h1, h2] at hc
  rw [pgEff_all, h1]
  simp only [diffFor] at hc
  cases hA : pre.filter (fun o => o.target == n) with
  | nil =>
    refine .inl ⟨rfl, fun hm => ?_⟩
    have : Operation.removeTableConstraints s ∈ pre.filter (fun o => o.target == n) :=
      List.mem_filter.2 ⟨hm, by simp [Operation.target, name_of_getTable ho h1]⟩
    rw [hA] at this
    cases this
  | cons a X =>
    rw [hA] at hc
    simp only [List.cons_append, List.cons.injEq] at hc
    obtain ⟨rfl, hc⟩ := hc
    rcases append_short hc (by simp) with rfl | ⟨rfl, -⟩
    · exact .inr (.inl rfl)
    · exact .inr (.inr rfl)

theorem live_kept {pre rest : List Operation} (ho : ValidSchema old) (hn : ValidSchema new)
    (h : diff old new = pre ++ rest) {n : String} {s t : ATable} (h1 : old.getTable n = some s)
    (h2 : new.getTable n = some t) :
    diffTable s t = pre.filter (fun o => o.target == n) ++ rest.filter (fun o => o.target == n) ∧
      (pre.foldl pgEff old.getTable) n =
        some ((pre.filter (fun o => o.target == n)).foldl pgTab s) := by
  have hc := cut_target ho hn h n
  rw [h1, h2] at hc
  simp only [diffFor] at hc
  refine ⟨hc.symm, ?_⟩
  rw [pgEff_all, h1, pgTable_tab]
  intro o hmo
  exact diffTable_isCol (s := s) (t := t) (by rw [← hc]; exact List.mem_append_left _ hmo)

/-! ### One column while the migration runs -/

theorem kept_col {s t : ATable} {A B : List Operation} (h : diffTable s t = A ++ B) (m : String) :
    (colByName (A.foldl pgTab s).columns m).map npc = (colByName s.columns m).map npc ∨
    (colByName (A.foldl pgTab s).columns m).map npc = (colByName t.columns m).map npc := by
  rw [np_all]
  have hf := diffTable_filter s t m
  rw [h, List.filter_append] at hf
  rcases append_short hf (diffColFor_short ..) with e | ⟨e, -⟩
  · rw [e]; exact .inl rfl
  · rw [e]
    cases h1 : colByName s.columns m <;> cases h2 : colByName t.columns m <;>
      simp only [diffColFor, List.foldl_cons, List.foldl_nil, colEff]
    · exact .inl trivial
    · exact .inr trivial
    · exact .inr trivial
    · split
      · exact .inl rfl
      · exact .inr rfl

/-- The key stays off where no operation sets it. -/
theorem flag_off' {ops : List Operation} {F : String → Bool} {m : String}
    (h : ∀ op ∈ ops, setter op = true → op.colTarget ≠ some m) (hF : F m = false) :
    ops.foldl flagEff F m = false := by
  induction ops generalizing F with
  | nil => exact hF
  | cons op ops ih =>
    simp only [List.foldl_cons]
    refine ih (fun o ho => h o (List.mem_cons_of_mem _ ho)) ?_
    have h1 := h op (List.mem_cons_self ..)
    simp only [flagEff]
    split
    · next hs => simpa using h1 hs
    · cases op <;> simp [hF]

/-- The operation that makes a column the key adds it. -/
theorem setter_adds {s t : ATable} {op : Operation} (h : op ∈ diffTable s t)
    (hk : ∀ c x y, s.column c = some x → t.column c = some y → x.pk = y.pk)
    (hs : setter op = true) :
    ∃ n c, op = .addColumn n c ∧ c.pk = true ∧ s.column c.name = none ∧ t.column c.name = some c := by
  cases op with
  | addColumn n c =>
    have := diffTable_at (m := c.name) h rfl
    cases h1 : colByName s.columns c.name <;> cases h2 : colByName t.columns c.name <;>
      rw [h1, h2] at this <;> simp only [diffColFor] at this
    · cases this
    · simp only [List.mem_singleton, Operation.addColumn.injEq] at this
      obtain ⟨-, rfl⟩ := this
      exact ⟨n, c, rfl, hs, h1, h2⟩
    · simp at this
    · split at this <;> simp at this
  | changeColumn n o c =>
    exfalso
    have := diffTable_at (m := c.name) h rfl
    cases h1 : colByName s.columns c.name <;> cases h2 : colByName t.columns c.name <;>
      rw [h1, h2] at this <;> simp only [diffColFor] at this
    · cases this
    · simp at this
    · simp at this
    · split at this
      · cases this
      · simp only [List.mem_singleton, Operation.changeColumn.injEq] at this
        obtain ⟨-, rfl, rfl⟩ := this
        simp only [setter, hk _ _ _ h1 h2] at hs
        simp at hs
  | _ => cases hs

/-- The key of a column that stays does not change while the operations are executed. -/
theorem kept_flag {s t : ATable} {A B : List Operation} (h : diffTable s t = A ++ B)
    (hk : ∀ c x y, s.column c = some x → t.column c = some y → x.pk = y.pk)
    (hadd : ∀ c y, s.column c = none → t.column c = some y → y.pk = true →
      ∀ x ∈ s.columns, x.pk = false) {m : String} {x y : AColumn} (hx : s.column m = some x)
    (hy : t.column m = some y) : flag (A.foldl pgTab s) m = x.pk := by
  rw [flag_all]
  have hA : ∀ op ∈ A, op ∈ diffTable s t := fun op ho => by rw [h]; exact List.mem_append_left _ ho
  have hfm : flag s m = x.pk := by
    simp only [ATable.column] at hx
    simp [flag, hx]
  by_cases hset : ∃ op ∈ A, setter op = true
  · obtain ⟨op, hop, hs⟩ := hset
    obtain ⟨n, c, -, hcp, h1, h2⟩ := setter_adds (hA op hop) hk hs
    have hxp := hadd _ _ h1 h2 hcp x (colByName_some hx).1
    rw [hxp]
    refine flag_off' ?_ (by rw [hfm, hxp])
    intro o ho hos e
    obtain ⟨n', c', rfl, -, h1', -⟩ := setter_adds (hA o ho) hk hos
    simp only [Operation.colTarget, Option.some.injEq] at e
    rw [e, hx] at h1'
    cases h1'
  · rw [flag_unset, hfm]
    · intro op hop
      cases hs : setter op with
      | false => rfl
      | true => exact absurd ⟨op, hop, hs⟩ hset
    · intro op hop e
      have := diffTable_at (hA op hop) e
      simp only [ATable.column] at hx hy
      rw [hx, hy] at this
      simp only [diffColFor] at this
      split at this
      · cases this
      · simp only [List.mem_singleton] at this
        exact ⟨_, _, _, this⟩

/-! ### References while the migration runs -/

theorem npc_ref {a b : AColumn} (h : npc a = npc b) : a.name = b.name ∧ a.unique = b.unique ∧
    a.reference = b.reference ∧ a.typeid = b.typeid :=
  ⟨(EqPk.of_np h).name, (EqPk.of_np h).unique, (EqPk.of_np h).reference, (EqPk.of_np h).type⟩

theorem refers_of {adb : ADB} {m : String} {t : ATable} (ht : adb.getTable m = some t) {c : AColumn}
    (hc : c ∈ t.columns) {r k : String} (h : c.reference = some (.literal r k)) :
    Refers adb m r k := ⟨t, c, ht, hc, h⟩

/-- References of a table that stays. -/
theorem kept_refs {s t : ATable} {A B : List Operation} (h : diffTable s t = A ++ B)
    (hd : ((A.foldl pgTab s).columns.map (·.name)).Nodup) {m : String}
    (h1 : old.getTable m = some s) (h2 : new.getTable m = some t) {y : AColumn}
    (hy : y ∈ (A.foldl pgTab s).columns) {r k : String} (hr : y.reference = some (.literal r k)) :
    Refers old m r k ∨ Refers new m r k := by
  have hl := colByName_of_mem hd hy
  rcases kept_col h y.name with e | e
  · rw [hl] at e
    cases hx : colByName s.columns y.name with
    | none => rw [hx] at e; cases e
    | some x =>
      rw [hx] at e
      simp only [Option.map_some, Option.some.injEq] at e
      exact .inl (refers_of h1 (colByName_some hx).1 (by rw [← (npc_ref e).2.2.1]; exact hr))
  · rw [hl] at e
    cases hx : colByName t.columns y.name with
    | none => rw [hx] at e; cases e
    | some x =>
      rw [hx] at e
      simp only [Option.map_some, Option.some.injEq] at e
      exact .inr (refers_of h2 (colByName_some hx).1 (by rw [← (npc_ref e).2.2.1]; exact hr))

theorem withoutRefs_ref {t : ATable} {y : AColumn} (h : y ∈ (withoutRefs t).columns) :
    y.reference = none := by
  simp only [withoutRefs, List.mem_map] at h
  obtain ⟨c, -, rfl⟩ := h
  rfl

/-- Between the removal of tables and the references of new ones, only tables that stay have
references, each of them one of the old or of the new schema. -/
theorem refs_between {pre post : List Operation} {op : Operation} (ho : ValidSchema old)
    (hn : ValidSchema new) (h : diff old new = pre ++ op :: post) (hph : phase op = 2 ∨ phase op = 3)
    (hd : ∀ n t, (pre.foldl pgEff old.getTable) n = some t → (t.columns.map (·.name)).Nodup)
    {m r k : String} (hr : RefIn (pre.foldl pgEff old.getTable) m r k) :
    ∃ s t, old.getTable m = some s ∧ new.getTable m = some t ∧
      (Refers old m r k ∨ Refers new m r k) := by
  obtain ⟨u, y, hu, hy, hyr⟩ := hr
  cases h1 : old.getTable m with
  | none =>
    exfalso
    cases h2 : new.getTable m with
    | none => rw [live_none ho hn h h1 h2] at hu; cases hu
    | some t =>
      rcases live_created ho hn h h1 h2 with ⟨e, -⟩ | e | ⟨-, e⟩
      · rw [e] at hu; cases hu
      · rw [e] at hu
        cases hu
        rw [withoutRefs_ref hy] at hyr
        cases hyr
      · exact phase_after h (by show phase op < 4; omega) e
  | some s =>
    cases h2 : new.getTable m with
    | none =>
      exfalso
      rcases live_removed ho hn h h1 h2 with ⟨-, e⟩ | e | e
      · refine e (phase_before h ?_ (by show 1 < phase op; omega))
        have hm : Operation.removeTableConstraints s ∈
            (diff old new).filter (fun o => o.target == m) := by
          rw [diff_filter ho hn, h1, h2]
          simp [diffFor]
        exact (List.mem_filter.1 hm).1
      · rw [e] at hu
        cases hu
        rw [withoutRefs_ref hy] at hyr
        cases hyr
      · rw [e] at hu; cases hu
    | some t =>
      obtain ⟨k1, k2⟩ := live_kept ho hn h h1 h2
      have hdu := hd _ _ k2
      rw [k2] at hu
      cases hu
      exact ⟨s, t, rfl, rfl, kept_refs k1 hdu h1 h2 hy hyr⟩

/-! ### Keys while the migration runs -/

theorem withoutRefs_mem {t : ATable} {z : AColumn} (h : z ∈ t.columns) :
    { z with reference := none } ∈ (withoutRefs t).columns :=
  List.mem_map.2 ⟨z, h, rfl⟩

/-- A key that stays is there all the time. -/
theorem key_kept {pre rest : List Operation} {res : String → Bool} (ho : ValidSchema old)
    (hn : ValidSchema new) (hf : PgFeasible env res p old new)
    (h : diff old new = pre ++ rest) {r k : String} {x y : AColumn} (hx : KeyColumn old r k x)
    (hy : KeyColumn new r k y) (hu : x.unique = true → y.unique = true) :
    KeyIn (pre.foldl pgEff old.getTable) r k := by
  obtain ⟨s, h1, hxc, hxk⟩ := hx
  obtain ⟨t, h2, hyc, hyk⟩ := hy
  obtain ⟨k1, k2⟩ := live_kept ho hn h h1 h2
  have hfl := kept_flag k1 (fun c x y hx hy => hf.key r s t c x y h1 h2 hx hy)
    (fun c y hx hy hp => (hf.added r s t c y h1 h2 hx hy).2.1 hp) hxc hyc
  have hcol := kept_col k1 k
  have hz : ∃ z, colByName ((pre.filter (fun o => o.target == r)).foldl pgTab s).columns k = some z ∧
      (z.unique = x.unique ∨ z.unique = y.unique) := by
    simp only [ATable.column] at hxc hyc
    rw [hxc, hyc] at hcol
    cases hz : colByName ((pre.filter (fun o => o.target == r)).foldl pgTab s).columns k with
    | none => rw [hz] at hcol; rcases hcol with e | e <;> cases e
    | some z =>
      rw [hz] at hcol
      simp only [Option.map_some, Option.some.injEq] at hcol
      exact ⟨z, rfl, hcol.imp (fun e => (npc_ref e).2.1) fun e => (npc_ref e).2.1⟩
  obtain ⟨z, hz, hzu⟩ := hz
  refine ⟨_, z, k2, (colByName_some hz).1, (colByName_some hz).2, ?_⟩
  simp only [flag, hz, Option.any_some] at hfl
  rcases hxk with hp | hp
  · exact .inl (by rw [hfl, hp])
  · exact .inr (by rcases hzu with e | e <;> rw [e] <;> first | exact hp | exact hu hp)

/-- A key of a new table is there once the table is. -/
theorem key_created {pre rest : List Operation} (ho : ValidSchema old) (hn : ValidSchema new)
    (h : diff old new = pre ++ rest) {r k : String} {y : AColumn} (hr : old.getTable r = none)
    (hpre : ∀ t, new.getTable r = some t → .addTable t ∈ pre) (hy : KeyColumn new r k y) :
    KeyIn (pre.foldl pgEff old.getTable) r k := by
  obtain ⟨t, h2, hyc, hyk⟩ := hy
  obtain ⟨h3, h4⟩ := colByName_some hyc
  rcases live_created ho hn h hr h2 with ⟨-, e⟩ | e | ⟨e, -⟩
  · exact absurd (hpre t h2) e
  · exact ⟨_, _, e, withoutRefs_mem h3, h4, hyk⟩
  · exact ⟨_, _, e, h3, h4, hyk⟩

theorem adds_table (ho : ValidSchema old) (hn : ValidSchema new) {r : String} {t : ATable}
    (h1 : old.getTable r = none) (h2 : new.getTable r = some t) : .addTable t ∈ diff old new := by
  have hm : Operation.addTable t ∈ (diff old new).filter (fun o => o.target == r) := by
    rw [diff_filter ho hn, h1, h2]
    simp [diffFor]
  exact (List.mem_filter.1 hm).1

/-- What the column operations refer to is there. -/
theorem key_column {pre rest : List Operation} {res : String → Bool} (ho : ValidSchema old)
    (hn : ValidSchema new) (hf : PgFeasible env res p old new) (h : diff old new = pre ++ rest)
    (hpre : ∀ b ∈ diff old new, phase b = 0 → b ∈ pre) {n r k : String} {s t : ATable}
    (h1 : old.getTable n = some s) (h2 : new.getTable n = some t) (hr : Refers new n r k) :
    KeyIn (pre.foldl pgEff old.getTable) r k := by
  cases hor : old.getTable r with
  | none =>
    obtain ⟨y, hy⟩ := hf.after n r k hr
    exact key_created ho hn h hor (fun t ht => hpre _ (adds_table ho hn hor ht) rfl) hy
  | some u =>
    obtain ⟨x, y, hx, hy, hu⟩ := hf.stays n s t r k h1 h2 (.inr hr) (by rw [hor]; simp)
    exact key_kept ho hn hf h hx hy hu

/-- In the end, the keys of the new schema are there. -/
theorem key_final {pre post : List Operation} {op : Operation} (ho : ValidSchema old)
    (hn : ValidSchema new) (po : PgSchema kw old) (pn : PgSchema kw new) (hkk : KeepsKeys old new)
    (h : diff old new = pre ++ op :: post) (hph : phase op = 4) {r k : String} {y : AColumn}
    (hy : KeyColumn new r k y) : KeyIn (pre.foldl pgEff old.getTable) r k := by
  cases h1 : old.getTable r with
  | none =>
    exact key_created ho hn h h1
      (fun t ht => phase_before h (adds_table ho hn h1 ht) (by show 0 < phase op; omega)) hy
  | some s =>
    obtain ⟨t, h2, hyc, hyk⟩ := hy
    obtain ⟨k1, k2⟩ := live_kept ho hn h h1 h2
    have hB : (op :: post).filter (fun o => o.target == r) = [] := by
      rw [List.filter_eq_nil_iff]
      intro b hb hbt
      have hbd : b ∈ diffTable s t := by
        rw [k1]
        exact List.mem_append_right _ (List.mem_filter.2 ⟨hb, hbt⟩)
      have hb3 := phase_col (diffTable_isCol hbd)
      have hp := diff_phases old new
      rw [h] at hp
      obtain ⟨-, hp, -⟩ := List.pairwise_append.1 hp
      rcases List.mem_cons.1 hb with rfl | hb
      · omega
      · have := (List.pairwise_cons.1 hp).1 b hb
        omega
    rw [hB, List.append_nil] at k1
    rw [← k1] at k2
    have := diffTable_final (po _ _ h1) (pn _ _ h2) (distinct_of_getTable ho h1)
      (distinct_of_getTable hn h2) (hkk.before _ _ h1) (hkk.after _ _ h2)
      (fun m x y hx hy hp => hkk.key r s t m x y h1 h2 hx hy hp) k
    simp only [ATable.column] at hyc
    rw [hyc] at this
    cases hz : colByName ((diffTable s t).foldl pgTab s).columns k with
    | none => rw [hz] at this; cases this
    | some z =>
      rw [hz] at this
      exact ⟨_, z, k2, (colByName_some hz).1, (colByName_some hz).2, by
        rw [this.pk, this.unique]; exact hyk⟩

/-! ### Defaults -/

theorem fits_of {res : String → Bool} {c : AColumn} {v : SqlVal} (hl : PgLiteral p v)
    (hf : PgFits env res p c v) {ty : SqlType} {w : List String}
    (h1 : c.typeid = some (.ty ty)) (h2 : pgTypeOf ty = some w) :
    env.fits w (pgLit p v) = true := by
  obtain ⟨t, h3, K, h4, h5, h6, h7, -⟩ := pgLiteral_ok (res := res) hl
  exact hf t _ ty w h3 (readLiteral_of ⟨K, h4.2, h5, h6, h7⟩) h1 h2

/-! ### The operations succeed -/

/-- What is referred to while columns are changed stays. -/
theorem unref_between {pre post : List Operation} {op : Operation} {res : String → Bool}
    (ho : ValidSchema old) (hn : ValidSchema new) (ha : NamesApart old new)
    (hf : PgFeasible env res p old new)
    (h : diff old new = pre ++ op :: post) (hph : phase op = 2 ∨ phase op = 3)
    (hd : ∀ n t, (pre.foldl pgEff old.getTable) n = some t → (t.columns.map (·.name)).Nodup)
    {n : String} (hnt : HasTable old new n) {m r k : String}
    (hr : RefIn (pre.foldl pgEff old.getTable) m r k) (e : lower r = lower n) :
    r = n ∧ (old.getTable n ≠ none →
      ∃ x y, KeyColumn old n k x ∧ KeyColumn new n k y ∧ (x.unique = true → y.unique = true)) := by
  obtain ⟨s, t, h1, h2, hR⟩ := refs_between ho hn h hph hd hr
  have hrt : HasTable old new r := by
    rcases hR with hR | hR
    · obtain ⟨x, u, hu, -⟩ := hf.before m r k hR
      exact ⟨u, .inl hu⟩
    · obtain ⟨x, u, hu, -⟩ := hf.after m r k hR
      exact ⟨u, .inr hu⟩
  have e' := ha.tables r n hrt hnt e
  subst e'
  exact ⟨rfl, fun hno => hf.stays m s t r k h1 h2 hR hno⟩

theorem op_go {pre post : List Operation} {op : Operation} {res : String → Bool}
    (hp : Permissive env) (hen : Naming env) (ho : ValidSchema old) (hn : ValidSchema new)
    (po : PgSchema kw old) (pn : PgSchema kw new) (ha : NamesApart old new)
    (hw : PgWritable p old new) (hkk : KeepsKeys old new) (hf : PgFeasible env res p old new)
    (h : diff old new = pre ++ op :: post) {db : PDb}
    (hJ : J old new (pre.foldl pgEff old.getTable) db) :
    ∃ db', execAll env db (pgStmts p op) = some db' := by
  have hmem : op ∈ diff old new := by rw [h]; simp
  have hfo := diff_found ho hn hmem
  have hrd := diff_ready ho hn po pn hkk pre op post h
  have hop := diff_pgOp ho hn po pn hw hmem
  have hfil := cut_target ho hn h op.target
  rw [List.filter_cons, if_pos (by simp)] at hfil
  have hd : ∀ n t, (pre.foldl pgEff old.getTable) n = some t → (t.columns.map (·.name)).Nodup := by
    intro n t hG
    obtain ⟨s, -, hT⟩ := hJ.tables n t hG
    exact hT.distinct
  cases op with
  | addTable t =>
    obtain ⟨h1, h2⟩ := hfo
    obtain ⟨r1, r2, r3, r4⟩ := hrd
    rw [show Operation.target (.addTable t) = t.name from rfl, h1, h2] at hfil
    simp only [diffFor] at hfil
    have hG : (pre.foldl pgEff old.getTable) t.name = none := by
      rw [pgEff_all, h2]
      cases hA : pre.filter (fun o => o.target == t.name) with
      | nil => rfl
      | cons a X =>
        rw [hA] at hfil
        simp only [List.cons_append, List.cons.injEq] at hfil
        obtain ⟨-, hfil⟩ := hfil
        have : Operation.addTable t ∈ (if t.columns.any (fun c => c.reference.isSome) then
            [Operation.addTableConstraints t] else []) := by
          rw [← hfil]; simp
        split at this <;> simp at this
    obtain ⟨d, h3⟩ := go_create (env := env) hp ha hJ r1 r2 r3 r4 hG (hkk.after _ _ h1)
    exact ⟨d, by simp only [pgStmts]; rw [execAll_one]; exact h3⟩
  | addTableIfNotExists t => exact hrd.elim
  | addTableConstraints t =>
    obtain ⟨r1, r2, r3⟩ := hrd
    refine go_addFks hp hen ha (pre := []) (N := t.name) (n := t.name) (by simpa using r3) r2.columns
      hJ (by rw [r1]; rfl) ?_
    intro c hc r k e
    obtain ⟨y, hy⟩ := hf.after t.name r k (refers_of hfo.1 hc e)
    exact key_final ho hn po pn hkk h rfl hy
  | removeTableConstraints t =>
    obtain ⟨r1, r2⟩ := hrd
    exact go_dropFks hp ha (pre := []) (N := t.name) (n := t.name) (by simpa using r2)
      (po _ _ hfo.1).columns hJ (by rw [r1]; rfl)
  | removeTable n =>
    obtain ⟨⟨s, h1⟩, h2⟩ := hfo
    rw [show Operation.target (.removeTable n) = n from rfl, h1, h2] at hfil
    simp only [diffFor] at hfil
    have hG : (pre.foldl pgEff old.getTable) n = some (withoutRefs s) := by
      rw [pgEff_all, h1]
      rcases cut_pair hfil.symm rfl with ⟨-, e⟩ | ⟨e, -⟩
      · cases e
      · rw [e]; rfl
    obtain ⟨d, h3⟩ := go_dropTable (env := env) hp hJ hG (by
      intro m r k hr hne e
      obtain ⟨rfl, hk⟩ := unref_between ho hn ha hf h (.inl rfl) hd ⟨s, .inl h1⟩ hr e
      obtain ⟨x, y, -, ⟨u, hu, -⟩, -⟩ := hk (by rw [h1]; simp)
      rw [h2] at hu
      cases hu)
    exact ⟨d, by simp only [pgStmts]; rw [execAll_one]; exact h3⟩
  | addColumn n c =>
    obtain ⟨s, t, h1, h2, h3, h4⟩ := hfo
    obtain ⟨u, r1, r2, r3, r4⟩ := hrd
    obtain ⟨hA, hpk, hfit⟩ := hf.added n s t c.name c h1 h2 h3 h4
    obtain ⟨k1, k2⟩ := live_kept ho hn h h1 h2
    have hst := pg_stored r2
    refine go_add hp hen ha hJ r1 r2 r3 r4 hA ?_ ?_ ?_
    · intro hcp y hy
      have hs := hpk hcp
      rw [k2] at r1
      cases r1
      have hfl : flag ((pre.filter (fun o => o.target == n)).foldl pgTab s) y.name = false := by
        rw [flag_all]
        refine flag_off' ?_ ?_
        · intro o hop' hos e
          have hod : o ∈ diffTable s t := by rw [k1]; exact List.mem_append_left _ hop'
          obtain ⟨n', c', rfl, hcp', h3', h4'⟩ := setter_adds hod
            (fun c x y hx hy => hf.key n s t c x y h1 h2 hx hy) hos
          have e2 : c'.name = c.name := hkk.after n t h2 c' (colByName_some h4').1 c
            (colByName_some h4).1 hcp' hcp
          simp only [Operation.colTarget, Option.some.injEq] at e
          exact r4 y hy (by rw [← e, e2])
        · simp only [flag]
          cases hx : colByName s.columns y.name with
          | none => rfl
          | some x => exact hs x (colByName_some hx).1
      have hl := colByName_of_mem (hd _ _ k2) hy
      simpa only [flag, hl, Option.any_some] using hfl
    · intro v hv ty w g1 g2
      have hv := (newValue_iff hst).2 hv
      exact fits_of (hop.2.2 v hv) (hfit v hv) g1 g2
    · intro r k e
      refine .inl (key_column ho hn hf h ?_ h1 h2 (refers_of h2 (colByName_some h4).1 e))
      intro b hb hb0
      exact phase_before h hb (by show phase b < 3; omega)
  | removeColumn n c =>
    obtain ⟨s, t, x, h1, h2, h3, h4⟩ := hfo
    obtain ⟨u, r1, r2⟩ := hrd
    obtain ⟨k1, k2⟩ := live_kept ho hn h h1 h2
    rw [List.filter_cons, if_pos (by simp [Operation.target])] at k1
    have hlc := live_column k1 (m := c) rfl
    simp only [ATable.column] at h3
    rw [h3] at hlc
    cases hz : colByName ((pre.filter (fun o => o.target == n)).foldl pgTab s).columns c with
    | none => rw [hz] at hlc; cases hlc
    | some z =>
      obtain ⟨z1, rfl⟩ := colByName_some hz
      refine go_remove hp hJ k2 z1 ?_
      rintro m r k hr ⟨e1, e2⟩
      obtain ⟨rfl, hk⟩ := unref_between ho hn ha hf h (.inr rfl) hd ⟨s, .inl h1⟩ hr e1
      obtain ⟨x', y', -, ⟨t', ht', hy', -⟩, -⟩ := hk (by rw [h1]; simp)
      rw [h2] at ht'
      cases ht'
      obtain ⟨g1, g2⟩ := colByName_some hy'
      have := ha.columns r k z.name (g2 ▸ hasColumn_of (.inr h2) g1) r2 e2
      rw [this, h4] at hy'
      cases hy'
  | changeColumn n o c =>
    obtain ⟨s, t, h1, h2, h3, h4⟩ := hfo
    obtain ⟨u, x, r1, r2, r3, r4, r5, r6, r7⟩ := hrd
    obtain ⟨k1, k2⟩ := live_kept ho hn h h1 h2
    have hopk : o.pk = c.pk := hf.key n s t c.name o c h1 h2 h3 h4
    have hfl := kept_flag k1 (fun c x y hx hy => hf.key n s t c x y h1 h2 hx hy)
      (fun c y hx hy hp => (hf.added n s t c y h1 h2 hx hy).2.1 hp) h3 h4
    have hxn : x.name = c.name := r3.name.trans r4
    have hxl := colByName_of_mem (hd _ _ r1) r2
    rw [hxn] at hxl
    rw [k2] at r1
    cases r1
    have hxpk : x.pk = c.pk := by
      simp only [flag, hxl, Option.any_some] at hfl
      rw [hfl, hopk]
    refine go_change hp hen ha hJ k2 r2 r3 r4 r5 r6 r7 hxpk hopk
      (fun hne => hf.type n s t c.name o c h1 h2 h3 h4 hne) ?_ ?_ ?_
    · rintro hou hcu m r k hr ⟨e1, e2⟩
      obtain ⟨rfl, hk⟩ := unref_between ho hn ha hf h (.inr rfl) hd ⟨s, .inl h1⟩ hr e1
      obtain ⟨x', y', ⟨s', hs', hx', -⟩, ⟨t', ht', hy', -⟩, huu⟩ := hk (by rw [h1]; simp)
      rw [h1] at hs'
      cases hs'
      rw [h2] at ht'
      cases ht'
      obtain ⟨g1, g2⟩ := colByName_some hy'
      have := ha.columns r k c.name (g2 ▸ hasColumn_of (.inr h2) g1)
        (hasColumn_of (.inr h2) (colByName_some h4).1) (by rw [e2, hxn])
      subst this
      rw [h3] at hx'
      cases hx'
      rw [h4] at hy'
      cases hy'
      rw [huu hou] at hcu
      cases hcu
    · intro v hb hv ty w g1 g2
      exact fits_of (hop.2.2.2.2 hb v hv) (hf.default n s t c.name o c h1 h2 h3 h4 v hv) g1 g2
    · intro r k e
      have hkey := key_column (pre := pre ++ [.changeColumn n o c]) (rest := post) ho hn hf
        (by rw [h]; simp) (fun b hb hb0 => List.mem_append_left _
          (phase_before h hb (by show phase b < 3; omega))) h1 h2
        (refers_of h2 (colByName_some h4).1 e)
      have hE : (pre ++ [Operation.changeColumn n o c]).foldl pgEff old.getTable =
          upd (pre.foldl pgEff old.getTable) n
            (some (((pre.filter (fun o => o.target == n)).foldl pgTab s).replaceColumn c)) := by
        rw [List.foldl_append]
        simp only [List.foldl_cons, List.foldl_nil, pgEff, pgTable]
        rw [show Operation.target (.changeColumn n o c) = n from rfl, k2]
        have hb : (c.pk && !c.pk) = false := by cases c.pk <;> rfl
        simp only [Option.map_some, pgTab, pgChange, hopk, hxl, hxpk, hb, Bool.false_eq_true,
          if_false]
      rw [hE] at hkey
      exact hkey

theorem ops_go {res : String → Bool}
    (hp : Permissive env) (hen : Naming env) (ho : ValidSchema old) (hn : ValidSchema new)
    (po : PgSchema kw old) (pn : PgSchema kw new) (ha : NamesApart old new)
    (hw : PgWritable p old new) (hkk : KeepsKeys old new) (hf : PgFeasible env res p old new)
    {pre post : List Operation} (h : diff old new = pre ++ post) {db : PDb}
    (hJ : J old new (pre.foldl pgEff old.getTable) db) :
    ∃ db', execAll env db (post.flatMap (pgStmts p)) = some db' := by
  induction post generalizing pre db with
  | nil => exact ⟨_, rfl⟩
  | cons op post ih =>
    obtain ⟨d, h1⟩ := op_go hp hen ho hn po pn ha hw hkk hf h hJ
    have hJ1 := op_step hen ha hJ (diff_ready ho hn po pn hkk pre op post h) h1
    obtain ⟨d2, h2⟩ := ih (pre := pre ++ [op]) (by rw [h]; simp) (db := d) (by
      rw [List.foldl_append]; exact hJ1)
    exact ⟨d2, by rw [List.flatMap_cons]; exact execAll_append_some.2 ⟨d, h1, h2⟩⟩

theorem pg_migration_runs {res : String → Bool} (hk : PgWords kw res) (hen : Naming env)
    (hp : Permissive env)
    (ho : ValidSchema old) (hn : ValidSchema new) (po : PgSchema kw old) (pn : PgSchema kw new)
    (ha : NamesApart old new) (hw : PgWritable p old new) (hkk : KeepsKeys old new)
    (hf : PgFeasible env res p old new) {db : PDb} (hdb : PgProper db) (hi : PgImplements old db) :
    ∃ s db', PgDdl.migrationSql kw p old (diff old new) = .ok s ∧
      execScript env res db s = some db' ∧ PgProper db' ∧ PgImplements new db' := by
  obtain ⟨s, h1, h2⟩ := migration_text hk ho hn po pn hw
  obtain ⟨db', h3⟩ := ops_go hp hen ho hn po pn ha hw hkk hf (pre := []) (post := diff old new) rfl
    (J.start (new := new) ho hdb hi)
  have hJ := ops_step hen ha (J.start ho hdb hi) (diff_ready ho hn po pn hkk) h3
  exact ⟨s, db', h1, by simp only [execScript, h2]; exact h3, hJ.proper,
    hJ.finish hn (diff_final ho hn po pn hkk)⟩

end Butane.PgP
