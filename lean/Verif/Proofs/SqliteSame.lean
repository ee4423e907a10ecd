/-
What is true of a schema, as far as SQLite is concerned, is true of the same schema.  And statements
that meet no rows leave none.
-/
import Verif.Proofs.SqliteMigrate
import Verif.Props.MigStore

namespace Butane.DdlP
open Butane Butane.Ddl Butane.Spec
variable {env : SqliteEnv}

theorem same_left {a b : ADB} (h : SchemaByName a b) {n : String} {t : ATable} (ht : b.getTable n = some t) :
    ∃ s, a.getTable n = some s ∧ SameByName s t := by
  have := h n
  rw [ht] at this
  cases hs : a.getTable n with
  | none => rw [hs] at this; exact this.elim
  | some s => rw [hs] at this; exact ⟨s, rfl, this⟩

theorem same_none {a b : ADB} (h : SchemaByName a b) {n : String} (ht : b.getTable n = none) :
    a.getTable n = none := by
  have := h n
  rw [ht] at this
  cases hs : a.getTable n with
  | none => rfl
  | some s => rw [hs] at this; exact this.elim

theorem same_column {s t : ATable} (h : SameByName s t) {n : String} {c : AColumn} (hc : t.column n = some c) :
    ∃ d, s.column n = some d ∧ SameColumn d c := by
  have := h.2 n
  change colByName t.columns n = some c at hc
  rw [hc] at this
  cases hs : colByName s.columns n with
  | none => rw [hs] at this; exact this.elim
  | some d => rw [hs] at this; exact ⟨d, hs, this⟩

theorem same_column_none {s t : ATable} (h : SameByName s t) {n : String} (hc : t.column n = none) :
    s.column n = none := by
  have := h.2 n
  change colByName t.columns n = none at hc
  rw [hc] at this
  cases hs : colByName s.columns n with
  | none => exact hs
  | some d => rw [hs] at this; exact this.elim

theorem same_mem {s t : ATable} (h : SameByName s t) (ht : (t.columns.map (·.name)).Nodup) {c : AColumn}
    (hc : c ∈ t.columns) : ∃ d ∈ s.columns, SameColumn d c := by
  obtain ⟨d, h1, h2⟩ := same_column h (colByName_of_mem ht hc)
  exact ⟨d, (colByName_some h1).1, h2⟩

theorem plainColumn_same {a b : AColumn} (h : SameColumn a b) (ha : PlainColumn a) : PlainColumn b := by
  refine ⟨h.name ▸ ha.name, ?_, fun hb => ?_, fun r hr => ?_⟩
  · obtain ⟨st, hst⟩ := ha.type
    exact ⟨st, (storedAs_same h).1 hst⟩
  · rw [← h.pk]
    exact ha.auto (by rw [h.auto, hb])
  · have hrel := h.reference
    rw [hr] at hrel
    cases har : a.reference with
    | none => rw [har] at hrel; exact hrel.elim
    | some r' =>
      obtain ⟨t, k, rfl, h1, h2, h3⟩ := ha.reference r' har
      have : b.reference = some (.literal t k) := (literal_same h t k).1 har
      rw [hr] at this
      exact ⟨t, k, Option.some.inj this, h1, h2, h3⟩

theorem sqliteSchema_same {a b : ADB} (hb : ValidSchema b) (h : SameSchema a b) (ha : SqliteSchema a) :
    SqliteSchema b := by
  have hs := (sameSchema_iff ha.valid hb).1 h
  refine ⟨hb, fun n t ht => ?_, ?_, fun n t ht c hc k hr => ?_⟩
  · obtain ⟨s, h1, h2⟩ := same_left hs ht
    have := ha.plain n s h1
    refine ⟨h2.1 ▸ this.name, fun c hc => ?_⟩
    obtain ⟨d, hd, hdc⟩ := same_mem h2 (distinct_of_getTable hb ht) hc
    exact plainColumn_same hdc (this.columns d hd)
  · cases ht : b.getTable "butane_migrations" with
    | none => rfl
    | some t =>
      obtain ⟨s, h1, -⟩ := same_left hs ht
      rw [ha.own.absent] at h1
      cases h1
  · obtain ⟨s, h1, h2⟩ := same_left hs ht
    obtain ⟨d, hd, hdc⟩ := same_mem h2 (distinct_of_getTable hb ht) hc
    exact ha.own.refs n s h1 d hd k ((literal_same hdc _ _).2 hr)

theorem hasSchema_same {a b : ADB} (ha : ValidSchema a) (hb : ValidSchema b) (h : SameSchema a b) {u : SDb}
    (hu : HasSchema env a u) : HasSchema env b u :=
  ⟨implements_same ((sameSchema_iff ha hb).1 h) hu.tables, hu.proper, hu.whole⟩

theorem sqliteSchema_new : SqliteSchema ADB.new :=
  ⟨settled_new.valid, (fun n t h => by cases h), rfl, (fun n t h => by cases h)⟩

theorem hasSchema_new : HasSchema env ADB.new [] :=
  ⟨fun n => trivial, ⟨List.Pairwise.nil, (fun n s h => by cases h)⟩, (fun e he => by cases he)⟩

/-! ### Feasible changes -/

theorem oneKey_same {s t : ATable} (h : SameByName s t) (ht : (t.columns.map (·.name)).Nodup) (hs : OneKey s) : OneKey t := by
  intro c hc d hd hcp hdp
  obtain ⟨c', h1, h2⟩ := same_mem h ht hc
  obtain ⟨d', h3, h4⟩ := same_mem h ht hd
  rw [← h2.name, ← h4.name]
  exact hs c' h1 d' h3 (by rw [h2.pk, hcp]) (by rw [h4.pk, hdp])

theorem newNull_same {a b : AColumn} (h : SameColumn a b) (hn : NewValue b .null) : NewValue a .null := by
  have hd := h.default
  generalize hv : SqlVal.null = v at hn
  cases hn with
  | default hb =>
    subst hv
    rw [hb] at hd
    cases ha : a.default with
    | none => rw [ha] at hd; exact hd.elim
    | some w =>
      rw [ha] at hd
      rcases hd with hd | ⟨x, y, -, hd, -⟩
      · exact .default (hd ▸ ha)
      · cases hd
  | null h1 h2 =>
    rw [h1] at hd
    cases ha : a.default with
    | none => exact .null ha (by rw [h.nullable, h2])
    | some w => rw [ha] at hd; exact hd.elim
  | _ => cases hv

theorem feasible_same {old old' new new' : ADB} (ho : ValidSchema old) (ho' : ValidSchema old') (hn : ValidSchema new)
    (hn' : ValidSchema new') (h : SameSchema old old') (h' : SameSchema new new') {u : SDb}
    (hf : Feasible old new u) : Feasible old' new' u := by
  have hs := (sameSchema_iff ho ho').1 h
  have hs' := (sameSchema_iff hn hn').1 h'
  constructor
  · intro n t h1 h2
    obtain ⟨s, h3, h4⟩ := same_left hs' h2
    obtain ⟨h5, h6⟩ := hf.created n s (same_none hs h1) h3
    refine ⟨fun he => ?_, oneKey_same h4 (distinct_of_getTable hn' h2) h6⟩
    cases hc : s.columns with
    | nil => exact h5 hc
    | cons c l =>
      obtain ⟨d, hd, -⟩ := same_mem h4.symm (distinct_of_getTable hn h3) (c := c) (by simp [hc])
      rw [he] at hd
      cases hd
  · intro n t h1 h2 m w c k hw hmn hc hr
    obtain ⟨s, h3, -⟩ := same_left hs h1
    have : ∃ v, (old.getTable m = some v ∨ new.getTable m = some v) ∧ SameByName v w ∧ (w.columns.map (·.name)).Nodup := by
      rcases hw with hw | hw
      · obtain ⟨v, h4, h5⟩ := same_left hs hw
        exact ⟨v, .inl h4, h5, distinct_of_getTable ho' hw⟩
      · obtain ⟨v, h4, h5⟩ := same_left hs' hw
        exact ⟨v, .inr h4, h5, distinct_of_getTable hn' hw⟩
    obtain ⟨v, h4, h5, h6⟩ := this
    obtain ⟨d, h7, h8⟩ := same_mem h5 h6 hc
    exact hf.dropped n s h3 (same_none hs' h2) m v d k h4 hmn h7 ((literal_same h8 _ _).2 hr)
  · intro n s t c y h1 h2 h3 h4
    obtain ⟨s', g1, g2⟩ := same_left hs h1
    obtain ⟨t', g3, g4⟩ := same_left hs' h2
    obtain ⟨y', g5, g6⟩ := same_column g4 h4
    obtain ⟨k1, k2, k3⟩ := hf.added n s' t' c y' g1 g3 (same_column_none g2 h3) g5
    exact ⟨by rw [← g6.pk, k1], by rw [← g6.unique, k2], fun hnl hv => k3 (by rw [g6.nullable, hnl]) (newNull_same g6 hv)⟩
  · intro n s t c x h1 h2 h3 h4
    obtain ⟨s', g1, g2⟩ := same_left hs h1
    obtain ⟨t', g3, g4⟩ := same_left hs' h2
    obtain ⟨x', g5, g6⟩ := same_column g2 h3
    obtain ⟨k1, k2, k3, k, z, w, k4, k5⟩ := hf.removed n s' t' c x' g1 g3 g5 (same_column_none g4 h4)
    obtain ⟨z', q1, -⟩ := same_column g2.symm k4
    obtain ⟨w', q2, -⟩ := same_column g4.symm k5
    refine ⟨by rw [← g6.pk, k1], by rw [← g6.unique, k2], ?_, k, z', w', q1, q2⟩
    have := g6.reference
    rw [k3] at this
    cases hr : x.reference with
    | none => rfl
    | some r => rw [hr] at this; exact this.elim
  · intro n s t c x y h1 h2 h3 h4
    obtain ⟨s', g1, g2⟩ := same_left hs h1
    obtain ⟨t', g3, g4⟩ := same_left hs' h2
    obtain ⟨x', g5, g6⟩ := same_column g2 h3
    obtain ⟨y', g7, g8⟩ := same_column g4 h4
    rcases hf.changed n s' t' c x' y' g1 g3 g5 g7 with ⟨k1, k2⟩ | ⟨k1, k2, k3, k4, k5⟩
    · refine .inl ⟨(g6.symm.trans k1).trans g8, fun r hr => ?_⟩
      have := g6.default
      rw [hr] at this
      cases hx : x'.default with
      | none => rw [hx] at this; exact this.elim
      | some v =>
        rw [hx] at this
        rcases this with rfl | ⟨a, b, -, hb, hab⟩
        · exact k2 r hx
        · cases hb
          simp only [F64.eq, Bool.and_eq_true, Bool.not_eq_true'] at hab
          exact hab.1.2
    · refine .inr ⟨by rw [← g6.pk, k1, g8.pk], oneKey_same g2 (distinct_of_getTable ho' h1) k2, k3, ?_, ?_⟩
      · exact same_none (fun n => (hs n).symm (fun _ _ => SameByName.symm)) k4
      · exact same_none (fun n => (hs' n).symm (fun _ _ => SameByName.symm)) k5

theorem feasible_empty {old new : ADB} (h : Feasible old new []) {u : SDb} (hu : NoRows u) : Feasible old new u := by
  refine ⟨h.created, h.dropped, h.added, h.removed, fun n s t c x y h1 h2 h3 h4 => ?_⟩
  rcases h.changed n s t c x y h1 h2 h3 h4 with k | ⟨k1, k2, -, k4, k5⟩
  · exact .inl k
  · exact .inr ⟨k1, k2, fun w hw => hu _ (SMap.mem_of_lookup hw), k4, k5⟩

/-! ### No rows -/

theorem noRows_insert {d : SDb} (h : NoRows d) (n : String) {t : STable} (ht : t.rows = []) : NoRows (d.insert n t) := by
  induction d with
  | nil =>
    intro e he
    rw [List.mem_singleton.1 he]
    exact ht
  | cons p rest ih =>
    obtain ⟨k, v⟩ := p
    have hr : NoRows rest := fun e he => h e (List.mem_cons_of_mem _ he)
    have hv := h _ (List.mem_cons_self ..)
    intro e he
    simp only [SMap.insert] at he
    split at he
    · rcases List.mem_cons.1 he with rfl | he
      · exact ht
      · exact h e he
    · rcases List.mem_cons.1 he with rfl | he
      · exact ht
      · exact hr e he
    · rcases List.mem_cons.1 he with rfl | he
      · exact hv
      · exact ih hr e he

theorem noRows_erase {d : SDb} (h : NoRows d) (n : String) : NoRows (d.erase n) := by
  induction d with
  | nil => exact h
  | cons p rest ih =>
    obtain ⟨k, v⟩ := p
    have hr : NoRows rest := fun e he => h e (List.mem_cons_of_mem _ he)
    intro e he
    simp only [SMap.erase] at he
    split at he
    · exact hr e he
    · rcases List.mem_cons.1 he with rfl | he
      · exact h _ (List.mem_cons_self ..)
      · exact ih hr e he

theorem exec_noRows {d d' : SDb} {s : DStmt} (hd : NoRows d) (h : exec env d s = some d') : NoRows d' := by
  have hl : ∀ {n t}, d.lookup n = some t → t.rows = [] := fun h => hd _ (SMap.mem_of_lookup h)
  cases s with
  | createTable ifNot n cols fks strict =>
    simp only [exec] at h
    split at h
    · split at h
      · cases h; exact hd
      · cases h
    · split at h
      · cases h; exact noRows_insert hd _ rfl
      · cases h
  | dropTable n =>
    simp only [exec] at h
    split at h
    · split at h
      · cases h
      · cases h; exact noRows_erase hd _
    · cases h
  | addColumn n c =>
    simp only [exec] at h
    split at h
    · rename_i t ty ht hty
      split at h
      · cases h
      · split at h
        · cases h
        · rw [hl ht] at h
          simp only [allSome] at h
          cases h
          exact noRows_insert hd _ rfl
    · cases h
  | dropColumn n c =>
    simp only [exec] at h
    split at h
    · rename_i t ht
      split at h
      · split at h
        · cases h
        · rw [hl ht] at h
          simp only [allSome] at h
          cases h
          exact noRows_insert hd _ rfl
      · cases h
    · cases h
  | insertSelect dst cols src =>
    simp only [exec] at h
    split at h
    · rename_i dt st h1 h2
      rw [hl h2] at h
      simp only [allSome] at h
      split at h
      · cases h
        exact noRows_insert hd _ (by simp [hl h1])
      · cases h
    · cases h
  | renameTable old new =>
    simp only [exec] at h
    split at h
    · rename_i t h1 h2
      cases h
      intro e he
      obtain ⟨x, hx, rfl⟩ := List.mem_map.1 he
      exact noRows_insert (noRows_erase hd old) new (hl h1) x hx
    · cases h
  | _ => simp [exec] at h

theorem execAll_noRows {ss : List DStmt} {d d' : SDb} (hd : NoRows d) (h : execAll env d ss = some d') : NoRows d' := by
  induction ss generalizing d with
  | nil => cases h; exact hd
  | cons s ss ih =>
    simp only [execAll] at h
    cases hs : exec env d s with
    | none => rw [hs] at h; cases h
    | some d1 =>
      rw [hs] at h
      exact ih (exec_noRows hd hs) h

end Butane.DdlP
