/-
Lemmas about migrations in memory.
-/
import Verif.Proofs.MigStore

namespace Butane
open Spec

/-- The SQL of a new migration, for each backend. -/
def SqlFor (fromDb toDb : ADB) (changes : List Operation) (b : MigBackend) (up down : String) : Prop :=
  b.sql fromDb changes = .ok up ∧ b.sql toDb (diff toDb fromDb) = .ok down

theorem from_none_modified {toDb : ADB} (ht : Settled toDb) {t : ATable} (h : t ∈ toDb.tables.values) :
    t.name ∈ (diff ADB.new toDb).filterMap modifiedTable := by
  have h1 := (settled_values ht h).1
  by_cases hm : t.name ∈ (diff ADB.new toDb).filterMap modifiedTable
  · exact hm
  · obtain ⟨s, hs, _⟩ := unmodified_same settled_new.valid ht.valid h1 hm
    cases hs

theorem mem_tableStep {json : Bool} {modified : List String} {from_ : Option MemMigration} {t : ATable}
    (h : from_ = none → t.name ∈ modified) (p : MemMigrations × MemMigration) :
    tableStep (MemMigrations.ops json) modified from_ t p =
      ((p.2.addModifiedTable json t).1, p.1, (p.2.addModifiedTable json t).2) := by
  unfold tableStep
  split
  · rfl
  · rename_i hn
    cases from_ with
    | none => exact absurd (by simpa using h rfl) hn
    | some f => rfl

theorem addModified_settled {json : Bool} {m : MemMigration} (h : Settled m.db) (hx : m.db.extraTypes = [])
    {t : ATable} (ht : SettledTable t) :
    m.addModifiedTable json t = (.ok (), { m with db := m.db.replaceTable t }) := by
  unfold MemMigration.addModifiedTable MemMigration.resolved
  rw [show ({ m with db := m.db.replaceTable t } : MemMigration).db = m.db.replaceTable t from rfl,
    settled_resolve (settled_replace h ht) hx]

/-- The tables of a settled schema, put one by one into an empty schema, give it back. -/
theorem mem_tables_loop {σ : Type} {json : Bool} {toDb : ADB} (ht : Settled toDb) (m0 : MemMigration)
    (hm0 : m0.db = ADB.new) (f : ATable → Step (σ × MemMigration) Unit)
    (hf : ∀ t ∈ toDb.tables.values, ∀ p,
      f t p = ((p.2.addModifiedTable json t).1, p.1, (p.2.addModifiedTable json t).2)) (s : σ) :
    forSteps f toDb.tables.values (s, m0) = (.ok (), s, { m0 with db := ⟨toDb.tables, []⟩ }) := by
  obtain ⟨p', h1, h2⟩ := forSteps_ok (f := f) (l := toDb.tables.values) (s := (s, m0))
    (fun rest p => (∀ t ∈ rest, t ∈ toDb.tables.values) ∧ p.1 = s ∧ p.2 = { m0 with db := p.2.db } ∧
      Settled p.2.db ∧ p.2.db.extraTypes = [] ∧
      (∀ n t, p.2.db.getTable n = some t → toDb.getTable n = some t) ∧
      (∀ n t, toDb.getTable n = some t → t ∈ rest ∨ p.2.db.getTable n = some t))
    (by
      rintro t rest p ⟨h1, h2, h3, h4, h5, h6, h7⟩
      have htt := settled_values ht (h1 t (by simp))
      rw [hf t (h1 t (by simp)), addModified_settled h4 h5 htt.2]
      refine ⟨_, rfl, fun x hx => h1 x (by simp [hx]), h2, ?_, settled_replace h4 htt.2, h5, ?_, ?_⟩
      · simp only
        rw [h3]
      · intro n x hx
        simp only [ADB.getTable, ADB.replaceTable, SMap.lookup_insert] at hx
        split at hx
        · cases hx
          rename_i he
          subst he
          exact htt.1
        · exact h6 n x hx
      · intro n x hx
        simp only [ADB.getTable, ADB.replaceTable, SMap.lookup_insert]
        rcases h7 n x hx with h8 | h8
        · rcases List.mem_cons.1 h8 with rfl | h8
          · right
            rw [if_pos (settled_get ht hx).1.symm]
          · exact .inl h8
        · right
          split
          · rename_i he
            subst he
            rw [htt.1] at hx
            exact hx
          · exact h8)
    ⟨fun _ h => h, rfl, rfl, by rw [hm0]; exact settled_new, by rw [hm0]; rfl,
      (fun n t h => by rw [hm0] at h; cases h), fun n t h => .inl (mem_values h)⟩
  obtain ⟨_, h3, h4, h5, h6, h7, h8⟩ := h2
  rw [h1]
  have : p'.2.db = ⟨toDb.tables, []⟩ := by
    have hext : p'.2.db.tables = toDb.tables := by
      apply SMap.ext h5.valid.sorted ht.valid.sorted
      intro n
      cases h : toDb.tables.lookup n with
      | some t =>
        rcases h8 n t h with h9 | h9
        · cases h9
        · exact h9
      | none =>
        cases h9 : p'.2.db.tables.lookup n with
        | none => rfl
        | some t =>
          have := h7 n t h9
          rw [ADB.getTable, h] at this
          cases this
    cases hd : p'.2.db with
    | mk a b => rw [hd] at hext h6; simp at hext h6; rw [hext, h6]
  obtain ⟨p1, p2⟩ := p'
  simp only at h3 h4 this
  rw [h4, this, h3]

theorem mem_sqlStep {json : Bool} {fromDb toDb : ADB} {changes : List Operation} {b : MigBackend}
    {p p' : MemMigrations × MemMigration}
    (h : sqlStep (MemMigrations.ops json) fromDb toDb changes b p = (.ok (), p')) :
    ∃ up down, SqlFor fromDb toDb changes b up down ∧ p' = (p.1, p.2.addSql b.name up down) := by
  unfold sqlStep at h
  split at h
  · cases h
  · rename_i up h1
    split at h
    · cases h
    · rename_i down h2
      cases h
      exact ⟨up, down, ⟨h1, h2⟩, rfl⟩

theorem mem_sqlStep_keeps {json : Bool} {fromDb toDb : ADB} {changes : List Operation} {b : MigBackend}
    (p : MemMigrations × MemMigration) :
    (sqlStep (MemMigrations.ops json) fromDb toDb changes b p).2.1 = p.1 := by
  unfold sqlStep
  split
  · rfl
  · split <;> rfl

theorem mem_tableStep_keeps {json : Bool} {modified : List String} {from_ : Option MemMigration} {t : ATable}
    (p : MemMigrations × MemMigration) :
    (tableStep (MemMigrations.ops json) modified from_ t p).2.1 = p.1 := by
  unfold tableStep
  split
  · rfl
  · cases from_ <;> rfl

theorem mem_sql_loop {json : Bool} {fromDb toDb : ADB} {changes : List Operation} {backends : List MigBackend}
    (hnd : (backends.map (·.name)).Nodup) {p p' : MemMigrations × MemMigration}
    (h : forSteps (sqlStep (MemMigrations.ops json) fromDb toDb changes) backends p = (.ok (), p')) :
    p'.1 = p.1 ∧ p'.2 = { p.2 with up := p'.2.up, down := p'.2.down } ∧
    ∀ b ∈ backends, ∃ up down, SqlFor fromDb toDb changes b up down ∧
      p'.2.up.lookup b.name = some up ∧ p'.2.down.lookup b.name = some down := by
  have := forSteps_inv (f := sqlStep (MemMigrations.ops json) fromDb toDb changes)
    (fun rest q => (rest.map (·.name)).Nodup ∧ q.1 = p.1 ∧
      q.2 = { p.2 with up := q.2.up, down := q.2.down } ∧
      ∀ b ∈ backends, b ∈ rest ∨ (b.name ∉ rest.map (·.name) ∧ ∃ up down, SqlFor fromDb toDb changes b up down ∧
        q.2.up.lookup b.name = some up ∧ q.2.down.lookup b.name = some down))
    (by
      rintro b rest q q' ⟨h1, h2, h3, h4⟩ hq
      obtain ⟨up, down, h5, rfl⟩ := mem_sqlStep hq
      rw [List.map_cons, List.nodup_cons] at h1
      refine ⟨h1.2, h2, ?_, ?_⟩
      · simp only [MemMigration.addSql]
        rw [h3]
      · intro x hx
        simp only [MemMigration.addSql, SMap.lookup_insert]
        rcases h4 x hx with h6 | ⟨h6, up', down', h7, h8, h9⟩
        · rcases List.mem_cons.1 h6 with rfl | h6
          · exact .inr ⟨h1.1, up, down, h5, by simp, by simp⟩
          · exact .inl h6
        · rw [List.map_cons, List.mem_cons, not_or] at h6
          exact .inr ⟨h6.2, up', down', h7, by rw [if_neg h6.1, h8], by rw [if_neg h6.1, h9]⟩)
    (⟨hnd, rfl, rfl, fun b hb => .inl hb⟩) h
  obtain ⟨_, h2, h3, h4⟩ := this
  refine ⟨h2, h3, fun b hb => ?_⟩
  rcases h4 b hb with h5 | ⟨_, h5⟩
  · cases h5
  · exact h5

theorem mem_sql_loop_ok {json : Bool} {fromDb toDb : ADB} {changes : List Operation} {backends : List MigBackend}
    (hsql : ∀ b ∈ backends, ∃ up down, SqlFor fromDb toDb changes b up down)
    (p : MemMigrations × MemMigration) :
    ∃ p', forSteps (sqlStep (MemMigrations.ops json) fromDb toDb changes) backends p = (.ok (), p') := by
  obtain ⟨p', h, _⟩ := forSteps_ok (f := sqlStep (MemMigrations.ops json) fromDb toDb changes)
    (l := backends) (s := p) (fun rest _ => ∀ b ∈ rest, b ∈ backends)
    (by
      intro b rest q hq
      obtain ⟨up, down, h1, h2⟩ := hsql b (hq b (by simp))
      exact ⟨(q.1, q.2.addSql b.name up down), by simp only [sqlStep, h1, h2]; rfl,
        fun x hx => hq x (by simp [hx])⟩)
    (fun _ h => h)
  exact ⟨p', h⟩

/-- Failing to create a migration in memory changes nothing. -/
theorem mem_create_other {json : Bool} {backends : List MigBackend} {name : String}
    {from_ : Option MemMigration} {toDb : ADB} {s s' : MemMigrations} {r : Except MErr Bool}
    (h : createMigrationTo (MemMigrations.ops json) backends name from_ toDb s = (r, s'))
    (hr : r ≠ .ok true) : s' = s := by
  have e1 : ∀ modified from_ l (p : MemMigrations × MemMigration),
      (forSteps (tableStep (MemMigrations.ops json) modified from_) l p).2.1 = p.1 := by
    intro modified from_ l p
    exact forSteps_keeps (fun q : MemMigrations × MemMigration => q.1 = p.1) (fun x q hq => by rw [mem_tableStep_keeps, hq]) rfl
  have e2 : ∀ fromDb changes l (p : MemMigrations × MemMigration),
      (forSteps (sqlStep (MemMigrations.ops json) fromDb toDb changes) l p).2.1 = p.1 := by
    intro fromDb changes l p
    exact forSteps_keeps (fun q : MemMigrations × MemMigration => q.1 = p.1) (fun x q hq => by rw [mem_sqlStep_keeps, hq]) rfl
  rcases create_cases h with ⟨rfl, _⟩ | ⟨fromDb, h0, ⟨rfl, _⟩ | ⟨hd, r1, p1, h1, ⟨e, _, he, rfl⟩ |
    ⟨rfl, r2, p2, h2, ⟨e, _, he, rfl⟩ | ⟨rfl, r3, p3, h3, ⟨e, he, _, _⟩ | ⟨rfl, r4, h4, ⟨e, he, _⟩ | ⟨_, rfl⟩⟩⟩⟩⟩⟩
  · rfl
  · rfl
  · have g1 := e1 ((diff fromDb toDb).filterMap modifiedTable) from_ toDb.tables.values
      (s, (MemMigrations.ops json).newMigration s name)
    rw [h1] at g1
    exact g1
  · have g1 := e1 ((diff fromDb toDb).filterMap modifiedTable) from_ toDb.tables.values
      (s, (MemMigrations.ops json).newMigration s name)
    have g2 := e2 fromDb (upChanges from_ (diff fromDb toDb)) backends p1
    rw [h1] at g1
    rw [h2] at g2
    exact g2.trans g1
  · rw [he] at h3; cases h3
  · rw [he] at h4; cases h4
  · exact absurd rfl hr

/-- What holds after every history. -/
structure MemInv (s : MemMigrations) (made : List (String × ADB)) : Prop where
  keyed : ∀ n m, s.get n = some m → m.name = n
  latest : s.latest = made.getLast?.map (·.1)
  path : ∃ l, (∀ b, IsPath (s.toMigs b) l ∧ Complete (s.toMigs b) l) ∧
    AllMatch (fun m (e : String × ADB) => m.name = e.1 ∧ m.db = ⟨e.2.tables, []⟩ ∧ Settled e.2 ∧
      s.get m.name = some m) l made

theorem Spec.AllMatch.last {α β : Type} {R : α → β → Prop} {l : List α} {l' : List β}
    (h : AllMatch R l l') : (l = [] ∧ l' = []) ∨
      ∃ a b, l.getLast? = some a ∧ l'.getLast? = some b ∧ R a b := by
  induction h with
  | nil => exact .inl ⟨rfl, rfl⟩
  | @cons a b as bs hab _ ih =>
    right
    rcases ih with ⟨rfl, rfl⟩ | ⟨x, y, h1, h2, h3⟩
    · exact ⟨a, b, rfl, rfl, hab⟩
    · refine ⟨x, y, ?_, ?_, h3⟩
      · rw [List.getLast?_cons, h1]; rfl
      · rw [List.getLast?_cons, h2]; rfl

theorem Spec.AllMatch.concat {α β : Type} {R : α → β → Prop} {l : List α} {l' : List β}
    (h : AllMatch R l l') {a : α} {b : β} (hab : R a b) : AllMatch R (l ++ [a]) (l' ++ [b]) := by
  induction h with
  | nil => exact .cons hab .nil
  | cons h1 _ ih => exact .cons h1 ih

theorem mem_readLatest {json : Bool} {s : MemMigrations} {made : List (String × ADB)} (h : MemInv s made) :
    ∃ fromDb, readFrom (MemMigrations.ops json) s.getLatest s = .ok fromDb ∧ Settled fromDb ∧
      fromDb.tables = (match made.getLast? with | none => [] | some e => e.2.tables) ∧ fromDb.extraTypes = [] := by
  obtain ⟨l, hl, hm⟩ := h.path
  have hlast := (hl "").1.latest
  change l.getLast? = s.getLatest at hlast
  rcases hm.last with ⟨rfl, rfl⟩ | ⟨m, e, h1, h2, h3, h4, h5, h6⟩
  · rw [← hlast]
    exact ⟨ADB.new, rfl, settled_new, rfl, rfl⟩
  · rw [← hlast, h1, h2]
    have hs : Settled ⟨e.2.tables, []⟩ := by
      have := settled_iff.1 h5
      exact settled_iff.2 this
    refine ⟨⟨e.2.tables, []⟩, ?_, hs, rfl, rfl⟩
    change m.getDb json = _
    rw [MemMigration.getDb, h4]
    exact settled_resolve hs rfl json

/-- The details of a creation. -/
theorem mem_create_details {json : Bool} {backends : List MigBackend} (hnd : (backends.map (·.name)).Nodup)
    {s s' : MemMigrations} {made : List (String × ADB)} (h : MemInv s made) {name : String}
    {toDb : ADB} (ht : Settled toDb)
    (hc : createMigrationTo (MemMigrations.ops json) backends name s.getLatest toDb s = (.ok true, s')) :
    ∃ fromDb m, readFrom (MemMigrations.ops json) s.getLatest s = .ok fromDb ∧ diff fromDb toDb ≠ [] ∧
      m.name = name ∧ m.db = ⟨toDb.tables, []⟩ ∧ m.from_ = s.latest ∧
      (∀ b ∈ backends, ∃ up down, SqlFor fromDb toDb (upChanges s.getLatest (diff fromDb toDb)) b up down ∧
        m.up.lookup b.name = some up ∧ m.down.lookup b.name = some down) ∧
      s' = { s with latest := some name, migrations := s.migrations.insert name m } := by
  obtain ⟨fromDb, p1, p2, p3, h0, hd, h1, h2, h3, h4⟩ := create_true hc
  have hmod : ∀ t ∈ toDb.tables.values, s.getLatest = none →
      t.name ∈ (diff fromDb toDb).filterMap modifiedTable := by
    intro t htv hn
    rw [hn] at h0
    cases h0
    exact from_none_modified ht htv
  have hloop := mem_tables_loop (json := json) ht (MemMigration.new name) rfl
    (tableStep (MemMigrations.ops json) ((diff fromDb toDb).filterMap modifiedTable) s.getLatest)
    (fun t htv p => mem_tableStep (hmod t htv) p) s
  rw [show (MemMigrations.ops json).newMigration s name = MemMigration.new name from rfl, hloop] at h1
  cases h1
  obtain ⟨g1, g2, g3⟩ := mem_sql_loop hnd h2
  change (.ok (), p2.1, p2.2.setFrom _) = ((.ok () : Except MErr Unit), p3) at h3
  cases h3
  change (.ok (), p2.1.addMigration (p2.2.setFrom _)) = ((.ok () : Except MErr Unit), s') at h4
  cases h4
  simp only at g1 g2
  have hfrom : s.getLatest.map (MemMigrations.ops json).name = s.latest := by
    obtain ⟨l, hl, hm⟩ := h.path
    have hlast := (hl "").1.latest
    change l.getLast? = s.getLatest at hlast
    rw [h.latest]
    rcases hm.last with ⟨rfl, rfl⟩ | ⟨m, e, e1, e2, e3, _⟩
    · rw [← hlast]; rfl
    · rw [← hlast, e1, e2]
      exact congrArg some e3
  refine ⟨fromDb, p2.2.setFrom (s.getLatest.map (MemMigrations.ops json).name), h0, hd, ?_, ?_, hfrom, ?_, ?_⟩
  · rw [MemMigration.setFrom, g2]; rfl
  · rw [MemMigration.setFrom, g2]
  · exact g3
  · rw [MemMigrations.addMigration, g1]
    have hname : (p2.2.setFrom (s.getLatest.map (MemMigrations.ops json).name)).name = name := by
      rw [MemMigration.setFrom, g2]; rfl
    have hf : (p2.2.setFrom (s.getLatest.map (MemMigrations.ops json).name)).from_ = s.latest := hfrom
    rw [hname, hf]
    cases hl : s.latest <;> simp

theorem mem_inv_create {json : Bool} {backends : List MigBackend} (hnd : (backends.map (·.name)).Nodup)
    {s s' : MemMigrations} {made : List (String × ADB)} (h : MemInv s made) {name : String}
    (hfresh : s.get name = none) {toDb : ADB} (ht : Settled toDb)
    (hc : createMigrationTo (MemMigrations.ops json) backends name s.getLatest toDb s = (.ok true, s')) :
    MemInv s' (made ++ [(name, toDb)]) := by
  obtain ⟨fromDb, m, h0, hd, h1, h2, h3, h4, rfl⟩ := mem_create_details hnd h ht hc
  have hget : ∀ n, MemMigrations.get { s with latest := some name, migrations := s.migrations.insert name m } n =
      if n = name then some m else s.get n := fun n => SMap.lookup_insert _ _ _ _
  obtain ⟨l, hl, hm⟩ := h.path
  refine ⟨?_, by simp, l ++ [m], ?_, ?_⟩
  · intro n x hx
    rw [hget] at hx
    split at hx
    · cases hx; rename_i he; rw [h1, he]
    · exact h.keyed n x hx
  · intro b
    refine isPath_extend (hl b).1 (hl b).2 ?_ (fun _ _ => rfl) ?_ ?_ ?_
    · change (match (some name : Option String) with | none => none | some n => _) = _
      simp only
      exact (hget name).trans (if_pos rfl)
    · intro n x _ hx
      refine (hget n).trans ?_
      rw [if_neg]
      · exact hx
      · rintro rfl
        have hx' : s.get n = some x := hx
        rw [hfresh] at hx'
        cases hx'
    · rintro rfl
      change Except.ok m.from_ = _
      rcases hm.last with ⟨_, rfl⟩ | ⟨_, _, e1, _⟩
      · rw [h3, h.latest]; rfl
      · cases e1
    · intro p hp
      rcases hm.last with ⟨rfl, _⟩ | ⟨x, e, e1, e2, e3, _, _, e6⟩
      · cases hp
      · rw [hp] at e1
        cases e1
        refine ⟨e.1, ?_, ?_⟩
        · change Except.ok m.from_ = _
          rw [h3, h.latest, e2]; rfl
        · refine (hget e.1).trans ?_
          rw [if_neg, ← e3, e6]
          rintro he
          rw [e3, he, hfresh] at e6
          cases e6
  · refine AllMatch.concat (hm.imp ?_) ⟨h1, h2, ht, ?_⟩
    · rintro x e _ _ ⟨e1, e2, e3, e4⟩
      refine ⟨e1, e2, e3, (hget x.name).trans ?_⟩
      rw [if_neg, e4]
      intro he
      rw [he, hfresh] at e4
      cases e4
    · refine (hget m.name).trans ?_
      rw [if_pos h1]

theorem mem_inv {json : Bool} {backends : List MigBackend} (hnd : (backends.map (·.name)).Nodup)
    {s : MemMigrations} {made : List (String × ADB)} (h : MemMade json backends s made) : MemInv s made := by
  induction h with
  | empty =>
    refine ⟨(fun n m h => by cases h), rfl, [], fun b => ⟨⟨rfl, ?_, ?_⟩, ?_⟩, .nil⟩
    · rintro p m ⟨a, b, h⟩; simp at h
    · rintro m h; cases h
    · rintro m h; cases h
  | @edit s s' made _ he ih =>
    have hg : s'.get = s.get := by unfold MemMigrations.get; rw [he.1]
    have hl : s'.getLatest = s.getLatest := by unfold MemMigrations.getLatest; rw [he.2, hg]
    obtain ⟨l, h1, h2⟩ := ih.path
    refine ⟨by rw [hg]; exact ih.keyed, by rw [he.2]; exact ih.latest, l, fun b => ?_, by rw [hg]; exact h2⟩
    unfold MemMigrations.toMigs
    rw [hg, hl]
    exact h1 b
  | create _ hf ht hc ih => exact mem_inv_create hnd ih hf ht hc
  | other _ _ hc hr ih => rw [mem_create_other hc hr]; exact ih

end Butane
