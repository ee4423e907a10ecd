/-
Copying migrations.
-/
import Verif.Proofs.FsStore

namespace Butane
open Spec FsMigrations

theorem forSteps_unit {α σ : Type} (f : α → Step σ Unit) (l : List α) (s : σ) :
    forSteps (fun a (p : Unit × σ) => ((f a p.2).1, p.1, (f a p.2).2)) l ((), s) =
      ((forSteps f l s).1, (), (forSteps f l s).2) := by
  induction l generalizing s with
  | nil => rfl
  | cons a rest ih =>
    unfold forSteps
    rcases hf : f a s with ⟨r, s1⟩
    cases r with
    | error e => rfl
    | ok u => exact ih s1

theorem settled_tables {db : ADB} (h : Settled db) (x : SMap TypeKey DeferredSqlType) : Settled ⟨db.tables, x⟩ :=
  settled_iff.2 (settled_iff.1 h :)

theorem copy_tables {json : Bool} {db : ADB} (h : Settled db) (m : MemMigration) (hm : m.db = ADB.new) :
    forSteps (fun t m => m.addModifiedTable json t) db.tables.values m =
      (.ok (), { m with db := ⟨db.tables, []⟩ }) := by
  have := mem_tables_loop (σ := Unit) (json := json) h m hm
    (fun a p => ((p.2.addModifiedTable json a).1, p.1, (p.2.addModifiedTable json a).2)) (fun _ _ _ => rfl) ()
  rw [forSteps_unit (fun t m => MemMigration.addModifiedTable json t m)] at this
  injection this with h1 h2
  injection h2 with _ h2
  exact Prod.ext h1 h2

theorem copy_types {json : Bool} {db : ADB} (h : Settled db) (hk : ∀ e ∈ db.extraTypes, e.2.isKnown = true)
    (hsort : db.extraTypes.Sorted) (m : MemMigration) (hm : m.db = ⟨db.tables, []⟩) :
    forSteps (fun (e : TypeKey × DeferredSqlType) m => m.addType json e.1 e.2) db.extraTypes m =
      (.ok (), { m with db := ⟨db.tables, db.extraTypes⟩ }) := by
  obtain ⟨m', h1, _, h2, h3, h4, h5⟩ := forSteps_ok
    (f := fun (e : TypeKey × DeferredSqlType) (m : MemMigration) => m.addType json e.1 e.2)
    (l := db.extraTypes) (s := m)
    (fun rest q => (∀ e ∈ rest, e ∈ db.extraTypes) ∧ q = { m with db := ⟨db.tables, q.db.extraTypes⟩ } ∧
      q.db.extraTypes.Sorted ∧
      (∀ e ∈ q.db.extraTypes, e ∈ db.extraTypes) ∧ (∀ e ∈ db.extraTypes, e ∈ rest ∨ q.db.extraTypes.lookup e.1 = some e.2))
    (by
      rintro e rest q ⟨h1, h2, h3, h4, h5⟩
      have hin : ∀ x ∈ q.db.extraTypes.insert e.1 e.2, x ∈ db.extraTypes := by
        intro x hx
        rcases SMap.mem_insert_of hx with rfl | hx
        · exact h1 e (by simp)
        · exact h4 x hx
      have hdb : q.db.addType e.1 e.2 = ⟨db.tables, q.db.extraTypes.insert e.1 e.2⟩ := by
        have : q.db.tables = db.tables := by rw [h2]
        unfold ADB.addType
        rw [this]
      refine ⟨{ q with db := ⟨db.tables, q.db.extraTypes.insert e.1 e.2⟩ }, ?_, ?_, ?_, SMap.sorted_insert h3 _ _, hin, ?_⟩
      · unfold MemMigration.addType MemMigration.resolved
        simp only [hdb]
        rw [settled_resolve' (settled_tables h _) (fun x hx => hk x (hin x hx))]
      · exact fun x hx => h1 x (by simp [hx])
      · rw [h2]
      · intro x hx
        rcases h5 x hx with h6 | h6
        · rcases List.mem_cons.1 h6 with rfl | h6
          · exact .inr (by simp [SMap.lookup_insert])
          · exact .inl h6
        · right
          simp only [SMap.lookup_insert]
          by_cases hxe : x.1 = e.1
          · rw [if_pos hxe]
            have e1 := SMap.lookup_of_mem hsort (h1 e (by simp))
            have e2 := SMap.lookup_of_mem hsort hx
            rw [hxe, e1] at e2
            exact e2
          · rw [if_neg hxe]
            exact h6)
    ⟨fun _ h => h, by cases m; simp only at hm; subst hm; rfl, by rw [hm]; exact SMap.sorted_nil, by rw [hm]; simp, fun e he => .inl he⟩
  have hext : m'.db.extraTypes = db.extraTypes := by
    refine SMap.ext h3 hsort fun k => ?_
    cases hl : db.extraTypes.lookup k with
    | none =>
      cases hl' : m'.db.extraTypes.lookup k with
      | none => rfl
      | some v =>
        have := SMap.lookup_of_mem hsort (h4 _ (SMap.mem_of_lookup hl'))
        rw [hl] at this
        cases this
    | some v =>
      rcases h5 _ (SMap.mem_of_lookup hl) with h6 | h6
      · cases h6
      · exact h6
  rw [hext] at h2
  rw [h1, ← h2]

/-- What is copied of the SQL. -/
def CopiedSql (src : MigSource) (bs : List String) (m : MemMigration) : Prop :=
  ∀ b, (b ∈ bs → ∀ up down, src.up b = .ok (some up) → src.down b = .ok (some down) →
      m.up.lookup b = some up ∧ m.down.lookup b = some down) ∧
    (¬ (b ∈ bs ∧ ∃ up down, src.up b = .ok (some up) ∧ src.down b = .ok (some down)) →
      m.up.lookup b = none ∧ m.down.lookup b = none)

theorem copy_migration_ok {json : Bool} {src : MigSource} {prev : Option String} {db : ADB} {bs : List String}
    (hfrom : src.from_ = .ok prev) (hdb : src.db = .ok db) (hset : Settled db)
    (hk : ∀ e ∈ db.extraTypes, e.2.isKnown = true) (hsort : db.extraTypes.Sorted)
    (hbs : src.backends = .ok bs)
    (hread : ∀ b ∈ bs, ∃ u d, src.up b = .ok u ∧ src.down b = .ok d) (name : String) :
    ∃ m, copyMigration json src (.new name) = (.ok (), m) ∧ m.name = name ∧ m.from_ = prev ∧ m.db = db ∧
      CopiedSql src bs m := by
  unfold copyMigration
  rw [hfrom, hdb]
  simp only
  rw [copy_tables hset _ rfl]
  simp only
  rw [copy_types hset hk hsort _ rfl]
  simp only
  rw [hbs]
  simp only
  generalize hm1 : ({ (MemMigration.new name).setFrom prev with db := ⟨db.tables, db.extraTypes⟩ } : MemMigration) = m1
  obtain ⟨m, h1, _, h2, h3⟩ := forSteps_ok
    (f := fun b (m : MemMigration) =>
      match src.up b, src.down b with
      | .error e, _ => (.error e, m)
      | .ok _, .error e => (.error e, m)
      | .ok (some up), .ok (some down) => (.ok (), m.addSql b up down)
      | .ok _, .ok _ => (.ok (), m)) (l := bs) (s := m1)
    (fun rest q => (∀ b ∈ rest, b ∈ bs) ∧ q = { m1 with up := q.up, down := q.down } ∧
      (∀ b, (b ∈ bs → b ∈ rest ∨ ∀ up down, src.up b = .ok (some up) → src.down b = .ok (some down) →
          q.up.lookup b = some up ∧ q.down.lookup b = some down) ∧
        (¬ (b ∈ bs ∧ ∃ up down, src.up b = .ok (some up) ∧ src.down b = .ok (some down)) →
          q.up.lookup b = none ∧ q.down.lookup b = none)))
    (by
      rintro b rest q ⟨h1, h2, h3⟩
      obtain ⟨u, d, hu, hd⟩ := hread b (h1 b (by simp))
      have hrest : ∀ x ∈ rest, x ∈ bs := fun x hx => h1 x (by simp [hx])
      have hskip : u = none ∨ d = none → ∀ x, (x ∈ bs → x ∈ rest ∨ ∀ up down, src.up x = .ok (some up) →
          src.down x = .ok (some down) → q.up.lookup x = some up ∧ q.down.lookup x = some down) := by
        intro hn x hx
        rcases (h3 x).1 hx with h4 | h4
        · rcases List.mem_cons.1 h4 with rfl | h4
          · right
            intro up down h5 h6
            rw [hu] at h5
            rw [hd] at h6
            rcases hn with rfl | rfl
            · cases h5
            · cases h6
          · exact .inl h4
        · exact .inr h4
      simp only [hu, hd]
      cases u with
      | none => exact ⟨q, by cases d <;> rfl, hrest, h2, fun x => ⟨hskip (.inl rfl) x, (h3 x).2⟩⟩
      | some up =>
        cases d with
        | none => exact ⟨q, rfl, hrest, h2, fun x => ⟨hskip (.inr rfl) x, (h3 x).2⟩⟩
        | some down =>
          refine ⟨_, rfl, hrest, ?_, fun x => ⟨fun hx => ?_, fun hx => ?_⟩⟩
          · rw [h2]; rfl
          · simp only [MemMigration.addSql, SMap.lookup_insert]
            rcases (h3 x).1 hx with h4 | h4
            · rcases List.mem_cons.1 h4 with rfl | h4
              · right
                intro up' down' h5 h6
                rw [hu] at h5
                rw [hd] at h6
                cases h5
                cases h6
                simp
              · exact .inl h4
            · right
              intro up' down' h5 h6
              obtain ⟨h7, h8⟩ := h4 up' down' h5 h6
              by_cases hxb : x = b
              · subst hxb
                rw [hu] at h5
                rw [hd] at h6
                cases h5
                cases h6
                simp
              · rw [if_neg hxb, if_neg hxb]
                exact ⟨h7, h8⟩
          · simp only [MemMigration.addSql, SMap.lookup_insert]
            have hxb : x ≠ b := by
              rintro rfl
              exact hx ⟨h1 x (by simp), up, down, hu, hd⟩
            rw [if_neg hxb, if_neg hxb]
            exact (h3 x).2 hx)
    ⟨fun _ h => h, rfl, fun b => ⟨fun hb => .inl hb, fun _ => by subst hm1; exact ⟨rfl, rfl⟩⟩⟩
  refine ⟨m, h1, by rw [h2, ← hm1]; rfl, by rw [h2, ← hm1]; rfl, by rw [h2, ← hm1], fun b => ⟨fun hb => ?_, (h3 b).2⟩⟩
  rcases (h3 b).1 hb with h4 | h4
  · cases h4
  · exact h4

/-! ### The SQL files of the migrations that were made -/

/-- There is SQL exactly for the listed backends. -/
def SqlOk (s : FsMigrations) (n : String) : Prop :=
  ∀ b, ((∃ t, (s.dir n).sql.lookup (b ++ "_up") = some t) ↔ b ∈ (s.info n).backends) ∧
    ((∃ t, (s.dir n).sql.lookup (b ++ "_down") = some t) ↔ b ∈ (s.info n).backends)

theorem SqlOk.same {s s' : FsMigrations} {n : String} (h : SqlOk s n) (h1 : (s'.dir n).sql = (s.dir n).sql)
    (h2 : (s'.info n).backends = (s.info n).backends) : SqlOk s' n := by
  unfold SqlOk
  rw [h1, h2]
  exact h

theorem sqlOk_tableStep {json : Bool} {modified : List String} {from_ : Option String} {t : ATable}
    (p : FsMigrations × String) (h : SqlOk p.1 p.2) :
    SqlOk (tableStep (FsMigrations.ops json) modified from_ t p).2.1
      (tableStep (FsMigrations.ops json) modified from_ t p).2.2 := by
  obtain ⟨s, n⟩ := p
  unfold tableStep
  split
  · change SqlOk (s.addModifiedTable t n) n
    refine h.same ?_ ?_
    · unfold FsMigrations.addModifiedTable
      rw [dir_write, if_pos rfl]
    · unfold FsMigrations.addModifiedTable FsMigrations.info
      rw [dir_write, if_pos rfl]
  · cases from_ with
    | none => exact h
    | some f =>
      change SqlOk (s.addUnmodifiedTable t _ n).2 n
      unfold FsMigrations.addUnmodifiedTable
      split
      · exact h
      · split
        · exact h
        · dsimp only
          refine h.same ?_ (by rw [info_writeInfo])
          unfold FsMigrations.writeInfo
          rw [dir_write, if_pos rfl]

theorem sqlOk_addSql {b up down n : String} {s s' : FsMigrations} (h : SqlOk s n)
    (hs : s.addSql b up down n = (.ok (), s')) : SqlOk s' n := by
  obtain ⟨up', down', _, _, _, _, h5, _, h7⟩ := fs_addSql hs
  intro x
  simp only [h5, h7, SMap.lookup_insert]
  rw [if_neg up_ne_down, if_neg (Ne.symm up_ne_down)]
  simp only [append_up_inj, append_down_inj]
  by_cases hx : x = b
  · simp [hx]
  · simp only [hx, if_false, false_or]
    exact h x

theorem sqlOk_create {json : Bool} {backends : List MigBackend} {name : String} {from_ : Option String} {toDb : ADB}
    {s s' : FsMigrations} (h : SqlOk s name)
    (hc : createMigrationTo (FsMigrations.ops json) backends name from_ toDb s = (.ok true, s')) : SqlOk s' name := by
  obtain ⟨fromDb, p1, p2, p3, _, _, h1, h2, h3, h4⟩ := create_true hc
  have n1 := forSteps_keeps (f := tableStep (FsMigrations.ops json) ((diff fromDb toDb).filterMap modifiedTable) from_)
    (fun q : FsMigrations × String => q.2 = name ∧ OnlyIn name s q.1) (fun x q hq => fs_tableStep_keeps q hq)
    (l := toDb.tables.values) (s := (s, (FsMigrations.ops json).newMigration s name)) ⟨rfl, OnlyIn.refl name s⟩
  have g1 := forSteps_keeps (f := tableStep (FsMigrations.ops json) ((diff fromDb toDb).filterMap modifiedTable) from_)
    (fun q : FsMigrations × String => SqlOk q.1 q.2) (fun x q hq => sqlOk_tableStep q hq)
    (l := toDb.tables.values) (s := (s, (FsMigrations.ops json).newMigration s name)) h
  rw [h1] at n1 g1
  have n2 := forSteps_keeps (f := sqlStep (FsMigrations.ops json) fromDb toDb (upChanges from_ (diff fromDb toDb)))
    (fun q : FsMigrations × String => q.2 = name ∧ OnlyIn name s q.1) (fun x q hq => fs_sqlStep_keeps q hq)
    (l := backends) (s := p1) n1
  have g2 := forSteps_inv (f := sqlStep (FsMigrations.ops json) fromDb toDb (upChanges from_ (diff fromDb toDb)))
    (fun _ (q : FsMigrations × String) => SqlOk q.1 q.2)
    (by
      rintro b rest ⟨q1, q2⟩ q' hq hs
      unfold sqlStep at hs
      split at hs
      · cases hs
      · split at hs
        · cases hs
        · rename_i up _ _ down _
          change ((q1.addSql b.name up down q2).1, (q1.addSql b.name up down q2).2, q2) = _ at hs
          rcases hr : q1.addSql b.name up down q2 with ⟨r, s1⟩
          rw [hr] at hs
          cases hs
          exact sqlOk_addSql hq hr) g1 h2
  rw [h2] at n2
  change (.ok (), p2.1.setFrom _ p2.2, p2.2) = ((.ok () : Except MErr Unit), p3) at h3
  cases h3
  change (.ok (), FsMigrations.addMigration p2.2 (p2.1.setFrom _ p2.2)) = ((.ok () : Except MErr Unit), s') at h4
  cases h4
  rw [n2.1] at g2 ⊢
  have g3 : SqlOk (p2.1.setFrom (from_.map (FsMigrations.ops json).name) name) name := by
    refine g2.same ?_ ?_
    · unfold FsMigrations.setFrom FsMigrations.writeInfo
      rw [dir_write, if_pos rfl]
    · unfold FsMigrations.setFrom
      rw [info_writeInfo]
  unfold FsMigrations.addMigration
  split
  · exact g3
  · exact g3

theorem fs_sqlOk {json : Bool} {backends : List MigBackend} (hnd : (backends.map (·.name)).Nodup)
    {s : FsMigrations} {made : List (String × ADB)} (h : FsMade json backends s made) :
    ∀ e ∈ made, SqlOk s e.1 := by
  have frame : ∀ {s s' : FsMigrations} {n : String}, SqlOk s n → s'.dirs.lookup n = s.dirs.lookup n → SqlOk s' n := by
    intro s s' n h1 h2
    exact h1.same (by rw [dir_congr h2]) (by rw [info_congr h2])
  induction h with
  | empty => simp
  | @edit s s' made hm he ih =>
    intro e hin
    exact frame (ih e hin) (he.2 _ ((fs_inv hnd hm).notCurrent e hin))
  | @create s s' made name toDb hm hf ht hc ih =>
    have hempty : SqlOk s name := by
      have hd : s.dir name = FsDir.empty := by unfold FsMigrations.dir; rw [hf.1]
      intro b
      unfold FsMigrations.info
      rw [hd]
      simp [FsDir.empty, FsInfo.new, SMap.lookup]
    intro e hin
    rcases List.mem_append.1 hin with hin' | hin
    · refine frame (ih e hin') ((fs_create_frame hc).1 _ ?_)
      rintro rfl
      obtain ⟨d, hd⟩ := ((fs_inv hnd hm).get (List.mem_map.2 ⟨e, hin', rfl⟩)).2
      rw [hf.1] at hd
      cases hd
    · simp at hin
      subst hin
      exact sqlOk_create hempty hc
  | @other s s' made name toDb r hm hf hc hr ih =>
    intro e hin
    refine frame (ih e hin) ((fs_create_frame hc).1 _ ?_)
    rintro rfl
    obtain ⟨d, hd⟩ := ((fs_inv hnd hm).get (List.mem_map.2 ⟨e, hin, rfl⟩)).2
    rw [hf.1] at hd
    cases hd

/-! ### Embedding -/

/-- The SQL of a copy is that on disk, if there is SQL exactly for the listed backends. -/
theorem SqlOk.copied {json : Bool} {s : FsMigrations} {n : String} (h : SqlOk s n) {m : MemMigration}
    (hm : CopiedSql (s.source json n) (s.info n).backends m) (b : String) :
    m.up.lookup b = (s.dir n).sql.lookup (b ++ "_up") ∧ m.down.lookup b = (s.dir n).sql.lookup (b ++ "_down") := by
  obtain ⟨k1, k2⟩ := hm b
  obtain ⟨q1, q2⟩ := h b
  by_cases hb : b ∈ (s.info n).backends
  · obtain ⟨u, hu⟩ := q1.2 hb
    obtain ⟨d, hd⟩ := q2.2 hb
    rw [hu, hd]
    exact k1 hb u d (congrArg _ hu) (congrArg _ hd)
  · have e1 : (s.dir n).sql.lookup (b ++ "_up") = none := by
      cases hl : (s.dir n).sql.lookup (b ++ "_up") with
      | none => rfl
      | some t => exact absurd (q1.1 ⟨t, hl⟩) hb
    have e2 : (s.dir n).sql.lookup (b ++ "_down") = none := by
      cases hl : (s.dir n).sql.lookup (b ++ "_down") with
      | none => rfl
      | some t => exact absurd (q2.1 ⟨t, hl⟩) hb
    rw [e1, e2]
    exact k2 fun hh => hb hh.1

/-- A migration of a chain is copied. -/
theorem fs_copy_ok {json : Bool} {s : FsMigrations} {made : List (String × ADB)} (hi : FsInv s made) {a e b}
    (hab : made = a ++ e :: b) :
    ∃ m, copyMigration json (s.source json e.1) (.new e.1) = (.ok (), m) ∧ m.name = e.1 ∧
      m.from_ = a.getLast?.map (·.1) ∧ (∃ db, s.getDb json e.1 = .ok db ∧ m.getDb json = .ok db ∧ SameSchema db e.2) ∧
      CopiedSql (s.source json e.1) (s.info e.1).backends m := by
  obtain ⟨db, hd, hs⟩ := hi.dirs a e b hab
  have hget : s.getDb json e.1 = .ok db := dirOk_getDb hd
  obtain ⟨m, h1, h2, h3, h4, h5⟩ := copy_migration_ok (json := json) (src := s.source json e.1)
    (prev := a.getLast?.map (·.1)) (db := db)
    (bs := (s.info e.1).backends) (congrArg _ hd.from_) hget hd.settled (by rw [hd.extra]; simp)
    (by rw [hd.extra]; exact SMap.sorted_nil) rfl (fun b _ => ⟨_, _, rfl, rfl⟩) e.1
  refine ⟨m, h1, h2, h3, ⟨db, hget, ?_, hs⟩, h5⟩
  unfold MemMigration.getDb
  rw [h4]
  exact settled_resolve hd.settled hd.extra json

/-- What holds of the copies of the first migrations of the chain. -/
structure Embedded (json : Bool) (s : FsMigrations) (a : List (String × ADB)) (mem : MemMigrations) : Prop where
  latest : mem.latest = a.getLast?.map (·.1)
  only : ∀ n, n ∉ a.map (·.1) → mem.get n = none
  each : ∀ u e v, a = u ++ e :: v → ∃ m, mem.get e.1 = some m ∧ m.name = e.1 ∧
      m.from_ = u.getLast?.map (·.1) ∧ (∃ db, s.getDb json e.1 = .ok db ∧ m.getDb json = .ok db ∧ SameSchema db e.2) ∧
      CopiedSql (s.source json e.1) (s.info e.1).backends m

theorem embedLoop_ok {json : Bool} {s : FsMigrations} {made : List (String × ADB)} (h : FsInv s made) {a b : List (String × ADB)}
    {mem : MemMigrations} (hab : made = a ++ b) (hmem : Embedded json s a mem) :
    ∃ mem', embedLoop json s (b.map (·.1)) mem = .ok mem' ∧ Embedded json s made mem' := by
  induction b generalizing a mem with
  | nil =>
    rw [List.append_nil] at hab
    subst hab
    exact ⟨mem, rfl, hmem⟩
  | cons e b ih =>
    obtain ⟨m, h1, h2, h3, h4, h5⟩ := fs_copy_ok h hab
    rw [List.map_cons, embedLoop, h1]
    have hnot : e.1 ∉ a.map (·.1) := by
      have := h.nodup
      rw [hab, List.map_append, List.map_cons, List.nodup_append] at this
      intro hm
      exact this.2.2 _ hm _ (by simp) rfl
    have hadd : mem.addMigration m = { mem with latest := some e.1, migrations := mem.migrations.insert e.1 m } := by
      unfold MemMigrations.addMigration
      simp only
      rw [h2, hmem.latest, h3]
      cases a.getLast? <;> simp
    have hget : ∀ n, (mem.addMigration m).get n = if n = e.1 then some m else mem.get n := by
      intro n
      rw [hadd]
      exact SMap.lookup_insert _ _ _ _
    refine ih (a := a ++ [e]) (by rw [hab]; simp) ⟨?_, ?_, ?_⟩
    · rw [hadd]; simp
    · intro n hn
      rw [List.map_append, List.mem_append, not_or] at hn
      rw [hget, if_neg (by simpa using hn.2)]
      exact hmem.only n hn.1
    · intro u x v huv
      rcases List.eq_nil_or_concat v with rfl | ⟨v, y, rfl⟩
      · obtain ⟨rfl, h6⟩ := List.append_inj' huv rfl
        cases h6
        exact ⟨m, by rw [hget, if_pos rfl], h2, h3, h4, h5⟩
      · rw [List.concat_eq_append, ← List.cons_append, ← List.append_assoc] at huv
        obtain ⟨h6, _⟩ := List.append_inj' huv rfl
        obtain ⟨m', g1, g2⟩ := hmem.each u x v h6
        refine ⟨m', ?_, g2⟩
        rw [hget, if_neg]
        · exact g1
        · intro hx
          apply hnot
          rw [h6, ← hx]
          simp

theorem embed_ok {json : Bool} {s : FsMigrations} {made : List (String × ADB)} (h : FsInv s made) :
    ∃ mem, s.embed json = .ok mem ∧ Embedded json s made mem := by
  unfold FsMigrations.embed
  rw [h.allMigrations]
  refine embedLoop_ok h (a := []) rfl ⟨rfl, fun _ _ => rfl, ?_⟩
  intro u e v huv
  simp at huv

theorem Embedded.iff {json : Bool} {s : FsMigrations} {made : List (String × ADB)} {mem : MemMigrations}
    (h2 : Embedded json s made mem) (n : String) : (∃ m, mem.get n = some m) ↔ n ∈ made.map (·.1) := by
  constructor
  · rintro ⟨m, hm⟩
    by_cases hn : n ∈ made.map (·.1)
    · exact hn
    · rw [h2.only n hn] at hm
      cases hm
  · intro hn
    obtain ⟨e, he, rfl⟩ := List.mem_map.1 hn
    obtain ⟨a, b, hab⟩ := List.append_of_mem he
    obtain ⟨m, hm, _⟩ := h2.each a e b hab
    exact ⟨m, hm⟩

/-- The copies are a chain. -/
theorem Embedded.chain {json : Bool} {s : FsMigrations} {made : List (String × ADB)} {mem : MemMigrations}
    (h2 : Embedded json s made mem) (b : String) : Chain (mem.toMigs b) (·.getDb json) made := by
  -- the copies, in the order of the chain
  have hlist : ∀ v u, made = u ++ v → ∃ l : List MemMigration,
      AllMatch (fun m (e : String × ADB) => mem.get e.1 = some m ∧ m.name = e.1 ∧
        ∃ db, m.getDb json = .ok db ∧ SameSchema db e.2) l v ∧
      (∀ m, l.head? = some m → m.from_ = u.getLast?.map (·.1)) ∧
      (∀ p m, [p, m] <:+: l → ∃ n, m.from_ = some n ∧ mem.get n = some p) := by
    intro v
    induction v with
    | nil => exact fun u _ => ⟨[], .nil, (fun m hm => by cases hm), fun p m ⟨a, b, hh⟩ => by simp at hh⟩
    | cons e v ih =>
      intro u huv
      obtain ⟨m, g1, g2, g3, ⟨db, _, g4, g5⟩, _⟩ := h2.each u e v huv
      obtain ⟨l, k1, k2, k3⟩ := ih (u ++ [e]) (by rw [huv]; simp)
      refine ⟨m :: l, .cons ⟨g1, g2, db, g4, g5⟩ k1, ?_, ?_⟩
      · intro x hx
        cases hx
        exact g3
      · intro p x hpx
        rcases List.infix_cons_iff.1 hpx with hpx | hpx
        · obtain ⟨w, hw⟩ := hpx
          rw [List.cons_append, List.cons.injEq] at hw
          obtain ⟨rfl, hw⟩ := hw
          have := k2 x (by rw [← hw]; rfl)
          rw [this]
          exact ⟨e.1, by simp, g1⟩
        · exact k3 p x hpx
  obtain ⟨l, k1, k2, k3⟩ := hlist made [] rfl
  refine ⟨l, ⟨?_, fun p m hpm => ?_, fun m hm => .inl ?_⟩, fun m hm => ?_, k1.imp ?_⟩
  · change l.getLast? = mem.getLatest
    unfold MemMigrations.getLatest
    rw [h2.latest]
    rcases k1.last with ⟨rfl, rfl⟩ | ⟨m, e, q1, q2, q3, _⟩
    · rfl
    · rw [q1, q2]
      exact q3.symm
  · obtain ⟨n, q1, q2⟩ := k3 p m hpm
    exact ⟨n, congrArg _ q1, q2⟩
  · exact congrArg _ (k2 m hm)
  · exact congrArg _ (k2 m hm)
  · rintro m _ e _ ⟨_, q2, q3⟩
    exact ⟨q2, q3⟩

end Butane
