/-
C34 - C36: making, keeping and copying migrations.

The operations are those of Model/MigStore.lean; backends are any functions that generate
SQL, or fail to.
-/
import Verif.Proofs.CopyStore
import Verif.Props.Diff

namespace Butane.Props
open Butane Spec
variable {S M : Type} {json : Bool} {backends : List MigBackend}

/-- The schema of the last migration that was made. -/
def before (made : List (String × ADB)) : ADB :=
  match made.getLast? with
  | none => ADB.new
  | some e => e.2

/-- The changes of a migration; the first one also makes butane's own table. -/
def changesFrom (made : List (String × ADB)) (old new : ADB) : List Operation :=
  match made with
  | [] => diff old new ++ [.addTableIfNotExists migrationsTable]
  | _ :: _ => diff old new

theorem made_settled {ops : StoreOps S M} {latest fresh edit empty} {s : S} {made : List (String × ADB)}
    (h : Made ops backends latest fresh edit empty s made) : ∀ e ∈ made, Settled e.2 := by
  induction h with
  | empty => simp
  | edit _ _ ih => exact ih
  | create _ _ ht _ ih =>
    intro e he
    rcases List.mem_append.1 he with he | he
    · exact ih e he
    · simp at he; subst he; exact ht
  | other _ _ _ _ ih => exact ih

theorem before_settled {made : List (String × ADB)} (h : ∀ e ∈ made, Settled e.2) : Settled (before made) := by
  unfold before
  cases hl : made.getLast? with
  | none => exact settled_new
  | some e => exact h e (List.mem_of_getLast? hl)

theorem sameSchema_trans {a b c : ADB} (ha : ValidSchema a) (hb : ValidSchema b) (hc : ValidSchema c)
    (h : SameSchema a b) (h' : SameSchema b c) : SameSchema a c := by
  rw [sameSchema_iff ha hb] at h
  rw [sameSchema_iff hb hc] at h'
  rw [sameSchema_iff ha hc]
  exact fun n => OptRel.trans (R := SameByName) (fun _ _ _ h h' => SameByName.trans h h') (h n) (h' n)

theorem sameSchema_symm {a b : ADB} (ha : ValidSchema a) (hb : ValidSchema b)
    (h : SameSchema a b) : SameSchema b a := by
  rw [sameSchema_iff ha hb] at h
  rw [sameSchema_iff hb ha]
  exact fun n => (h n).symm (fun _ _ => SameByName.symm)

theorem noNaN_same {a b : ADB} (ha : ValidSchema a) (h : SameSchema a b) (hb : NoNaN b) : NoNaN a := by
  intro e he c hc x hx
  have hl : a.getTable e.1 = some e.2 := SMap.lookup_of_mem ha.sorted he
  have := h e.1
  rw [hl] at this
  cases ht : b.getTable e.1 with
  | none => rw [ht] at this; cases this
  | some t =>
    rw [ht] at this
    obtain ⟨_, cols, hp, hm⟩ := this
    have hc' := hp.mem_iff.2 hc
    clear hp hc
    have hmem : ∀ d ∈ t.columns, ∀ x, d.default = some (.real x) → x.isNaN = false :=
      fun d hd => hb _ (SMap.mem_of_lookup ht) d hd
    revert hc' hmem
    generalize t.columns = tc at hm
    induction hm with
    | nil => intro h; cases h
    | @cons p q as bs hpq _ ih =>
      intro h1 h2
      rcases List.mem_cons.1 h1 with rfl | h1
      · have hd := hpq.default
        rw [hx] at hd
        cases hq : q.default with
        | none => rw [hq] at hd; cases hd
        | some v =>
          rw [hq] at hd
          rcases hd with rfl | ⟨u, w, hu, hw, hh⟩
          · exact h2 q (by simp) x hq
          · cases hu
            unfold F64.eq at hh
            cases hn : F64.isNaN x with
            | false => rfl
            | true => rw [hn] at hh; simp at hh
      · exact ih h1 fun d hd => h2 d (by simp [hd])

/-! ### In memory -/

/-- C34: after any history the migrations that were made are the chain, and each is read
back with the schema it was made with. -/
theorem mem_history (hnd : (backends.map (·.name)).Nodup) {s : MemMigrations} {made : List (String × ADB)}
    (h : MemMade json backends s made) (b : String) : Chain (s.toMigs b) (·.getDb json) made := by
  obtain ⟨l, hl, hm⟩ := (mem_inv hnd h).path
  refine ⟨l, (hl b).1, (hl b).2, hm.imp ?_⟩
  rintro m _ e _ ⟨h1, h2, h3, _⟩
  refine ⟨h1, ⟨e.2.tables, []⟩, ?_, sameSchema_refl _⟩
  change m.db.resolve json = _
  rw [h2]
  have hs : Settled ⟨e.2.tables, []⟩ := settled_iff.2 (settled_iff.1 h3 :)
  exact settled_resolve hs rfl json

/-- C34: a new migration is the latest, follows the one that was the latest, and has the
SQL that every backend generates for the changes between the two schemas; all others are as
they were. -/
theorem mem_create (hnd : (backends.map (·.name)).Nodup) {s s' : MemMigrations} {made : List (String × ADB)}
    (h : MemMade json backends s made) {name : String} {toDb : ADB} (ht : Settled toDb)
    (hc : createMigrationTo (MemMigrations.ops json) backends name s.getLatest toDb s = (.ok true, s')) :
    ∃ m old, s'.getLatest = some m ∧ s'.get name = some m ∧ m.name = name ∧
      m.from_ = made.getLast?.map (·.1) ∧
      SameSchema old (before made) ∧
      (∀ b ∈ backends, ∃ up down, m.up.lookup b.name = some up ∧ m.down.lookup b.name = some down ∧
        b.sql old (changesFrom made old toDb) = .ok up ∧ b.sql toDb (diff toDb old) = .ok down) ∧
      (∀ n, n ≠ name → s'.get n = s.get n) ∧ s'.current = s.current := by
  have hi := mem_inv hnd h
  obtain ⟨old, h1, h2, h3, h4⟩ := mem_readLatest (json := json) hi
  obtain ⟨old', m, g0, _, g1, g2, g3, g4, rfl⟩ := mem_create_details hnd hi ht hc
  rw [h1] at g0
  cases g0
  have hget : ∀ n, MemMigrations.get { s with latest := some name, migrations := s.migrations.insert name m } n =
      if n = name then some m else s.get n := fun n => SMap.lookup_insert _ _ _ _
  refine ⟨m, old, ?_, by rw [hget, if_pos rfl], g1, by rw [g3, hi.latest], ?_, ?_, ?_, rfl⟩
  · unfold MemMigrations.getLatest
    simp only
    rw [hget, if_pos rfl]
  · intro n
    have : old.getTable n = (before made).getTable n := by
      unfold ADB.getTable before
      rw [h3]
      cases made.getLast? <;> rfl
    rw [this]
    exact sameSchema_refl _ n
  · intro b hb
    obtain ⟨up, down, ⟨k1, k2⟩, k3, k4⟩ := g4 b hb
    refine ⟨up, down, k3, k4, ?_, k2⟩
    rw [← k1]
    congr 1
    unfold changesFrom upChanges
    obtain ⟨l, hl, hm⟩ := hi.path
    have hlast := (hl "").1.latest
    change l.getLast? = s.getLatest at hlast
    rw [← hlast]
    cases hm with
    | nil => rfl
    | cons _ _ => simp [List.getLast?_cons]
  · intro n hn
    rw [hget, if_neg hn]

/-- C34: when nothing has changed, and only then, no migration is made, and the answer says
so (defaults that are not-a-number aside, as for C02). -/
theorem mem_create_nothing_partial (hnd : (backends.map (·.name)).Nodup) {s s' : MemMigrations}
    {made : List (String × ADB)} (h : MemMade json backends s made) {name : String} {toDb : ADB}
    (ht : ValidSchema toDb) (hnan : NoNaN (before made)) {r : Except MErr Bool}
    (hc : createMigrationTo (MemMigrations.ops json) backends name s.getLatest toDb s = (r, s')) :
    (r = .ok false ↔ SameSchema (before made) toDb) ∧ (r ≠ .ok true → s' = s) := by
  refine ⟨?_, mem_create_other hc⟩
  obtain ⟨old, h1, h2, h3, h4⟩ := mem_readLatest (json := json) (mem_inv hnd h)
  have hsame : SameSchema old (before made) := by
    intro n
    have : old.getTable n = (before made).getTable n := by
      unfold ADB.getTable before
      rw [h3]
      cases made.getLast? <;> rfl
    rw [this]
    exact sameSchema_refl _ n
  have hb := (before_settled (made_settled h)).valid
  have key : diff old toDb = [] ↔ SameSchema (before made) toDb := by
    rw [diff_nil_iff_partial old toDb h2.valid ht (noNaN_same h2.valid hsame hnan)]
    exact ⟨sameSchema_trans hb h2.valid ht (sameSchema_symm h2.valid hb hsame), sameSchema_trans h2.valid hb ht hsame⟩
  rw [← key]
  rcases create_cases hc with ⟨_, e, _, he⟩ | ⟨old', h0, ⟨_, hr, hd⟩ | ⟨hd, hrest⟩⟩
  · rw [h1] at he; cases he
  · rw [h1] at h0
    cases h0
    exact ⟨fun _ => hd, fun _ => hr⟩
  · rw [h1] at h0
    cases h0
    refine ⟨fun hr => ?_, fun hd' => absurd hd' hd⟩
    obtain ⟨r1, p1, _, ⟨e, _, he, _⟩ | ⟨_, r2, p2, _, ⟨e, _, he, _⟩ | ⟨_, r3, p3, _, ⟨e, _, he, _⟩ |
      ⟨_, r4, _, ⟨e, _, he⟩ | ⟨_, he⟩⟩⟩⟩⟩ := hrest <;> (rw [hr] at he; cases he)

/-- C34: a migration is made whenever something has changed and every backend can
express the changes. -/
theorem mem_create_succeeds (hnd : (backends.map (·.name)).Nodup) {s : MemMigrations}
    {made : List (String × ADB)} (h : MemMade json backends s made) (name : String) {toDb : ADB} (ht : Settled toDb)
    (hne : ¬ SameSchema (before made) toDb)
    (hsql : ∀ b ∈ backends, ∀ old, ValidSchema old → SameSchema (before made) old →
      (∃ text, b.sql old (changesFrom made old toDb) = .ok text) ∧ ∃ text, b.sql toDb (diff toDb old) = .ok text) :
    ∃ s', createMigrationTo (MemMigrations.ops json) backends name s.getLatest toDb s = (.ok true, s') := by
  have hi := mem_inv hnd h
  obtain ⟨old, h1, h2, h3, h4⟩ := mem_readLatest (json := json) hi
  have hsame : SameSchema (before made) old := by
    intro n
    have : old.getTable n = (before made).getTable n := by
      unfold ADB.getTable before
      rw [h3]
      cases made.getLast? <;> rfl
    rw [this]
    exact sameSchema_refl _ n
  have hch : changesFrom made old toDb = upChanges s.getLatest (diff old toDb) := by
    unfold changesFrom upChanges
    obtain ⟨l, hl, hm⟩ := hi.path
    have hlast := (hl "").1.latest
    change l.getLast? = s.getLatest at hlast
    rw [← hlast]
    cases hm with
    | nil => rfl
    | cons _ _ => simp [List.getLast?_cons]
  have hb := (before_settled (made_settled h)).valid
  have hd : diff old toDb ≠ [] := fun hd =>
    hne (sameSchema_trans hb h2.valid ht.valid hsame (same_of_diff_nil _ _ h2.valid ht.valid hd))
  have hf : s.getLatest = none → ∀ t ∈ toDb.tables.values,
      t.name ∈ (diff old toDb).filterMap modifiedTable := by
    intro hn t htt
    rw [hn] at h1
    cases h1
    exact from_none_modified ht htt
  have g1 := mem_tables_loop (json := json) ht (MemMigration.new name) rfl
    (tableStep (MemMigrations.ops json) ((diff old toDb).filterMap modifiedTable) s.getLatest)
    (fun t htt p => mem_tableStep (fun hn => hf hn t htt) p) s
  obtain ⟨p2, g2⟩ := mem_sql_loop_ok (json := json) (fromDb := old) (toDb := toDb)
    (changes := upChanges s.getLatest (diff old toDb)) (backends := backends)
    (fun b hb => by
      obtain ⟨⟨up, hu⟩, down, hd⟩ := hsql b hb old h2.valid hsame
      rw [hch] at hu
      exact ⟨up, down, hu, hd⟩) (s, { MemMigration.new name with db := ⟨toDb.tables, []⟩ })
  exact ⟨_, create_true_intro (ops := MemMigrations.ops json) h1 hd g1 g2 rfl rfl⟩

/-! ### On disk -/

/-- C34, C35: after any history the migrations that were made are the chain, and each is
read back, from its own tables and those of older migrations, with the schema it was made
with. -/
theorem fs_history (hnd : (backends.map (·.name)).Nodup) {s : FsMigrations} {made : List (String × ADB)}
    (h : FsMade json backends s made) (b : String) : Chain (s.toMigs b) (s.getDb json) made := by
  have hi := fs_inv hnd h
  refine ⟨made.map (·.1), (hi.path b).1, (hi.path b).2, ?_⟩
  have : ∀ l, l <:+ made → AllMatch (fun m (e : String × ADB) => (s.toMigs b).name m = e.1 ∧
      ∃ d, s.getDb json m = .ok d ∧ SameSchema d e.2) (l.map (·.1)) l := by
    intro l
    induction l with
    | nil => intro _; exact .nil
    | cons e l ih =>
      rintro ⟨a, ha⟩
      refine .cons ⟨rfl, ?_⟩ (ih ⟨a ++ [e], by rw [← ha]; simp⟩)
      obtain ⟨db, hd, hs⟩ := hi.dirs a e l ha.symm
      exact ⟨db, dirOk_getDb hd, hs⟩
  exact this made (List.suffix_refl _)

theorem fileText_of {t f : String} (h : withNewline t = .ok f) : FileText t f := by
  unfold withNewline at h
  split at h
  · cases h
  · rename_i c hc
    cases h
    by_cases hn : c = '\n'
    · subst hn
      exact .inl ⟨hc, by simp⟩
    · exact .inr ⟨c, hc, hn, by simp [hn]⟩

/-- What the latest migration is read as. -/
theorem fs_before {s : FsMigrations} {made : List (String × ADB)} (hi : FsInv s made) :
    ∃ old, readFrom (FsMigrations.ops json) s.getLatest s = .ok old ∧ Settled old ∧ SameSchema old (before made) := by
  obtain ⟨old, h1, h2, h3⟩ := fs_readLatest (json := json) hi
  refine ⟨old, h1, h2, ?_⟩
  unfold before
  cases hl : made.getLast? with
  | none =>
    rw [hl] at h3
    cases h3
    exact sameSchema_refl _
  | some e =>
    rw [hl] at h3
    obtain ⟨_, _, _, h3⟩ := h3
    exact h3

/-- C34, C35: a new migration is the latest, follows the one that was the latest, and has the
SQL that every backend generates for the changes between the two schemas; the files of all
others are as they were. -/
theorem fs_create (hnd : (backends.map (·.name)).Nodup) {s s' : FsMigrations} {made : List (String × ADB)}
    (h : FsMade json backends s made) {name : String} {toDb : ADB} (ht : Settled toDb)
    (hfresh : s.dirs.lookup name = none)
    (hc : createMigrationTo (FsMigrations.ops json) backends name s.getLatest toDb s = (.ok true, s')) :
    ∃ old db, s'.getLatest = some name ∧ (s'.info name).fromName = made.getLast?.map (·.1) ∧
      s'.getDb json name = .ok db ∧ SameSchema db toDb ∧ SameSchema old (before made) ∧
      (∀ b ∈ backends, ∃ up down up' down', b.sql old (changesFrom made old toDb) = .ok up ∧
        b.sql toDb (diff toDb old) = .ok down ∧ FileText up up' ∧ FileText down down' ∧
        (s'.toMigs b.name).up name = .ok (some up') ∧ (s'.toMigs b.name).down name = .ok (some down')) ∧
      (∀ n, n ≠ name → s'.dirs.lookup n = s.dirs.lookup n) := by
  have hi := fs_inv hnd h
  obtain ⟨old, h1, h2, h3⟩ := fs_before (json := json) hi
  obtain ⟨old', db, g0, _, g1, g2, g3, g4, g5⟩ := fs_create_details hnd hi hfresh ht hc
  rw [h1] at g0
  cases g0
  obtain ⟨d, hd⟩ := g1.dir
  refine ⟨old, db, ?_, by rw [g1.from_, hi.latest], dirOk_getDb g1, g2, h3, ?_, g5⟩
  · unfold FsMigrations.getLatest
    rw [g4]
    simp only [FsMigrations.get, hd]
  · intro b hb
    obtain ⟨up, down, up', down', ⟨k1, k2⟩, k3, k4, k5, k6, _⟩ := g3 b hb
    refine ⟨up, down, up', down', ?_, k2, fileText_of k3, fileText_of k4, congrArg _ k5, congrArg _ k6⟩
    rw [← k1]
    congr 1
    unfold changesFrom upChanges
    rw [hi.getLatest]
    cases made with
    | nil => rfl
    | cons _ _ => simp [List.getLast?_cons]

/-- C34: when nothing has changed, and only then, no migration is made, no file is touched,
and the answer says so (defaults that are not-a-number aside, as for C02).  A failure leaves
the latest migration and all files but those of the new one as they were. -/
theorem fs_create_nothing_partial (hnd : (backends.map (·.name)).Nodup) {s s' : FsMigrations}
    {made : List (String × ADB)} (h : FsMade json backends s made) {name : String} {toDb : ADB}
    (ht : ValidSchema toDb) (hnan : NoNaN (before made)) {r : Except MErr Bool}
    (hc : createMigrationTo (FsMigrations.ops json) backends name s.getLatest toDb s = (r, s')) :
    (r = .ok false ↔ SameSchema (before made) toDb) ∧ (r = .ok false → s' = s) ∧
    (r ≠ .ok true → s'.latest = s.latest ∧ ∀ n, n ≠ name → s'.dirs.lookup n = s.dirs.lookup n) := by
  have hframe := fs_create_frame hc
  refine ⟨?_, hframe.2.2, fun hr => ⟨hframe.2.1 hr, hframe.1⟩⟩
  obtain ⟨old, h1, h2, hsame⟩ := fs_before (json := json) (fs_inv hnd h)
  have hb := (before_settled (made_settled h)).valid
  have key : diff old toDb = [] ↔ SameSchema (before made) toDb := by
    rw [diff_nil_iff_partial old toDb h2.valid ht (noNaN_same h2.valid hsame hnan)]
    exact ⟨sameSchema_trans hb h2.valid ht (sameSchema_symm h2.valid hb hsame), sameSchema_trans h2.valid hb ht hsame⟩
  rw [← key]
  rcases create_cases hc with ⟨_, e, _, he⟩ | ⟨old', h0, ⟨_, hr, hd⟩ | ⟨hd, hrest⟩⟩
  · rw [h1] at he; cases he
  · rw [h1] at h0
    cases h0
    exact ⟨fun _ => hd, fun _ => hr⟩
  · rw [h1] at h0
    cases h0
    refine ⟨fun hr => ?_, fun hd' => absurd hd' hd⟩
    obtain ⟨r1, p1, _, ⟨e, _, he, _⟩ | ⟨_, r2, p2, _, ⟨e, _, he, _⟩ | ⟨_, r3, p3, _, ⟨e, _, he, _⟩ |
      ⟨_, r4, _, ⟨e, _, he⟩ | ⟨_, he⟩⟩⟩⟩⟩ := hrest <;> (rw [hr] at he; cases he)

/-- C34: a migration is made whenever something has changed and every backend generates
SQL for the changes (some text: an empty one is a panic). -/
theorem fs_create_succeeds (hnd : (backends.map (·.name)).Nodup) {s : FsMigrations}
    {made : List (String × ADB)} (h : FsMade json backends s made) {name : String} {toDb : ADB} (ht : Settled toDb)
    (hfresh : s.dirs.lookup name = none) (hne : ¬ SameSchema (before made) toDb)
    (hsql : ∀ b ∈ backends, ∀ old, ValidSchema old → SameSchema (before made) old →
      (∃ text, b.sql old (changesFrom made old toDb) = .ok text ∧ text ≠ "") ∧
      ∃ text, b.sql toDb (diff toDb old) = .ok text ∧ text ≠ "") :
    ∃ s', createMigrationTo (FsMigrations.ops json) backends name s.getLatest toDb s = (.ok true, s') := by
  have hi := fs_inv hnd h
  obtain ⟨old, h1, h2, hsame⟩ := fs_before (json := json) hi
  have hch : changesFrom made old toDb = upChanges s.getLatest (diff old toDb) := by
    unfold changesFrom upChanges
    rw [hi.getLatest]
    cases made with
    | nil => rfl
    | cons _ _ => simp [List.getLast?_cons]
  have hb := (before_settled (made_settled h)).valid
  have hd : diff old toDb ≠ [] := fun hd =>
    hne (sameSchema_trans hb h2.valid ht.valid (sameSchema_symm h2.valid hb hsame)
      (same_of_diff_nil _ _ h2.valid ht.valid hd))
  obtain ⟨q, hq, hT⟩ := fs_tables_loop hi hfresh ht h1
  obtain ⟨p2, g2⟩ := fs_sql_loop_ok (json := json) (fromDb := old) (toDb := toDb)
    (changes := upChanges s.getLatest (diff old toDb)) (backends := backends)
    (fun b hb => by
      obtain ⟨⟨up, hu, hu'⟩, down, hd, hd'⟩ := hsql b hb old h2.valid (sameSchema_symm h2.valid (before_settled (made_settled h)).valid hsame)
      rw [hch] at hu
      exact ⟨up, down, ⟨hu, hd⟩, hu', hd'⟩) q
  exact ⟨_, create_true_intro (ops := FsMigrations.ops json) h1 hd hq g2 rfl rfl⟩

/-- **C35**: if the file of a table that the migration records by pointing to another migration
is missing, reading the migration's schema is an error; the table is not silently left out. -/
theorem fs_missing_table (json : Bool) (s : FsMigrations) (n table base : String)
    (hin : (table, base) ∈ (s.info n).tableBases) (hno : (s.dir base).tables.lookup table = none) :
    ∃ e, s.getDb json n = .error e := by
  have key : ∀ (bases : List (String × String)) (db : ADB), (table, base) ∈ bases →
      ∃ e, s.readBases bases db = .error e := by
    intro bases
    induction bases with
    | nil => intro db h; cases h
    | cons b bases ih =>
      obtain ⟨t, x⟩ := b
      intro db h
      unfold FsMigrations.readBases
      cases hl : (s.dir x).tables.lookup t with
      | none => exact ⟨_, rfl⟩
      | some t' =>
        rcases List.mem_cons.1 h with h | h
        · cases h
          rw [hno] at hl
          cases hl
        · exact ih _ h
  obtain ⟨e, he⟩ := key _ ADB.new hin
  exact ⟨e, by simp only [FsMigrations.getDb, he]⟩

/-! ### Copying -/

/-- C36: a copy has the predecessor, the schema with its types, and the SQL of the original,
for every backend that has both directions. -/
theorem copy_migration_partial {src : MigSource} {prev : Option String} {db : ADB} {bs : List String}
    (hfrom : src.from_ = .ok prev) (hdb : src.db = .ok db) (hset : Settled db)
    (hk : ∀ e ∈ db.extraTypes, e.2.isKnown = true) (hsort : db.extraTypes.Sorted)
    (hbs : src.backends = .ok bs)
    (hread : ∀ b ∈ bs, ∃ u d, src.up b = .ok u ∧ src.down b = .ok d) (name : String) :
    ∃ m, copyMigration json src (.new name) = (.ok (), m) ∧ m.name = name ∧ m.from_ = prev ∧
      m.getDb json = .ok db ∧
      (∀ b ∈ bs, ∀ up down, src.up b = .ok (some up) → src.down b = .ok (some down) →
        m.up.lookup b = some up ∧ m.down.lookup b = some down) ∧
      (∀ b, b ∉ bs → m.up.lookup b = none ∧ m.down.lookup b = none) := by
  obtain ⟨m, h1, h2, h3, h4, h5⟩ := copy_migration_ok (json := json) hfrom hdb hset hk hsort hbs hread name
  refine ⟨m, h1, h2, h3, ?_, fun b hb up down hu hd => (h5 b).1 hb up down hu hd, fun b hb => (h5 b).2 fun h => hb h.1⟩
  rw [MemMigration.getDb, h4]
  exact settled_resolve' hset hk json

/-- C36: embedding the migrations on disk gives, in memory, the same chain: the same
names, predecessors, schemas, and SQL for every backend, and nothing else. -/
theorem embed_preserves (hnd : (backends.map (·.name)).Nodup) {s : FsMigrations} {made : List (String × ADB)}
    (h : FsMade json backends s made) :
    ∃ mem, s.embed json = .ok mem ∧ (∀ b, Chain (mem.toMigs b) (·.getDb json) made) ∧
      (∀ n, (∃ m, mem.get n = some m) ↔ n ∈ made.map (·.1)) ∧
      ∀ n m, mem.get n = some m → ∀ b,
        (mem.toMigs b).name m = n ∧ (mem.toMigs b).from_ m = (s.toMigs b).from_ n ∧
        m.getDb json = s.getDb json n ∧
        (mem.toMigs b).up m = (s.toMigs b).up n ∧ (mem.toMigs b).down m = (s.toMigs b).down n := by
  have hi := fs_inv hnd h
  obtain ⟨mem, h1, h2⟩ := embed_ok (json := json) hi
  have hiff := h2.iff
  refine ⟨mem, h1, h2.chain, hiff, ?_⟩
  · intro n m hm b
    obtain ⟨e, he, rfl⟩ := List.mem_map.1 ((hiff n).1 ⟨m, hm⟩)
    obtain ⟨u, v, huv⟩ := List.append_of_mem he
    obtain ⟨m', g1, g2, g3, ⟨db, g4, g5, _⟩, g6⟩ := h2.each u e v huv
    rw [g1] at hm
    cases hm
    obtain ⟨db', hd, _⟩ := hi.dirs u e v huv
    have g7 := (fs_sqlOk hnd h e (by rw [huv]; simp)).copied g6
    refine ⟨g2, ?_, by rw [g4, g5], congrArg _ (g7 b).1, congrArg _ (g7 b).2⟩
    change (.ok m.from_ : Except MErr (Option String)) = .ok (s.info e.1).fromName
    rw [g3, hd.from_]

/-! ### A history -/

def exTableOf (n : String) : ATable :=
  ⟨n, [⟨"id", .knownId (.ty .bigInt), false, true, true, false, none, none⟩,
    ⟨"x", .knownId (.ty .text), false, false, false, false, none, none⟩]⟩

/-- Schemas with the given tables (in order). -/
def exDbOf (ns : List String) : ADB := ⟨ns.map fun n => (n, exTableOf n), []⟩

/-- The SQL names the tables that are added and removed. -/
def exSql (tag : String) : MigBackend :=
  ⟨tag, fun _ ops => .ok (tag ++ (ops.map fun op => match op with
    | .addTable t => "+" ++ t.name
    | .removeTable t => "-" ++ t
    | .addTableIfNotExists t => "?" ++ t.name
    | _ => "").foldl (· ++ ·) "")⟩

/-- One that cannot express anything. -/
def exNoSql : MigBackend := ⟨"none", fun _ _ => .error .sql⟩

def exBackends : List MigBackend := [exSql "p", exSql "s"]

theorem exDbOf_settled {ns : List String} (h : (exDbOf ns).tables.Sorted) : Settled (exDbOf ns) := by
  rw [settled_iff]
  refine ⟨h, fun e he => ?_⟩
  obtain ⟨n, _, rfl⟩ := List.mem_map.1 he
  refine ⟨rfl, ?_, ?_, ?_, ?_⟩
  · simp [exTableOf]
  · left
    exact ⟨_, List.mem_cons_self, rfl⟩
  · intro c hc
    simp [exTableOf] at hc
    rcases hc with rfl | rfl <;> exact ⟨_, rfl⟩
  · intro c hc d
    simp [exTableOf] at hc
    rcases hc with rfl | rfl <;> simp

theorem exDbOf_a : Settled (exDbOf ["A"]) := exDbOf_settled (by unfold SMap.Sorted; decide)
theorem exDbOf_ab : Settled (exDbOf ["A", "B"]) := exDbOf_settled (by unfold SMap.Sorted; decide)
theorem exDbOf_ac : Settled (exDbOf ["A", "C"]) := exDbOf_settled (by unfold SMap.Sorted; decide)
theorem exDbOf_bc : Settled (exDbOf ["B", "C"]) := exDbOf_settled (by unfold SMap.Sorted; decide)

def memStep (name : String) (ns : List String) (s : MemMigrations) : Except MErr Bool × MemMigrations :=
  createMigrationTo (MemMigrations.ops false) exBackends name s.getLatest (exDbOf ns) s
def fsStep (name : String) (ns : List String) (s : FsMigrations) : Except MErr Bool × FsMigrations :=
  createMigrationTo (FsMigrations.ops false) exBackends name s.getLatest (exDbOf ns) s

def exMem1 : MemMigrations := (memStep "one" ["A"] .new).2
def exMem2 : MemMigrations := (memStep "two" ["A", "B"] exMem1).2
def exMem3 : MemMigrations := (memStep "three" ["B", "C"] exMem2).2

example : (memStep "one" ["A"] .new).1 = .ok true ∧ (memStep "two" ["A", "B"] exMem1).1 = .ok true ∧
    (memStep "three" ["B", "C"] exMem2).1 = .ok true ∧
    memStep "four" ["B", "C"] exMem3 = (.ok false, exMem3) := ⟨rfl, rfl, rfl, rfl⟩

theorem exMem2_made : MemMade false exBackends exMem2 [("one", exDbOf ["A"]), ("two", exDbOf ["A", "B"])] := by
  have h1 : MemMade false exBackends exMem1 [("one", exDbOf ["A"])] :=
    .create (made := []) .empty rfl exDbOf_a (show memStep "one" ["A"] .new = _ from rfl)
  exact .create h1 rfl exDbOf_ab (show memStep "two" ["A", "B"] exMem1 = _ from rfl)

theorem exMem3_made : MemMade false exBackends exMem3 [("one", exDbOf ["A"]), ("two", exDbOf ["A", "B"]),
    ("three", exDbOf ["B", "C"])] :=
  .create exMem2_made rfl exDbOf_bc (show memStep "three" ["B", "C"] exMem2 = _ from rfl)

def exFs0 : FsMigrations := ⟨[], none⟩
def exFs1 : FsMigrations := (fsStep "one" ["A"] exFs0).2
def exFs2 : FsMigrations := (fsStep "two" ["A", "B"] exFs1).2
def exFs3 : FsMigrations := (fsStep "three" ["A", "C"] exFs2).2

theorem exFs2_made : FsMade false exBackends exFs2 [("one", exDbOf ["A"]), ("two", exDbOf ["A", "B"])] := by
  have h1 : FsMade false exBackends exFs1 [("one", exDbOf ["A"])] :=
    .create (made := []) .empty ⟨rfl, by decide⟩ exDbOf_a (show fsStep "one" ["A"] exFs0 = _ from rfl)
  exact .create h1 ⟨rfl, by decide⟩ exDbOf_ab (show fsStep "two" ["A", "B"] exFs1 = _ from rfl)

theorem exFs3_made : FsMade false exBackends exFs3 [("one", exDbOf ["A"]), ("two", exDbOf ["A", "B"]),
    ("three", exDbOf ["A", "C"])] :=
  .create exFs2_made ⟨rfl, by decide⟩ exDbOf_ac (show fsStep "three" ["A", "C"] exFs2 = _ from rfl)

theorem exBackends_nodup : (exBackends.map (·.name)).Nodup := by decide

/-- The file of table `A` is deleted from the directory that has it. -/
example : ("A", "one") ∈ ((exFs3.deleteTable "A" "one").2.info "three").tableBases ∧
    ((exFs3.deleteTable "A" "one").2.dir "one").tables.lookup "A" = none := by decide

/-- The table `A` of the third migration is found in the first. -/
example : (exFs3.info "three").tableBases = [("A", "one")] ∧ (exFs3.dir "three").tables = [("C", exTableOf "C")] ∧
    exFs3.getDb false "three" = .ok (exDbOf ["A", "C"]) ∧
    (exFs3.toMigs "s").up "one" = .ok (some "s+A?butane_migrations\n") ∧
    (exFs3.toMigs "s").up "three" = .ok (some "s+C-B\n") ∧
    (exFs3.toMigs "p").down "three" = .ok (some "p+B-C\n") ∧
    fsStep "four" ["A", "C"] exFs3 = (.ok false, exFs3) := ⟨rfl, rfl, rfl, rfl, rfl, rfl, rfl⟩

example : Chain (exMem3.toMigs "p") (·.getDb false) [("one", exDbOf ["A"]), ("two", exDbOf ["A", "B"]),
    ("three", exDbOf ["B", "C"])] := mem_history exBackends_nodup exMem3_made "p"
example : Chain (exFs3.toMigs "p") (exFs3.getDb false) [("one", exDbOf ["A"]), ("two", exDbOf ["A", "B"]),
    ("three", exDbOf ["A", "C"])] := fs_history exBackends_nodup exFs3_made "p"

/-- A failed creation, an edit of `current`, and a creation after it. -/
example : ∃ s s' s'', createMigrationTo (FsMigrations.ops false) (exBackends ++ [exNoSql]) "bad" exFs2.getLatest
      (exDbOf ["A", "C"]) exFs2 = (.error .sql, s) ∧ s'.dirs = s.dirs.insert "current" .empty ∧
    fsStep "three" ["A", "C"] s' = (.ok true, s'') ∧ s''.getDb false "three" = .ok (exDbOf ["A", "C"]) :=
  ⟨_, { (createMigrationTo (FsMigrations.ops false) (exBackends ++ [exNoSql]) "bad" exFs2.getLatest
      (exDbOf ["A", "C"]) exFs2).2 with dirs := SMap.insert (createMigrationTo (FsMigrations.ops false)
        (exBackends ++ [exNoSql]) "bad" exFs2.getLatest (exDbOf ["A", "C"]) exFs2).2.dirs "current" .empty },
    _, rfl, rfl, rfl, rfl⟩

example : ∃ m old, exMem3.getLatest = some m ∧ m.from_ = some "two" ∧ m.up.lookup "s" = some "s+C-A" ∧
    SameSchema old (exDbOf ["A", "B"]) := by
  obtain ⟨m, old, h3, _, _, h4, h5, _⟩ := mem_create exBackends_nodup exMem2_made exDbOf_bc
    (show memStep "three" ["B", "C"] exMem2 = (.ok true, exMem3) from rfl)
  cases (show exMem3.getLatest = some _ from rfl).symm.trans h3
  exact ⟨_, old, rfl, rfl, rfl, h5⟩
example : ∃ old db, exFs3.getLatest = some "three" ∧ SameSchema old (exDbOf ["A", "B"]) ∧ SameSchema db (exDbOf ["A", "C"]) := by
  obtain ⟨old, db, h1, _, _, h2, h3, _⟩ := fs_create exBackends_nodup exFs2_made exDbOf_ac rfl
    (show fsStep "three" ["A", "C"] exFs2 = (.ok true, exFs3) from rfl)
  exact ⟨old, db, h1, h3, h2⟩

example : ¬ SameSchema (exDbOf ["A"]) (exDbOf ["A", "B"]) := by
  intro h
  have := h "B"
  exact this
example : ∃ s', fsStep "four" ["A", "B"] exFs3 = (.ok true, s') :=
  fs_create_succeeds exBackends_nodup exFs3_made exDbOf_ab rfl
    (fun h => by have := h "B"; exact this)
    (by
      intro b hb old _ _
      have key : ∀ (p : String) (db : ADB) (ops : List Operation), p ≠ "" → ∃ text, (exSql p).sql db ops = .ok text ∧ text ≠ "" := by
        intro p db ops hp
        refine ⟨_, rfl, fun h => hp ?_⟩
        have := congrArg (fun s => s.toList) h
        simp [String.toList_append] at this
        try exact this.1
      simp [exBackends] at hb
      rcases hb with rfl | rfl
      · exact ⟨key "p" _ _ (by decide), key "p" _ _ (by decide)⟩
      · exact ⟨key "s" _ _ (by decide), key "s" _ _ (by decide)⟩)
example : ∃ s', memStep "four" ["A", "B"] exMem3 = (.ok true, s') :=
  mem_create_succeeds exBackends_nodup exMem3_made "four" exDbOf_ab
    (fun h => by have := h "A"; exact this)
    (by
      intro b hb old _ _
      simp [exBackends] at hb
      rcases hb with rfl | rfl <;> exact ⟨⟨_, rfl⟩, _, rfl⟩)

theorem exDbOf_noNaN (ns : List String) : NoNaN (exDbOf ns) := by
  intro e he c hc x hx
  obtain ⟨n, _, rfl⟩ := List.mem_map.1 he
  simp [exTableOf] at hc
  rcases hc with rfl | rfl <;> cases hx
example : ((.ok false : Except MErr Bool) = .ok false ↔ SameSchema (exDbOf ["A", "C"]) (exDbOf ["A", "C"])) :=
  (fs_create_nothing_partial exBackends_nodup exFs3_made exDbOf_ac.valid (exDbOf_noNaN _)
    (show fsStep "four" ["A", "C"] exFs3 = (.ok false, exFs3) from rfl)).1
example : ((.ok false : Except MErr Bool) = .ok false ↔ SameSchema (exDbOf ["B", "C"]) (exDbOf ["B", "C"])) :=
  (mem_create_nothing_partial exBackends_nodup exMem3_made exDbOf_bc.valid (exDbOf_noNaN _)
    (show memStep "four" ["B", "C"] exMem3 = (.ok false, exMem3) from rfl)).1

example : ∃ mem, exFs3.embed false = .ok mem ∧ mem.latest = some "three" ∧
    (mem.toMigs "s").up ⟨"three", exDbOf [], none, [], []⟩ = .ok none ∧
    (mem.get "three").map (·.up.lookup "s") = some (some "s+C-B\n") := ⟨_, rfl, rfl, rfl, rfl⟩
example : ∃ mem, exFs3.embed false = .ok mem ∧ ∀ b, Chain (mem.toMigs b) (·.getDb false)
    [("one", exDbOf ["A"]), ("two", exDbOf ["A", "B"]), ("three", exDbOf ["A", "C"])] := by
  obtain ⟨mem, h1, h2, _⟩ := embed_preserves exBackends_nodup exFs3_made
  exact ⟨mem, h1, h2⟩

/-- A migration with a custom type, and SQL in one direction only for one backend. -/
def exTyped : MemMigration :=
  ⟨"typed", ⟨(exDbOf ["A"]).tables, [(.customType "Color", .knownId (.ty .text))]⟩, some "one",
    [("p", "up p"), ("s", "up s")], [("s", "down s")]⟩
example : ∃ m, copyMigration false (exTyped.source false) (.new "copy") = (.ok (), m) ∧ m.from_ = some "one" ∧
    m.getDb false = .ok exTyped.db ∧ m.up.lookup "s" = some "up s" := by
  obtain ⟨m, h1, _, h3, h4, h5, _⟩ := copy_migration_partial (json := false) (src := exTyped.source false)
    (prev := some "one") (db := exTyped.db) (bs := ["p", "s"]) rfl rfl (settled_tables exDbOf_a _)
    (by simp [exTyped, DeferredSqlType.isKnown]) (by unfold SMap.Sorted; decide) rfl (fun b _ => ⟨_, _, rfl, rfl⟩) "copy"
  exact ⟨m, h1, h3, h4, (h5 "s" (by simp) "up s" "down s" rfl rfl).1⟩

/-- C36 fails in full: the SQL of a backend that has it in one direction only is not
copied. -/
theorem copy_one_direction_violated : ∃ m m', copyMigration false (MemMigration.source false m) (.new m.name) = (.ok (), m') ∧
    m.up.lookup "p" = some "up p" ∧ m'.up.lookup "p" = none := ⟨exTyped, _, rfl, rfl, rfl⟩

/-! ### Names that were used before -/

/-- A collection in which everything has a predecessor has no chain: `all_migrations`
does not return. -/
theorem no_chain {ms : Migs M} {P : M → Prop} (hlatest : ∃ m, ms.latest = some m ∧ P m)
    (hprev : ∀ m, P m → ∃ n p, ms.from_ m = .ok (some n) ∧ ms.get n = some p ∧ P p) (fuel : Nat) :
    ms.allMigrations fuel = .error .outOfFuel := by
  have key : ∀ fuel m acc, P m → ms.allLoop fuel (some m) acc = .error .outOfFuel := by
    intro fuel
    induction fuel with
    | zero => intros; rfl
    | succ fuel ih =>
      intro m acc hm
      obtain ⟨n, p, h1, h2, h3⟩ := hprev m hm
      simp only [Migs.allLoop, Migs.prev, h1, h2]
      exact ih p _ h3
  obtain ⟨m, h1, h2⟩ := hlatest
  rw [Migs.allMigrations, h1]
  exact key fuel m [] h2

/-- C34 fails in full: making a migration with a name that is in the chain is accepted, and
then each migration has a predecessor: the chain is a circle, and `all_migrations` does not
return. -/
theorem mem_reused_name_violated : ∃ s', memStep "one" ["B", "C"] exMem2 = (.ok true, s') ∧
    ∀ fuel, (s'.toMigs "p").allMigrations fuel = .error .outOfFuel := by
  refine ⟨_, rfl, fun fuel => ?_⟩
  refine no_chain (P := fun m => m.from_ = some "one" ∨ m.from_ = some "two") ⟨_, rfl, .inr rfl⟩ ?_ fuel
  rintro m (h | h)
  · exact ⟨"one", _, congrArg _ h, rfl, .inr rfl⟩
  · exact ⟨"two", _, congrArg _ h, rfl, .inl rfl⟩

/-- C35 fails in full: after the latest migration is detached, its files remain.  A
migration made later with that name is read back with tables that it does not have. -/
theorem fs_detached_name_violated : ∃ s1 s2 db, exFs2.detachLatest = (.ok (), s1) ∧
    s1.getLatest = some "one" ∧ fsStep "two" ["A", "C"] s1 = (.ok true, s2) ∧
    s2.getDb false "two" = .ok db ∧ ¬ SameSchema db (exDbOf ["A", "C"]) ∧ db = exDbOf ["A", "B", "C"] :=
  ⟨_, _, _, rfl, rfl, rfl, rfl, (fun h => h "B"), rfl⟩

/-- The same after a creation that failed and was tried again with the same name. -/
theorem fs_failed_name_violated : ∃ s1 s2 db, createMigrationTo (FsMigrations.ops false) [exNoSql] "three"
      exFs2.getLatest (exDbOf ["B", "C"]) exFs2 = (.error .sql, s1) ∧
    fsStep "three" ["A"] s1 = (.ok true, s2) ∧ s2.getDb false "three" = .ok db ∧ ¬ SameSchema db (exDbOf ["A"]) :=
  ⟨_, _, _, rfl, rfl, rfl, (fun h => h "C")⟩

end Butane.Props
