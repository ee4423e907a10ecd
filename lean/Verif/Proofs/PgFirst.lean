/-
The first migration of a project on PostgreSQL, which also creates the table of records.
-/
import Verif.Model.PgMigrate
import Verif.Proofs.PgLive
import Verif.Proofs.PgCheck

namespace Butane.PgP
open Butane Butane.Spec Butane.Ddl Butane.DdlP Butane.PgCat

/-- The schema with the table of records. -/
def withRec (adb : ADB) : ADB := ⟨adb.tables.insert recordsName migrationsTable, adb.extraTypes⟩

theorem withRec_get (adb : ADB) (n : String) :
    (withRec adb).getTable n = if n = recordsName then some migrationsTable else adb.getTable n := by
  unfold withRec ADB.getTable
  rw [SMap.lookup_insert]

theorem withRec_valid {adb : ADB} (h : ValidSchema adb) : ValidSchema (withRec adb) := by
  refine ⟨SMap.sorted_insert h.1 _ _, ?_, ?_⟩
  · intro e he
    rcases SMap.mem_insert_of he with rfl | he
    · rfl
    · exact h.2 e he
  · intro e he
    rcases SMap.mem_insert_of he with rfl | he
    · decide
    · exact h.3 e he

theorem filter_insert {V : Type} {m : SMap String V} (k : String) (v : V) (h : m.lookup k = none)
    (P : String × V → Bool) (hk : P (k, v) = false) : (m.insert k v).filter P = m.filter P := by
  induction m with
  | nil => simp [SMap.insert, hk]
  | cons e m ih =>
    obtain ⟨k', v'⟩ := e
    simp only [SMap.lookup] at h
    split at h
    · cases h
    · next hc =>
      simp only [SMap.insert]
      cases hcmp : compare k k' with
      | lt => simp only [List.filter_cons, hk, Bool.false_eq_true, if_false]
      | eq => exact absurd hcmp hc
      | gt => simp only [List.filter_cons, ih h]

theorem flatMap_insert {V W : Type} {m : SMap String V} (k : String) (v : V) (h : m.lookup k = none)
    (f : String × V → List W) (hk : f (k, v) = []) : (m.insert k v).flatMap f = m.flatMap f := by
  induction m with
  | nil => simp [SMap.insert, hk]
  | cons e m ih =>
    obtain ⟨k', v'⟩ := e
    simp only [SMap.lookup] at h
    split at h
    · cases h
    · next hc =>
      simp only [SMap.insert]
      cases hcmp : compare k k' with
      | lt => simp only [List.flatMap_cons, hk, List.nil_append]
      | eq => exact absurd hcmp hc
      | gt => simp only [List.flatMap_cons, ih h]

theorem keys_contains {V : Type} (m : SMap String V) (k : String) : m.keys.contains k = (m.lookup k).isSome := by
  rw [Bool.eq_iff_iff, List.contains_iff_mem, SMap.mem_keys_iff, Option.isSome_iff_exists]

/-- Both schemas with the table of records differ as they do without. -/
theorem diff_withRec {old new : ADB} (ho : old.getTable recordsName = none)
    (hn : new.getTable recordsName = none) : diff (withRec old) (withRec new) = diff old new := by
  have hfilter : ∀ {a b : ADB}, a.getTable recordsName = none → b.getTable recordsName = none →
      (withRec b).tables.filter (fun e => !(withRec a).tables.keys.contains e.1) =
        b.tables.filter (fun e => !a.tables.keys.contains e.1) := by
    intro a b _ hb
    unfold withRec
    rw [filter_insert _ _ hb _ (by rw [keys_contains, SMap.lookup_insert]; simp)]
    apply List.filter_congr
    intro e he
    rw [keys_contains, keys_contains, SMap.lookup_insert, if_neg]
    exact (SMap.lookup_eq_none_iff _ _).1 hb e he
  have hmap : (withRec new).tables.flatMap (fun e =>
      match (withRec old).tables.lookup e.1 with
      | some oldTable => diffTable oldTable e.2
      | none => []) = new.tables.flatMap (fun e =>
      match old.tables.lookup e.1 with
      | some oldTable => diffTable oldTable e.2
      | none => []) := by
    unfold withRec
    rw [flatMap_insert _ _ hn _ (by simp only [SMap.lookup_insert, if_true]; decide)]
    rw [List.flatMap_def, List.flatMap_def]
    congr 1
    apply List.map_congr_left
    intro e he
    rw [SMap.lookup_insert, if_neg]
    exact (SMap.lookup_eq_none_iff _ _).1 hn e he
  unfold diff
  simp only [hfilter ho hn, hfilter hn ho]
  exact congrArg (fun x => _ ++ x ++ _) hmap

theorem records_columns : migrationsTable.columns =
    [⟨"name", .knownId (.ty .text), false, true, false, false, none, none⟩] := rfl

theorem records_table {kw : String → Bool} : PgTable kw migrationsTable := by
  refine ⟨⟨⟨'b', _, rfl, by decide, by decide⟩, fun _ => by decide⟩, ?_⟩
  intro c hc
  rw [records_columns, List.mem_singleton] at hc
  subst hc
  exact ⟨⟨⟨'n', _, rfl, by decide, by decide⟩, fun _ => by decide⟩, ⟨.text, _, rfl, rfl⟩, (fun h => by cases h),
    fun _ => rfl, fun r h => by cases h⟩

theorem withRec_pg {kw : String → Bool} {adb : ADB} (h : PgSchema kw adb) :
    PgSchema kw (withRec adb) := by
  intro n t hl
  rw [withRec_get] at hl
  split at hl
  · cases hl; exact records_table
  · exact h n t hl

section
variable {env : PgEnv} {kw res : String → Bool} {p : LitPrinters} {new : ADB}

/-- The table of records is created where its names are free. -/
theorem create_records (hen : Naming env) (hp : Permissive env) {cat : PgCat.PDb} (h1 : cat.lookup recordsName = none)
    (h2 : recordsName ∉ taken cat) (h3 : "butane_migrations_pkey" ∉ taken cat) :
    PgCat.exec env cat (pgCreate true migrationsTable) = some (cat.insert recordsName pgRecords) := by
  have hc : env.choose (taken (cat.insert recordsName ⟨[⟨"name", ["text"], true, false⟩], []⟩))
      (stdName recordsName (.pk "name")) = "butane_migrations_pkey" := by
    refine hen.std _ _ ?_ (by decide)
    intro hm
    unfold taken at hm h3
    rw [List.mem_append, List.mem_map, List.mem_flatMap] at hm
    rw [List.mem_append, not_or, List.mem_map, List.mem_flatMap] at h3
    rcases hm with ⟨e, he, hx⟩ | ⟨e, he, hx⟩
    · rcases SMap.mem_insert_of he with rfl | he
      · exact absurd hx (by decide)
      · exact h3.1 ⟨e, he, hx⟩
    · rcases SMap.mem_insert_of he with rfl | he
      · cases hx
      · exact h3.2 ⟨e, he, hx⟩
  have e : pgCreate true migrationsTable = .createTable true recordsName
      [pgDef ⟨"name", .knownId (.ty .text), false, true, false, false, none, none⟩] [] false := rfl
  rw [e]
  unfold PgCat.exec
  rw [hp, show pgRecords = ⟨[⟨"name", ["text"], true, false⟩],
    [⟨env.choose (taken (cat.insert recordsName ⟨[⟨"name", ["text"], true, false⟩], []⟩))
      (stdName recordsName (.pk "name")), .pk "name"⟩]⟩ by rw [hc]; rfl]
  simp only [altered, h1]
  have hmk : makeCols env [pgDef ⟨"name", .knownId (.ty .text), false, true, false, false, none, none⟩] =
      some [⟨"name", ["text"], true, false⟩] := rfl
  rw [hmk]
  simp only [h2]
  rfl

/-- What is needed of a schema for a first migration. -/
structure FirstOk (kw : String → Bool) (new : ADB) : Prop where
  valid : ValidSchema new
  pg : PgSchema kw new
  free : new.getTable recordsName = none
  apart : NamesApart ADB.new (withRec new)
  columns : ∀ n t, new.getTable n = some t → t.columns ≠ []
  oneKey : ∀ n t, new.getTable n = some t → OneKey t
  refs : ∀ n r k, Refers new n r k → ∃ x, KeyColumn new r k x

variable (h : FirstOk kw new)
include h

theorem FirstOk.names : NamesApart ADB.new new := by
  have ht : ∀ {n t}, ADB.new.getTable n = some t ∨ new.getTable n = some t →
      ADB.new.getTable n = some t ∨ (withRec new).getTable n = some t := by
    rintro n t (hl | hl)
    · cases hl
    · refine .inr ?_
      rw [withRec_get, if_neg]
      · exact hl
      · rintro rfl
        rw [h.free] at hl
        cases hl
  have h1 : ∀ {n}, HasTable ADB.new new n → HasTable ADB.new (withRec new) n :=
    fun ⟨t, hl⟩ => ⟨t, ht hl⟩
  have h2 : ∀ {n c}, HasColumn ADB.new new n c → HasColumn ADB.new (withRec new) n c :=
    fun ⟨t, hl, hc⟩ => ⟨t, ht hl, hc⟩
  exact ⟨fun n m a b e => h.apart.tables n m (h1 a) (h1 b) e, fun n c d a b e => h.apart.columns n c d (h2 a) (h2 b) e,
    fun n c m d a b e => h.apart.constraints n c m d (h2 a) (h2 b) e,
    fun m n c k a b e => h.apart.free m n c k (h1 a) (h2 b) e, fun n c k a e => h.apart.short n c k (h2 a) e⟩

theorem FirstOk.writable : PgWritable p ADB.new new :=
  ⟨fun n t _ hl => h.columns n t hl, fun n t hl => (by cases hl), fun n s t c y hl => (by cases hl),
    fun n s t c x y hl => (by cases hl)⟩

theorem FirstOk.keeps : KeepsKeys ADB.new new :=
  ⟨fun n t hl => (by cases hl), h.oneKey, fun n s t c x y hl => (by cases hl), fun n s t c x y hl => (by cases hl)⟩

theorem FirstOk.feasible : PgFeasible env res p ADB.new new := by
  refine ⟨?_, ?_, ?_, ?_, ?_, ?_, ?_⟩
  · intro n s t c x y hl; cases hl
  · intro n s t c y hl; cases hl
  · intro n s t c x y hl; cases hl
  · intro n s t c x y hl; cases hl
  · rintro n r k ⟨t, c, hl, -⟩; cases hl
  · exact h.refs
  · intro n s t r k hl; cases hl

/-- The script of a first migration runs on an empty database. -/
theorem first_runs (hk : PgWords kw res) (hen : Naming env) (hp : Permissive env) :
    ∃ text cat, PgDdl.migrationSql kw p ADB.new (diff ADB.new new ++ [.addTableIfNotExists migrationsTable]) = .ok text ∧
      PgCat.execScript env res [] text = some cat ∧ PgProper cat ∧ PgImplements (withRec new) cat := by
  have v0 : ValidSchema ADB.new := validSchema_of (by decide)
  have s0 : PgSchema kw ADB.new := fun n t hl => by cases hl
  have v1 := h.valid
  have s1 := h.pg
  have p0 : PgProper [] := pgDb_proper (adb := ADB.new) (by decide)
  have i0 : PgImplements ADB.new [] := pgDb_implements s0 v0 (by decide)
  obtain ⟨text, h1, h2⟩ := pgScript_ok (cur := ADB.new) (p := p) hk
    (ops := diff ADB.new new ++ [.addTableIfNotExists migrationsTable]) (by
      intro op hop
      rcases List.mem_append.1 hop with hop | hop
      · exact diff_pgOp v0 v1 s0 s1 h.writable hop
      · rw [List.mem_singleton] at hop
        subst hop
        exact ⟨records_table, by rw [records_columns]; simp⟩) (by
      intro t o n hm
      rcases List.mem_append.1 hm with hm | hm
      · obtain ⟨s, u, g1, -⟩ := diff_found v0 h.valid hm
        cases g1
      · rw [List.mem_singleton] at hm; cases hm)
  obtain ⟨cat, h3⟩ := ops_go hp hen v0 v1 s0 s1 h.names h.writable h.keeps (h.feasible (res := res) (p := p)) (pre := [])
    (post := diff ADB.new new) rfl (J.start (new := new) v0 p0 i0)
  have hJ := ops_step hen h.names (J.start v0 p0 i0) (diff_ready v0 v1 s0 s1 h.keeps) h3
  have hpr := hJ.proper
  have him := hJ.finish v1 (diff_final v0 v1 s0 s1 h.keeps)
  have hwith : ∀ {n t}, new.getTable n = some t → (withRec new).getTable n = some t := by
    intro n t hl
    rw [withRec_get, if_neg]
    · exact hl
    · rintro rfl
      rw [h.free] at hl
      cases hl
  have hrec : (withRec new).getTable recordsName = some migrationsTable := by rw [withRec_get, if_pos rfl]
  have hlow : lower recordsName = recordsName := by decide
  have hrt : HasTable ADB.new (withRec new) recordsName := ⟨_, .inr hrec⟩
  have hrcol : HasColumn ADB.new (withRec new) recordsName "name" :=
    ⟨_, .inr hrec, _, by rw [records_columns]; exact List.mem_singleton.2 rfl, rfl⟩
  have hnone : cat.lookup recordsName = none := by
    cases hl : cat.lookup recordsName with
    | none => rfl
    | some s =>
      obtain ⟨n, t, g1, g2⟩ := him.only _ _ hl
      have := h.apart.tables n recordsName ⟨t, .inr (hwith g1)⟩ hrt (by rw [hlow, g2])
      rw [this, h.free] at g1
      cases g1
  have hcon : ∀ {e : String × PTable}, e ∈ cat → ∀ x ∈ e.2.cons, ∃ n c, new.getTable n ≠ none ∧
      HasColumn ADB.new (withRec new) n c ∧ x.kind.col = lower c ∧ x.name = stdName (lower n) x.kind := by
    intro e he x hx
    have hl := SMap.lookup_of_mem hpr.sorted he
    obtain ⟨n, t, g1, g2⟩ := him.only _ _ hl
    obtain ⟨s, g3, g4⟩ := him.tables n t g1
    rw [← g2, hl] at g3
    cases g3
    have hcc := (g4.constraints x.kind).1 ⟨x, hx, rfl⟩
    have hcol : ∃ y ∈ t.columns, x.kind.col = lower y.name := by
      cases hk : x.kind with
      | pk c => rw [hk] at hcc; obtain ⟨y, hy, -, e⟩ := hcc; exact ⟨y, hy, e⟩
      | unique c => rw [hk] at hcc; obtain ⟨y, hy, -, e⟩ := hcc; exact ⟨y, hy, e⟩
      | fk c r k => rw [hk] at hcc; obtain ⟨y, hy, e, -⟩ := hcc; exact ⟨y, hy, e⟩
    obtain ⟨y, hy, hcol⟩ := hcol
    refine ⟨n, y.name, by rw [g1]; simp, ⟨t, .inr (hwith g1), y, hy, rfl⟩, hcol, ?_⟩
    rw [← g2]
    exact hpr.names _ _ hl x hx
  have ht1 : recordsName ∉ taken cat := by
    unfold taken
    rw [List.mem_append, not_or, List.mem_map, List.mem_flatMap]
    refine ⟨?_, ?_⟩
    · rintro ⟨e, he, hx⟩
      have := SMap.lookup_of_mem hpr.sorted he
      rw [hx, hnone] at this
      cases this
    · rintro ⟨e, he, hx⟩
      obtain ⟨x, hx, hxn⟩ := List.mem_map.1 hx
      obtain ⟨n, c, -, g1, g2, g3⟩ := hcon he x hx
      exact h.apart.free recordsName n c x.kind hrt g1 g2 (by rw [hlow, ← g3, hxn])
  have ht2 : "butane_migrations_pkey" ∉ taken cat := by
    have hstd : "butane_migrations_pkey" = stdName (lower recordsName) (.pk "name") := by decide
    unfold taken
    rw [List.mem_append, not_or, List.mem_map, List.mem_flatMap]
    refine ⟨?_, ?_⟩
    · rintro ⟨e, he, hx⟩
      obtain ⟨n, t, g1, g2⟩ := him.only _ _ (SMap.lookup_of_mem hpr.sorted he)
      exact h.apart.free n recordsName "name" (.pk "name") ⟨t, .inr (hwith g1)⟩ hrcol (by decide) (by rw [← hstd, ← hx, g2])
    · rintro ⟨e, he, hx⟩
      obtain ⟨x, hx, hxn⟩ := List.mem_map.1 hx
      obtain ⟨n, c, g0, g1, g2, g3⟩ := hcon he x hx
      have := stdName_apart h.apart g1 hrcol g2 (by decide : PKind.col (.pk "name") = lower "name") (by rw [← g3, hxn, hstd])
      rw [this] at g0
      exact g0 h.free
  have hrecs : PgTableIs migrationsTable pgRecords := by
    have i1 : PgImplements (withRec ADB.new) [(recordsName, pgRecords)] :=
      pgDb_implements (kw := kw) (withRec_pg s0) (withRec_valid v0) (by decide)
    obtain ⟨s, g1, g2⟩ := i1.tables recordsName migrationsTable (by rw [withRec_get, if_pos rfl])
    have : s = pgRecords := by
      have : some pgRecords = some s := g1
      exact (Option.some.inj this).symm
    rw [← this]
    exact g2
  have hlk : ∀ m, (cat.insert recordsName pgRecords).lookup m = if m = recordsName then some pgRecords else cat.lookup m :=
    fun m => SMap.lookup_insert ..
  refine ⟨text, cat.insert recordsName pgRecords, h1, ?_, ⟨SMap.sorted_insert hpr.sorted _ _, ?_, ?_, ?_⟩, ?_, ?_⟩
  · simp only [PgCat.execScript, h2, List.flatMap_append]
    rw [execAll_append]
    rw [h3]
    simp only [List.flatMap_cons, List.flatMap_nil, pgStmts, List.append_nil, Option.bind_some, PgCat.execAll, create_records hen hp hnone ht1 ht2]
  · intro n s hl
    rw [hlk] at hl
    split at hl
    · cases hl; decide
    · exact hpr.columns n s hl
  · intro n s hl
    rw [hlk] at hl
    split at hl
    · next e => cases hl; subst e; decide
    · exact hpr.names n s hl
  · intro n s hl
    rw [hlk] at hl
    split at hl
    · cases hl; decide
    · exact hpr.constraints n s hl
  · intro n t hl
    rw [withRec_get] at hl
    split at hl
    · next e =>
      cases hl
      subst e
      exact ⟨pgRecords, by rw [hlk, if_pos hlow], hrecs⟩
    · next e =>
      obtain ⟨s, g1, g2⟩ := him.tables n t hl
      refine ⟨s, ?_, g2⟩
      rw [hlk, if_neg]
      · exact g1
      · intro e'
        rw [e', hnone] at g1
        cases g1
  · intro m s hl
    rw [hlk] at hl
    split at hl
    · next e => exact ⟨recordsName, _, hrec, by rw [e, hlow]⟩
    · obtain ⟨n, t, g1, g2⟩ := him.only m s hl
      exact ⟨n, t, hwith g1, g2⟩

end

end Butane.PgP
