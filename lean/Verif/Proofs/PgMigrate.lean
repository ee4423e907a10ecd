/-
The SQL of migrations on PostgreSQL databases with and without the table of records.
-/
import Verif.Spec.PgMigrate
import Verif.Proofs.PgFirst
import Verif.Proofs.PgCrate
import Verif.Proofs.SqliteSame

namespace Butane.PgP
open Butane Butane.Spec Butane.Ddl Butane.DdlP Butane.PgCat
open Butane.Proofs.CrateDb (others_lookup)
variable {env : PgEnv} {kw res : String → Bool} {p : LitPrinters} {old new adb : ADB}

/-! ### Schemas with the table of records -/

theorem rec_get (h : adb.getTable recordsName = none) {n : String} {t : ATable} (hl : adb.getTable n = some t) :
    n ≠ recordsName ∧ (withRec adb).getTable n = some t := by
  have : n ≠ recordsName := by
    rintro rfl
    rw [h] at hl
    cases hl
  exact ⟨this, by rw [withRec_get, if_neg this]; exact hl⟩

theorem rec_self : (withRec adb).getTable recordsName = some migrationsTable := by rw [withRec_get, if_pos rfl]

theorem rec_cases {n : String} {t : ATable} (hl : (withRec adb).getTable n = some t) :
    n = recordsName ∧ t = migrationsTable ∨ n ≠ recordsName ∧ adb.getTable n = some t := by
  rw [withRec_get] at hl
  split at hl
  · next h => cases hl; exact .inl ⟨h, rfl⟩
  · next h => exact .inr ⟨h, hl⟩

theorem names_without (ho : old.getTable recordsName = none) (hn : new.getTable recordsName = none)
    (h : NamesApart (withRec old) (withRec new)) : NamesApart old new := by
  have ht : ∀ {n t}, old.getTable n = some t ∨ new.getTable n = some t →
      (withRec old).getTable n = some t ∨ (withRec new).getTable n = some t := by
    rintro n t (hl | hl)
    · exact .inl (rec_get ho hl).2
    · exact .inr (rec_get hn hl).2
  have h1 : ∀ {n}, HasTable old new n → HasTable (withRec old) (withRec new) n := fun ⟨t, hl⟩ => ⟨t, ht hl⟩
  have h2 : ∀ {n c}, HasColumn old new n c → HasColumn (withRec old) (withRec new) n c :=
    fun ⟨t, hl, hc⟩ => ⟨t, ht hl, hc⟩
  exact ⟨fun n m a b e => h.tables n m (h1 a) (h1 b) e, fun n c d a b e => h.columns n c d (h2 a) (h2 b) e,
    fun n c m d a b e => h.constraints n c m d (h2 a) (h2 b) e, fun m n c k a b e => h.free m n c k (h1 a) (h2 b) e,
    fun n c k a e => h.short n c k (h2 a) e⟩

theorem both_cases {n : String} {s t : ATable} (hs : (withRec old).getTable n = some s)
    (ht : (withRec new).getTable n = some t) :
    s = migrationsTable ∧ t = migrationsTable ∨ old.getTable n = some s ∧ new.getTable n = some t := by
  rcases rec_cases hs with ⟨h1, h2⟩ | ⟨h1, h2⟩
  · rcases rec_cases ht with ⟨-, h4⟩ | ⟨h3, -⟩
    · exact .inl ⟨h2, h4⟩
    · exact absurd h1 h3
  · rcases rec_cases ht with ⟨h3, -⟩ | ⟨-, h4⟩
    · exact absurd h3 h1
    · exact .inr ⟨h2, h4⟩

theorem none_with {n : String} (h : (withRec adb).getTable n = none) : n ≠ recordsName ∧ adb.getTable n = none := by
  rw [withRec_get] at h
  split at h
  · cases h
  · next hn => exact ⟨hn, h⟩

theorem other_with {n : String} {t : ATable} (hn : n ≠ recordsName) (h : (withRec adb).getTable n = some t) :
    adb.getTable n = some t := by
  rcases rec_cases h with ⟨h1, -⟩ | ⟨-, h1⟩
  · exact absurd h1 hn
  · exact h1

theorem rec_column {c : String} {x : AColumn} (h : migrationsTable.column c = some x) :
    x = ⟨"name", .knownId (.ty .text), false, true, false, false, none, none⟩ := by
  have := (colByName_some (h : colByName migrationsTable.columns c = some x)).1
  rw [records_columns, List.mem_singleton] at this
  exact this

theorem writable_with (h : PgWritable p old new) : PgWritable p (withRec old) (withRec new) := by
  refine ⟨?_, ?_, ?_, ?_⟩
  · intro n t h1 h2
    obtain ⟨hn, h1⟩ := none_with h1
    exact h.created n t h1 (other_with hn h2)
  · intro n t h1 h2
    obtain ⟨hn, h2⟩ := none_with h2
    exact h.removed n t (other_with hn h1) h2
  · intro n s t c y h1 h2 h3 h4
    rcases both_cases h1 h2 with ⟨rfl, rfl⟩ | ⟨h1, h2⟩
    · rw [h3] at h4; cases h4
    · exact h.added n s t c y h1 h2 h3 h4
  · intro n s t c x y h1 h2 h3 h4 v hv
    rcases both_cases h1 h2 with ⟨rfl, rfl⟩ | ⟨h1, h2⟩
    · rw [rec_column h4] at hv; cases hv
    · exact h.changed n s t c x y h1 h2 h3 h4 v hv

theorem oneKey_records : OneKey migrationsTable := by
  intro c hc d hd _ _
  rw [records_columns, List.mem_singleton] at hc hd
  rw [hc, hd]

theorem keeps_with (h : KeepsKeys old new) : KeepsKeys (withRec old) (withRec new) := by
  refine ⟨?_, ?_, ?_, ?_⟩
  · intro n t hl
    rcases rec_cases hl with ⟨-, rfl⟩ | ⟨-, hl⟩
    · exact oneKey_records
    · exact h.before n t hl
  · intro n t hl
    rcases rec_cases hl with ⟨-, rfl⟩ | ⟨-, hl⟩
    · exact oneKey_records
    · exact h.after n t hl
  · intro n s t c x y h1 h2 h3 h4 h5
    rcases both_cases h1 h2 with ⟨rfl, rfl⟩ | ⟨h1, h2⟩
    · exact ⟨x, (colByName_some (h3 : colByName migrationsTable.columns c = some x)).1, h5⟩
    · exact h.key n s t c x y h1 h2 h3 h4 h5
  · intro n s t c x y h1 h2 h3 h4
    rcases both_cases h1 h2 with ⟨rfl, rfl⟩ | ⟨h1, h2⟩
    · rw [rec_column h3, rec_column h4]
    · exact h.auto n s t c x y h1 h2 h3 h4

theorem refers_with {n r k : String} (h : Refers (withRec adb) n r k) : Refers adb n r k := by
  obtain ⟨t, c, hl, hc, hr⟩ := h
  rcases rec_cases hl with ⟨-, rfl⟩ | ⟨-, hl⟩
  · rw [records_columns, List.mem_singleton] at hc
    subst hc
    cases hr
  · exact ⟨t, c, hl, hc, hr⟩

theorem keyColumn_with (ha : adb.getTable recordsName = none) {r k : String} {x : AColumn} (h : KeyColumn adb r k x) :
    KeyColumn (withRec adb) r k x := by
  obtain ⟨t, hl, h1⟩ := h
  exact ⟨t, (rec_get ha hl).2, h1⟩

theorem feasible_with (ho : old.getTable recordsName = none) (hn : new.getTable recordsName = none)
    (h : PgFeasible env res p old new) : PgFeasible env res p (withRec old) (withRec new) := by
  refine ⟨?_, ?_, ?_, ?_, ?_, ?_, ?_⟩
  · intro n s t c x y h1 h2 h3 h4
    rcases both_cases h1 h2 with ⟨rfl, rfl⟩ | ⟨h1, h2⟩
    · rw [rec_column h3, rec_column h4]
    · exact h.key n s t c x y h1 h2 h3 h4
  · intro n s t c y h1 h2 h3 h4
    rcases both_cases h1 h2 with ⟨rfl, rfl⟩ | ⟨h1, h2⟩
    · rw [h3] at h4; cases h4
    · exact h.added n s t c y h1 h2 h3 h4
  · intro n s t c x y h1 h2 h3 h4 h5
    rcases both_cases h1 h2 with ⟨rfl, rfl⟩ | ⟨h1, h2⟩
    · rw [rec_column h3, rec_column h4] at h5
      exact absurd rfl h5
    · exact h.type n s t c x y h1 h2 h3 h4 h5
  · intro n s t c x y h1 h2 h3 h4 v hv
    rcases both_cases h1 h2 with ⟨rfl, rfl⟩ | ⟨h1, h2⟩
    · rw [rec_column h4] at hv; cases hv
    · exact h.default n s t c x y h1 h2 h3 h4 v hv
  · intro n r k hr
    obtain ⟨x, hx⟩ := h.before n r k (refers_with hr)
    exact ⟨x, keyColumn_with ho hx⟩
  · intro n r k hr
    obtain ⟨x, hx⟩ := h.after n r k (refers_with hr)
    exact ⟨x, keyColumn_with hn hx⟩
  · intro n s t r k h1 h2 h3 h4
    rcases both_cases h1 h2 with ⟨rfl, rfl⟩ | ⟨g1, g2⟩
    · exfalso
      rcases h3 with ⟨t, c, hl, hc, hr⟩ | ⟨t, c, hl, hc, hr⟩
      · rw [h1] at hl
        cases hl
        rw [records_columns, List.mem_singleton] at hc
        subst hc
        cases hr
      · rw [h2] at hl
        cases hl
        rw [records_columns, List.mem_singleton] at hc
        subst hc
        cases hr
    · have h3' : Refers old n r k ∨ Refers new n r k := h3.imp refers_with refers_with
      have hr : r ≠ recordsName := by
        rintro rfl
        rcases h3' with h3' | h3'
        · obtain ⟨x, u, hu, -⟩ := h.before _ _ _ h3'
          rw [ho] at hu
          cases hu
        · obtain ⟨x, u, hu, -⟩ := h.after _ _ _ h3'
          rw [hn] at hu
          cases hu
      obtain ⟨x, y, q1, q2, q3⟩ := h.stays n s t r k g1 g2 h3' (by
        rw [withRec_get, if_neg hr] at h4
        exact h4)
      exact ⟨x, y, keyColumn_with ho q1, keyColumn_with hn q2, q3⟩

/-! ### The two parts of a database -/

theorem lower_records : lower recordsName = recordsName := by decide

/-- Names of tables that are not that of the records, in lower case either. -/
def RecApart (adb : ADB) : Prop := ∀ n t, adb.getTable n = some t → lower n ≠ recordsName

theorem recApart_of (ho : old.getTable recordsName = none) (hn : new.getTable recordsName = none)
    (h : NamesApart (withRec old) (withRec new)) : RecApart old ∧ RecApart new := by
  constructor
  · intro n t hl e
    exact (rec_get ho hl).1 (h.tables n recordsName ⟨t, .inl (rec_get ho hl).2⟩ ⟨_, .inl rec_self⟩ (by rw [e, lower_records]))
  · intro n t hl e
    exact (rec_get hn hl).1 (h.tables n recordsName ⟨t, .inr (rec_get hn hl).2⟩ ⟨_, .inl rec_self⟩ (by rw [e, lower_records]))

theorem absent_of (ha : RecApart adb) {u : PgCat.PDb} (h : PgImplements adb u) : u.lookup recordsName = none := by
  cases hl : u.lookup recordsName with
  | none => rfl
  | some s =>
    obtain ⟨n, t, h1, h2⟩ := h.only _ _ hl
    exact absurd h2.symm (ha n t h1)

theorem others_of {u : PgCat.PDb} (h : u.lookup recordsName = none) : pgOthers u = u := by
  unfold pgOthers
  rw [List.filter_eq_self]
  intro e he
  exact decide_eq_true ((SMap.lookup_eq_none_iff _ _).1 h e he)

theorem others_insert {u : PgCat.PDb} (h : u.lookup recordsName = none) (t : PTable) :
    pgOthers (u.insert recordsName t) = u := by
  unfold pgOthers
  rw [filter_insert _ _ h _ (by simp)]
  exact others_of h

theorem others_proper {d : PgCat.PDb} (h : PgProper d) : PgProper (pgOthers d) := by
  have key : ∀ n s, (pgOthers d).lookup n = some s → d.lookup n = some s := by
    intro n s hl
    rw [others_lookup] at hl
    split at hl
    · cases hl
    · exact hl
  exact ⟨List.Pairwise.filter _ h.sorted, fun n s hl => h.columns n s (key n s hl), fun n s hl => h.names n s (key n s hl),
    fun n s hl => h.constraints n s (key n s hl)⟩

theorem records_is : PgTableIs migrationsTable pgRecords := by
  have v0 : ValidSchema ADB.new := validSchema_of (by decide)
  have s0 : PgSchema (fun _ => false) ADB.new := fun n t hl => by cases hl
  have i1 : PgImplements (withRec ADB.new) [(recordsName, pgRecords)] :=
    pgDb_implements (withRec_pg s0) (withRec_valid v0) (by decide)
  obtain ⟨s, g1, g2⟩ := i1.tables recordsName migrationsTable (by rw [withRec_get, if_pos rfl])
  have : s = pgRecords := by
    have : some pgRecords = some s := g1
    exact (Option.some.inj this).symm
  rw [← this]
  exact g2

/-- The database with the table of records. -/
theorem whole_has (ho : adb.getTable recordsName = none) (ha : RecApart adb) {u : PgCat.PDb} (h : PgHasSchema adb u) :
    PgHasSchema (withRec adb) (u.insert recordsName pgRecords) := by
  have hlk : ∀ m, (u.insert recordsName pgRecords).lookup m = if m = recordsName then some pgRecords else u.lookup m :=
    fun m => SMap.lookup_insert ..
  obtain ⟨him, hpr⟩ := h
  refine ⟨⟨?_, ?_⟩, ⟨SMap.sorted_insert hpr.sorted _ _, ?_, ?_, ?_⟩⟩
  · intro n t hl
    rcases rec_cases hl with ⟨rfl, rfl⟩ | ⟨-, hl⟩
    · exact ⟨pgRecords, by rw [hlk, if_pos lower_records], records_is⟩
    · obtain ⟨s, g1, g2⟩ := him.tables n t hl
      exact ⟨s, by rw [hlk, if_neg (ha n t hl)]; exact g1, g2⟩
  · intro m s hl
    rw [hlk] at hl
    split at hl
    · next e => exact ⟨recordsName, _, rec_self, by rw [e, lower_records]⟩
    · obtain ⟨n, t, g1, g2⟩ := him.only m s hl
      exact ⟨n, t, (rec_get ho g1).2, g2⟩
  · intro n s hl
    rw [hlk] at hl
    split at hl
    · cases hl; decide
    · exact hpr.columns n s hl
  · intro n s hl
    rw [hlk] at hl
    split at hl
    · next e => cases hl; subst e; decide
    · exact hpr.names n s hl
  · intro n s hl
    rw [hlk] at hl
    split at hl
    · cases hl; decide
    · exact hpr.constraints n s hl

theorem others_has (ho : adb.getTable recordsName = none) (ha : RecApart adb) {d : PgCat.PDb}
    (h : PgHasSchema (withRec adb) d) : PgHasSchema adb (pgOthers d) := by
  refine ⟨⟨?_, ?_⟩, others_proper h.proper⟩
  · intro n t hl
    obtain ⟨s, g1, g2⟩ := h.tables.tables n t (rec_get ho hl).2
    exact ⟨s, by rw [others_lookup, if_neg (ha n t hl)]; exact g1, g2⟩
  · intro m s hl
    rw [others_lookup] at hl
    split at hl
    · cases hl
    · next hm =>
      obtain ⟨n, t, g1, g2⟩ := h.tables.only m s hl
      rcases rec_cases g1 with ⟨rfl, -⟩ | ⟨-, g1⟩
      · exact absurd (g2.trans lower_records) hm
      · exact ⟨n, t, g1, g2⟩

/-! ### The same schema -/

theorem pgColumn_same {a b : AColumn} (h : SameColumn a b) (ha : PgColumn kw a) : PgColumn kw b := by
  have hty := typeid_denotes h.type
  refine ⟨h.name ▸ ha.name, hty ▸ ha.type, fun hb => ?_, fun hb => ?_, fun r hr => ?_⟩
  · obtain ⟨h1, h2, h3⟩ := ha.auto (by rw [h.auto, hb])
    refine ⟨hty ▸ h1, ?_, by rw [← h.nullable]; exact h3⟩
    have hd := h.default
    rw [h2] at hd
    cases hb : b.default with
    | none => rfl
    | some v => rw [hb] at hd; exact hd.elim
  · rw [← h.nullable]
    exact ha.pk (by rw [h.pk, hb])
  · have hrel := h.reference
    rw [hr] at hrel
    cases har : a.reference with
    | none => rw [har] at hrel; exact hrel.elim
    | some r' =>
      obtain ⟨t, k, rfl, h1, h2⟩ := ha.reference r' har
      have : b.reference = some (.literal t k) := (literal_same h t k).1 har
      rw [hr] at this
      exact ⟨t, k, Option.some.inj this, h1, h2⟩

theorem pgDescribed_same {a b : ADB} (hb : ValidSchema b) (h : SameSchema a b) (ha : PgDescribed kw a) :
    PgDescribed kw b := by
  have hs := (sameSchema_iff ha.valid hb).1 h
  refine ⟨hb, fun n t ht => ?_, ?_⟩
  · obtain ⟨s, h1, h2⟩ := same_left hs ht
    have := ha.pg n s h1
    refine ⟨h2.1 ▸ this.name, fun c hc => ?_⟩
    obtain ⟨d, hd, hdc⟩ := same_mem h2 (distinct_of_getTable hb ht) hc
    exact pgColumn_same hdc (this.columns d hd)
  · cases ht : b.getTable "butane_migrations" with
    | none => rfl
    | some t =>
      obtain ⟨s, h1, -⟩ := same_left hs ht
      rw [ha.own] at h1
      cases h1

theorem pgSame_of {s t : ATable} (ps : PgTable kw s) (pt : PgTable kw t) (h : SameByName s t) : PgSameTable s t := by
  intro m
  have := h.2 m
  cases hs : colByName s.columns m with
  | none =>
    cases ht : colByName t.columns m with
    | none => trivial
    | some c => rw [hs, ht] at this; exact this.elim
  | some d =>
    cases ht : colByName t.columns m with
    | none => rw [hs, ht] at this; exact this.elim
    | some c =>
      rw [hs, ht] at this
      have this : SameColumn d c := this
      exact ⟨this.name, typeid_denotes this.type, this.nullable, this.pk, this.auto, this.unique,
        same_ref (ps.columns d (colByName_some hs).1) (pt.columns c (colByName_some ht).1) this.reference⟩

theorem pgHas_same {a b : ADB} (ha : PgDescribed kw a) (hb : ValidSchema b) (h : SameSchema a b) {u : PgCat.PDb}
    (hu : PgHasSchema a u) : PgHasSchema b u := by
  have hs := (sameSchema_iff ha.valid hb).1 h
  have hdb := pgDescribed_same hb h ha
  refine ⟨⟨?_, ?_⟩, hu.proper⟩
  · intro n t ht
    obtain ⟨s, h1, h2⟩ := same_left hs ht
    obtain ⟨x, g1, g2⟩ := hu.tables.tables n s h1
    exact ⟨x, g1, tableIs_same (distinct_of_getTable ha.valid h1) (distinct_of_getTable hb ht)
      (pgSame_of (ha.pg n s h1) (hdb.pg n t ht) h2) g2⟩
  · intro m x hl
    obtain ⟨n, s, h1, h2⟩ := hu.tables.only m x hl
    have := hs n
    rw [h1] at this
    cases ht : b.getTable n with
    | none => rw [ht] at this; exact this.elim
    | some t => exact ⟨n, t, ht, h2⟩

theorem pgDescribed_new : PgDescribed kw ADB.new :=
  ⟨validSchema_of (by decide), (fun n t h => by cases h), rfl⟩

theorem pgHas_new : PgHasSchema ADB.new [] :=
  ⟨pgDb_implements (kw := fun _ => false) (fun n t hl => by cases hl) (validSchema_of (by decide)) (by decide),
    pgDb_proper (adb := ADB.new) (by decide)⟩

theorem sameDefault {a b : AColumn} (h : SameColumn a b) (hb : ∀ r, b.default ≠ some (.real r)) : a.default = b.default := by
  have hd := h.default
  cases ha : a.default with
  | none =>
    cases hb' : b.default with
    | none => rfl
    | some v => rw [ha, hb'] at hd; exact hd.elim
  | some w =>
    cases hb' : b.default with
    | none => rw [ha, hb'] at hd; exact hd.elim
    | some v =>
      rw [ha, hb'] at hd
      rcases hd with rfl | ⟨x, y, -, rfl, -⟩
      · rfl
      · exact absurd hb' (hb y)

theorem newValue_same {a b : AColumn} (h : SameColumn a b) (hb : ∀ r, b.default ≠ some (.real r)) {v : SqlVal}
    (hv : NewValue a v) : NewValue b v := by
  have hd := sameDefault h hb
  have ht := typeid_denotes h.type
  have hn := h.nullable
  cases hv with
  | default h1 => exact .default (hd ▸ h1)
  | null h1 h2 => exact .null (hd ▸ h1) (hn ▸ h2)
  | bool h1 h2 h3 => exact .bool (hd ▸ h1) (hn ▸ h2) (ht ▸ h3)
  | int h1 h2 h3 => exact .int (hd ▸ h1) (hn ▸ h2) (ht ▸ h3)
  | bigInt h1 h2 h3 => exact .bigInt (hd ▸ h1) (hn ▸ h2) (ht ▸ h3)
  | real h1 h2 h3 => exact .real (hd ▸ h1) (hn ▸ h2) (ht ▸ h3)
  | text h1 h2 h3 => exact .text (hd ▸ h1) (hn ▸ h2) (ht ▸ h3)
  | blob h1 h2 h3 => exact .blob (hd ▸ h1) (hn ▸ h2) (ht ▸ h3)
  | json h1 h2 h3 => exact .json (hd ▸ h1) (hn ▸ h2) (ht ▸ h3)
  | timestamp h1 h2 h3 => exact .timestamp (hd ▸ h1) (hn ▸ h2) (ht ▸ h3)
  | date h1 h2 h3 => exact .date (hd ▸ h1) (hn ▸ h2) (ht ▸ h3)

/-- What PostgreSQL can change from one schema to another, it can change from and to the same schemas, if
no default is a real number (zeros of different sign are written differently). -/
theorem pgFeasible_same {old' new' : ADB} (ho : ValidSchema old) (ho' : ValidSchema old') (hn : ValidSchema new)
    (hn' : ValidSchema new') (h : SameSchema old old') (h' : SameSchema new new')
    (hreal : ∀ n t, new.getTable n = some t → ∀ c ∈ t.columns, ∀ r, c.default ≠ some (.real r))
    (hf : PgFeasible env res p old new) : PgFeasible env res p old' new' := by
  have hs := (sameSchema_iff ho ho').1 h
  have hs' := (sameSchema_iff hn hn').1 h'
  have href : ∀ {a b : ADB}, SchemaByName a b → ValidSchema b → ∀ {n r k}, Refers b n r k → Refers a n r k := by
    rintro a b hab hb n r k ⟨t, c, h1, h2, h3⟩
    obtain ⟨s, g1, g2⟩ := same_left hab h1
    obtain ⟨d, g3, g4⟩ := same_mem g2 (distinct_of_getTable hb h1) h2
    exact ⟨s, d, g1, g3, (literal_same g4 _ _).2 h3⟩
  have hkey : ∀ {a b : ADB}, SchemaByName a b → ∀ {r k x}, KeyColumn a r k x →
      ∃ y, KeyColumn b r k y ∧ x.unique = y.unique := by
    rintro a b hab r k x ⟨t, h1, h2, h3⟩
    have hba : SchemaByName b a := fun n => (hab n).symm (fun _ _ => SameByName.symm)
    obtain ⟨s, g1, g2⟩ := same_left hba h1
    obtain ⟨y, g3, g4⟩ := same_column g2 h2
    exact ⟨y, ⟨s, g1, g3, by rw [g4.pk, g4.unique]; exact h3⟩, g4.unique.symm⟩
  have hcol : ∀ {n t c y}, new.getTable n = some t → t.column c = some y → ∀ r, y.default ≠ some (.real r) :=
    fun {n t c y} h1 h2 => hreal n t h1 y (colByName_some h2).1
  refine ⟨?_, ?_, ?_, ?_, ?_, ?_, ?_⟩
  · intro n s t c x y h1 h2 h3 h4
    obtain ⟨s', g1, g2⟩ := same_left hs h1
    obtain ⟨t', g3, g4⟩ := same_left hs' h2
    obtain ⟨x', g5, g6⟩ := same_column g2 h3
    obtain ⟨y', g7, g8⟩ := same_column g4 h4
    rw [← g6.pk, ← g8.pk]
    exact hf.key n s' t' c x' y' g1 g3 g5 g7
  · intro n s t c y h1 h2 h3 h4
    obtain ⟨s', g1, g2⟩ := same_left hs h1
    obtain ⟨t', g3, g4⟩ := same_left hs' h2
    obtain ⟨y', g7, g8⟩ := same_column g4 h4
    obtain ⟨k1, k2, k3⟩ := hf.added n s' t' c y' g1 g3 (same_column_none g2 h3) g7
    refine ⟨by rw [← g8.auto]; exact k1, fun hp x hx => ?_, fun v hv => ?_⟩
    · obtain ⟨x', q1, q2⟩ := same_mem g2 (distinct_of_getTable ho' h1) hx
      rw [← q2.pk]
      exact k2 (by rw [g8.pk]; exact hp) x' q1
    · intro text l ty w e1 e2 e3 e4
      exact k3 v (newValue_same g8.symm (hcol g3 g7) hv) text l ty w e1 e2 (by rw [typeid_denotes g8.type]; exact e3) e4
  · intro n s t c x y h1 h2 h3 h4 h5
    obtain ⟨s', g1, g2⟩ := same_left hs h1
    obtain ⟨t', g3, g4⟩ := same_left hs' h2
    obtain ⟨x', g5, g6⟩ := same_column g2 h3
    obtain ⟨y', g7, g8⟩ := same_column g4 h4
    have e1 := typeid_denotes g6.type
    have e2 := typeid_denotes g8.type
    obtain ⟨k1, k2⟩ := hf.type n s' t' c x' y' g1 g3 g5 g7 (by rw [e1, e2]; exact h5)
    rw [e1, e2] at k2
    exact ⟨by rw [← g8.auto]; exact k1, k2⟩
  · intro n s t c x y h1 h2 h3 h4 v hv
    obtain ⟨s', g1, g2⟩ := same_left hs h1
    obtain ⟨t', g3, g4⟩ := same_left hs' h2
    obtain ⟨x', g5, g6⟩ := same_column g2 h3
    obtain ⟨y', g7, g8⟩ := same_column g4 h4
    have := hf.default n s' t' c x' y' g1 g3 g5 g7 v (by rw [← sameDefault g8.symm (hcol g3 g7)]; exact hv)
    intro text l ty w e1 e2 e3 e4
    exact this text l ty w e1 e2 (by rw [typeid_denotes g8.type]; exact e3) e4
  · intro n r k hr
    obtain ⟨x, hx⟩ := hf.before n r k (href hs ho' hr)
    obtain ⟨y, hy, -⟩ := hkey hs hx
    exact ⟨y, hy⟩
  · intro n r k hr
    obtain ⟨x, hx⟩ := hf.after n r k (href hs' hn' hr)
    obtain ⟨y, hy, -⟩ := hkey hs' hx
    exact ⟨y, hy⟩
  · intro n s t r k h1 h2 h3 h4
    obtain ⟨s', g1, g2⟩ := same_left hs h1
    obtain ⟨t', g3, g4⟩ := same_left hs' h2
    obtain ⟨x, y, q1, q2, q3⟩ := hf.stays n s' t' r k g1 g3 (h3.imp (href hs ho') (href hs' hn')) (fun e => h4 (by
      exact same_none (fun n => (hs n).symm (fun _ _ => SameByName.symm)) e))
    obtain ⟨x', r1, r2⟩ := hkey hs q1
    obtain ⟨y', r3, r4⟩ := hkey hs' q2
    exact ⟨x', y', r1, r3, by rw [← r2, ← r4]; exact q3⟩

/-! ### The statements of a migration -/

/-- A change between two schemas. -/
structure PgStep (kw : String → Bool) (p : LitPrinters) (old new : ADB) : Prop where
  src : PgDescribed kw old
  dst : PgDescribed kw new
  change : PgChange p old new

/-- What comes after the statements of the changes. -/
def pgRecordsStmts (first : Bool) : List DStmt := if first then [pgCreate true migrationsTable] else []

theorem pg_text (hk : PgWords kw res) (h : PgStep kw p old new) (first : Bool) :
    ∃ s, PgDdl.migrationSql kw p old (withRecords first (diff old new)) = .ok s ∧
      Ddl.parse false res (foldCase none s) =
        some ((diff old new).flatMap (pgStmts p) ++ pgRecordsStmts first) := by
  have hop : ∀ op ∈ withRecords first (diff old new), op ∈ diff old new ∨ op = .addTableIfNotExists migrationsTable := by
    intro op hm
    cases first
    · exact .inl hm
    · rcases List.mem_append.1 hm with hm | hm
      · exact .inl hm
      · exact .inr (List.mem_singleton.1 hm)
  obtain ⟨s, h1, h2⟩ := pgScript_ok (cur := old) (p := p) (res := res) hk (ops := withRecords first (diff old new)) (by
      intro op hm
      rcases hop op hm with hm | rfl
      · exact diff_pgOp h.src.valid h.dst.valid h.src.pg h.dst.pg h.change.writable hm
      · exact ⟨records_table, by rw [records_columns]; simp⟩) (by
      intro t o n hm
      rcases hop _ hm with hm | hm
      · obtain ⟨s, u, h1, -⟩ := diff_found h.src.valid h.dst.valid hm
        exact ⟨s, h1, name_of_getTable h.src.valid h1⟩
      · cases hm)
  refine ⟨s, h1, ?_⟩
  rw [h2]
  cases first
  · simp [withRecords, pgRecordsStmts]
  · simp [withRecords, pgRecordsStmts, pgStmts]

theorem stmts_create (d d' : PgCat.PDb) (h : PgCat.exec env d (pgCreate true migrationsTable) = some d') :
    pgOthers d' = pgOthers d ∧ d'.lookup recordsName ≠ none ∧ (d.lookup recordsName ≠ none → d' = d) := by
  have e : pgCreate true migrationsTable = .createTable true recordsName
      [pgDef ⟨"name", .knownId (.ty .text), false, true, false, false, none, none⟩] [] false := rfl
  rw [e] at h
  unfold PgCat.exec at h
  split at h
  · cases h
  simp only [altered] at h
  cases hl : d.lookup recordsName with
  | some t =>
    rw [hl] at h
    simp only [if_true, Option.some.injEq] at h
    subst h
    exact ⟨rfl, by rw [hl]; simp, fun _ => rfl⟩
  | none =>
    rw [hl] at h
    simp only at h
    split at h
    · split at h
      · cases h
        refine ⟨by rw [others_insert hl, others_of hl], ?_, fun h => absurd rfl h⟩
        rw [SMap.lookup_insert, if_pos rfl]
        simp
      · cases h
    · cases h

/-- A statement that drops a table is that of an operation that does. -/
theorem stmts_drop {op : Operation} {m : String} (h : .dropTable m ∈ pgStmts p op) :
    ∃ n, op = .removeTable n ∧ m = lower n := by
  have hfk : ∀ {t : String} {c : AColumn}, pgFk t c ≠ some (.dropTable m) := by
    intro t c hc
    unfold pgFk at hc
    split at hc <;> cases hc
  have hdk : ∀ {t : String} {c : AColumn}, pgDropFk t c ≠ some (.dropTable m) := by
    intro t c hc
    unfold pgDropFk at hc
    split at hc <;> cases hc
  cases op with
  | addTable t => rw [pgStmts, List.mem_singleton] at h; cases h
  | addTableIfNotExists t => rw [pgStmts, List.mem_singleton] at h; cases h
  | addTableConstraints t =>
    rw [pgStmts, List.mem_filterMap] at h
    obtain ⟨c, -, hc⟩ := h
    exact absurd hc hfk
  | removeTableConstraints t =>
    rw [pgStmts, List.mem_filterMap] at h
    obtain ⟨c, -, hc⟩ := h
    exact absurd hc hdk
  | removeTable n =>
    rw [pgStmts, List.mem_singleton] at h
    cases h
    exact ⟨n, rfl, rfl⟩
  | addColumn t c =>
    simp only [pgStmts] at h
    split at h
    · rcases List.mem_cons.1 h with h | h
      · cases h
      · exact absurd (Option.mem_toList.1 h) hfk
    · cases h
  | removeColumn t n => rw [pgStmts, List.mem_singleton] at h; cases h
  | changeColumn t o n =>
    simp only [pgStmts, pgChangeStmts, List.mem_append] at h
    exfalso
    rcases h with ((((h | h) | h) | h) | h) | h
    · split at h
      · rw [List.mem_singleton] at h; cases h
      · cases h
    · split at h
      · rw [List.mem_singleton] at h; cases h
      · cases h
    · split at h
      · simp only [List.mem_cons, List.not_mem_nil, or_false] at h
        rcases h with h | h <;> cases h
      · cases h
    · split at h
      · split at h
        · rw [List.mem_singleton] at h; cases h
        · rw [List.mem_singleton] at h; cases h
      · cases h
    · split at h
      · cases h
      · rw [List.mem_singleton] at h; cases h
    · split at h
      · cases h
      · rw [List.mem_append, Option.mem_toList, Option.mem_toList] at h
        rcases h with h | h
        · exact hdk h
        · exact hfk h

theorem exec_keeps {d d' : PgCat.PDb} {st : DStmt} {N : String} (hst : st ≠ .dropTable N)
    (h : PgCat.exec env d st = some d') (hl : d.lookup N ≠ none) : d'.lookup N ≠ none := by
  unfold PgCat.exec at h
  split at h
  · cases h
  split at h
  · split at h
    · obtain ⟨t, -, rfl⟩ := Option.map_eq_some_iff.1 h
      rw [SMap.lookup_insert]
      split
      · simp
      · exact hl
    · cases h
  · split at h
    · split at h
      · split at h
        · cases h; exact hl
        · cases h
      · split at h
        · split at h
          · cases h
            rw [SMap.lookup_insert]
            split
            · simp
            · exact hl
          · cases h
        · cases h
    · rename_i n
      split at h
      · split at h
        · cases h
        · cases h
          rw [DdlP.lookup_erase_ne _ (fun e => hst (by rw [e]))]
          exact hl
      · cases h
    · cases h

theorem execAll_keeps_table {ss : List DStmt} {d d' : PgCat.PDb} {N : String} (hss : ∀ st ∈ ss, st ≠ .dropTable N)
    (h : PgCat.execAll env d ss = some d') (hl : d.lookup N ≠ none) : d'.lookup N ≠ none := by
  induction ss generalizing d with
  | nil => cases h; exact hl
  | cons st ss ih =>
    simp only [PgCat.execAll] at h
    split at h
    · next d1 h1 =>
      exact ih (fun x hx => hss x (List.mem_cons_of_mem _ hx)) h (exec_keeps (hss st (List.mem_cons_self ..)) h1 hl)
    · cases h

theorem diff_not_drop (h : PgStep kw p old new) {first : Bool} {st : DStmt}
    (hst : st ∈ (diff old new).flatMap (pgStmts p) ++ pgRecordsStmts first) : st ≠ .dropTable recordsName := by
  rintro rfl
  rcases List.mem_append.1 hst with hst | hst
  · obtain ⟨op, hop, hm⟩ := List.mem_flatMap.1 hst
    obtain ⟨n, rfl, he⟩ := stmts_drop hm
    obtain ⟨⟨t, ht⟩, -⟩ := diff_found h.src.valid h.dst.valid hop
    exact (recApart_of h.src.own h.dst.own h.change.names).1 n t ht he.symm
  · unfold pgRecordsStmts at hst
    split at hst
    · rw [List.mem_singleton] at hst; cases hst
    · cases hst

theorem whole_lookup (db : MigDb PgCat.PDb) : (pgWhole db).lookup recordsName = db.log.map fun _ => pgRecords := by
  unfold pgWhole
  cases db.log with
  | none =>
    simp only [Option.map_none]
    rw [others_lookup, if_pos rfl]
  | some names =>
    simp only [Option.map_some]
    rw [SMap.lookup_insert, if_pos rfl]

/-- The SQL of a migration keeps the records. -/
theorem pg_keeps (hk : PgWords kw res) (h : PgStep kw p old new) {first : Bool} {file : String}
    (ht : PgDdl.migrationSql kw p old (withRecords first (diff old new)) = .ok file.toList)
    {db db1 : MigDb PgCat.PDb} (hx : pgExec env res file db = .ok db1) (n : String) :
    Recorded db1 n ↔ Recorded db n := by
  obtain ⟨s, h1, h2⟩ := pg_text (res := res) hk h first
  rw [ht] at h1
  cases h1
  unfold pgExec PgCat.execScript at hx
  rw [h2] at hx
  simp only at hx
  split at hx
  · cases hx
  · next d hd =>
    cases hx
    have hkeep := execAll_keeps_table (fun st hst => diff_not_drop h hst) hd
    rw [whole_lookup] at hkeep
    unfold Recorded
    simp only
    cases hlog : db.log with
    | none =>
      simp only [Option.getD_none]
      constructor
      · rintro ⟨names, hn, hm⟩
        obtain ⟨t, -, rfl⟩ := Option.map_eq_some_iff.1 hn
        cases hm
      · rintro ⟨names, hn, -⟩
        cases hn
    | some names =>
      rw [hlog] at hkeep
      have hs := hkeep (by simp)
      cases hl : SMap.lookup d recordsName with
      | none => exact absurd hl hs
      | some t => simp

/-- The database of the two parts. -/
theorem whole_of (ha : RecApart adb) {db : MigDb PgCat.PDb} (h : PgHasSchema adb db.user) :
    pgWhole db = match db.log with
      | none => db.user
      | some _ => db.user.insert recordsName pgRecords := by
  unfold pgWhole
  rw [others_of (absent_of ha h.tables)]
  cases db.log <;> rfl

theorem ops_result (hen : Naming env) (ho : ValidSchema old) (hn : ValidSchema new) (po : PgSchema kw old)
    (pn : PgSchema kw new) (ha : NamesApart old new) (hkk : KeepsKeys old new) {d d' : PgCat.PDb}
    (hd : PgHasSchema old d) (he : PgCat.execAll env d ((diff old new).flatMap (pgStmts p)) = some d') :
    PgHasSchema new d' := by
  have hJ := ops_step hen ha (J.start ho hd.proper hd.tables) (diff_ready ho hn po pn hkk) he
  exact ⟨hJ.finish hn (diff_final ho hn po pn hkk), hJ.proper⟩

/-- What the SQL of a migration does to the user's tables and the records. -/
theorem pg_does (hk : PgWords kw res) (hen : Naming env) (h : PgStep kw p old new) {first : Bool} {file : String}
    (ht : PgDdl.migrationSql kw p old (withRecords first (diff old new)) = .ok file.toList)
    {db db1 : MigDb PgCat.PDb} (hs : PgHasSchema old db.user) (hx : pgExec env res file db = .ok db1) :
    PgHasSchema new db1.user ∧ db1.log = match db.log with
      | some names => some names
      | none => if first then some [] else none := by
  obtain ⟨s, h1, h2⟩ := pg_text (res := res) hk h first
  rw [ht] at h1
  cases h1
  obtain ⟨ao, an⟩ := recApart_of h.src.own h.dst.own h.change.names
  have hnames := names_without h.src.own h.dst.own h.change.names
  unfold pgExec PgCat.execScript at hx
  rw [h2, whole_of ao hs] at hx
  simp only at hx
  split at hx
  · cases hx
  next d hd =>
  cases hx
  obtain ⟨d1, g1, g2⟩ := execAll_append_some.1 hd
  have hrec : pgOthers d = pgOthers d1 ∧ (first = true → d.lookup recordsName ≠ none) ∧
      (first = false ∨ d1.lookup recordsName ≠ none → d = d1) := by
    cases first
    · cases g2
      exact ⟨rfl, (fun h => by cases h), fun _ => rfl⟩
    · simp only [pgRecordsStmts, if_true] at g2
      rw [execAll_one] at g2
      obtain ⟨k1, k2, k3⟩ := stmts_create _ _ g2
      exact ⟨k1, fun _ => k2, fun hh => k3 (hh.resolve_left (by simp))⟩
  obtain ⟨r1, r2, r3⟩ := hrec
  simp only
  cases hlog : db.log with
  | some names =>
    rw [hlog] at g1
    simp only at g1
    rw [← diff_withRec h.src.own h.dst.own] at g1
    have q := ops_result hen (withRec_valid h.src.valid) (withRec_valid h.dst.valid) (withRec_pg h.src.pg)
      (withRec_pg h.dst.pg) h.change.names (keeps_with h.change.keys) (whole_has h.src.own ao hs) g1
    obtain ⟨t, q1, -⟩ := q.tables.tables recordsName _ rec_self
    rw [lower_records] at q1
    have hd1 : d1.lookup recordsName ≠ none := by rw [q1]; simp
    refine ⟨by rw [r1]; exact others_has h.dst.own an q, ?_⟩
    rw [r3 (.inr hd1), q1]
    rfl
  | none =>
    rw [hlog] at g1
    simp only at g1
    have q := ops_result hen h.src.valid h.dst.valid h.src.pg h.dst.pg hnames h.change.keys hs g1
    have ha := absent_of an q.tables
    refine ⟨by rw [r1, others_of ha]; exact q, ?_⟩
    cases first
    · rw [r3 (.inl rfl), ha]
      rfl
    · have := r2 rfl
      cases hl : SMap.lookup d recordsName with
      | none => exact absurd hl this
      | some t => rfl

/-- The name of the table of records and of its key are not in use. -/
theorem records_free (h : PgStep kw p old new) {d : PgCat.PDb} (hd : PgHasSchema new d) :
    recordsName ∉ taken d ∧ "butane_migrations_pkey" ∉ taken d := by
  obtain ⟨him, hpr⟩ := hd
  have hapart := h.change.names
  obtain ⟨-, an⟩ := recApart_of h.src.own h.dst.own hapart
  have hnone := absent_of an him
  have hrt : HasTable (withRec old) (withRec new) recordsName := ⟨_, .inr rec_self⟩
  have hrcol : HasColumn (withRec old) (withRec new) recordsName "name" :=
    ⟨_, .inr rec_self, _, by rw [records_columns]; exact List.mem_singleton.2 rfl, rfl⟩
  have hcon : ∀ {e : String × PTable}, e ∈ d → ∀ x ∈ e.2.cons, ∃ n c, new.getTable n ≠ none ∧
      HasColumn (withRec old) (withRec new) n c ∧ x.kind.col = lower c ∧ x.name = stdName (lower n) x.kind := by
    intro e he x hx
    have hl := SMap.lookup_of_mem hpr.sorted he
    obtain ⟨n, t, g1, g2⟩ := him.only _ _ hl
    obtain ⟨s, g3, g4⟩ := him.tables n t g1
    rw [← g2, hl] at g3
    cases g3
    have hcc := (g4.constraints x.kind).1 ⟨x, hx, rfl⟩
    have hcol : ∃ y ∈ t.columns, x.kind.col = lower y.name := by
      cases hk : x.kind with
      | pk c => rw [hk] at hcc; obtain ⟨y, hy, -, e⟩ := hcc; exact ⟨y, hy, e⟩
      | unique c => rw [hk] at hcc; obtain ⟨y, hy, -, e⟩ := hcc; exact ⟨y, hy, e⟩
      | fk c r k => rw [hk] at hcc; obtain ⟨y, hy, e, -⟩ := hcc; exact ⟨y, hy, e⟩
    obtain ⟨y, hy, hcol⟩ := hcol
    refine ⟨n, y.name, by rw [g1]; simp, ⟨t, .inr (rec_get h.dst.own g1).2, y, hy, rfl⟩, hcol, ?_⟩
    rw [← g2]
    exact hpr.names _ _ hl x hx
  constructor
  · unfold taken
    rw [List.mem_append, not_or, List.mem_map, List.mem_flatMap]
    refine ⟨?_, ?_⟩
    · rintro ⟨e, he, hx⟩
      have := SMap.lookup_of_mem hpr.sorted he
      rw [hx, hnone] at this
      cases this
    · rintro ⟨e, he, hx⟩
      obtain ⟨x, hx, hxn⟩ := List.mem_map.1 hx
      obtain ⟨n, c, -, g1, g2, g3⟩ := hcon he x hx
      exact hapart.free recordsName n c x.kind hrt g1 g2 (by rw [lower_records, ← g3, hxn])
  · have hstd : "butane_migrations_pkey" = stdName (lower recordsName) (.pk "name") := by decide
    unfold taken
    rw [List.mem_append, not_or, List.mem_map, List.mem_flatMap]
    refine ⟨?_, ?_⟩
    · rintro ⟨e, he, hx⟩
      obtain ⟨n, t, g1, g2⟩ := him.only _ _ (SMap.lookup_of_mem hpr.sorted he)
      exact hapart.free n recordsName "name" (.pk "name") ⟨t, .inr (rec_get h.dst.own g1).2⟩ hrcol (by decide)
        (by rw [← hstd, ← hx, g2])
    · rintro ⟨e, he, hx⟩
      obtain ⟨x, hx, hxn⟩ := List.mem_map.1 hx
      obtain ⟨n, c, g0, g1, g2, g3⟩ := hcon he x hx
      have := stdName_apart hapart g1 hrcol g2 (by decide : PKind.col (.pk "name") = lower "name")
        (by rw [← g3, hxn, hstd])
      rw [this] at g0
      exact g0 h.dst.own

/-- The SQL of a feasible migration runs. -/
theorem pg_runs (hk : PgWords kw res) (hen : Naming env) (hp : Permissive env) (h : PgStep kw p old new) (first : Bool)
    (hf : PgFeasible env res p old new) {db : MigDb PgCat.PDb} (hs : PgHasSchema old db.user) :
    ∃ text db1, PgDdl.migrationSql kw p old (withRecords first (diff old new)) = .ok text ∧
      pgExec env res (String.ofList text) db = .ok db1 := by
  obtain ⟨s, h1, h2⟩ := pg_text (res := res) hk h first
  obtain ⟨ao, an⟩ := recApart_of h.src.own h.dst.own h.change.names
  have hnames := names_without h.src.own h.dst.own h.change.names
  have hrun : ∃ d, PgCat.execAll env (pgWhole db) ((diff old new).flatMap (pgStmts p) ++ pgRecordsStmts first) = some d := by
    rw [whole_of ao hs]
    cases hlog : db.log with
    | some names =>
      simp only
      have hw := whole_has h.src.own ao hs
      have hv := withRec_valid h.src.valid
      have hv' := withRec_valid h.dst.valid
      obtain ⟨d1, g1⟩ := ops_go hp hen hv hv' (withRec_pg h.src.pg) (withRec_pg h.dst.pg) h.change.names
        (writable_with h.change.writable) (keeps_with h.change.keys) (feasible_with h.src.own h.dst.own hf)
        (pre := []) (post := diff (withRec old) (withRec new)) rfl (J.start (new := withRec new) hv hw.proper hw.tables)
      have q := ops_result hen hv hv' (withRec_pg h.src.pg) (withRec_pg h.dst.pg) h.change.names
        (keeps_with h.change.keys) hw g1
      rw [diff_withRec h.src.own h.dst.own] at g1
      refine ⟨d1, execAll_append_some.2 ⟨d1, g1, ?_⟩⟩
      cases first
      · rfl
      · simp only [pgRecordsStmts, if_true]
        rw [execAll_one]
        obtain ⟨t, q1, -⟩ := q.tables.tables recordsName _ rec_self
        rw [lower_records] at q1
        have e : pgCreate true migrationsTable = .createTable true recordsName
          [pgDef ⟨"name", .knownId (.ty .text), false, true, false, false, none, none⟩] [] false := rfl
        rw [e]
        unfold PgCat.exec
        rw [hp]
        simp only [altered, q1]
        rfl
    | none =>
      simp only
      obtain ⟨d1, g1⟩ := ops_go hp hen h.src.valid h.dst.valid h.src.pg h.dst.pg hnames h.change.writable h.change.keys hf
        (pre := []) (post := diff old new) rfl (J.start (new := new) h.src.valid hs.proper hs.tables)
      have q := ops_result hen h.src.valid h.dst.valid h.src.pg h.dst.pg hnames h.change.keys hs g1
      cases first
      · exact ⟨d1, execAll_append_some.2 ⟨d1, g1, rfl⟩⟩
      · obtain ⟨f1, f2⟩ := records_free h q
        refine ⟨d1.insert recordsName pgRecords, execAll_append_some.2 ⟨d1, g1, ?_⟩⟩
        simp only [pgRecordsStmts, if_true]
        rw [execAll_one]
        exact create_records hen hp (absent_of an q.tables) f1 f2
  obtain ⟨d, hd⟩ := hrun
  refine ⟨s, ⟨pgOthers d, (d.lookup recordsName).map fun _ => db.log.getD []⟩, h1, ?_⟩
  unfold pgExec PgCat.execScript
  rw [String.toList_ofList, h2]
  simp only [hd]

end Butane.PgP
