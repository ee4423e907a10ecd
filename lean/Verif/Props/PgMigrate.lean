/-
C95: the schema of a PostgreSQL database that is worked on with migrations.
-/
import Verif.Proofs.PgMigrate
import Verif.Props.SqliteMigrate
import Verif.Props.PgCrate

namespace Butane.Props
open Butane Butane.Ddl Butane.DdlP Butane.PgP Butane.Proofs.CrateDb Spec
open Butane.PgCat (lower PTable PgEnv Naming)
variable {json : Bool} {env : PgEnv} {kw res : String → Bool} {p : LitPrinters}

/-! ### What holds through a history -/

/-- The SQL for PostgreSQL in a migration, if there is any. -/
def PgSql (kw : String → Bool) (p : LitPrinters) (s : FsMigrations) (a : List (String × ADB))
    (e : String × ADB) : Prop :=
  ((s.toMigs "pg").up e.1 = .ok none ∧ (s.toMigs "pg").down e.1 = .ok none) ∨
  ∃ old new first up down, SameSchema old (before a) ∧ SameSchema new e.2 ∧ PgStep kw p old new ∧
    PgStep kw p new old ∧ (a = [] → first = true) ∧
    (s.toMigs "pg").up e.1 = .ok (some up) ∧ (s.toMigs "pg").down e.1 = .ok (some down) ∧
    PgDdl.migrationSql kw p old (withRecords first (diff old new)) = .ok up.toList ∧
    PgDdl.migrationSql kw p new (diff new old) = .ok down.toList

structure PgInv (json : Bool) (kw : String → Bool) (p : LitPrinters) (s : FsMigrations)
    (db : MigDb PgCat.PDb) (made : List (String × ADB)) (k : Nat) : Prop where
  reach : Reach json s
  has : HasMigrations json s made
  schemas : ∀ e ∈ made, PgDescribed kw e.2
  sql : ∀ a e b, made = a ++ e :: b → PgSql kw p s a e
  le : k ≤ made.length
  recorded : ∀ e ∈ made.take k, Recorded db e.1
  others : ∀ e ∈ made.drop k, ¬ Recorded db e.1
  user : PgHasSchema (before (made.take k)) db.user

/-- The schema of a migration of the list, or of none. -/
def IsPgSchema (made : List (String × ADB)) (o : Option String) (u : PgCat.PDb) : Prop :=
  match o with
  | none => PgHasSchema ADB.new u
  | some n => ∃ e ∈ made, e.1 = n ∧ PgHasSchema e.2 u

theorem pg_before_last {made a : List (String × ADB)} (hnd : (made.map (·.1)).Nodup) (ha : ∀ e ∈ a, e ∈ made) (u : PgCat.PDb) :
    IsPgSchema made (a.map (·.1)).getLast? u ↔ PgHasSchema (before a) u := by
  rw [List.getLast?_map]
  unfold before
  cases hl : a.getLast? with
  | none => exact Iff.rfl
  | some x =>
    simp only [Option.map_some, IsPgSchema]
    constructor
    · rintro ⟨e, he, hn, hu⟩
      have hx := ha x (List.mem_of_getLast? hl)
      obtain rfl : e = x := by
        obtain ⟨i, hi, rfl⟩ := List.mem_iff_getElem.1 he
        obtain ⟨j, hj, rfl⟩ := List.mem_iff_getElem.1 hx
        have := (List.getElem?_inj (l := made.map (·.1)) (i := i) (j := j) (by simpa using hi) hnd).1 (by
          rw [List.getElem?_map, List.getElem?_map, List.getElem?_eq_getElem hi, List.getElem?_eq_getElem hj]
          simp [hn])
        subst this
        rfl
      exact hu
    · intro hu
      exact ⟨x, ha x (List.mem_of_getLast? hl), rfl, hu⟩

theorem PgInv.fs {s : FsMigrations} {db : MigDb PgCat.PDb} {made : List (String × ADB)} {k : Nat}
    (h : PgInv json kw p s db made k) : FsInv s made := (reach_inv h.reach h.has).1

theorem pg_before {made : List (String × ADB)} (h : ∀ e ∈ made, PgDescribed kw e.2) : PgDescribed kw (before made) := by
  unfold before
  cases hl : made.getLast? with
  | none => exact pgDescribed_new
  | some e => exact h e (List.mem_of_getLast? hl)

/-- `At`, for the migrations of an invariant. -/
theorem pg_at_iff {s : FsMigrations} {db : MigDb PgCat.PDb} {made : List (String × ADB)} {k : Nat}
    (hnd : (made.map (·.1)).Nodup) :
    At (s.toMigs "pg") (IsPgSchema made) (made.map (·.1)) k db ↔
      k ≤ made.length ∧ (∀ e ∈ made.take k, Recorded db e.1) ∧ (∀ e ∈ made.drop k, ¬ Recorded db e.1) ∧
        PgHasSchema (before (made.take k)) db.user := by
  have hb := pg_before_last hnd (a := made.take k) (fun e he => List.mem_of_mem_take he) db.user
  constructor
  · rintro ⟨h1, h2, h3, h4⟩
    rw [← List.map_take] at h2 h4
    rw [← List.map_drop] at h3
    exact ⟨by simpa using h1, fun e he => h2 _ (List.mem_map_of_mem he), fun e he => h3 _ (List.mem_map_of_mem he),
      hb.1 h4⟩
  · rintro ⟨h1, h2, h3, h4⟩
    refine ⟨by simpa using h1, ?_, ?_, ?_⟩
    · intro m hm
      rw [← List.map_take] at hm
      obtain ⟨e, he, rfl⟩ := List.mem_map.1 hm
      exact h2 e he
    · intro m hm
      rw [← List.map_drop] at hm
      obtain ⟨e, he, rfl⟩ := List.mem_map.1 hm
      exact h3 e he
    · rw [← List.map_take]
      exact hb.2 h4

theorem PgInv.at {s : FsMigrations} {db : MigDb PgCat.PDb} {made : List (String × ADB)} {k : Nat}
    (h : PgInv json kw p s db made k) :
    At (s.toMigs "pg") (IsPgSchema made) (made.map (·.1)) k db :=
  (pg_at_iff h.fs.nodup).2 ⟨h.le, h.recorded, h.others, h.user⟩

theorem PgInv.of_at {s : FsMigrations} {db db' : MigDb PgCat.PDb} {made : List (String × ADB)} {k j : Nat}
    (h : PgInv json kw p s db made k)
    (hat : At (s.toMigs "pg") (IsPgSchema made) (made.map (·.1)) j db') : PgInv json kw p s db' made j := by
  obtain ⟨h1, h2, h3, h4⟩ := (pg_at_iff h.fs.nodup).1 hat
  exact ⟨h.reach, h.has, h.schemas, h.sql, h1, h2, h3, h4⟩

theorem PgInv.keeps (hk : PgWords kw res) {s : FsMigrations} {db : MigDb PgCat.PDb}
    {made : List (String × ADB)} {k : Nat} (h : PgInv json kw p s db made k) :
    KeepsRecords (s.toMigs "pg") (pgExec env res) (made.map (·.1)) := by
  intro m hm sql hsql db0 db1 hx n
  obtain ⟨e, he, rfl⟩ := List.mem_map.1 hm
  obtain ⟨a, b, hab⟩ := List.append_of_mem he
  rcases h.sql a e b hab with ⟨h1, h2⟩ | ⟨old, new, first, up, down, -, -, t1, t2, -, h1, h2, g1, g2⟩
  · rw [h1, h2] at hsql
    rcases hsql with hsql | hsql <;> cases hsql
  · rw [h1, h2] at hsql
    rcases hsql with hsql | hsql
    · cases hsql
      exact pg_keeps hk t1 g1 hx n
    · cases hsql
      exact pg_keeps hk t2 (first := false) g2 hx n

/-- What applying and undoing a migration does to the user's tables. -/
theorem PgInv.effect (hk : PgWords kw res) (hen : Naming env)
    {s : FsMigrations} {db : MigDb PgCat.PDb} {made : List (String × ADB)} {k : Nat} (h : PgInv json kw p s db made k)
    {a b : List (String × ADB)} {e : String × ADB} (hab : made = a ++ e :: b) :
    (∀ sql db0 db1, (s.toMigs "pg").up e.1 = .ok (some sql) → PgHasSchema (before a) db0.user →
      pgExec env res sql db0 = .ok db1 → PgHasSchema e.2 db1.user ∧ (a = [] ∨ db0.log ≠ none → db1.log ≠ none)) ∧
    (∀ sql db0 db1, (s.toMigs "pg").down e.1 = .ok (some sql) → PgHasSchema e.2 db0.user →
      pgExec env res sql db0 = .ok db1 → PgHasSchema (before a) db1.user) := by
  have hsub : ∀ x ∈ a, x ∈ made := fun x hx => by rw [hab]; simp [hx]
  have hva := pg_before fun x hx => h.schemas x (hsub x hx)
  have hve := h.schemas e (by rw [hab]; simp)
  rcases h.sql a e b hab with ⟨h1, h2⟩ | ⟨old, new, first, up, down, s1, s2, t1, t2, hfirst, h1, h2, g1, g2⟩
  · constructor
    · intro sql db0 db1 hsql
      rw [h1] at hsql
      cases hsql
    · intro sql db0 db1 hsql
      rw [h2] at hsql
      cases hsql
  · constructor
    · intro sql db0 db1 hsql hu hx
      rw [h1] at hsql
      cases hsql
      have hu' := pgHas_same hva t1.src.valid (sameSchema_symm t1.src.valid hva.valid s1) hu
      obtain ⟨q1, q4⟩ := pg_does hk hen t1 g1 hu' hx
      refine ⟨pgHas_same t1.dst hve.valid s2 q1, fun hl => ?_⟩
      rw [q4]
      cases hlog : db0.log with
      | some names => simp
      | none =>
        rw [hlog] at hl
        rcases hl with hl | hl
        · simp [hfirst hl]
        · exact absurd rfl hl
    · intro sql db0 db1 hsql hu hx
      rw [h2] at hsql
      cases hsql
      have hu' := pgHas_same hve t2.src.valid (sameSchema_symm t2.src.valid hve.valid s2) hu
      obtain ⟨q1, -⟩ := pg_does hk hen t2 (first := false) g2 hu' hx
      exact pgHas_same t2.dst hva.valid s1 q1

theorem PgInv.correct (hk : PgWords kw res) (hen : Naming env)
    {s : FsMigrations} {db : MigDb PgCat.PDb} {made : List (String × ADB)} {k : Nat} (h : PgInv json kw p s db made k) :
    Correct (s.toMigs "pg") (pgExec env res) (IsPgSchema made) (made.map (·.1)) := by
  constructor
  · intro a m b hab sql db0 db1 hsql hu hx
    obtain ⟨a', e, b', hab', rfl, rfl⟩ := split_names hab
    have hsub : ∀ x ∈ a', x ∈ made := fun x hx => by rw [hab']; simp [hx]
    obtain ⟨q, -⟩ := (h.effect hk hen hab').1 sql db0 db1 hsql
      ((pg_before_last h.fs.nodup hsub _).1 hu) hx
    exact ⟨e, by rw [hab']; simp, rfl, q⟩
  · intro a m b hab sql db0 db1 hsql hu hx
    obtain ⟨a', e, b', hab', rfl, rfl⟩ := split_names hab
    have hsub : ∀ x ∈ a', x ∈ made := fun x hx => by rw [hab']; simp [hx]
    have hu' : PgHasSchema e.2 db0.user := by
      have := (pg_before_last h.fs.nodup (a := a' ++ [e]) (fun x hx => by
        rw [hab']; rcases List.mem_append.1 hx with hx | hx
        · simp [hx]
        · simp [List.mem_singleton.1 hx]) db0.user).1 (by simpa using hu)
      simpa [before] using this
    have q := (h.effect hk hen hab').2 sql db0 db1 hsql hu' hx
    exact (pg_before_last h.fs.nodup hsub _).2 q

theorem pgSql_keep {s s' : FsMigrations} {a : List (String × ADB)} {e : String × ADB}
    (h1 : (s'.toMigs "pg").up e.1 = (s.toMigs "pg").up e.1)
    (h2 : (s'.toMigs "pg").down e.1 = (s.toMigs "pg").down e.1)
    (h : PgSql kw p s a e) : PgSql kw p s' a e := by
  unfold PgSql
  rw [h1, h2]
  exact h

theorem pgSqlIs_keep {s s' : FsMigrations} {n : String}
    (h : ∀ up down listed, SqlIs s' "pg" n up down listed ↔ SqlIs s "pg" n up down listed) :
    (s'.toMigs "pg").up n = (s.toMigs "pg").up n ∧
    (s'.toMigs "pg").down n = (s.toMigs "pg").down n := by
  have := (h ((s.dir n).sql.lookup ("pg" ++ "_up")) ((s.dir n).sql.lookup ("pg" ++ "_down"))
    ("pg" ∈ (s.info n).backends)).2 ⟨rfl, rfl, Iff.rfl⟩
  exact ⟨this.1, this.2.1⟩

/-- The steps of the files alone. -/
theorem pg_life_reach {s : FsMigrations} {db : MigDb PgCat.PDb} (h : PgLife json kw res p s db) : Reach json s := by
  induction h with
  | empty => exact .empty
  | build _ h1 h2 ih => exact .build ih h1 h2
  | make _ h1 _ h3 h4 _ h6 h7 ih => exact .make ih h1 h3 h4 (fun new hn => (h6 new hn).1) h7
  | detach _ h1 ih => exact .detach ih h1
  | addBackend _ h1 _ h3 ih => exact .addBackend ih h1 h3
  | removeBackend _ h1 _ h3 ih => exact .removeBackend ih h1 h3
  | _ => assumption

theorem pg_life_inv (hk : PgWords kw res)
    {s : FsMigrations} {db : MigDb PgCat.PDb} (h : PgLife json kw res p s db) :
    ∃ made k, PgInv json kw p s db made k := by
  induction h with
  | empty =>
    obtain ⟨made, hm, -⟩ := cli_history (json := json) .empty
    have hi := (reach_inv .empty hm).1
    have hl := hi.latest
    obtain rfl : made = [] := by
      cases hg : made.getLast? with
      | none => exact List.getLast?_eq_none_iff.1 hg
      | some e => rw [hg] at hl; cases hl
    exact ⟨[], 0, .empty, hm, (fun e he => by cases he), (fun a e b hab => by simp at hab), Nat.le_refl _,
      (fun e he => by cases he), (fun e he => by cases he), pgHas_new⟩
  | @build s s' db h0 h1 h2 ih =>
    obtain ⟨made, k, hi⟩ := ih
    have hkeep : ∀ e ∈ made, s'.dirs.lookup e.1 = s.dirs.lookup e.1 := fun e he => h2 _ (hi.fs.notCurrent e he)
    have hi' : FsInv s' made := by
      refine fsInv_frame hi.fs (n := "current") (fun hm => ?_) ⟨h1, h2⟩
      obtain ⟨e, he, hn⟩ := List.mem_map.1 hm
      exact hi.fs.notCurrent e he hn
    refine ⟨made, k, .build (pg_life_reach h0) h1 h2, hi'.asChain "", hi.schemas, fun a e b hab => ?_, hi.le, hi.recorded,
      hi.others, hi.user⟩
    obtain ⟨q1, q2⟩ := dirs_sql (hkeep e (by rw [hab]; simp)) "pg"
    exact pgSql_keep q1 q2 (hi.sql a e b hab)
  | @make s s' db get spec name r h0 h1 h2 h3 h4 h5 h6 h7 ih =>
    obtain ⟨made, k, hi⟩ := ih
    have hr' : Reach json s' := .make (pg_life_reach h0) h1 h3 h4 (fun new hn => (h6 new hn).1) h7
    have hname : ∀ e ∈ made, e.1 ≠ name := by
      intro e he hn
      obtain ⟨-, d, hd⟩ := hi.fs.get (List.mem_map_of_mem he)
      rw [hn, h3] at hd
      cases hd
    by_cases hrt : r = .ok true
    · subst hrt
      obtain ⟨new, old, backends, g1, g2, -, g4, g5, g6, g7, g8, g9⟩ := cli_make h1 (pg_life_reach h0) hi.has h3 h4
        (fun new hn => (h6 new hn).1) h7
      obtain ⟨hset, hsch, hadd⟩ := h6 new g1
      refine ⟨made ++ [(name, new)], k, hr', g2, ?_, ?_, ?_, ?_, ?_, ?_⟩
      · intro e he
        rcases List.mem_append.1 he with he | he
        · exact hi.schemas e he
        · rw [List.mem_singleton.1 he]
          exact hsch
      · intro a e b hab
        rcases List.eq_nil_or_concat b with rfl | ⟨b', x, rfl⟩
        · obtain ⟨rfl, he⟩ := List.append_inj' hab rfl
          cases he
          by_cases hb : ∃ b ∈ backends, b.name = "pg"
          · obtain ⟨b, hb, hbn⟩ := hb
            obtain rfl : b = pgBackend kw p := by
              refine h2 b ?_ hbn
              rcases g7 with ⟨n, -, -, -, q⟩ | ⟨-, b', q1, q2⟩
              · exact .inl (q b hb)
              · rw [q2, List.mem_singleton] at hb
                subst hb
                exact .inr q1
            obtain ⟨up, down, up', down', k1, k2, k3, k4, k5, k6, -⟩ := g8 _ hb
            rw [changesFrom_records] at k1
            have ho : PgDescribed kw old := by
              have hv := (latest_settled hi.fs g5).valid
              exact pgDescribed_same hv (sameSchema_symm hv (pg_before hi.schemas).valid g6) (pg_before hi.schemas)
            obtain ⟨a1, a2⟩ := hadd old g5
            exact .inr ⟨old, new, made.isEmpty, up', down', g6, sameSchema_refl _, ⟨ho, hsch, a1⟩, ⟨hsch, ho, a2⟩,
              (fun h => by rw [h]; rfl), k5, k6, pg_file k1 k3, pg_file k2 k4⟩
          · obtain ⟨q1, q2, -⟩ := g9 "pg" (fun b hb' hn => hb ⟨b, hb', hn⟩)
            exact .inl ⟨q1, q2⟩
        · rw [List.concat_eq_append, ← List.cons_append, ← List.append_assoc] at hab
          obtain ⟨hab, -⟩ := List.append_inj' hab rfl
          obtain ⟨q1, q2⟩ := dirs_sql (g4 e.1 (hname e (by rw [hab]; simp))) "pg"
          exact pgSql_keep q1 q2 (hi.sql a e b' hab)
      · rw [List.length_append]
        exact Nat.le_add_right_of_le hi.le
      · rw [List.take_append_of_le_length hi.le]
        exact hi.recorded
      · rw [List.drop_append_of_le_length hi.le]
        intro e he
        rcases List.mem_append.1 he with he | he
        · exact hi.others e he
        · rw [List.mem_singleton.1 he]
          exact h5
      · rw [List.take_append_of_le_length hi.le]
        exact hi.user
    · obtain ⟨g1, -, g3, -⟩ := cli_make_not (pg_life_reach h0) hi.has h7 hrt
      refine ⟨made, k, hr', g1, hi.schemas, fun a e b hab => ?_, hi.le, hi.recorded, hi.others, hi.user⟩
      obtain ⟨q1, q2⟩ := dirs_sql (g3 e.1 (hname e (by rw [hab]; simp))) "pg"
      exact pgSql_keep q1 q2 (hi.sql a e b hab)
  | @detach s s' db c r h0 h1 ih =>
    obtain ⟨made, k, hi⟩ := ih
    have hr' : Reach json s' := .detach (pg_life_reach h0) h1
    obtain ⟨g1, g2, g3⟩ := cli_detach (pg_life_reach h0) hi.has h1
    by_cases hrt : r = .ok ()
    · obtain ⟨a, x, y, rfl, hm, -⟩ := g3 hrt
      have hny : ¬ Recorded db y.1 := by
        intro hy
        obtain ⟨-, err, he, -⟩ := cli_detach_applied (a := a ++ [x]) (e := y) (pg_life_reach h0)
          (by rw [List.append_assoc]; exact hi.has) hy h1
        rw [hrt] at he
        cases he
      have hassoc : a ++ [x, y] = (a ++ [x]) ++ [y] := by simp
      have hle : k ≤ (a ++ [x]).length := by
        have h1 := hi.le
        rw [hassoc, List.length_append] at h1
        rcases Nat.lt_or_ge (a ++ [x]).length k with hlt | hge
        · exfalso
          refine hny (hi.recorded y ?_)
          rw [List.take_of_length_le (by rw [hassoc, List.length_append]; exact hlt)]
          simp
        · exact hge
      have htake : (a ++ [x, y]).take k = (a ++ [x]).take k := by
        rw [hassoc, List.take_append_of_le_length hle]
      refine ⟨a ++ [x], k, hr', hm, ?_, ?_, hle, ?_, ?_, ?_⟩
      · intro e he
        exact hi.schemas e (by rw [hassoc]; exact List.mem_append_left _ he)
      · intro a' e b hab
        obtain ⟨q1, q2⟩ := dirs_sql (s := s) (s' := s') (n := e.1) (by rw [g1]) "pg"
        exact pgSql_keep q1 q2 (hi.sql a' e (b ++ [y]) (by rw [hassoc, hab]; simp))
      · intro e he
        exact hi.recorded e (by rw [htake]; exact he)
      · intro e he
        refine hi.others e ?_
        rw [hassoc, List.drop_append_of_le_length hle]
        exact List.mem_append_left _ he
      · rw [← htake]
        exact hi.user
    · have := g2 hrt
      subst this
      exact ⟨made, k, hi⟩
  | @addBackend s s' db get name r h0 h1 h2 h3 ih =>
    obtain ⟨made, k, hi⟩ := ih
    obtain ⟨g1, -, g3⟩ := cli_add_backend_keeps h1 (pg_life_reach h0) hi.has h3
    refine ⟨made, k, .addBackend (pg_life_reach h0) h1 h3, g1, hi.schemas, fun a e b hab => ?_, hi.le, hi.recorded,
      hi.others, hi.user⟩
    obtain ⟨q1, q2⟩ := pgSqlIs_keep (fun up down listed => g3 "pg" e.1 (Ne.symm h2) up down listed)
    exact pgSql_keep q1 q2 (hi.sql a e b hab)
  | @removeBackend s s' db get name r h0 h1 h2 h3 ih =>
    obtain ⟨made, k, hi⟩ := ih
    obtain ⟨g1, -, g3⟩ := cli_remove_backend_keeps h1 (pg_life_reach h0) hi.has h3
    refine ⟨made, k, .removeBackend (pg_life_reach h0) h1 h3, g1, hi.schemas, fun a e b hab => ?_, hi.le, hi.recorded,
      hi.others, hi.user⟩
    obtain ⟨q1, q2⟩ := pgSqlIs_keep (fun up down listed => g3 "pg" e.1 (Ne.symm h2) up down listed)
    exact pgSql_keep q1 q2 (hi.sql a e b hab)
  | @migrate s db db' c env r h0 he h1 h2 ih =>
    obtain ⟨made, k, hi⟩ := ih
    obtain ⟨j, -, hat, -⟩ := migrate_any_failure (fs_keyed _ s) (hi.fs.path "pg").1
      (by rw [List.length_map]; exact hi.fs.lt_rounds) (h1 ▸ hi.keeps hk) (h1 ▸ hi.correct hk he) hi.at h2
    exact ⟨made, j, hi.of_at hat⟩
  | @unmigrate s db db' c env r h0 he h1 h2 ih =>
    obtain ⟨made, k, hi⟩ := ih
    obtain ⟨j, -, hat, -⟩ := unmigrate_any_failure (fs_keyed _ s) (hi.fs.path "pg").1 (hi.fs.path "pg").2
      (by rw [List.length_map]; exact hi.fs.lt_rounds) (h1 ▸ hi.keeps hk) (h1 ▸ hi.correct hk he) hi.at h2
    exact ⟨made, j, hi.of_at hat⟩
  | @cliMigrate s db db' c env name r h0 hen h1 h2 ih =>
    obtain ⟨made, k, hi⟩ := ih
    obtain ⟨j, -, hat, -⟩ := cli_migrate_partial (fs_keyed _ s) (hi.fs.path "pg").1
      (by rw [List.length_map]; exact hi.fs.lt_rounds) (h1 ▸ hi.keeps hk) (h1 ▸ hi.correct hk hen) hi.at h2
    exact ⟨made, j, hi.of_at hat⟩
  | @unmigrateTo s db db' c env name r h0 hen h1 h2 ih =>
    obtain ⟨made, k, hi⟩ := ih
    have hkey := fs_keyed "pg" s
    have hpath := (hi.fs.path "pg").1
    have hlen : (made.map (·.1)).length < Cli.rounds s := by rw [List.length_map]; exact hi.fs.lt_rounds
    have hsame : ∀ e, Cli.unmigrateTo (s.toMigs "pg") (Cli.rounds s) c name db = (.error e, db) →
        ∃ made k, PgInv json kw p s db' made k := by
      intro e he
      rw [he] at h2
      cases h2
      exact ⟨made, k, hi⟩
    by_cases hin : name ∈ made.map (·.1)
    · obtain ⟨t, ht, rfl⟩ := List.mem_iff_getElem.1 hin
      have htm : (made.map (·.1))[t]? = some (made.map (·.1))[t] := List.getElem?_eq_getElem ht
      by_cases hk0 : k = 0
      · obtain ⟨e, he, -⟩ := cli_unmigrate_impossible_partial hkey hpath hlen c hi.at _ (.inr (.inr (.inl hk0)))
        exact hsame e he
      rcases Nat.lt_trichotomy (t + 1) k with hlt | heq | hgt
      · obtain ⟨j, -, -, hat, -⟩ := cli_unmigrate_to hkey hpath hlen (h1 ▸ hi.keeps hk)
          (h1 ▸ hi.correct hk hen) hi.at htm hlt h2
        exact ⟨made, j, hi.of_at hat⟩
      · obtain ⟨e, he, -⟩ := cli_unmigrate_impossible_partial hkey hpath hlen c hi.at _
          (.inr (.inr (.inr ⟨t, _, htm, rfl, .inl heq⟩)))
        exact hsame e he
      · by_cases hlast : t + 1 = (made.map (·.1)).length
        · obtain ⟨e, he, -⟩ := cli_unmigrate_impossible_partial hkey hpath hlen c hi.at _
            (.inr (.inr (.inr ⟨t, _, htm, rfl, .inr hlast⟩)))
          exact hsame e he
        · rcases unmigrateTo_later hkey hpath hlen c hi.at (Nat.pos_of_ne_zero hk0) htm (by omega) (by omega) with he | ⟨he, -⟩
          · exact hsame _ he
          · exact hsame _ he
    · obtain ⟨e, he, -⟩ := cli_unmigrate_impossible_partial hkey hpath hlen c hi.at name
        (.inr (.inl (fun m hm hn => hin (hn ▸ hm))))
      exact hsame e he
  | @unmigrateLatest s db db' c env r h0 he h1 h2 ih =>
    obtain ⟨made, k, hi⟩ := ih
    rcases cli_unmigrate_latest (fs_keyed _ s) (hi.fs.path "pg").1
      (by rw [List.length_map]; exact hi.fs.lt_rounds) (h1 ▸ hi.keeps hk) (h1 ▸ hi.correct hk he) hi.at h2
      with ⟨hat, -⟩ | ⟨-, hat⟩
    · exact ⟨made, k, hi.of_at hat⟩
    · exact ⟨made, k - 1, hi.of_at hat⟩

/-- The invariant is about the schemas up to what is the same. -/
theorem PgInv.change {s : FsMigrations} {db : MigDb PgCat.PDb} {made made' : List (String × ADB)} {k : Nat}
    (h : PgInv json kw p s db made k) (hm : HasMigrations json s made') (hv : ∀ e ∈ made', ValidSchema e.2) :
    PgInv json kw p s db made' k := by
  have hs := made_same h.fs (h.fs.of_chain hm) (fun e he => (h.schemas e he).valid) hv
  obtain ⟨ht, hd⟩ := allMatch_take hs k
  refine ⟨h.reach, hm, ?_, ?_, ?_, ?_, ?_, ?_⟩
  · intro e he
    obtain ⟨x, hx, -, hr⟩ := allMatch_right hs he
    exact pgDescribed_same (hv e he) hr (h.schemas x hx)
  · intro a' e' b' hab'
    obtain ⟨a, e, b, rfl, g1, g2, g3⟩ := allMatch_split (hab' ▸ hs)
    rcases h.sql a e b rfl with g | ⟨old, new, first, up, down, s1, s2, t1, t2, hfirst, r1, r2, r3, r4⟩
    · exact .inl (by rw [← g2.1]; exact g)
    · have q1 := (pg_before (made := a) fun x hx => h.schemas x (by simp [hx])).valid
      have q2 := before_isValid (made := a') fun x hx => hv x (by rw [hab']; simp [hx])
      refine .inr ⟨old, new, first, up, down, sameSchema_trans t1.src.valid q1 q2 s1 (before_same g1),
        sameSchema_trans t2.src.valid (h.schemas e (by simp)).valid (hv e' (by rw [hab']; simp)) s2 g2.2, t1, t2, ?_,
        by rw [← g2.1]; exact r1, by rw [← g2.1]; exact r2, r3, r4⟩
      intro ha
      subst ha
      cases g1
      exact hfirst rfl
  · rw [← allMatch_length hs]
    exact h.le
  · intro e he
    obtain ⟨x, hx, hr, -⟩ := allMatch_right ht he
    rw [← hr]
    exact h.recorded x hx
  · intro e he
    obtain ⟨x, hx, hr, -⟩ := allMatch_right hd he
    rw [← hr]
    exact h.others x hx
  · exact pgHas_same (pg_before fun x hx => h.schemas x (List.mem_of_mem_take hx))
      (before_isValid fun x hx => hv x (List.mem_of_mem_take hx)) (before_same ht) h.user

/-! ### The theorems -/

/-- C95: the schemas of the migrations are ones butane can describe to PostgreSQL. -/
theorem pg_made_partial (hk : PgWords kw res)
    {s : FsMigrations} {db : MigDb PgCat.PDb} (h : PgLife json kw res p s db) :
    ∃ made, HasMigrations json s made ∧ ∀ e ∈ made, PgDescribed kw e.2 := by
  obtain ⟨made, k, hi⟩ := pg_life_inv hk h
  exact ⟨made, hi.has, hi.schemas⟩

/-- C95: whatever was done, and whatever failed, the database has the schema of a migration, or is
empty; and the records say of which: those up to it are recorded, and those after it are not. -/
theorem pg_life_partial (hk : PgWords kw res)
    {s : FsMigrations} {db : MigDb PgCat.PDb} (h : PgLife json kw res p s db) {made : List (String × ADB)}
    (hm : HasMigrations json s made) (hv : ∀ e ∈ made, ValidSchema e.2) :
    ∃ a b, made = a ++ b ∧ (∀ e ∈ a, Recorded db e.1) ∧ (∀ e ∈ b, ¬ Recorded db e.1) ∧
      PgHasSchema (before a) db.user := by
  obtain ⟨_, k, hi⟩ := pg_life_inv hk h
  have hi := hi.change hm hv
  exact ⟨made.take k, made.drop k, (List.take_append_drop k made).symm, hi.recorded, hi.others, hi.user⟩

theorem pg_applied_steps (hk : PgWords kw res) (hen : Naming env)
    {s : FsMigrations} {db db' : MigDb PgCat.PDb} {made : List (String × ADB)} {k : Nat}
    (hi : PgInv json kw p s db made k) {a b : List String} (hab : (made.map (·.1)).drop k = a ++ b)
    (happ : Applied (s.toMigs "pg") (pgExec env res) a db db') :
    ∃ x l y, made = x ++ l ++ y ∧ a = l.map (·.1) ∧ b = y.map (·.1) ∧
      (∀ e ∈ x, Recorded db e.1) ∧ (∀ e ∈ l ++ y, ¬ Recorded db e.1) ∧
      (∀ e ∈ x ++ l, Recorded db' e.1) ∧ (∀ e ∈ y, ¬ Recorded db' e.1) ∧
      PgHasSchema (before (x ++ l)) db'.user := by
  have hat := hi.at
  have hat' := applied_at (fs_keyed _ s) (hi.fs.path "pg").1 (hi.keeps hk) (hi.correct hk hen) hat hab
    happ
  obtain ⟨j1, j2, j3, j4⟩ := (pg_at_iff hi.fs.nodup).1 hat'
  rw [← List.map_drop, List.map_eq_append_iff] at hab
  obtain ⟨l, b', hd, rfl, rfl⟩ := hab
  have hmade : made = made.take k ++ l ++ b' := by rw [List.append_assoc, ← hd, List.take_append_drop]
  have hlk : (made.take k).length = k := List.length_take_of_le hi.le
  have htake : made.take (k + l.length) = made.take k ++ l := by
    conv => lhs; rw [hmade]
    rw [List.take_append_of_le_length (by simp [hlk]), List.take_of_length_le (by simp [hlk])]
  have hdrop : made.drop (k + l.length) = b' := by
    have := List.take_append_drop (k + l.length) made
    rw [htake] at this
    conv at this => rhs; rw [hmade]
    exact List.append_cancel_left this
  rw [List.length_map] at j2 j3 j4
  rw [htake] at j2 j4
  rw [hdrop] at j3
  exact ⟨made.take k, l, b', hmade, rfl, rfl, hi.recorded, fun e he => hi.others e (by rw [hd]; exact he), j2, j3, j4⟩

/-- C95: `migrate` takes the database from the schema it has to that of a later migration;
whatever fails, it stops at a migration.  If it succeeds, the database has the schema of the latest migration. -/
theorem pg_migrate_partial (hk : PgWords kw res) (hen : Naming env)
    {s : FsMigrations} {db db' : MigDb PgCat.PDb} (h : PgLife json kw res p s db) {made : List (String × ADB)}
    (hm : HasMigrations json s made) (hv : ∀ e ∈ made, ValidSchema e.2) {c : MigConn PgCat.PDb}
    (hc : c.exec = pgExec env res) {r : Except MErr Unit}
    (hr : (s.toMigs "pg").migrate (Cli.rounds s) c db = (r, db')) :
    ∃ a l b, made = a ++ l ++ b ∧ (∀ e ∈ a, Recorded db e.1) ∧ (∀ e ∈ l ++ b, ¬ Recorded db e.1) ∧
      (∀ e ∈ a ++ l, Recorded db' e.1) ∧ (∀ e ∈ b, ¬ Recorded db' e.1) ∧
      PgHasSchema (before (a ++ l)) db'.user ∧ (r = .ok () → b = []) := by
  obtain ⟨_, k, hi⟩ := pg_life_inv hk h
  have hi := hi.change hm hv
  have hat := hi.at
  obtain ⟨a, b, hab, happ, hok⟩ := migrate_cases (fs_keyed _ s) (hi.fs.path "pg").1
    (by rw [List.length_map]; exact hi.fs.lt_rounds) (List.take_append_drop k _).symm hat.others (at_pre hat) hr
  obtain ⟨x, l, y, e1, rfl, rfl, e2, e3, e4, e5, e7⟩ := pg_applied_steps hk hen hi hab (hc ▸ happ)
  exact ⟨x, l, y, e1, e2, e3, e4, e5, e7, fun hrt => by simpa using hok hrt⟩

/-- C95: the tool's `migrate` does the same, and stops after the migration of the given name if it is one of
those not applied. -/
theorem pg_tool_migrate_partial (hk : PgWords kw res) (hen : Naming env) {s : FsMigrations} {db db' : MigDb PgCat.PDb} (h : PgLife json kw res p s db)
    {made : List (String × ADB)} (hm : HasMigrations json s made) (hv : ∀ e ∈ made, ValidSchema e.2) {c : MigConn PgCat.PDb}
    (hc : c.exec = pgExec env res) {name : Option String} {r : Except Cli.CliErr Unit}
    (hr : Cli.migrate (s.toMigs "pg") (Cli.rounds s) c name db = (r, db')) :
    ∃ a l b, made = a ++ l ++ b ∧ (∀ e ∈ a, Recorded db e.1) ∧ (∀ e ∈ l ++ b, ¬ Recorded db e.1) ∧
      (∀ e ∈ a ++ l, Recorded db' e.1) ∧ (∀ e ∈ b, ¬ Recorded db' e.1) ∧
      PgHasSchema (before (a ++ l)) db'.user ∧
      (r = .ok () → b = [] ∨ ∃ e, l.getLast? = some e ∧ name = some e.1) := by
  obtain ⟨_, k, hi⟩ := pg_life_inv hk h
  have hi := hi.change hm hv
  have hat := hi.at
  have key : ∃ a b, (made.map (·.1)).drop k = a ++ b ∧ Applied (s.toMigs "pg") c.exec a db db' ∧
      (r = .ok () → b = [] ∨ ∃ m, a.getLast? = some m ∧ name = some m) := by
    unfold Cli.migrate at hr
    rcases unapplied_ok (fs_keyed _ s) (hi.fs.path "pg").1 (List.take_append_drop k _).symm hat.others (at_pre hat)
      (by rw [List.length_map]; exact hi.fs.lt_rounds) c with hu | ⟨hu, _⟩
    · rw [hu] at hr
      obtain ⟨a, b, q1, q2, -, q3⟩ := migrateLoop_cases hr
      exact ⟨a, b, q1, q2, q3⟩
    · rw [hu] at hr
      cases hr
      exact ⟨[], _, rfl, .nil, fun h => by cases h⟩
  obtain ⟨a, b, hab, happ, hok⟩ := key
  obtain ⟨x, l, y, e1, rfl, rfl, e2, e3, e4, e5, e7⟩ := pg_applied_steps hk hen hi hab (hc ▸ happ)
  refine ⟨x, l, y, e1, e2, e3, e4, e5, e7, fun hrt => ?_⟩
  rcases hok hrt with h | ⟨m, h1, h2⟩
  · exact .inl (by simpa using h)
  · rw [List.getLast?_map] at h1
    obtain ⟨e, he, rfl⟩ := Option.map_eq_some_iff.1 h1
    exact .inr ⟨e, he, h2⟩

/-- C95: on a reliable connection `migrate` succeeds if every migration that is not recorded has
SQL for PostgreSQL and is a change PostgreSQL can make, and the rows permit all changes. -/
theorem pg_migrate_succeeds_partial (hk : PgWords kw res) (hen : Naming env)
    (hperm : ∀ db st, env.permits db st = true) {s : FsMigrations} {db : MigDb PgCat.PDb} (h : PgLife json kw res p s db)
    {made : List (String × ADB)} (hm : HasMigrations json s made) (hv : ∀ e ∈ made, ValidSchema e.2)
    {c : MigConn PgCat.PDb} (hc : c.exec = pgExec env res)
    (hrun : ∀ a e b, made = a ++ e :: b → ¬ Recorded db e.1 → (s.toMigs "pg").up e.1 ≠ .ok none ∧
      ∀ old new, ValidSchema old → ValidSchema new → SameSchema old (before a) → SameSchema new e.2 →
        PgFeasible env res p old new) :
    ∃ db', (s.toMigs "pg").migrate (Cli.rounds s) c.reliable db = (.ok (), db') ∧
      (∀ e ∈ made, Recorded db' e.1) ∧ PgHasSchema (before made) db'.user := by
  obtain ⟨_, k, hi⟩ := pg_life_inv hk h
  have hi := hi.change hm hv
  have hat := hi.at
  have hpath := (hi.fs.path "pg").1
  have hex : ∃ db', (s.toMigs "pg").migrate (Cli.rounds s) c.reliable db = (.ok (), db') := by
    rw [migrate_reliable (fs_keyed _ s) hpath (by rw [List.length_map]; exact hi.fs.lt_rounds)
      (List.take_append_drop k _).symm hat.others (at_pre hat), ← List.map_drop]
    have hkeep := hi.keeps (env := env) hk
    have key : ∀ (b a : List (String × ADB)) (d : MigDb PgCat.PDb) (n : Nat), made = a ++ b →
        (∀ e ∈ b, e ∈ made.drop k) → PgHasSchema (before a) d.user → (a = [] ∨ d.log ≠ none) →
        (∀ e ∈ b, ¬ Recorded d e.1) →
        ∃ d', (s.toMigs "pg").applyAll c.reliable n (b.map (·.1)) d = (.ok (), d') := by
      intro b
      induction b with
      | nil => exact fun a d n _ _ _ _ _ => ⟨d, rfl⟩
      | cons e b ih =>
        intro a d n he hdr hu hlog hn
        obtain ⟨hup, hfe⟩ := hrun a e b he (hi.others e (hdr e (by simp)))
        rcases hi.sql a e b he with ⟨h1, -⟩ | ⟨old, new, first, up, down, s1, s2, t1, t2, hfirst, r1, -, r3, -⟩
        · exact absurd h1 hup
        · have q1 := pg_before (made := a) fun x hx => hi.schemas x (by rw [he]; simp [hx])
          have hu' := pgHas_same q1 t1.src.valid (sameSchema_symm t1.src.valid q1.valid s1) hu
          obtain ⟨text, d1, k1, k2⟩ := pg_runs hk hen hperm t1 first (hfe old new t1.src.valid t1.dst.valid s1 s2) hu'
          rw [r3] at k1
          cases k1
          rw [String.ofList_toList] at k2
          obtain ⟨g1, g3⟩ := (hi.effect hk hen he).1 up d d1 r1 hu k2
          have hl1 := g3 hlog
          cases hl : d1.log with
          | none => exact absurd hl hl1
          | some names =>
            have hm' : e.1 ∈ made.map (·.1) := by rw [he]; simp
            have hone : AppliedOne (s.toMigs "pg") c.exec e.1 d ⟨d1.user, some (names ++ [e.1])⟩ := by
              refine ⟨up, d1, names, r1, by rw [hc]; exact k2, hl, ?_, rfl⟩
              intro hmem
              exact hn e (by simp) ((hkeep e.1 hm' up (.inl r1) d d1 k2 _).1 ⟨names, hl, hmem⟩)
            rw [List.map_cons, Migs.applyAll, applyOne_reliable hone]
            refine ih (a ++ [e]) _ (n + 4) (by rw [he]; simp) (fun x hx => hdr x (by simp [hx])) ?_ (.inr (by simp)) ?_
            · have hb : before (a ++ [e]) = e.2 := by simp [before]
              rw [hb]
              exact g1
            · intro x hx
              rw [appliedOne_recorded (hc ▸ hkeep) hm' hone]
              rintro (hx' | hx')
              · exact hn x (by simp [hx]) hx'
              · have hnd := hi.fs.nodup
                rw [he, List.map_append, List.map_cons, List.nodup_append] at hnd
                have h2 := (List.nodup_cons.1 hnd.2.1).1
                have hx' : x.1 = e.1 := hx'
                exact h2 (hx' ▸ List.mem_map_of_mem (f := (·.1)) hx)
    refine key (made.drop k) (made.take k) db _ (List.take_append_drop k made).symm (fun e he => he) hi.user ?_ hi.others
    cases htk : made.take k with
    | nil => exact .inl rfl
    | cons e l =>
      obtain ⟨names, hn, -⟩ := hi.recorded e (by rw [htk]; simp)
      exact .inr (by rw [hn]; simp)
  obtain ⟨db', hr⟩ := hex
  obtain ⟨a, l, b, hmade, -, -, g4, -, g7, g8⟩ := pg_migrate_partial hk hen h hm hv (c := c.reliable) hc hr
  obtain rfl := g8 rfl
  rw [List.append_nil] at hmade
  exact ⟨db', hr, hmade ▸ g4, hmade ▸ g7⟩

/-- C95: undoing all migrations leaves no table. -/
theorem pg_unmigrate_partial (hk : PgWords kw res) (hen : Naming env) {s : FsMigrations} {db db' : MigDb PgCat.PDb} (h : PgLife json kw res p s db)
    {made : List (String × ADB)} (hm : HasMigrations json s made) {c : MigConn PgCat.PDb} (hc : c.exec = pgExec env res)
    (hr : (s.toMigs "pg").unmigrate (Cli.rounds s) c db = (.ok (), db')) :
    db'.user = [] ∧ ∀ e ∈ made, ¬ Recorded db' e.1 := by
  obtain ⟨made', k, hi⟩ := pg_life_inv hk h
  obtain ⟨j, -, hat, hj⟩ := unmigrate_any_failure (fs_keyed _ s) (hi.fs.path "pg").1 (hi.fs.path "pg").2
    (by rw [List.length_map]; exact hi.fs.lt_rounds) (hc ▸ hi.keeps hk) (hc ▸ hi.correct hk hen) hi.at hr
  obtain rfl := hj rfl
  obtain ⟨-, -, h3, h4⟩ := (pg_at_iff hi.fs.nodup).1 hat
  constructor
  · rcases hu : db'.user with - | ⟨e, rest⟩
    · rfl
    · obtain ⟨n, t, hl, -⟩ := h4.tables.only e.1 e.2 (by
        rw [hu]
        exact SMap.lookup_of_mem (hu ▸ h4.proper.sorted) (List.mem_cons_self ..))
      cases hl
  · intro e he
    have h1 := hi.fs.all
    have h2 := (hi.fs.of_chain hm).all
    rw [h1] at h2
    have : e.1 ∈ made'.map (·.1) := by rw [Except.ok.inj h2]; exact List.mem_map_of_mem he
    obtain ⟨x, hx, hxe⟩ := List.mem_map.1 this
    rw [← hxe]
    exact h3 x hx

theorem pg_generates (hk : PgWords kw res) {old new : ADB} (h : PgStep kw p old new) (first : Bool) :
    ∃ text, (pgBackend kw p).sql old (withRecords first (diff old new)) = .ok text ∧ text ≠ "" := by
  obtain ⟨s, h1, -⟩ := pg_text hk h first
  exact ⟨_, pg_sql h1⟩

/-- C95: a migration is made for PostgreSQL whenever the schema of the code is not that of the latest
migration: butane can generate the SQL for all schemas it can describe to PostgreSQL. -/
theorem pg_make_succeeds_partial (hk : PgWords kw res) {s : FsMigrations} {db : MigDb PgCat.PDb} (h : PgLife json kw res p s db)
    {made : List (String × ADB)} (hm : HasMigrations json s made) (hv : ∀ e ∈ made, ValidSchema e.2)
    {get : String → Option MigBackend} {spec : Option (Option MigBackend)} {name : String}
    (hfresh : s.dirs.lookup name = none)
    (hback : made = [] ∧ spec = some (some (pgBackend kw p)) ∨
      made ≠ [] ∧ Cli.latestBackends get s = .ok [pgBackend kw p]) {new : ADB}
    (hnew : s.getDb json "current" = .ok new) (hset : Settled new) (hsch : PgDescribed kw new)
    (hadd : ∀ old, LatestSchema json s old → PgChange p old new ∧ PgChange p new old)
    (hne : ¬ SameSchema (before made) new) :
    ∃ s', Cli.makeMigration json get spec name s = (.ok true, s') := by
  obtain ⟨_, k, hi⟩ := pg_life_inv hk h
  have hi := hi.change hm hv
  have hbs : Cli.loadBackends get spec s = .ok [pgBackend kw p] := by
    rcases hback with ⟨rfl, rfl⟩ | ⟨-, hb⟩
    · have : s.getLatest = none := by rw [hi.fs.getLatest]; rfl
      simp only [Cli.loadBackends, Cli.latestBackends, this]
    · simp only [Cli.loadBackends, hb]
  refine cli_make_succeeds (pg_life_reach h) hm hv hfresh hbs hnew hset hne ?_
  intro b hb old hold hsame
  rw [List.mem_singleton] at hb
  subst hb
  have ho : PgDescribed kw old := by
    have hv' := (latest_settled hi.fs hold).valid
    exact pgDescribed_same hv' (sameSchema_symm hv' (pg_before hi.schemas).valid hsame) (pg_before hi.schemas)
  obtain ⟨a1, a2⟩ := hadd old hold
  rw [changesFrom_records]
  exact ⟨pg_generates hk ⟨ho, hsch, a1⟩ made.isEmpty, pg_generates hk ⟨hsch, ho, a2⟩ false⟩

/-- C95: making a migration for the code, or finding that there is nothing to do, and migrating,
gives the database the schema of the code. -/
theorem pg_make_migrate_partial (hk : PgWords kw res) (hen : Naming env) {s s' : FsMigrations} {db db' : MigDb PgCat.PDb} (h : PgLife json kw res p s db)
    {get : String → Option MigBackend} {spec : Option (Option MigBackend)} {name : String} {b : Bool} (hget : Finds get)
    (hback : ∀ b, get b.name = some b ∨ spec = some (some b) → b.name = "pg" → b = pgBackend kw p)
    (hfresh : s.dirs.lookup name = none) (hcur : name ≠ "current") (hrec : ¬ Recorded db name) {new : ADB}
    (hnew : s.getDb json "current" = .ok new) (hset : Settled new) (hsch : PgDescribed kw new)
    (hadd : ∀ old, LatestSchema json s old → PgChange p old new ∧ PgChange p new old)
    (hmake : Cli.makeMigration json get spec name s = (.ok b, s')) {c : MigConn PgCat.PDb} (hc : c.exec = pgExec env res)
    (hr : (s'.toMigs "pg").migrate (Cli.rounds s') c db = (.ok (), db')) : PgHasSchema new db'.user := by
  have hcond : ∀ n, s.getDb json "current" = .ok n → Settled n ∧ PgDescribed kw n ∧
      ∀ old, LatestSchema json s old → PgChange p old n ∧ PgChange p n old := by
    intro n hn
    rw [hnew] at hn
    cases hn
    exact ⟨hset, hsch, hadd⟩
  have hlife : PgLife json kw res p s' db := .make h hget hback hfresh hcur hrec hcond hmake
  obtain ⟨made, k, hi⟩ := pg_life_inv hk h
  have hend : ∀ made', HasMigrations json s' made' → (∀ e ∈ made', ValidSchema e.2) →
      PgHasSchema (before made') db'.user := by
    intro made' hm hv
    obtain ⟨a, l, b', g1, -, -, -, -, g7, g8⟩ := pg_migrate_partial hk hen hlife hm hv hc hr
    obtain rfl := g8 rfl
    rw [List.append_nil] at g1
    exact g1 ▸ g7
  cases b with
  | true =>
    obtain ⟨new', old, backends, g1, g2, -⟩ := cli_make hget (pg_life_reach h) hi.has hfresh hcur
      (fun n hn => (hcond n hn).1) hmake
    rw [hnew] at g1
    cases g1
    have := hend _ g2 (by
      intro e he
      rcases List.mem_append.1 he with he | he
      · exact (hi.schemas e he).valid
      · rw [List.mem_singleton.1 he]
        exact hsch.valid)
    simpa [before] using this
  | false =>
    obtain ⟨g1, -, -, g4⟩ := cli_make_not (pg_life_reach h) hi.has hmake (fun h => by cases h)
    obtain rfl := g4 rfl
    have hb := (pg_before hi.schemas).valid
    refine pgHas_same (pg_before hi.schemas) hsch.valid ?_ (hend made hi.has fun e he => (hi.schemas e he).valid)
    obtain ⟨old, h1, h2, hsame⟩ := fs_before (json := json) hi.fs
    refine sameSchema_trans hb h2.valid hsch.valid (sameSchema_symm h2.valid hb hsame) ?_
    refine same_of_diff_nil _ _ h2.valid hsch.valid ?_
    rcases make_cases hi.fs hmake with ⟨⟨_, q⟩, -⟩ | ⟨-, bs, toDb, r1, -, q1, q2, q3⟩
    · cases q
    rw [hnew] at q1
    cases q1
    rcases q3 with ⟨_, _, q3⟩ | ⟨_, rfl, q3⟩
    · cases q3
    cases q3
    rcases create_cases q2 with ⟨_, e, _, he⟩ | ⟨old', h0, ⟨_, _, hd⟩ | ⟨hd, hrest⟩⟩
    · rw [h1] at he; cases he
    · rw [h1] at h0
      cases h0
      exact hd
    · obtain ⟨r1, p1, _, ⟨e, _, he, _⟩ | ⟨_, r2, p2, _, ⟨e, _, he, _⟩ | ⟨_, r3, p3, _, ⟨e, _, he, _⟩ |
        ⟨_, r4, _, ⟨e, _, he⟩ | ⟨_, he⟩⟩⟩⟩⟩ := hrest <;> cases he

/-! ### A crate -/

open Butane.Codegen Butane.Proofs.Codegen in
/-- C95: after the crate is compiled, a migration made for it (or found not to be needed), and the
database migrated without an error, the database has the tables of the crate, whatever the
migrations and the database were before. -/
theorem pg_crate_migrated_partial {g : Cfg} {items : List Item} (hk : PgWords kw res) (hen : Naming env)
    (hr : ResolverOk g.resolve) (hn : WellNamed items) (ht : Typed g.ft items) (hp : PgCrate kw g.ft items)
    {s s' : FsMigrations} {db db' : MigDb PgCat.PDb} (h : PgLife g.ft.json kw res p s db)
    {get : String → Option MigBackend} {spec : Option (Option MigBackend)} {name : String} {b : Bool} (hget : Finds get)
    (hback : ∀ b, get b.name = some b ∨ spec = some (some b) → b.name = "pg" → b = pgBackend kw p)
    (hfresh : s.dirs.lookup name = none) (hcur : name ≠ "current") (hrec : ¬ Recorded db name)
    (hcomp : Compiled g items s)
    (hchange : ∀ new old, s.getDb g.ft.json "current" = .ok new → LatestSchema g.ft.json s old →
      PgChange p old new ∧ PgChange p new old)
    (hmake : Cli.makeMigration g.ft.json get spec name s = (.ok b, s')) {c : MigConn PgCat.PDb}
    (hc : c.exec = pgExec env res)
    (hm : (s'.toMigs "pg").migrate (Cli.rounds s') c db = (.ok (), db')) : PgCrateTables g.ft items db'.user := by
  obtain ⟨rec, new, h1, h2, h3⟩ := current_db hr hn ht hcomp
  have hfirst := pg_crate_first hr hn ht hp h1 h2
  have hs := pg_make_migrate_partial hk hen h hget hback hfresh hcur hrec h3 (crate_settled hr hn ht h1 h2)
    ⟨hfirst.valid, hfirst.pg, hfirst.free⟩ (fun old ho => hchange new old h3 ho) hmake hc hm
  have hapart : RecApart new := by
    intro n t hl e
    exact (rec_get hfirst.free hl).1 (hfirst.apart.tables n recordsName ⟨t, .inr (rec_get hfirst.free hl).2⟩
      ⟨_, .inr rec_self⟩ (by rw [e, lower_records]))
  have hw := whole_has hfirst.free hapart hs
  have := pg_crate_tables hr hn ht hp h1 h2 hw.proper hw.tables
  rwa [others_insert (absent_of hapart hs.tables)] at this

/-! ### A project -/

/-- The code has these tables. -/
def exPgCode (adb : ADB) (s : FsMigrations) : FsMigrations :=
  s.write "current" fun _ => ⟨none, adb.tables, none, []⟩
def exPgGet (n : String) : Option MigBackend := if n = "pg" then some (pgBackend exPgKw exPrinters) else none

theorem exPgGet_name : Finds exPgGet := by
  intro n b h
  unfold exPgGet at h
  split at h
  · cases h
    rename_i h
    exact h.symm
  · cases h
theorem exPgGet_back (b : MigBackend) (h : exPgGet b.name = some b) : b = pgBackend exPgKw exPrinters := by
  unfold exPgGet at h
  split at h
  · cases h
    rfl
  · cases h

/-- Posts; then posts that may have no title and may have an author, and authors. -/
def exPgDb1 : ADB := ⟨[("Post", ⟨"Post", [exKeyCol, exCol "title" .text false]⟩)], []⟩
def exPgDb2 : ADB := ⟨[
  ("Author", ⟨"Author", [exKeyCol]⟩),
  ("Post", ⟨"Post", [exKeyCol, exCol "title" .text true,
    ⟨"author", .knownId (.ty .bigInt), true, false, false, false, none, some (.literal "Author" "id")⟩]⟩)], []⟩
/-- The project after each of them is made a migration of. -/
def exPgM1 : String × FsDir :=
  ("m1", ⟨some ⟨none, [], ["pg"]⟩, exPgDb1.tables, none, [("pg_down", "DROP TABLE Post;\n"),
    ("pg_up", "CREATE TABLE Post (\nid BIGSERIAL NOT NULL PRIMARY KEY,\ntitle TEXT NOT NULL\n);\nCREATE TABLE IF NOT EXISTS butane_migrations (\nname TEXT NOT NULL PRIMARY KEY\n);\n")]⟩)
def exPgM2 : String × FsDir :=
  ("m2", ⟨some ⟨some "m1", [], ["pg"]⟩, exPgDb2.tables, none,
    [("pg_down", "DROP TABLE Author;\nALTER TABLE Post DROP COLUMN author;\nALTER TABLE Post ALTER COLUMN title SET NOT NULL;\n"),
     ("pg_up", "CREATE TABLE Author (\nid BIGSERIAL NOT NULL PRIMARY KEY\n);\nALTER TABLE Post ADD COLUMN author BIGINT DEFAULT NULL;\nALTER TABLE Post ADD FOREIGN KEY (author) REFERENCES Author(id);\nALTER TABLE Post ALTER COLUMN title DROP NOT NULL;\n")]⟩)
def exPgNow (adb : ADB) : String × FsDir := ("current", ⟨none, adb.tables, none, []⟩)
def exPgS1 : FsMigrations := ⟨[exPgNow exPgDb1, exPgM1], some "m1"⟩
def exPgS2 : FsMigrations := ⟨[exPgNow exPgDb2, exPgM1, exPgM2], some "m2"⟩

set_option maxRecDepth 40000 in
theorem exPgMake1 : Cli.makeMigration false exPgGet (some (some (pgBackend exPgKw exPrinters))) "m1"
    (exPgCode exPgDb1 ⟨[], none⟩) = (.ok true, exPgS1) := rfl
set_option maxRecDepth 40000 in
theorem exPgMake2 : Cli.makeMigration false exPgGet none "m2" (exPgCode exPgDb2 exPgS1) = (.ok true, exPgS2) := rfl

theorem exPg_settled {adb : ADB} (h : adb = exPgDb1 ∨ adb = exPgDb2) : Settled adb := by
  have key : (adb.tables.all fun e => e.2.columns.any (·.pk) && e.2.columns.all fun c =>
      (match denotes c.sqltype with | .inl _ => true | _ => false) &&
      (match c.reference with | some (.deferred _) => false | _ => true)) = true := by
    rcases h with rfl | rfl <;> decide
  simp only [List.all_eq_true, Bool.and_eq_true, List.any_eq_true] at key
  refine ⟨by rcases h with rfl | rfl <;> exact validSchema_of (by decide), fun e he => .inl (key e he).1,
    fun e he c hc => ?_, fun e he c hc d hd => ?_⟩
  · have := ((key e he).2 c hc).1
    cases hd : denotes c.sqltype with
    | inl ty => exact ⟨ty, rfl⟩
    | inr x => rw [hd] at this; cases this
  · have := ((key e he).2 c hc).2
    rw [hd] at this
    cases this

theorem exPg_described {adb : ADB} (h : adb = exPgDb1 ∨ adb = exPgDb2) : PgDescribed exPgKw adb := by
  refine ⟨(exPg_settled h).valid, ?_, ?_⟩
  · rcases h with rfl | rfl <;> exact pgSchema_of (by decide)
  · rcases h with rfl | rfl <;> rfl

theorem exPg_change0 : PgChange exPrinters ADB.new exPgDb1 ∧ PgChange exPrinters exPgDb1 ADB.new :=
  ⟨⟨namesApart_of (by decide +kernel), pgWritable_of (by decide), keepsKeys_of (by decide)⟩,
   ⟨namesApart_of (by decide +kernel), pgWritable_of (by decide), keepsKeys_of (by decide)⟩⟩
theorem exPg_change : PgChange exPrinters exPgDb1 exPgDb2 ∧ PgChange exPrinters exPgDb2 exPgDb1 :=
  ⟨⟨namesApart_of (by decide +kernel), pgWritable_of (by decide), keepsKeys_of (by decide)⟩,
   ⟨namesApart_of (by decide +kernel), pgWritable_of (by decide), keepsKeys_of (by decide)⟩⟩

/-- The histories here. -/
abbrev ExPgLife : FsMigrations → MigDb PgCat.PDb → Prop := PgLife false exPgKw exPgRes exPrinters

theorem exPgCode_life {s : FsMigrations} {db : MigDb PgCat.PDb} (adb : ADB) (h : ExPgLife s db) :
    ExPgLife (exPgCode adb s) db := by
  refine .build h rfl fun n hn => ?_
  unfold exPgCode
  rw [FsMigrations.lookup_write, if_neg hn]

theorem exPgS1_life : ExPgLife exPgS1 ⟨[], none⟩ := by
  refine .make (exPgCode_life exPgDb1 .empty) exPgGet_name ?_ rfl (by decide) ?_ ?_ exPgMake1
  · rintro b (hb | hb) -
    · exact exPgGet_back b hb
    · cases hb
      rfl
  · rintro ⟨names, hn, -⟩
    cases hn
  · intro new hn
    cases (show FsMigrations.getDb false (exPgCode exPgDb1 ⟨[], none⟩) "current" = .ok exPgDb1 from rfl).symm.trans hn
    refine ⟨exPg_settled (.inl rfl), exPg_described (.inl rfl), ?_⟩
    intro old ho
    cases (show old = ADB.new from ho)
    exact exPg_change0

theorem exPgS1_code : (exPgCode exPgDb2 exPgS1).getDb false "current" = .ok exPgDb2 := rfl
theorem exPgS1_latest {old : ADB} (h : LatestSchema false (exPgCode exPgDb2 exPgS1) old) : old = exPgDb1 := by
  cases (show Except.ok exPgDb1 = (.ok old : Except MErr ADB) from h)
  rfl

theorem exPgS2_life {db : MigDb PgCat.PDb} (h : ExPgLife exPgS1 db) (hn : ¬ Recorded db "m2") : ExPgLife exPgS2 db := by
  refine .make (exPgCode_life exPgDb2 h) exPgGet_name ?_ rfl (by decide) hn ?_ exPgMake2
  · rintro b (hb | hb) -
    · exact exPgGet_back b hb
    · cases hb
  · intro new hn
    cases exPgS1_code.symm.trans hn
    refine ⟨exPg_settled (.inr rfl), exPg_described (.inr rfl), fun old ho => ?_⟩
    obtain rfl := exPgS1_latest ho
    exact exPg_change

theorem exPg_empty (n : String) : ¬ Recorded (⟨[], none⟩ : MigDb PgCat.PDb) n := by
  rintro ⟨names, hn, -⟩
  cases hn

theorem exPg_has1 : HasMigrations false exPgS1 [("m1", exPgDb1)] := by
  refine ⟨["m1"], ⟨rfl, ?_, ?_⟩, ?_, .cons ⟨rfl, _, rfl, sameSchema_refl _⟩ .nil⟩
  · rintro p m ⟨a, b, hab⟩
    match a, hab with
    | [], hab => simp at hab
    | _ :: _, hab => simp at hab
  · intro m hm
    cases hm
    exact .inl rfl
  · intro m hm
    cases hm
    rfl

theorem exPg_has2 : HasMigrations false exPgS2 [("m1", exPgDb1), ("m2", exPgDb2)] := by
  refine ⟨["m1", "m2"], ⟨rfl, ?_, ?_⟩, ?_, .cons ⟨rfl, _, rfl, sameSchema_refl _⟩ (.cons ⟨rfl, _, rfl, sameSchema_refl _⟩ .nil)⟩
  · rintro p m ⟨a, b, hab⟩
    match a, hab with
    | [], hab => cases hab; exact ⟨"m1", rfl, rfl⟩
    | [_], hab => simp at hab
    | _ :: _ :: _, hab => simp at hab
  · intro m hm
    cases hm
    exact .inl rfl
  · intro m hm
    cases hm
    rfl

theorem exPg_valid : ∀ e ∈ [("m1", exPgDb1), ("m2", exPgDb2)], ValidSchema e.2 := by
  intro e he
  simp only [List.mem_cons, List.not_mem_nil, or_false] at he
  rcases he with rfl | rfl
  · exact (exPg_settled (.inl rfl)).valid
  · exact (exPg_settled (.inr rfl)).valid

/-- No default of the examples is a real number. -/
theorem exPg_noReal {adb : ADB} (h : adb = exPgDb1 ∨ adb = exPgDb2) :
    ∀ n t, adb.getTable n = some t → ∀ c ∈ t.columns, ∀ r, c.default ≠ some (.real r) := by
  have key : (adb.tables.all fun e => e.2.columns.all fun c => c.default.isNone) = true := by
    rcases h with rfl | rfl <;> decide
  simp only [List.all_eq_true] at key
  intro n t hl c hc r hr
  have := key _ (SMap.mem_of_lookup hl) c hc
  rw [hr] at this
  cases this

/-- Both migrations are applied to a new database, and to one that has the first. -/
theorem exPgS2_migrates {db : MigDb PgCat.PDb} (h : ExPgLife exPgS2 db) :
    ∃ db', (exPgS2.toMigs "pg").migrate (Cli.rounds exPgS2) exPgMigConn.reliable db = (.ok (), db') ∧
      (∀ e ∈ [("m1", exPgDb1), ("m2", exPgDb2)], Recorded db' e.1) ∧ PgHasSchema exPgDb2 db'.user :=
  pg_migrate_succeeds_partial exPg_words exPg_naming (fun _ _ => rfl) h exPg_has2 exPg_valid (c := exPgMigConn) rfl
    (fun a e b hab _ => by
      match a, hab with
      | [], hab =>
        cases hab
        refine ⟨(fun h => by cases h), fun old new v1 v2 s1 s2 => ?_⟩
        have w1 : ValidSchema ADB.new := validSchema_of (by decide)
        have w2 := (exPg_settled (adb := exPgDb1) (.inl rfl)).valid
        exact pgFeasible_same w1 v1 w2 v2 (sameSchema_symm v1 w1 s1) (sameSchema_symm v2 w2 s2) (exPg_noReal (.inl rfl))
          (pgFeasible_of (by decide))
      | [_], hab =>
        cases hab
        refine ⟨(fun h => by cases h), fun old new v1 v2 s1 s2 => ?_⟩
        have w1 := (exPg_settled (adb := exPgDb1) (.inl rfl)).valid
        have w2 := (exPg_settled (adb := exPgDb2) (.inr rfl)).valid
        exact pgFeasible_same w1 v1 w2 v2 (sameSchema_symm v1 w1 s1) (sameSchema_symm v2 w2 s2) (exPg_noReal (.inr rfl))
          (pgFeasible_of (by decide))
      | [_, _], hab => simp at hab
      | _ :: _ :: _ :: _, hab => simp at hab)

/-- The database after the first migration. -/
def exPgAfter1 : MigDb PgCat.PDb := ((exPgS1.toMigs "pg").migrate (Cli.rounds exPgS1) exPgMigConn ⟨[], none⟩).2
set_option maxRecDepth 20000 in
theorem exPgMigrate1 :
    (exPgS1.toMigs "pg").migrate (Cli.rounds exPgS1) exPgMigConn ⟨[], none⟩ = (.ok (), exPgAfter1) := rfl
set_option maxRecDepth 20000 in
theorem exPgAfter1_log : exPgAfter1.log = some ["m1"] := rfl

theorem exPgAfter1_life : ExPgLife exPgS1 exPgAfter1 :=
  .migrate exPgS1_life exPg_naming (c := exPgMigConn) rfl exPgMigrate1
theorem exPgAfter1_not : ¬ Recorded exPgAfter1 "m2" := by
  rintro ⟨names, hn, hm⟩
  rw [exPgAfter1_log] at hn
  cases hn
  simp at hm
theorem exPgAfter1_rec : Recorded exPgAfter1 "m1" := ⟨_, exPgAfter1_log, by simp⟩

example : ∃ made, HasMigrations false exPgS2 made ∧ ∀ e ∈ made, PgDescribed exPgKw e.2 :=
  pg_made_partial exPg_words (exPgS2_life exPgAfter1_life exPgAfter1_not)

example : ∃ a b, [("m1", exPgDb1), ("m2", exPgDb2)] = a ++ b ∧ (∀ e ∈ a, Recorded exPgAfter1 e.1) ∧
    (∀ e ∈ b, ¬ Recorded exPgAfter1 e.1) ∧ PgHasSchema (before a) exPgAfter1.user :=
  pg_life_partial exPg_words (exPgS2_life exPgAfter1_life exPgAfter1_not) exPg_has2 exPg_valid

/-- The next migration on a database that has the first one. -/
example : ∃ db', (exPgS2.toMigs "pg").migrate (Cli.rounds exPgS2) exPgMigConn.reliable exPgAfter1 = (.ok (), db') ∧
    PgHasSchema exPgDb2 db'.user ∧ Recorded db' "m2" := by
  obtain ⟨db', h1, h2, h3⟩ := exPgS2_migrates (exPgS2_life exPgAfter1_life exPgAfter1_not)
  exact ⟨db', h1, h3, h2 ("m2", exPgDb2) (by simp)⟩
example : PgHasSchema exPgDb1 exPgAfter1.user := by
  obtain ⟨a, l, b, h1, -, -, -, -, h5, h6⟩ := pg_migrate_partial exPg_words exPg_naming exPgS1_life exPg_has1
    (fun e he => exPg_valid e (by simp at he; simp [he])) (c := exPgMigConn) rfl exPgMigrate1
  obtain rfl := h6 rfl
  rw [List.append_nil] at h1
  rw [← h1] at h5
  exact h5

/-- The tool, stopping at the first migration. -/
def exPgStop : MigDb PgCat.PDb := (Cli.migrate (exPgS2.toMigs "pg") (Cli.rounds exPgS2) exPgMigConn (some "m1") ⟨[], none⟩).2
set_option maxRecDepth 20000 in
theorem exPgTool : Cli.migrate (exPgS2.toMigs "pg") (Cli.rounds exPgS2) exPgMigConn (some "m1") ⟨[], none⟩ =
    (.ok (), exPgStop) := rfl
set_option maxRecDepth 20000 in
theorem exPgStop_log : exPgStop.log = some ["m1"] := rfl
example : PgHasSchema exPgDb1 exPgStop.user := by
  obtain ⟨a, l, b, g1, g2, -, g4, g5, g7, -⟩ := pg_tool_migrate_partial exPg_words exPg_naming
    (exPgS2_life exPgS1_life (exPg_empty _)) exPg_has2 exPg_valid (c := exPgMigConn) rfl exPgTool
  obtain rfl : a = [] := by
    cases a with
    | nil => rfl
    | cons e a => exact absurd (g2 e (List.mem_cons_self ..)) (exPg_empty _)
  have m1 : Recorded exPgStop "m1" := ⟨_, exPgStop_log, by simp⟩
  have m2 : ¬ Recorded exPgStop "m2" := by
    rintro ⟨names, hn, hm⟩
    rw [exPgStop_log] at hn
    cases hn
    simp at hm
  match l, g1 with
  | [], g1 =>
    have : b = [("m1", exPgDb1), ("m2", exPgDb2)] := by simpa using g1.symm
    exact absurd m1 (g5 ("m1", exPgDb1) (by rw [this]; simp))
  | [x], g1 =>
    obtain rfl := (List.cons.inj g1).1
    exact g7
  | x :: y :: l, g1 =>
    simp only [List.nil_append, List.cons_append, List.cons.injEq] at g1
    obtain ⟨rfl, rfl, -⟩ := g1
    exact absurd (g4 ("m2", exPgDb2) (by simp)) m2

/-- The first migration is undone. -/
def exPgUndone : MigDb PgCat.PDb := ((exPgS1.toMigs "pg").unmigrate (Cli.rounds exPgS1) exPgMigConn exPgAfter1).2
set_option maxRecDepth 20000 in
theorem exPgUnmigrate1 :
    (exPgS1.toMigs "pg").unmigrate (Cli.rounds exPgS1) exPgMigConn exPgAfter1 = (.ok (), exPgUndone) := rfl
example : exPgUndone.user = [] ∧ ∀ e ∈ [("m1", exPgDb1)], ¬ Recorded exPgUndone e.1 :=
  pg_unmigrate_partial exPg_words exPg_naming exPgAfter1_life exPg_has1 (c := exPgMigConn) rfl exPgUnmigrate1

/-- The tool can make the migration for the change of the code, and when it is applied the database
has the tables of the code. -/
example : ∃ s', Cli.makeMigration false exPgGet none "m2" (exPgCode exPgDb2 exPgS1) = (.ok true, s') := by
  refine pg_make_succeeds_partial exPg_words (exPgCode_life exPgDb2 exPgAfter1_life) (made := [("m1", exPgDb1)])
    ⟨["m1"], ⟨rfl, ?_, ?_⟩, ?_, .cons ⟨rfl, _, rfl, sameSchema_refl _⟩ .nil⟩ ?_ rfl (.inr ⟨by simp, rfl⟩)
    exPgS1_code (exPg_settled (.inr rfl)) (exPg_described (.inr rfl)) ?_ ?_
  · rintro p m ⟨a, b, hab⟩
    match a, hab with
    | [], hab => simp at hab
    | _ :: _, hab => simp at hab
  · intro m hm
    cases hm
    exact .inl rfl
  · intro m hm
    cases hm
    rfl
  · intro e he
    exact exPg_valid e (by simp at he; simp [he])
  · intro old ho
    obtain rfl := exPgS1_latest ho
    exact exPg_change
  · intro h
    have := h "Author"
    exact this
example : ∃ db', (exPgS2.toMigs "pg").migrate (Cli.rounds exPgS2) exPgMigConn.reliable exPgAfter1 = (.ok (), db') ∧
    PgHasSchema exPgDb2 db'.user := by
  obtain ⟨db', h1, -⟩ := exPgS2_migrates (exPgS2_life exPgAfter1_life exPgAfter1_not)
  refine ⟨db', h1, ?_⟩
  refine pg_make_migrate_partial exPg_words exPg_naming (exPgCode_life exPgDb2 exPgAfter1_life) exPgGet_name ?_ rfl
    (by decide) exPgAfter1_not exPgS1_code (exPg_settled (.inr rfl)) (exPg_described (.inr rfl)) ?_ exPgMake2
    (c := exPgMigConn.reliable) rfl h1
  · rintro b (hb | hb) -
    · exact exPgGet_back b hb
    · cases hb
  · intro old ho
    obtain rfl := exPgS1_latest ho
    exact exPg_change

end Butane.Props
