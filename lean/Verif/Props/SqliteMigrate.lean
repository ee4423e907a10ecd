/-
C77: the schema of an SQLite database that is worked on with migrations.
-/
import Verif.Proofs.SqliteSame
import Verif.Proofs.SqliteTotal
import Verif.Props.Cli
import Verif.Props.CliMake
import Verif.Props.Ddl

namespace Butane.Props
open Butane Butane.Ddl Butane.DdlP Spec
variable {json : Bool} {env : SqliteEnv} {kw res : String → Bool} {p : LitPrinters}

/-! ### What holds through a history -/

/-- The SQL for SQLite in a migration, if there is any. -/
def SqliteSql (env : SqliteEnv) (kw : String → Bool) (p : LitPrinters) (s : FsMigrations) (a : List (String × ADB))
    (e : String × ADB) : Prop :=
  ((s.toMigs "sqlite").up e.1 = .ok none ∧ (s.toMigs "sqlite").down e.1 = .ok none) ∨
  ∃ old new first up down, SameSchema old (before a) ∧ SameSchema new e.2 ∧ Transition env p old new ∧
    Transition env p new old ∧ (a = [] → first = true) ∧
    (s.toMigs "sqlite").up e.1 = .ok (some up) ∧ (s.toMigs "sqlite").down e.1 = .ok (some down) ∧
    SqliteDdl.migrationSql kw p old (withRecords first (diff old new)) = .ok up.toList ∧
    SqliteDdl.migrationSql kw p new (diff new old) = .ok down.toList

structure LifeInv (json : Bool) (env : SqliteEnv) (kw : String → Bool) (p : LitPrinters) (s : FsMigrations)
    (db : MigDb SDb) (made : List (String × ADB)) (k : Nat) : Prop where
  reach : Reach json s
  has : HasMigrations json s made
  schemas : ∀ e ∈ made, SqliteSchema e.2
  sql : ∀ a e b, made = a ++ e :: b → SqliteSql env kw p s a e
  le : k ≤ made.length
  recorded : ∀ e ∈ made.take k, Recorded db e.1
  others : ∀ e ∈ made.drop k, ¬ Recorded db e.1
  user : HasSchema env (before (made.take k)) db.user

/-- The schema of a migration of the list, or of none. -/
def IsSchema (env : SqliteEnv) (made : List (String × ADB)) (o : Option String) (u : SDb) : Prop :=
  match o with
  | none => HasSchema env ADB.new u
  | some n => ∃ e ∈ made, e.1 = n ∧ HasSchema env e.2 u

theorem before_last {made a : List (String × ADB)} (hnd : (made.map (·.1)).Nodup) (ha : ∀ e ∈ a, e ∈ made) (u : SDb) :
    IsSchema env made (a.map (·.1)).getLast? u ↔ HasSchema env (before a) u := by
  rw [List.getLast?_map]
  unfold before
  cases hl : a.getLast? with
  | none => exact Iff.rfl
  | some x =>
    simp only [Option.map_some, IsSchema]
    constructor
    · rintro ⟨e, he, hn, hu⟩
      have hx := ha x (List.mem_of_getLast? hl)
      obtain rfl : e = x := by
        obtain ⟨i, hi, rfl⟩ := List.mem_iff_getElem.1 he
        obtain ⟨j, hj, rfl⟩ := List.mem_iff_getElem.1 hx
        have := (List.getElem?_inj (l := made.map (·.1)) (i := i) (j := j) (by simpa using hi) hnd).1 (by
          rw [List.getElem?_map, List.getElem?_map, List.getElem?_eq_getElem hi, List.getElem?_eq_getElem hj]
          simp [hn])
        subst this
        rfl
      exact hu
    · intro hu
      exact ⟨x, ha x (List.mem_of_getLast? hl), rfl, hu⟩

theorem fs_keyed (b : String) (s : FsMigrations) : Keyed (s.toMigs b) := by
  have hget : ∀ n m, s.get n = some m → m = n := by
    intro n m h
    unfold FsMigrations.get at h
    split at h
    · exact (Option.some.inj h).symm
    · cases h
  refine ⟨hget, fun m h => ?_⟩
  change s.getLatest = some m at h
  unfold FsMigrations.getLatest at h
  split at h
  · cases h
  · have := hget _ _ h
    subst this
    exact h

theorem LifeInv.fs {s : FsMigrations} {db : MigDb SDb} {made : List (String × ADB)} {k : Nat}
    (h : LifeInv json env kw p s db made k) : FsInv s made := (reach_inv h.reach h.has).1

theorem before_valid {made : List (String × ADB)} (h : ∀ e ∈ made, SqliteSchema e.2) : SqliteSchema (before made) := by
  unfold before
  cases hl : made.getLast? with
  | none => exact sqliteSchema_new
  | some e => exact h e (List.mem_of_getLast? hl)

/-- `At`, for the migrations of an invariant. -/
theorem at_iff {s : FsMigrations} {db : MigDb SDb} {made : List (String × ADB)} {k : Nat}
    (hnd : (made.map (·.1)).Nodup) :
    At (s.toMigs "sqlite") (IsSchema env made) (made.map (·.1)) k db ↔
      k ≤ made.length ∧ (∀ e ∈ made.take k, Recorded db e.1) ∧ (∀ e ∈ made.drop k, ¬ Recorded db e.1) ∧
        HasSchema env (before (made.take k)) db.user := by
  have hb := before_last (env := env) hnd (a := made.take k) (fun e he => List.mem_of_mem_take he) db.user
  constructor
  · rintro ⟨h1, h2, h3, h4⟩
    rw [← List.map_take] at h2 h4
    rw [← List.map_drop] at h3
    exact ⟨by simpa using h1, fun e he => h2 _ (List.mem_map_of_mem he), fun e he => h3 _ (List.mem_map_of_mem he),
      hb.1 h4⟩
  · rintro ⟨h1, h2, h3, h4⟩
    refine ⟨by simpa using h1, ?_, ?_, ?_⟩
    · intro m hm
      rw [← List.map_take] at hm
      obtain ⟨e, he, rfl⟩ := List.mem_map.1 hm
      exact h2 e he
    · intro m hm
      rw [← List.map_drop] at hm
      obtain ⟨e, he, rfl⟩ := List.mem_map.1 hm
      exact h3 e he
    · rw [← List.map_take]
      exact hb.2 h4

theorem LifeInv.at {s : FsMigrations} {db : MigDb SDb} {made : List (String × ADB)} {k : Nat}
    (h : LifeInv json env kw p s db made k) :
    At (s.toMigs "sqlite") (IsSchema env made) (made.map (·.1)) k db :=
  (at_iff h.fs.nodup).2 ⟨h.le, h.recorded, h.others, h.user⟩

theorem LifeInv.of_at {s : FsMigrations} {db db' : MigDb SDb} {made : List (String × ADB)} {k j : Nat}
    (h : LifeInv json env kw p s db made k)
    (hat : At (s.toMigs "sqlite") (IsSchema env made) (made.map (·.1)) j db') : LifeInv json env kw p s db' made j := by
  obtain ⟨h1, h2, h3, h4⟩ := (at_iff h.fs.nodup).1 hat
  exact ⟨h.reach, h.has, h.schemas, h.sql, h1, h2, h3, h4⟩

theorem split_names {made : List (String × ADB)} {a b : List String} {m : String} (h : made.map (·.1) = a ++ m :: b) :
    ∃ a' e b', made = a' ++ e :: b' ∧ a'.map (·.1) = a ∧ e.1 = m := by
  rw [List.map_eq_append_iff] at h
  obtain ⟨a', r, rfl, h1, h2⟩ := h
  rw [List.map_eq_cons_iff] at h2
  obtain ⟨e, b', rfl, h3, h4⟩ := h2
  exact ⟨a', e, b', rfl, h1, h3⟩

theorem LifeInv.keeps (hk : CoversDdl kw res) (hf : TypesFree res) {s : FsMigrations} {db : MigDb SDb}
    {made : List (String × ADB)} {k : Nat} (h : LifeInv json env kw p s db made k) :
    KeepsRecords (s.toMigs "sqlite") (sqliteExec env res) (made.map (·.1)) := by
  intro m hm sql hsql db0 db1 hx n
  obtain ⟨e, he, rfl⟩ := List.mem_map.1 hm
  obtain ⟨a, b, hab⟩ := List.append_of_mem he
  rcases h.sql a e b hab with ⟨h1, h2⟩ | ⟨old, new, first, up, down, -, -, t1, t2, -, h1, h2, g1, g2⟩
  · rw [h1, h2] at hsql
    rcases hsql with hsql | hsql <;> cases hsql
  · rw [h1, h2] at hsql
    rcases hsql with hsql | hsql
    · cases hsql
      exact sqlite_keeps hk hf t1 g1 hx n
    · cases hsql
      exact sqlite_keeps hk hf t2 (first := false) g2 hx n

/-- What applying and undoing a migration does to the user's tables. -/
theorem LifeInv.effect (hk : CoversDdl kw res) (hf : TypesFree res) (laws : StrictLaws env) (codecs : TextCodecs)
    {s : FsMigrations} {db : MigDb SDb} {made : List (String × ADB)} {k : Nat} (h : LifeInv json env kw p s db made k)
    {a b : List (String × ADB)} {e : String × ADB} (hab : made = a ++ e :: b) :
    (∀ sql db0 db1, (s.toMigs "sqlite").up e.1 = .ok (some sql) → HasSchema env (before a) db0.user →
      sqliteExec env res sql db0 = .ok db1 → HasSchema env e.2 db1.user ∧ (NoRows db0.user → NoRows db1.user) ∧
        (a = [] ∨ db0.log ≠ none → db1.log ≠ none) ∧
        ∃ old new, SameSchema old (before a) ∧ SameSchema new e.2 ∧ RowsKept env codecs old new db0.user db1.user) ∧
    (∀ sql db0 db1, (s.toMigs "sqlite").down e.1 = .ok (some sql) → HasSchema env e.2 db0.user →
      sqliteExec env res sql db0 = .ok db1 → HasSchema env (before a) db1.user) := by
  have hsub : ∀ x ∈ a, x ∈ made := fun x hx => by rw [hab]; simp [hx]
  have hva := (before_valid fun x hx => h.schemas x (hsub x hx)).valid
  have hve := (h.schemas e (by rw [hab]; simp)).valid
  rcases h.sql a e b hab with ⟨h1, h2⟩ | ⟨old, new, first, up, down, s1, s2, t1, t2, hfirst, h1, h2, g1, g2⟩
  · constructor
    · intro sql db0 db1 hsql
      rw [h1] at hsql
      cases hsql
    · intro sql db0 db1 hsql
      rw [h2] at hsql
      cases hsql
  · constructor
    · intro sql db0 db1 hsql hu hx
      rw [h1] at hsql
      cases hsql
      have hu' := hasSchema_same hva t1.src.valid (sameSchema_symm t1.src.valid hva s1) hu
      obtain ⟨q1, q2, q3, q4⟩ := sqlite_does hk hf laws codecs t1 g1 hu' hx
      refine ⟨hasSchema_same t1.dst.valid hve s2 q1, fun hn => execAll_noRows hn q3, fun hl => ?_, old, new, s1, s2, q2⟩
      rw [q4]
      cases hlog : db0.log with
      | some names => simp
      | none =>
        rw [hlog] at hl
        rcases hl with hl | hl
        · simp [hfirst hl]
        · exact absurd rfl hl
    · intro sql db0 db1 hsql hu hx
      rw [h2] at hsql
      cases hsql
      have hu' := hasSchema_same hve t2.src.valid (sameSchema_symm t2.src.valid hve s2) hu
      obtain ⟨q1, -⟩ := sqlite_does hk hf laws codecs t2 (first := false) g2 hu' hx
      exact hasSchema_same t2.dst.valid hva s1 q1

theorem LifeInv.correct (hk : CoversDdl kw res) (hf : TypesFree res) (laws : StrictLaws env) (codecs : TextCodecs)
    {s : FsMigrations} {db : MigDb SDb} {made : List (String × ADB)} {k : Nat} (h : LifeInv json env kw p s db made k) :
    Correct (s.toMigs "sqlite") (sqliteExec env res) (IsSchema env made) (made.map (·.1)) := by
  constructor
  · intro a m b hab sql db0 db1 hsql hu hx
    obtain ⟨a', e, b', hab', rfl, rfl⟩ := split_names hab
    have hsub : ∀ x ∈ a', x ∈ made := fun x hx => by rw [hab']; simp [hx]
    obtain ⟨q, -⟩ := (h.effect hk hf laws codecs hab').1 sql db0 db1 hsql
      ((before_last h.fs.nodup hsub _).1 hu) hx
    exact ⟨e, by rw [hab']; simp, rfl, q⟩
  · intro a m b hab sql db0 db1 hsql hu hx
    obtain ⟨a', e, b', hab', rfl, rfl⟩ := split_names hab
    have hsub : ∀ x ∈ a', x ∈ made := fun x hx => by rw [hab']; simp [hx]
    have hu' : HasSchema env e.2 db0.user := by
      have := (before_last (env := env) h.fs.nodup (a := a' ++ [e]) (fun x hx => by
        rw [hab']; rcases List.mem_append.1 hx with hx | hx
        · simp [hx]
        · simp [List.mem_singleton.1 hx]) db0.user).1 (by simpa using hu)
      simpa [before] using this
    have q := (h.effect hk hf laws codecs hab').2 sql db0 db1 hsql hu' hx
    exact (before_last h.fs.nodup hsub _).2 q

theorem dirs_sql {s s' : FsMigrations} {n : String} (h : s'.dirs.lookup n = s.dirs.lookup n) (b : String) :
    (s'.toMigs b).up n = (s.toMigs b).up n ∧ (s'.toMigs b).down n = (s.toMigs b).down n := by
  have : s'.dir n = s.dir n := by unfold FsMigrations.dir; rw [h]
  constructor
  · show Except.ok _ = Except.ok _
    rw [this]
  · show Except.ok _ = Except.ok _
    rw [this]

theorem sqliteSql_keep {s s' : FsMigrations} {a : List (String × ADB)} {e : String × ADB}
    (h1 : (s'.toMigs "sqlite").up e.1 = (s.toMigs "sqlite").up e.1)
    (h2 : (s'.toMigs "sqlite").down e.1 = (s.toMigs "sqlite").down e.1)
    (h : SqliteSql env kw p s a e) : SqliteSql env kw p s' a e := by
  unfold SqliteSql
  rw [h1, h2]
  exact h

theorem sqlIs_keep {s s' : FsMigrations} {n : String}
    (h : ∀ up down listed, SqlIs s' "sqlite" n up down listed ↔ SqlIs s "sqlite" n up down listed) :
    (s'.toMigs "sqlite").up n = (s.toMigs "sqlite").up n ∧
    (s'.toMigs "sqlite").down n = (s.toMigs "sqlite").down n := by
  have := (h ((s.dir n).sql.lookup ("sqlite" ++ "_up")) ((s.dir n).sql.lookup ("sqlite" ++ "_down"))
    ("sqlite" ∈ (s.info n).backends)).2 ⟨rfl, rfl, Iff.rfl⟩
  exact ⟨this.1, this.2.1⟩

theorem changesFrom_records (made : List (String × ADB)) (old new : ADB) :
    changesFrom made old new = withRecords made.isEmpty (diff old new) := by
  cases made <;> rfl

theorem latest_settled {s : FsMigrations} {made : List (String × ADB)} (hi : FsInv s made) {old : ADB}
    (h : LatestSchema json s old) : Settled old := by
  obtain ⟨old', h1, h2, -⟩ := fs_before (json := json) hi
  unfold LatestSchema at h
  unfold readFrom at h1
  split at h
  · subst h
    exact settled_new
  · rename_i n hl
    rw [hl] at h1
    have : s.getDb json n = .ok old' := h1
    rw [this] at h
    cases h
    exact h2

/-- The steps of the files alone. -/
theorem life_reach {s : FsMigrations} {db : MigDb SDb} (h : SqliteLife json env kw res p s db) : Reach json s := by
  induction h with
  | empty => exact .empty
  | build _ h1 h2 ih => exact .build ih h1 h2
  | make _ h1 _ h3 h4 _ h6 h7 ih => exact .make ih h1 h3 h4 (fun new hn => (h6 new hn).1) h7
  | detach _ h1 ih => exact .detach ih h1
  | addBackend _ h1 _ h3 ih => exact .addBackend ih h1 h3
  | removeBackend _ h1 _ h3 ih => exact .removeBackend ih h1 h3
  | _ => assumption

theorem life_inv (hk : CoversDdl kw res) (hf : TypesFree res) (laws : StrictLaws env) (codecs : TextCodecs)
    {s : FsMigrations} {db : MigDb SDb} (h : SqliteLife json env kw res p s db) :
    ∃ made k, LifeInv json env kw p s db made k := by
  induction h with
  | empty =>
    obtain ⟨made, hm, -⟩ := cli_history (json := json) .empty
    have hi := (reach_inv .empty hm).1
    have hl := hi.latest
    obtain rfl : made = [] := by
      cases hg : made.getLast? with
      | none => exact List.getLast?_eq_none_iff.1 hg
      | some e => rw [hg] at hl; cases hl
    exact ⟨[], 0, .empty, hm, (fun e he => by cases he), (fun a e b hab => by simp at hab), Nat.le_refl _,
      (fun e he => by cases he), (fun e he => by cases he), hasSchema_new⟩
  | @build s s' db h0 h1 h2 ih =>
    obtain ⟨made, k, hi⟩ := ih
    have hkeep : ∀ e ∈ made, s'.dirs.lookup e.1 = s.dirs.lookup e.1 := fun e he => h2 _ (hi.fs.notCurrent e he)
    have hi' : FsInv s' made := by
      refine fsInv_frame hi.fs (n := "current") (fun hm => ?_) ⟨h1, h2⟩
      obtain ⟨e, he, hn⟩ := List.mem_map.1 hm
      exact hi.fs.notCurrent e he hn
    refine ⟨made, k, .build (life_reach h0) h1 h2, hi'.asChain "", hi.schemas, fun a e b hab => ?_, hi.le, hi.recorded,
      hi.others, hi.user⟩
    obtain ⟨q1, q2⟩ := dirs_sql (hkeep e (by rw [hab]; simp)) "sqlite"
    exact sqliteSql_keep q1 q2 (hi.sql a e b hab)
  | @make s s' db get spec name r h0 h1 h2 h3 h4 h5 h6 h7 ih =>
    obtain ⟨made, k, hi⟩ := ih
    have hr' : Reach json s' := .make (life_reach h0) h1 h3 h4 (fun new hn => (h6 new hn).1) h7
    have hname : ∀ e ∈ made, e.1 ≠ name := by
      intro e he hn
      obtain ⟨-, d, hd⟩ := hi.fs.get (List.mem_map_of_mem he)
      rw [hn, h3] at hd
      cases hd
    by_cases hrt : r = .ok true
    · subst hrt
      obtain ⟨new, old, backends, g1, g2, -, g4, g5, g6, g7, g8, g9⟩ := cli_make h1 (life_reach h0) hi.has h3 h4
        (fun new hn => (h6 new hn).1) h7
      obtain ⟨hset, hsch, hadd⟩ := h6 new g1
      refine ⟨made ++ [(name, new)], k, hr', g2, ?_, ?_, ?_, ?_, ?_, ?_⟩
      · intro e he
        rcases List.mem_append.1 he with he | he
        · exact hi.schemas e he
        · rw [List.mem_singleton.1 he]
          exact hsch
      · intro a e b hab
        rcases List.eq_nil_or_concat b with rfl | ⟨b', x, rfl⟩
        · obtain ⟨rfl, he⟩ := List.append_inj' hab rfl
          cases he
          by_cases hb : ∃ b ∈ backends, b.name = "sqlite"
          · obtain ⟨b, hb, hbn⟩ := hb
            obtain rfl : b = sqliteBackend kw p := by
              refine h2 b ?_ hbn
              rcases g7 with ⟨n, -, -, -, q⟩ | ⟨-, b', q1, q2⟩
              · exact .inl (q b hb)
              · rw [q2, List.mem_singleton] at hb
                subst hb
                exact .inr q1
            obtain ⟨up, down, up', down', k1, k2, k3, k4, k5, k6, -⟩ := g8 _ hb
            rw [changesFrom_records] at k1
            have ho : SqliteSchema old := by
              have hv := (latest_settled hi.fs g5).valid
              exact sqliteSchema_same hv (sameSchema_symm hv (before_valid hi.schemas).valid g6) (before_valid hi.schemas)
            obtain ⟨a1, a2⟩ := hadd old g5
            exact .inr ⟨old, new, made.isEmpty, up', down', g6, sameSchema_refl _, ⟨ho, hsch, a1⟩, ⟨hsch, ho, a2⟩,
              (fun h => by rw [h]; rfl), k5, k6, sqlite_file k1 k3, sqlite_file k2 k4⟩
          · obtain ⟨q1, q2, -⟩ := g9 "sqlite" (fun b hb' hn => hb ⟨b, hb', hn⟩)
            exact .inl ⟨q1, q2⟩
        · rw [List.concat_eq_append, ← List.cons_append, ← List.append_assoc] at hab
          obtain ⟨hab, -⟩ := List.append_inj' hab rfl
          obtain ⟨q1, q2⟩ := dirs_sql (g4 e.1 (hname e (by rw [hab]; simp))) "sqlite"
          exact sqliteSql_keep q1 q2 (hi.sql a e b' hab)
      · rw [List.length_append]
        exact Nat.le_add_right_of_le hi.le
      · rw [List.take_append_of_le_length hi.le]
        exact hi.recorded
      · rw [List.drop_append_of_le_length hi.le]
        intro e he
        rcases List.mem_append.1 he with he | he
        · exact hi.others e he
        · rw [List.mem_singleton.1 he]
          exact h5
      · rw [List.take_append_of_le_length hi.le]
        exact hi.user
    · obtain ⟨g1, -, g3, -⟩ := cli_make_not (life_reach h0) hi.has h7 hrt
      refine ⟨made, k, hr', g1, hi.schemas, fun a e b hab => ?_, hi.le, hi.recorded, hi.others, hi.user⟩
      obtain ⟨q1, q2⟩ := dirs_sql (g3 e.1 (hname e (by rw [hab]; simp))) "sqlite"
      exact sqliteSql_keep q1 q2 (hi.sql a e b hab)
  | @detach s s' db c r h0 h1 ih =>
    obtain ⟨made, k, hi⟩ := ih
    have hr' : Reach json s' := .detach (life_reach h0) h1
    obtain ⟨g1, g2, g3⟩ := cli_detach (life_reach h0) hi.has h1
    by_cases hrt : r = .ok ()
    · obtain ⟨a, x, y, rfl, hm, -⟩ := g3 hrt
      have hny : ¬ Recorded db y.1 := by
        intro hy
        obtain ⟨-, err, he, -⟩ := cli_detach_applied (a := a ++ [x]) (e := y) (life_reach h0)
          (by rw [List.append_assoc]; exact hi.has) hy h1
        rw [hrt] at he
        cases he
      have hassoc : a ++ [x, y] = (a ++ [x]) ++ [y] := by simp
      have hle : k ≤ (a ++ [x]).length := by
        have h1 := hi.le
        rw [hassoc, List.length_append] at h1
        rcases Nat.lt_or_ge (a ++ [x]).length k with hlt | hge
        · exfalso
          refine hny (hi.recorded y ?_)
          rw [List.take_of_length_le (by rw [hassoc, List.length_append]; exact hlt)]
          simp
        · exact hge
      have htake : (a ++ [x, y]).take k = (a ++ [x]).take k := by
        rw [hassoc, List.take_append_of_le_length hle]
      refine ⟨a ++ [x], k, hr', hm, ?_, ?_, hle, ?_, ?_, ?_⟩
      · intro e he
        exact hi.schemas e (by rw [hassoc]; exact List.mem_append_left _ he)
      · intro a' e b hab
        obtain ⟨q1, q2⟩ := dirs_sql (s := s) (s' := s') (n := e.1) (by rw [g1]) "sqlite"
        exact sqliteSql_keep q1 q2 (hi.sql a' e (b ++ [y]) (by rw [hassoc, hab]; simp))
      · intro e he
        exact hi.recorded e (by rw [htake]; exact he)
      · intro e he
        refine hi.others e ?_
        rw [hassoc, List.drop_append_of_le_length hle]
        exact List.mem_append_left _ he
      · rw [← htake]
        exact hi.user
    · have := g2 hrt
      subst this
      exact ⟨made, k, hi⟩
  | @addBackend s s' db get name r h0 h1 h2 h3 ih =>
    obtain ⟨made, k, hi⟩ := ih
    obtain ⟨g1, -, g3⟩ := cli_add_backend_keeps h1 (life_reach h0) hi.has h3
    refine ⟨made, k, .addBackend (life_reach h0) h1 h3, g1, hi.schemas, fun a e b hab => ?_, hi.le, hi.recorded,
      hi.others, hi.user⟩
    obtain ⟨q1, q2⟩ := sqlIs_keep (fun up down listed => g3 "sqlite" e.1 (Ne.symm h2) up down listed)
    exact sqliteSql_keep q1 q2 (hi.sql a e b hab)
  | @removeBackend s s' db get name r h0 h1 h2 h3 ih =>
    obtain ⟨made, k, hi⟩ := ih
    obtain ⟨g1, -, g3⟩ := cli_remove_backend_keeps h1 (life_reach h0) hi.has h3
    refine ⟨made, k, .removeBackend (life_reach h0) h1 h3, g1, hi.schemas, fun a e b hab => ?_, hi.le, hi.recorded,
      hi.others, hi.user⟩
    obtain ⟨q1, q2⟩ := sqlIs_keep (fun up down listed => g3 "sqlite" e.1 (Ne.symm h2) up down listed)
    exact sqliteSql_keep q1 q2 (hi.sql a e b hab)
  | write _ h1 ih =>
    obtain ⟨made, k, hi⟩ := ih
    exact ⟨made, k, hi.reach, hi.has, hi.schemas, hi.sql, hi.le, hi.recorded, hi.others, h1 _ hi.user⟩
  | @migrate s db db' c r h0 h1 h2 ih =>
    obtain ⟨made, k, hi⟩ := ih
    obtain ⟨j, -, hat, -⟩ := migrate_any_failure (fs_keyed _ s) (hi.fs.path "sqlite").1
      (by rw [List.length_map]; exact hi.fs.lt_rounds) (h1 ▸ hi.keeps hk hf) (h1 ▸ hi.correct hk hf laws codecs) hi.at h2
    exact ⟨made, j, hi.of_at hat⟩
  | @unmigrate s db db' c r h0 h1 h2 ih =>
    obtain ⟨made, k, hi⟩ := ih
    obtain ⟨j, -, hat, -⟩ := unmigrate_any_failure (fs_keyed _ s) (hi.fs.path "sqlite").1 (hi.fs.path "sqlite").2
      (by rw [List.length_map]; exact hi.fs.lt_rounds) (h1 ▸ hi.keeps hk hf) (h1 ▸ hi.correct hk hf laws codecs) hi.at h2
    exact ⟨made, j, hi.of_at hat⟩
  | @cliMigrate s db db' c name r h0 h1 h2 ih =>
    obtain ⟨made, k, hi⟩ := ih
    obtain ⟨j, -, hat, -⟩ := cli_migrate_partial (fs_keyed _ s) (hi.fs.path "sqlite").1
      (by rw [List.length_map]; exact hi.fs.lt_rounds) (h1 ▸ hi.keeps hk hf) (h1 ▸ hi.correct hk hf laws codecs) hi.at h2
    exact ⟨made, j, hi.of_at hat⟩
  | @unmigrateTo s db db' c name r h0 h1 h2 ih =>
    obtain ⟨made, k, hi⟩ := ih
    have hkey := fs_keyed "sqlite" s
    have hpath := (hi.fs.path "sqlite").1
    have hlen : (made.map (·.1)).length < Cli.rounds s := by rw [List.length_map]; exact hi.fs.lt_rounds
    have hsame : ∀ e, Cli.unmigrateTo (s.toMigs "sqlite") (Cli.rounds s) c name db = (.error e, db) →
        ∃ made k, LifeInv json env kw p s db' made k := by
      intro e he
      rw [he] at h2
      cases h2
      exact ⟨made, k, hi⟩
    by_cases hin : name ∈ made.map (·.1)
    · obtain ⟨t, ht, rfl⟩ := List.mem_iff_getElem.1 hin
      have htm : (made.map (·.1))[t]? = some (made.map (·.1))[t] := List.getElem?_eq_getElem ht
      by_cases hk0 : k = 0
      · obtain ⟨e, he, -⟩ := cli_unmigrate_impossible_partial hkey hpath hlen c hi.at _ (.inr (.inr (.inl hk0)))
        exact hsame e he
      rcases Nat.lt_trichotomy (t + 1) k with hlt | heq | hgt
      · obtain ⟨j, -, -, hat, -⟩ := cli_unmigrate_to hkey hpath hlen (h1 ▸ hi.keeps hk hf)
          (h1 ▸ hi.correct hk hf laws codecs) hi.at htm hlt h2
        exact ⟨made, j, hi.of_at hat⟩
      · obtain ⟨e, he, -⟩ := cli_unmigrate_impossible_partial hkey hpath hlen c hi.at _
          (.inr (.inr (.inr ⟨t, _, htm, rfl, .inl heq⟩)))
        exact hsame e he
      · by_cases hlast : t + 1 = (made.map (·.1)).length
        · obtain ⟨e, he, -⟩ := cli_unmigrate_impossible_partial hkey hpath hlen c hi.at _
            (.inr (.inr (.inr ⟨t, _, htm, rfl, .inr hlast⟩)))
          exact hsame e he
        · rcases unmigrateTo_later hkey hpath hlen c hi.at (Nat.pos_of_ne_zero hk0) htm (by omega) (by omega) with he | ⟨he, -⟩
          · exact hsame _ he
          · exact hsame _ he
    · obtain ⟨e, he, -⟩ := cli_unmigrate_impossible_partial hkey hpath hlen c hi.at name
        (.inr (.inl (fun m hm hn => hin (hn ▸ hm))))
      exact hsame e he
  | @unmigrateLatest s db db' c r h0 h1 h2 ih =>
    obtain ⟨made, k, hi⟩ := ih
    rcases cli_unmigrate_latest (fs_keyed _ s) (hi.fs.path "sqlite").1
      (by rw [List.length_map]; exact hi.fs.lt_rounds) (h1 ▸ hi.keeps hk hf) (h1 ▸ hi.correct hk hf laws codecs) hi.at h2
      with ⟨hat, -⟩ | ⟨-, hat⟩
    · exact ⟨made, k, hi.of_at hat⟩
    · exact ⟨made, k - 1, hi.of_at hat⟩

/-- The schemas of two lists of the migrations. -/
theorem made_same {s : FsMigrations} {made made' : List (String × ADB)} (hi : FsInv s made) (hi' : FsInv s made')
    (hv : ∀ e ∈ made, ValidSchema e.2) (hv' : ∀ e ∈ made', ValidSchema e.2) :
    AllMatch (fun e e' => e.1 = e'.1 ∧ SameSchema e.2 e'.2) made made' := by
  have hn : made'.map (·.1) = made.map (·.1) := by
    have h1 := hi.all
    have h2 := hi'.all
    rw [h1] at h2
    exact (Except.ok.inj h2).symm
  have key : ∀ p q, made = p ++ q → ∀ p' q', made' = p' ++ q' → p'.map (·.1) = p.map (·.1) →
      AllMatch (fun e e' => e.1 = e'.1 ∧ SameSchema e.2 e'.2) q q' := by
    intro p q
    induction q generalizing p with
    | nil =>
      intro hpq p' q' hpq' hp
      rw [hpq', hpq, List.map_append, List.map_append, hp] at hn
      cases q' with
      | nil => exact .nil
      | cons x q' => simp at hn
    | cons e q ih =>
      intro hpq p' q' hpq' hp
      have hn' := hn
      rw [hpq', hpq, List.map_append, List.map_append, hp] at hn'
      cases q' with
      | nil => simp at hn'
      | cons e' q' =>
        have hn2 := List.append_cancel_left hn'
        simp only [List.map_cons, List.cons.injEq] at hn2
        obtain ⟨d, hd, hsame⟩ := hi.dirs p e q hpq
        obtain ⟨d', hd', hsame'⟩ := hi'.dirs p' e' q' hpq'
        have e1 := dirOk_getDb (json := true) hd
        rw [← hn2.1, dirOk_getDb hd'] at e1
        cases e1
        have h1 := hv e (by rw [hpq]; simp)
        have h2 := hv' e' (by rw [hpq']; simp)
        exact .cons ⟨hn2.1.symm, sameSchema_trans h1 hd.settled.valid h2 (sameSchema_symm hd.settled.valid h1 hsame) hsame'⟩
          (ih (p ++ [e]) (by rw [hpq]; simp) (p' ++ [e']) q' (by rw [hpq']; simp) (by simp [hp, hn2.1]))
  exact key [] made rfl [] made' rfl rfl

/-- The schemas of the migrations before another one. -/
theorem before_same {l l' : List (String × ADB)} (h : AllMatch (fun e e' => e.1 = e'.1 ∧ SameSchema e.2 e'.2) l l') :
    SameSchema (before l) (before l') := by
  induction h with
  | nil => exact sameSchema_refl _
  | @cons e e' l l' he hl ih =>
    cases hl with
    | nil => exact he.2
    | cons h1 h2 => exact ih

theorem allMatch_take {α β : Type} {R : α → β → Prop} {l : List α} {l' : List β} (h : AllMatch R l l') (k : Nat) :
    AllMatch R (l.take k) (l'.take k) ∧ AllMatch R (l.drop k) (l'.drop k) := by
  induction h generalizing k with
  | nil => simp only [List.take_nil, List.drop_nil]; exact ⟨.nil, .nil⟩
  | cons h1 h2 ih =>
    cases k with
    | zero => exact ⟨.nil, .cons h1 h2⟩
    | succ k =>
      obtain ⟨g1, g2⟩ := ih k
      exact ⟨.cons h1 g1, g2⟩

theorem allMatch_right {α β : Type} {R : α → β → Prop} {l : List α} {l' : List β} (h : AllMatch R l l') {y : β}
    (hy : y ∈ l') : ∃ x ∈ l, R x y := by
  induction h with
  | nil => cases hy
  | @cons a b _ _ h1 _ ih =>
    rcases List.mem_cons.1 hy with rfl | hy
    · exact ⟨a, by simp, h1⟩
    · obtain ⟨x, hx, hr⟩ := ih hy
      exact ⟨x, by simp [hx], hr⟩

theorem before_isValid {made : List (String × ADB)} (h : ∀ e ∈ made, ValidSchema e.2) : ValidSchema (before made) := by
  unfold before
  cases hl : made.getLast? with
  | none => exact sqliteSchema_new.valid
  | some e => exact h e (List.mem_of_getLast? hl)

/-- The invariant is about the schemas up to what is the same. -/
theorem LifeInv.change {s : FsMigrations} {db : MigDb SDb} {made made' : List (String × ADB)} {k : Nat}
    (h : LifeInv json env kw p s db made k) (hm : HasMigrations json s made') (hv : ∀ e ∈ made', ValidSchema e.2) :
    LifeInv json env kw p s db made' k := by
  have hs := made_same h.fs (h.fs.of_chain hm) (fun e he => (h.schemas e he).valid) hv
  obtain ⟨ht, hd⟩ := allMatch_take hs k
  refine ⟨h.reach, hm, ?_, ?_, ?_, ?_, ?_, ?_⟩
  · intro e he
    obtain ⟨x, hx, -, hr⟩ := allMatch_right hs he
    exact sqliteSchema_same (hv e he) hr (h.schemas x hx)
  · intro a' e' b' hab'
    obtain ⟨a, e, b, rfl, g1, g2, g3⟩ := allMatch_split (hab' ▸ hs)
    rcases h.sql a e b rfl with g | ⟨old, new, first, up, down, s1, s2, t1, t2, hfirst, r1, r2, r3, r4⟩
    · exact .inl (by rw [← g2.1]; exact g)
    · have q1 := (before_valid (made := a) fun x hx => h.schemas x (by simp [hx])).valid
      have q2 := before_isValid (made := a') fun x hx => hv x (by rw [hab']; simp [hx])
      refine .inr ⟨old, new, first, up, down, sameSchema_trans t1.src.valid q1 q2 s1 (before_same g1),
        sameSchema_trans t2.src.valid (h.schemas e (by simp)).valid (hv e' (by rw [hab']; simp)) s2 g2.2, t1, t2, ?_,
        by rw [← g2.1]; exact r1, by rw [← g2.1]; exact r2, r3, r4⟩
      intro ha
      subst ha
      cases g1
      exact hfirst rfl
  · rw [← allMatch_length hs]
    exact h.le
  · intro e he
    obtain ⟨x, hx, hr, -⟩ := allMatch_right ht he
    rw [← hr]
    exact h.recorded x hx
  · intro e he
    obtain ⟨x, hx, hr, -⟩ := allMatch_right hd he
    rw [← hr]
    exact h.others x hx
  · exact hasSchema_same (before_valid fun x hx => h.schemas x (List.mem_of_mem_take hx)).valid
      (before_isValid fun x hx => hv x (List.mem_of_mem_take hx)) (before_same ht) h.user

/-! ### The theorems -/

/-- C77: the schemas of the migrations are ones butane can describe to SQLite. -/
theorem sqlite_made_partial (hk : CoversDdl kw res) (hf : TypesFree res) (laws : StrictLaws env) (codecs : TextCodecs)
    {s : FsMigrations} {db : MigDb SDb} (h : SqliteLife json env kw res p s db) :
    ∃ made, HasMigrations json s made ∧ ∀ e ∈ made, SqliteSchema e.2 := by
  obtain ⟨made, k, hi⟩ := life_inv hk hf laws codecs h
  exact ⟨made, hi.has, hi.schemas⟩

/-- C77: whatever was done, and whatever failed, the database has the schema of a migration, or is
empty; and the records say of which: those up to it are recorded, and those after it are not. -/
theorem sqlite_life_partial (hk : CoversDdl kw res) (hf : TypesFree res) (laws : StrictLaws env) (codecs : TextCodecs)
    {s : FsMigrations} {db : MigDb SDb} (h : SqliteLife json env kw res p s db) {made : List (String × ADB)}
    (hm : HasMigrations json s made) (hv : ∀ e ∈ made, ValidSchema e.2) :
    ∃ a b, made = a ++ b ∧ (∀ e ∈ a, Recorded db e.1) ∧ (∀ e ∈ b, ¬ Recorded db e.1) ∧
      HasSchema env (before a) db.user := by
  obtain ⟨_, k, hi⟩ := life_inv hk hf laws codecs h
  have hi := hi.change hm hv
  exact ⟨made.take k, made.drop k, (List.take_append_drop k made).symm, hi.recorded, hi.others, hi.user⟩

theorem applied_rows (hk : CoversDdl kw res) (hf : TypesFree res) (laws : StrictLaws env) (codecs : TextCodecs)
    {s : FsMigrations} {db0 : MigDb SDb} {made : List (String × ADB)} {k : Nat} (hi : LifeInv json env kw p s db0 made k)
    {l a b : List (String × ADB)} (hab : made = a ++ l ++ b) {db db' : MigDb SDb} (hu : HasSchema env (before a) db.user)
    (happ : Applied (s.toMigs "sqlite") (sqliteExec env res) (l.map (·.1)) db db') :
    RowsThrough env codecs (before a :: l.map (·.2)) db.user db'.user := by
  induction l generalizing a db with
  | nil =>
    cases happ
    exact .stay
  | cons e l ih =>
    have hab' : made = a ++ e :: (l ++ b) := by rw [hab]; simp
    cases happ with
    | cons h1 h2 =>
      obtain ⟨sql, db1, names, g1, g2, g3, g4, rfl⟩ := h1
      obtain ⟨q1, -, -, old, new, q4, q5, q6⟩ := (hi.effect hk hf laws codecs hab').1 sql db db1 g1 hu g2
      have hb : before (a ++ [e]) = e.2 := by simp [before]
      have := ih (a := a ++ [e]) (by rw [hab]; simp) (by rw [hb]; exact q1) h2
      rw [hb] at this
      exact .step q4 q5 hu q1 q6 this

/-- A table that has no rows, or is not there, has none after migrations. -/
theorem rowsThrough_empty {codecs : TextCodecs} {l : List ADB} {u w : SDb} (h : RowsThrough env codecs l u w)
    {n : String} (hu : ∀ s, u.lookup n = some s → s.rows = []) : ∀ s, w.lookup n = some s → s.rows = [] := by
  induction h with
  | stay => exact hu
  | @step a b l u v w old new h1 h2 h3 h4 h5 _ ih =>
    refine ih fun s hs => ?_
    cases ho : old.getTable n with
    | none => exact h5.created n s ho hs
    | some t =>
      have hv := h4.tables n
      rw [hs] at hv
      obtain ⟨t1, e1, -⟩ := Both.some_right hv
      have hnew := h2 n
      rw [e1] at hnew
      cases hn : new.getTable n with
      | none => rw [hn] at hnew; exact hnew.elim
      | some t' =>
        have hold := h1 n
        rw [ho] at hold
        cases ha : a.getTable n with
        | none => rw [ha] at hold; exact hold.elim
        | some t2 =>
          have hau := h3.tables n
          rw [ha] at hau
          obtain ⟨s0, e0, -⟩ := Both.some_left hau
          have := h5.kept n t t' s0 s ho hn e0 hs
          rw [hu s0 e0] at this
          cases hr : s.rows with
          | nil => rfl
          | cons r rs => rw [hr] at this; cases this

theorem rowsThrough_noRows {codecs : TextCodecs} {l : List ADB} {u w : SDb} (h : RowsThrough env codecs l u w)
    (hw : w.Sorted) (hu : NoRows u) : NoRows w := by
  intro e he
  exact rowsThrough_empty h (n := e.1) (fun s hs => hu _ (SMap.mem_of_lookup hs)) e.2 (SMap.lookup_of_mem hw he)

theorem applied_steps (hk : CoversDdl kw res) (hf : TypesFree res) (laws : StrictLaws env) (codecs : TextCodecs)
    {s : FsMigrations} {db db' : MigDb SDb} {made : List (String × ADB)} {k : Nat}
    (hi : LifeInv json env kw p s db made k) {a b : List String} (hab : (made.map (·.1)).drop k = a ++ b)
    (happ : Applied (s.toMigs "sqlite") (sqliteExec env res) a db db') :
    ∃ x l y, made = x ++ l ++ y ∧ a = l.map (·.1) ∧ b = y.map (·.1) ∧
      (∀ e ∈ x, Recorded db e.1) ∧ (∀ e ∈ l ++ y, ¬ Recorded db e.1) ∧
      (∀ e ∈ x ++ l, Recorded db' e.1) ∧ (∀ e ∈ y, ¬ Recorded db' e.1) ∧
      RowsThrough env codecs (before x :: l.map (·.2)) db.user db'.user ∧ HasSchema env (before (x ++ l)) db'.user := by
  have hat := hi.at
  have hat' := applied_at (fs_keyed _ s) (hi.fs.path "sqlite").1 (hi.keeps hk hf) (hi.correct hk hf laws codecs) hat hab
    happ
  obtain ⟨j1, j2, j3, j4⟩ := (at_iff hi.fs.nodup).1 hat'
  rw [← List.map_drop, List.map_eq_append_iff] at hab
  obtain ⟨l, b', hd, rfl, rfl⟩ := hab
  have hmade : made = made.take k ++ l ++ b' := by rw [List.append_assoc, ← hd, List.take_append_drop]
  have hlk : (made.take k).length = k := List.length_take_of_le hi.le
  have htake : made.take (k + l.length) = made.take k ++ l := by
    conv => lhs; rw [hmade]
    rw [List.take_append_of_le_length (by simp [hlk]), List.take_of_length_le (by simp [hlk])]
  have hdrop : made.drop (k + l.length) = b' := by
    have := List.take_append_drop (k + l.length) made
    rw [htake] at this
    conv at this => rhs; rw [hmade]
    exact List.append_cancel_left this
  rw [List.length_map] at j2 j3 j4
  rw [htake] at j2 j4
  rw [hdrop] at j3
  exact ⟨made.take k, l, b', hmade, rfl, rfl, hi.recorded, fun e he => hi.others e (by rw [hd]; exact he), j2, j3,
    applied_rows hk hf laws codecs hi hmade hi.user happ, j4⟩

/-- C77: `migrate` takes the database from the schema it has to that of a later migration, one
migration after the other, and keeps the rows at each step; whatever fails, it stops at a
migration.  If it succeeds, the database has the schema of the latest migration. -/
theorem sqlite_migrate_partial (hk : CoversDdl kw res) (hf : TypesFree res) (laws : StrictLaws env) (codecs : TextCodecs)
    {s : FsMigrations} {db db' : MigDb SDb} (h : SqliteLife json env kw res p s db) {made : List (String × ADB)}
    (hm : HasMigrations json s made) (hv : ∀ e ∈ made, ValidSchema e.2) {c : MigConn SDb}
    (hc : c.exec = sqliteExec env res) {r : Except MErr Unit}
    (hr : (s.toMigs "sqlite").migrate (Cli.rounds s) c db = (r, db')) :
    ∃ a l b, made = a ++ l ++ b ∧ (∀ e ∈ a, Recorded db e.1) ∧ (∀ e ∈ l ++ b, ¬ Recorded db e.1) ∧
      (∀ e ∈ a ++ l, Recorded db' e.1) ∧ (∀ e ∈ b, ¬ Recorded db' e.1) ∧
      RowsThrough env codecs (before a :: l.map (·.2)) db.user db'.user ∧
      HasSchema env (before (a ++ l)) db'.user ∧ (r = .ok () → b = []) := by
  obtain ⟨_, k, hi⟩ := life_inv hk hf laws codecs h
  have hi := hi.change hm hv
  have hat := hi.at
  obtain ⟨a, b, hab, happ, hok⟩ := migrate_cases (fs_keyed _ s) (hi.fs.path "sqlite").1
    (by rw [List.length_map]; exact hi.fs.lt_rounds) (List.take_append_drop k _).symm hat.others (at_pre hat) hr
  obtain ⟨x, l, y, e1, rfl, rfl, e2, e3, e4, e5, e6, e7⟩ := applied_steps hk hf laws codecs hi hab (hc ▸ happ)
  exact ⟨x, l, y, e1, e2, e3, e4, e5, e6, e7, fun hrt => by simpa using hok hrt⟩

/-- C77: the tool's `migrate` does the same, and stops after the migration of the given name if it is one of
those not applied. -/
theorem sqlite_tool_migrate_partial (hk : CoversDdl kw res) (hf : TypesFree res) (laws : StrictLaws env)
    (codecs : TextCodecs) {s : FsMigrations} {db db' : MigDb SDb} (h : SqliteLife json env kw res p s db)
    {made : List (String × ADB)} (hm : HasMigrations json s made) (hv : ∀ e ∈ made, ValidSchema e.2) {c : MigConn SDb}
    (hc : c.exec = sqliteExec env res) {name : Option String} {r : Except Cli.CliErr Unit}
    (hr : Cli.migrate (s.toMigs "sqlite") (Cli.rounds s) c name db = (r, db')) :
    ∃ a l b, made = a ++ l ++ b ∧ (∀ e ∈ a, Recorded db e.1) ∧ (∀ e ∈ l ++ b, ¬ Recorded db e.1) ∧
      (∀ e ∈ a ++ l, Recorded db' e.1) ∧ (∀ e ∈ b, ¬ Recorded db' e.1) ∧
      RowsThrough env codecs (before a :: l.map (·.2)) db.user db'.user ∧
      HasSchema env (before (a ++ l)) db'.user ∧
      (r = .ok () → b = [] ∨ ∃ e, l.getLast? = some e ∧ name = some e.1) := by
  obtain ⟨_, k, hi⟩ := life_inv hk hf laws codecs h
  have hi := hi.change hm hv
  have hat := hi.at
  have key : ∃ a b, (made.map (·.1)).drop k = a ++ b ∧ Applied (s.toMigs "sqlite") c.exec a db db' ∧
      (r = .ok () → b = [] ∨ ∃ m, a.getLast? = some m ∧ name = some m) := by
    unfold Cli.migrate at hr
    rcases unapplied_ok (fs_keyed _ s) (hi.fs.path "sqlite").1 (List.take_append_drop k _).symm hat.others (at_pre hat)
      (by rw [List.length_map]; exact hi.fs.lt_rounds) c with hu | ⟨hu, _⟩
    · rw [hu] at hr
      obtain ⟨a, b, q1, q2, -, q3⟩ := migrateLoop_cases hr
      exact ⟨a, b, q1, q2, q3⟩
    · rw [hu] at hr
      cases hr
      exact ⟨[], _, rfl, .nil, fun h => by cases h⟩
  obtain ⟨a, b, hab, happ, hok⟩ := key
  obtain ⟨x, l, y, e1, rfl, rfl, e2, e3, e4, e5, e6, e7⟩ := applied_steps hk hf laws codecs hi hab (hc ▸ happ)
  refine ⟨x, l, y, e1, e2, e3, e4, e5, e6, e7, fun hrt => ?_⟩
  rcases hok hrt with h | ⟨m, h1, h2⟩
  · exact .inl (by simpa using h)
  · rw [List.getLast?_map] at h1
    obtain ⟨e, he, rfl⟩ := Option.map_eq_some_iff.1 h1
    exact .inr ⟨e, he, h2⟩

/-- C77: on a reliable connection `migrate` succeeds if every migration that is not recorded has
SQL for SQLite and is a change SQLite can make in any database with the schema before it, or in any
that has no rows either, if this one has none. -/
theorem sqlite_migrate_succeeds_partial (hk : CoversDdl kw res) (hf : TypesFree res) (laws : StrictLaws env)
    (codecs : TextCodecs) {s : FsMigrations} {db : MigDb SDb} (h : SqliteLife json env kw res p s db)
    {made : List (String × ADB)} (hm : HasMigrations json s made) (hv : ∀ e ∈ made, ValidSchema e.2) {c : MigConn SDb}
    (hc : c.exec = sqliteExec env res)
    (hrun : ∀ a e b, made = a ++ e :: b → ¬ Recorded db e.1 → (s.toMigs "sqlite").up e.1 ≠ .ok none ∧
      ∀ u, HasSchema env (before a) u → (NoRows db.user → NoRows u) → Feasible (before a) e.2 u) :
    ∃ db', (s.toMigs "sqlite").migrate (Cli.rounds s) c.reliable db = (.ok (), db') ∧
      (∀ e ∈ made, Recorded db' e.1) ∧ HasSchema env (before made) db'.user := by
  obtain ⟨_, k, hi⟩ := life_inv hk hf laws codecs h
  have hi := hi.change hm hv
  have hat := hi.at
  have hpath := (hi.fs.path "sqlite").1
  have hex : ∃ db', (s.toMigs "sqlite").migrate (Cli.rounds s) c.reliable db = (.ok (), db') := by
    rw [migrate_reliable (fs_keyed _ s) hpath (by rw [List.length_map]; exact hi.fs.lt_rounds)
      (List.take_append_drop k _).symm hat.others (at_pre hat), ← List.map_drop]
    have hkeep := hi.keeps hk hf
    have key : ∀ (b a : List (String × ADB)) (d : MigDb SDb) (n : Nat), made = a ++ b → (∀ e ∈ b, e ∈ made.drop k) →
        HasSchema env (before a) d.user → (NoRows db.user → NoRows d.user) → (a = [] ∨ d.log ≠ none) →
        (∀ e ∈ b, ¬ Recorded d e.1) →
        ∃ d', (s.toMigs "sqlite").applyAll c.reliable n (b.map (·.1)) d = (.ok (), d') := by
      intro b
      induction b with
      | nil => exact fun a d n _ _ _ _ _ _ => ⟨d, rfl⟩
      | cons e b ih =>
        intro a d n he hdr hu hrows hlog hn
        obtain ⟨hup, hfe⟩ := hrun a e b he (hi.others e (hdr e (by simp)))
        rcases hi.sql a e b he with ⟨h1, -⟩ | ⟨old, new, first, up, down, s1, s2, t1, t2, hfirst, r1, -, r3, -⟩
        · exact absurd h1 hup
        · have q1 := before_isValid (made := a) fun x hx => hv x (by rw [he]; simp [hx])
          have q2 := hv e (by rw [he]; simp)
          have hu' := hasSchema_same q1 t1.src.valid (sameSchema_symm t1.src.valid q1 s1) hu
          obtain ⟨text, d1, k1, k2⟩ := sqlite_runs (kw := kw) (res := res) hk hf laws codecs t1 first hu'
            (feasible_same q1 t1.src.valid q2 t2.src.valid (sameSchema_symm t1.src.valid q1 s1)
              (sameSchema_symm t2.src.valid q2 s2) (hfe _ hu hrows))
          rw [r3] at k1
          cases k1
          rw [String.ofList_toList] at k2
          obtain ⟨g1, g2, g3, -⟩ := (hi.effect hk hf laws codecs he).1 up d d1 r1 hu k2
          have hl1 := g3 hlog
          cases hl : d1.log with
          | none => exact absurd hl hl1
          | some names =>
            have hm' : e.1 ∈ made.map (·.1) := by rw [he]; simp
            have hone : AppliedOne (s.toMigs "sqlite") c.exec e.1 d ⟨d1.user, some (names ++ [e.1])⟩ := by
              refine ⟨up, d1, names, r1, by rw [hc]; exact k2, hl, ?_, rfl⟩
              intro hmem
              exact hn e (by simp) ((hkeep e.1 hm' up (.inl r1) d d1 k2 _).1 ⟨names, hl, hmem⟩)
            rw [List.map_cons, Migs.applyAll, applyOne_reliable hone]
            refine ih (a ++ [e]) _ (n + 4) (by rw [he]; simp) (fun x hx => hdr x (by simp [hx])) ?_ (fun hr => g2 (hrows hr))
              (.inr (by simp)) ?_
            · have hb : before (a ++ [e]) = e.2 := by simp [before]
              rw [hb]
              exact g1
            · intro x hx
              rw [appliedOne_recorded (hc ▸ hkeep) hm' hone]
              rintro (hx' | hx')
              · exact hn x (by simp [hx]) hx'
              · have hnd := hi.fs.nodup
                rw [he, List.map_append, List.map_cons, List.nodup_append] at hnd
                have h2 := (List.nodup_cons.1 hnd.2.1).1
                have hx' : x.1 = e.1 := hx'
                exact h2 (hx' ▸ List.mem_map_of_mem (f := (·.1)) hx)
    refine key (made.drop k) (made.take k) db _ (List.take_append_drop k made).symm (fun e he => he) hi.user
      (fun h => h) ?_ hi.others
    cases htk : made.take k with
    | nil => exact .inl rfl
    | cons e l =>
      obtain ⟨names, hn, -⟩ := hi.recorded e (by rw [htk]; simp)
      exact .inr (by rw [hn]; simp)
  obtain ⟨db', hr⟩ := hex
  obtain ⟨a, l, b, hmade, -, -, g4, -, -, g7, g8⟩ := sqlite_migrate_partial hk hf laws codecs h hm hv (c := c.reliable) hc hr
  obtain rfl := g8 rfl
  rw [List.append_nil] at hmade
  exact ⟨db', hr, hmade ▸ g4, hmade ▸ g7⟩

/-- C77: undoing all migrations leaves no table. -/
theorem sqlite_unmigrate_partial (hk : CoversDdl kw res) (hf : TypesFree res) (laws : StrictLaws env)
    (codecs : TextCodecs) {s : FsMigrations} {db db' : MigDb SDb} (h : SqliteLife json env kw res p s db)
    {made : List (String × ADB)} (hm : HasMigrations json s made) {c : MigConn SDb} (hc : c.exec = sqliteExec env res)
    (hr : (s.toMigs "sqlite").unmigrate (Cli.rounds s) c db = (.ok (), db')) :
    db'.user = [] ∧ ∀ e ∈ made, ¬ Recorded db' e.1 := by
  obtain ⟨made', k, hi⟩ := life_inv hk hf laws codecs h
  obtain ⟨j, -, hat, hj⟩ := unmigrate_any_failure (fs_keyed _ s) (hi.fs.path "sqlite").1 (hi.fs.path "sqlite").2
    (by rw [List.length_map]; exact hi.fs.lt_rounds) (hc ▸ hi.keeps hk hf) (hc ▸ hi.correct hk hf laws codecs) hi.at hr
  obtain rfl := hj rfl
  obtain ⟨-, -, h3, h4⟩ := (at_iff hi.fs.nodup).1 hat
  constructor
  · rcases hu : db'.user with - | ⟨e, rest⟩
    · rfl
    · have hl := h4.tables e.1
      rw [hu, SMap.lookup_of_mem (hu ▸ h4.proper.sorted) (List.mem_cons_self ..)] at hl
      exact hl.elim
  · intro e he
    have h1 := hi.fs.all
    have h2 := (hi.fs.of_chain hm).all
    rw [h1] at h2
    have : e.1 ∈ made'.map (·.1) := by rw [Except.ok.inj h2]; exact List.mem_map_of_mem he
    obtain ⟨x, hx, hxe⟩ := List.mem_map.1 this
    rw [← hxe]
    exact h3 x hx

/-- C77: a migration is made for SQLite whenever the schema of the code is not that of the latest
migration: butane can generate the SQL for all schemas it can describe to SQLite. -/
theorem sqlite_make_succeeds_partial (hk : CoversDdl kw res) (hf : TypesFree res) (laws : StrictLaws env)
    (codecs : TextCodecs) {s : FsMigrations} {db : MigDb SDb} (h : SqliteLife json env kw res p s db)
    {made : List (String × ADB)} (hm : HasMigrations json s made) (hv : ∀ e ∈ made, ValidSchema e.2)
    {get : String → Option MigBackend} {spec : Option (Option MigBackend)} {name : String}
    (hfresh : s.dirs.lookup name = none)
    (hback : made = [] ∧ spec = some (some (sqliteBackend kw p)) ∨
      made ≠ [] ∧ Cli.latestBackends get s = .ok [sqliteBackend kw p]) {new : ADB}
    (hnew : s.getDb json "current" = .ok new) (hset : Settled new) (hsch : SqliteSchema new)
    (hadd : ∀ old, LatestSchema json s old → Addable env p old new ∧ Addable env p new old)
    (hne : ¬ SameSchema (before made) new) :
    ∃ s', Cli.makeMigration json get spec name s = (.ok true, s') := by
  obtain ⟨_, k, hi⟩ := life_inv hk hf laws codecs h
  have hi := hi.change hm hv
  have hbs : Cli.loadBackends get spec s = .ok [sqliteBackend kw p] := by
    rcases hback with ⟨rfl, rfl⟩ | ⟨-, hb⟩
    · have : s.getLatest = none := by rw [hi.fs.getLatest]; rfl
      simp only [Cli.loadBackends, Cli.latestBackends, this]
    · simp only [Cli.loadBackends, hb]
  refine cli_make_succeeds (life_reach h) hm hv hfresh hbs hnew hset hne ?_
  intro b hb old hold hsame
  rw [List.mem_singleton] at hb
  subst hb
  have ho : SqliteSchema old := by
    have hv' := (latest_settled hi.fs hold).valid
    exact sqliteSchema_same hv' (sameSchema_symm hv' (before_valid hi.schemas).valid hsame) (before_valid hi.schemas)
  obtain ⟨a1, a2⟩ := hadd old hold
  rw [changesFrom_records]
  exact ⟨sqlite_generates hk hf ⟨ho, hsch, a1⟩ made.isEmpty, sqlite_generates hk hf ⟨hsch, ho, a2⟩ false⟩

/-- C77: making a migration for the code, or finding that there is nothing to do, and migrating,
gives the database the schema of the code. -/
theorem sqlite_make_migrate_partial (hk : CoversDdl kw res) (hf : TypesFree res) (laws : StrictLaws env)
    (codecs : TextCodecs) {s s' : FsMigrations} {db db' : MigDb SDb} (h : SqliteLife json env kw res p s db)
    {get : String → Option MigBackend} {spec : Option (Option MigBackend)} {name : String} {b : Bool} (hget : Finds get)
    (hback : ∀ b, get b.name = some b ∨ spec = some (some b) → b.name = "sqlite" → b = sqliteBackend kw p)
    (hfresh : s.dirs.lookup name = none) (hcur : name ≠ "current") (hrec : ¬ Recorded db name) {new : ADB}
    (hnew : s.getDb json "current" = .ok new) (hset : Settled new) (hsch : SqliteSchema new)
    (hadd : ∀ old, LatestSchema json s old → Addable env p old new ∧ Addable env p new old)
    (hmake : Cli.makeMigration json get spec name s = (.ok b, s')) {c : MigConn SDb} (hc : c.exec = sqliteExec env res)
    (hr : (s'.toMigs "sqlite").migrate (Cli.rounds s') c db = (.ok (), db')) : HasSchema env new db'.user := by
  have hcond : ∀ n, s.getDb json "current" = .ok n → Settled n ∧ SqliteSchema n ∧
      ∀ old, LatestSchema json s old → Addable env p old n ∧ Addable env p n old := by
    intro n hn
    rw [hnew] at hn
    cases hn
    exact ⟨hset, hsch, hadd⟩
  have hlife : SqliteLife json env kw res p s' db := .make h hget hback hfresh hcur hrec hcond hmake
  obtain ⟨made, k, hi⟩ := life_inv hk hf laws codecs h
  have hend : ∀ made', HasMigrations json s' made' → (∀ e ∈ made', ValidSchema e.2) →
      HasSchema env (before made') db'.user := by
    intro made' hm hv
    obtain ⟨a, l, b', g1, -, -, -, -, -, g7, g8⟩ := sqlite_migrate_partial hk hf laws codecs hlife hm hv hc hr
    obtain rfl := g8 rfl
    rw [List.append_nil] at g1
    exact g1 ▸ g7
  cases b with
  | true =>
    obtain ⟨new', old, backends, g1, g2, -⟩ := cli_make hget (life_reach h) hi.has hfresh hcur
      (fun n hn => (hcond n hn).1) hmake
    rw [hnew] at g1
    cases g1
    have := hend _ g2 (by
      intro e he
      rcases List.mem_append.1 he with he | he
      · exact (hi.schemas e he).valid
      · rw [List.mem_singleton.1 he]
        exact hsch.valid)
    simpa [before] using this
  | false =>
    obtain ⟨g1, -, -, g4⟩ := cli_make_not (life_reach h) hi.has hmake (fun h => by cases h)
    obtain rfl := g4 rfl
    have hb := (before_valid hi.schemas).valid
    refine hasSchema_same hb hsch.valid ?_ (hend made hi.has fun e he => (hi.schemas e he).valid)
    obtain ⟨old, h1, h2, hsame⟩ := fs_before (json := json) hi.fs
    refine sameSchema_trans hb h2.valid hsch.valid (sameSchema_symm h2.valid hb hsame) ?_
    refine same_of_diff_nil _ _ h2.valid hsch.valid ?_
    rcases make_cases hi.fs hmake with ⟨⟨_, q⟩, -⟩ | ⟨-, bs, toDb, r1, -, q1, q2, q3⟩
    · cases q
    rw [hnew] at q1
    cases q1
    rcases q3 with ⟨_, _, q3⟩ | ⟨_, rfl, q3⟩
    · cases q3
    cases q3
    rcases create_cases q2 with ⟨_, e, _, he⟩ | ⟨old', h0, ⟨_, _, hd⟩ | ⟨hd, hrest⟩⟩
    · rw [h1] at he; cases he
    · rw [h1] at h0
      cases h0
      exact hd
    · obtain ⟨r1, p1, _, ⟨e, _, he, _⟩ | ⟨_, r2, p2, _, ⟨e, _, he, _⟩ | ⟨_, r3, p3, _, ⟨e, _, he, _⟩ |
        ⟨_, r4, _, ⟨e, _, he⟩ | ⟨_, he⟩⟩⟩⟩⟩ := hrest <;> cases he

/-! ### A project -/

/-- The code has one table. -/
def exSqCode (t : ATable) (s : FsMigrations) : FsMigrations :=
  s.write "current" fun _ => ⟨none, [(t.name, t)], none, []⟩
def exSqGet (n : String) : Option MigBackend := if n = "sqlite" then some (sqliteBackend exDdlKw exPrinters) else none

theorem exSqGet_name : Finds exSqGet := by
  intro n b h
  unfold exSqGet at h
  split at h
  · cases h
    rename_i h
    exact h.symm
  · cases h
theorem exSqGet_back (b : MigBackend) (h : exSqGet b.name = some b) : b = sqliteBackend exDdlKw exPrinters := by
  unfold exSqGet at h
  split at h
  · cases h
    rfl
  · cases h

/-- Posts, then posts with a number of views, then with a unique address. -/
def exPost1 : ATable := ⟨"Post", [exKeyCol, exCol "title" .text false]⟩
def exPost2 : ATable := ⟨"Post", [exKeyCol, exCol "title" .text false, exCol "views" .bigInt false]⟩
def exPost3 : ATable := ⟨"Post", [exKeyCol, exCol "title" .text false, { exCol "url" .text true with unique := true }]⟩
def exSqM1 : String × FsDir :=
  ("m1", ⟨some ⟨none, [], ["sqlite"]⟩, [("Post", exPost1)], none, [("sqlite_down", "DROP TABLE Post;\n"),
    ("sqlite_up", "CREATE TABLE Post (\nid INTEGER NOT NULL PRIMARY KEY,\ntitle TEXT NOT NULL\n) STRICT;\nCREATE TABLE IF NOT EXISTS butane_migrations (\nname TEXT NOT NULL PRIMARY KEY\n) STRICT;\n")]⟩)
def exSqNow (t : ATable) : String × FsDir := ("current", ⟨none, [(t.name, t)], none, []⟩)
def exSq1 : FsMigrations := ⟨[exSqNow exPost1, exSqM1], some "m1"⟩
def exSq2 : FsMigrations :=
  ⟨[exSqNow exPost2, exSqM1, ("m2", ⟨some ⟨some "m1", [], ["sqlite"]⟩, [("Post", exPost2)], none,
    [("sqlite_down", "ALTER TABLE Post DROP COLUMN views;\n"),
     ("sqlite_up", "ALTER TABLE Post ADD COLUMN views INTEGER NOT NULL DEFAULT 0;\n")]⟩)], some "m2"⟩
def exSq3 : FsMigrations :=
  ⟨[exSqNow exPost3, exSqM1, ("m2", ⟨some ⟨some "m1", [], ["sqlite"]⟩, [("Post", exPost3)], none,
    [("sqlite_down", "ALTER TABLE Post DROP COLUMN url;\n"),
     ("sqlite_up", "ALTER TABLE Post ADD COLUMN url TEXT UNIQUE DEFAULT NULL;\n")]⟩)], some "m2"⟩

set_option maxRecDepth 20000 in
theorem exSqMake1 : Cli.makeMigration false exSqGet (some (some (sqliteBackend exDdlKw exPrinters))) "m1"
    (exSqCode exPost1 ⟨[], none⟩) = (.ok true, exSq1) := rfl
set_option maxRecDepth 20000 in
theorem exSqMake2 : Cli.makeMigration false exSqGet none "m2" (exSqCode exPost2 exSq1) = (.ok true, exSq2) := rfl
set_option maxRecDepth 20000 in
theorem exSqMake3 : Cli.makeMigration false exSqGet none "m2" (exSqCode exPost3 exSq1) = (.ok true, exSq3) := rfl

def exSqDb (t : ATable) : ADB := ⟨[(t.name, t)], []⟩

theorem exPost_settled {t : ATable} (h : t = exPost1 ∨ t = exPost2 ∨ t = exPost3) : Settled (exSqDb t) := by
  constructor
  · rcases h with rfl | rfl | rfl <;> exact validSchema_of (by decide)
  · intro e he
    rw [List.mem_singleton.1 he]
    exact .inl ⟨exKeyCol, by rcases h with rfl | rfl | rfl <;> simp [exPost1, exPost2, exPost3], rfl⟩
  · intro e he c hc
    rw [List.mem_singleton.1 he] at hc
    rcases h with rfl | rfl | rfl <;> simp only [exPost1, exPost2, exPost3, List.mem_cons, List.not_mem_nil, or_false] at hc
    · rcases hc with rfl | rfl <;> exact ⟨_, rfl⟩
    · rcases hc with rfl | rfl | rfl <;> exact ⟨_, rfl⟩
    · rcases hc with rfl | rfl | rfl <;> exact ⟨_, rfl⟩
  · intro e he c hc d hd
    rw [List.mem_singleton.1 he] at hc
    rcases h with rfl | rfl | rfl <;> simp only [exPost1, exPost2, exPost3, List.mem_cons, List.not_mem_nil, or_false] at hc
    · rcases hc with rfl | rfl <;> cases hd
    · rcases hc with rfl | rfl | rfl <;> cases hd
    · rcases hc with rfl | rfl | rfl <;> cases hd

theorem exPost_table {t x : ATable} {n : String} (ht : t.name = "Post") (h : (exSqDb t).getTable n = some x) :
    n = "Post" ∧ x = t := by
  have := SMap.mem_of_lookup (show (exSqDb t).tables.lookup n = some x from h)
  simp only [exSqDb, List.mem_singleton, Prod.mk.injEq] at this
  exact ⟨this.1.trans ht, this.2⟩

theorem exPost_schema {t : ATable} (h : t = exPost1 ∨ t = exPost2 ∨ t = exPost3) : SqliteSchema (exSqDb t) := by
  refine ⟨(exPost_settled h).valid, ?_, ?_, ?_⟩
  · rcases h with rfl | rfl | rfl <;> exact plainSchema_of (by decide)
  · rcases h with rfl | rfl | rfl <;> decide
  · intro n x hx c hc k hr
    obtain ⟨-, rfl⟩ := exPost_table (by rcases h with rfl | rfl | rfl <;> rfl) hx
    rcases h with rfl | rfl | rfl <;> simp only [exPost1, exPost2, exPost3, List.mem_cons, List.not_mem_nil, or_false] at hc
    · rcases hc with rfl | rfl <;> cases hr
    · rcases hc with rfl | rfl | rfl <;> cases hr
    · rcases hc with rfl | rfl | rfl <;> cases hr

theorem exPost_addable {t : ATable} (h : t = exPost2 ∨ t = exPost3) :
    Addable exStore exPrinters (exSqDb exPost1) (exSqDb t) ∧ Addable exStore exPrinters (exSqDb t) (exSqDb exPost1) := by
  constructor
  · intro n s u c y hs hu hc hy
    obtain ⟨-, rfl⟩ := exPost_table rfl hs
    obtain ⟨-, rfl⟩ := exPost_table (by rcases h with rfl | rfl <;> rfl) hu
    obtain ⟨hm, rfl⟩ := colByName_some hy
    rcases h with rfl | rfl <;> simp only [exPost2, exPost3, List.mem_cons, List.not_mem_nil, or_false] at hm
    · rcases hm with rfl | rfl | rfl
      · cases hc
      · cases hc
      · refine ⟨rfl, fun v st hv hst => ?_⟩
        obtain ⟨ty, h1, h2⟩ := hst
        cases h1
        cases h2
        cases hv <;> first | rfl | (rename_i h; cases h) | skip
        all_goals (rename_i h1 h2; first | cases h1 | cases h2)
    · rcases hm with rfl | rfl | rfl
      · cases hc
      · cases hc
      · refine ⟨rfl, fun v st hv hst => ?_⟩
        cases hv <;> first | trivial | (rename_i h; cases h) | skip
        all_goals (rename_i h1 h2; first | cases h1 | cases h2)
  · intro n s u c y hs hu hc hy
    obtain ⟨-, rfl⟩ := exPost_table (by rcases h with rfl | rfl <;> rfl) hs
    obtain ⟨-, rfl⟩ := exPost_table rfl hu
    obtain ⟨hm, rfl⟩ := colByName_some hy
    simp only [exPost1, List.mem_cons, List.not_mem_nil, or_false] at hm
    rcases h with rfl | rfl <;> rcases hm with rfl | rfl <;> cases hc

/-- The histories here. -/
abbrev ExLife : FsMigrations → MigDb SDb → Prop := SqliteLife false exStore exDdlKw exDdlRes exPrinters

theorem exSqCode_life {s : FsMigrations} {db : MigDb SDb} (t : ATable) (h : ExLife s db) : ExLife (exSqCode t s) db := by
  refine .build h rfl fun n hn => ?_
  unfold exSqCode
  rw [FsMigrations.lookup_write, if_neg hn]

theorem exSq1_life : ExLife exSq1 ⟨[], none⟩ := by
  refine .make (exSqCode_life exPost1 .empty) exSqGet_name ?_ rfl (by decide) ?_ ?_ exSqMake1
  · rintro b (hb | hb) -
    · exact exSqGet_back b hb
    · cases hb
      rfl
  · rintro ⟨names, hn, -⟩
    cases hn
  · intro new hn
    cases (show FsMigrations.getDb false (exSqCode exPost1 ⟨[], none⟩) "current" = .ok (exSqDb exPost1) from rfl).symm.trans hn
    refine ⟨exPost_settled (.inl rfl), exPost_schema (.inl rfl), ?_⟩
    intro old ho
    cases (show old = ADB.new from ho)
    constructor
    · intro n s t c y hs
      cases hs
    · intro n s t c y _ ht
      cases ht

theorem exSq1_code {t : ATable} (h : t = exPost2 ∨ t = exPost3) :
    (exSqCode t exSq1).getDb false "current" = .ok (exSqDb t) := by
  rcases h with rfl | rfl <;> rfl

theorem exSq2_life {db : MigDb SDb} (h : ExLife exSq1 db) (hn : ¬ Recorded db "m2") : ExLife exSq2 db := by
  refine .make (exSqCode_life exPost2 h) exSqGet_name ?_ rfl (by decide) hn ?_ exSqMake2
  · rintro b (hb | hb) -
    · exact exSqGet_back b hb
    · cases hb
  · intro new hn
    cases (exSq1_code (.inl rfl)).symm.trans hn
    refine ⟨exPost_settled (.inr (.inl rfl)), exPost_schema (.inr (.inl rfl)), fun old ho => ?_⟩
    cases (show Except.ok (exSqDb exPost1) = (.ok old : Except MErr ADB) from ho)
    exact exPost_addable (.inl rfl)

theorem exSq3_life : ExLife exSq3 ⟨[], none⟩ := by
  refine .make (exSqCode_life exPost3 exSq1_life) exSqGet_name ?_ rfl (by decide) ?_ ?_ exSqMake3
  · rintro b (hb | hb) -
    · exact exSqGet_back b hb
    · cases hb
  · rintro ⟨names, hn, -⟩
    cases hn
  · intro new hn
    cases (exSq1_code (.inr rfl)).symm.trans hn
    refine ⟨exPost_settled (.inr (.inr rfl)), exPost_schema (.inr (.inr rfl)), fun old ho => ?_⟩
    cases (show Except.ok (exSqDb exPost1) = (.ok old : Except MErr ADB) from ho)
    exact exPost_addable (.inr rfl)

theorem exSq_has {s : FsMigrations} {t : ATable} (h : s = exSq2 ∧ t = exPost2 ∨ s = exSq3 ∧ t = exPost3) :
    HasMigrations false s [("m1", exSqDb exPost1), ("m2", exSqDb t)] := by
  refine ⟨["m1", "m2"], ⟨?_, ?_, ?_⟩, ?_, ?_⟩
  · rcases h with ⟨rfl, rfl⟩ | ⟨rfl, rfl⟩ <;> rfl
  · rintro p m ⟨a, b, hab⟩
    match a, hab with
    | [], hab => cases hab; exact ⟨"m1", by rcases h with ⟨rfl, rfl⟩ | ⟨rfl, rfl⟩ <;> exact ⟨rfl, rfl⟩⟩
    | [_], hab => simp at hab
    | _ :: _ :: _, hab => simp at hab
  · intro m hm
    cases hm
    exact .inl (by rcases h with ⟨rfl, rfl⟩ | ⟨rfl, rfl⟩ <;> rfl)
  · intro m hm
    cases hm
    rcases h with ⟨rfl, rfl⟩ | ⟨rfl, rfl⟩ <;> rfl
  · exact .cons ⟨rfl, _, by rcases h with ⟨rfl, rfl⟩ | ⟨rfl, rfl⟩ <;> rfl, sameSchema_refl _⟩
      (.cons ⟨rfl, _, by rcases h with ⟨rfl, rfl⟩ | ⟨rfl, rfl⟩ <;> rfl, sameSchema_refl _⟩ .nil)

theorem exSq_valid {t : ATable} (h : t = exPost2 ∨ t = exPost3) :
    ∀ e ∈ [("m1", exSqDb exPost1), ("m2", exSqDb t)], ValidSchema e.2 := by
  intro e he
  simp only [List.mem_cons, List.not_mem_nil, or_false] at he
  rcases he with rfl | rfl
  · exact (exPost_settled (.inl rfl)).valid
  · exact (exPost_settled (.inr h)).valid

def exSqConn : MigConn SDb := ⟨sqliteExec exStore exDdlRes, fun _ => .ok⟩

theorem exPost_feasible (u : SDb) : Feasible (exSqDb exPost1) (exSqDb exPost2) u := by
  constructor
  · intro n t h1 h2
    obtain ⟨rfl, rfl⟩ := exPost_table rfl h2
    cases h1
  · intro n t h1 h2
    obtain ⟨rfl, rfl⟩ := exPost_table rfl h1
    cases h2
  · intro n s t c y hs ht hc hy
    obtain ⟨-, rfl⟩ := exPost_table rfl hs
    obtain ⟨-, rfl⟩ := exPost_table rfl ht
    obtain ⟨hm, rfl⟩ := colByName_some hy
    simp only [exPost2, List.mem_cons, List.not_mem_nil, or_false] at hm
    rcases hm with rfl | rfl | rfl
    · cases hc
    · cases hc
    · refine ⟨rfl, rfl, fun _ hv => ?_⟩
      cases hv with
      | default h => cases h
      | null _ h => cases h
  · intro n s t c x hs ht hx hc
    obtain ⟨-, rfl⟩ := exPost_table rfl hs
    obtain ⟨-, rfl⟩ := exPost_table rfl ht
    obtain ⟨hm, rfl⟩ := colByName_some hx
    simp only [exPost1, List.mem_cons, List.not_mem_nil, or_false] at hm
    rcases hm with rfl | rfl <;> cases hc
  · intro n s t c x y hs ht hx hy
    obtain ⟨-, rfl⟩ := exPost_table rfl hs
    obtain ⟨-, rfl⟩ := exPost_table rfl ht
    obtain ⟨hm, rfl⟩ := colByName_some hx
    simp only [exPost1, List.mem_cons, List.not_mem_nil, or_false] at hm
    left
    rcases hm with rfl | rfl <;> cases hy <;> exact ⟨SameColumn.refl _, fun r hr => by cases hr⟩

theorem exPost_first (u : SDb) : Feasible ADB.new (exSqDb exPost1) u := by
  constructor
  · intro n t _ h2
    obtain ⟨rfl, rfl⟩ := exPost_table rfl h2
    refine ⟨by simp [exPost1], fun c hc d hd h1 h2 => ?_⟩
    simp only [exPost1, List.mem_cons, List.not_mem_nil, or_false] at hc hd
    rcases hc with rfl | rfl <;> rcases hd with rfl | rfl <;> first | rfl | exact absurd h1 (by decide) | exact absurd h2 (by decide)
  all_goals (intros; contradiction)

/-- Both migrations are applied to a new database, and to one that has the first and rows. -/
theorem exSq2_migrates {db : MigDb SDb} (h : ExLife exSq2 db) :
    ∃ db', (exSq2.toMigs "sqlite").migrate (Cli.rounds exSq2) exSqConn db = (.ok (), db') ∧
      (∀ e ∈ [("m1", exSqDb exPost1), ("m2", exSqDb exPost2)], Recorded db' e.1) ∧
      HasSchema exStore (exSqDb exPost2) db'.user :=
  sqlite_migrate_succeeds_partial exDdl_covers exDdl_free exStore_laws exCodecs h (exSq_has (.inl ⟨rfl, rfl⟩))
    (exSq_valid (.inl rfl)) (c := exSqConn) rfl (fun a e b hab _ => by
      match a, hab with
      | [], hab => cases hab; exact ⟨(fun h => by cases h), fun u _ _ => exPost_first u⟩
      | [_], hab => cases hab; exact ⟨(fun h => by cases h), fun u _ _ => exPost_feasible u⟩
      | [_, _], hab => simp at hab
      | _ :: _ :: _ :: _, hab => simp at hab)

/-- A database with the first migration and a row. -/
def exSqRows : MigDb SDb := ⟨withRows (exSqDb exPost1) fun _ => [[.integer 1, .text "a"]], some ["m1"]⟩
def exSqNone : MigDb SDb := ⟨withRows (exSqDb exPost1) fun _ => [], some ["m1"]⟩

set_option maxRecDepth 20000 in
theorem exSqMigrate1 : (exSq1.toMigs "sqlite").migrate (Cli.rounds exSq1) exSqConn ⟨[], none⟩ = (.ok (), exSqNone) := rfl

theorem exSqRows_life : ExLife exSq1 exSqRows := by
  have h : ExLife exSq1 exSqNone := .migrate exSq1_life (c := exSqConn) rfl exSqMigrate1
  refine .write (db := exSqNone) (u := exSqRows.user) h fun adb ha => ?_
  refine ⟨fun n => ?_, withRows_proper (exPost_settled (.inl rfl)).valid (env := exStore)
    (rows := fun _ => [[.integer 1, .text "a"]]) (by decide), fun e he => ?_⟩
  case refine_2 =>
    rcases List.mem_singleton.1 he with rfl
    exact ⟨by decide, by decide, by decide⟩
  have := ha.tables n
  unfold exSqNone at this
  unfold exSqRows
  dsimp only at this ⊢
  rw [lookup_withRows] at this ⊢
  cases h1 : (exSqDb exPost1).getTable n <;> cases h2 : adb.getTable n <;> simp only [h1, h2, Option.map] at this ⊢
  · exact this
  · exact this
  · exact this
  · exact ⟨this.1, this.2⟩

theorem exSqRows_life2 : ExLife exSq2 exSqRows := exSq2_life exSqRows_life (by
  rintro ⟨names, hn, hm⟩
  cases hn
  simp at hm)

/-- And with the second migration. -/
def exSqAfter : MigDb SDb :=
  ⟨[("Post", ⟨[⟨"id", ["INTEGER"], [.notNull, .primaryKey]⟩, ⟨"title", ["TEXT"], [.notNull]⟩,
    ⟨"views", ["INTEGER"], [.notNull, .default (.num false ['0'])]⟩], [], [[.integer 1, .text "a", .integer 0]]⟩)],
    some ["m1", "m2"]⟩
set_option maxRecDepth 20000 in
theorem exSqMigrate2 : (exSq2.toMigs "sqlite").migrate (Cli.rounds exSq2) exSqConn exSqRows = (.ok (), exSqAfter) := rfl
set_option maxRecDepth 20000 in
theorem exSqUnmigrate2 : (exSq2.toMigs "sqlite").unmigrate (Cli.rounds exSq2) exSqConn exSqRows =
    (.ok (), ⟨[], some []⟩) := rfl

set_option maxRecDepth 20000 in
/-- The tool, stopping at the first migration. -/
theorem exSqTool : Cli.migrate (exSq2.toMigs "sqlite") (Cli.rounds exSq2) exSqConn (some "m1") ⟨[], none⟩ =
    (.ok (), exSqNone) := rfl
example : HasSchema exStore (exSqDb exPost1) exSqNone.user ∧ ¬ Recorded exSqNone "m2" := by
  have hlife := exSq2_life exSq1_life (by rintro ⟨names, hn, -⟩; cases hn)
  obtain ⟨a, l, b, g1, g2, -, g4, -, -, g7, g8⟩ := sqlite_tool_migrate_partial exDdl_covers exDdl_free exStore_laws
    exCodecs hlife (exSq_has (.inl ⟨rfl, rfl⟩)) (exSq_valid (.inl rfl)) (c := exSqConn) rfl exSqTool
  have hm2 : ¬ Recorded exSqNone "m2" := by
    rintro ⟨names, hn, hm⟩
    cases hn
    simp at hm
  refine ⟨?_, hm2⟩
  obtain rfl : a = [] := by
    cases a with
    | nil => rfl
    | cons e a =>
      obtain ⟨_, hn, -⟩ := g2 e (List.mem_cons_self ..)
      cases hn
  match l, g1 with
  | [], h1 =>
    rcases g8 rfl with rfl | ⟨e, he, -⟩
    · simp at h1
    · cases he
  | [x], g1 =>
    obtain rfl := (List.cons.inj g1).1
    exact g7
  | [x, y], g1 =>
    simp only [List.nil_append, List.cons_append, List.cons.injEq] at g1
    obtain ⟨rfl, rfl, -⟩ := g1
    exact absurd (g4 ("m2", exSqDb exPost2) (by simp)) hm2
  | _ :: _ :: _ :: _, g1 => simp at g1

/-- A new database, and one with rows. -/
example : ∃ db', (exSq2.toMigs "sqlite").migrate (Cli.rounds exSq2) exSqConn ⟨[], none⟩ = (.ok (), db') ∧
    HasSchema exStore (exSqDb exPost2) db'.user := by
  obtain ⟨db', h1, -, h3⟩ := exSq2_migrates (exSq2_life exSq1_life (by rintro ⟨names, hn, -⟩; cases hn))
  exact ⟨db', h1, h3⟩
example : ∃ db' s', (exSq2.toMigs "sqlite").migrate (Cli.rounds exSq2) exSqConn exSqRows = (.ok (), db') ∧
    db'.user.lookup "Post" = some s' ∧ ∃ r, s'.rows = [r] ∧ field s'.cols r "id" = some (.integer 1) ∧
      field s'.cols r "title" = some (.text "a") ∧ field s'.cols r "views" = some (.integer 0) ∧
      HasSchema exStore (exSqDb exPost2) db'.user ∧ Recorded db' "m2" := by
  obtain ⟨db', h1, h2, h3⟩ := exSq2_migrates exSqRows_life2
  rw [exSqMigrate2] at h1
  obtain rfl := (Prod.mk.inj h1).2
  exact ⟨_, _, exSqMigrate2, rfl, _, rfl, rfl, rfl, rfl, h3, h2 ("m2", exSqDb exPost2) (by simp)⟩
example : ∃ db', (exSq2.toMigs "sqlite").migrate (Cli.rounds exSq2) exSqConn exSqRows = (.ok (), db') ∧
    RowsThrough exStore exCodecs [exSqDb exPost1, exSqDb exPost2] exSqRows.user db'.user := by
  obtain ⟨db', h1, -⟩ := exSq2_migrates exSqRows_life2
  refine ⟨db', h1, ?_⟩
  obtain ⟨a, l, b, g1, g2, g3, -, -, g6, -, g8⟩ := sqlite_migrate_partial exDdl_covers exDdl_free exStore_laws exCodecs
    exSqRows_life2 (exSq_has (.inl ⟨rfl, rfl⟩)) (exSq_valid (.inl rfl)) (c := exSqConn) rfl h1
  obtain rfl := g8 rfl
  rw [List.append_nil] at g1
  have m1 : Recorded exSqRows "m1" := ⟨["m1"], rfl, by simp⟩
  have m2 : ¬ Recorded exSqRows "m2" := by
    rintro ⟨names, hn, hm⟩
    cases hn
    simp at hm
  match a, l, g1 with
  | [], _, g1 => cases g1; exact absurd m1 (g3 ("m1", exSqDb exPost1) (by simp))
  | [_], _, g1 => cases g1; exact g6
  | _ :: x :: _, _, g1 =>
    simp only [List.cons_append, List.cons.injEq] at g1
    exact absurd (g2 x (by simp)) (g1.2.1 ▸ m2)
example : ∃ db', (exSq2.toMigs "sqlite").unmigrate (Cli.rounds exSq2) exSqConn exSqRows = (.ok (), db') ∧ db'.user = [] := by
  refine ⟨_, exSqUnmigrate2, ?_⟩
  exact (sqlite_unmigrate_partial exDdl_covers exDdl_free exStore_laws exCodecs exSqRows_life2 (exSq_has (.inl ⟨rfl, rfl⟩))
    (c := exSqConn) rfl exSqUnmigrate2).1
example : ∃ a b, [("m1", exSqDb exPost1), ("m2", exSqDb exPost2)] = a ++ b ∧ (∀ e ∈ a, Recorded exSqRows e.1) ∧
    (∀ e ∈ b, ¬ Recorded exSqRows e.1) ∧ HasSchema exStore (before a) exSqRows.user :=
  sqlite_life_partial exDdl_covers exDdl_free exStore_laws exCodecs exSqRows_life2 (exSq_has (.inl ⟨rfl, rfl⟩))
    (exSq_valid (.inl rfl))
example : ∃ made, HasMigrations false exSq3 made ∧ ∀ e ∈ made, SqliteSchema e.2 :=
  sqlite_made_partial exDdl_covers exDdl_free exStore_laws exCodecs exSq3_life

/-- The code changes, a migration is made, and it is applied. -/
example : ∃ s' db', Cli.makeMigration false exSqGet none "m2" (exSqCode exPost2 exSq1) = (.ok true, s') ∧
    (s'.toMigs "sqlite").migrate (Cli.rounds s') exSqConn exSqRows = (.ok (), db') ∧
    HasSchema exStore (exSqDb exPost2) db'.user := by
  obtain ⟨db', h1, -⟩ := exSq2_migrates exSqRows_life2
  refine ⟨exSq2, db', exSqMake2, h1, ?_⟩
  refine sqlite_make_migrate_partial exDdl_covers exDdl_free exStore_laws exCodecs (exSqCode_life exPost2 exSqRows_life)
    exSqGet_name ?_ rfl (by decide) ?_ (exSq1_code (.inl rfl)) (exPost_settled (.inr (.inl rfl)))
    (exPost_schema (.inr (.inl rfl))) ?_ exSqMake2 (c := exSqConn) rfl h1
  · rintro b (hb | hb) -
    · exact exSqGet_back b hb
    · cases hb
  · rintro ⟨names, hn, hm⟩
    cases hn
    simp at hm
  · intro old ho
    cases (show Except.ok (exSqDb exPost1) = (.ok old : Except MErr ADB) from ho)
    exact exPost_addable (.inl rfl)

/-- The tool can make the migration for the new column. -/
example : ∃ s', Cli.makeMigration false exSqGet none "m2" (exSqCode exPost2 exSq1) = (.ok true, s') := by
  refine sqlite_make_succeeds_partial exDdl_covers exDdl_free exStore_laws exCodecs
    (exSqCode_life exPost2 exSqRows_life) (made := [("m1", exSqDb exPost1)])
    ⟨["m1"], ⟨rfl, ?_, ?_⟩, ?_, .cons ⟨rfl, _, rfl, sameSchema_refl _⟩ .nil⟩ ?_ rfl (.inr ⟨by simp, rfl⟩)
    (exSq1_code (.inl rfl)) (exPost_settled (.inr (.inl rfl))) (exPost_schema (.inr (.inl rfl))) ?_ ?_
  · rintro p m ⟨a, b, hab⟩
    match a, hab with
    | [], hab => simp at hab
    | _ :: _, hab => simp at hab
  · intro m hm
    cases hm
    exact .inl rfl
  · intro m hm
    cases hm
    rfl
  · intro e he
    rw [List.mem_singleton] at he
    subst he
    exact (exPost_settled (.inl rfl)).valid
  · intro old ho
    cases (show Except.ok (exSqDb exPost1) = (.ok old : Except MErr ADB) from ho)
    exact exPost_addable (.inl rfl)
  · intro h
    obtain ⟨-, cols, hp, hm⟩ := h "Post"
    have hl := hp.length_eq
    rw [hm.length_eq] at hl
    cases hl

set_option maxRecDepth 20000 in
theorem exSqExec1 : sqliteExec exStore exDdlRes "CREATE TABLE Post (\nid INTEGER NOT NULL PRIMARY KEY,\ntitle TEXT NOT NULL\n) STRICT;\nCREATE TABLE IF NOT EXISTS butane_migrations (\nname TEXT NOT NULL PRIMARY KEY\n) STRICT;\n"
    ⟨[], none⟩ = .ok ⟨withRows (exSqDb exPost1) fun _ => [], some []⟩ := rfl
set_option maxRecDepth 20000 in
theorem exSqExec3 : sqliteExec exStore exDdlRes "ALTER TABLE Post ADD COLUMN url TEXT UNIQUE DEFAULT NULL;\n" exSqNone =
    .error .db := rfl

/-- **C77 fails if success is asked for**: the tool makes a migration (for a new unique column)
that no database can take, so that a new database cannot be migrated, on any connection. -/
theorem sqlite_migrate_stuck_violated : ∃ (s : FsMigrations) (made : List (String × ADB)),
    ExLife s ⟨[], none⟩ ∧ HasMigrations false s made ∧ (∀ e ∈ made, ∃ sql, (s.toMigs "sqlite").up e.1 = .ok (some sql)) ∧
    ∀ c : MigConn SDb, c.exec = sqliteExec exStore exDdlRes → ∀ db',
      (s.toMigs "sqlite").migrate (Cli.rounds s) c ⟨[], none⟩ ≠ (.ok (), db') := by
  refine ⟨exSq3, _, exSq3_life, exSq_has (.inr ⟨rfl, rfl⟩), ?_, ?_⟩
  · intro e he
    simp only [List.mem_cons, List.not_mem_nil, or_false] at he
    rcases he with rfl | rfl <;> exact ⟨_, rfl⟩
  · intro c hc db' hr
    obtain ⟨made, k, hi⟩ := life_inv exDdl_covers exDdl_free exStore_laws exCodecs exSq3_life
    have hi := hi.change (exSq_has (.inr ⟨rfl, rfl⟩)) (exSq_valid (.inr rfl))
    have hnot : ∀ n, ¬ Recorded (⟨[], none⟩ : MigDb SDb) n := by
      rintro n ⟨names, hn, -⟩
      cases hn
    obtain ⟨a, b, hab, happ, hok⟩ := migrate_cases (fs_keyed "sqlite" exSq3) (hi.fs.path "sqlite").1
      (by rw [List.length_map]; exact hi.fs.lt_rounds) (pre := []) rfl (fun m _ => hnot _) (by simp) hr
    obtain rfl := hok rfl
    rw [List.append_nil] at hab
    subst hab
    cases happ with
    | cons h1 h2 =>
      obtain ⟨sql, db1, names, g1, g2, g3, -, rfl⟩ := h1
      cases g1
      rw [hc] at g2
      obtain rfl := Except.ok.inj (exSqExec1.symm.trans g2)
      cases g3
      cases h2 with
      | cons h1 h2 =>
        obtain ⟨sql, db1, names, g1, g2, -⟩ := h1
        cases g1
        rw [hc] at g2
        cases exSqExec3.symm.trans g2

end Butane.Props
