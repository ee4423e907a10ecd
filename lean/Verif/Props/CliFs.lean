/-
C51, C52, C61 - C63: the commands of the command line tool that change the files of
migrations.

`Reach json s` (Spec/Cli.lean) says that `s` is a directory of migrations as it can be
met after any use of the tool; `HasMigrations json s made` that `made` are its migrations,
oldest first, with their schemas.  `get` is the function that finds a backend by its name.
-/
import Verif.Proofs.CliFs

namespace Butane.Props
open Butane Spec
variable {U : Type} {json : Bool} {get : String → Option MigBackend}

theorem reach_inv {s : FsMigrations} (h : Reach json s)
    {made : List (String × ADB)} (hm : HasMigrations json s made) : FsInv s made ∧ Tidy s := by
  obtain ⟨made', hi, ht⟩ := h.inv
  exact ⟨hi.inv.of_chain hm, ht⟩

/-- C61: however the tool was used, and whatever failed, there is a chain of migrations with
distinct names, from a first one without predecessor to the latest, and every schema can be
read. -/
theorem cli_history {s : FsMigrations} (h : Reach json s) :
    ∃ made, HasMigrations json s made ∧ (made.map (·.1)).Nodup ∧ ∀ e ∈ made, Settled e.2 := by
  obtain ⟨made, hi, _⟩ := h.inv
  exact ⟨made, hi.inv.asChain "", hi.nodup, fun e he => hi.settled he⟩

/-! ### Detaching -/

/-- C51: detaching makes the predecessor the latest, and keeps the rest of the chain; no file
of a migration is touched.  If it fails, nothing changes. -/
theorem cli_detach {s s' : FsMigrations} (h : Reach json s)
    {made : List (String × ADB)} (hm : HasMigrations json s made) {conn : Option (Except MErr (MigConn U))}
    {db : MigDb U} {r : Except Cli.CliErr Unit} (hd : Cli.detachLatest conn db s = (r, s')) :
    s'.dirs = s.dirs ∧ (r ≠ .ok () → s' = s) ∧
    (r = .ok () → ∃ a x y, made = a ++ [x, y] ∧ HasMigrations json s' (a ++ [x]) ∧ s'.getLatest = some x.1) := by
  obtain ⟨hi, _⟩ := reach_inv h hm
  rcases detach_cases hi hd with ⟨h1, rfl⟩ | ⟨a, x, y, h1, rfl, rfl⟩
  · exact ⟨rfl, fun _ => rfl, fun h => absurd h h1⟩
  · subst h1
    have hi' := fsInv_detach hi
    refine ⟨rfl, fun h => absurd rfl h, fun _ => ⟨a, x, y, rfl, hi'.asChain "", ?_⟩⟩
    rw [hi'.getLatest]
    simp

/-- C51: the only migration is not detached. -/
theorem cli_detach_only {s : FsMigrations} (h : Reach json s)
    {made : List (String × ADB)} (hm : HasMigrations json s made) (hlen : made.length ≤ 1)
    (conn : Option (Except MErr (MigConn U))) (db : MigDb U) :
    Cli.detachLatest conn db s = (.error .exit, s) := by
  obtain ⟨hi, _⟩ := reach_inv h hm
  unfold Cli.detachLatest
  rw [hi.all, hi.getLatest]
  match made, hlen with
  | [], _ => rfl
  | [e], _ => simp

/-- C51: a migration that is applied to the database is not detached, whatever fails. -/
theorem cli_detach_applied {s s' : FsMigrations} (h : Reach json s)
    {a : List (String × ADB)} {e : String × ADB} (hm : HasMigrations json s (a ++ [e])) {c : MigConn U}
    {db : MigDb U} (hr : Recorded db e.1) {r : Except Cli.CliErr Unit}
    (hd : Cli.detachLatest (some (.ok c)) db s = (r, s')) :
    s' = s ∧ ∃ err, r = .error err ∧ ((∀ n, c.outcome n = .ok) → err = .exit) := by
  obtain ⟨hi, _⟩ := reach_inv h hm
  have hrl : ((a ++ [e]).map (·.1)).length < Cli.rounds s := by rw [List.length_map]; exact hi.lt_rounds
  unfold Cli.detachLatest at hd
  rw [hi.all, hi.getLatest] at hd
  cases hh : ((a ++ [e]).map (·.1)).head? with
  | none => simp at hh
  | some i =>
    dsimp only at hd
    rw [hh] at hd
    simp only [List.getLast?_append, List.getLast?_singleton, Option.some_or, Option.map_some] at hd
    split at hd
    · cases hd
      exact ⟨rfl, _, rfl, fun _ => rfl⟩
    · unfold Cli.detachCheck at hd
      dsimp only at hd
      rcases lastApplied_ok (hi.path "").1 (pre := (a ++ [e]).map (·.1)) (todo := []) (by simp) (by simp)
        (.inr ⟨e.1, a.map (·.1), by simp, hr⟩) hrl c (db := db) with h1 | ⟨h1, n, hn⟩
      · change (Cli.chain s).lastApplied _ c db = _ at h1
        rw [h1] at hd
        simp at hd
        exact ⟨hd.2.symm, _, hd.1.symm, fun _ => rfl⟩
      · change (Cli.chain s).lastApplied _ c db = _ at h1
        rw [h1] at hd
        cases hd
        exact ⟨rfl, _, rfl, fun hok => absurd (hok n) hn⟩

/-- C51: the latest of several migrations is detached when it is not applied, or there is
no connection file. -/
theorem cli_detach_succeeds {s : FsMigrations} (h : Reach json s)
    {a : List (String × ADB)} {x y : String × ADB} (hm : HasMigrations json s (a ++ [x, y]))
    (conn : Option (MigConn U)) {db : MigDb U} (hr : conn ≠ none → ¬ Recorded db y.1)
    (hok : ∀ c, conn = some c → ∀ n, c.outcome n = .ok) :
    (Cli.detachLatest (conn.map .ok) db s).1 = .ok () := by
  obtain ⟨hi, _⟩ := reach_inv h hm
  have hrl : ((a ++ [x, y]).map (·.1)).length < Cli.rounds s := by rw [List.length_map]; exact hi.lt_rounds
  have hnd := hi.nodup
  have hall := hi.all
  have hlat := hi.getLatest
  obtain ⟨d, hd, _⟩ := hi.dirs (a ++ [x]) y [] (by simp)
  have hf := hd.from_
  simp only [List.getLast?_append, List.getLast?_singleton, Option.some_or, Option.map_some] at hf
  have hdet : s.detachLatest = (.ok (), { s with latest := some x.1 }) := by
    unfold FsMigrations.detachLatest
    rw [hlat]
    simp [hf]
  have hcheck : Cli.detachCheck (conn.map .ok) db s y.1 = .ok () := by
    cases conn with
    | none => rfl
    | some c =>
      unfold Cli.detachCheck
      simp only [Option.map_some]
      rcases last_split (fun m => Recorded db ((s.toMigs "").name m)) ((a ++ [x, y]).map (·.1)) with h1 | ⟨p, z, q, he, h1, h2⟩
      · rcases lastApplied_ok (hi.path "").1 (pre := []) (todo := (a ++ [x, y]).map (·.1)) rfl h1 (.inl rfl) hrl c
          with h3 | ⟨_, n, hn⟩
        · change (Cli.chain s).lastApplied _ c db = _ at h3
          rw [h3]
          rfl
        · exact absurd (hok c rfl n) hn
      · rcases lastApplied_ok (hi.path "").1 (pre := p ++ [z]) (todo := q) (by rw [he]; simp) h2 (.inr ⟨z, p, rfl, h1⟩)
          hrl c with h3 | ⟨_, n, hn⟩
        · change (Cli.chain s).lastApplied _ c db = _ at h3
          rw [h3]
          simp only [List.getLast?_append, List.getLast?_singleton, Option.some_or]
          rw [if_neg]
          rintro rfl
          exact hr (by simp) h1
        · exact absurd (hok c rfl n) hn
  unfold Cli.detachLatest
  rw [hall, hlat]
  cases hh : ((a ++ [x, y]).map (·.1)).head? with
  | none => simp at hh
  | some i =>
    dsimp only
    rw [hh]
    have hl2 : (a ++ [x, y]).getLast?.map (·.1) = some y.1 := by simp
    rw [hl2]
    dsimp only
    have hne : i ≠ y.1 := by
      rintro rfl
      rw [show a ++ [x, y] = (a ++ [x]) ++ [y] by simp, List.map_append, List.nodup_append] at hnd
      refine hnd.2.2 y.1 ?_ y.1 (by simp) rfl
      cases a with
      | nil => simp at hh; simp [hh]
      | cons p a => simp at hh; simp [hh]
    rw [if_neg hne, hcheck]
    dsimp only
    rw [if_neg (by simp), hdet]

/-! ### Collapsing -/

theorem call_ok {c : MigConn U} {n : Nat} {f : MigDb U → Except MErr (MigDb U)} {db db' : MigDb U}
    (h : Cli.call c n f db = (.ok (), db')) : f db = .ok db' := by
  unfold Cli.call at h
  split at h
  · cases h
  · split at h
    · cases h
    · cases h; assumption
  · split at h <;> cases h

theorem call_user {c : MigConn U} {n : Nat} {f : MigDb U → Except MErr (MigDb U)}
    (hf : ∀ db db', f db = .ok db' → db'.user = db.user) {db db' : MigDb U} {r : Except MErr Unit}
    (h : Cli.call c n f db = (r, db')) : db'.user = db.user := by
  unfold Cli.call at h
  split at h
  · cases h; rfl
  · split at h
    · cases h; rfl
    · cases h; exact hf _ _ ‹_›
  · split at h
    · cases h; rfl
    · cases h; exact hf _ _ ‹_›

theorem clearRecords_user (db db' : MigDb U) (h : Cli.clearRecords db = .ok db') : db'.user = db.user := by
  unfold Cli.clearRecords at h
  split at h
  · cases h
  · cases h; rfl

theorem markApplied_user (n : String) (db db' : MigDb U) (h : markApplied n db = .ok db') : db'.user = db.user := by
  unfold markApplied at h
  split at h
  · cases h
  · split at h
    · cases h
    · cases h; rfl

/-- C52: a collapse that ends well leaves one migration, from the empty schema to the schema
of the last applied one, with the SQL that the backends of the latest migration generate for
this; it is the only one that is recorded as applied; the rest of the database is untouched.
Partial: see `cli_collapse_unapplied_violated`. -/
theorem cli_collapse_partial (hget : Finds get) {s s' : FsMigrations} (h : Reach json s)
    {made : List (String × ADB)} (hm : HasMigrations json s made) {name : String} (hname : name ≠ "current")
    {conn : Except Cli.CliErr (MigConn U)} {db db' : MigDb U}
    (hc : Cli.collapse json get conn name db s = (.ok (), db', s')) :
    ∃ a e b d backends, made = a ++ e :: b ∧ Recorded db e.1 ∧ (∀ x ∈ b, ¬ Recorded db x.1) ∧
      SameSchema d e.2 ∧ HasMigrations json s' [(name, d)] ∧
      db'.user = db.user ∧ db'.log = some [name] ∧
      Cli.latestBackends get s = .ok backends ∧
      (∀ bk ∈ backends, SqlFrom s' bk name ADB.new d (changesFrom [] ADB.new d)) ∧
      s'.dirs.lookup "current" = s.dirs.lookup "current" := by
  obtain ⟨hi, ht⟩ := reach_inv h hm
  rcases collapse_cases hi hc with ⟨h1, _⟩ | ⟨x, y, m, backends, c, applied, d, _, hb, rfl, ha, hd, h3⟩
  · exact absurd rfl h1
  obtain ⟨p, q, hpq, hrec, hno⟩ := lastApplied_mem (hi.path "").1 (by
    rw [List.length_map]; exact hi.lt_rounds) ha
  rw [List.map_eq_append_iff] at hpq
  obtain ⟨a, r, rfl, rfl, hr⟩ := hpq
  rw [List.map_eq_cons_iff] at hr
  obtain ⟨e, b, rfl, rfl, rfl⟩ := hr
  obtain ⟨d', hd', hsame⟩ := hi.dirs a e b rfl
  rw [dirOk_getDb hd'] at hd
  cases hd
  have hfresh : s.deleteMigrations.dirs.lookup name = none := by
    rw [lookup_deleteMigrations, if_neg hname]
  have hnd := latestBackends_nodup hget hi ht hb
  rcases h3 with ⟨_, h4, _⟩ | ⟨db1, r1, h4, hcr, ⟨_, _, h5, _⟩ | ⟨mk, rfl, ⟨_, h5, _⟩ | ⟨n, r2, hl, h5, h6⟩⟩⟩
  · cases h4
  · cases h5
  · cases h5
  · have hr2 : r2 = .ok () := by
      cases r2 with
      | error e => cases h6
      | ok u => rfl
    subst hr2
    have hinv : FsInv s.deleteMigrations [] := fsInv_nil rfl
    cases mk with
    | false =>
      rw [(fs_create_frame hcr).2.2 rfl] at hl
      cases hl
    | true =>
      obtain ⟨old, db2, g0, _, g1, g2, g3, g4, g5⟩ := fs_create_details hnd hinv hfresh hd'.settled hcr
      cases g0
      have hinv' := fs_inv_create hnd hinv ⟨hfresh, hname⟩ hd'.settled hcr
      have hl' := hinv'.getLatest
      rw [hl] at hl'
      simp at hl'
      subst hl'
      have k1 := call_ok h4
      have k2 := call_ok h5
      refine ⟨a, e, b, _, backends, rfl, hrec, ?_, hsame, hinv'.asChain "", ?_, ?_, hb, ?_, ?_⟩
      · intro z hz
        exact hno z.1 (List.mem_map.2 ⟨z, hz, rfl⟩)
      · rw [markApplied_user _ _ _ k2, clearRecords_user _ _ k1]
      · unfold Cli.clearRecords at k1
        split at k1
        · cases k1
        · cases k1
          unfold markApplied at k2
          simp at k2
          subst k2
          rfl
      · intro bk hbk
        obtain ⟨up, down, up', down', ⟨k1, k2⟩, k3, k4, k5, k6, k7⟩ := g3 bk hbk
        exact ⟨up, down, up', down', k1, k2, fileText_of k3, fileText_of k4, congrArg _ k5, congrArg _ k6, by simp [k7]⟩
      · rw [g5 _ (Ne.symm hname), lookup_deleteMigrations, if_pos rfl]

/-- C52: a collapse never touches the tables of the database, except butane's own, and if it
is refused (there are fewer than two migrations, or none is applied) nothing is changed. -/
theorem cli_collapse_refused {s s' : FsMigrations} (h : Reach json s)
    {made : List (String × ADB)} (hm : HasMigrations json s made) {name : String}
    {conn : Except Cli.CliErr (MigConn U)} {db db' : MigDb U} {r : Except Cli.CliErr Unit}
    (hc : Cli.collapse json get conn name db s = (r, db', s')) :
    db'.user = db.user ∧
    (made.length ≤ 1 ∨ (∀ e ∈ made, ¬ Recorded db e.1) → r ≠ .ok () ∧ db' = db ∧ s' = s) := by
  obtain ⟨hi, ht⟩ := reach_inv h hm
  rcases collapse_cases hi hc with h1 | ⟨x, y, m, backends, c, applied, d, rfl, hb, rfl, ha, hd, h3⟩
  · exact ⟨by rw [h1.2.1], fun _ => h1⟩
  · refine ⟨?_, ?_⟩
    · rcases h3 with ⟨_, _, h4, _⟩ | ⟨db1, r1, h4, hcr, ⟨_, _, _, rfl⟩ | ⟨mk, rfl, ⟨_, _, rfl⟩ | ⟨n, r2, hl, h5, h6⟩⟩⟩
      · exact call_user clearRecords_user h4
      · exact call_user clearRecords_user h4
      · exact call_user clearRecords_user h4
      · rw [call_user (markApplied_user n) h5, call_user clearRecords_user h4]
    · rintro (h4 | h4)
      · simp at h4
      · exfalso
        obtain ⟨p, q, hpq, hrec, _⟩ := lastApplied_mem (hi.path "").1 (by
          rw [List.length_map]; exact hi.lt_rounds) ha
        have : applied ∈ (x :: (m ++ [y])).map (·.1) := by rw [hpq]; simp
        obtain ⟨e, he, rfl⟩ := List.mem_map.1 this
        exact h4 e he hrec

theorem fs_create_first (backends : List MigBackend) {s : FsMigrations} (hl : s.latest = none) {name : String}
    (hfresh : s.dirs.lookup name = none) {toDb : ADB} (ht : Settled toDb) (hne : toDb.tables ≠ [])
    (hsql : ∀ b ∈ backends, ∀ db ops, ops ≠ [] → ∃ text, b.sql db ops = .ok text ∧ text ≠ "") :
    ∃ s', createMigrationTo (FsMigrations.ops json) backends name none toDb s = (.ok true, s') := by
  have hi : FsInv s [] := fsInv_nil hl
  have hg : s.getLatest = none := hi.getLatest
  obtain ⟨e, he⟩ := List.exists_mem_of_ne_nil _ hne
  have hlook : toDb.getTable e.1 = some e.2 := SMap.lookup_of_mem ht.valid.sorted he
  have hn : ¬ SameSchema ADB.new toDb := by
    intro h
    have := h e.1
    rw [hlook] at this
    exact this
  have hn' : ¬ SameSchema toDb ADB.new := by
    intro h
    have := h e.1
    rw [hlook] at this
    exact this
  have hd : diff ADB.new toDb ≠ [] := fun hd => hn (same_of_diff_nil _ _ settled_new.valid ht.valid hd)
  have hd' : diff toDb ADB.new ≠ [] := fun hd => hn' (same_of_diff_nil _ _ ht.valid settled_new.valid hd)
  have h1 : readFrom (FsMigrations.ops json) s.getLatest s = .ok ADB.new := by rw [hg]; rfl
  obtain ⟨q, hq, hT⟩ := fs_tables_loop hi hfresh ht h1
  obtain ⟨p2, g2⟩ := fs_sql_loop_ok (json := json) (fromDb := ADB.new) (toDb := toDb)
    (changes := upChanges (M := String) none (diff ADB.new toDb)) (backends := backends)
    (fun b hb => by
      obtain ⟨up, hu, hu'⟩ := hsql b hb ADB.new (upChanges (M := String) none (diff ADB.new toDb)) (by
        unfold upChanges
        simp)
      obtain ⟨down, hd, hd'⟩ := hsql b hb toDb (diff toDb ADB.new) hd'
      exact ⟨up, down, ⟨hu, hd⟩, hu', hd'⟩) q
  rw [hg] at hq
  exact ⟨_, create_true_intro (ops := FsMigrations.ops json) (from_ := none) rfl hd hq g2 rfl rfl⟩

/-- C52: a collapse succeeds if at least two migrations exist, one is applied, the schema of
the last one applied is not empty, and the backends can express it. -/
theorem cli_collapse_succeeds (hget : Finds get) {s : FsMigrations} (h : Reach json s)
    {a b : List (String × ADB)} {e : String × ADB} (hm : HasMigrations json s (a ++ e :: b)) (hab : a ++ b ≠ [])
    {name : String} (hname : name ≠ "current") {backends : List MigBackend}
    (hb : Cli.latestBackends get s = .ok backends)
    (hsql : ∀ b ∈ backends, ∀ db ops, ops ≠ [] → ∃ text, b.sql db ops = .ok text ∧ text ≠ "")
    {c : MigConn U} (hok : ∀ n, c.outcome n = .ok) {db : MigDb U} (hr : Recorded db e.1)
    (hno : ∀ x ∈ b, ¬ Recorded db x.1) (hne : ∃ n, e.2.getTable n ≠ none) :
    ∃ db' s', Cli.collapse json get (.ok c) name db s = (.ok (), db', s') := by
  obtain ⟨hi, ht⟩ := reach_inv h hm
  have hrl : ((a ++ e :: b).map (·.1)).length < Cli.rounds s := by rw [List.length_map]; exact hi.lt_rounds
  obtain ⟨d, hd, hsame⟩ := hi.dirs a e b rfl
  have hla : (Cli.chain s).lastApplied (Cli.rounds s) c db = .ok (some e.1) := by
    rcases lastApplied_ok (hi.path "").1 (pre := a.map (·.1) ++ [e.1]) (todo := b.map (·.1)) (by simp)
      (fun m hm => by
        obtain ⟨x, hx, rfl⟩ := List.mem_map.1 hm
        exact hno x hx) (.inr ⟨e.1, _, rfl, hr⟩) hrl c with h3 | ⟨_, n, hn⟩
    · change (Cli.chain s).lastApplied _ c db = _ at h3
      rw [h3]
      simp
    · exact absurd (hok n) hn
  have hfresh : s.deleteMigrations.dirs.lookup name = none := by
    rw [lookup_deleteMigrations, if_neg hname]
  have hdne : d.tables ≠ [] := by
    intro hd
    obtain ⟨n, hn⟩ := hne
    have := hsame n
    unfold ADB.getTable at this hn
    rw [hd] at this
    cases hl : e.2.tables.lookup n with
    | none => exact hn hl
    | some t =>
      rw [hl] at this
      exact this
  obtain ⟨s', hcr⟩ := fs_create_first (json := json) backends (s := s.deleteMigrations) rfl hfresh hd.settled hdne hsql
  have hnd := latestBackends_nodup hget hi ht hb
  have hinv' := fs_inv_create hnd (fsInv_nil rfl) ⟨hfresh, hname⟩ hd.settled hcr
  have hlat : s'.getLatest = some name := by rw [hinv'.getLatest]; rfl
  obtain ⟨names, hlog, _⟩ := hr
  have hcall : Cli.call c 2 Cli.clearRecords db = (.ok (), { db with log := some [] }) := by
    unfold Cli.call Cli.clearRecords
    rw [hok, hlog]
  have hcall' : Cli.call c 3 (markApplied name) { db with log := some [] } =
      (.ok (), { db with log := some [name] }) := by
    unfold Cli.call markApplied
    rw [hok]
    simp
  refine ⟨{ db with log := some [name] }, s', ?_⟩
  unfold Cli.collapse
  rw [hi.all, hi.getLatest, hb]
  have hndn := hi.nodup
  have hlen : 2 ≤ (a ++ e :: b).length := by
    have : (a ++ b).length ≠ 0 := fun h => hab (List.eq_nil_of_length_eq_zero h)
    rw [List.length_append] at this ⊢
    rw [List.length_cons]
    omega
  have hgd := dirOk_getDb (json := json) hd
  generalize hM : a ++ e :: b = made at *
  match made, hlen, hndn with
  | u :: v :: w, _, hnd =>
    obtain ⟨z, hz⟩ : ∃ z, (u :: v :: w).getLast? = some z := by
      cases hh : (u :: v :: w).getLast? with
      | none => simp at hh
      | some z => exact ⟨z, rfl⟩
    have hne : u.1 ≠ z.1 := by
      intro he
      rw [List.map_cons, List.nodup_cons] at hnd
      refine hnd.1 (List.mem_map.2 ⟨z, ?_, he.symm⟩)
      rw [List.getLast?_cons_cons] at hz
      exact List.mem_of_getLast? hz
    simp only [List.map_cons, List.head?_cons, hz, Option.map_some]
    rw [if_neg hne, hla]
    simp only [hgd, hcall, hcr, hlat, hcall']

/-- C52 is false when there are migrations that are not applied: these, and with them the
changes of the schema, are gone after a collapse that ends well. -/
theorem cli_collapse_unapplied_violated {s s' : FsMigrations}
    (h : Reach json s) {made : List (String × ADB)} (hm : HasMigrations json s made) {name : String}
    {conn : Except Cli.CliErr (MigConn U)} {db db' : MigDb U}
    (hc : Cli.collapse json get conn name db s = (.ok (), db', s')) :
    ∀ e ∈ made, ¬ Recorded db e.1 → e.1 ≠ name → s'.get e.1 = none := by
  obtain ⟨hi, ht⟩ := reach_inv h hm
  intro e he _ hne
  rcases collapse_cases hi hc with ⟨h1, _⟩ | ⟨x, y, m, backends, c, applied, d, _, hb, rfl, ha, hd, h3⟩
  · exact absurd rfl h1
  rcases h3 with ⟨_, h4, _⟩ | ⟨db1, r1, h4, hcr, _⟩
  · cases h4
  · unfold FsMigrations.get
    rw [(fs_create_frame hcr).1 _ hne, lookup_deleteMigrations, if_neg (hi.notCurrent e he)]

/-- C52: if the database fails when the records are deleted, all migrations are gone already,
although the records say that they are applied. -/
theorem cli_collapse_failure_violated {s : FsMigrations}
    (h : Reach json s) {made : List (String × ADB)} (hm : HasMigrations json s made) (name : String)
    (hlen : 2 ≤ made.length) {backends : List MigBackend} (hb : Cli.latestBackends get s = .ok backends)
    {c : MigConn U} {db : MigDb U} {e : String × ADB} (he : e ∈ made) (hr : Recorded db e.1)
    (h01 : c.outcome 0 = .ok ∧ c.outcome 1 = .ok) (h2 : c.outcome 2 = .fail) :
    ∃ s', Cli.collapse json get (.ok c) name db s = (.error (.lib .db), db, s') ∧ HasMigrations json s' [] ∧
      ∀ x ∈ made, s'.get x.1 = none := by
  obtain ⟨hi, ht⟩ := reach_inv h hm
  have hrl : (made.map (·.1)).length < Cli.rounds s := by rw [List.length_map]; exact hi.lt_rounds
  refine ⟨s.deleteMigrations, ?_, (fsInv_nil rfl).asChain "", ?_⟩
  · have hla : ∃ applied, (Cli.chain s).lastApplied (Cli.rounds s) c db = .ok (some applied) ∧ applied ∈ made.map (·.1) := by
      rcases last_split (fun m => Recorded db ((s.toMigs "").name m)) (made.map (·.1)) with h1 | ⟨p, z, q, hz, h1, h2⟩
      · exact absurd hr (h1 e.1 (List.mem_map.2 ⟨e, he, rfl⟩))
      · rcases lastApplied_ok (hi.path "").1 (pre := p ++ [z]) (todo := q) (by rw [hz]; simp) h2 (.inr ⟨z, p, rfl, h1⟩)
          hrl c with h3 | ⟨h3, _⟩
        · refine ⟨z, ?_, by rw [hz]; simp⟩
          change (Cli.chain s).lastApplied _ c db = _ at h3
          rw [h3]
          simp
        · exfalso
          obtain ⟨names, hn, _⟩ := hr
          unfold Migs.lastApplied at h3
          rw [if_neg (by simp [h01.1]), hn] at h3
          dsimp only at h3
          rw [if_neg (by simp [h01.2])] at h3
          have hb' := isPath_iff.1 (hi.path "").1
          rw [hz] at hb'
          simp only [List.reverse_append, List.reverse_cons, List.append_assoc, List.singleton_append] at hb'
          obtain ⟨names', hn', hzn⟩ := h1
          rw [hn] at hn'
          cases hn'
          rw [lastLoop_found hb' hzn ?_ ?_] at h3
          · cases h3
          · intro y hy hc
            exact h2 y (by simpa using hy) ⟨names, hn, hc⟩
          · rw [hz] at hrl
            simp at hrl ⊢
            omega
    obtain ⟨applied, hla, hmem⟩ := hla
    obtain ⟨x, hx, rfl⟩ := List.mem_map.1 hmem
    obtain ⟨p, q, rfl⟩ := List.append_of_mem hx
    obtain ⟨d, hd, _⟩ := hi.dirs p x q rfl
    have hcall : Cli.call c 2 Cli.clearRecords db = (.error .db, db) := by
      unfold Cli.call
      rw [h2]
    unfold Cli.collapse
    rw [hi.all, hi.getLatest, hb]
    have hnd := hi.nodup
    generalize hM : p ++ x :: q = made at *
    match made, hlen, hnd with
    | u :: v :: w, _, hnd =>
      obtain ⟨z, hz⟩ : ∃ z, (u :: v :: w).getLast? = some z := by
        cases hh : (u :: v :: w).getLast? with
        | none => simp at hh
        | some z => exact ⟨z, rfl⟩
      have hne : u.1 ≠ z.1 := by
        intro he
        rw [List.map_cons, List.nodup_cons] at hnd
        refine hnd.1 (List.mem_map.2 ⟨z, ?_, he.symm⟩)
        rw [List.getLast?_cons_cons] at hz
        exact List.mem_of_getLast? hz
      simp only [List.map_cons, List.head?_cons, hz, Option.map_some]
      rw [if_neg hne, hla]
      simp only [dirOk_getDb hd, hcall]
  · intro x hx
    unfold FsMigrations.get
    rw [lookup_deleteMigrations, if_neg (hi.notCurrent x hx)]

/-! ### Adding a backend -/

theorem sqlIs_of {s s' : FsMigrations} {x n : String} (h : sqlOf s' x n = sqlOf s x n) (up down : Option String)
    (listed : Prop) : SqlIs s' x n up down listed ↔ SqlIs s x n up down listed := by
  unfold sqlOf at h
  simp only [Prod.mk.injEq] at h
  obtain ⟨h1, h2, h3⟩ := h
  unfold SqlIs FsMigrations.toMigs
  simp only [h1, h2, h3]

theorem sqlIs_mk {s : FsMigrations} {b n : String} {up down : Option String} {listed : Prop}
    (h1 : (s.dir n).sql.lookup (b ++ "_up") = up) (h2 : (s.dir n).sql.lookup (b ++ "_down") = down)
    (h3 : b ∈ (s.info n).backends ↔ listed) : SqlIs s b n up down listed :=
  ⟨congrArg _ h1, congrArg _ h2, h3⟩

/-- C62: adding a backend, successful or not, keeps the migrations and their schemas, and all
that there is for other backends. -/
theorem cli_add_backend_keeps (hget : Finds get) {s s' : FsMigrations} (h : Reach json s)
    {made : List (String × ADB)} (hm : HasMigrations json s made) {name : String} {r : Except Cli.CliErr Unit}
    (ha : Cli.addBackend json get name s = (r, s')) :
    HasMigrations json s' made ∧ s'.getLatest = s.getLatest ∧
    ∀ x n, x ≠ name → ∀ up down listed, SqlIs s' x n up down listed ↔ SqlIs s x n up down listed := by
  obtain ⟨hi, ht⟩ := reach_inv h hm
  unfold Cli.addBackend at ha
  have hnone : ∀ {r' : Except Cli.CliErr Unit}, (r', s) = (r, s') → HasMigrations json s' made ∧
      s'.getLatest = s.getLatest ∧
      ∀ x n, x ≠ name → ∀ up down listed, SqlIs s' x n up down listed ↔ SqlIs s x n up down listed := by
    intro r' he
    cases he
    exact ⟨hm, rfl, fun _ _ _ _ _ _ => Iff.rfl⟩
  split at ha
  · exact hnone ha
  · split at ha
    · exact hnone ha
    · split at ha
      · exact hnone ha
      · rename_i b hb
        split at ha
        · exact hnone ha
        · obtain ⟨g1, _, g3, _⟩ := addBackendLoop_keeps ha
          have hi' := g1.inv hi
          refine ⟨hi'.asChain "", by rw [hi'.getLatest, hi.getLatest], fun x n hx => sqlIs_of (g3 n x ?_)⟩
          rw [hget _ _ hb]
          exact hx

/-- The changes of a migration from `old` to `new`, with the table for butane's records if
there was no table before. -/
def changesAfter (old new : ADB) : List Operation :=
  if old.tables = [] then diff old new ++ [.addTableIfNotExists migrationsTable] else diff old new

theorem addBackendLoop_ok {b : MigBackend} {s s' : FsMigrations} {l : List (String × ADB)} {fromDb : ADB}
    (hnd : (l.map (·.1)).Nodup) (hdb : ∀ e ∈ l, ∃ d, s.getDb json e.1 = .ok d ∧ SameSchema d e.2)
    (h : Cli.addBackendLoop json b (l.map (·.1)) fromDb s = (.ok (), s')) :
    ∀ p e q, l = p ++ e :: q → ∃ old new, (match p.getLast? with
        | none => old = fromDb
        | some x => s.getDb json x.1 = .ok old ∧ SameSchema old x.2) ∧
      s.getDb json e.1 = .ok new ∧ SameSchema new e.2 ∧ SqlFrom s' b e.1 old new (changesAfter old new) := by
  induction l generalizing s fromDb with
  | nil =>
    intro p e q hl
    simp at hl
  | cons x l ih =>
    obtain ⟨d, hd, hds⟩ := hdb x (by simp)
    rw [List.map_cons] at h
    rw [List.map_cons, List.nodup_cons] at hnd
    unfold Cli.addBackendLoop at h
    rw [hd] at h
    dsimp only at h
    split at h
    · cases h
    · split at h
      · cases h
      · rename_i up hup
        split at h
        · cases h
        · rename_i down hdown
          rcases hr : s.addSql b.name up down x.1 with ⟨r1, s1⟩
          rw [hr] at h
          cases r1 with
          | error e => cases h
          | ok u =>
            dsimp only at h
            have honly := sqlOnly_addSql s b.name up down x.1
            rw [hr] at honly
            obtain ⟨_, _, _, hframe⟩ := addBackendLoop_keeps h
            intro p e q hl
            cases p with
            | nil =>
              cases hl
              refine ⟨fromDb, d, rfl, hd, hds, ?_⟩
              obtain ⟨up', down', g1, g2, _, _, g5, _, g7⟩ := fs_addSql hr
              refine ⟨up, down, up', down', ?_, hdown, fileText_of g1, fileText_of g2, ?_⟩
              · rw [← hup]
                congr 1
                unfold changesAfter
                cases fromDb.tables <;> simp
              · refine (sqlIs_of (hframe x.1 b.name hnd.1) _ _ _).2 (sqlIs_mk ?_ ?_ ?_)
                · rw [g5, SMap.lookup_insert, if_neg up_ne_down, SMap.lookup_insert, if_pos rfl]
                · rw [g5, SMap.lookup_insert, if_pos rfl]
                · simp [g7]
            | cons y p =>
              rw [List.cons_append, List.cons.injEq] at hl
              obtain ⟨rfl, hl⟩ := hl
              obtain ⟨old, new, k1, k2, k3, k4⟩ := ih (s := s1) hnd.2 (fun e he => by
                obtain ⟨d, h1, h2⟩ := hdb e (by simp [he])
                exact ⟨d, by rw [honly.getDb]; exact h1, h2⟩) h p e q hl
              rw [honly.getDb] at k2
              refine ⟨old, new, ?_, k2, k3, k4⟩
              rw [List.getLast?_cons]
              cases hp : p.getLast? with
              | none =>
                rw [hp] at k1
                simp only at k1
                subst k1
                exact ⟨hd, hds⟩
              | some z =>
                rw [hp] at k1
                simp only [honly.getDb] at k1
                exact k1

/-- C62: after a backend was added, every migration has SQL for it, generated for the changes
between its schema and that of its predecessor (or the empty schema). -/
theorem cli_add_backend {s s' : FsMigrations} (h : Reach json s)
    {made : List (String × ADB)} (hm : HasMigrations json s made) {name : String}
    (ha : Cli.addBackend json get name s = (.ok (), s')) :
    ∃ b, get name = some b ∧ ∀ p e q, made = p ++ e :: q → ∃ old new,
      SameSchema old (before p) ∧ SameSchema new e.2 ∧ SqlFrom s' b e.1 old new (changesAfter old new) := by
  obtain ⟨hi, ht⟩ := reach_inv h hm
  unfold Cli.addBackend at ha
  split at ha
  · cases ha
  · split at ha
    · cases ha
    · split at ha
      · cases ha
      · rename_i b hb
        rw [hi.all] at ha
        refine ⟨b, hb, fun p e q hpq => ?_⟩
        obtain ⟨old, new, k1, _, k3, k4⟩ := addBackendLoop_ok hi.nodup (fun e he => by
          obtain ⟨p, q, hpq⟩ := List.append_of_mem he
          obtain ⟨d, hd, hs⟩ := hi.dirs p e q hpq
          exact ⟨d, dirOk_getDb hd, hs⟩) ha p e q hpq
        refine ⟨old, new, ?_, k3, k4⟩
        unfold before
        cases hp : p.getLast? with
        | none =>
          rw [hp] at k1
          simp only at k1
          subst k1
          exact sameSchema_refl _
        | some z =>
          rw [hp] at k1
          exact k1.2

theorem addBackendLoop_succeeds {b : MigBackend}
    (hsql : ∀ db ops, ops ≠ [] → ∃ text, b.sql db ops = .ok text ∧ text ≠ "")
    {l : List (String × ADB)} {s : FsMigrations} {fromDb : ADB} (hf : Settled fromDb)
    (hdb : ∀ e ∈ l, ∃ d, s.getDb json e.1 = .ok d ∧ Settled d)
    (hne : ∀ p e q, l = p ++ e :: q → ∀ old new, (match p.getLast? with
        | none => old = fromDb
        | some x => s.getDb json x.1 = .ok old) → s.getDb json e.1 = .ok new → diff old new ≠ []) :
    ∃ s', Cli.addBackendLoop json b (l.map (·.1)) fromDb s = (.ok (), s') := by
  induction l generalizing s fromDb with
  | nil => exact ⟨s, rfl⟩
  | cons x l ih =>
    obtain ⟨d, hd, hds⟩ := hdb x (by simp)
    have hd1 : diff fromDb d ≠ [] := hne [] x l rfl fromDb d rfl hd
    have hd2 : diff d fromDb ≠ [] := diff_ne_symm hf.valid hds.valid hd1
    rw [List.map_cons]
    unfold Cli.addBackendLoop
    rw [hd]
    dsimp only
    rw [if_neg (by simpa using hd1)]
    obtain ⟨up, hu, hu'⟩ := hsql fromDb (if fromDb.tables.isEmpty = true then
      diff fromDb d ++ [.addTableIfNotExists migrationsTable] else diff fromDb d) (by
        split
        · simp
        · exact hd1)
    obtain ⟨down, hw, hw'⟩ := hsql d (diff d fromDb) hd2
    rw [hu]
    dsimp only
    rw [hw]
    dsimp only
    have hadd : ∃ s1, s.addSql b.name up down x.1 = (.ok (), s1) := by
      obtain ⟨up', h5⟩ := withNewline_ok hu'
      obtain ⟨down', h6⟩ := withNewline_ok hw'
      unfold FsMigrations.addSql
      rw [h5]
      simp only [h6]
      split <;> exact ⟨_, rfl⟩
    obtain ⟨s1, hs1⟩ := hadd
    have honly := sqlOnly_addSql s b.name up down x.1
    rw [hs1] at honly ⊢
    dsimp only
    refine ih hds (fun e he => ?_) ?_
    · rw [honly.getDb]
      exact hdb e (by simp [he])
    · intro p e q hpq old new ho hn
      rw [honly.getDb] at hn
      refine hne (x :: p) e q (by rw [hpq]; rfl) old new ?_ hn
      rw [List.getLast?_cons]
      cases hp : p.getLast? with
      | none =>
        rw [hp] at ho
        simp only at ho
        subst ho
        exact hd
      | some z =>
        rw [hp] at ho
        simp only [honly.getDb] at ho
        exact ho

/-- C62: a backend that the latest migration does not have can be added, if it can express
all changes. -/
theorem cli_add_backend_succeeds {s : FsMigrations} (h : Reach json s)
    {name : String} {b : MigBackend} (hb : get name = some b)
    (hsql : ∀ db ops, ops ≠ [] → ∃ text, b.sql db ops = .ok text ∧ text ≠ "")
    {backends : List MigBackend} (hbs : Cli.latestBackends get s = .ok backends)
    (hnew : ∀ b ∈ backends, b.name ≠ name) :
    ∃ s', Cli.addBackend json get name s = (.ok (), s') := by
  obtain ⟨made, hi, ht⟩ := h.inv
  unfold Cli.addBackend
  rw [hbs]
  dsimp only
  rw [if_neg (by simpa using hnew), hb]
  dsimp only
  rw [hi.inv.all]
  refine addBackendLoop_succeeds hsql settled_new (fun e he => ?_) ?_
  · obtain ⟨p, q, hpq⟩ := List.append_of_mem he
    exact ⟨e.2, dirOk_getDb (hi.dirs p e q hpq), (hi.dirs p e q hpq).settled⟩
  · intro p e q hpq old new ho hn
    rw [dirOk_getDb (hi.dirs p e q hpq)] at hn
    cases hn
    have : old = before p := by
      unfold before
      rcases List.eq_nil_or_concat p with rfl | ⟨p, x, rfl⟩
      · exact ho
      · rw [List.concat_eq_append] at ho hpq ⊢
        simp only [List.getLast?_append, List.getLast?_singleton, Option.some_or] at ho ⊢
        rw [dirOk_getDb (hi.dirs p x (e :: q) (by rw [hpq]; simp))] at ho
        cases ho
        rfl
    rw [this]
    exact hi.changed p e q hpq

/-! ### Removing a backend -/

/-- C63: removing a backend, successful or not, keeps the migrations and their schemas, and
all that there is for other backends. -/
theorem cli_remove_backend_keeps (hget : Finds get) {s s' : FsMigrations}
    (h : Reach json s) {made : List (String × ADB)} (hm : HasMigrations json s made) {name : String}
    {r : Except Cli.CliErr Unit} (ha : Cli.removeBackend get name s = (r, s')) :
    HasMigrations json s' made ∧ s'.getLatest = s.getLatest ∧
    ∀ x n, x ≠ name → ∀ up down listed, SqlIs s' x n up down listed ↔ SqlIs s x n up down listed := by
  obtain ⟨hi, ht⟩ := reach_inv h hm
  unfold Cli.removeBackend at ha
  have hnone : ∀ {r' : Except Cli.CliErr Unit}, (r', s) = (r, s') → HasMigrations json s' made ∧
      s'.getLatest = s.getLatest ∧
      ∀ x n, x ≠ name → ∀ up down listed, SqlIs s' x n up down listed ↔ SqlIs s x n up down listed := by
    intro r' he
    cases he
    exact ⟨hm, rfl, fun _ _ _ _ _ _ => Iff.rfl⟩
  split at ha
  · exact hnone ha
  · split at ha
    · exact hnone ha
    · split at ha
      · exact hnone ha
      · rename_i b hb
        rw [hi.all] at ha
        obtain ⟨g1, _, g3, _⟩ := removeBackendLoop_keeps (by
            intro hm
            obtain ⟨e, he, h2⟩ := List.mem_map.1 hm
            exact hi.notCurrent e he h2) ht ha
        have hi' := g1.inv hi
        refine ⟨hi'.asChain "", by rw [hi'.getLatest, hi.getLatest], fun x n hx => sqlIs_of (g3 n x ?_)⟩
        rw [hget _ _ hb]
        exact hx

theorem removeSql_ok {b n : String} {s s' : FsMigrations} (hs : (s.dir n).sql.Sorted)
    (h : s.removeSql b n = (.ok (), s')) : SqlIs s' b n none none False := by
  unfold FsMigrations.removeSql at h
  split at h
  · cases h
  · dsimp only at h
    split at h
    · cases h
    · cases h
      have hs' : ((s.write n fun d => { d with sql := d.sql.erase (b ++ "_up") }).dir n).sql.Sorted := by
        rw [FsMigrations.dir_write, if_pos rfl]
        exact SMap.sorted_erase hs _
      refine sqlIs_mk ?_ ?_ ?_
      · rw [FsMigrations.writeInfo, FsMigrations.dir_write, if_pos rfl, FsMigrations.dir_write, if_pos rfl]
        simp only
        rw [lookup_erase_ne hs' up_ne_down, FsMigrations.dir_write, if_pos rfl]
        simp only
        rw [SMap.lookup_erase hs, if_pos rfl]
      · rw [FsMigrations.writeInfo, FsMigrations.dir_write, if_pos rfl, FsMigrations.dir_write, if_pos rfl]
        simp only
        rw [SMap.lookup_erase hs', if_pos rfl]
      · rw [FsMigrations.info_writeInfo]
        simp

theorem removeBackendLoop_ok {b : String} {l : List String} (hl : "current" ∉ l) (hnd : l.Nodup) {s s' : FsMigrations}
    (ht : Tidy s) (h : Cli.removeBackendLoop b l s = (.ok (), s')) : ∀ n ∈ l, SqlIs s' b n none none False := by
  induction l generalizing s with
  | nil => simp
  | cons m l ih =>
    rw [List.nodup_cons] at hnd
    have hm : m ≠ "current" := fun h => hl (by simp [h])
    unfold Cli.removeBackendLoop at h
    rcases hr : s.removeSql b m with ⟨r1, s1⟩
    rw [hr] at h
    cases r1 with
    | error e => cases h
    | ok u =>
      dsimp only at h
      have ht' := ht.removeSql b m
      rw [hr] at ht'
      have hl' : "current" ∉ l := fun h => hl (by simp [h])
      intro n hn
      rcases List.mem_cons.1 hn with rfl | hn
      · obtain ⟨_, _, _, hframe⟩ := removeBackendLoop_keeps hl' ht' h
        exact (sqlIs_of (hframe n b hnd.1) _ _ _).2 (removeSql_ok (ht n hm).2 hr)
      · exact ih hl' hnd.2 ht' h n hn

/-- C63: after a backend was removed no migration has SQL for it or lists it, and it was not
the only one of the latest migration. -/
theorem cli_remove_backend (hget : Finds get) {s s' : FsMigrations} (h : Reach json s)
    {made : List (String × ADB)} (hm : HasMigrations json s made) {name : String}
    (ha : Cli.removeBackend get name s = (.ok (), s')) :
    (∀ e ∈ made, SqlIs s' name e.1 none none False) ∧
    ∃ n, s.getLatest = some n ∧ 2 ≤ (s.info n).backends.length := by
  obtain ⟨hi, ht⟩ := reach_inv h hm
  unfold Cli.removeBackend at ha
  split at ha
  · cases ha
  · rename_i existing hex
    split at ha
    · cases ha
    · rename_i hlen
      split at ha
      · cases ha
      · rename_i b hb
        rw [hi.all] at ha
        rw [hget _ _ hb] at ha
        refine ⟨fun e he => ?_, ?_⟩
        · exact removeBackendLoop_ok (by
            intro hm
            obtain ⟨e, he, h2⟩ := List.mem_map.1 hm
            exact hi.notCurrent e he h2) hi.nodup ht ha e.1 (List.mem_map.2 ⟨e, he, rfl⟩)
        · obtain ⟨n, h1, h2, h3, _⟩ := latestBackends_ok hget hex
          refine ⟨n, h1, ?_⟩
          rw [← h2, List.length_map]
          have : existing.length ≠ 0 := by simpa using h3
          omega

/-- C63: the only backend of the latest migration is not removed. -/
theorem cli_remove_last_backend {s : FsMigrations} {b : MigBackend} (hbs : Cli.latestBackends get s = .ok [b])
    (name : String) : Cli.removeBackend get name s = (.error .other, s) := by
  unfold Cli.removeBackend
  rw [hbs]
  rfl

theorem removeBackendLoop_succeeds {b : String} {l : List String} (hl : "current" ∉ l) (hnd : l.Nodup) {s : FsMigrations}
    (ht : Tidy s) (hhas : ∀ n ∈ l, ∃ up down, SqlIs s b n (some up) (some down) True) :
    ∃ s', Cli.removeBackendLoop b l s = (.ok (), s') := by
  induction l generalizing s with
  | nil => exact ⟨s, rfl⟩
  | cons m l ih =>
    rw [List.nodup_cons] at hnd
    have hm : m ≠ "current" := fun h => hl (by simp [h])
    obtain ⟨up, down, h1, h2, _⟩ := hhas m (by simp)
    have h1' : (s.dir m).sql.lookup (b ++ "_up") = some up := Except.ok.inj h1
    have h2' : (s.dir m).sql.lookup (b ++ "_down") = some down := Except.ok.inj h2
    have hex : ∃ s1, s.removeSql b m = (.ok (), s1) := by
      unfold FsMigrations.removeSql
      rw [h1']
      dsimp only
      rw [FsMigrations.dir_write, if_pos rfl]
      dsimp only
      rw [lookup_erase_ne (ht m hm).2 (Ne.symm up_ne_down), h2']
      exact ⟨_, rfl⟩
    obtain ⟨s1, hs1⟩ := hex
    have ht' := ht.removeSql b m
    have hkeep := removeSql_keeps (b := b) (n := m) (s := s)
    rw [hs1] at ht' hkeep
    unfold Cli.removeBackendLoop
    rw [hs1]
    dsimp only
    refine ih (fun h => hl (by simp [h])) hnd.2 ht' fun n hn => ?_
    obtain ⟨up, down, h3⟩ := hhas n (by simp [hn])
    refine ⟨up, down, (sqlIs_of ?_ _ _ _).2 h3⟩
    have hk := hkeep.2 n (by rintro rfl; exact hnd.1 hn)
    unfold sqlOf
    rw [FsMigrations.info_congr hk, FsMigrations.dir_congr hk]

/-- C63: a backend for which every migration has SQL is removed, if the latest migration has
another one. -/
theorem cli_remove_backend_succeeds (hget : Finds get) {s : FsMigrations}
    (h : Reach json s) {made : List (String × ADB)} (hm : HasMigrations json s made) {name : String}
    {b : MigBackend} (hb : get name = some b) (hhas : ∀ e ∈ made, ∃ up down, SqlIs s name e.1 (some up) (some down) True)
    {backends : List MigBackend} (hbs : Cli.latestBackends get s = .ok backends) (hlen : 2 ≤ backends.length) :
    ∃ s', Cli.removeBackend get name s = (.ok (), s') := by
  obtain ⟨hi, ht⟩ := reach_inv h hm
  unfold Cli.removeBackend
  rw [hbs]
  dsimp only
  rw [if_neg (by omega), hb]
  dsimp only
  rw [hi.all, hget _ _ hb]
  refine removeBackendLoop_succeeds (by
    intro hm
    obtain ⟨e, he, h2⟩ := List.mem_map.1 hm
    exact hi.notCurrent e he h2) hi.nodup ht fun n hn => ?_
  obtain ⟨e, he, rfl⟩ := List.mem_map.1 hn
  exact hhas e he

/-! ### A history -/

def exGet (n : String) : Option MigBackend :=
  if n = "p" ∨ n = "q" then some (exSql n) else none

theorem exGet_name : Finds exGet := by
  intro n b h
  unfold exGet at h
  split at h
  · cases h; rfl
  · cases h

/-- The code has the given tables. -/
def exCode (ns : List String) (s : FsMigrations) : FsMigrations :=
  s.write "current" fun _ => ⟨none, (exDbOf ns).tables, none, []⟩

def exM1 (sql : SMap String String) (bs : List String) : String × FsDir :=
  ("m1", ⟨some ⟨none, [], bs⟩, [("A", exTableOf "A")], none, sql⟩)
def exM2 (sql : SMap String String) (bs : List String) : String × FsDir :=
  ("m2", ⟨some ⟨some "m1", [("A", "m1")], bs⟩, [("B", exTableOf "B")], none, sql⟩)
def exM3 (sql : SMap String String) (bs : List String) : String × FsDir :=
  ("m3", ⟨some ⟨some "m2", [("B", "m2")], bs⟩, [("C", exTableOf "C")], none, sql⟩)
def exNow (ns : List String) : String × FsDir := ("current", ⟨none, (exDbOf ns).tables, none, []⟩)

/-- The migrations directory after `m1`, `m2` and `m3` were made. -/
def exCli1 : FsMigrations :=
  ⟨[exNow ["A"], exM1 [("p_down", "p-A\n"), ("p_up", "p+A?butane_migrations\n")] ["p"]], some "m1"⟩
def exCli2 : FsMigrations :=
  ⟨[exNow ["A", "B"], exM1 [("p_down", "p-A\n"), ("p_up", "p+A?butane_migrations\n")] ["p"],
    exM2 [("p_down", "p-B\n"), ("p_up", "p+B\n")] ["p"]], some "m2"⟩
def exCli3 : FsMigrations :=
  ⟨[exNow ["B", "C"], exM1 [("p_down", "p-A\n"), ("p_up", "p+A?butane_migrations\n")] ["p"],
    exM2 [("p_down", "p-B\n"), ("p_up", "p+B\n")] ["p"],
    exM3 [("p_down", "p+A-C\n"), ("p_up", "p+C-A\n")] ["p"]], some "m3"⟩

theorem exMake1 : Cli.makeMigration false exGet (some (some (exSql "p"))) "m1" (exCode ["A"] ⟨[], none⟩) =
    (.ok true, exCli1) := rfl
theorem exMake2 : Cli.makeMigration false exGet none "m2" (exCode ["A", "B"] exCli1) = (.ok true, exCli2) := rfl
theorem exMake3 : Cli.makeMigration false exGet none "m3" (exCode ["B", "C"] exCli2) = (.ok true, exCli3) := rfl

theorem exCode_reach {s : FsMigrations} (ns : List String) (h : Reach false s) : Reach false (exCode ns s) := by
  refine .build h rfl fun n hn => ?_
  unfold exCode
  rw [FsMigrations.lookup_write, if_neg hn]

theorem exCli3_reach : Reach false exCli1 ∧ Reach false exCli2 ∧ Reach false exCli3 := by
  have h1 : Reach false exCli1 := by
    refine .make (exCode_reach ["A"] .empty) exGet_name rfl (by decide) (fun toDb h => ?_) exMake1
    cases (show FsMigrations.getDb false (exCode ["A"] ⟨[], none⟩) "current" = .ok (exDbOf ["A"]) from rfl).symm.trans h
    exact exDbOf_a
  have h2 : Reach false exCli2 := by
    refine .make (exCode_reach ["A", "B"] h1) exGet_name rfl (by decide) (fun toDb h => ?_) exMake2
    cases (show FsMigrations.getDb false (exCode ["A", "B"] exCli1) "current" = .ok (exDbOf ["A", "B"]) from rfl).symm.trans h
    exact exDbOf_ab
  refine ⟨h1, h2, ?_⟩
  refine .make (exCode_reach ["B", "C"] h2) exGet_name rfl (by decide) (fun toDb h => ?_) exMake3
  cases (show FsMigrations.getDb false (exCode ["B", "C"] exCli2) "current" = .ok (exDbOf ["B", "C"]) from rfl).symm.trans h
  exact exDbOf_bc

def exMade3 : List (String × ADB) := [("m1", exDbOf ["A"]), ("m2", exDbOf ["A", "B"]), ("m3", exDbOf ["B", "C"])]

theorem exCli3_has : HasMigrations false exCli3 exMade3 := by
  refine ⟨["m1", "m2", "m3"], ⟨rfl, ?_, ?_⟩, ?_, ?_⟩
  · rintro p m ⟨a, b, h⟩
    match a, h with
    | [], h => cases h; exact ⟨"m1", rfl, rfl⟩
    | [_], h => cases h; exact ⟨"m2", rfl, rfl⟩
    | [_, _], h => simp at h
    | _ :: _ :: _ :: _, h => simp at h
  · intro m hm
    cases hm
    exact .inl rfl
  · intro m hm
    cases hm
    rfl
  · exact .cons ⟨rfl, _, rfl, sameSchema_refl _⟩ (.cons ⟨rfl, _, rfl, sameSchema_refl _⟩
      (.cons ⟨rfl, _, rfl, sameSchema_refl _⟩ .nil))

/-- A connection that works, and the records of the first `m1`, `m2`. -/
def exCliConn : MigConn Nat := ⟨fun _ db => .ok db, fun _ => .ok⟩
def exCliDb : MigDb Nat := ⟨7, some ["m1", "m2"]⟩

/-- A connection that fails at the third call. -/
def exCliBad : MigConn Nat := ⟨fun _ db => .ok db, fun n => if n = 2 then .fail else .ok⟩

theorem exSql_some (n : String) (hn : n ≠ "") (db : ADB) (ops : List Operation) :
    ∃ text, (exSql n).sql db ops = .ok text ∧ text ≠ "" := by
  refine ⟨_, rfl, fun h => ?_⟩
  have := congrArg String.toList h
  rw [String.toList_append] at this
  have h2 := (List.append_eq_nil_iff.1 (this.trans rfl)).1
  exact hn (String.toList_inj.1 (by rw [h2]; rfl))

example : ∃ made, HasMigrations false exCli3 made ∧ (made.map (·.1)).Nodup ∧ ∀ e ∈ made, Settled e.2 :=
  cli_history exCli3_reach.2.2

/-- The directory after detaching `m3`, and after a collapse. -/
def exDetached : FsMigrations := ⟨[exNow ["B", "C"], exM1 [("p_down", "p-A\n"), ("p_up", "p+A?butane_migrations\n")] ["p"],
    exM2 [("p_down", "p-B\n"), ("p_up", "p+B\n")] ["p"],
    exM3 [("p_down", "p+A-C\n"), ("p_up", "p+C-A\n")] ["p"]], some "m2"⟩
def exCollapsed : FsMigrations := ⟨[("all", ⟨some ⟨none, [], ["p"]⟩, (exDbOf ["A", "B"]).tables, none,
  [("p_down", "p-A-B\n"), ("p_up", "p+A+B?butane_migrations\n")]⟩), exNow ["B", "C"]], some "all"⟩
theorem exDetach : Cli.detachLatest (some (.ok exCliConn)) exCliDb exCli3 = (.ok (), exDetached) := rfl
theorem exCollapse : Cli.collapse false exGet (.ok exCliConn) "all" exCliDb exCli3 =
    (.ok (), ⟨7, some ["all"]⟩, exCollapsed) := rfl

/-- Detaching `m3`. -/
example : ∃ s', Cli.detachLatest (some (.ok exCliConn)) exCliDb exCli3 = (.ok (), s') ∧ s'.getLatest = some "m2" ∧
    ∃ a x y, exMade3 = a ++ [x, y] ∧ HasMigrations false s' (a ++ [x]) := by
  refine ⟨_, exDetach, rfl, ?_⟩
  obtain ⟨a, x, y, h1, h2, _⟩ := (cli_detach exCli3_reach.2.2 exCli3_has exDetach).2.2 rfl
  exact ⟨a, x, y, h1, h2⟩
example : (Cli.detachLatest ((some exCliConn).map .ok) exCliDb exCli3).1 = .ok () :=
  cli_detach_succeeds (a := [("m1", exDbOf ["A"])]) exCli3_reach.2.2 exCli3_has (some exCliConn)
    (by rintro _ ⟨names, h, hm⟩; cases h; revert hm; decide) (fun c h n => by cases h; rfl)
example : Cli.detachLatest (some (.ok exCliConn)) ⟨7, some ["m1", "m2", "m3"]⟩ exCli3 = (.error .exit, exCli3) := by
  obtain ⟨h1, e, h2, h3⟩ := cli_detach_applied (a := exMade3.dropLast) exCli3_reach.2.2 exCli3_has
    (db := ⟨7, some ["m1", "m2", "m3"]⟩) ⟨_, rfl, by decide⟩
    (show Cli.detachLatest (some (.ok exCliConn)) _ exCli3 = (_, _) from rfl)
  rfl
example (conn : Option (Except MErr (MigConn Nat))) : Cli.detachLatest conn exCliDb exCli1 = (.error .exit, exCli1) := by
  obtain ⟨made, h1, _⟩ := cli_history exCli3_reach.1
  refine cli_detach_only exCli3_reach.1 h1 ?_ conn exCliDb
  have := (reach_inv exCli3_reach.1 h1).1.all
  have h2 : (Cli.chain exCli1).allMigrations (Cli.rounds exCli1) = .ok ["m1"] := rfl
  rw [h2] at this
  have := congrArg List.length (Except.ok.inj this)
  simp at this
  omega

/-- Collapsing when `m1` and `m2` are applied: `m3` is lost. -/
example : ∃ db' s', Cli.collapse false exGet (.ok exCliConn) "all" exCliDb exCli3 = (.ok (), db', s') :=
  cli_collapse_succeeds (a := [("m1", exDbOf ["A"])]) (e := ("m2", exDbOf ["A", "B"])) (b := [("m3", exDbOf ["B", "C"])])
    (backends := [exSql "p"]) exGet_name exCli3_reach.2.2 exCli3_has (by simp) (by decide) rfl (by
      intro b hb db ops _
      rw [List.mem_singleton] at hb
      subst hb
      exact exSql_some "p" (by decide) db ops) (fun _ => rfl) ⟨_, rfl, by decide⟩
    (by rintro x hx ⟨names, h, hm⟩; cases h; simp at hx; subst hx; revert hm; decide)
    ⟨"A", by decide⟩
example : ∃ db' s', Cli.collapse false exGet (.ok exCliConn) "all" exCliDb exCli3 = (.ok (), db', s') ∧
    db' = ⟨7, some ["all"]⟩ ∧ s'.getDb false "all" = .ok (exDbOf ["A", "B"]) ∧ s'.get "m3" = none ∧
    (s'.toMigs "p").up "all" = .ok (some "p+A+B?butane_migrations\n") := ⟨_, _, exCollapse, rfl, rfl, rfl, rfl⟩
example : ∃ db' s', Cli.collapse false exGet (.ok exCliConn) "all" exCliDb exCli3 = (.ok (), db', s') ∧
    db'.user = 7 ∧ ∃ a e b d, exMade3 = a ++ e :: b ∧ Recorded exCliDb e.1 ∧ HasMigrations false s' [("all", d)] := by
  refine ⟨_, _, exCollapse, rfl, ?_⟩
  obtain ⟨a, e, b, d, _, h1, h2, _, _, h3, _⟩ := cli_collapse_partial exGet_name exCli3_reach.2.2 exCli3_has
    (by decide) exCollapse
  exact ⟨a, e, b, d, h1, h2, h3⟩
example : ∃ db' s', Cli.collapse false exGet (.ok exCliConn) "all" exCliDb exCli3 = (.ok (), db', s') ∧
    s'.get "m3" = none := by
  refine ⟨_, _, exCollapse, ?_⟩
  exact cli_collapse_unapplied_violated exCli3_reach.2.2 exCli3_has exCollapse
    ("m3", exDbOf ["B", "C"]) (by simp [exMade3]) (by rintro ⟨names, h, hm⟩; cases h; revert hm; decide) (by decide)
example : ∃ s', Cli.collapse false exGet (.ok exCliBad) "all" exCliDb exCli3 = (.error (.lib .db), exCliDb, s') ∧
    HasMigrations false s' [] ∧ ∀ x ∈ exMade3, s'.get x.1 = none :=
  cli_collapse_failure_violated (backends := [exSql "p"]) exCli3_reach.2.2 exCli3_has "all" (by decide) rfl
    (e := ("m2", exDbOf ["A", "B"])) (by simp [exMade3]) ⟨_, rfl, by decide⟩ ⟨rfl, rfl⟩ rfl
example : Cli.collapse false exGet (.ok exCliConn) "all" ⟨7, some []⟩ exCli3 = (.error .exit, ⟨7, some []⟩, exCli3) ∧
    (⟨7, some []⟩ : MigDb Nat).user = 7 :=
  ⟨rfl, (cli_collapse_refused exCli3_reach.2.2 exCli3_has
    (show Cli.collapse false exGet (.ok exCliConn) "all" ⟨7, some []⟩ exCli3 = (_, _, _) from rfl)).1⟩

/-- Adding the backend `q`, and removing `p` then. -/
def exCli4 : FsMigrations :=
  ⟨[exNow ["B", "C"],
    exM1 [("p_down", "p-A\n"), ("p_up", "p+A?butane_migrations\n"), ("q_down", "q-A\n"), ("q_up", "q+A?butane_migrations\n")]
      ["p", "q"],
    exM2 [("p_down", "p-B\n"), ("p_up", "p+B\n"), ("q_down", "q-B\n"), ("q_up", "q+B\n")] ["p", "q"],
    exM3 [("p_down", "p+A-C\n"), ("p_up", "p+C-A\n"), ("q_down", "q+A-C\n"), ("q_up", "q+C-A\n")] ["p", "q"]], some "m3"⟩
theorem exAddQ : Cli.addBackend false exGet "q" exCli3 = (.ok (), exCli4) := rfl

example : ∃ s', Cli.addBackend false exGet "q" exCli3 = (.ok (), s') :=
  cli_add_backend_succeeds (backends := [exSql "p"]) exCli3_reach.2.2
    (b := exSql "q") rfl (fun db ops _ => exSql_some "q" (by decide) db ops) rfl (by simp [exSql])
example : ∃ b, exGet "q" = some b ∧ ∀ p e q, exMade3 = p ++ e :: q → ∃ old new,
    SameSchema old (before p) ∧ SameSchema new e.2 ∧ SqlFrom exCli4 b e.1 old new (changesAfter old new) :=
  cli_add_backend exCli3_reach.2.2 exCli3_has exAddQ
example : (exCli4.toMigs "q").up "m1" = .ok (some "q+A?butane_migrations\n") ∧
    (exCli4.toMigs "q").up "m3" = .ok (some "q+C-A\n") ∧ (exCli4.toMigs "q").down "m3" = .ok (some "q+A-C\n") ∧
    (exCli4.toMigs "p").up "m3" = .ok (some "p+C-A\n") := ⟨rfl, rfl, rfl, rfl⟩

theorem exCli4_ok : Reach false exCli4 ∧ HasMigrations false exCli4 exMade3 :=
  ⟨.addBackend exCli3_reach.2.2 exGet_name exAddQ,
    (cli_add_backend_keeps exGet_name exCli3_reach.2.2 exCli3_has
      exAddQ).1⟩

def exCli5 : FsMigrations :=
  ⟨[exNow ["B", "C"], exM1 [("q_down", "q-A\n"), ("q_up", "q+A?butane_migrations\n")] ["q"],
    exM2 [("q_down", "q-B\n"), ("q_up", "q+B\n")] ["q"],
    exM3 [("q_down", "q+A-C\n"), ("q_up", "q+C-A\n")] ["q"]], some "m3"⟩
theorem exRemoveP : Cli.removeBackend exGet "p" exCli4 = (.ok (), exCli5) := rfl

example : ∃ s', Cli.removeBackend exGet "p" exCli4 = (.ok (), s') ∧ HasMigrations false s' exMade3 ∧
    (∀ e ∈ exMade3, SqlIs s' "p" e.1 none none False) ∧ (s'.toMigs "q").up "m3" = .ok (some "q+C-A\n") := by
  refine ⟨_, exRemoveP, ?_, ?_, rfl⟩
  · exact (cli_remove_backend_keeps exGet_name exCli4_ok.1 exCli4_ok.2 exRemoveP).1
  · exact (cli_remove_backend exGet_name exCli4_ok.1 exCli4_ok.2 exRemoveP).1
example : ∃ s', Cli.removeBackend exGet "p" exCli4 = (.ok (), s') :=
  cli_remove_backend_succeeds (b := exSql "p") (backends := [exSql "p", exSql "q"]) exGet_name exCli4_ok.1 exCli4_ok.2 rfl (by
    intro e he
    simp [exMade3] at he
    rcases he with rfl | rfl | rfl
    · exact ⟨_, _, rfl, rfl, by decide⟩
    · exact ⟨_, _, rfl, rfl, by decide⟩
    · exact ⟨_, _, rfl, rfl, by decide⟩) rfl (by decide)
example : Cli.removeBackend exGet "p" exCli3 = (.error .other, exCli3) :=
  cli_remove_last_backend (b := exSql "p") rfl "p"

end Butane.Props
