/-
C64, C65: making migrations, and making all of them again, with the command line tool.
-/
import Verif.Props.CliFs

namespace Butane.Props
open Butane Spec
variable {U : Type} {json : Bool} {get : String → Option MigBackend}

/-! ### Making all migrations again -/

/-- The migrations, with the schemas exactly as they are read. -/
theorem reach_exact {s : FsMigrations} (h : Reach json s)
    {made : List (String × ADB)} (hm : HasMigrations json s made) :
    ∃ made', FsExact s made' ∧ Tidy s ∧ made'.map (·.1) = made.map (·.1) := by
  obtain ⟨made', hi, ht⟩ := h.inv
  refine ⟨made', hi, ht, ?_⟩
  have h1 := hi.inv.all
  have h2 := (hi.inv.of_chain hm).all
  rw [h1] at h2
  exact Except.ok.inj h2

theorem names_split {made made' : List (String × ADB)} (h : made'.map (·.1) = made.map (·.1))
    {p q : List (String × ADB)} {e : String × ADB} (hpq : made = p ++ e :: q) :
    ∃ p' e' q', made' = p' ++ e' :: q' ∧ p'.map (·.1) = p.map (·.1) ∧ e'.1 = e.1 ∧ q'.map (·.1) = q.map (·.1) := by
  rw [hpq, List.map_append, List.map_cons, List.map_eq_append_iff] at h
  obtain ⟨p', r, rfl, h1, h2⟩ := h
  rw [List.map_eq_cons_iff] at h2
  obtain ⟨e', q', rfl, h3, h4⟩ := h2
  exact ⟨p', e', q', rfl, h1, h3, h4⟩

theorem names_last {p p' : List (String × ADB)} (h : p'.map (·.1) = p.map (·.1)) :
    p'.getLast?.map (·.1) = p.getLast?.map (·.1) := by
  rw [← List.getLast?_map, ← List.getLast?_map, h]

/-- C64: making all migrations again, successfully or not, keeps the migrations, and the schema
of each is read exactly as before.  The files of other directories (the code's schema, and
migrations that were detached) stay as they are. -/
theorem cli_regenerate_keeps (hget : Finds get) {s s' : FsMigrations} (h : Reach json s)
    {made : List (String × ADB)} (hm : HasMigrations json s made) {r : Except Cli.CliErr Unit}
    (hr : Cli.regenerate json get s = (r, s')) :
    HasMigrations json s' made ∧ s'.getLatest = s.getLatest ∧
    (∀ e ∈ made, s'.getDb json e.1 = s.getDb json e.1) ∧
    ∀ n, n ∉ made.map (·.1) → s'.dirs.lookup n = s.dirs.lookup n := by
  obtain ⟨made', hi, ht, hn⟩ := reach_exact h hm
  unfold Cli.regenerate at hr
  split at hr
  · cases hr
    exact ⟨hm, rfl, fun _ _ => rfl, fun _ _ => rfl⟩
  · rename_i backends hb
    rw [hi.inv.all] at hr
    obtain ⟨g1, _, g3, _⟩ := regenerateLoop_keeps (a := []) (latestBackends_nodup hget hi.inv ht hb) hi ht hr
    rw [List.nil_append] at g1
    have hdb : ∀ e ∈ made', s'.getDb json e.1 = s.getDb json e.1 := by
      intro e he
      obtain ⟨p, q, hpq⟩ := List.append_of_mem he
      rw [dirOk_getDb (g1.dirs p e q hpq), dirOk_getDb (hi.dirs p e q hpq)]
    have hdb' : ∀ e ∈ made, s'.getDb json e.1 = s.getDb json e.1 := by
      intro e he
      have : e.1 ∈ made'.map (·.1) := by rw [hn]; exact List.mem_map.2 ⟨e, he, rfl⟩
      obtain ⟨x, hx, hxe⟩ := List.mem_map.1 this
      rw [← hxe]
      exact hdb x hx
    refine ⟨?_, by rw [g1.inv.getLatest, hi.inv.getLatest], hdb', fun n hnn => g3 n (by rw [hn]; exact hnn)⟩
    have hs : FsInv s' made := by
      have h0 := hi.inv.of_chain hm
      refine ⟨by rw [g1.latest, hi.latest.symm, h0.latest], h0.nodup, h0.notCurrent, ?_⟩
      intro a e b hab
      obtain ⟨a', e', b', hab', k1, k2, _⟩ := names_split hn hab
      obtain ⟨d, hd, hsame⟩ := h0.dirs a e b hab
      have he := hdb' e (by rw [hab]; simp)
      have hd' := g1.dirs a' e' b' hab'
      have e1 := dirOk_getDb (json := json) hd
      rw [← he, ← k2, dirOk_getDb hd'] at e1
      cases e1
      rw [k1, k2, names_last k1] at hd'
      exact ⟨_, hd', hsame⟩
    exact hs.asChain ""

theorem sqlFrom_of {s : FsMigrations} {name : String} {made : List (String × ADB)} {from_ : Option String} {old new : ADB}
    {b : MigBackend} (hf : from_ = made.getLast?.map (·.1))
    (h : FilesFor (s.dir name) (s.info name) old new (upChanges from_ (diff old new)) b) :
    SqlFrom s b name old new (changesFrom made old new) := by
  obtain ⟨up, down, up', down', ⟨k1, k2⟩, k3, k4, k5, k6, k7⟩ := h
  refine ⟨up, down, up', down', ?_, k2, fileText_of k3, fileText_of k4, sqlIs_mk k5 k6 (by simp [k7])⟩
  rw [← k1]
  congr 1
  unfold changesFrom upChanges
  rw [hf]
  cases made with
  | nil => rfl
  | cons _ _ => simp [List.getLast?_cons]

/-- C64: after that, each migration has SQL for exactly the backends that the latest migration
had, generated from its schema and that of its predecessor. -/
theorem cli_regenerate (hget : Finds get) {s s' : FsMigrations} (h : Reach json s)
    {made : List (String × ADB)} (hm : HasMigrations json s made)
    (hr : Cli.regenerate json get s = (.ok (), s')) :
    ∃ latest, s.getLatest = some latest ∧ ∀ p e q, made = p ++ e :: q → ∃ old new,
      (match p.getLast? with
        | none => old = ADB.new
        | some x => s.getDb json x.1 = .ok old) ∧ s.getDb json e.1 = .ok new ∧
      (∀ x ∈ (s.info latest).backends, ∃ b, get x = some b ∧ SqlFrom s' b e.1 old new (changesFrom p old new)) ∧
      (∀ x, x ∉ (s.info latest).backends → SqlIs s' x e.1 none none False) := by
  obtain ⟨made', hi, ht, hn⟩ := reach_exact h hm
  unfold Cli.regenerate at hr
  split at hr
  · cases hr
  · rename_i backends hb
    obtain ⟨n, hl, hbn, _, hbg⟩ := latestBackends_ok hget hb
    refine ⟨n, hl, fun p e q hpq => ?_⟩
    rw [hi.inv.all] at hr
    obtain ⟨_, _, _, g4⟩ := regenerateLoop_keeps (a := []) (latestBackends_nodup hget hi.inv ht hb) hi ht hr
    obtain ⟨p', e', q', hpq', k1, k2, _⟩ := names_split hn hpq
    obtain ⟨m1, m2⟩ := g4 rfl p' e' q' hpq'
    rw [List.nil_append, k2] at m1
    rw [k2] at m2
    refine ⟨before p', e'.2, ?_, ?_, ?_, ?_⟩
    · have := names_last k1
      unfold before
      rcases List.eq_nil_or_concat p' with rfl | ⟨a, x, rfl⟩
      · cases hp : p.getLast? with
        | none => rfl
        | some y => rw [hp] at this; cases this
      · rw [List.concat_eq_append] at this hpq' ⊢
        simp only [List.getLast?_append, List.getLast?_singleton, Option.some_or, Option.map_some] at this ⊢
        cases hp : p.getLast? with
        | none => rw [hp] at this; cases this
        | some y =>
          rw [hp] at this
          have hxy : x.1 = y.1 := Option.some.inj this
          dsimp only
          rw [← hxy]
          exact dirOk_getDb (hi.dirs a x (e' :: q') (by rw [hpq']; simp))
    · rw [← k2]
      exact dirOk_getDb (hi.dirs p' e' q' hpq')
    · intro x hx
      rw [← hbn] at hx
      obtain ⟨b, hb, rfl⟩ := List.mem_map.1 hx
      exact ⟨b, hbg b hb, sqlFrom_of (names_last k1) (m1 b hb)⟩
    · intro x hx
      obtain ⟨k3, k4, k5⟩ := m2 x (fun b hb he => hx (by rw [← hbn, he]; exact List.mem_map.2 ⟨b, hb, rfl⟩))
      exact sqlIs_mk k3 k4 (by simp [k5])

theorem regenerateLoop_succeeds {backends : List MigBackend} (hnd : (backends.map (·.name)).Nodup)
    (hsql : ∀ b ∈ backends, ∀ db ops, ops ≠ [] → ∃ text, b.sql db ops = .ok text ∧ text ≠ "")
    {rest a : List (String × ADB)} {s : FsMigrations} (h : FsExact s (a ++ rest)) :
    ∃ s', Cli.regenerateLoop json backends (rest.map (·.1)) (a.getLast?.map (·.1)) s = (.ok (), s') := by
  induction rest generalizing a s with
  | nil => exact ⟨s, rfl⟩
  | cons e rest ih =>
    have hdir := h.dirs a e rest rfl
    rw [List.map_cons, regenerateLoop_cons (dirOk_getDb hdir) (from_ := a.getLast?.map (·.1)) (by
      cases hl : a.getLast? with
      | none => rfl
      | some x =>
        exact (h.inv.get (List.mem_map.2 ⟨x, by simp [List.mem_of_getLast? hl], rfl⟩)).1)]
    have hf := h.fromOk
    have hd := h.changed a e rest rfl
    obtain ⟨q, hq, hT⟩ := fs_tables_gen (json := json) hf hdir.settled
    obtain ⟨p2, g2⟩ := fs_sql_loop_ok (json := json) (fromDb := before a) (toDb := e.2)
      (changes := upChanges (a.getLast?.map (·.1)) (diff (before a) e.2)) (backends := backends)
      (fun b hb => by
        obtain ⟨up, hu, hu'⟩ := hsql b hb (before a) (upChanges (a.getLast?.map (·.1)) (diff (before a) e.2)) (by
          unfold upChanges
          split
          · simp
          · exact hd)
        obtain ⟨down, hw, hw'⟩ := hsql b hb e.2 (diff e.2 (before a))
          (diff_ne_symm hf.settled.valid hdir.settled.valid hd)
        exact ⟨up, down, ⟨hu, hw⟩, hu', hw'⟩) q
    have hc := create_true_intro (ops := FsMigrations.ops json) (hf.read json) hd hq g2 rfl rfl
    rw [hc]
    dsimp only
    have := (regen_step hnd h hc).1
    rw [show a ++ e :: rest = (a ++ [e]) ++ rest by simp] at this
    obtain ⟨s', hs'⟩ := ih this
    refine ⟨s', ?_⟩
    simpa using hs'

/-- C64: it succeeds if the backends can express all changes. -/
theorem cli_regenerate_succeeds (hget : Finds get) {s : FsMigrations} (h : Reach json s)
    {backends : List MigBackend} (hbs : Cli.latestBackends get s = .ok backends)
    (hsql : ∀ b ∈ backends, ∀ db ops, ops ≠ [] → ∃ text, b.sql db ops = .ok text ∧ text ≠ "") :
    ∃ s', Cli.regenerate json get s = (.ok (), s') := by
  obtain ⟨made, hi, ht⟩ := h.inv
  unfold Cli.regenerate
  rw [hbs]
  dsimp only
  rw [hi.inv.all]
  exact regenerateLoop_succeeds (a := []) (latestBackends_nodup hget hi.inv ht hbs) hsql hi

/-- **C64 is violated by a crash**: the tables of a migration are deleted before they are
written again.  In the state in between the schema of the migration is read, without an error,
as the empty schema. -/
theorem cli_regenerate_crash_violated (s : FsMigrations) (n : String) :
    (Cli.deleteDb n s).getDb json n = .ok ADB.new := by
  obtain ⟨d1, d2, _, d4⟩ := deleteDb_dir n s
  unfold FsMigrations.getDb
  rw [d1, d2, d4]
  rfl

/-! ### Making a migration -/

/-- The backends a new migration is made for: those of the latest one; or, if there is none or
the tool does not know all its backends, the one of the connection file. -/
def NewBackends (get : String → Option MigBackend) (spec : Option (Option MigBackend)) (s : FsMigrations)
    (backends : List MigBackend) : Prop :=
  (∃ n, s.getLatest = some n ∧ backends ≠ [] ∧ backends.map (·.name) = (s.info n).backends ∧
    ∀ b ∈ backends, get b.name = some b) ∨
  ((∀ n, s.getLatest = some n → ∃ x ∈ (s.info n).backends, get x = none) ∧ ∃ b, spec = some (some b) ∧ backends = [b])

theorem mapM_none {names : List String} (h : names.mapM get = none) : ∃ x ∈ names, get x = none := by
  induction names with
  | nil => simp at h
  | cons n names ih =>
    cases hn : get n with
    | none => exact ⟨n, by simp, hn⟩
    | some b =>
      rw [List.mapM_cons, hn] at h
      simp only [Option.bind_eq_bind, Option.bind_some, Option.pure_def, Option.bind_eq_none_iff] at h
      cases hm : names.mapM get with
      | none =>
        obtain ⟨x, hx, hg⟩ := ih hm
        exact ⟨x, by simp [hx], hg⟩
      | some l => exact absurd (h l hm) (by simp)

theorem loadBackends_spec (hget : Finds get) {spec : Option (Option MigBackend)}
    {s : FsMigrations} {backends : List MigBackend} (h : Cli.loadBackends get spec s = .ok backends) :
    NewBackends get spec s backends := by
  unfold Cli.loadBackends at h
  split at h
  · rename_i bs hb
    cases h
    obtain ⟨n, h1, h2, h3, h4⟩ := latestBackends_ok hget hb
    exact .inl ⟨n, h1, h3, h2, h4⟩
  · cases h
  · rename_i e hne he
    right
    constructor
    · intro n hn
      unfold Cli.latestBackends at he
      rw [hn] at he
      dsimp only at he
      split at he
      · cases he
        exact absurd rfl hne
      · split at he
        · rename_i hmap
          exact mapM_none hmap
        · cases he
    · split at h
      · cases h
      · cases h
      · cases h
        exact ⟨_, rfl, rfl⟩

theorem make_cases {spec : Option (Option MigBackend)} {name : String} {s s' : FsMigrations}
    {made : List (String × ADB)} (hi : FsInv s made) {r : Except Cli.CliErr Bool}
    (h : Cli.makeMigration json get spec name s = (r, s')) :
    ((∃ e, r = .error e) ∧ s' = s) ∨ (name ∉ made.map (·.1) ∧ ∃ backends toDb r1,
      Cli.loadBackends get spec s = .ok backends ∧ s.getDb json "current" = .ok toDb ∧
      createMigrationTo (FsMigrations.ops json) backends name s.getLatest toDb s = (r1, s') ∧
      ((∃ e, r1 = .error e ∧ r = .error (.lib e)) ∨ ∃ b, r1 = .ok b ∧ r = .ok b)) := by
  unfold Cli.makeMigration at h
  rw [hi.all] at h
  dsimp only at h
  split at h
  · cases h
    exact .inl ⟨⟨_, rfl⟩, rfl⟩
  · rename_i hc
    split at h
    · cases h
      exact .inl ⟨⟨_, rfl⟩, rfl⟩
    · rename_i backends hb
      split at h
      · cases h
        exact .inl ⟨⟨_, rfl⟩, rfl⟩
      · rename_i toDb hdb
        right
        refine ⟨by simpa using hc, backends, toDb, ?_⟩
        split at h
        · rename_i hx
          cases h
          exact ⟨_, hb, hdb, hx, .inl ⟨_, rfl, rfl⟩⟩
        · rename_i hx
          cases h
          exact ⟨_, hb, hdb, hx, .inr ⟨_, rfl, rfl⟩⟩

/-- C65: a migration that was made is the latest, follows the one that was, has the schema of
the code, and SQL for exactly the backends of the one before (for the first: the backend of the
connection), generated for the changes between the two schemas.  All other files stay as they
are. -/
theorem cli_make (hget : Finds get) {s s' : FsMigrations} (h : Reach json s)
    {made : List (String × ADB)} (hm : HasMigrations json s made) {spec : Option (Option MigBackend)} {name : String}
    (hfresh : s.dirs.lookup name = none) (hcur : name ≠ "current")
    (hset : ∀ toDb, s.getDb json "current" = .ok toDb → Settled toDb)
    (hr : Cli.makeMigration json get spec name s = (.ok true, s')) :
    ∃ toDb old backends, s.getDb json "current" = .ok toDb ∧ HasMigrations json s' (made ++ [(name, toDb)]) ∧
      s'.getLatest = some name ∧ (∀ n, n ≠ name → s'.dirs.lookup n = s.dirs.lookup n) ∧
      LatestSchema json s old ∧ SameSchema old (before made) ∧ NewBackends get spec s backends ∧
      (∀ b ∈ backends, SqlFrom s' b name old toDb (changesFrom made old toDb)) ∧
      (∀ x, (∀ b ∈ backends, b.name ≠ x) → SqlIs s' x name none none False) := by
  obtain ⟨hi, ht⟩ := reach_inv h hm
  rcases make_cases hi hr with ⟨⟨_, h1⟩, _⟩ | ⟨_, backends, toDb, r1, hb, hdb, hc, h2⟩
  · cases h1
  rcases h2 with ⟨_, _, h2⟩ | ⟨_, rfl, h2⟩
  · cases h2
  cases h2
  have hnd := loadBackends_nodup hget hi ht hb
  have hi' := fs_inv_create hnd hi ⟨hfresh, hcur⟩ (hset toDb hdb) hc
  obtain ⟨old, h3, h4, hsame⟩ := fs_before (json := json) hi
  obtain ⟨old', db, g0, _, _, _, g3, _, g5⟩ := fs_create_details hnd hi hfresh (hset toDb hdb) hc
  rw [h3] at g0
  cases g0
  refine ⟨toDb, old, backends, hdb, hi'.asChain "", ?_, g5, ?_, hsame, loadBackends_spec hget hb, ?_, ?_⟩
  · rw [hi'.getLatest]; simp
  · unfold LatestSchema
    unfold readFrom at h3
    split
    · rename_i hl
      rw [hl] at h3
      exact (Except.ok.inj h3).symm
    · rename_i n hl
      rw [hl] at h3
      exact h3
  · intro b hb
    exact sqlFrom_of hi.getLatest (g3 b hb)
  · intro x hx
    have := sqlOf_create hc (x := x) (fun b hb he => hx b hb he.symm) name
    have hempty : s.dir name = FsDir.empty := by unfold FsMigrations.dir; rw [hfresh]
    unfold sqlOf at this
    rw [info_eq s, hempty] at this
    simp only [Prod.mk.injEq] at this
    exact sqlIs_mk this.1 this.2.1 (by rw [this.2.2]; simp [FsDir.empty, FsInfo.new])

/-- C65: when no migration is made, because of an error or because there is nothing to do, the
migrations and all files but those of the new migration stay as they are; if there is nothing
to do, so does everything. -/
theorem cli_make_not {s s' : FsMigrations} (h : Reach json s)
    {made : List (String × ADB)} (hm : HasMigrations json s made) {spec : Option (Option MigBackend)} {name : String}
    {r : Except Cli.CliErr Bool} (hr : Cli.makeMigration json get spec name s = (r, s')) (hne : r ≠ .ok true) :
    HasMigrations json s' made ∧ s'.getLatest = s.getLatest ∧
    (∀ n, n ≠ name → s'.dirs.lookup n = s.dirs.lookup n) ∧ (r = .ok false → s' = s) := by
  obtain ⟨hi, ht⟩ := reach_inv h hm
  rcases make_cases hi hr with ⟨⟨_, rfl⟩, rfl⟩ | ⟨hnot, backends, toDb, r1, hb, hdb, hc, h2⟩
  · exact ⟨hm, rfl, fun _ _ => rfl, fun h => by cases h⟩
  have hframe := fs_create_frame hc
  have hr1 : r1 ≠ .ok true := by
    rcases h2 with ⟨_, rfl, _⟩ | ⟨b, rfl, rfl⟩
    · intro h; cases h
    · intro h; cases h; exact hne rfl
  have hi' := fsInv_frame hi hnot ⟨hframe.2.1 hr1, hframe.1⟩
  refine ⟨hi'.asChain "", by rw [hi'.getLatest, hi.getLatest], hframe.1, ?_⟩
  rintro rfl
  rcases h2 with ⟨_, _, h2⟩ | ⟨b, rfl, h2⟩
  · cases h2
  · cases h2
    exact hframe.2.2 rfl

/-- C65: nothing is to be done exactly if the schema of the code is that of the latest migration
(defaults that are not-a-number aside, as for C02). -/
theorem cli_make_nothing_partial {s s' : FsMigrations}
    (h : Reach json s) {made : List (String × ADB)} (hm : HasMigrations json s made)
    (hsetm : ∀ e ∈ made, Settled e.2) (hnan : NoNaN (before made)) {spec : Option (Option MigBackend)} {name : String}
    {backends : List MigBackend} (hb : Cli.loadBackends get spec s = .ok backends) (hname : name ∉ made.map (·.1))
    {toDb : ADB} (hdb : s.getDb json "current" = .ok toDb) (hset : ValidSchema toDb)
    {r : Except Cli.CliErr Bool} (hr : Cli.makeMigration json get spec name s = (r, s')) :
    r = .ok false ↔ SameSchema (before made) toDb := by
  obtain ⟨hi, ht⟩ := reach_inv h hm
  have hbs := (before_settled hsetm).valid
  obtain ⟨old, h1, h2, hsame⟩ := fs_before (json := json) hi
  have key : diff old toDb = [] ↔ SameSchema (before made) toDb := by
    rw [diff_nil_iff_partial old toDb h2.valid hset (noNaN_same h2.valid hsame hnan)]
    exact ⟨sameSchema_trans hbs h2.valid hset (sameSchema_symm h2.valid hbs hsame),
      sameSchema_trans h2.valid hbs hset hsame⟩
  rw [← key]
  unfold Cli.makeMigration at hr
  rw [hi.all] at hr
  dsimp only at hr
  rw [if_neg (by simpa using hname), hb] at hr
  dsimp only at hr
  rw [hdb] at hr
  dsimp only at hr
  rcases hc : createMigrationTo (FsMigrations.ops json) backends name s.getLatest toDb s with ⟨r1, s1⟩
  rw [hc] at hr
  have hr1 : r = .ok false ↔ r1 = .ok false := by
    cases r1 with
    | error e => cases hr; constructor <;> (intro h; cases h)
    | ok b => cases hr; constructor <;> (intro h; cases h; rfl)
  rw [hr1]
  rcases create_cases hc with ⟨_, e, _, he⟩ | ⟨old', h0, ⟨_, hr, hd⟩ | ⟨hd, hrest⟩⟩
  · rw [h1] at he; cases he
  · rw [h1] at h0
    cases h0
    exact ⟨fun _ => hd, fun _ => hr⟩
  · rw [h1] at h0
    cases h0
    refine ⟨fun hr => ?_, fun hd' => absurd hd' hd⟩
    obtain ⟨r1, p1, _, ⟨e, _, he, _⟩ | ⟨_, r2, p2, _, ⟨e, _, he, _⟩ | ⟨_, r3, p3, _, ⟨e, _, he, _⟩ |
      ⟨_, r4, _, ⟨e, _, he⟩ | ⟨_, he⟩⟩⟩⟩⟩ := hrest <;> (rw [hr] at he; cases he)

/-- C65: a name that a migration already has is refused. -/
theorem cli_make_taken {s : FsMigrations} (h : Reach json s)
    {made : List (String × ADB)} (hm : HasMigrations json s made) (spec : Option (Option MigBackend)) {name : String}
    (hname : name ∈ made.map (·.1)) : Cli.makeMigration json get spec name s = (.error .exit, s) := by
  obtain ⟨hi, _⟩ := reach_inv h hm
  unfold Cli.makeMigration
  rw [hi.all]
  dsimp only
  rw [if_pos (by simpa using hname)]

/-- C65: a migration is made if the schema of the code is not that of the latest migration, and
the backends can express the changes. -/
theorem cli_make_succeeds {s : FsMigrations} (h : Reach json s)
    {made : List (String × ADB)} (hm : HasMigrations json s made) (hval : ∀ e ∈ made, ValidSchema e.2)
    {spec : Option (Option MigBackend)} {name : String} (hfresh : s.dirs.lookup name = none)
    {backends : List MigBackend} (hbs : Cli.loadBackends get spec s = .ok backends)
    {toDb : ADB} (hdb : s.getDb json "current" = .ok toDb) (hset : Settled toDb)
    (hne : ¬ SameSchema (before made) toDb)
    (hsql : ∀ b ∈ backends, ∀ old, LatestSchema json s old → SameSchema old (before made) →
      (∃ text, b.sql old (changesFrom made old toDb) = .ok text ∧ text ≠ "") ∧
      ∃ text, b.sql toDb (diff toDb old) = .ok text ∧ text ≠ "") :
    ∃ s', Cli.makeMigration json get spec name s = (.ok true, s') := by
  obtain ⟨hi, ht⟩ := reach_inv h hm
  obtain ⟨old, h1, h2, hsame⟩ := fs_before (json := json) hi
  have hlat : LatestSchema json s old := by
    have h3 := h1
    unfold LatestSchema
    unfold readFrom at h3
    split
    · rename_i hl
      rw [hl] at h3
      exact (Except.ok.inj h3).symm
    · rename_i n hl
      rw [hl] at h3
      exact h3
  have hch : changesFrom made old toDb = upChanges s.getLatest (diff old toDb) := by
    unfold changesFrom upChanges
    rw [hi.getLatest]
    cases made with
    | nil => rfl
    | cons _ _ => simp [List.getLast?_cons]
  have hb : ValidSchema (before made) := by
    unfold before
    cases hl : made.getLast? with
    | none => exact settled_new.valid
    | some e => exact hval e (List.mem_of_getLast? hl)
  have hd : diff old toDb ≠ [] := fun hd =>
    hne (sameSchema_trans hb h2.valid hset.valid (sameSchema_symm h2.valid hb hsame)
      (same_of_diff_nil _ _ h2.valid hset.valid hd))
  obtain ⟨q, hq, hT⟩ := fs_tables_loop hi hfresh hset h1
  obtain ⟨p2, g2⟩ := fs_sql_loop_ok (json := json) (fromDb := old) (toDb := toDb)
    (changes := upChanges s.getLatest (diff old toDb)) (backends := backends)
    (fun b hb => by
      obtain ⟨⟨up, hu, hu'⟩, down, hd, hd'⟩ := hsql b hb old hlat hsame
      rw [hch] at hu
      exact ⟨up, down, ⟨hu, hd⟩, hu', hd'⟩) q
  have hc := create_true_intro (ops := FsMigrations.ops json) h1 hd hq g2 rfl rfl
  have hnot : name ∉ made.map (·.1) := fun hn => by
    obtain ⟨d, hd⟩ := (hi.get hn).2
    rw [hfresh] at hd
    cases hd
  refine ⟨?_, ?_⟩
  rotate_left
  · unfold Cli.makeMigration
    rw [hi.all]
    dsimp only
    rw [if_neg (by simpa using hnot), hbs]
    dsimp only
    rw [hdb]
    dsimp only
    rw [hc]

/-! ### Concrete cases -/

/-- `q`, which cannot express three changes at once; and newer backends, with other SQL. -/
def exGetHalf (n : String) : Option MigBackend :=
  if n = "p" then some (exSql n)
  else if n = "q" then some ⟨"q", fun db ops => if ops.length = 3 then .error .sql else (exSql "q").sql db ops⟩
  else none
def exGetNew (n : String) : Option MigBackend :=
  if n = "p" ∨ n = "q" then some ⟨n, (exSql ("n" ++ n)).sql⟩ else none

theorem exGetHalf_name : Finds exGetHalf := by
  intro n b h
  unfold exGetHalf at h
  split at h
  · cases h; rfl
  · split at h
    · rename_i hn
      cases h; exact hn.symm
    · cases h
theorem exGetNew_name : Finds exGetNew := by
  intro n b h
  unfold exGetNew at h
  split at h
  · cases h; rfl
  · cases h

/-- Adding `q` failed at `m3`; then all were made again by a newer version of the tool. -/
def exHalf : FsMigrations :=
  ⟨[exNow ["B", "C"],
    exM1 [("p_down", "p-A\n"), ("p_up", "p+A?butane_migrations\n"), ("q_down", "q-A\n"), ("q_up", "q+A?butane_migrations\n")]
      ["p", "q"],
    exM2 [("p_down", "p-B\n"), ("p_up", "p+B\n"), ("q_down", "q-B\n"), ("q_up", "q+B\n")] ["p", "q"],
    exM3 [("p_down", "p+A-C\n"), ("p_up", "p+C-A\n")] ["p"]], some "m3"⟩
def exAgain : FsMigrations :=
  ⟨[exNow ["B", "C"], exM1 [("p_down", "np-A\n"), ("p_up", "np+A?butane_migrations\n")] ["p"],
    exM2 [("p_down", "np-B\n"), ("p_up", "np+B\n")] ["p"],
    exM3 [("p_down", "np+A-C\n"), ("p_up", "np+C-A\n")] ["p"]], some "m3"⟩
theorem exAddHalf : Cli.addBackend false exGetHalf "q" exCli3 = (.error (.lib .sql), exHalf) := rfl
theorem exRegen : Cli.regenerate false exGetNew exHalf = (.ok (), exAgain) := rfl

theorem exHalf_ok : Reach false exHalf ∧ HasMigrations false exHalf exMade3 :=
  ⟨.addBackend exCli3_reach.2.2 exGetHalf_name exAddHalf,
    (cli_add_backend_keeps exGetHalf_name exCli3_reach.2.2 exCli3_has exAddHalf).1⟩

example : HasMigrations false exAgain exMade3 ∧ exAgain.getLatest = exHalf.getLatest ∧
    (∀ e ∈ exMade3, exAgain.getDb false e.1 = exHalf.getDb false e.1) ∧
    ∀ n, n ∉ exMade3.map (·.1) → exAgain.dirs.lookup n = exHalf.dirs.lookup n :=
  cli_regenerate_keeps exGetNew_name exHalf_ok.1 exHalf_ok.2 exRegen
example : ∃ latest, exHalf.getLatest = some latest ∧ ∀ p e q, exMade3 = p ++ e :: q → ∃ old new,
      (match p.getLast? with
        | none => old = ADB.new
        | some x => exHalf.getDb false x.1 = .ok old) ∧ exHalf.getDb false e.1 = .ok new ∧
      (∀ x ∈ (exHalf.info latest).backends, ∃ b, exGetNew x = some b ∧
        SqlFrom exAgain b e.1 old new (changesFrom p old new)) ∧
      (∀ x, x ∉ (exHalf.info latest).backends → SqlIs exAgain x e.1 none none False) :=
  cli_regenerate exGetNew_name exHalf_ok.1 exHalf_ok.2 exRegen
example : (exHalf.toMigs "q").up "m1" = .ok (some "q+A?butane_migrations\n") ∧
    (exAgain.toMigs "q").up "m1" = .ok none ∧ (exAgain.toMigs "p").up "m3" = .ok (some "np+C-A\n") := ⟨rfl, rfl, rfl⟩
example : ∃ s', Cli.regenerate false exGetNew exHalf = (.ok (), s') :=
  cli_regenerate_succeeds exGetNew_name exHalf_ok.1 (backends := [⟨"p", (exSql "np").sql⟩]) rfl (by
    intro b hb db ops _
    simp only [List.mem_singleton] at hb
    subst hb
    exact exSql_some "np" (by decide) db ops)
/-- A failure of the SQL keeps the schemas all the same. -/
example : ∃ s', Cli.regenerate false exGetHalf exCli4 = (.error (.lib .sql), s') ∧ HasMigrations false s' exMade3 :=
  ⟨_, rfl, (cli_regenerate_keeps exGetHalf_name exCli4_ok.1 exCli4_ok.2 rfl).1⟩
example : exHalf.getDb false "m3" = .ok (exDbOf ["B", "C"]) ∧
    (Cli.deleteDb "m3" exHalf).getDb false "m3" = .ok ADB.new :=
  ⟨rfl, cli_regenerate_crash_violated _ _⟩

/-- `m3` is made. -/
def exMade2 : List (String × ADB) := [("m1", exDbOf ["A"]), ("m2", exDbOf ["A", "B"])]

theorem exCli2_has {ns : List String} (h : ns = ["B", "C"] ∨ ns = ["A", "B"]) :
    HasMigrations false (exCode ns exCli2) exMade2 := by
  rcases h with rfl | rfl
  all_goals
    refine ⟨["m1", "m2"], ⟨rfl, ?_, ?_⟩, ?_, ?_⟩
    · rintro p m ⟨a, b, h⟩
      match a, h with
      | [], h => cases h; exact ⟨"m1", rfl, rfl⟩
      | [_], h => simp at h
      | _ :: _ :: _, h => simp at h
    · intro m hm
      cases hm
      exact .inl rfl
    · intro m hm
      cases hm
      rfl
    · exact .cons ⟨rfl, _, rfl, sameSchema_refl _⟩ (.cons ⟨rfl, _, rfl, sameSchema_refl _⟩ .nil)

theorem exMade2_settled : ∀ e ∈ exMade2, Settled e.2 := by
  intro e he
  simp [exMade2] at he
  rcases he with rfl | rfl
  · exact exDbOf_a
  · exact exDbOf_ab

example : ∃ toDb old backends, (exCode ["B", "C"] exCli2).getDb false "current" = .ok toDb ∧
      HasMigrations false exCli3 (exMade2 ++ [("m3", toDb)]) ∧
      exCli3.getLatest = some "m3" ∧ (∀ n, n ≠ "m3" → exCli3.dirs.lookup n = (exCode ["B", "C"] exCli2).dirs.lookup n) ∧
      LatestSchema false (exCode ["B", "C"] exCli2) old ∧ SameSchema old (before exMade2) ∧ NewBackends exGet none (exCode ["B", "C"] exCli2) backends ∧
      (∀ b ∈ backends, SqlFrom exCli3 b "m3" old toDb (changesFrom exMade2 old toDb)) ∧
      (∀ x, (∀ b ∈ backends, b.name ≠ x) → SqlIs exCli3 x "m3" none none False) :=
  cli_make exGet_name (exCode_reach _ exCli3_reach.2.1) (exCli2_has (.inl rfl)) rfl (by decide) (fun toDb h => by
    cases h; exact exDbOf_bc) exMake3
example : ∃ s', Cli.makeMigration false exGet none "m3" (exCode ["B", "C"] exCli2) = (.ok true, s') :=
  cli_make_succeeds (exCode_reach _ exCli3_reach.2.1) (exCli2_has (.inl rfl))
    (fun e he => (exMade2_settled e he).valid) rfl
    (backends := [exSql "p"]) rfl (toDb := exDbOf ["B", "C"]) rfl exDbOf_bc (fun h => h "C") (by
      intro b hb old _ _
      simp only [List.mem_singleton] at hb
      subst hb
      exact ⟨exSql_some "p" (by decide) _ _, exSql_some "p" (by decide) _ _⟩)
example : (.ok false : Except Cli.CliErr Bool) = .ok false ↔ SameSchema (before exMade2) (exDbOf ["A", "B"]) :=
  cli_make_nothing_partial (exCode_reach ["A", "B"] exCli3_reach.2.1) (exCli2_has (.inr rfl)) exMade2_settled
    (exDbOf_noNaN ["A", "B"]) (get := exGet) (spec := none) (backends := [exSql "p"]) rfl (name := "m3") (by decide)
    (toDb := exDbOf ["A", "B"]) rfl exDbOf_ab.valid (s' := exCode ["A", "B"] exCli2) rfl
example : HasMigrations false (exCode ["A", "B"] exCli2) exMade2 :=
  (cli_make_not (exCode_reach ["A", "B"] exCli3_reach.2.1) (exCli2_has (.inr rfl)) (get := exGet) (spec := none) (name := "m3")
    (r := .ok false) rfl (fun h => by cases h)).1
example : Cli.makeMigration false exGet none "m2" exCli3 = (.error .exit, exCli3) :=
  cli_make_taken exCli3_reach.2.2 exCli3_has none (by decide)

end Butane.Props
