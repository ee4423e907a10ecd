/-
Lemmas about the commands that change the files of migrations.
-/
import Verif.Spec.Cli
import Verif.Proofs.FsExact

namespace Butane
open Spec Cli FsMigrations

/-! ### What every directory is like -/

/-- The backends are listed once each; the list of SQL files is a map. -/
def TidyDir (d : FsDir) : Prop :=
  (match d.info with | some i => i | none => FsInfo.new).backends.Nodup ∧ d.sql.Sorted

def Tidy (s : FsMigrations) : Prop := ∀ n, n ≠ "current" → TidyDir (s.dir n)

theorem Tidy.info {s : FsMigrations} (h : Tidy s) {n : String} (hn : n ≠ "current") :
    (s.info n).backends.Nodup := by
  have := (h n hn).1
  unfold FsMigrations.info
  revert this
  cases (s.dir n).info <;> exact id

theorem tidy_empty : TidyDir FsDir.empty := ⟨List.nodup_nil, SMap.sorted_nil⟩

theorem Tidy.write {s : FsMigrations} (h : Tidy s) {n : String} {f : FsDir → FsDir}
    (hf : TidyDir (s.dir n) → TidyDir (f (s.dir n))) : Tidy (s.write n f) := by
  intro m hm
  rw [dir_write]
  split
  · rename_i hmn
    subst hmn
    exact hf (h _ hm)
  · exact h m hm

theorem info_eq (s : FsMigrations) (n : String) :
    s.info n = (match (s.dir n).info with | some i => i | none => FsInfo.new) := by
  unfold FsMigrations.info
  cases (s.dir n).info <;> rfl

theorem Tidy.writeInfo {s : FsMigrations} (h : Tidy s) {n : String} {i : FsInfo}
    (hi : (s.info n).backends.Nodup → i.backends.Nodup) : Tidy (s.writeInfo n i) := by
  refine h.write ?_
  intro hd
  refine ⟨?_, hd.2⟩
  rw [info_eq] at hi
  exact hi hd.1

theorem Tidy.addSql {s : FsMigrations} (h : Tidy s) (b up down n : String) : Tidy (s.addSql b up down n).2 := by
  unfold FsMigrations.addSql
  split
  · exact h.write id
  · dsimp only
    have h1 : ∀ {s : FsMigrations}, Tidy s → ∀ k t, Tidy (s.write n fun d => { d with sql := d.sql.insert k t }) :=
      fun h k t => h.write fun hd => ⟨hd.1, SMap.sorted_insert hd.2 _ _⟩
    split
    · exact h1 h _ _
    · split
      · exact h1 (h1 h _ _) _ _
      · rename_i hc
        refine (h1 (h1 h _ _) _ _).writeInfo fun hn => ?_
        rw [List.nodup_append]
        refine ⟨hn, by simp, ?_⟩
        rintro x hx _ hy rfl
        rw [List.mem_singleton] at hy
        subst hy
        simp only [List.contains_eq_mem, decide_eq_true_eq] at hc
        exact hc hx

theorem Tidy.removeSql {s : FsMigrations} (h : Tidy s) (b n : String) : Tidy (s.removeSql b n).2 := by
  have h1 : ∀ {s : FsMigrations}, Tidy s → ∀ k, Tidy (s.write n fun d => { d with sql := d.sql.erase k }) :=
    fun h k => h.write fun hd => ⟨hd.1, SMap.sorted_erase hd.2 _⟩
  unfold FsMigrations.removeSql
  split
  · exact h.write id
  · dsimp only
    split
    · exact h1 h _
    · exact (h1 (h1 h _) _).writeInfo fun hn => hn.filter _

theorem Tidy.addUnmodified {s : FsMigrations} (h : Tidy s) (t : ATable) (f n : String) :
    Tidy (s.addUnmodifiedTable t f n).2 := by
  unfold FsMigrations.addUnmodifiedTable
  split
  · exact h
  · split
    · exact h
    · exact h.writeInfo id

theorem Tidy.create {json : Bool} {backends : List MigBackend} {name : String}
    {from_ : Option String} {toDb : ADB} {s s' : FsMigrations} {r : Except MErr Bool} (ht : Tidy s)
    (h : createMigrationTo (FsMigrations.ops json) backends name from_ toDb s = (r, s')) : Tidy s' := by
  rcases create_cases h with ⟨rfl, _⟩ | ⟨fromDb, h0, ⟨rfl, _⟩ | ⟨hd, r1, p1, h1, hh⟩⟩
  · exact ht
  · exact ht
  have g1 := forSteps_keeps (f := tableStep (FsMigrations.ops json) ((diff fromDb toDb).filterMap modifiedTable) from_)
    (fun q : FsMigrations × String => Tidy q.1) (by
      intro t q hq
      unfold tableStep
      split
      · exact hq.write id
      · cases from_ with
        | none => exact hq
        | some f => exact hq.addUnmodified t f q.2)
    (l := toDb.tables.values) (s := (s, (FsMigrations.ops json).newMigration s name)) ht
  rw [h1] at g1
  rcases hh with ⟨e, _, rfl, rfl⟩ | ⟨rfl, r2, p2, h2, hh⟩
  · exact g1
  have g2 := forSteps_keeps (f := sqlStep (FsMigrations.ops json) fromDb toDb (upChanges from_ (diff fromDb toDb)))
    (fun q : FsMigrations × String => Tidy q.1) (by
      intro b q hq
      unfold sqlStep
      split
      · exact hq
      · split
        · exact hq
        · exact hq.addSql _ _ _ _) (l := backends) (s := p1) g1
  rw [h2] at g2
  rcases hh with ⟨e, _, rfl, rfl⟩ | ⟨rfl, r3, p3, h3, hh⟩
  · exact g2
  cases h3
  have g3 : Tidy (p2.1.setFrom (from_.map (FsMigrations.ops json).name) p2.2) := g2.writeInfo id
  rcases hh with ⟨e, h4, _⟩ | ⟨_, r4, h4, hh⟩
  · cases h4
  cases h4
  have g4 : Tidy ((p2.1.setFrom (from_.map (FsMigrations.ops json).name) p2.2).addMigration p2.2) := by
    unfold FsMigrations.addMigration
    split
    · exact g3
    · exact g3
  rcases hh with ⟨e, h5, _⟩ | ⟨_, _⟩
  · cases h5
  · exact g4

/-! ### Changes to the SQL only -/

/-- Nothing but the SQL files and the lists of backends changed. -/
structure SqlOnly (s s' : FsMigrations) : Prop where
  latest : s'.latest = s.latest
  dir : ∀ n d, s.dirs.lookup n = some d → ∃ d', s'.dirs.lookup n = some d'
  tables : ∀ n, (s'.dir n).tables = (s.dir n).tables
  types : ∀ n, (s'.dir n).types = (s.dir n).types
  from_ : ∀ n, (s'.info n).fromName = (s.info n).fromName
  bases : ∀ n, (s'.info n).tableBases = (s.info n).tableBases

theorem SqlOnly.refl (s : FsMigrations) : SqlOnly s s :=
  ⟨rfl, fun _ d h => ⟨d, h⟩, fun _ => rfl, fun _ => rfl, fun _ => rfl, fun _ => rfl⟩

theorem SqlOnly.trans {s s' s'' : FsMigrations} (h : SqlOnly s s') (h' : SqlOnly s' s'') : SqlOnly s s'' where
  latest := h'.latest.trans h.latest
  dir n d hd := by
    obtain ⟨d', hd'⟩ := h.dir n d hd
    exact h'.dir n d' hd'
  tables n := (h'.tables n).trans (h.tables n)
  types n := (h'.types n).trans (h.types n)
  from_ n := (h'.from_ n).trans (h.from_ n)
  bases n := (h'.bases n).trans (h.bases n)

theorem sqlOnly_write (s : FsMigrations) (n : String) (f : FsDir → FsDir)
    (ht : (f (s.dir n)).tables = (s.dir n).tables) (hy : (f (s.dir n)).types = (s.dir n).types)
    (hi : (match (f (s.dir n)).info with | some i => i | none => FsInfo.new).fromName = (s.info n).fromName ∧
      (match (f (s.dir n)).info with | some i => i | none => FsInfo.new).tableBases = (s.info n).tableBases) :
    SqlOnly s (s.write n f) where
  latest := rfl
  dir m d hd := by
    rw [lookup_write]
    split
    · exact ⟨_, rfl⟩
    · exact ⟨d, hd⟩
  tables m := by
    rw [dir_write]
    split
    · rename_i h; subst h; exact ht
    · rfl
  types m := by
    rw [dir_write]
    split
    · rename_i h; subst h; exact hy
    · rfl
  from_ m := by
    rw [info_eq, dir_write]
    by_cases h : m = n
    · rw [if_pos h]; subst h; exact hi.1
    · rw [if_neg h, info_eq]
  bases m := by
    rw [info_eq, dir_write]
    by_cases h : m = n
    · rw [if_pos h]; subst h; exact hi.2
    · rw [if_neg h, info_eq]

theorem sqlOnly_sql (s : FsMigrations) (n : String) (f : SMap String String → SMap String String) :
    SqlOnly s (s.write n fun d => { d with sql := f d.sql }) :=
  sqlOnly_write s n _ rfl rfl (by rw [info_eq]; exact ⟨rfl, rfl⟩)

theorem sqlOnly_id (s : FsMigrations) (n : String) : SqlOnly s (s.write n id) :=
  sqlOnly_write s n _ rfl rfl (by rw [info_eq]; exact ⟨rfl, rfl⟩)

theorem sqlOnly_backends (s : FsMigrations) (n : String) (l : List String) :
    SqlOnly s (s.writeInfo n { s.info n with backends := l }) :=
  sqlOnly_write s n _ rfl rfl ⟨rfl, rfl⟩

theorem sqlOnly_addSql (s : FsMigrations) (b up down n : String) : SqlOnly s (s.addSql b up down n).2 := by
  unfold FsMigrations.addSql
  split
  · exact sqlOnly_id s n
  · rename_i u _
    dsimp only
    split
    · exact sqlOnly_sql s n fun m => m.insert _ _
    · rename_i d _
      have := (sqlOnly_sql s n fun m => m.insert (b ++ "_up") u).trans
        (sqlOnly_sql _ n fun m => m.insert (b ++ "_down") d)
      split
      · exact this
      · exact this.trans (sqlOnly_backends _ n _)

theorem sqlOnly_removeSql (s : FsMigrations) (b n : String) : SqlOnly s (s.removeSql b n).2 := by
  unfold FsMigrations.removeSql
  split
  · exact sqlOnly_id s n
  · dsimp only
    split
    · exact sqlOnly_sql s n fun m => m.erase _
    · exact ((sqlOnly_sql s n fun m => m.erase (b ++ "_up")).trans
        (sqlOnly_sql _ n fun m => m.erase (b ++ "_down"))).trans (sqlOnly_backends _ n _)

theorem SqlOnly.dirOk {s s' : FsMigrations} (h : SqlOnly s s') {names : List String} {n : String}
    {prev : Option String} {db : ADB} (hd : DirOk s names n prev db) : DirOk s' names n prev db := by
  refine ⟨?_, by rw [h.from_]; exact hd.from_, by rw [h.types]; exact hd.types,
    by rw [h.tables]; exact hd.sortedT, by rw [h.bases]; exact hd.sortedB, ?_, by rw [h.tables]; exact hd.own,
    by rw [h.tables, h.bases]; exact hd.all, hd.settled, hd.extra⟩
  · obtain ⟨d, hd⟩ := hd.dir
    exact h.dir _ d hd
  · intro t x hx
    rw [h.bases] at hx
    rw [h.tables, h.tables]
    exact hd.base t x hx

theorem SqlOnly.inv {s s' : FsMigrations} (h : SqlOnly s s') {made : List (String × ADB)} (hi : FsInv s made) :
    FsInv s' made where
  latest := by rw [h.latest]; exact hi.latest
  nodup := hi.nodup
  notCurrent := hi.notCurrent
  dirs a e b hab := by
    obtain ⟨db, hd, hsame⟩ := hi.dirs a e b hab
    exact ⟨db, h.dirOk hd, hsame⟩

theorem SqlOnly.exact {s s' : FsMigrations} (h : SqlOnly s s') {made : List (String × ADB)} (hi : FsExact s made) :
    FsExact s' made where
  latest := by rw [h.latest]; exact hi.latest
  nodup := hi.nodup
  notCurrent := hi.notCurrent
  dirs a e b hab := h.dirOk (hi.dirs a e b hab)
  changed := hi.changed
  own a e b hab := by rw [h.tables]; exact hi.own a e b hab
  base a e b hab := by rw [h.bases]; exact hi.base a e b hab

theorem readBases_sqlOnly {s s' : FsMigrations} (h : SqlOnly s s') (bases : List (String × String)) (acc : ADB) :
    s'.readBases bases acc = s.readBases bases acc := by
  induction bases generalizing acc with
  | nil => rfl
  | cons e rest ih =>
    simp only [readBases, h.tables]
    cases (s.dir e.2).tables.lookup e.1 with
    | none => rfl
    | some t => exact ih _

theorem SqlOnly.getDb {s s' : FsMigrations} (h : SqlOnly s s') (json : Bool) (n : String) :
    s'.getDb json n = s.getDb json n := by
  unfold FsMigrations.getDb
  rw [readBases_sqlOnly h, h.bases, h.tables, h.types]

/-! ### The backends of a migration -/

/-- What there is of a backend in a migration. -/
def sqlOf (s : FsMigrations) (x n : String) : Option String × Option String × Prop :=
  ((s.dir n).sql.lookup (x ++ "_up"), (s.dir n).sql.lookup (x ++ "_down"), x ∈ (s.info n).backends)

theorem sqlOf_write {s : FsMigrations} {n : String} {f : SMap String String → SMap String String}
    {x : String} (m : String) (h1 : (f (s.dir n).sql).lookup (x ++ "_up") = (s.dir n).sql.lookup (x ++ "_up"))
    (h2 : (f (s.dir n).sql).lookup (x ++ "_down") = (s.dir n).sql.lookup (x ++ "_down")) :
    sqlOf (s.write n fun d => { d with sql := f d.sql }) x m = sqlOf s x m := by
  unfold sqlOf
  rw [info_eq, info_eq, dir_write]
  by_cases h : m = n
  · subst h
    rw [if_pos rfl]
    simp only [h1, h2]
  · rw [if_neg h]

theorem sqlOf_id {s : FsMigrations} {n : String} {x : String} (m : String) :
    sqlOf (s.write n id) x m = sqlOf s x m := by
  unfold sqlOf
  rw [info_eq, info_eq, dir_write]
  by_cases h : m = n
  · subst h
    rw [if_pos rfl]
    rfl
  · rw [if_neg h]

theorem sqlOf_writeInfo {s : FsMigrations} {n : String} {l : List String} {x : String} (m : String)
    (h : x ∈ l ↔ x ∈ (s.info n).backends) :
    sqlOf (s.writeInfo n { s.info n with backends := l }) x m = sqlOf s x m := by
  unfold sqlOf
  by_cases hm : m = n
  · subst hm
    rw [info_writeInfo, writeInfo, dir_write, if_pos rfl]
    simp only [h]
  · have : (s.writeInfo n { s.info n with backends := l }).dirs.lookup m = s.dirs.lookup m := by
      rw [writeInfo, lookup_write, if_neg hm]
    rw [info_congr this, dir_congr this]

theorem sqlOf_addSql {s : FsMigrations} {b up down n x : String} (m : String) (hx : x ≠ b) :
    sqlOf (s.addSql b up down n).2 x m = sqlOf s x m := by
  unfold FsMigrations.addSql
  split
  · exact sqlOf_id m
  · rename_i u hu
    have h1 := sqlOf_write (s := s) (n := n) (f := fun d => d.insert (b ++ "_up") u) (x := x) m
      (by rw [SMap.lookup_insert, if_neg (by rw [append_up_inj]; exact hx)])
      (by rw [SMap.lookup_insert, if_neg (Ne.symm up_ne_down)])
    dsimp only
    split
    · exact h1
    · rename_i d hd
      have h2 := fun s : FsMigrations => sqlOf_write (s := s) (n := n) (f := fun t => t.insert (b ++ "_down") d) (x := x) m
        (by rw [SMap.lookup_insert, if_neg up_ne_down])
        (by rw [SMap.lookup_insert, if_neg (by rw [append_down_inj]; exact hx)])
      split
      · exact (h2 _).trans h1
      · exact (sqlOf_writeInfo m (by simp [hx])).trans ((h2 _).trans h1)

theorem sqlOf_addSql_ne {s : FsMigrations} {b up down n x : String} {m : String} (hm : m ≠ n) :
    sqlOf (s.addSql b up down n).2 x m = sqlOf s x m := by
  have := (fs_addSql_keeps (b := b) (up := up) (down := down) (OnlyIn.refl n s)).2 m hm
  unfold sqlOf
  rw [info_congr this, dir_congr this]

theorem lookup_erase_ne {V : Type} {m : SMap String V} (h : m.Sorted) {k k' : String} (hk : k' ≠ k) :
    (m.erase k).lookup k' = m.lookup k' := by
  rw [SMap.lookup_erase h, if_neg hk]

theorem sqlOf_removeSql {s : FsMigrations} {b n x : String} (hs : (s.dir n).sql.Sorted) (m : String) (hx : x ≠ b) :
    sqlOf (s.removeSql b n).2 x m = sqlOf s x m := by
  unfold FsMigrations.removeSql
  split
  · exact sqlOf_id m
  · have h1 := sqlOf_write (s := s) (n := n) (f := fun d => d.erase (b ++ "_up")) (x := x) m
      (by rw [lookup_erase_ne hs]; rw [ne_eq, append_up_inj]; exact hx)
      (by rw [lookup_erase_ne hs]; exact Ne.symm up_ne_down)
    dsimp only
    split
    · exact h1
    · have hs' : ((s.write n fun d => { d with sql := d.sql.erase (b ++ "_up") }).dir n).sql.Sorted := by
        rw [dir_write, if_pos rfl]
        exact SMap.sorted_erase hs _
      have h2 := sqlOf_write (s := s.write n fun d => { d with sql := d.sql.erase (b ++ "_up") }) (n := n)
        (f := fun t => t.erase (b ++ "_down")) (x := x) m
        (by rw [lookup_erase_ne hs']; exact up_ne_down)
        (by rw [lookup_erase_ne hs']; rw [ne_eq, append_down_inj]; exact hx)
      exact (sqlOf_writeInfo m (by simp [hx])).trans (h2.trans h1)

/-! ### The chain as it is read -/

theorem allMatch_split {α β : Type} {R : α → β → Prop} {l : List α} {a : List β} {e : β} {b : List β}
    (h : AllMatch R l (a ++ e :: b)) :
    ∃ a' e' b', l = a' ++ e' :: b' ∧ AllMatch R a' a ∧ R e' e ∧ AllMatch R b' b := by
  induction a generalizing l with
  | nil =>
    cases h with
    | cons h1 h2 => exact ⟨[], _, _, rfl, .nil, h1, h2⟩
  | cons x a ih =>
    cases h with
    | cons h1 h2 =>
      obtain ⟨a', e', b', rfl, g1, g2, g3⟩ := ih h2
      exact ⟨_ :: a', e', b', rfl, .cons h1 g1, g2, g3⟩

theorem allMatch_of_map {α β γ : Type} {R : γ → β → Prop} {f : α → γ} {l : List α} {m : List β}
    (h : AllMatch R (l.map f) m) : AllMatch (fun a b => R (f a) b) l m := by
  induction l generalizing m with
  | nil => cases h; exact .nil
  | cons a l ih =>
    cases h with
    | cons h1 h2 => exact .cons h1 (ih h2)

theorem allMatch_map_fst {α β γ : Type} {R : α → β → Prop} {f : α → γ} {g : β → γ}
    (hr : ∀ a b, R a b → f a = g b) {l : List α} {m : List β} (h : AllMatch R l m) : l.map f = m.map g := by
  induction h with
  | nil => rfl
  | cons h1 _ ih => rw [List.map_cons, List.map_cons, ih, hr _ _ h1]

theorem FsInv.asChain {json : Bool} {s : FsMigrations} {made : List (String × ADB)} (hi : FsInv s made) (b : String) :
    Chain (s.toMigs b) (s.getDb json) made := by
  refine ⟨made.map (·.1), (hi.path b).1, (hi.path b).2, ?_⟩
  have : ∀ l, l <:+ made → AllMatch (fun m (e : String × ADB) => (s.toMigs b).name m = e.1 ∧
      ∃ d, s.getDb json m = .ok d ∧ SameSchema d e.2) (l.map (·.1)) l := by
    intro l
    induction l with
    | nil => intro _; exact .nil
    | cons e l ih =>
      rintro ⟨a, ha⟩
      refine .cons ⟨rfl, ?_⟩ (ih ⟨a ++ [e], by rw [← ha]; simp⟩)
      obtain ⟨db, hd, hs⟩ := hi.dirs a e l ha.symm
      exact ⟨db, dirOk_getDb hd, hs⟩
  exact this made (List.suffix_refl _)

/-- What is read determines the chain. -/
theorem FsInv.of_chain {json : Bool} {s : FsMigrations} {made made' : List (String × ADB)} (hi : FsInv s made)
    {b : String} (hc : Chain (s.toMigs b) (s.getDb json) made') : FsInv s made' := by
  obtain ⟨l, h1, _, h3⟩ := hc
  have he : l = made.map (·.1) := by
    have g1 := (Props.all_migrations_exact (ms := s.toMigs b) (l.length + made.length) l).2 ⟨h1, by omega⟩
    have g2 := (Props.all_migrations_exact (ms := s.toMigs b) (l.length + made.length) (made.map (·.1))).2
      ⟨(hi.path b).1, by simp⟩
    rw [g1] at g2
    cases g2
    rfl
  subst he
  have h4 := allMatch_of_map h3
  have hnames : made.map (·.1) = made'.map (·.1) := allMatch_map_fst (fun a b h => h.1) h4
  have hlast : made.getLast?.map (·.1) = made'.getLast?.map (·.1) := by
    rw [← List.getLast?_map, ← List.getLast?_map, hnames]
  refine ⟨hi.latest.trans hlast, hnames ▸ hi.nodup, ?_, ?_⟩
  · intro e he
    have : e.1 ∈ made.map (·.1) := hnames ▸ List.mem_map.2 ⟨e, he, rfl⟩
    obtain ⟨x, hx, hxe⟩ := List.mem_map.1 this
    rw [← hxe]
    exact hi.notCurrent x hx
  · intro a e c hac
    subst hac
    obtain ⟨a', e', c', rfl, g1, ⟨g2, d, g3, g4⟩, g5⟩ := allMatch_split h4
    obtain ⟨db, hd, _⟩ := hi.dirs a' e' c' rfl
    have ha : a'.map (·.1) = a.map (·.1) := allMatch_map_fst (fun a b h => h.1) g1
    have hal : a'.getLast?.map (·.1) = a.getLast?.map (·.1) := by
      rw [← List.getLast?_map, ← List.getLast?_map, ha]
    change e'.1 = e.1 at g2
    rw [dirOk_getDb hd] at g3
    cases g3
    rw [ha, hal, g2] at hd
    exact ⟨_, hd, g4⟩

/-! ### The commands -/

theorem FsInv.lt_rounds {s : FsMigrations} {made : List (String × ADB)} (h : FsInv s made) :
    made.length < Cli.rounds s := by
  have : (made.map (·.1)).length ≤ s.dirs.keys.length := length_le_of_subset h.nodup (fun n hn => by
    rw [SMap.mem_keys_iff]
    exact (h.get hn).2)
  unfold SMap.keys at this
  rw [List.length_map, List.length_map] at this
  unfold Cli.rounds
  omega

theorem FsInv.all {s : FsMigrations} {made : List (String × ADB)} (h : FsInv s made) :
    (chain s).allMigrations (Cli.rounds s) = .ok (made.map (·.1)) := by
  rw [Props.all_migrations_exact]
  refine ⟨(h.path "").1, ?_⟩
  have := h.lt_rounds
  rw [List.length_map]
  omega

theorem lookup_deleteMigrations (s : FsMigrations) (n : String) :
    s.deleteMigrations.dirs.lookup n = if n = "current" then s.dirs.lookup n else none := by
  unfold FsMigrations.deleteMigrations
  generalize s.dirs = dirs
  simp only
  induction dirs with
  | nil => simp [SMap.lookup]
  | cons e rest ih =>
    obtain ⟨k, v⟩ := e
    by_cases hk : k = "current"
    · subst hk
      rw [List.filter_cons_of_pos (by simp)]
      simp only [SMap.lookup, ih, Std.LawfulEqOrd.compare_eq_iff_eq]
      by_cases hn : n = "current"
      · rw [if_pos hn, if_pos hn, if_pos hn]
      · rw [if_neg hn, if_neg hn, if_neg hn]
    · rw [List.filter_cons_of_neg (by simpa using hk), ih]
      simp only [SMap.lookup, Std.LawfulEqOrd.compare_eq_iff_eq]
      by_cases hn : n = "current"
      · rw [if_pos hn, if_pos hn, if_neg (by rw [hn]; exact Ne.symm hk)]
      · rw [if_neg hn, if_neg hn]

theorem fsInv_nil {s : FsMigrations} (h : s.latest = none) : FsInv s [] := by
  refine ⟨h, List.nodup_nil, (fun e he => by cases he), ?_⟩
  intro a e b hab
  simp at hab

theorem tidy_deleteMigrations (s : FsMigrations) : Tidy s.deleteMigrations := by
  intro n hn
  have : s.deleteMigrations.dir n = FsDir.empty := by
    unfold FsMigrations.dir
    rw [lookup_deleteMigrations, if_neg hn]
  rw [this]
  exact tidy_empty

theorem mapM_get {get : String → Option MigBackend} (hget : Finds get)
    {names : List String} {backends : List MigBackend} (h : names.mapM get = some backends) :
    backends.map (·.name) = names ∧ ∀ b ∈ backends, get b.name = some b := by
  induction names generalizing backends with
  | nil => simp at h; subst h; simp
  | cons n names ih =>
    rw [List.mapM_cons] at h
    simp only [Option.bind_eq_bind, Option.bind_eq_some_iff, Option.pure_def, Option.some.injEq] at h
    obtain ⟨b, hb, bs, hbs, rfl⟩ := h
    obtain ⟨h1, h2⟩ := ih hbs
    have hn := hget n b hb
    refine ⟨by rw [List.map_cons, h1, hn], ?_⟩
    intro x hx
    rcases List.mem_cons.1 hx with rfl | hx
    · rw [hn]; exact hb
    · exact h2 x hx

theorem latestBackends_ok {get : String → Option MigBackend} (hget : Finds get)
    {s : FsMigrations} {backends : List MigBackend} (h : latestBackends get s = .ok backends) :
    ∃ n, s.getLatest = some n ∧ backends.map (·.name) = (s.info n).backends ∧ backends ≠ [] ∧
      ∀ b ∈ backends, get b.name = some b := by
  unfold latestBackends at h
  split at h
  · cases h
  · rename_i n hn
    dsimp only at h
    split at h
    · cases h
    · rename_i hne
      split at h
      · cases h
      · rename_i bs hbs
        cases h
        obtain ⟨h1, h2⟩ := mapM_get hget hbs
        refine ⟨n, hn, h1, ?_, h2⟩
        rintro rfl
        rw [← h1] at hne
        simp at hne

theorem loadBackends_nodup {get : String → Option MigBackend} (hget : Finds get)
    {s : FsMigrations} {made : List (String × ADB)} (hi : FsInv s made) (ht : Tidy s)
    {spec : Option (Option MigBackend)} {backends : List MigBackend} (h : loadBackends get spec s = .ok backends) :
    (backends.map (·.name)).Nodup := by
  unfold loadBackends at h
  split at h
  · rename_i bs hb
    cases h
    obtain ⟨n, h1, h2, _⟩ := latestBackends_ok hget hb
    rw [h2]
    rw [hi.getLatest] at h1
    cases hl : made.getLast? with
    | none => rw [hl] at h1; cases h1
    | some e =>
      rw [hl] at h1
      cases h1
      exact ht.info (hi.notCurrent e (List.mem_of_getLast? hl))
  · cases h
  · split at h
    · cases h
    · cases h
    · cases h
      simp

theorem latestBackends_nodup {get : String → Option MigBackend} (hget : Finds get)
    {s : FsMigrations} {made : List (String × ADB)} (hi : FsInv s made) (ht : Tidy s)
    {backends : List MigBackend} (h : latestBackends get s = .ok backends) : (backends.map (·.name)).Nodup := by
  refine loadBackends_nodup hget (spec := none) hi ht ?_
  unfold loadBackends
  rw [h]

theorem last_split {α : Type} (P : α → Prop) (l : List α) :
    (∀ m ∈ l, ¬ P m) ∨ ∃ a x b, l = a ++ x :: b ∧ P x ∧ ∀ m ∈ b, ¬ P m := by
  induction l with
  | nil => exact .inl (by simp)
  | cons y l ih =>
    rcases ih with h | ⟨a, x, b, rfl, h1, h2⟩
    · by_cases hy : P y
      · exact .inr ⟨[], y, l, rfl, hy, h⟩
      · refine .inl fun m hm => ?_
        rcases List.mem_cons.1 hm with rfl | hm
        · exact hy
        · exact h m hm
    · exact .inr ⟨y :: a, x, b, rfl, h1, h2⟩

/-- The last applied migration is the last of the chain that is recorded. -/
theorem lastApplied_mem {M U : Type} {ms : Migs M} {l : List M} (hl : IsPath ms l) {fuel : Nat}
    (hf : l.length < fuel) {c : MigConn U} {db : MigDb U} {x : M} (h : ms.lastApplied fuel c db = .ok (some x)) :
    ∃ a b, l = a ++ x :: b ∧ Recorded db (ms.name x) ∧ ∀ m ∈ b, ¬ Recorded db (ms.name m) := by
  rcases last_split (fun m => Recorded db (ms.name m)) l with h1 | ⟨a, y, b, he, h1, h2⟩
  · rcases lastApplied_ok hl (pre := []) (todo := l) rfl h1 (.inl rfl) hf c with h3 | ⟨h3, _⟩
    · rw [h] at h3; cases h3
    · rw [h] at h3; cases h3
  · rcases lastApplied_ok hl (pre := a ++ [y]) (todo := b) (by simp [he]) h2 (.inr ⟨y, a, rfl, h1⟩) hf c with h3 | ⟨h3, _⟩
    · rw [h] at h3
      simp at h3
      subst h3
      exact ⟨a, b, he, h1, h2⟩
    · rw [h] at h3; cases h3

/-- What happens to the files in `detach`. -/
theorem detach_cases {U : Type} {conn : Option (Except MErr (MigConn U))} {db : MigDb U} {s s' : FsMigrations}
    {made : List (String × ADB)} (hi : FsInv s made) {r : Except CliErr Unit}
    (h : Cli.detachLatest conn db s = (r, s')) :
    (r ≠ .ok () ∧ s' = s) ∨ ∃ a x y, made = a ++ [x, y] ∧ r = .ok () ∧ s' = { s with latest := some x.1 } := by
  unfold Cli.detachLatest at h
  rw [hi.all, hi.getLatest] at h
  rcases List.eq_nil_or_concat made with rfl | ⟨a, y, rfl⟩
  · cases h
    exact .inl ⟨(fun h => by cases h), rfl⟩
  rw [List.concat_eq_append] at hi h ⊢
  rcases List.eq_nil_or_concat a with rfl | ⟨a, x, rfl⟩
  · simp at h
    rw [← h.1, ← h.2]
    exact .inl ⟨(fun h => by cases h), rfl⟩
  rw [List.concat_eq_append] at hi h ⊢
  cases hh : ((a ++ [x] ++ [y]).map (·.1)).head? with
  | none => simp at hh
  | some i =>
    dsimp only at h
    rw [hh] at h
    simp only [List.getLast?_append, List.getLast?_singleton, Option.some_or, Option.map_some] at h
    split at h
    · cases h
      exact .inl ⟨(fun h => by cases h), rfl⟩
    · split at h
      · cases h
        exact .inl ⟨(fun h => by cases h), rfl⟩
      · rw [if_neg (by simp)] at h
        obtain ⟨d, hd, _⟩ := hi.dirs (a ++ [x]) y [] rfl
        have hf := hd.from_
        simp at hf
        have : s.detachLatest = (.ok (), { s with latest := some x.1 }) := by
          unfold FsMigrations.detachLatest
          rw [hi.getLatest]
          simp [hf]
        rw [this] at h
        cases h
        exact .inr ⟨a, x, y, by simp, rfl, rfl⟩

theorem fsInv_detach {s : FsMigrations} {a : List (String × ADB)} {x y : String × ADB} (hi : FsInv s (a ++ [x, y])) :
    FsInv { s with latest := some x.1 } (a ++ [x]) where
  latest := by simp
  nodup := by
    have := hi.nodup
    rw [show a ++ [x, y] = (a ++ [x]) ++ [y] by simp, List.map_append] at this
    exact (List.nodup_append.1 this).1
  notCurrent e he := hi.notCurrent e (by
    rcases List.mem_append.1 he with h | h
    · simp [h]
    · simp at h; simp [h])
  dirs p e q hpq := by
    obtain ⟨d, hd, hs⟩ := hi.dirs p e (q ++ [y]) (by
      rw [show a ++ [x, y] = (a ++ [x]) ++ [y] by simp, hpq]
      simp)
    exact ⟨d, dirOk_frame hd rfl (fun _ _ => rfl), hs⟩

theorem addBackendLoop_keeps {json : Bool} {b : MigBackend} {l : List String} {fromDb : ADB} {s s' : FsMigrations}
    {r : Except CliErr Unit} (h : addBackendLoop json b l fromDb s = (r, s')) :
    SqlOnly s s' ∧ (Tidy s → Tidy s') ∧ (∀ n x, x ≠ b.name → sqlOf s' x n = sqlOf s x n) ∧
      ∀ n x, n ∉ l → sqlOf s' x n = sqlOf s x n := by
  induction l generalizing fromDb s with
  | nil =>
    cases h
    exact ⟨.refl _, id, fun _ _ _ => rfl, fun _ _ _ => rfl⟩
  | cons m l ih =>
    unfold addBackendLoop at h
    have hnone : SqlOnly s s ∧ (Tidy s → Tidy s) ∧ (∀ n x, x ≠ b.name → sqlOf s x n = sqlOf s x n) ∧
      ∀ n x, n ∉ m :: l → sqlOf s x n = sqlOf s x n := ⟨.refl s, id, fun _ _ _ => rfl, fun _ _ _ => rfl⟩
    split at h
    · cases h; exact hnone
    · dsimp only at h
      split at h
      · cases h; exact hnone
      · split at h
        · cases h; exact hnone
        · rename_i up _
          split at h
          · cases h; exact hnone
          · rename_i down _
            have hone : ∀ s1 r, s.addSql b.name up down m = (r, s1) → SqlOnly s s1 ∧ (Tidy s → Tidy s1) ∧
                (∀ n x, x ≠ b.name → sqlOf s1 x n = sqlOf s x n) ∧
                ∀ n x, n ∉ m :: l → sqlOf s1 x n = sqlOf s x n := by
              intro s1 r hr
              have e1 := sqlOnly_addSql s b.name up down m
              have e2 := fun ht : Tidy s => ht.addSql b.name up down m
              have e3 := fun n x hx => sqlOf_addSql (s := s) (b := b.name) (up := up) (down := down) (n := m) (x := x) n hx
              have e4 := fun n x hn => sqlOf_addSql_ne (s := s) (b := b.name) (up := up) (down := down) (n := m) (x := x)
                (m := n) hn
              rw [hr] at e1 e2 e3 e4
              exact ⟨e1, e2, e3, fun n x hn => e4 n x fun h => hn (by simp [h])⟩
            split at h
            · rename_i hr
              cases h
              exact hone _ _ hr
            · rename_i hr
              obtain ⟨g1, g2, g3, g4⟩ := hone _ _ hr
              obtain ⟨k1, k2, k3, k4⟩ := ih h
              exact ⟨g1.trans k1, fun ht => k2 (g2 ht), fun n x hx => (k3 n x hx).trans (g3 n x hx),
                fun n x hn => (k4 n x fun h => hn (by simp [h])).trans (g4 n x hn)⟩

theorem removeSql_keeps {b n : String} {s : FsMigrations} : OnlyIn n s (s.removeSql b n).2 := by
  unfold FsMigrations.removeSql
  split
  · exact (OnlyIn.refl n s).write _
  · dsimp only
    split
    · exact (OnlyIn.refl n s).write _
    · exact (((OnlyIn.refl n s).write _).write _).writeInfo _

theorem removeBackendLoop_keeps {b : String} {l : List String} (hl : "current" ∉ l) {s s' : FsMigrations} (ht : Tidy s)
    {r : Except CliErr Unit} (h : removeBackendLoop b l s = (r, s')) :
    SqlOnly s s' ∧ Tidy s' ∧ (∀ n x, x ≠ b → sqlOf s' x n = sqlOf s x n) ∧
      ∀ n x, n ∉ l → sqlOf s' x n = sqlOf s x n := by
  induction l generalizing s with
  | nil =>
    cases h
    exact ⟨.refl _, ht, fun _ _ _ => rfl, fun _ _ _ => rfl⟩
  | cons m l ih =>
    have hm : m ≠ "current" := fun h => hl (by simp [h])
    have e1 := sqlOnly_removeSql s b m
    have e2 := ht.removeSql b m
    have e3 := fun n x hx => sqlOf_removeSql (s := s) (b := b) (n := m) (x := x) (ht m hm).2 n hx
    have e4 : ∀ n x, n ∉ m :: l → sqlOf (s.removeSql b m).2 x n = sqlOf s x n := by
      intro n x hn
      have := (removeSql_keeps (b := b) (n := m) (s := s)).2 n (fun h => hn (by simp [h]))
      unfold sqlOf
      rw [info_congr this, dir_congr this]
    unfold removeBackendLoop at h
    rcases hr : s.removeSql b m with ⟨r1, s1⟩
    rw [hr] at h e1 e2 e3 e4
    cases r1 with
    | error e =>
      cases h
      exact ⟨e1, e2, e3, e4⟩
    | ok u =>
      obtain ⟨k1, k2, k3, k4⟩ := ih (fun h => hl (by simp [h])) e2 h
      exact ⟨e1.trans k1, k2, fun n x hx => (k3 n x hx).trans (e3 n x hx),
        fun n x hn => (k4 n x fun h => hn (by simp [h])).trans (e4 n x hn)⟩

/-- The files after a collapse. -/
theorem collapse_cases {json : Bool} {get : String → Option MigBackend} {U : Type} {conn : Except CliErr (MigConn U)}
    {name : String} {db db' : MigDb U} {s s' : FsMigrations} {made : List (String × ADB)} (hi : FsInv s made)
    {r : Except CliErr Unit} (h : collapse json get conn name db s = (r, db', s')) :
    (r ≠ .ok () ∧ db' = db ∧ s' = s) ∨
    ∃ x y m backends c applied d, made = x :: (m ++ [y]) ∧ latestBackends get s = .ok backends ∧ conn = .ok c ∧
      (chain s).lastApplied (Cli.rounds s) c db = .ok (some applied) ∧ s.getDb json applied = .ok d ∧
      ((∃ e, r = .error (.lib e) ∧ call c 2 clearRecords db = (.error e, db') ∧ s' = s.deleteMigrations) ∨
       ∃ db1 r1, call c 2 clearRecords db = (.ok (), db1) ∧
        createMigrationTo (FsMigrations.ops json) backends name none d s.deleteMigrations = (r1, s') ∧
        ((∃ e, r1 = .error e ∧ r = .error (.lib e) ∧ db' = db1) ∨
         ∃ b, r1 = .ok b ∧ ((s'.getLatest = none ∧ r = .error .panic ∧ db' = db1) ∨
           ∃ m r2, s'.getLatest = some m ∧ call c 3 (markApplied m) db1 = (r2, db') ∧ r = lib r2))) := by
  unfold collapse at h
  rw [hi.all, hi.getLatest] at h
  cases made with
  | nil =>
    cases h
    exact .inl ⟨(fun h => by cases h), rfl, rfl⟩
  | cons x made =>
    rcases List.eq_nil_or_concat made with rfl | ⟨m, y, rfl⟩
    · simp at h
      rw [← h.1, ← h.2.1, ← h.2.2]
      exact .inl ⟨(fun h => by cases h), rfl, rfl⟩
    rw [List.concat_eq_append] at hi h ⊢
    have hl : (x :: (m ++ [y])).getLast?.map (·.1) = some y.1 := by simp [List.getLast?_cons]
    simp only [List.map_cons, List.head?_cons] at h
    rw [hl] at h
    dsimp only at h
    have hne : x.1 ≠ y.1 := by
      have := hi.nodup
      simp only [List.map_cons, List.nodup_cons, List.map_append, List.mem_append, not_or] at this
      intro he
      exact this.1.2 (by simp [he])
    rw [if_neg hne] at h
    have hno : ∀ {r : Except CliErr Unit} {e : CliErr}, ((Except.error e : Except CliErr Unit), db, s) = (r, db', s') →
        r ≠ .ok () ∧ db' = db ∧ s' = s := by
      intro r e he
      cases he
      exact ⟨(fun h => by cases h), rfl, rfl⟩
    split at h
    · exact .inl (hno h)
    · rename_i backends hb
      split at h
      · exact .inl (hno h)
      · rename_i c
        split at h
        · exact .inl (hno h)
        · exact .inl (hno h)
        · rename_i applied ha
          split at h
          · exact .inl (hno h)
          · rename_i d hd
            right
            refine ⟨x, y, m, backends, c, applied, d, rfl, hb, rfl, ha, hd, ?_⟩
            split at h
            · rename_i e db1 h1
              cases h
              exact .inl ⟨e, rfl, h1, rfl⟩
            · rename_i db1 h1
              right
              split at h
              · rename_i e s1 h2
                cases h
                exact ⟨_, _, h1, h2, .inl ⟨e, rfl, rfl, rfl⟩⟩
              · rename_i b s1 h2
                split at h
                · rename_i hg
                  cases h
                  exact ⟨_, _, h1, h2, .inr ⟨b, rfl, .inl ⟨hg, rfl, rfl⟩⟩⟩
                · rename_i n hg
                  rcases h3 : call c 3 (markApplied n) db1 with ⟨r2, db2⟩
                  rw [h3] at h
                  refine ⟨_, _, h1, h2.trans ?_, .inr ⟨b, rfl, .inr ⟨n, r2, ?_, ?_, ?_⟩⟩⟩ <;>
                    cases r2 <;> cases h <;> first | rfl | exact hg | exact h3

/-! ### Making all migrations again -/

theorem sqlOf_congr {s s' : FsMigrations} {x n : String} (h : s'.dirs.lookup n = s.dirs.lookup n) :
    sqlOf s' x n = sqlOf s x n := by
  unfold sqlOf
  rw [info_congr h, dir_congr h]

theorem sqlOf_keep {s : FsMigrations} {n : String} {f : FsDir → FsDir} {x : String} (m : String)
    (h1 : (f (s.dir n)).sql = (s.dir n).sql)
    (h2 : (match (f (s.dir n)).info with | some i => i | none => FsInfo.new).backends = (s.info n).backends) :
    sqlOf (s.write n f) x m = sqlOf s x m := by
  unfold sqlOf
  rw [info_eq, dir_write]
  by_cases h : m = n
  · subst h
    rw [if_pos rfl, h1, h2]
  · rw [if_neg h, info_eq]

theorem forSteps_keeps_mem {α σ : Type} {f : α → Step σ Unit} (P : σ → Prop) {l : List α}
    (hstep : ∀ x ∈ l, ∀ s, P s → P (f x s).2) {s : σ} (h : P s) : P (forSteps f l s).2 := by
  induction l generalizing s with
  | nil => exact h
  | cons x rest ih =>
    have := hstep x (by simp) s h
    unfold forSteps
    split
    · rename_i heq; rw [heq] at this; exact this
    · rename_i heq
      rw [heq] at this
      exact ih (fun y hy => hstep y (by simp [hy])) this

/-- What the creation of a migration does after the tables were written. -/
theorem create_after {json : Bool} {backends : List MigBackend} {name : String} {from_ : Option String}
    {fromDb toDb : ADB} {s s' : FsMigrations} {r : Except MErr Bool} {p1 : FsMigrations × String}
    (h : createMigrationTo (FsMigrations.ops json) backends name from_ toDb s = (r, s'))
    (h0 : readFrom (FsMigrations.ops json) from_ s = .ok fromDb) (hd : diff fromDb toDb ≠ [])
    (h1 : forSteps (tableStep (FsMigrations.ops json) ((diff fromDb toDb).filterMap modifiedTable) from_)
      toDb.tables.values (s, name) = (.ok (), p1)) (hn : p1.2 = name)
    (hfrom : (p1.1.info name).fromName = from_) (hlat : p1.1.latest ≠ none ∧ p1.1.latest ≠ from_) :
    SqlOnly p1.1 s' ∧ r ≠ .ok false := by
  rcases create_cases h with ⟨_, e, _, g0⟩ | ⟨fromDb', g0, g⟩
  · rw [h0] at g0; cases g0
  rw [h0] at g0
  cases g0
  rcases g with ⟨_, _, g⟩ | ⟨_, r1, p, g1, g⟩
  · exact absurd g hd
  change forSteps _ _ (s, name) = _ at g1
  rw [h1] at g1
  cases g1
  rcases g with ⟨e, g, _⟩ | ⟨_, r2, p2, g2, g⟩
  · cases g
  have k2 := forSteps_keeps (f := sqlStep (FsMigrations.ops json) fromDb toDb (upChanges from_ (diff fromDb toDb)))
    (fun q : FsMigrations × String => SqlOnly p1.1 q.1 ∧ q.2 = p1.2) (by
      intro b q hq
      unfold sqlStep
      split
      · exact hq
      · split
        · exact hq
        · exact ⟨hq.1.trans (sqlOnly_addSql _ _ _ _ _), hq.2⟩) (l := backends) (s := p1) ⟨.refl _, rfl⟩
  rw [g2] at k2
  obtain ⟨k2, k2'⟩ := k2
  rcases g with ⟨e, _, rfl, rfl⟩ | ⟨rfl, r3, p3, g3, g⟩
  · exact ⟨k2, fun h => by cases h⟩
  cases g3
  have hmap : from_.map (FsMigrations.ops json).name = from_ := by cases from_ <;> rfl
  have hp2 : p2.2 = name := k2'.trans hn
  have k3 : SqlOnly p1.1 (p2.1.setFrom (from_.map (FsMigrations.ops json).name) p2.2) := by
    rw [hmap]
    refine SqlOnly.trans (s' := p2.1) k2 (sqlOnly_write p2.1 p2.2
      (fun d => { d with info := some { p2.1.info p2.2 with fromName := from_ } }) rfl rfl ⟨?_, rfl⟩)
    change from_ = (p2.1.info p2.2).fromName
    rw [k2.from_, hp2, hfrom]
  rcases g with ⟨e, g, _⟩ | ⟨_, r4, g4, g⟩
  · cases g
  cases g4
  rcases g with ⟨e, g, _⟩ | ⟨_, rfl⟩
  · cases g
  refine ⟨?_, fun h => by cases h⟩
  have hinfo : ((p2.1.setFrom (from_.map (FsMigrations.ops json).name) p2.2).info p2.2).fromName = from_ := by
    rw [k3.from_, hp2, hfrom]
  unfold FsMigrations.addMigration
  rw [if_neg]
  · exact k3
  · rw [k3.latest, hinfo]
    rintro (h | h)
    · exact hlat.1 h
    · exact hlat.2 h

theorem sqlOf_create {json : Bool} {backends : List MigBackend} {name : String}
    {from_ : Option String} {toDb : ADB} {s s' : FsMigrations} {r : Except MErr Bool}
    (h : createMigrationTo (FsMigrations.ops json) backends name from_ toDb s = (r, s')) {x : String}
    (hx : ∀ b ∈ backends, x ≠ b.name) (m : String) : sqlOf s' x m = sqlOf s x m := by
  rcases create_cases h with ⟨rfl, _⟩ | ⟨fromDb, h0, ⟨rfl, _⟩ | ⟨hd, r1, p1, h1, hh⟩⟩
  · rfl
  · rfl
  have g1 := forSteps_keeps (f := tableStep (FsMigrations.ops json) ((diff fromDb toDb).filterMap modifiedTable) from_)
    (fun q : FsMigrations × String => sqlOf q.1 x m = sqlOf s x m) (by
      intro t q hq
      unfold tableStep
      split
      · refine Eq.trans ?_ hq
        exact sqlOf_keep m rfl (by rw [info_eq])
      · cases from_ with
        | none => exact hq
        | some f =>
          refine Eq.trans ?_ hq
          change sqlOf (q.1.addUnmodifiedTable t f q.2).2 x m = _
          unfold FsMigrations.addUnmodifiedTable
          split
          · rfl
          · split
            · rfl
            · exact sqlOf_keep m rfl rfl)
    (l := toDb.tables.values) (s := (s, (FsMigrations.ops json).newMigration s name)) rfl
  rw [h1] at g1
  rcases hh with ⟨e, _, rfl, rfl⟩ | ⟨rfl, r2, p2, h2, hh⟩
  · exact g1
  have g2 := forSteps_keeps_mem (f := sqlStep (FsMigrations.ops json) fromDb toDb (upChanges from_ (diff fromDb toDb)))
    (fun q : FsMigrations × String => sqlOf q.1 x m = sqlOf s x m) (by
      intro b hb q hq
      unfold sqlStep
      split
      · exact hq
      · split
        · exact hq
        · exact (sqlOf_addSql m (hx b hb)).trans hq) (l := backends) (s := p1) g1
  rw [h2] at g2
  rcases hh with ⟨e, _, rfl, rfl⟩ | ⟨rfl, r3, p3, h3, hh⟩
  · exact g2
  cases h3
  have g3 : sqlOf (p2.1.setFrom (from_.map (FsMigrations.ops json).name) p2.2) x m = sqlOf s x m :=
    (sqlOf_keep m rfl rfl).trans g2
  rcases hh with ⟨e, h4, _⟩ | ⟨_, r4, h4, hh⟩
  · cases h4
  cases h4
  refine Eq.trans (sqlOf_congr ?_) g3
  unfold FsMigrations.addMigration
  split <;> rfl

theorem deleteDb_dir (n : String) (s : FsMigrations) :
    ((deleteDb n s).dir n).tables = [] ∧ ((deleteDb n s).dir n).types = none ∧ ((deleteDb n s).dir n).sql = [] ∧
    (((deleteDb n s).info n)) = { FsInfo.new with fromName := (s.info n).fromName } := by
  unfold deleteDb
  rw [info_eq, dir_write, if_pos rfl, info_eq]
  refine ⟨rfl, rfl, rfl, ?_⟩
  cases (s.dir n).info <;> rfl

theorem deleteDb_only (n : String) (s : FsMigrations) : OnlyIn n s (deleteDb n s) := (OnlyIn.refl n s).write _

theorem deleteDb_exists (n : String) (s : FsMigrations) : ∃ d, (deleteDb n s).dirs.lookup n = some d := by
  unfold deleteDb
  rw [lookup_write, if_pos rfl]
  exact ⟨_, rfl⟩

theorem FsExact.fromOk {s : FsMigrations} {a b : List (String × ADB)} {e : String × ADB}
    (h : FsExact s (a ++ e :: b)) :
    FromOk (deleteDb e.1 s) (a.map (·.1)) e.1 (a.getLast?.map (·.1)) (Props.before a) := by
  obtain ⟨d1, d2, _, d4⟩ := deleteDb_dir e.1 s
  have hnd := h.nodup
  rw [List.map_append, List.map_cons, List.nodup_append] at hnd
  have hnot : e.1 ∉ a.map (·.1) := fun hm => hnd.2.2 _ hm e.1 (by simp) rfl
  refine ⟨h.before rfl, d1, d2, by rw [d4]; rfl, hnot, ?_, ?_⟩
  · unfold Props.before
    rcases List.eq_nil_or_concat a with rfl | ⟨a, x, rfl⟩
    · rfl
    · rw [List.concat_eq_append] at h hnot ⊢
      simp only [List.getLast?_append, List.getLast?_singleton, Option.some_or, Option.map_some]
      have hne : ∀ n, n ∈ (a ++ [x]).map (·.1) → n ≠ e.1 := by
        rintro n hn rfl
        exact hnot hn
      refine ⟨by simp, a.map (·.1), a.getLast?.map (·.1), (fun y hy => by
        rw [List.map_append]; exact List.mem_append_left _ hy), ?_⟩
      refine dirOk_frame (h.dirs a x (e :: b) (by simp)) ?_ ?_
      · exact (deleteDb_only e.1 s).2 _ (hne _ (by simp))
      · intro y hy
        exact (deleteDb_only e.1 s).2 _ (hne _ (by rw [List.map_append]; exact List.mem_append_left _ hy))
  · intro p hp s' hs hfrom hex
    refine ⟨(a ++ e :: b).map (·.1), h.inv.links ?_ ?_ ?_, ?_⟩
    · rw [hs.1, (deleteDb_only e.1 s).1]
    · intro n hn
      by_cases he : n = e.1
      · subst he
        exact hex (deleteDb_exists _ _)
      · rw [hs.2 n he, (deleteDb_only e.1 s).2 n he]
        exact (h.inv.get hn).2
    · intro n hn
      by_cases he : n = e.1
      · subst he
        rw [hfrom, d4]
      · rw [info_congr (hs.2 n he), info_congr ((deleteDb_only e.1 s).2 n he)]
    · cases hl : a.getLast? with
      | none => rw [hl] at hp; cases hp
      | some x =>
        rw [hl] at hp
        cases hp
        exact List.mem_map.2 ⟨x, by simp [List.mem_of_getLast? hl], rfl⟩

/-- One migration is made again. -/
theorem regen_step {json : Bool} {backends : List MigBackend} (hnd : (backends.map (·.name)).Nodup)
    {s s' : FsMigrations} {a b : List (String × ADB)} {e : String × ADB} (h : FsExact s (a ++ e :: b))
    {r : Except MErr Bool} (hc : createMigrationTo (FsMigrations.ops json) backends e.1 (a.getLast?.map (·.1)) e.2
      (deleteDb e.1 s) = (r, s')) :
    FsExact s' (a ++ e :: b) ∧ (∀ n, n ≠ e.1 → s'.dirs.lookup n = s.dirs.lookup n) ∧ r ≠ .ok false ∧
    (r = .ok true → ∀ x ∈ backends, FilesFor (s'.dir e.1) (s'.info e.1) (Props.before a) e.2
      (upChanges (a.getLast?.map (·.1)) (diff (Props.before a) e.2)) x) := by
  have hf := h.fromOk
  have hdir := h.dirs a e b rfl
  have hset := hdir.settled
  have hold := hf.settled
  have hne := h.changed a e b rfl
  obtain ⟨d1, d2, _, d4⟩ := deleteDb_dir e.1 s
  have hframe : ∀ n, n ≠ e.1 → s'.dirs.lookup n = s.dirs.lookup n := fun n hn =>
    ((fs_create_frame hc).1 n hn).trans ((deleteDb_only e.1 s).2 n hn)
  obtain ⟨q, hq, hT⟩ := fs_tables_gen (json := json) hf hset
  have hfrom : ((deleteDb e.1 s).info e.1).fromName = a.getLast?.map (·.1) := by
    rw [d4]
    exact hdir.from_
  obtain ⟨k1, k2, k3, k4⟩ := hT.dirOk hset hdir.extra (by
    intro t htm x hx
    rcases hdir.all t x hx with k | ⟨c, k⟩
    · exact absurd (h.own a e b rfl t x k) htm
    · rw [h.base a e b rfl t c k]
      exact hx) (deleteDb_exists _ _) hfrom hf.notin
  have hlast : s.latest = (a ++ e :: b).getLast?.map (·.1) := h.latest
  have hall := h.nodup
  rw [List.map_append, List.nodup_append] at hall
  obtain ⟨hsql, hr⟩ := create_after hc (hf.read json) hne hq hT.here (hT.fromName.trans hfrom) (by
    rw [hT.frame.1, (deleteDb_only e.1 s).1, hlast]
    have hl : (a ++ e :: b).getLast? = (e :: b).getLast? := by
      rw [List.getLast?_append]
      cases hb : (e :: b).getLast? with
      | none => simp at hb
      | some y => rfl
    rw [hl]
    cases hb : (e :: b).getLast? with
    | none => simp at hb
    | some y =>
      refine ⟨by simp, fun hc => ?_⟩
      cases ha : a.getLast? with
      | none => rw [ha] at hc; cases hc
      | some z =>
        rw [ha] at hc
        refine hall.2.2 z.1 (List.mem_map.2 ⟨z, List.mem_of_getLast? ha, rfl⟩) y.1
          (List.mem_map.2 ⟨y, List.mem_of_getLast? hb, rfl⟩) ?_
        simpa using hc.symm)
  refine ⟨hsql.exact ?_, hframe, hr, ?_⟩
  · -- after the tables were written
    have hq : OnlyIn e.1 s q.1 := ⟨hT.frame.1.trans (deleteDb_only e.1 s).1, fun n hn =>
      (hT.frame.2 n hn).trans ((deleteDb_only e.1 s).2 n hn)⟩
    have hcase : ∀ (P : List (String × ADB) → String × ADB → List (String × ADB) → Prop), P a e b →
        (∀ p x c, a ++ e :: b = p ++ x :: c → x.1 ≠ e.1 → P p x c) →
        ∀ p x c, a ++ e :: b = p ++ x :: c → P p x c := by
      intro P p1 p2 p x c hpx
      by_cases hx : x.1 = e.1
      · have hnames := h.nodup
        have : p = a ∧ x = e ∧ c = b := by
          rcases List.append_eq_append_iff.1 hpx with ⟨w, h1, h2⟩ | ⟨w, h1, h2⟩
          · cases w with
            | nil =>
              simp at h1 h2
              exact ⟨h1, h2.1.symm, h2.2.symm⟩
            | cons z w =>
              exfalso
              rw [List.cons_append] at h2
              cases h2
              have : e.1 ∈ ((w ++ x :: c).map (·.1)) := by rw [← hx]; simp
              have hn2 := hall.2.1
              rw [List.map_cons, List.nodup_cons] at hn2
              exact hn2.1 this
          · cases w with
            | nil =>
              simp at h1 h2
              exact ⟨h1.symm, h2.1, h2.2⟩
            | cons z w =>
              exfalso
              rw [List.cons_append] at h2
              cases h2
              refine hall.2.2 x.1 ?_ e.1 (by simp) hx
              rw [h1]
              simp
        obtain ⟨rfl, rfl, rfl⟩ := this
        exact p1
      · exact p2 p x c hpx hx
    refine ⟨by rw [hq.1]; exact h.latest, h.nodup, h.notCurrent, ?_, h.changed, ?_, ?_⟩
    · refine hcase _ k1 ?_
      intro p x c hpx hx
      have hd := h.dirs p x c hpx
      have hsame := hq.2 x.1 hx
      refine ⟨by rw [hsame]; exact hd.dir, by rw [info_congr hsame]; exact hd.from_,
        by rw [dir_congr hsame]; exact hd.types, by rw [dir_congr hsame]; exact hd.sortedT,
        by rw [info_congr hsame]; exact hd.sortedB, ?_, by rw [dir_congr hsame]; exact hd.own,
        by rw [dir_congr hsame, info_congr hsame]; exact hd.all, hd.settled, hd.extra⟩
      intro t n hn
      rw [info_congr hsame] at hn
      obtain ⟨m1, m2, y, m3, m4⟩ := hd.base t n hn
      rw [dir_congr hsame]
      refine ⟨m1, m2, y, ?_, m4⟩
      by_cases hne : n = e.1
      · subst hne
        exact k2 t y (h.own a e b rfl t y m3) (hdir.own t y m3)
      · rw [dir_congr (hq.2 n hne)]
        exact m3
    · refine hcase _ k3 ?_
      intro p x c hpx hx
      rw [dir_congr (hq.2 x.1 hx)]
      exact h.own p x c hpx
    · refine hcase _ k4 ?_
      intro p x c hpx hx
      rw [info_congr (hq.2 x.1 hx)]
      exact h.base p x c hpx
  · rintro rfl
    obtain ⟨_, _, _, _, g, _⟩ := fs_create_gen hnd hf hset hc
    exact g

theorem regenerateLoop_cons {json : Bool} {backends : List MigBackend} {m : String} {rest : List String}
    {fromName from_ : Option String} {s : FsMigrations} {toDb : ADB} (hdb : s.getDb json m = .ok toDb)
    (hf : match fromName with
      | none => from_ = none
      | some n => s.get n = from_) :
    regenerateLoop json backends (m :: rest) fromName s =
      match createMigrationTo (FsMigrations.ops json) backends m from_ toDb (deleteDb m s) with
      | (.error e, s) => (.error (.lib e), s)
      | (.ok _, s) => regenerateLoop json backends rest (some m) s := by
  cases fromName <;> simp only [regenerateLoop, hdb] <;> subst hf <;> rfl

/-- All migrations are made again. -/
theorem regenerateLoop_keeps {json : Bool} {backends : List MigBackend} (hnd : (backends.map (·.name)).Nodup)
    {rest : List (String × ADB)} {a : List (String × ADB)} {s s' : FsMigrations} (h : FsExact s (a ++ rest)) (ht : Tidy s)
    {r : Except CliErr Unit}
    (hr : regenerateLoop json backends (rest.map (·.1)) (a.getLast?.map (·.1)) s = (r, s')) :
    FsExact s' (a ++ rest) ∧ Tidy s' ∧ (∀ n, n ∉ rest.map (·.1) → s'.dirs.lookup n = s.dirs.lookup n) ∧
    (r = .ok () → ∀ p e q, rest = p ++ e :: q →
      (∀ x ∈ backends, FilesFor (s'.dir e.1) (s'.info e.1) (Props.before (a ++ p)) e.2
        (upChanges ((a ++ p).getLast?.map (·.1)) (diff (Props.before (a ++ p)) e.2)) x) ∧
      ∀ x, (∀ b ∈ backends, x ≠ b.name) → (s'.dir e.1).sql.lookup (x ++ "_up") = none ∧
        (s'.dir e.1).sql.lookup (x ++ "_down") = none ∧ x ∉ (s'.info e.1).backends) := by
  induction rest generalizing a s with
  | nil =>
    cases hr
    refine ⟨h, ht, fun _ _ => rfl, fun _ p e q hpq => ?_⟩
    simp at hpq
  | cons e rest ih =>
    have hdir := h.dirs a e rest rfl
    rw [List.map_cons, regenerateLoop_cons (dirOk_getDb hdir) (from_ := a.getLast?.map (·.1)) (by
      cases hl : a.getLast? with
      | none => rfl
      | some x =>
        exact (h.inv.get (List.mem_map.2 ⟨x, by simp [List.mem_of_getLast? hl], rfl⟩)).1)] at hr
    rcases hc : createMigrationTo (FsMigrations.ops json) backends e.1 (a.getLast?.map (·.1)) e.2 (deleteDb e.1 s) with
      ⟨r1, s1⟩
    rw [hc] at hr
    obtain ⟨g1, g2, g3, g4⟩ := regen_step hnd h hc
    have ht1 : Tidy s1 := by
      refine Tidy.create ?_ hc
      refine ht.write fun hd => ⟨?_, SMap.sorted_nil⟩
      cases (s.dir e.1).info <;> exact List.nodup_nil
    cases r1 with
    | error err =>
      cases hr
      exact ⟨g1, ht1, fun n hn => g2 n (fun hx => hn (by simp [hx])), fun hx => by cases hx⟩
    | ok made =>
      have hmade : made = true := by
        cases made with
        | true => rfl
        | false => exact absurd rfl g3
      subst hmade
      dsimp only at hr
      have hcons : a ++ e :: rest = (a ++ [e]) ++ rest := by simp
      have hl : (a ++ [e]).getLast?.map (·.1) = some e.1 := by simp
      obtain ⟨i1, i2, i3, i4⟩ := ih (a := a ++ [e]) (by rw [← hcons]; exact g1) ht1 (by rw [hl]; exact hr)
      have hnot : e.1 ∉ rest.map (·.1) := by
        have := h.nodup
        rw [List.map_append, List.nodup_append] at this
        have := this.2.1
        rw [List.map_cons, List.nodup_cons] at this
        exact this.1
      refine ⟨by rw [hcons]; exact i1, i2, ?_, ?_⟩
      · intro n hn
        rw [i3 n (fun hx => hn (by rw [List.map_cons]; exact List.mem_cons_of_mem _ hx)), g2 n (fun hx => hn (by simp [hx]))]
      · intro hok p x q hpq
        cases p with
        | nil =>
          rw [List.nil_append] at hpq
          cases hpq
          rw [dir_congr (i3 _ hnot), info_congr (i3 _ hnot), List.append_nil]
          refine ⟨g4 rfl, fun x hx => ?_⟩
          have := sqlOf_create hc hx e.1
          obtain ⟨_, _, d3, d4⟩ := deleteDb_dir e.1 s
          unfold sqlOf at this
          rw [d3, d4] at this
          simp only [Prod.mk.injEq] at this
          refine ⟨this.1, this.2.1, ?_⟩
          rw [this.2.2]
          simp [FsInfo.new]
        | cons y p =>
          rw [List.cons_append] at hpq
          cases hpq
          have := i4 hok p x q rfl
          rw [show a ++ [e] ++ p = a ++ e :: p by simp] at this
          exact this

/-! ### What is met -/

theorem Spec.Reach.inv {json : Bool} {s : FsMigrations} (h : Reach json s) :
    ∃ made, FsExact s made ∧ Tidy s := by
  induction h with
  | empty => exact ⟨[], fsExact_nil rfl, fun n _ => tidy_empty⟩
  | @build s s' _ h1 h2 ih =>
    obtain ⟨made, hi, ht⟩ := ih
    refine ⟨made, fsExact_frame hi (n := "current") ?_ ⟨h1, h2⟩, fun n hn => ?_⟩
    · intro hm
      obtain ⟨e, he, h1⟩ := List.mem_map.1 hm
      exact hi.notCurrent e he h1
    · rw [dir_congr (h2 n hn)]
      exact ht n hn
  | @make s s' get spec name r _ hget h1 h2 h3 h4 ih =>
    obtain ⟨made, hi, ht⟩ := ih
    unfold makeMigration at h4
    have hnone : ∀ {r' : Except CliErr Bool}, (r', s) = (r, s') → ∃ made, FsExact s' made ∧ Tidy s' := by
      intro r' he
      cases he
      exact ⟨made, hi, ht⟩
    split at h4
    · exact hnone h4
    · split at h4
      · exact hnone h4
      · split at h4
        · exact hnone h4
        · rename_i backends hb
          split at h4
          · exact hnone h4
          · rename_i toDb hdb
            rcases hc : createMigrationTo (FsMigrations.ops json) backends name s.getLatest toDb s with ⟨r1, s1⟩
            rw [hc] at h4
            have hs : s1 = s' := by
              cases r1 <;> cases h4 <;> rfl
            subst hs
            have hnot : name ∉ made.map (·.1) := fun hm => by
              obtain ⟨d, hd⟩ := (hi.inv.get hm).2
              rw [h1] at hd
              cases hd
            by_cases hr : r1 = .ok true
            · subst hr
              obtain ⟨db, _, hx⟩ := fsExact_create (loadBackends_nodup hget hi.inv ht hb) hi ⟨h1, h2⟩ (h3 toDb hdb) hc
              exact ⟨_, hx, ht.create hc⟩
            · have hframe := fs_create_frame hc
              exact ⟨made, fsExact_frame hi hnot ⟨hframe.2.1 hr, hframe.1⟩, ht.create hc⟩
  | @detach s s' U conn db r _ h1 ih =>
    obtain ⟨made, hi, ht⟩ := ih
    rcases detach_cases hi.inv h1 with ⟨_, rfl⟩ | ⟨a, x, y, rfl, _, rfl⟩
    · exact ⟨made, hi, ht⟩
    · exact ⟨_, fsExact_detach hi, ht⟩
  | @collapse s s' get U conn db db' name r _ hget h1 h2 ih =>
    obtain ⟨made, hi, ht⟩ := ih
    rcases collapse_cases hi.inv h2 with ⟨_, _, rfl⟩ | ⟨x, y, m, backends, c, applied, d, _, hb, _, ha, hd, h3⟩
    · exact ⟨made, hi, ht⟩
    · rcases h3 with ⟨_, _, _, rfl⟩ | ⟨db1, r1, _, hc, _⟩
      · exact ⟨[], fsExact_nil rfl, tidy_deleteMigrations s⟩
      · have hfresh : s.deleteMigrations.dirs.lookup name = none := by
          rw [lookup_deleteMigrations, if_neg h1]
        have hlast : applied ∈ made.map (·.1) := by
          obtain ⟨p, q, hpq, _⟩ := lastApplied_mem (hi.inv.path "").1 (by
            rw [List.length_map]; exact hi.inv.lt_rounds) ha
          rw [hpq]
          simp
        obtain ⟨e, he, rfl⟩ := List.mem_map.1 hlast
        obtain ⟨p, q, hpq⟩ := List.append_of_mem he
        have hd' := hi.dirs p e q hpq
        rw [dirOk_getDb hd'] at hd
        cases hd
        by_cases hr : r1 = .ok true
        · subst hr
          obtain ⟨db, _, hx⟩ := fsExact_create (latestBackends_nodup hget hi.inv ht hb) (fsExact_nil rfl) ⟨hfresh, h1⟩
            hd'.settled hc
          exact ⟨_, hx, (tidy_deleteMigrations s).create hc⟩
        · have hframe := fs_create_frame hc
          exact ⟨[], fsExact_nil (hframe.2.1 hr), (tidy_deleteMigrations s).create hc⟩
  | @addBackend s s' get name r _ hget h1 ih =>
    obtain ⟨made, hi, ht⟩ := ih
    unfold Cli.addBackend at h1
    have hnone : ∀ {r' : Except CliErr Unit}, (r', s) = (r, s') → ∃ made, FsExact s' made ∧ Tidy s' := by
      intro r' he
      cases he
      exact ⟨made, hi, ht⟩
    split at h1
    · exact hnone h1
    · split at h1
      · exact hnone h1
      · split at h1
        · exact hnone h1
        · split at h1
          · exact hnone h1
          · obtain ⟨g1, g2, _⟩ := addBackendLoop_keeps h1
            exact ⟨made, g1.exact hi, g2 ht⟩
  | @removeBackend s s' get name r _ hget h1 ih =>
    obtain ⟨made, hi, ht⟩ := ih
    unfold Cli.removeBackend at h1
    have hnone : ∀ {r' : Except CliErr Unit}, (r', s) = (r, s') → ∃ made, FsExact s' made ∧ Tidy s' := by
      intro r' he
      cases he
      exact ⟨made, hi, ht⟩
    split at h1
    · exact hnone h1
    · split at h1
      · exact hnone h1
      · split at h1
        · exact hnone h1
        · rw [hi.inv.all] at h1
          obtain ⟨g1, g2, _⟩ := removeBackendLoop_keeps (by
            intro hm
            obtain ⟨e, he, h2⟩ := List.mem_map.1 hm
            exact hi.notCurrent e he h2) ht h1
          exact ⟨made, g1.exact hi, g2⟩
  | @regenerate s s' get r _ hget h1 ih =>
    obtain ⟨made, hi, ht⟩ := ih
    unfold Cli.regenerate at h1
    split at h1
    · cases h1
      exact ⟨made, hi, ht⟩
    · rename_i backends hb
      rw [hi.inv.all] at h1
      obtain ⟨g1, g2, _⟩ := regenerateLoop_keeps (a := []) (latestBackends_nodup hget hi.inv ht hb) hi ht h1
      exact ⟨made, g1, g2⟩

end Butane
