/-
Lemmas about migrations on disk.
-/
import Verif.Proofs.MemStore

namespace Butane
open Spec

theorem length_le_of_subset {α : Type} [DecidableEq α] {l l' : List α} (h : l.Nodup)
    (hs : ∀ x ∈ l, x ∈ l') : l.length ≤ l'.length := by
  induction l generalizing l' with
  | nil => simp
  | cons a l ih =>
    rw [List.nodup_cons] at h
    have ha := hs a (by simp)
    have := ih (l' := l'.erase a) h.2 (fun x hx => by
      have hne : x ≠ a := fun he => h.1 (he ▸ hx)
      exact (List.mem_erase_of_ne hne).2 (hs x (by simp [hx])))
    have := List.length_erase_of_mem ha
    have := List.length_pos_of_mem ha
    simp only [List.length_cons]
    omega

namespace FsMigrations

theorem lookup_write (s : FsMigrations) (n : String) (f : FsDir → FsDir) (m : String) :
    (s.write n f).dirs.lookup m = if m = n then some (f (s.dir n)) else s.dirs.lookup m :=
  SMap.lookup_insert _ _ _ _

theorem dir_write (s : FsMigrations) (n : String) (f : FsDir → FsDir) (m : String) :
    (s.write n f).dir m = if m = n then f (s.dir n) else s.dir m := by
  conv => lhs; rw [dir, lookup_write]
  by_cases h : m = n
  · rw [if_pos h, if_pos h]
  · rw [if_neg h, if_neg h]
    rfl

theorem info_writeInfo (s : FsMigrations) (n : String) (i : FsInfo) : (s.writeInfo n i).info n = i := by
  rw [info, writeInfo, dir_write, if_pos rfl]

theorem dir_congr {s s' : FsMigrations} {n : String} (h : s'.dirs.lookup n = s.dirs.lookup n) :
    s'.dir n = s.dir n := by unfold dir; rw [h]

theorem info_congr {s s' : FsMigrations} {n : String} (h : s'.dirs.lookup n = s.dirs.lookup n) :
    s'.info n = s.info n := by unfold info; rw [dir_congr h]

end FsMigrations

open FsMigrations

/-- Only the directory `name` was written to. -/
def OnlyIn (name : String) (s s' : FsMigrations) : Prop :=
  s'.latest = s.latest ∧ ∀ n, n ≠ name → s'.dirs.lookup n = s.dirs.lookup n

theorem OnlyIn.refl (name : String) (s : FsMigrations) : OnlyIn name s s := ⟨rfl, fun _ _ => rfl⟩

theorem OnlyIn.write {name : String} {s s' : FsMigrations} (h : OnlyIn name s s') (f : FsDir → FsDir) :
    OnlyIn name s (s'.write name f) :=
  ⟨h.1, fun n hn => by rw [lookup_write, if_neg hn]; exact h.2 n hn⟩

theorem OnlyIn.writeInfo {name : String} {s s' : FsMigrations} (h : OnlyIn name s s') (i : FsInfo) :
    OnlyIn name s (s'.writeInfo name i) := h.write _

/-- Every step of the creation of `name` writes only there. -/
theorem fs_tableStep_keeps {json : Bool} {modified : List String} {from_ : Option String} {t : ATable}
    {name : String} {s : FsMigrations} (p : FsMigrations × String) (h : p.2 = name ∧ OnlyIn name s p.1) :
    (tableStep (FsMigrations.ops json) modified from_ t p).2.2 = name ∧
    OnlyIn name s (tableStep (FsMigrations.ops json) modified from_ t p).2.1 := by
  obtain ⟨p1, p2⟩ := p
  obtain ⟨rfl, h⟩ := h
  unfold tableStep
  split
  · exact ⟨rfl, h.write _⟩
  · cases from_ with
    | none => exact ⟨rfl, h⟩
    | some f =>
      refine ⟨rfl, ?_⟩
      change OnlyIn p2 s (p1.addUnmodifiedTable t _ p2).2
      unfold addUnmodifiedTable
      split
      · exact h
      · split
        · exact h
        · exact h.writeInfo _

theorem fs_addSql_keeps {b up down : String} {name : String} {s s1 : FsMigrations} (h : OnlyIn name s s1) :
    OnlyIn name s (s1.addSql b up down name).2 := by
  unfold FsMigrations.addSql
  split
  · exact h.write _
  · split
    · exact h.write _
    · dsimp only
      split
      · exact (h.write _).write _
      · exact ((h.write _).write _).writeInfo _

theorem fs_sqlStep_keeps {json : Bool} {fromDb toDb : ADB} {changes : List Operation} {b : MigBackend}
    {name : String} {s : FsMigrations} (p : FsMigrations × String) (h : p.2 = name ∧ OnlyIn name s p.1) :
    (sqlStep (FsMigrations.ops json) fromDb toDb changes b p).2.2 = name ∧
    OnlyIn name s (sqlStep (FsMigrations.ops json) fromDb toDb changes b p).2.1 := by
  obtain ⟨p1, p2⟩ := p
  obtain ⟨rfl, h⟩ := h
  unfold sqlStep
  split
  · exact ⟨rfl, h⟩
  · split
    · exact ⟨rfl, h⟩
    · exact ⟨rfl, fs_addSql_keeps h⟩

/-- What a creation can do, successful or not. -/
theorem fs_create_frame {json : Bool} {backends : List MigBackend} {name : String}
    {from_ : Option String} {toDb : ADB} {s s' : FsMigrations} {r : Except MErr Bool}
    (h : createMigrationTo (FsMigrations.ops json) backends name from_ toDb s = (r, s')) :
    (∀ n, n ≠ name → s'.dirs.lookup n = s.dirs.lookup n) ∧ (r ≠ .ok true → s'.latest = s.latest) ∧
    (r = .ok false → s' = s) := by
  rcases create_cases h with ⟨rfl, _⟩ | ⟨fromDb, h0, ⟨rfl, _⟩ | ⟨hd, r1, p1, h1, hh⟩⟩
  · exact ⟨fun _ _ => rfl, fun _ => rfl, fun _ => rfl⟩
  · exact ⟨fun _ _ => rfl, fun _ => rfl, fun _ => rfl⟩
  have g1 := forSteps_keeps (f := tableStep (FsMigrations.ops json) ((diff fromDb toDb).filterMap modifiedTable) from_)
    (fun q : FsMigrations × String => q.2 = name ∧ OnlyIn name s q.1) (fun x q hq => fs_tableStep_keeps q hq)
    (l := toDb.tables.values) (s := (s, (FsMigrations.ops json).newMigration s name)) ⟨rfl, OnlyIn.refl name s⟩
  rw [h1] at g1
  rcases hh with ⟨e, _, rfl, rfl⟩ | ⟨rfl, r2, p2, h2, hh⟩
  · exact ⟨g1.2.2, fun _ => g1.2.1, fun h => by cases h⟩
  have g2 := forSteps_keeps (f := sqlStep (FsMigrations.ops json) fromDb toDb (upChanges from_ (diff fromDb toDb)))
    (fun q : FsMigrations × String => q.2 = name ∧ OnlyIn name s q.1) (fun x q hq => fs_sqlStep_keeps q hq)
    (l := backends) (s := p1) g1
  rw [h2] at g2
  rcases hh with ⟨e, _, rfl, rfl⟩ | ⟨rfl, r3, p3, h3, hh⟩
  · exact ⟨g2.2.2, fun _ => g2.2.1, fun h => by cases h⟩
  change (.ok (), p2.1.setFrom _ p2.2, p2.2) = (r3, p3) at h3
  cases h3
  have g3 : OnlyIn name s (p2.1.setFrom (from_.map (FsMigrations.ops json).name) p2.2) := by
    rw [g2.1]; exact g2.2.writeInfo _
  rcases hh with ⟨e, he, _, _⟩ | ⟨_, r4, h4, hh⟩
  · cases he
  change (.ok (), FsMigrations.addMigration _ _) = (r4, s') at h4
  cases h4
  rcases hh with ⟨e, he, _⟩ | ⟨_, rfl⟩
  · cases he
  refine ⟨?_, fun h => absurd rfl h, fun h => by cases h⟩
  intro n hn
  unfold FsMigrations.addMigration
  split
  · exact g3.2 n hn
  · exact g3.2 n hn

/-! ### Reading a schema back -/

/-- The directory of migration `n`, with predecessor `prev`, holds the schema `db`, some
tables in other directories, of the migrations `names`. -/
structure DirOk (s : FsMigrations) (names : List String) (n : String) (prev : Option String) (db : ADB) : Prop where
  dir : ∃ d, s.dirs.lookup n = some d
  from_ : (s.info n).fromName = prev
  types : (s.dir n).types = none
  sortedT : (s.dir n).tables.Sorted
  sortedB : (s.info n).tableBases.Sorted
  base : ∀ t b, (s.info n).tableBases.lookup t = some b → b ∈ names ∧ (s.dir n).tables.lookup t = none ∧
    ∃ x, (s.dir b).tables.lookup t = some x ∧ db.getTable t = some x
  own : ∀ t x, (s.dir n).tables.lookup t = some x → db.getTable t = some x
  all : ∀ t x, db.getTable t = some x → (s.dir n).tables.lookup t = some x ∨
    ∃ b, (s.info n).tableBases.lookup t = some b
  settled : Settled db
  extra : db.extraTypes = []

theorem readBases_ok {s : FsMigrations} {db : ADB} (hs : Settled db) {bases : List (String × String)}
    (h : ∀ e ∈ bases, ∃ x, (s.dir e.2).tables.lookup e.1 = some x ∧ db.getTable e.1 = some x) (acc : ADB)
    (hsort : acc.tables.Sorted) :
    ∃ r, s.readBases bases acc = .ok r ∧ r.tables.Sorted ∧ r.extraTypes = acc.extraTypes ∧
      ∀ t, r.getTable t = if t ∈ bases.map (·.1) then db.getTable t else acc.getTable t := by
  induction bases generalizing acc with
  | nil => exact ⟨acc, rfl, hsort, rfl, fun t => by simp⟩
  | cons e rest ih =>
    obtain ⟨x, h1, h2⟩ := h e (by simp)
    obtain ⟨r, h3, h4, h5, h6⟩ := ih (fun e he => h e (by simp [he])) (acc.replaceTable x)
      (SMap.sorted_insert hsort _ _)
    refine ⟨r, by simp only [readBases, h1]; exact h3, h4, h5, fun t => ?_⟩
    rw [h6]
    have hname := (settled_get hs h2).1
    simp only [List.map_cons, List.mem_cons, ADB.getTable, ADB.replaceTable, SMap.lookup_insert, hname]
    by_cases hr : t ∈ rest.map (·.1)
    · simp [hr]
    · rw [if_neg hr]
      by_cases he : t = e.1
      · subst he
        rw [if_pos rfl, if_pos (.inl rfl)]
        exact h2.symm
      · rw [if_neg he, if_neg (by simp [he, hr])]

theorem foldl_replace_lookup (l : List ATable) (acc : ADB) (hsort : acc.tables.Sorted) :
    (l.foldl ADB.replaceTable acc).tables.Sorted ∧
    (l.foldl ADB.replaceTable acc).extraTypes = acc.extraTypes ∧
    ((l.map (·.name)).Nodup → ∀ t, (∀ x ∈ l, x.name = t → (l.foldl ADB.replaceTable acc).getTable t = some x) ∧
      (t ∉ l.map (·.name) → (l.foldl ADB.replaceTable acc).getTable t = acc.getTable t)) := by
  induction l generalizing acc with
  | nil => exact ⟨hsort, rfl, fun _ t => ⟨by simp, fun _ => rfl⟩⟩
  | cons y l ih =>
    obtain ⟨h1, h2, h3⟩ := ih (acc.replaceTable y) (SMap.sorted_insert hsort _ _)
    refine ⟨h1, h2, fun hnd t => ?_⟩
    rw [List.map_cons, List.nodup_cons] at hnd
    obtain ⟨h4, h5⟩ := h3 hnd.2 t
    have hy : (acc.replaceTable y).getTable t = if t = y.name then some y else acc.getTable t :=
      SMap.lookup_insert _ _ _ _
    constructor
    · intro x hx hn
      rcases List.mem_cons.1 hx with rfl | hx
      · subst hn
        exact (h5 hnd.1).trans (by rw [hy, if_pos rfl])
      · exact h4 x hx hn
    · intro hn
      rw [List.map_cons, List.mem_cons, not_or] at hn
      exact (h5 hn.2).trans (by rw [hy, if_neg hn.1])

theorem dirOk_getDb {json : Bool} {s : FsMigrations} {names : List String} {n : String} {prev : Option String}
    {db : ADB} (h : DirOk s names n prev db) : s.getDb json n = .ok db := by
  obtain ⟨r, h1, h2, h3, h4⟩ := readBases_ok (s := s) h.settled (bases := (s.info n).tableBases)
    (fun e he => (h.base e.1 e.2 (SMap.lookup_of_mem h.sortedB he)).2.2) ADB.new SMap.sorted_nil
  obtain ⟨g1, g2, g3⟩ := foldl_replace_lookup (s.dir n).tables.values r h2
  have hkey : ∀ e ∈ (s.dir n).tables, e.2.name = e.1 := fun e he =>
    (settled_get h.settled (h.own e.1 e.2 (SMap.lookup_of_mem h.sortedT he))).1
  have hnd : ((s.dir n).tables.values.map (·.name)).Nodup := by
    have := SMap.nodup_keys h.sortedT
    unfold SMap.keys at this
    unfold SMap.values
    rw [List.map_map]
    have e : (s.dir n).tables.map ((fun t : ATable => t.name) ∘ fun e => e.2) =
        (s.dir n).tables.map (fun e => e.1) := List.map_congr_left (fun e he => hkey e he)
    rw [e]
    exact this
  have hdb : (s.dir n).tables.values.foldl ADB.replaceTable r = db := by
    have ht : ((s.dir n).tables.values.foldl ADB.replaceTable r).tables = db.tables := by
      apply SMap.ext g1 h.settled.valid.sorted
      intro t
      change ADB.getTable _ t = db.getTable t
      obtain ⟨e1, e2⟩ := g3 hnd t
      cases hl : (s.dir n).tables.lookup t with
      | some x =>
        rw [e1 x (List.mem_map.2 ⟨_, SMap.mem_of_lookup hl, rfl⟩) (hkey _ (SMap.mem_of_lookup hl))]
        exact (h.own t x hl).symm
      | none =>
        rw [e2, h4]
        · by_cases hb : t ∈ (s.info n).tableBases.map (·.1)
          · rw [if_pos hb]
          · rw [if_neg hb]
            cases hd : db.getTable t with
            | none => rfl
            | some x =>
              rcases h.all t x hd with h5 | ⟨b, h5⟩
              · rw [hl] at h5; cases h5
              · exact absurd (List.mem_map.2 ⟨_, SMap.mem_of_lookup h5, rfl⟩) hb
        · intro hm
          obtain ⟨x, hx, hxn⟩ := List.mem_map.1 hm
          obtain ⟨e, he, rfl⟩ := List.mem_map.1 hx
          have := SMap.lookup_of_mem h.sortedT he
          rw [← hkey e he, hxn, hl] at this
          cases this
    have hx : ((s.dir n).tables.values.foldl ADB.replaceTable r).extraTypes = db.extraTypes := by
      rw [g2, h3, h.extra]; rfl
    cases hd : (s.dir n).tables.values.foldl ADB.replaceTable r with
    | mk a b => rw [hd] at ht hx; cases db; simp at ht hx; rw [ht, hx]
  unfold getDb
  rw [h1]
  simp only [hdb, h.types, List.foldl_nil]
  exact settled_resolve h.settled h.extra json

theorem dirOk_frame {s s' : FsMigrations} {names : List String} {n : String} {prev : Option String} {db : ADB}
    (h : DirOk s names n prev db) (hn : s'.dirs.lookup n = s.dirs.lookup n)
    (hb : ∀ b ∈ names, s'.dirs.lookup b = s.dirs.lookup b) : DirOk s' names n prev db where
  dir := by rw [hn]; exact h.dir
  from_ := by rw [info_congr hn]; exact h.from_
  types := by rw [dir_congr hn]; exact h.types
  sortedT := by rw [dir_congr hn]; exact h.sortedT
  sortedB := by rw [info_congr hn]; exact h.sortedB
  base t b hl := by
    rw [info_congr hn] at hl
    obtain ⟨h1, h2, h3⟩ := h.base t b hl
    exact ⟨h1, by rw [dir_congr hn]; exact h2, by rw [dir_congr (hb b h1)]; exact h3⟩
  own := by rw [dir_congr hn]; exact h.own
  all := by rw [dir_congr hn, info_congr hn]; exact h.all
  settled := h.settled
  extra := h.extra

/-! ### The chain -/

/-- What holds after every history. -/
structure FsInv (s : FsMigrations) (made : List (String × ADB)) : Prop where
  latest : s.latest = made.getLast?.map (·.1)
  nodup : (made.map (·.1)).Nodup
  notCurrent : ∀ e ∈ made, e.1 ≠ "current"
  dirs : ∀ a e b, made = a ++ e :: b → ∃ db, DirOk s (a.map (·.1)) e.1 (a.getLast?.map (·.1)) db ∧ SameSchema db e.2

theorem FsInv.get {s : FsMigrations} {made : List (String × ADB)} (h : FsInv s made) {n : String}
    (hn : n ∈ made.map (·.1)) : s.get n = some n ∧ ∃ d, s.dirs.lookup n = some d := by
  obtain ⟨e, he, rfl⟩ := List.mem_map.1 hn
  obtain ⟨a, b, hab⟩ := List.append_of_mem he
  obtain ⟨db, hd, _⟩ := h.dirs a e b hab
  obtain ⟨d, hd⟩ := hd.dir
  exact ⟨by rw [FsMigrations.get, hd], d, hd⟩

theorem FsInv.getLatest {s : FsMigrations} {made : List (String × ADB)} (h : FsInv s made) :
    s.getLatest = made.getLast?.map (·.1) := by
  rw [FsMigrations.getLatest, h.latest]
  cases hl : made.getLast? with
  | none => rfl
  | some e =>
    exact (h.get (List.mem_map.2 ⟨e, List.mem_of_getLast? hl, rfl⟩)).1

theorem infix_map {α β : Type} {f : α → β} {l : List α} {x y : β} (h : [x, y] <:+: l.map f) :
    ∃ a p q b, l = a ++ p :: q :: b ∧ f p = x ∧ f q = y := by
  obtain ⟨u, v, h⟩ := h
  rw [List.append_assoc, List.append_eq_map_iff] at h
  obtain ⟨a, r, rfl, rfl, h⟩ := h
  cases r with
  | nil => simp at h
  | cons p r =>
    cases r with
    | nil => simp at h
    | cons q b =>
      simp at h
      exact ⟨a, p, q, b, rfl, h.1, h.2.1⟩

theorem FsInv.path {s : FsMigrations} {made : List (String × ADB)} (h : FsInv s made) (b : String) :
    IsPath (s.toMigs b) (made.map (·.1)) ∧ Complete (s.toMigs b) (made.map (·.1)) := by
  have hc : Complete (s.toMigs b) (made.map (·.1)) := by
    intro m hm
    cases made with
    | nil => cases hm
    | cons e rest =>
      cases hm
      obtain ⟨db, hd, _⟩ := h.dirs [] e rest rfl
      exact congrArg Except.ok hd.from_
  refine ⟨⟨?_, ?_, fun m hm => .inl (hc m hm)⟩, hc⟩
  · change _ = s.getLatest
    rw [h.getLatest, List.getLast?_map]
  · intro p m hpm
    obtain ⟨a, x, y, c, rfl, rfl, rfl⟩ := infix_map hpm
    obtain ⟨db, hd, _⟩ := h.dirs (a ++ [x]) y c (by simp)
    refine ⟨x.1, ?_, (h.get (by simp)).1⟩
    have := hd.from_
    simp at this
    exact congrArg Except.ok this

theorem FsInv.allMigrations {s : FsMigrations} {made : List (String × ADB)} (h : FsInv s made) :
    (s.toMigs "").allMigrations (s.dirs.length + 1) = .ok (made.map (·.1)) := by
  rw [Props.all_migrations_exact]
  refine ⟨(h.path "").1, ?_⟩
  have : (made.map (·.1)).length ≤ s.dirs.keys.length := length_le_of_subset h.nodup (fun n hn => by
    rw [SMap.mem_keys_iff]
    exact (h.get hn).2)
  unfold SMap.keys at this
  rw [List.length_map (as := s.dirs)] at this
  omega

theorem fsInv_frame {s s' : FsMigrations} {made : List (String × ADB)} (h : FsInv s made) {n : String}
    (hn : n ∉ made.map (·.1)) (hs : OnlyIn n s s') : FsInv s' made where
  latest := by rw [hs.1]; exact h.latest
  nodup := h.nodup
  notCurrent := h.notCurrent
  dirs a e b hab := by
    obtain ⟨db, hd, hsame⟩ := h.dirs a e b hab
    subst hab
    refine ⟨db, dirOk_frame hd (hs.2 _ ?_) (fun x hx => hs.2 _ ?_), hsame⟩
    · rintro rfl; exact hn (by simp)
    · rintro rfl; exact hn (by rw [List.map_append]; exact List.mem_append_left _ hx)

/-! ### Creating a migration -/

theorem fs_readLatest {json : Bool} {s : FsMigrations} {made : List (String × ADB)} (h : FsInv s made) :
    ∃ fromDb, readFrom (FsMigrations.ops json) s.getLatest s = .ok fromDb ∧ Settled fromDb ∧
      match made.getLast? with
      | none => fromDb = ADB.new
      | some e => ∃ a, made = a ++ [e] ∧ DirOk s (a.map (·.1)) e.1 (a.getLast?.map (·.1)) fromDb ∧
          SameSchema fromDb e.2 := by
  rw [h.getLatest]
  rcases List.eq_nil_or_concat made with rfl | ⟨a, e, rfl⟩
  · exact ⟨ADB.new, rfl, settled_new, rfl⟩
  · rw [List.concat_eq_append] at h ⊢
    obtain ⟨db, hd, hsame⟩ := h.dirs a e [] (by simp)
    refine ⟨db, ?_, hd.settled, ?_⟩
    · simp only [List.getLast?_append, List.getLast?_singleton, Option.some_or, Option.map_some]
      exact dirOk_getDb hd
    · simp only [List.getLast?_append, List.getLast?_singleton, Option.some_or]
      exact ⟨a, rfl, hd, hsame⟩

/-- The state of the loop over the tables. -/
structure FsTables (s : FsMigrations) (names : List String) (modified : List String) (fromDb toDb : ADB)
    (name : String) (rest : List ATable) (p : FsMigrations × String) : Prop where
  here : p.2 = name
  frame : OnlyIn name s p.1
  fromName : (p.1.info name).fromName = (s.info name).fromName
  exist : (∃ d, s.dirs.lookup name = some d) → ∃ d, p.1.dirs.lookup name = some d
  sub : ∀ t ∈ rest, t ∈ toDb.tables.values
  types : (p.1.dir name).types = none
  sortedT : (p.1.dir name).tables.Sorted
  sortedB : (p.1.info name).tableBases.Sorted
  own : ∀ t x, (p.1.dir name).tables.lookup t = some x → toDb.getTable t = some x ∧ t ∈ modified
  base : ∀ t b, (p.1.info name).tableBases.lookup t = some b → t ∉ modified ∧ b ∈ names ∧
    ∃ x y, (s.dir b).tables.lookup t = some x ∧ fromDb.getTable t = some x ∧ toDb.getTable t = some y ∧ SameTable x y
  all : ∀ t x, toDb.getTable t = some x → x ∈ rest ∨ (p.1.dir name).tables.lookup t = some x ∨
    ∃ b, (p.1.info name).tableBases.lookup t = some b

/-- What the creation of `name` from the migration `from_`, with schema `fromDb`, needs. -/
structure FromOk (s : FsMigrations) (names : List String) (name : String) (from_ : Option String) (fromDb : ADB) :
    Prop where
  settled : Settled fromDb
  tables : (s.dir name).tables = []
  types : (s.dir name).types = none
  bases : (s.info name).tableBases = []
  notin : name ∉ names
  src : match from_ with
    | none => fromDb = ADB.new
    | some e => e ∈ names ∧ ∃ ns prev, (∀ x ∈ ns, x ∈ names) ∧ DirOk s ns e prev fromDb
  chain : ∀ e, from_ = some e → ∀ s', OnlyIn name s s' → (s'.info name).fromName = (s.info name).fromName →
    ((∃ d, s.dirs.lookup name = some d) → ∃ d, s'.dirs.lookup name = some d) →
    ∃ all, (s'.toMigs "").allMigrations (s'.dirs.length + 1) = .ok all ∧ e ∈ all

theorem FromOk.read {s : FsMigrations} {names : List String} {name : String} {from_ : Option String} {fromDb : ADB}
    (h : FromOk s names name from_ fromDb) (json : Bool) : readFrom (FsMigrations.ops json) from_ s = .ok fromDb := by
  have := h.src
  cases from_ with
  | none => simp only at this; subst this; rfl
  | some e =>
    obtain ⟨_, ns, prev, _, hd⟩ := this
    exact dirOk_getDb hd

theorem fs_tables_gen {json : Bool} {s : FsMigrations} {names : List String} {name : String} {from_ : Option String}
    {fromDb toDb : ADB} (h : FromOk s names name from_ fromDb) (ht : Settled toDb) :
    ∃ p, forSteps (tableStep (FsMigrations.ops json) ((diff fromDb toDb).filterMap modifiedTable) from_)
        toDb.tables.values (s, name) = (.ok (), p) ∧
      FsTables s names ((diff fromDb toDb).filterMap modifiedTable) fromDb toDb name [] p := by
  have hfs := h.settled
  have hsrc := h.src
  apply forSteps_ok
  · rintro t rest ⟨p1, p2⟩ hp
    have hname := hp.here
    simp only at hname
    subst hname
    have htv := hp.sub t (by simp)
    obtain ⟨htg, hts⟩ := settled_values ht htv
    unfold tableStep
    by_cases hm : t.name ∈ (diff fromDb toDb).filterMap modifiedTable
    · -- a modified table is written here
      rw [if_pos (by simpa using hm)]
      refine ⟨(p1.addModifiedTable t p2, p2), rfl, ?_⟩
      have hd : (p1.addModifiedTable t p2).dir p2 =
          { p1.dir p2 with tables := (p1.dir p2).tables.insert t.name t } := by
        rw [addModifiedTable, dir_write, if_pos rfl]
      have hi : (p1.addModifiedTable t p2).info p2 = p1.info p2 := by
        unfold FsMigrations.info; rw [hd]
      refine ⟨rfl, hp.frame.write _, by rw [hi]; exact hp.fromName, (fun _ => by
          rw [addModifiedTable, lookup_write, if_pos rfl]; exact ⟨_, rfl⟩), fun x hx => hp.sub x (by simp [hx]),
        by rw [hd]; exact hp.types, by rw [hd]; exact SMap.sorted_insert hp.sortedT _ _,
        by rw [hi]; exact hp.sortedB, ?_, by rw [hi]; exact hp.base, ?_⟩
      · intro n x hx
        rw [hd] at hx
        simp only [SMap.lookup_insert] at hx
        split at hx
        · rename_i he
          cases hx
          rw [he]
          exact ⟨htg, hm⟩
        · exact hp.own n x hx
      · intro n x hx
        rw [hd, hi]
        simp only [SMap.lookup_insert]
        by_cases he : n = t.name
        · rw [if_pos he]
          right; left
          rw [← hx, he, htg]
        · rw [if_neg he]
          rcases hp.all n x hx with h1 | h1
          · rcases List.mem_cons.1 h1 with rfl | h1
            · exact absurd (settled_get ht hx).1.symm he
            · exact .inl h1
          · exact .inr h1
    · -- an unmodified table is in the directory of an earlier migration
      rw [if_neg (by simpa using hm)]
      obtain ⟨x, hx1, hx2⟩ := unmodified_same hfs.valid ht.valid htg hm
      cases hl : from_ with
      | none =>
        rw [hl] at hsrc
        simp only at hsrc
        subst hsrc
        cases hx1
      | some e =>
        rw [hl] at hsrc
        obtain ⟨hemem, ns, prev, hns, hdir⟩ := hsrc
        have hene : e ≠ p2 := fun he => h.notin (he ▸ hemem)
        obtain ⟨all, hall, heall⟩ := h.chain e hl p1 hp.frame hp.fromName hp.exist
        have hfind : all.find? (fun m => m == e) = some e := by
          cases hff : all.find? (fun m => m == e) with
          | none => exact absurd (beq_self_eq_true e) (List.find?_eq_none.1 hff e heall)
          | some m => rw [show m = e by simpa using List.find?_some hff]
        have hei : p1.info e = s.info e := info_congr (hp.frame.2 _ hene)
        -- where the table is
        have hbase : ∃ b, ((s.info e).tableBases.lookup t.name = some b ∨
            (s.info e).tableBases.lookup t.name = none ∧ b = e) ∧ b ∈ names ∧ (s.dir b).tables.lookup t.name = some x := by
          cases hlb : (s.info e).tableBases.lookup t.name with
          | some b =>
            obtain ⟨h1, _, y, h2, h3⟩ := hdir.base _ _ hlb
            rw [hx1] at h3
            cases h3
            exact ⟨b, .inl rfl, hns _ h1, h2⟩
          | none =>
            refine ⟨e, .inr ⟨rfl, rfl⟩, hemem, ?_⟩
            rcases hdir.all _ _ hx1 with h1 | ⟨b, h1⟩
            · exact h1
            · rw [hlb] at h1; cases h1
        obtain ⟨b, hb1, hb2, hb3⟩ := hbase
        have hrun : p1.addUnmodifiedTable t e p2 = (.ok (),
            p1.writeInfo p2 { p1.info p2 with tableBases := (p1.info p2).tableBases.insert t.name b }) := by
          unfold addUnmodifiedTable
          rw [hall]
          rcases hb1 with hb1 | ⟨hb1, rfl⟩
          · simp only [hfind, hei, hb1]
          · simp only [hfind, hei, hb1]
        refine ⟨(p1.writeInfo p2 { p1.info p2 with tableBases := (p1.info p2).tableBases.insert t.name b }, p2),
          ?_, ?_⟩
        · change ((p1.addUnmodifiedTable t e p2).1, (p1.addUnmodifiedTable t e p2).2, p2) = _
          rw [hrun]
        · have hd : ∀ i, ((p1.writeInfo p2 i).dir p2).tables = (p1.dir p2).tables ∧
              ((p1.writeInfo p2 i).dir p2).types = (p1.dir p2).types := by
            intro i
            rw [writeInfo, dir_write, if_pos rfl]
            exact ⟨rfl, rfl⟩
          refine ⟨rfl, hp.frame.writeInfo _, by rw [info_writeInfo]; exact hp.fromName, (fun _ => by
              rw [writeInfo, lookup_write, if_pos rfl]; exact ⟨_, rfl⟩), fun x hx => hp.sub x (by simp [hx]),
            by rw [(hd _).2]; exact hp.types, by rw [(hd _).1]; exact hp.sortedT,
            by rw [info_writeInfo]; exact SMap.sorted_insert hp.sortedB _ _,
            by rw [(hd _).1]; exact hp.own, ?_, ?_⟩
          · intro n b' hn
            rw [info_writeInfo] at hn
            simp only [SMap.lookup_insert] at hn
            split at hn
            · rename_i he
              cases hn
              subst he
              exact ⟨hm, hb2, x, t, hb3, hx1, htg, hx2⟩
            · exact hp.base n b' hn
          · intro n y hy
            rw [(hd _).1, info_writeInfo]
            simp only [SMap.lookup_insert]
            by_cases he : n = t.name
            · rw [if_pos he]
              exact .inr (.inr ⟨b, rfl⟩)
            · rw [if_neg he]
              rcases hp.all n y hy with h1 | h1
              · rcases List.mem_cons.1 h1 with rfl | h1
                · exact absurd (settled_get ht hy).1.symm he
                · exact .inl h1
              · exact .inr h1
  · exact ⟨rfl, OnlyIn.refl _ _, rfl, id, fun _ h => h, h.types, by rw [h.tables]; exact SMap.sorted_nil,
      by rw [h.bases]; exact SMap.sorted_nil, (fun t x hx => by rw [h.tables] at hx; cases hx),
      (fun t b hb => by rw [h.bases] at hb; cases hb), fun t x hx => .inl (mem_values hx)⟩

theorem FsInv.fromOk {json : Bool} {s : FsMigrations} {made : List (String × ADB)} (h : FsInv s made)
    {name : String} (hfresh : s.dirs.lookup name = none) {fromDb : ADB}
    (h0 : readFrom (FsMigrations.ops json) s.getLatest s = .ok fromDb) :
    FromOk s (made.map (·.1)) name s.getLatest fromDb := by
  obtain ⟨fd, hf0, hfs, hmatch⟩ := fs_readLatest (json := json) h
  rw [hf0] at h0
  cases h0
  have hnot : name ∉ made.map (·.1) := fun hm => by
    obtain ⟨d, hd⟩ := (h.get hm).2
    rw [hfresh] at hd
    cases hd
  have hempty : s.dir name = FsDir.empty := by unfold FsMigrations.dir; rw [hfresh]
  have hinfo : s.info name = FsInfo.new := by unfold FsMigrations.info; rw [hempty]; rfl
  refine ⟨hfs, by rw [hempty]; rfl, by rw [hempty]; rfl, by rw [hinfo]; rfl, hnot, ?_, ?_⟩
  · rw [h.getLatest]
    cases hl : made.getLast? with
    | none => rw [hl] at hmatch; exact hmatch
    | some e =>
      rw [hl] at hmatch
      obtain ⟨a, hma, hdir, _⟩ := hmatch
      refine ⟨List.mem_map.2 ⟨e, by simp [hma], rfl⟩, _, _, fun x hx => ?_, hdir⟩
      rw [hma, List.map_append]
      exact List.mem_append_left _ hx
  · intro e he s' hs _ _
    refine ⟨_, (fsInv_frame h hnot hs).allMigrations, ?_⟩
    rw [h.getLatest] at he
    cases hl : made.getLast? with
    | none => rw [hl] at he; cases he
    | some x =>
      rw [hl] at he
      cases he
      exact List.mem_map.2 ⟨x, List.mem_of_getLast? hl, rfl⟩

theorem fs_tables_loop {json : Bool} {s : FsMigrations} {made : List (String × ADB)} (h : FsInv s made)
    {name : String} (hfresh : s.dirs.lookup name = none) {fromDb toDb : ADB} (ht : Settled toDb)
    (h0 : readFrom (FsMigrations.ops json) s.getLatest s = .ok fromDb) :
    ∃ p, forSteps (tableStep (FsMigrations.ops json) ((diff fromDb toDb).filterMap modifiedTable) s.getLatest)
        toDb.tables.values (s, name) = (.ok (), p) ∧
      FsTables s (made.map (·.1)) ((diff fromDb toDb).filterMap modifiedTable) fromDb toDb name [] p :=
  fs_tables_gen (h.fromOk hfresh h0) ht

theorem append_up_inj {a b : String} : a ++ "_up" = b ++ "_up" ↔ a = b := by
  constructor
  · intro h
    have := congrArg String.toList h
    rw [String.toList_append, String.toList_append, List.append_left_inj] at this
    exact String.toList_inj.1 this
  · rintro rfl; rfl

theorem append_down_inj {a b : String} : a ++ "_down" = b ++ "_down" ↔ a = b := by
  constructor
  · intro h
    have := congrArg String.toList h
    rw [String.toList_append, String.toList_append, List.append_left_inj] at this
    exact String.toList_inj.1 this
  · rintro rfl; rfl

theorem up_ne_down {a b : String} : a ++ "_up" ≠ b ++ "_down" := by
  intro h
  have := congrArg (fun s => s.toList.getLast?) h
  simp only [String.toList_append, List.getLast?_append] at this
  revert this
  rw [show ("_up" : String).toList.getLast? = some 'p' by decide,
    show ("_down" : String).toList.getLast? = some 'n' by decide]
  simp

theorem fs_addSql {b up down n : String} {s s' : FsMigrations} (h : s.addSql b up down n = (.ok (), s')) :
    ∃ up' down', withNewline up = .ok up' ∧ withNewline down = .ok down' ∧
      (s'.dir n).tables = (s.dir n).tables ∧ (s'.dir n).types = (s.dir n).types ∧
      (s'.dir n).sql = ((s.dir n).sql.insert (b ++ "_up") up').insert (b ++ "_down") down' ∧
      (s'.info n).tableBases = (s.info n).tableBases ∧
      (∀ x, x ∈ (s'.info n).backends ↔ x = b ∨ x ∈ (s.info n).backends) := by
  unfold FsMigrations.addSql at h
  split at h
  · cases h
  · rename_i up' h1
    dsimp only at h
    split at h
    · cases h
    · rename_i down' h2
      refine ⟨up', down', h1, h2, ?_⟩
      have hi : ∀ f g : SMap String String → SMap String String,
          FsMigrations.info ((s.write n fun d => { d with sql := f d.sql }).write n fun d => { d with sql := g d.sql }) n =
            s.info n := by
        intro f g
        unfold FsMigrations.info
        rw [dir_write, if_pos rfl, dir_write, if_pos rfl]
      have hi' := hi (fun m => m.insert (b ++ "_up") up') (fun m => m.insert (b ++ "_down") down')
      have hd : ∀ f g : SMap String String → SMap String String,
          FsMigrations.dir ((s.write n fun d => { d with sql := f d.sql }).write n fun d => { d with sql := g d.sql }) n =
            { s.dir n with sql := g (f (s.dir n).sql) } := by
        intro f g
        rw [dir_write, if_pos rfl, dir_write, if_pos rfl]
      have hd' := hd (fun m => m.insert (b ++ "_up") up') (fun m => m.insert (b ++ "_down") down')
      simp only at hi' hd'
      split at h
      · rename_i hc
        cases h
        rw [hi'] at hc
        rw [hd', hi']
        refine ⟨rfl, rfl, rfl, rfl, fun x => ⟨.inr, ?_⟩⟩
        rintro (rfl | h)
        · simpa using hc
        · exact h
      · cases h
        rw [info_writeInfo, hi', writeInfo, dir_write, if_pos rfl, hd']
        exact ⟨rfl, rfl, rfl, rfl, fun x => by simp [or_comm]⟩

/-- The files of a new migration hold what the backend generated. -/
def FilesFor (d : FsDir) (i : FsInfo) (fromDb toDb : ADB) (changes : List Operation) (b : MigBackend) : Prop :=
  ∃ up down up' down', SqlFor fromDb toDb changes b up down ∧ withNewline up = .ok up' ∧
    withNewline down = .ok down' ∧ d.sql.lookup (b.name ++ "_up") = some up' ∧
    d.sql.lookup (b.name ++ "_down") = some down' ∧ b.name ∈ i.backends

theorem fs_sql_loop {json : Bool} {fromDb toDb : ADB} {changes : List Operation} {backends : List MigBackend}
    (hnd : (backends.map (·.name)).Nodup) {p p' : FsMigrations × String} {name : String} {s : FsMigrations}
    (hp : p.2 = name ∧ OnlyIn name s p.1)
    (h : forSteps (sqlStep (FsMigrations.ops json) fromDb toDb changes) backends p = (.ok (), p')) :
    p'.2 = name ∧ OnlyIn name s p'.1 ∧ (p'.1.dir name).tables = (p.1.dir name).tables ∧
    (p'.1.dir name).types = (p.1.dir name).types ∧ (p'.1.info name).tableBases = (p.1.info name).tableBases ∧
    ∀ b ∈ backends, FilesFor (p'.1.dir name) (p'.1.info name) fromDb toDb changes b := by
  have := forSteps_inv (f := sqlStep (FsMigrations.ops json) fromDb toDb changes)
    (fun rest q => (rest.map (·.name)).Nodup ∧ q.2 = name ∧ OnlyIn name s q.1 ∧
      (q.1.dir name).tables = (p.1.dir name).tables ∧
      (q.1.dir name).types = (p.1.dir name).types ∧ (q.1.info name).tableBases = (p.1.info name).tableBases ∧
      ∀ b ∈ backends, b ∈ rest ∨ (b.name ∉ rest.map (·.name) ∧
        FilesFor (q.1.dir name) (q.1.info name) fromDb toDb changes b))
    (by
      rintro b rest ⟨q1, q2⟩ q' ⟨h1, h2, h3, h4, h5, h6, h7⟩ hq
      simp only at h2
      subst h2
      have hkeep := fs_sqlStep_keeps (json := json) (fromDb := fromDb) (toDb := toDb) (changes := changes) (b := b)
        (q1, q2) ⟨rfl, h3⟩
      rw [hq] at hkeep
      unfold sqlStep at hq
      split at hq
      · cases hq
      · rename_i up hup
        split at hq
        · cases hq
        · rename_i down hdown
          change ((q1.addSql b.name up down q2).1, (q1.addSql b.name up down q2).2, q2) = _ at hq
          rcases hr : q1.addSql b.name up down q2 with ⟨r, s1⟩
          rw [hr] at hq
          cases hq
          obtain ⟨up', down', g1, g2, g3, g4, g5, g6, g7⟩ := fs_addSql hr
          rw [List.map_cons, List.nodup_cons] at h1
          refine ⟨h1.2, rfl, hkeep.2, g3.trans h4, g4.trans h5, g6.trans h6, ?_⟩
          intro x hx
          rcases h7 x hx with h8 | ⟨h8, u, d, u', d', k1, k2, k3, k4, k5, k6⟩
          · rcases List.mem_cons.1 h8 with rfl | h8
            · refine .inr ⟨h1.1, up, down, up', down', ⟨hup, hdown⟩, g1, g2, ?_, ?_, (g7 _).2 (.inl rfl)⟩
              · simp only [g5, SMap.lookup_insert]
                rw [if_neg up_ne_down]
                simp
              · simp only [g5, SMap.lookup_insert]
                simp
            · exact .inl h8
          · rw [List.map_cons, List.mem_cons, not_or] at h8
            refine .inr ⟨h8.2, u, d, u', d', k1, k2, k3, ?_, ?_, (g7 _).2 (.inr k6)⟩
            · simp only [g5, SMap.lookup_insert]
              rw [if_neg up_ne_down, if_neg (by rw [append_up_inj]; exact h8.1)]
              exact k4
            · simp only [g5, SMap.lookup_insert]
              rw [if_neg (by rw [append_down_inj]; exact h8.1), if_neg (Ne.symm up_ne_down)]
              exact k5)
    (⟨hnd, hp.1, hp.2, rfl, rfl, rfl, fun b hb => .inl hb⟩) h
  obtain ⟨_, h2, h3, h4, h5, h6, h7⟩ := this
  refine ⟨h2, h3, h4, h5, h6, fun b hb => ?_⟩
  rcases h7 b hb with h8 | ⟨_, h8⟩
  · cases h8
  · exact h8

theorem withNewline_ok {t : String} (h : t ≠ "") : ∃ t', withNewline t = .ok t' := by
  unfold withNewline
  cases hl : t.toList.getLast? with
  | none =>
    rw [List.getLast?_eq_none_iff] at hl
    exact absurd (String.toList_inj.1 (by rw [hl]; rfl)) h
  | some c => exact ⟨_, rfl⟩

theorem fs_sql_loop_ok {json : Bool} {fromDb toDb : ADB} {changes : List Operation} {backends : List MigBackend}
    (hsql : ∀ b ∈ backends, ∃ up down, SqlFor fromDb toDb changes b up down ∧ up ≠ "" ∧ down ≠ "")
    (p : FsMigrations × String) :
    ∃ p', forSteps (sqlStep (FsMigrations.ops json) fromDb toDb changes) backends p = (.ok (), p') := by
  obtain ⟨p', h, _⟩ := forSteps_ok (f := sqlStep (FsMigrations.ops json) fromDb toDb changes)
    (l := backends) (s := p) (fun rest _ => ∀ b ∈ rest, b ∈ backends)
    (by
      intro b rest q hq
      obtain ⟨up, down, ⟨h1, h2⟩, h3, h4⟩ := hsql b (hq b (by simp))
      obtain ⟨up', h5⟩ := withNewline_ok h3
      obtain ⟨down', h6⟩ := withNewline_ok h4
      have : ∃ s', q.1.addSql b.name up down q.2 = (.ok (), s') := by
        unfold FsMigrations.addSql
        rw [h5]
        simp only [h6]
        split <;> exact ⟨_, rfl⟩
      obtain ⟨s', hs'⟩ := this
      refine ⟨(s', q.2), ?_, fun x hx => hq x (by simp [hx])⟩
      simp only [sqlStep, h1, h2]
      change ((q.1.addSql b.name up down q.2).1, (q.1.addSql b.name up down q.2).2, q.2) = _
      rw [hs'])
    (fun _ h => h)
  exact ⟨p', h⟩

/-- The details of a creation, from any migration. -/
theorem fs_create_gen {json : Bool} {backends : List MigBackend} (hnd : (backends.map (·.name)).Nodup)
    {s s' : FsMigrations} {names : List String} {name : String} {from_ : Option String} {fromDb toDb : ADB}
    (h : FromOk s names name from_ fromDb) (ht : Settled toDb)
    (hc : createMigrationTo (FsMigrations.ops json) backends name from_ toDb s = (.ok true, s')) :
    ∃ db, diff fromDb toDb ≠ [] ∧ DirOk s' names name from_ db ∧ SameSchema db toDb ∧
      (∀ b ∈ backends, FilesFor (s'.dir name) (s'.info name) fromDb toDb
        (upChanges from_ (diff fromDb toDb)) b) ∧
      s'.latest = (if s.latest = none ∨ s.latest = from_ then some name else s.latest) ∧
      (∀ n, n ≠ name → s'.dirs.lookup n = s.dirs.lookup n) ∧
      (∀ t, t ∈ (diff fromDb toDb).filterMap modifiedTable → db.getTable t = toDb.getTable t ∧
        (∀ x, db.getTable t = some x → (s'.dir name).tables.lookup t = some x)) ∧
      (∀ t, t ∉ (diff fromDb toDb).filterMap modifiedTable → (s'.dir name).tables.lookup t = none ∧
        (∀ x, db.getTable t = some x → fromDb.getTable t = some x)) := by
  have hframe := (fs_create_frame hc).1
  obtain ⟨fromDb', p1, p2, p3, h0, hd, h1, h2, h3, h4⟩ := create_true hc
  rw [h.read] at h0
  cases h0
  obtain ⟨q, hq, hT⟩ := fs_tables_gen (json := json) h ht
  change forSteps _ _ (s, name) = _ at h1
  rw [hq] at h1
  cases h1
  obtain ⟨g1, g2, g3, g4, g5, g6⟩ := fs_sql_loop hnd ⟨hT.here, hT.frame⟩ h2
  change (.ok (), p2.1.setFrom _ p2.2, p2.2) = ((.ok () : Except MErr Unit), p3) at h3
  cases h3
  change (.ok (), FsMigrations.addMigration p2.2 (p2.1.setFrom _ p2.2)) = ((.ok () : Except MErr Unit), s') at h4
  have hmap : from_.map (FsMigrations.ops json).name = from_ := by cases from_ <;> rfl
  rw [g1, hmap] at h4
  have hs' : FsMigrations.addMigration name (p2.1.setFrom from_ name) = s' := by cases h4; rfl
  clear h4
  have hlat : (p2.1.setFrom from_ name).latest = s.latest := g2.1
  have hdirs : s'.dirs = (p2.1.setFrom from_ name).dirs := by
    rw [← hs']
    unfold FsMigrations.addMigration
    split <;> rfl
  have hlook : s'.dirs.lookup name = (p2.1.setFrom from_ name).dirs.lookup name := by rw [hdirs]
  have hinfo0 : (p2.1.setFrom from_ name).info name = { p2.1.info name with fromName := from_ } :=
    info_writeInfo _ _ _
  have hlatest : s'.latest = if s.latest = none ∨ s.latest = from_ then some name else s.latest := by
    rw [← hs']
    unfold FsMigrations.addMigration
    rw [hlat, hinfo0]
    split <;> first | rfl | exact hlat
  have hinfo' : s'.info name = { p2.1.info name with fromName := from_ } := by rw [info_congr hlook, hinfo0]
  have hdir' : s'.dir name = { p2.1.dir name with info := some { p2.1.info name with fromName := from_ } } := by
    rw [dir_congr hlook, setFrom, writeInfo, dir_write, if_pos rfl]
  have hfromSettled := h.settled
  -- the schema that will be read
  obtain ⟨db, hdbs, hdbx, hdbl⟩ : ∃ db : ADB, db.tables.Sorted ∧ db.extraTypes = [] ∧
      ∀ t, db.getTable t = match (p1.1.dir name).tables.lookup t with
        | some x => some x
        | none => if (p1.1.info name).tableBases.lookup t = none then none else fromDb.getTable t := by
    obtain ⟨r, r1, r2, r3, r4⟩ := readBases_ok (s := s) hfromSettled (bases := (p1.1.info name).tableBases)
      (fun e he => by
        obtain ⟨_, _, x, y, k1, k2, _, _⟩ := hT.base e.1 e.2 (SMap.lookup_of_mem hT.sortedB he)
        exact ⟨x, k1, k2⟩) ADB.new SMap.sorted_nil
    have hkey : ∀ e ∈ (p1.1.dir name).tables, e.2.name = e.1 := fun e he =>
      (settled_get ht (hT.own e.1 e.2 (SMap.lookup_of_mem hT.sortedT he)).1).1
    have hndt : ((p1.1.dir name).tables.values.map (·.name)).Nodup := by
      have := SMap.nodup_keys hT.sortedT
      unfold SMap.keys at this
      unfold SMap.values
      rw [List.map_map]
      have e : (p1.1.dir name).tables.map ((fun t : ATable => t.name) ∘ fun e => e.2) =
          (p1.1.dir name).tables.map (fun e => e.1) := List.map_congr_left (fun e he => hkey e he)
      rw [e]
      exact this
    obtain ⟨k1, k2, k3⟩ := foldl_replace_lookup (p1.1.dir name).tables.values r r2
    refine ⟨(p1.1.dir name).tables.values.foldl ADB.replaceTable r, k1, by rw [k2, r3]; rfl, fun t => ?_⟩
    obtain ⟨e1, e2⟩ := k3 hndt t
    cases hl : (p1.1.dir name).tables.lookup t with
    | some x =>
      exact e1 x (List.mem_map.2 ⟨_, SMap.mem_of_lookup hl, rfl⟩) (hkey _ (SMap.mem_of_lookup hl))
    | none =>
      rw [e2, r4]
      · simp only
        by_cases hb : (p1.1.info name).tableBases.lookup t = none
        · rw [if_pos hb, if_neg]
          · rfl
          · intro hm
            obtain ⟨e, he, rfl⟩ := List.mem_map.1 hm
            rw [SMap.lookup_of_mem hT.sortedB he] at hb
            cases hb
        · rw [if_neg hb, if_pos]
          cases hbl : (p1.1.info name).tableBases.lookup t with
          | none => exact absurd hbl hb
          | some b => exact List.mem_map.2 ⟨_, SMap.mem_of_lookup hbl, rfl⟩
      · intro hm
        obtain ⟨x, hx, hxn⟩ := List.mem_map.1 hm
        obtain ⟨e, he, rfl⟩ := List.mem_map.1 hx
        have := SMap.lookup_of_mem hT.sortedT he
        rw [← hkey e he, hxn, hl] at this
        cases this
  have hdiff : ∀ t b, (p1.1.info name).tableBases.lookup t = some b → (p1.1.dir name).tables.lookup t = none := by
    intro t b hb
    cases hl : (p1.1.dir name).tables.lookup t with
    | none => rfl
    | some x => exact absurd (hT.own t x hl).2 (hT.base t b hb).1
  have hbdb : ∀ t b, (p1.1.info name).tableBases.lookup t = some b → db.getTable t = fromDb.getTable t := by
    intro t b hb
    rw [hdbl, hdiff t b hb]
    simp [hb]
  have hset : Settled db := by
    rw [settled_iff]
    refine ⟨hdbs, fun e he => ?_⟩
    have hl : db.getTable e.1 = some e.2 := SMap.lookup_of_mem hdbs he
    rw [hdbl] at hl
    split at hl
    · rename_i x hx
      cases hl
      have := settled_get ht (hT.own _ _ hx).1
      exact ⟨this.1.symm, this.2⟩
    · split at hl
      · cases hl
      · have := settled_get hfromSettled hl
        exact ⟨this.1.symm, this.2⟩
  refine ⟨db, hd, ?_, ?_, ?_, hlatest, hframe, ?_, ?_⟩
  · have hex : ∃ d, s'.dirs.lookup name = some d := by
      rw [hlook, setFrom, writeInfo, lookup_write, if_pos rfl]
      exact ⟨_, rfl⟩
    refine ⟨hex, ?_, ?_, ?_, ?_, ?_, ?_, ?_, hset, hdbx⟩
    · rw [hinfo']
    · rw [hdir']; exact g4.trans hT.types
    · rw [hdir']; simp only; rw [g3]; exact hT.sortedT
    · rw [hinfo']; simp only; rw [g5]; exact hT.sortedB
    · rw [hinfo', hdir']
      simp only
      rw [g5, g3]
      intro t b hb
      obtain ⟨_, k2, x, y, k3, k4, _, _⟩ := hT.base t b hb
      refine ⟨k2, hdiff t b hb, x, ?_, by rw [hbdb t b hb, k4]⟩
      rw [dir_congr (hframe b ?_)]
      · exact k3
      · rintro rfl
        exact h.notin k2
    · rw [hdir']
      simp only
      rw [g3]
      intro t x hx
      rw [hdbl, hx]
    · rw [hdir', hinfo']
      simp only
      rw [g3, g5]
      intro t x hx
      rw [hdbl] at hx
      split at hx
      · rename_i y hy
        cases hx
        exact .inl hy
      · split at hx
        · cases hx
        · rename_i hb
          cases hbl : (p1.1.info name).tableBases.lookup t with
          | none => exact absurd hbl hb
          | some b => exact .inr ⟨b, rfl⟩
  · intro t
    cases htt : toDb.getTable t with
    | none =>
      have : db.getTable t = none := by
        rw [hdbl]
        split
        · rename_i x hx
          rw [(hT.own t x hx).1] at htt
          cases htt
        · split
          · rfl
          · rename_i hb
            cases hbl : (p1.1.info name).tableBases.lookup t with
            | none => exact absurd hbl hb
            | some b =>
              obtain ⟨_, _, x, y, _, _, k5, _⟩ := hT.base t b hbl
              rw [k5] at htt
              cases htt
      rw [this]
      trivial
    | some x =>
      rcases hT.all t x htt with k | k | ⟨b, k⟩
      · cases k
      · rw [hdbl, k]
        exact ⟨rfl, x.columns, .refl _, AllMatch.refl SameColumn.refl _⟩
      · obtain ⟨_, _, x', y, _, k4, k5, k6⟩ := hT.base t b k
        rw [hbdb t b k, k4]
        rw [htt] at k5
        cases k5
        exact k6
  · intro b hb
    obtain ⟨u, d, u', d', k1, k2, k3, k4, k5, k6⟩ := g6 b hb
    rw [hdir', hinfo']
    exact ⟨u, d, u', d', k1, k2, k3, k4, k5, k6⟩
  · intro t htm
    have hb : (p1.1.info name).tableBases.lookup t = none := by
      cases hb : (p1.1.info name).tableBases.lookup t with
      | none => rfl
      | some b => exact absurd htm (hT.base t b hb).1
    rw [hdir']
    simp only
    rw [g3, hdbl]
    cases hl : (p1.1.dir name).tables.lookup t with
    | some x => exact ⟨(hT.own t x hl).1.symm, fun y hy => hy⟩
    | none =>
      simp only [hb]
      refine ⟨?_, fun x hx => by cases hx⟩
      cases htt : toDb.getTable t with
      | none => rfl
      | some x =>
        rcases hT.all t x htt with k | k | ⟨b, k⟩
        · cases k
        · rw [hl] at k; cases k
        · rw [hb] at k; cases k
  · intro t htm
    have hl : (p1.1.dir name).tables.lookup t = none := by
      cases hl : (p1.1.dir name).tables.lookup t with
      | none => rfl
      | some x => exact absurd (hT.own t x hl).2 htm
    rw [hdir']
    simp only
    rw [g3]
    refine ⟨hl, fun x hx => ?_⟩
    rw [hdbl, hl] at hx
    simp only at hx
    split at hx
    · cases hx
    · exact hx

/-- The details of a creation. -/
theorem fs_create_details {json : Bool} {backends : List MigBackend} (hnd : (backends.map (·.name)).Nodup)
    {s s' : FsMigrations} {made : List (String × ADB)} (h : FsInv s made) {name : String}
    (hfresh : s.dirs.lookup name = none) {toDb : ADB} (ht : Settled toDb)
    (hc : createMigrationTo (FsMigrations.ops json) backends name s.getLatest toDb s = (.ok true, s')) :
    ∃ fromDb db, readFrom (FsMigrations.ops json) s.getLatest s = .ok fromDb ∧ diff fromDb toDb ≠ [] ∧
      DirOk s' (made.map (·.1)) name s.latest db ∧ SameSchema db toDb ∧
      (∀ b ∈ backends, FilesFor (s'.dir name) (s'.info name) fromDb toDb
        (upChanges s.getLatest (diff fromDb toDb)) b) ∧
      s'.latest = some name ∧ ∀ n, n ≠ name → s'.dirs.lookup n = s.dirs.lookup n := by
  obtain ⟨fromDb, h0, _⟩ := fs_readLatest (json := json) h
  have hlat : s.getLatest = s.latest := by rw [h.getLatest, h.latest]
  obtain ⟨db, h1, h2, h3, h4, h5, h6, _⟩ := fs_create_gen hnd (h.fromOk hfresh h0) ht hc
  refine ⟨fromDb, db, h0, h1, ?_, h3, h4, ?_, h6⟩
  · rw [← hlat]; exact h2
  · rw [h5, if_pos (.inr hlat.symm)]

theorem fs_inv_create {json : Bool} {backends : List MigBackend} (hnd : (backends.map (·.name)).Nodup)
    {s s' : FsMigrations} {made : List (String × ADB)} (h : FsInv s made) {name : String}
    (hfresh : s.dirs.lookup name = none ∧ name ≠ "current") {toDb : ADB} (ht : Settled toDb)
    (hc : createMigrationTo (FsMigrations.ops json) backends name s.getLatest toDb s = (.ok true, s')) :
    FsInv s' (made ++ [(name, toDb)]) := by
  obtain ⟨fromDb, db, _, _, h1, h2, _, h3, h4⟩ := fs_create_details hnd h hfresh.1 ht hc
  have hnot : name ∉ made.map (·.1) := fun hm => by
    obtain ⟨d, hd⟩ := (h.get hm).2
    rw [hfresh.1] at hd
    cases hd
  refine ⟨by rw [h3]; simp, ?_, ?_, ?_⟩
  · rw [List.map_append, List.nodup_append]
    refine ⟨h.nodup, by simp, ?_⟩
    intro a ha b hb
    simp at hb
    subst hb
    rintro rfl
    exact hnot ha
  · intro e he
    rcases List.mem_append.1 he with he | he
    · exact h.notCurrent e he
    · simp at he
      subst he
      exact hfresh.2
  · intro a e b hab
    rcases List.eq_nil_or_concat b with rfl | ⟨b, y, rfl⟩
    · obtain ⟨rfl, h5⟩ := List.append_inj' hab rfl
      cases h5
      refine ⟨db, ?_, h2⟩
      rw [← h.latest]
      exact h1
    · rw [List.concat_eq_append, ← List.cons_append, ← List.append_assoc] at hab
      obtain ⟨h5, _⟩ := List.append_inj' hab rfl
      obtain ⟨db', hd, hsame⟩ := h.dirs a e b h5
      refine ⟨db', dirOk_frame hd (h4 _ ?_) (fun x hx => h4 _ ?_), hsame⟩
      · rintro rfl; exact hnot (by rw [h5]; simp)
      · rintro rfl
        exact hnot (by rw [h5, List.map_append]; exact List.mem_append_left _ hx)

theorem fs_inv {json : Bool} {backends : List MigBackend} (hnd : (backends.map (·.name)).Nodup)
    {s : FsMigrations} {made : List (String × ADB)} (h : FsMade json backends s made) : FsInv s made := by
  induction h with
  | empty =>
    refine ⟨rfl, List.nodup_nil, (fun e he => by cases he), ?_⟩
    intro a e b hab
    simp at hab
  | edit _ he ih =>
    refine fsInv_frame ih (n := "current") ?_ he
    intro hm
    obtain ⟨e, he, h1⟩ := List.mem_map.1 hm
    exact ih.notCurrent e he h1
  | create _ hf ht hc ih => exact fs_inv_create hnd ih hf ht hc
  | @other s s' made name toDb r _ hf hc hr ih =>
    have hframe := fs_create_frame hc
    refine fsInv_frame ih (n := name) ?_ ⟨hframe.2.1 hr, hframe.1⟩
    intro hm
    obtain ⟨d, hd⟩ := (ih.get hm).2
    rw [hf.1] at hd
    cases hd

end Butane
