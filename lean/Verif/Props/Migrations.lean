/-
C30 - C33: the chain of migrations, applying and undoing it.

The operations are those of Model/Migrations.lean; the SQL of a migration is anything
that leaves the records of applied migrations alone.
-/
import Verif.Proofs.Migrations

namespace Butane.Props
open Butane Spec
variable {M U : Type} {ms : Migs M}

/-! ### Fixtures -/

/-- A migration: name, predecessor, and the table it creates. -/
structure ExMig where
  name : String
  prev : Option String
  table : String
deriving DecidableEq

def exMigs (l : List ExMig) (latest : Option String) : Migs ExMig :=
  let get := fun n => l.find? fun m => m.name == n
  ⟨get, latest.bind get, (·.name), fun m => .ok m.prev, fun m => .ok (some ("+" ++ m.table)),
    fun m => .ok (some ("-" ++ m.table))⟩

def migA : ExMig := ⟨"a", none, "x"⟩
def migB : ExMig := ⟨"b", some "a", "y"⟩
def migC : ExMig := ⟨"c", some "b", "z"⟩

/-- Three migrations and one that is not in the chain. -/
def exThree : Migs ExMig := exMigs [migC, migA, ⟨"d", some "a", "w"⟩, migB] (some "c")

/-- A database that knows three tables. -/
def exExec (sql : String) (db : MigDb (List String)) : Except MErr (MigDb (List String)) :=
  match [("+x", ["x"]), ("+y", ["x", "y"]), ("+z", ["x", "y", "z"]), ("-x", []), ("-y", ["x"]),
    ("-z", ["x", "y"])].lookup sql with
  | some tables => .ok ⟨tables, some (match db.log with | some names => names | none => [])⟩
  | none => .error .db

def exIs (o : Option ExMig) (u : List String) : Prop :=
  u = if o = some migA then ["x"] else if o = some migB then ["x", "y"]
    else if o = some migC then ["x", "y", "z"] else []

/-- The connection fails at the given call, or is lost. -/
def exConn (out : Nat → Outcome) : MigConn (List String) := ⟨exExec, out⟩

theorem exThree_keyed : Keyed exThree := by
  constructor
  · intro n m h
    have := List.find?_some h
    exact eq_of_beq this
  · intro m h
    cases h
    rfl

theorem exThree_path : IsPath exThree [migA, migB, migC] := by
  rw [isPath_iff]
  exact .cons (p := some migB) rfl (.cons (p := some migA) rfl (.cons (p := none) rfl .nil))

theorem exThree_keeps : KeepsRecords exThree exExec [migA, migB, migC] := by
  intro m _ sql _ db db1 h n
  have hlog : db1.log = some (match db.log with | some names => names | none => []) := by
    unfold exExec at h
    split at h
    · cases h; rfl
    · cases h
  unfold Recorded
  rw [hlog]
  cases hd : db.log with
  | none => simp
  | some names => simp

theorem exThree_split {a b : List ExMig} {m : ExMig} (h : [migA, migB, migC] = a ++ m :: b) :
    (a = [] ∧ m = migA) ∨ (a = [migA] ∧ m = migB) ∨ (a = [migA, migB] ∧ m = migC) := by
  match a, h with
  | [], h => cases h; exact .inl ⟨rfl, rfl⟩
  | [_], h => cases h; exact .inr (.inl ⟨rfl, rfl⟩)
  | [_, _], h => cases h; exact .inr (.inr ⟨rfl, rfl⟩)
  | _ :: _ :: _ :: a, h =>
    have := congrArg List.length h
    simp at this

theorem exThree_correct : Correct exThree exExec exIs [migA, migB, migC] := by
  constructor
  · intro a m b h sql db db1 hs hi he
    rcases exThree_split h with ⟨rfl, rfl⟩ | ⟨rfl, rfl⟩ | ⟨rfl, rfl⟩ <;> cases hs <;> cases he <;> rfl
  · intro a m b h sql db db1 hs hi he
    rcases exThree_split h with ⟨rfl, rfl⟩ | ⟨rfl, rfl⟩ | ⟨rfl, rfl⟩ <;> cases hs <;> cases he <;> rfl

/-! ### C30 -/

/-- C30: `all_migrations` returns exactly the migrations found by following the links
from the latest one, oldest first.  (`fuel` is the number of rounds its loop is given; the
loop of the code goes on for ever if this is never enough, see
`all_migrations_cycle_violated`.) -/
theorem all_migrations_exact (fuel : Nat) (l : List M) :
    ms.allMigrations fuel = .ok l ↔ IsPath ms l ∧ l.length ≤ fuel := by
  rw [Migs.allMigrations, allLoop_ok, isPath_iff]
  constructor
  · rintro ⟨l', h1, h2, rfl⟩
    simpa using ⟨h1, h2⟩
  · rintro ⟨h1, h2⟩
    exact ⟨l.reverse, h1, by simpa using h2, by simp⟩

/-- C30: no migration occurs twice in the chain. -/
theorem chain_distinct (hk : Keyed ms) {l : List M} (h : IsPath ms l) : (l.map ms.name).Nodup :=
  isPath_nodup hk h

/-- C30: `migrations_since(s)` returns exactly the part of the chain after `s`, and fails
exactly if `s` is not in the chain. -/
theorem migrations_since_exact (hk : Keyed ms) {l : List M} (hl : IsPath ms l) (s : M) {fuel : Nat}
    (hf : l.length ≤ fuel) :
    (∀ a x b, l = a ++ x :: b → ms.name x = ms.name s → ms.migrationsSince fuel s = .ok b) ∧
    ((∀ x ∈ l, ms.name x ≠ ms.name s) → ms.migrationsSince fuel s = .error .notInChain) := by
  have hb := isPath_iff.1 hl
  constructor
  · intro a x b h hx
    have hnd := isPath_nodup hk hl
    subst h
    rw [List.reverse_append, List.reverse_cons, List.append_assoc] at hb
    rw [Migs.migrationsSince, sinceLoop_found hb hx ?_ (by simp at hf ⊢; omega)]
    · simp
    · intro y hy hc
      rw [List.map_append, List.map_cons, List.nodup_append] at hnd
      have := List.nodup_cons.1 hnd.2.1
      exact this.1 (by rw [hx, ← hc]; exact List.mem_map.2 ⟨y, by simpa using hy, rfl⟩)
  · intro h
    exact sinceLoop_missing hb (fun y hy => h y (by simpa using hy)) (by simpa using hf)

/-- C30: if every migration was made after its predecessor, and all of them can be read,
there is a chain, so that `all_migrations` returns.  Partial: this is not so for
collections with a cycle (`all_migrations_cycle_violated`). -/
theorem all_migrations_returns_partial (hk : Keyed ms) (made : M → Nat)
    (hmade : ∀ m n p, ms.get (ms.name m) = some m → ms.from_ m = .ok (some n) → ms.get n = some p →
      made p < made m)
    (hread : ∀ m, ms.get (ms.name m) = some m → ∃ o, ms.from_ m = .ok o) :
    ∃ l, IsPath ms l ∧ ∀ fuel, l.length ≤ fuel → ms.allMigrations fuel = .ok l := by
  have key : ∀ k (o : Option M), (∀ m, o = some m → made m < k ∧ ms.get (ms.name m) = some m) →
      ∃ l, Back ms o l := by
    intro k
    induction k with
    | zero =>
      intro o h
      cases o with
      | none => exact ⟨[], .nil⟩
      | some m => exact absurd (h m rfl).1 (by omega)
    | succ k ih =>
      intro o h
      cases o with
      | none => exact ⟨[], .nil⟩
      | some m =>
        obtain ⟨f, hf⟩ := hread m (h m rfl).2
        obtain ⟨p, hp⟩ : ∃ p, ms.prev m = .ok p := by
          unfold Migs.prev
          rw [hf]
          cases f with
          | none => exact ⟨_, rfl⟩
          | some n => exact ⟨_, rfl⟩
        obtain ⟨l, hl⟩ := ih p (by
          intro q hq
          subst hq
          rcases prev_ok_iff.1 hp with ⟨h1, _⟩ | ⟨q', n, h1, h2, h3⟩
          · cases h1
          · cases h1
            have hlt := hmade m n q (h m rfl).2 h2 h3
            have hm := (h m rfl).1
            exact ⟨by omega, by rw [hk.name n q h3]; exact h3⟩)
        exact ⟨m :: l, .cons hp hl⟩
  obtain ⟨l, hl⟩ := key (match ms.latest with | some m => made m + 1 | none => 0) ms.latest (by
    intro m hm
    rw [hm]
    exact ⟨Nat.lt_succ_self _, hk.latest m hm⟩)
  refine ⟨l.reverse, ?_, fun fuel hf => ?_⟩
  · rw [isPath_iff, List.reverse_reverse]
    exact hl
  · exact (all_migrations_exact fuel _).2 ⟨by rw [isPath_iff, List.reverse_reverse]; exact hl, hf⟩

example : exThree.allMigrations 9 = .ok [migA, migB, migC] ∧
    exThree.migrationsSince 9 migA = .ok [migB, migC] ∧
    exThree.migrationsSince 9 ⟨"d", some "a", "w"⟩ = .error .notInChain := by
  refine ⟨(all_migrations_exact 9 _).2 ⟨exThree_path, by decide⟩,
    (migrations_since_exact exThree_keyed exThree_path migA (fuel := 9) (by decide)).1 [] migA _ rfl rfl,
    (migrations_since_exact exThree_keyed exThree_path _ (fuel := 9) (by decide)).2 (by decide)⟩

example : ∃ l, IsPath exThree l :=
  (all_migrations_returns_partial exThree_keyed
    (fun m => if m.name = "a" then 0 else if m.name = "b" then 1 else 2) (by
      intro m n p hm h1 h2
      have hm : m ∈ [migC, migA, ⟨"d", some "a", "w"⟩, migB] :=
        List.mem_of_find?_eq_some (p := fun x : ExMig => x.name == m.name) hm
      simp only [List.mem_cons, List.not_mem_nil, or_false] at hm
      rcases hm with rfl | rfl | rfl | rfl <;> cases h1 <;> cases h2 <;> decide)
    (fun m _ => ⟨_, rfl⟩)).imp fun _ h => h.1

/-- C30 is false of collections with a cycle: `all_migrations` does not return, however
long one waits. -/
theorem all_migrations_cycle_violated (fuel : Nat) :
    (exMigs [⟨"a", some "a", "x"⟩] (some "a")).allMigrations fuel = .error .outOfFuel := by
  have key : ∀ fuel acc, (exMigs [⟨"a", some "a", "x"⟩] (some "a")).allLoop fuel (some ⟨"a", some "a", "x"⟩) acc =
      .error .outOfFuel := by
    intro fuel
    induction fuel with
    | zero => exact fun _ => rfl
    | succ fuel ih => exact fun acc => ih _
  exact key fuel []

/-! ### C31 and C32 -/

theorem migrate_cases (hk : Keyed ms) {l : List M} (hl : IsPath ms l) {fuel : Nat}
    (hf : l.length < fuel) {pre todo : List M} {c : MigConn U} {db db' : MigDb U} {r : Except MErr Unit}
    (he : l = pre ++ todo) (htodo : ∀ m ∈ todo, ¬ Recorded db (ms.name m))
    (hpre : pre = [] ∨ ∃ x a, pre = a ++ [x] ∧ Recorded db (ms.name x))
    (h : ms.migrate fuel c db = (r, db')) :
    ∃ a b, todo = a ++ b ∧ Applied ms c.exec a db db' ∧ (r = .ok () → b = []) := by
  unfold Migs.migrate at h
  rcases unapplied_ok hk hl he htodo hpre hf c with hu | ⟨hu, _⟩
  · rw [hu] at h
    exact applyAll_cases h
  · rw [hu] at h
    cases h
    exact ⟨[], todo, rfl, .nil, fun h => by cases h⟩

theorem migrate_reliable (hk : Keyed ms) {l : List M} (hl : IsPath ms l) {fuel : Nat}
    (hf : l.length < fuel) {pre todo : List M} {c : MigConn U} {db : MigDb U}
    (he : l = pre ++ todo) (htodo : ∀ m ∈ todo, ¬ Recorded db (ms.name m))
    (hpre : pre = [] ∨ ∃ x a, pre = a ++ [x] ∧ Recorded db (ms.name x)) :
    ms.migrate fuel c.reliable db = ms.applyAll c.reliable 2 todo db := by
  unfold Migs.migrate
  rcases unapplied_ok hk hl he htodo hpre hf c.reliable with hu | ⟨_, n, hn⟩
  · rw [hu]
  · exact absurd rfl hn

/-- C31: whatever was recorded before, `migrate` applies, completely and in order, the
migrations of the chain after the last recorded one; if it fails, it has applied some
first part of these, completely. -/
theorem migrate_applies (hk : Keyed ms) {l : List M} (hl : IsPath ms l) {fuel : Nat}
    (hf : l.length < fuel) {c : MigConn U} {db db' : MigDb U} {r : Except MErr Unit}
    (h : ms.migrate fuel c db = (r, db')) :
    ∃ pre a b, l = pre ++ a ++ b ∧ (∀ m ∈ a ++ b, ¬ Recorded db (ms.name m)) ∧
      (∀ x, pre.getLast? = some x → Recorded db (ms.name x)) ∧
      Applied ms c.exec a db db' ∧ (r = .ok () → b = []) := by
  obtain ⟨pre, todo, he, h1, h2⟩ := split_recorded (ms := ms) l db
  obtain ⟨a, b, rfl, h3, h4⟩ := migrate_cases hk hl hf he h1 h2 h
  refine ⟨pre, a, b, by rw [he, List.append_assoc], h1, ?_, h3, h4⟩
  intro x hx
  rcases h2 with rfl | ⟨y, p, rfl, hy⟩
  · cases hx
  · simp only [List.getLast?_append, List.getLast?_singleton, Option.some_or, Option.some.injEq] at hx
    exact hx ▸ hy

theorem at_pre {Is : Option M → U → Prop} {l : List M} {k : Nat} {db : MigDb U}
    (hat : At ms Is l k db) : l.take k = [] ∨ ∃ x a, l.take k = a ++ [x] ∧ Recorded db (ms.name x) := by
  rcases List.eq_nil_or_concat (l.take k) with h | ⟨a, x, h⟩
  · exact .inl h
  · rw [List.concat_eq_append] at h
    exact .inr ⟨x, a, h, hat.recorded x (by rw [h]; simp)⟩

/-- C31 and C32: starting with the first `k` migrations applied, whatever fails and
whenever the process stops, the first `j ≥ k` migrations are applied afterwards, and the
records and the schema say so.  If `migrate` succeeds, these are all. -/
theorem migrate_any_failure (hk : Keyed ms) {l : List M} (hl : IsPath ms l) {fuel : Nat}
    (hf : l.length < fuel) {c : MigConn U} (hkeep : KeepsRecords ms c.exec l) {Is : Option M → U → Prop}
    (hc : Correct ms c.exec Is l) {k : Nat} {db db' : MigDb U} (hat : At ms Is l k db)
    {r : Except MErr Unit} (h : ms.migrate fuel c db = (r, db')) :
    ∃ j, k ≤ j ∧ At ms Is l j db' ∧ (r = .ok () → j = l.length) := by
  obtain ⟨a, b, he, happ, hr⟩ := migrate_cases hk hl hf (List.take_append_drop k l).symm hat.others
    (at_pre hat) h
  have hl' : l = l.take k ++ a ++ b := by
    rw [List.append_assoc, ← he, List.take_append_drop]
  have hlen : (l.take k).length = k := by simp [hat.le]
  have htake : l.take (k + a.length) = l.take k ++ a := by
    conv => lhs; rw [hl']
    rw [List.take_append_of_le_length (by simp [hat.le]), List.take_of_length_le (by simp [hat.le])]
  have hdrop : l.drop (k + a.length) = b := by
    conv => lhs; rw [hl']
    rw [List.drop_append_of_le_length (by simp [hat.le]), List.drop_of_length_le (by simp [hat.le])]
    rfl
  have hsub : ∀ m ∈ a, m ∈ l := by
    intro m hm
    rw [hl']
    simp [hm]
  have hrec := applied_recorded hkeep hsub happ
  refine ⟨k + a.length, by omega, ⟨?_, ?_, ?_, ?_⟩, ?_⟩
  · have := congrArg List.length hl'
    simp only [List.length_append, hlen] at this
    omega
  · rw [htake]
    intro m hm
    rw [hrec]
    rcases List.mem_append.1 hm with hm | hm
    · exact .inl (hat.recorded m hm)
    · exact .inr (List.mem_map.2 ⟨m, hm, rfl⟩)
  · rw [hdrop]
    intro m hm
    rw [hrec, not_or]
    refine ⟨hat.others m (by rw [he]; simp [hm]), ?_⟩
    intro hc
    have hnd := isPath_nodup hk hl
    rw [hl', List.map_append, List.map_append, List.nodup_append] at hnd
    exact hnd.2.2 _ (List.mem_append.2 (.inr hc)) _ (List.mem_map.2 ⟨m, hm, rfl⟩) rfl
  · rw [htake]
    have hstep : ∀ {a : List M} {db db' : MigDb U} (p : List M), Applied ms c.exec a db db' →
        ∀ b, l = p ++ a ++ b → Is p.getLast? db.user → Is (p ++ a).getLast? db'.user := by
      intro a db db' p happ
      induction happ generalizing p with
      | nil => intro b _ hi; simpa using hi
      | @cons m a db db1 db2 h1 _ ih =>
        intro b hb hi
        have := ih (p ++ [m]) b (by rw [hb]; simp) (by
          obtain ⟨s, d, names, g1, g2, g3, g4, rfl⟩ := h1
          have := hc.up p m (a ++ b) (by rw [hb]; simp) s db d g1 hi g2
          simpa using this)
        simpa using this
    exact hstep (l.take k) happ b hl' hat.schema
  · intro h1
    have := hr h1
    subst this
    have := congrArg List.length hl'
    simp only [List.length_append, hlen, List.length_nil] at this
    omega

/-- C32: after any failure, a `migrate` that meets no failure ends in the same state, with
the same result, as if there had been no failure. -/
theorem migrate_resume (hk : Keyed ms) {l : List M} (hl : IsPath ms l) {fuel : Nat}
    (hf : l.length < fuel) {c : MigConn U} (hkeep : KeepsRecords ms c.exec l) (db : MigDb U) :
    ms.migrate fuel c.reliable (ms.migrate fuel c db).2 = ms.migrate fuel c.reliable db := by
  obtain ⟨pre, todo, he, h1, h2⟩ := split_recorded (ms := ms) l db
  obtain ⟨a, b, rfl, happ, _⟩ := migrate_cases hk hl hf he h1 h2 (c := c) (db' := (ms.migrate fuel c db).2) rfl
  rw [migrate_reliable hk hl hf he h1 h2, applyAll_resume happ]
  have hsub : ∀ m ∈ a, m ∈ l := by
    intro m hm
    rw [he]
    simp [hm]
  have hrec := applied_recorded hkeep hsub happ
  refine migrate_reliable hk hl hf (pre := pre ++ a) (todo := b) (by rw [he, List.append_assoc]) ?_ ?_
  · intro m hm
    rw [hrec, not_or]
    refine ⟨h1 m (by simp [hm]), ?_⟩
    intro hc
    have hnd := isPath_nodup hk hl
    rw [he, ← List.append_assoc, List.map_append, List.map_append, List.nodup_append] at hnd
    exact hnd.2.2 _ (List.mem_append.2 (.inr hc)) _ (List.mem_map.2 ⟨m, hm, rfl⟩) rfl
  · rcases List.eq_nil_or_concat a with rfl | ⟨a, x, rfl⟩
    · rw [List.append_nil]
      rcases h2 with h2 | ⟨x, p, h2, h3⟩
      · exact .inl h2
      · exact .inr ⟨x, p, h2, (hrec _).2 (.inl h3)⟩
    · refine .inr ⟨x, pre ++ a, by simp, (hrec _).2 (.inr (by simp))⟩

/-- C31: migrating again after a successful `migrate` does nothing, with any connection. -/
theorem migrate_twice (hk : Keyed ms) {l : List M} (hl : IsPath ms l) {fuel : Nat}
    (hf : l.length < fuel) {c : MigConn U} (hkeep : KeepsRecords ms c.exec l) {db db' : MigDb U}
    (h : ms.migrate fuel c db = (.ok (), db')) (c' : MigConn U) :
    (ms.migrate fuel c' db').2 = db' ∧ ms.migrate fuel c'.reliable db' = (.ok (), db') := by
  obtain ⟨pre, todo, he, h1, h2⟩ := split_recorded (ms := ms) l db
  obtain ⟨a, b, rfl, happ, hb⟩ := migrate_cases hk hl hf he h1 h2 h
  have := hb rfl
  subst this
  rw [List.append_nil] at he
  have hsub : ∀ m ∈ a, m ∈ l := by
    intro m hm
    rw [he]
    simp [hm]
  have hrec := applied_recorded hkeep hsub happ
  have hpre : l = [] ∨ ∃ x p, l = p ++ [x] ∧ Recorded db' (ms.name x) := by
    rcases List.eq_nil_or_concat a with rfl | ⟨a, x, rfl⟩
    · rw [List.append_nil] at he
      subst he
      rcases h2 with h2 | ⟨x, p, h2, h3⟩
      · exact .inl h2
      · exact .inr ⟨x, p, h2, (hrec _).2 (.inl h3)⟩
    · exact .inr ⟨x, pre ++ a, by rw [he]; simp, (hrec _).2 (.inr (by simp))⟩
  constructor
  · obtain ⟨a', b', h3, h4, _⟩ := migrate_cases hk hl hf (pre := l) (todo := []) (by simp)
      (by simp) hpre (c := c') (db' := (ms.migrate fuel c' db').2) rfl
    have : a' = [] := (List.append_eq_nil_iff.1 h3.symm).1
    subst this
    generalize (ms.migrate fuel c' db').2 = d at h4
    cases h4
    rfl
  · rw [migrate_reliable hk hl hf (pre := l) (todo := []) (by simp) (by simp) hpre]
    rfl

/-- C31: if every migration of the chain has SQL for the database and this SQL can be
executed, after those before it, `migrate` succeeds. -/
theorem migrate_succeeds (hk : Keyed ms) {l : List M} (hl : IsPath ms l) {fuel : Nat}
    (hf : l.length < fuel) {c : MigConn U} (hkeep : KeepsRecords ms c.exec l) {Is : Option M → U → Prop}
    (hc : Correct ms c.exec Is l) {k : Nat} {db : MigDb U} (hat : At ms Is l k db)
    (hrun : ∀ a m b, l = a ++ m :: b → ∀ db, Is a.getLast? db.user → (∀ x ∈ a, Recorded db (ms.name x)) →
      ∃ sql db1 names, ms.up m = .ok (some sql) ∧ c.exec sql db = .ok db1 ∧ db1.log = some names) :
    ∃ db', ms.migrate fuel c.reliable db = (.ok (), db') := by
  rw [migrate_reliable hk hl hf (List.take_append_drop k l).symm hat.others (at_pre hat)]
  have key : ∀ (b a : List M) (db : MigDb U) (n : Nat), l = a ++ b → Is a.getLast? db.user →
      (∀ x ∈ a, Recorded db (ms.name x)) → (∀ m ∈ b, ¬ Recorded db (ms.name m)) → ∃ db', ms.applyAll c.reliable n b db = (.ok (), db') := by
    intro b
    induction b with
    | nil => exact fun a db n _ _ _ _ => ⟨db, rfl⟩
    | cons m b ih =>
      intro a db n he hi hpre hn
      obtain ⟨sql, db1, names, h1, h2, h3⟩ := hrun a m b he db hi hpre
      have hm : m ∈ l := by rw [he]; simp
      have hone : AppliedOne ms c.exec m db ⟨db1.user, some (names ++ [ms.name m])⟩ := by
        refine ⟨sql, db1, names, h1, h2, h3, ?_, rfl⟩
        intro hmem
        exact hn m (by simp) ((hkeep m hm sql (.inl h1) db db1 h2 _).1 ⟨names, h3, hmem⟩)
      rw [Migs.applyAll, applyOne_reliable hone]
      refine ih (a ++ [m]) _ (n + 4) (by rw [he]; simp) ?_ ?_ ?_
      · have := hc.up a m b he sql db db1 h1 hi h2
        simpa using this
      · intro x hx
        rw [appliedOne_recorded hkeep hm hone]
        rcases List.mem_append.1 hx with hx | hx
        · exact .inl (hpre x hx)
        · exact .inr (by rw [List.mem_singleton.1 hx])
      · intro x hx
        rw [appliedOne_recorded hkeep hm hone, not_or]
        refine ⟨hn x (by simp [hx]), ?_⟩
        intro heq
        have hnd := isPath_nodup hk hl
        rw [he, List.map_append, List.map_cons, List.nodup_append] at hnd
        exact (List.nodup_cons.1 hnd.2.1).1 (heq ▸ List.mem_map.2 ⟨x, hx, rfl⟩)
  exact key _ _ db 2 (List.take_append_drop k l).symm hat.schema hat.recorded hat.others

def exFresh : MigDb (List String) := ⟨[], none⟩

theorem exFresh_at : At exThree exIs [migA, migB, migC] 0 exFresh :=
  ⟨by decide, fun m hm => (by cases hm), fun m _ ⟨names, h, _⟩ => (by cases h), rfl⟩

/-- The commit of the second migration is lost, then the statement of the third fails. -/
example :
    exThree.migrate 9 (exConn fun n => if n = 9 then .lost else .ok) exFresh =
      (.error .db, ⟨["x", "y"], some ["a", "b"]⟩) ∧
    exThree.migrate 9 (exConn fun n => if n = 3 then .fail else .ok) ⟨["x", "y"], some ["a", "b"]⟩ =
      (.error .db, ⟨["x", "y"], some ["a", "b"]⟩) ∧
    exThree.migrate 9 (exConn fun _ => .ok) ⟨["x", "y"], some ["a", "b"]⟩ =
      (.ok (), ⟨["x", "y", "z"], some ["a", "b", "c"]⟩) := ⟨rfl, rfl, rfl⟩

example : ∃ j, 0 ≤ j ∧ At exThree exIs [migA, migB, migC] j ⟨["x", "y"], some ["a", "b"]⟩ ∧
    ((.error .db : Except MErr Unit) = .ok () → j = [migA, migB, migC].length) :=
  migrate_any_failure (c := exConn fun n => if n = 9 then .lost else .ok) exThree_keyed exThree_path
    (fuel := 9) (by decide) exThree_keeps exThree_correct exFresh_at rfl

example : ∃ db', exThree.migrate 9 (exConn fun _ => .fail).reliable exFresh = (.ok (), db') :=
  migrate_succeeds exThree_keyed exThree_path (by decide) exThree_keeps exThree_correct exFresh_at (by
    intro a m b h db hi _
    rcases exThree_split h with ⟨rfl, rfl⟩ | ⟨rfl, rfl⟩ | ⟨rfl, rfl⟩ <;> exact ⟨_, _, _, rfl, rfl, rfl⟩)

/-- The applied migrations must be a first part of the chain: an older migration that is
not recorded is skipped if a newer one is. -/
theorem migrate_gap_violated :
    exThree.migrate 9 (exConn fun _ => .ok) ⟨["x", "y"], some ["b"]⟩ =
      (.ok (), ⟨["x", "y", "z"], some ["b", "c"]⟩) := rfl

/-! ### C33 -/

/-- C33: starting with the first `k` migrations applied, whatever fails, `unmigrate`
leaves the first `j ≤ k` applied, and the records and the schema say so; if it succeeds,
none. -/
theorem unmigrate_any_failure (hk : Keyed ms) {l : List M} (hl : IsPath ms l) (hcomp : Complete ms l)
    {fuel : Nat} (hf : l.length < fuel) {c : MigConn U} (hkeep : KeepsRecords ms c.exec l)
    {Is : Option M → U → Prop} (hc : Correct ms c.exec Is l) {k : Nat} {db db' : MigDb U}
    (hat : At ms Is l k db) {r : Except MErr Unit} (h : ms.unmigrate fuel c db = (r, db')) :
    ∃ j, j ≤ k ∧ At ms Is l j db' ∧ (r = .ok () → j = 0) := by
  -- the migrations that were undone, newest first
  have key : ∃ a b, (l.take k).reverse = a ++ b ∧ Undone ms c.exec a db db' ∧ (r = .ok () → b = []) := by
    have hpre := at_pre hat
    unfold Migs.unmigrate at h
    rcases lastApplied_ok hl (List.take_append_drop k l).symm hat.others hpre hf c with hu | ⟨hu, _⟩
    · rw [hu] at h
      rcases hpre with h1 | ⟨x, p, h1, h2⟩
      · rw [h1] at h ⊢
        cases h
        exact ⟨[], [], rfl, .nil, fun _ => rfl⟩
      · rw [h1] at h
        simp only [List.getLast?_append, List.getLast?_singleton, Option.some_or] at h
        have hb : Back ms (some x) (x :: p.reverse) := by
          have := isPath_iff.1 hl
          rw [← List.take_append_drop k l, h1, List.reverse_append, List.reverse_append] at this
          exact this.suffix
        have hlen : p.length < fuel := by
          have := congrArg List.length h1
          simp only [List.length_take, List.length_append, List.length_singleton] at this
          omega
        have hc0 : ∀ y, (x :: p.reverse).getLast? = some y → ms.from_ y = .ok none := by
          intro y hy
          refine hcomp y ?_
          rw [show x :: p.reverse = (p ++ [x]).reverse by simp, List.getLast?_reverse] at hy
          rw [← List.take_append_drop k l, h1, List.head?_append, hy]
          rfl
        rw [h1, List.reverse_append]
        split at h
        · rename_i e d hd
          cases h
          rcases downgradeOne_cases hd with ⟨rfl, _⟩ | h3
          · exact ⟨[], _, rfl, .nil, fun h => by cases h⟩
          · exact ⟨[x], p.reverse, rfl, .cons h3 .nil, fun h => by cases h⟩
        · rename_i d hd
          rcases downgradeOne_cases hd with ⟨_, h3⟩ | h3
          · exact absurd rfl h3
          · obtain ⟨a, b, h4, h5, h6⟩ := undoLoop_cases hb hc0 (by simpa using hlen) h
            refine ⟨x :: a, b, ?_, .cons h3 h5, h6⟩
            simp [h4]
    · rw [hu] at h
      cases h
      exact ⟨[], _, rfl, .nil, fun h => by cases h⟩
  obtain ⟨a, b, he, hund, hr⟩ := key
  have htake : l.take k = b.reverse ++ a.reverse := by
    rw [← List.reverse_append, ← he, List.reverse_reverse]
  have hl' : l = b.reverse ++ (a.reverse ++ l.drop k) := by
    rw [← List.append_assoc, ← htake, List.take_append_drop]
  have hlen : b.length + a.length = k := by
    have := congrArg List.length htake
    simp only [List.length_take, List.length_append, List.length_reverse] at this
    have := hat.le
    omega
  have htb : l.take b.length = b.reverse := by
    conv => lhs; rw [hl']
    rw [List.take_append_of_le_length (by simp), List.take_of_length_le (by simp)]
  have hdb : l.drop b.length = a.reverse ++ l.drop k := by
    conv => lhs; rw [hl']
    rw [List.drop_append_of_le_length (by simp), List.drop_of_length_le (by simp)]
    rfl
  have hsub : ∀ m ∈ a, m ∈ l := by
    intro m hm
    rw [hl']
    simp [hm]
  have hrec := undone_recorded hkeep hsub hund
  refine ⟨b.length, by omega, ⟨by have := hat.le; omega, ?_, ?_, ?_⟩, fun h1 => by rw [hr h1]; rfl⟩
  · rw [htb]
    intro m hm
    rw [hrec]
    refine ⟨hat.recorded m (by rw [htake]; exact List.mem_append.2 (.inl hm)), ?_⟩
    intro hc
    have hnd := isPath_nodup hk hl
    rw [hl', List.map_append, List.map_append, List.nodup_append] at hnd
    refine hnd.2.2 _ (List.mem_map.2 ⟨m, hm, rfl⟩) _ (List.mem_append.2 (.inl ?_)) rfl
    simpa using hc
  · rw [hdb]
    intro m hm
    rw [hrec]
    rcases List.mem_append.1 hm with hm | hm
    · exact fun h => h.2 (List.mem_map.2 ⟨m, by simpa using hm, rfl⟩)
    · exact fun h => hat.others m hm h.1
  · rw [htb]
    have hstep : ∀ {a : List M} {db db' : MigDb U} (q : List M), Undone ms c.exec a db db' →
        ∀ b, l = b ++ (a.reverse ++ q) → Is (b ++ a.reverse).getLast? db.user →
          Is b.getLast? db'.user := by
      intro a db db' q hund
      induction hund generalizing q with
      | nil => intro b _ hi; simpa using hi
      | @cons m a db db1 db2 h1 _ ih =>
        intro b hb hi
        refine ih (m :: q) b (by rw [hb]; simp) ?_
        obtain ⟨s, d, names, g1, g2, g3, rfl⟩ := h1
        refine hc.down (b ++ a.reverse) m q (by rw [hb]; simp) s db d g1 ?_ g2
        simpa using hi
    refine hstep (l.drop k) hund b.reverse hl' ?_
    rw [← htake]
    exact hat.schema

/-- C33: migrate, unmigrate and migrate again ends where migrate ends: all migrations are
recorded and the schema is that of the latest. -/
theorem migrate_unmigrate_migrate (hk : Keyed ms) {l : List M} (hl : IsPath ms l)
    (hcomp : Complete ms l) {fuel : Nat} (hf : l.length < fuel) {c1 c2 c3 : MigConn U}
    {exec : String → MigDb U → Except MErr (MigDb U)} (h1 : c1.exec = exec) (h2 : c2.exec = exec)
    (h3 : c3.exec = exec) (hkeep : KeepsRecords ms exec l) {Is : Option M → U → Prop}
    (hc : Correct ms exec Is l) {k : Nat} {db d1 d2 d3 : MigDb U} (hat : At ms Is l k db)
    (g1 : ms.migrate fuel c1 db = (.ok (), d1)) (g2 : ms.unmigrate fuel c2 d1 = (.ok (), d2))
    (g3 : ms.migrate fuel c3 d2 = (.ok (), d3)) :
    At ms Is l l.length d1 ∧ At ms Is l 0 d2 ∧ At ms Is l l.length d3 := by
  obtain ⟨j, _, a1, e1⟩ := migrate_any_failure hk hl hf (h1 ▸ hkeep) (h1 ▸ hc) hat g1
  cases e1 rfl
  obtain ⟨j, _, a2, e2⟩ := unmigrate_any_failure hk hl hcomp hf (h2 ▸ hkeep) (h2 ▸ hc) a1 g2
  cases e2 rfl
  obtain ⟨j, _, a3, e3⟩ := migrate_any_failure hk hl hf (h3 ▸ hkeep) (h3 ▸ hc) a2 g3
  cases e3 rfl
  exact ⟨a1, a2, a3⟩

theorem exThree_complete : Complete exThree [migA, migB, migC] := by
  intro m h
  cases h
  rfl

example : exThree.unmigrate 9 (exConn fun _ => .ok) ⟨["x", "y"], some ["a", "b"]⟩ =
    (.ok (), ⟨[], some []⟩) ∧
    exThree.unmigrate 9 (exConn fun n => if n = 6 then .fail else .ok) ⟨["x", "y"], some ["a", "b"]⟩ =
    (.error .db, ⟨["x"], some ["a"]⟩) := ⟨rfl, rfl⟩

example : ∃ j, j ≤ 2 ∧ At exThree exIs [migA, migB, migC] j ⟨["x"], some ["a"]⟩ ∧
    ((.error .db : Except MErr Unit) = .ok () → j = 0) :=
  unmigrate_any_failure (c := exConn fun n => if n = 6 then .fail else .ok)
    (db := ⟨["x", "y"], some ["a", "b"]⟩) exThree_keyed exThree_path
    exThree_complete (fuel := 9) (by decide) exThree_keeps exThree_correct (k := 2)
    ⟨by decide, by
      intro m hm
      refine ⟨_, rfl, ?_⟩
      revert m
      decide, by
      rintro m hm ⟨names, h, hn⟩
      cases h
      revert m
      decide, rfl⟩ rfl

theorem undoLoop_missing {c : MigConn U} {fuel n : Nat} {m : M} {b : List M}
    (hb : Back ms (some m) (m :: b))
    (hc : ∀ x, (m :: b).getLast? = some x → ∃ n, ms.from_ x = .ok (some n) ∧ ms.get n = none)
    {db : MigDb U} : (ms.undoLoop c fuel n m db).1 ≠ .ok () := by
  induction b generalizing fuel n m db with
  | nil =>
    cases fuel with
    | zero => simp [Migs.undoLoop]
    | succ fuel =>
      obtain ⟨q, h1, h2⟩ := hc m rfl
      simp [Migs.undoLoop, h1, h2]
  | cons p b ih =>
    cases fuel with
    | zero => simp [Migs.undoLoop]
    | succ fuel =>
      cases hb with
      | cons hp hb =>
        have hh := hb.head
        cases hh
        rcases prev_ok_iff.1 hp with ⟨h1, _⟩ | ⟨q, name, h1, h2, h3⟩
        · cases h1
        · cases h1
          rw [Migs.undoLoop, h2]
          simp only [h3]
          split
          · simp
          · exact ih hb (fun x hx => hc x (by rw [List.getLast?_cons_cons]; exact hx))

/-- C33: if the chain is cut short by a missing predecessor, `unmigrate` never reports
success, unless there was nothing to undo. -/
theorem unmigrate_missing {l : List M} (hl : IsPath ms l) {x : M} (hx : l.head? = some x) {n : String}
    (hfrom : ms.from_ x = .ok (some n)) (hmiss : ms.get n = none) {fuel : Nat} (hf : l.length < fuel)
    {c : MigConn U} {db db' : MigDb U} (h : ms.unmigrate fuel c db = (.ok (), db')) :
    db' = db ∧ ∀ m ∈ l, ¬ Recorded db (ms.name m) := by
  obtain ⟨pre, todo, he, h1, h2⟩ := split_recorded (ms := ms) l db
  unfold Migs.unmigrate at h
  rcases lastApplied_ok hl he h1 h2 hf c with hu | ⟨hu, _⟩
  · rw [hu] at h
    rcases h2 with rfl | ⟨y, a, rfl, _⟩
    · cases h
      exact ⟨rfl, by simpa [he] using h1⟩
    · exfalso
      simp only [List.getLast?_append, List.getLast?_singleton, Option.some_or] at h
      have hb : Back ms (some y) (y :: a.reverse) := by
        have := isPath_iff.1 hl
        rw [he, List.reverse_append, List.reverse_append] at this
        exact this.suffix
      have hc : ∀ z, (y :: a.reverse).getLast? = some z →
          ∃ n, ms.from_ z = .ok (some n) ∧ ms.get n = none := by
        intro z hz
        have : l.head? = some z := by
          rw [he, ← hz, show y :: a.reverse = (a ++ [y]).reverse by simp, List.getLast?_reverse]
          cases a <;> simp
        rw [this] at hx
        cases hx
        exact ⟨n, hfrom, hmiss⟩
      split at h
      · cases h
      · rename_i db1 _
        exact undoLoop_missing hb hc (by rw [h])
  · rw [hu] at h
    cases h

/-- Without the first migration of the example. -/
def exCut : Migs ExMig := { exThree with get := fun n => if n = "a" then none else exThree.get n }
example : (exCut.unmigrate 9 (exConn fun _ => .ok) ⟨["x", "y"], some ["a", "b"]⟩).1 = .error .notInChain := rfl
example : IsPath exCut [migB, migC] ∧ exCut.from_ migB = .ok (some "a") ∧ exCut.get "a" = none :=
  ⟨(all_migrations_exact 9 _).1 rfl |>.1, rfl, rfl⟩

/-- C33 is false if a migration cannot be read: `unmigrate` stops there and reports
success, although migrations are still applied. -/
theorem unmigrate_unreadable_violated :
    ({ exThree with from_ := fun m => if m = migB then .error .read else .ok m.prev }).unmigrate 9
      (exConn fun _ => .ok) ⟨["x", "y"], some ["a", "b"]⟩ = (.ok (), ⟨["x"], some ["a"]⟩) := rfl

end Butane.Props
