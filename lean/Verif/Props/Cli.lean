/-
C50: the commands `migrate`, `unmigrate` and `list` of the command line tool.

The commands are those of Model/Cli.lean.  `At ms Is l k db` (Spec/Migrations.lean) says
that exactly the first `k` migrations of the chain `l` are applied.
-/
import Verif.Proofs.Cli

namespace Butane.Props
open Butane Spec Cli
variable {M U : Type} {ms : Migs M}

/-! ### Migrating to a migration -/

/-- C50: starting with the first `k` migrations applied, whatever fails, the first `j ≥ k`
are applied afterwards.  With no target these are all if the command ends well.  With a
migration that is not yet applied as the target, they never go past the target, and they end
with it if the command ends well.  Partial: see `cli_migrate_target_violated`. -/
theorem cli_migrate_partial (hk : Keyed ms) {l : List M} (hl : IsPath ms l) {fuel : Nat}
    (hf : l.length < fuel) {c : MigConn U} (hkeep : KeepsRecords ms c.exec l) {Is : Option M → U → Prop}
    (hc : Correct ms c.exec Is l) {k : Nat} {db db' : MigDb U} (hat : At ms Is l k db)
    {name : Option String} {r : Except CliErr Unit} (h : migrate ms fuel c name db = (r, db')) :
    ∃ j, k ≤ j ∧ At ms Is l j db' ∧ (name = none → r = .ok () → j = l.length) ∧
      ∀ (t : Nat) m, l[t]? = some m → name = some (ms.name m) → k ≤ t → j ≤ t + 1 ∧ (r = .ok () → j = t + 1) := by
  have key : ∃ a b, l.drop k = a ++ b ∧ Applied ms c.exec a db db' ∧
      (∀ m ∈ a.dropLast, name ≠ some (ms.name m)) ∧
      (r = .ok () → b = [] ∨ ∃ m, a.getLast? = some m ∧ name = some (ms.name m)) := by
    unfold migrate at h
    rcases unapplied_ok hk hl (List.take_append_drop k l).symm hat.others (at_pre hat) hf c with hu | ⟨hu, _⟩
    · rw [hu] at h
      exact migrateLoop_cases h
    · rw [hu] at h
      cases h
      exact ⟨[], l.drop k, rfl, .nil, by simp, fun h => by cases h⟩
  obtain ⟨a, b, he, happ, hno, hend⟩ := key
  have hlen := congrArg List.length he
  simp only [List.length_drop, List.length_append] at hlen
  have hle := hat.le
  have hget : ∀ i, i < a.length → a[i]? = l[k + i]? := by
    intro i hi
    rw [← List.getElem?_drop, he, List.getElem?_append_left hi]
  refine ⟨k + a.length, by omega, applied_at hk hl hkeep hc hat he happ, ?_, ?_⟩
  · intro hn hr
    rcases hend hr with rfl | ⟨m, _, hm⟩
    · simp at hlen
      omega
    · rw [hn] at hm; cases hm
  · intro t m ht hn hkt
    have htl := (List.getElem?_eq_some_iff.1 ht).1
    have hle' : k + a.length ≤ t + 1 := by
      refine Nat.le_of_not_lt fun hlt => ?_
      have hti : a[t - k]? = some m := by
        rw [hget _ (by omega), ← ht]
        congr 1
        omega
      refine hno m ?_ hn
      refine List.mem_of_getElem? (i := t - k) ?_
      rw [List.getElem?_dropLast, if_pos (by omega)]
      exact hti
    refine ⟨hle', fun hr => ?_⟩
    rcases hend hr with rfl | ⟨x, hx, hxn⟩
    · simp at hlen
      omega
    · rw [List.getLast?_eq_getElem?] at hx
      have hpos : 0 < a.length := by
        cases a with
        | nil => simp at hx
        | cons _ _ => simp
      rw [hget _ (by omega)] at hx
      have := isPath_name_inj hk hl hx ht (by rw [hn] at hxn; exact (Option.some.inj hxn).symm)
      omega

theorem migrateLoop_none {c : MigConn U} {n : Nat} {l : List M} {db : MigDb U} :
    migrateLoop ms c none n l db = (lib (ms.applyAll c n l db).1, (ms.applyAll c n l db).2) := by
  induction l generalizing n db with
  | nil => rfl
  | cons m l ih =>
    unfold migrateLoop Migs.applyAll
    rcases ms.applyOne c n m db with ⟨_ | _, db'⟩
    · rfl
    · exact ih

/-- C50: without a target, the command does what `migrate` of the library does (C31, C32). -/
theorem cli_migrate_all (ms : Migs M) (fuel : Nat) (c : MigConn U) (db : MigDb U) :
    migrate ms fuel c none db = (lib (ms.migrate fuel c db).1, (ms.migrate fuel c db).2) := by
  unfold migrate Migs.migrate
  cases ms.unapplied fuel c db with
  | error e => rfl
  | ok l => exact migrateLoop_none

/-- C50: with a migration that is not yet applied as the target, the command succeeds if the
migrations have SQL for the database and this can be executed. -/
theorem cli_migrate_succeeds (hk : Keyed ms) {l : List M} (hl : IsPath ms l) {fuel : Nat}
    (hf : l.length < fuel) {c : MigConn U} (hkeep : KeepsRecords ms c.exec l) {Is : Option M → U → Prop}
    (hc : Correct ms c.exec Is l) {k : Nat} {db : MigDb U} (hat : At ms Is l k db)
    (hrun : ∀ a m b, l = a ++ m :: b → ∀ db, Is a.getLast? db.user → (∀ x ∈ a, Recorded db (ms.name x)) →
      ∃ sql db1 names, ms.up m = .ok (some sql) ∧ c.exec sql db = .ok db1 ∧ db1.log = some names)
    (name : Option String) : ∃ db', migrate ms fuel c.reliable name db = (.ok (), db') := by
  unfold migrate
  rcases unapplied_ok hk hl (List.take_append_drop k l).symm hat.others (at_pre hat) hf c.reliable with hu | ⟨_, n, hn⟩
  · rw [hu]
    have key : ∀ (b a : List M) (db : MigDb U) (n : Nat), l = a ++ b → Is a.getLast? db.user →
        (∀ x ∈ a, Recorded db (ms.name x)) → (∀ m ∈ b, ¬ Recorded db (ms.name m)) →
        ∃ db', migrateLoop ms c.reliable name n b db = (.ok (), db') := by
      intro b
      induction b with
      | nil => exact fun a db n _ _ _ _ => ⟨db, rfl⟩
      | cons m b ih =>
        intro a db n he hi hpre hn
        obtain ⟨sql, db1, names, h1, h2, h3⟩ := hrun a m b he db hi hpre
        have hm : m ∈ l := by rw [he]; simp
        have hone : AppliedOne ms c.exec m db ⟨db1.user, some (names ++ [ms.name m])⟩ := by
          refine ⟨sql, db1, names, h1, h2, h3, ?_, rfl⟩
          intro hmem
          exact hn m (by simp) ((hkeep m hm sql (.inl h1) db db1 h2 _).1 ⟨names, h3, hmem⟩)
        have hgo : ∃ db', migrateLoop ms c.reliable name (n + 4) b
            ⟨db1.user, some (names ++ [ms.name m])⟩ = (.ok (), db') := by
          refine ih (a ++ [m]) _ (n + 4) (by rw [he]; simp) ?_ ?_ ?_
          · have := hc.up a m b he sql db db1 h1 hi h2
            simpa using this
          · intro x hx
            rw [appliedOne_recorded hkeep hm hone]
            rcases List.mem_append.1 hx with hx | hx
            · exact .inl (hpre x hx)
            · exact .inr (by rw [List.mem_singleton.1 hx])
          · intro x hx
            rw [appliedOne_recorded hkeep hm hone, not_or]
            refine ⟨hn x (by simp [hx]), ?_⟩
            intro heq
            have hnd := isPath_nodup hk hl
            rw [he, List.map_append, List.map_cons, List.nodup_append] at hnd
            exact (List.nodup_cons.1 hnd.2.1).1 (heq ▸ List.mem_map.2 ⟨x, hx, rfl⟩)
        rw [migrateLoop, applyOne_reliable hone]
        cases name with
        | none => exact hgo
        | some t =>
          dsimp only
          split
          · exact ⟨_, rfl⟩
          · exact hgo
    exact key _ _ db 2 (List.take_append_drop k l).symm hat.schema hat.recorded hat.others
  · exact absurd rfl hn

/-- C50 is false of targets that are not migrations still to be applied: an unknown name,
or a migration that is applied already, is as good as no target.  Everything is applied. -/
theorem cli_migrate_target_violated (hk : Keyed ms) {l : List M} (hl : IsPath ms l) {fuel : Nat}
    (hf : l.length < fuel) (c : MigConn U) {Is : Option M → U → Prop} {k : Nat} {db : MigDb U}
    (hat : At ms Is l k db) (name : String) (hname : ∀ m ∈ l.drop k, ms.name m ≠ name) :
    migrate ms fuel c (some name) db = migrate ms fuel c none db := by
  unfold migrate
  rcases unapplied_ok hk hl (List.take_append_drop k l).symm hat.others (at_pre hat) hf c with hu | ⟨hu, _⟩
  · rw [hu]
    have key : ∀ (l : List M) n db, (∀ m ∈ l, ms.name m ≠ name) →
        migrateLoop ms c (some name) n l db = migrateLoop ms c none n l db := by
      intro l
      induction l with
      | nil => intros; rfl
      | cons m l ih =>
        intro n db h
        unfold migrateLoop
        split
        · rfl
        · dsimp only
          rw [if_neg (Ne.symm (h m (by simp)))]
          exact ih _ _ fun m hm => h m (by simp [hm])
    exact key _ _ _ hname
  · rw [hu]

/-- Migrating to the second of three, with a failure and without. -/
example :
    migrate exThree 9 (exConn fun _ => .ok) (some "b") exFresh = (.ok (), ⟨["x", "y"], some ["a", "b"]⟩) ∧
    migrate exThree 9 (exConn fun n => if n = 8 then .fail else .ok) (some "b") exFresh =
      (.error (.lib .db), ⟨["x"], some ["a"]⟩) ∧
    migrate exThree 9 (exConn fun _ => .ok) (some "a") ⟨["x"], some ["a"]⟩ =
      (.ok (), ⟨["x", "y", "z"], some ["a", "b", "c"]⟩) ∧
    migrate exThree 9 (exConn fun _ => .ok) (some "typo") exFresh =
      (.ok (), ⟨["x", "y", "z"], some ["a", "b", "c"]⟩) := ⟨rfl, rfl, rfl, rfl⟩

example : ∃ j, 0 ≤ j ∧ At exThree exIs [migA, migB, migC] j ⟨["x", "y"], some ["a", "b"]⟩ ∧
    (some "b" = none → (.ok () : Except CliErr Unit) = .ok () → j = 3) ∧
    ∀ (t : Nat) m, [migA, migB, migC][t]? = some m → some "b" = some (exThree.name m) → 0 ≤ t →
      j ≤ t + 1 ∧ ((.ok () : Except CliErr Unit) = .ok () → j = t + 1) :=
  cli_migrate_partial (c := exConn fun _ => .ok) exThree_keyed exThree_path
    (fuel := 9) (by decide) exThree_keeps exThree_correct exFresh_at rfl

example : ∃ db', migrate exThree 9 (exConn fun _ => .fail).reliable (some "b") exFresh = (.ok (), db') :=
  cli_migrate_succeeds exThree_keyed exThree_path (by decide) exThree_keeps exThree_correct exFresh_at (by
    intro a m b h db hi _
    rcases exThree_split h with ⟨rfl, rfl⟩ | ⟨rfl, rfl⟩ | ⟨rfl, rfl⟩ <;> exact ⟨_, _, _, rfl, rfl, rfl⟩) _

/-! ### Rolling back -/

theorem unmigrateTo_eq (hk : Keyed ms) {l : List M} (hl : IsPath ms l) {fuel : Nat}
    (hf : l.length < fuel) {c : MigConn U} {Is : Option M → U → Prop} {k : Nat} {db : MigDb U}
    (hat : At ms Is l k db) {t : Nat} {m : M} (ht : l[t]? = some m) (htk : t + 1 < k) :
    unmigrateTo ms fuel c (ms.name m) db = undoList ms c 2 ((l.drop (t + 1)).take (k - 1 - t)).reverse db ∨
    unmigrateTo ms fuel c (ms.name m) db = (.error .exit, db) ∧ ∃ n, c.outcome n ≠ .ok := by
  have hle := hat.le
  have htl := (List.getElem?_eq_some_iff.1 ht).1
  have hmem : m ∈ l := List.mem_of_getElem? ht
  have hlast : (l.take k).getLast? = l[k - 1]? := by
    rw [List.getLast?_take, if_neg (by omega), List.getElem?_eq_getElem (by omega)]
    rfl
  have hsplit : l = l.take t ++ m :: l.drop (t + 1) := by
    have : m :: l.drop (t + 1) = l.drop t := by
      rw [List.drop_eq_getElem_cons htl]
      rw [List.getElem?_eq_getElem htl] at ht
      cases ht
      rfl
    rw [this, List.take_append_drop]
  unfold unmigrateTo
  rw [isPath_get hk hl m hmem]
  simp only
  rcases at_lastApplied hl hf hat c with hu | ⟨hu, hn⟩
  · left
    obtain ⟨x, hx⟩ : ∃ x, l[k - 1]? = some x := ⟨_, List.getElem?_eq_getElem (by omega)⟩
    rw [hu, hlast, hx]
    simp only
    rw [if_neg (fun he => by have := isPath_name_inj hk hl ht hx he; omega)]
    rw [(migrations_since_exact hk hl m (Nat.le_of_lt hf)).1 _ m _ hsplit rfl]
    simp only
    have hl2 : (l.drop (t + 1)).getLast? = l.getLast? := by
      rw [List.getLast?_drop, if_neg (by omega)]
    obtain ⟨y, hy⟩ : ∃ y, l.getLast? = some y := by
      rw [List.getLast?_eq_getElem?]
      exact ⟨_, List.getElem?_eq_getElem (by omega)⟩
    rw [hl2, hy]
    simp only
    have hup : upTo ms x y (l.drop (t + 1)) = .ok ((l.drop (t + 1)).take (k - 1 - t)) := by
      unfold upTo
      rw [List.getLast?_eq_getElem?] at hy
      by_cases he : ms.name y ≠ ms.name x
      · rw [if_pos he]
        have : (l.drop (t + 1)).findIdx? (fun m => ms.name m == ms.name x) = some (k - 1 - (t + 1)) := by
          rw [List.findIdx?_eq_some_iff_getElem]
          refine ⟨by simp; omega, ?_, ?_⟩
          · rw [List.getElem_drop, beq_iff_eq]
            rw [List.getElem?_eq_getElem (by omega)] at hx
            have : t + 1 + (k - 1 - (t + 1)) = k - 1 := by omega
            simp only [this]
            exact congrArg _ (Option.some.inj hx)
          · intro i hi
            rw [List.getElem_drop, beq_iff_eq]
            intro heq
            have := isPath_name_inj hk hl (List.getElem?_eq_getElem (i := t + 1 + i) (by omega)) hx heq
            omega
        rw [this]
        simp only
        rw [show k - 1 - (t + 1) + 1 = k - 1 - t by omega]
      · rw [if_neg he]
        have := isPath_name_inj hk hl hy hx (Decidable.not_not.1 he)
        rw [List.take_of_length_le]
        simp
        omega
    rw [hup]
  · right
    rw [hu]
    exact ⟨rfl, hn⟩

/-- C50: rolling back to an applied migration that is not the last applied one: whatever
fails, the first `j` migrations are applied afterwards, the target among them; if the command
ends well, these are the ones up to the target. -/
theorem cli_unmigrate_to (hk : Keyed ms) {l : List M} (hl : IsPath ms l) {fuel : Nat}
    (hf : l.length < fuel) {c : MigConn U} (hkeep : KeepsRecords ms c.exec l) {Is : Option M → U → Prop}
    (hc : Correct ms c.exec Is l) {k : Nat} {db db' : MigDb U} (hat : At ms Is l k db)
    {t : Nat} {m : M} (ht : l[t]? = some m) (htk : t + 1 < k)
    {r : Except CliErr Unit} (h : unmigrateTo ms fuel c (ms.name m) db = (r, db')) :
    ∃ j, t + 1 ≤ j ∧ j ≤ k ∧ At ms Is l j db' ∧ (r = .ok () → j = t + 1) ∧ r ≠ .error .panic := by
  have hle := hat.le
  rcases unmigrateTo_eq hk hl hf (c := c) hat ht htk with hu | ⟨hu, _⟩
  · rw [hu] at h
    obtain ⟨a, b, g1, g2, g3, g4⟩ := undoList_cases h
    have htk' : l.take k = l.take (t + 1) ++ (l.drop (t + 1)).take (k - 1 - t) := by
      rw [← List.take_add, show t + 1 + (k - 1 - t) = k by omega]
    have hrev : (l.take k).reverse = a ++ (b ++ (l.take (t + 1)).reverse) := by
      rw [htk', List.reverse_append, g1, List.append_assoc]
    have hat' := undone_at hk hl hkeep hc hat hrev g2
    have hlen := congrArg List.length hrev
    simp only [List.length_reverse, List.length_take, List.length_append] at hlen
    refine ⟨_, ?_, ?_, hat', ?_, ?_⟩
    · simp; omega
    · simp; omega
    · intro hr
      rw [g3 hr]
      simp
      omega
    · intro hr
      obtain ⟨e', he'⟩ := g4 _ hr
      cases he'
  · rw [hu] at h
    cases h
    exact ⟨k, by omega, by omega, hat, (fun h => by cases h), fun h => by cases h⟩

theorem undoList_reliable {c : MigConn U} {Is : Option M → U → Prop} {l : List M} (hk : Keyed ms)
    (hl : IsPath ms l) (hkeep : KeepsRecords ms c.exec l) (hc : Correct ms c.exec Is l)
    (hrun : ∀ a m b, l = a ++ m :: b → ∀ db, Is (some m) db.user → Recorded db (ms.name m) →
      ∃ sql db1 names, ms.down m = .ok (some sql) ∧ c.exec sql db = .ok db1 ∧ db1.log = some names)
    (a : List M) (n : Nat) {p q : List M} {db : MigDb U} (he : l = p ++ a.reverse ++ q)
    (hi : Is (p ++ a.reverse).getLast? db.user) (hrec : ∀ x ∈ a, Recorded db (ms.name x)) :
    ∃ db', undoList ms c.reliable n a db = (.ok (), db') := by
  induction a generalizing n q db with
  | nil => exact ⟨db, rfl⟩
  | cons m a ih =>
    have he' : l = (p ++ a.reverse) ++ m :: q := by rw [he]; simp
    have hi' : Is (some m) db.user := by simpa using hi
    obtain ⟨sql, db1, names, h1, h2, h3⟩ := hrun _ m _ he' db hi' (hrec m (by simp))
    have hone : UndoneOne ms c.exec m db ⟨db1.user, some (names.filter (· ≠ ms.name m))⟩ :=
      ⟨sql, db1, names, h1, h2, h3, rfl⟩
    rw [undoList, downgradeOne_reliable hone]
    refine ih (n + 4) (q := m :: q) he' (hc.down _ m _ he' sql db db1 h1 hi' h2) ?_
    intro x hx
    rw [undoneOne_recorded hkeep (by rw [he']; simp) hone]
    refine ⟨hrec x (by simp [hx]), ?_⟩
    intro heq
    have hnd := isPath_nodup hk hl
    rw [he', List.map_append, List.nodup_append] at hnd
    exact hnd.2.2 _ (List.mem_map.2 ⟨x, by simp [hx], rfl⟩) _ (List.mem_map.2 ⟨m, by simp, rfl⟩) heq

/-- C50: rolling back succeeds if the migrations have SQL for the database that undoes them
and this can be executed. -/
theorem cli_unmigrate_to_succeeds (hk : Keyed ms) {l : List M} (hl : IsPath ms l) {fuel : Nat}
    (hf : l.length < fuel) {c : MigConn U} (hkeep : KeepsRecords ms c.exec l) {Is : Option M → U → Prop}
    (hc : Correct ms c.exec Is l) {k : Nat} {db : MigDb U} (hat : At ms Is l k db)
    {t : Nat} {m : M} (ht : l[t]? = some m) (htk : t + 1 < k)
    (hrun : ∀ a m b, l = a ++ m :: b → ∀ db, Is (some m) db.user → Recorded db (ms.name m) →
      ∃ sql db1 names, ms.down m = .ok (some sql) ∧ c.exec sql db = .ok db1 ∧ db1.log = some names) :
    ∃ db', unmigrateTo ms fuel c.reliable (ms.name m) db = (.ok (), db') := by
  have hle := hat.le
  rcases unmigrateTo_eq hk hl hf (c := c.reliable) hat ht htk with hu | ⟨_, n, hn⟩
  · rw [hu]
    have htk' : l.take k = l.take (t + 1) ++ (l.drop (t + 1)).take (k - 1 - t) := by
      rw [← List.take_add, show t + 1 + (k - 1 - t) = k by omega]
    refine undoList_reliable hk hl hkeep hc hrun _ _ (p := l.take (t + 1)) (q := l.drop k) ?_ ?_ ?_
    · rw [List.reverse_reverse, ← htk', List.take_append_drop]
    · rw [List.reverse_reverse, ← htk']
      exact hat.schema
    · intro x hx
      exact hat.recorded x (by rw [htk']; simp only [List.mem_append]; exact .inr (List.mem_reverse.1 hx))
  · exact absurd rfl hn

/-- C50: a target that is not a migration, is not in the chain, or is the last applied one, or
the latest of all, and any target if nothing is applied: the command says that it cannot be
done, and does nothing.  Partial: see `cli_unmigrate_later_violated`. -/
theorem cli_unmigrate_impossible_partial (hk : Keyed ms) {l : List M} (hl : IsPath ms l) {fuel : Nat}
    (hf : l.length < fuel) (c : MigConn U) {Is : Option M → U → Prop} {k : Nat} {db : MigDb U}
    (hat : At ms Is l k db) (name : String)
    (hname : ms.get name = none ∨ (∀ m ∈ l, ms.name m ≠ name) ∨ k = 0 ∨
      ∃ (t : Nat) (m : M), l[t]? = some m ∧ ms.name m = name ∧ (t + 1 = k ∨ t + 1 = l.length)) :
    ∃ e, unmigrateTo ms fuel c name db = (.error e, db) ∧ e.reported = true := by
  have hle := hat.le
  unfold unmigrateTo
  cases hg : ms.get name with
  | none => exact ⟨_, rfl, rfl⟩
  | some target =>
    have htn := hk.name _ _ hg
    simp only
    rcases at_lastApplied hl hf hat c with hu | ⟨hu, _⟩
    · rw [hu]
      cases hlast : (l.take k).getLast? with
      | none => exact ⟨_, rfl, rfl⟩
      | some x =>
        have hk0 : k ≠ 0 := by rintro rfl; simp at hlast
        have hx : l[k - 1]? = some x := by
          rw [List.getLast?_take, if_neg hk0, List.getElem?_eq_getElem (by omega)] at hlast
          rw [List.getElem?_eq_getElem (by omega)]
          simpa using hlast
        simp only
        by_cases he : ms.name target = ms.name x
        · rw [if_pos he]
          exact ⟨_, rfl, rfl⟩
        · rw [if_neg he]
          rcases hname with h | h | h | ⟨t, m, ht, hm, h⟩
          · rw [hg] at h; cases h
          · rw [(migrations_since_exact hk hl target (Nat.le_of_lt hf)).2 (fun y hy => by rw [htn]; exact h y hy)]
            exact ⟨_, rfl, rfl⟩
          · exact absurd h hk0
          · have htl := (List.getElem?_eq_some_iff.1 ht).1
            have hsplit : l = l.take t ++ m :: l.drop (t + 1) := by
              have : m :: l.drop (t + 1) = l.drop t := by
                rw [List.drop_eq_getElem_cons htl]
                rw [List.getElem?_eq_getElem htl] at ht
                cases ht
                rfl
              rw [this, List.take_append_drop]
            rcases h with h | h
            · rw [show k - 1 = t by omega, ht] at hx
              cases hx
              exact absurd (htn.trans hm.symm) he
            · rw [(migrations_since_exact hk hl target (Nat.le_of_lt hf)).1 _ m _ hsplit (by rw [hm, htn]),
                List.drop_of_length_le (by omega)]
              exact ⟨_, rfl, rfl⟩
    · rw [hu]
      exact ⟨_, rfl, rfl⟩

theorem unmigrateTo_later (hk : Keyed ms) {l : List M} (hl : IsPath ms l) {fuel : Nat}
    (hf : l.length < fuel) (c : MigConn U) {Is : Option M → U → Prop} {k : Nat} {db : MigDb U}
    (hat : At ms Is l k db) (hk0 : 0 < k) {t : Nat} {m : M} (ht : l[t]? = some m) (hkt : k ≤ t)
    (htl' : t + 1 < l.length) : unmigrateTo ms fuel c (ms.name m) db = (.error .panic, db) ∨
      unmigrateTo ms fuel c (ms.name m) db = (.error .exit, db) ∧ ∃ n, c.outcome n ≠ .ok := by
  have hle := hat.le
  have htl := (List.getElem?_eq_some_iff.1 ht).1
  have hmem : m ∈ l := List.mem_of_getElem? ht
  have hsplit : l = l.take t ++ m :: l.drop (t + 1) := by
    have : m :: l.drop (t + 1) = l.drop t := by
      rw [List.drop_eq_getElem_cons htl]
      rw [List.getElem?_eq_getElem htl] at ht
      cases ht
      rfl
    rw [this, List.take_append_drop]
  unfold unmigrateTo
  rw [isPath_get hk hl m hmem]
  simp only
  rcases at_lastApplied hl hf hat c with hu | ⟨hu, hn⟩
  · left
    obtain ⟨x, hx⟩ : ∃ x, l[k - 1]? = some x := ⟨_, List.getElem?_eq_getElem (by omega)⟩
    have hlast : (l.take k).getLast? = l[k - 1]? := by
      rw [List.getLast?_take, if_neg (by omega), List.getElem?_eq_getElem (by omega)]
      rfl
    rw [hu, hlast, hx]
    simp only
    rw [if_neg (fun he => by have := isPath_name_inj hk hl ht hx he; omega)]
    rw [(migrations_since_exact hk hl m (Nat.le_of_lt hf)).1 _ m _ hsplit rfl]
    simp only
    have hl2 : (l.drop (t + 1)).getLast? = l.getLast? := by
      rw [List.getLast?_drop, if_neg (by omega)]
    obtain ⟨y, hy⟩ : ∃ y, l.getLast? = some y := by
      rw [List.getLast?_eq_getElem?]
      exact ⟨_, List.getElem?_eq_getElem (by omega)⟩
    rw [hl2, hy]
    simp only
    rw [List.getLast?_eq_getElem?] at hy
    have hup : upTo ms x y (l.drop (t + 1)) = .error .panic := by
      unfold upTo
      rw [if_pos (fun he => by have := isPath_name_inj hk hl hy hx he; omega)]
      have : (l.drop (t + 1)).findIdx? (fun m => ms.name m == ms.name x) = none := by
        rw [List.findIdx?_eq_none_iff]
        intro z hz
        obtain ⟨i, hi, rfl⟩ := List.mem_iff_getElem.1 hz
        rw [List.getElem_drop]
        rw [List.length_drop] at hi
        cases hb : (ms.name l[t + 1 + i] == ms.name x) with
        | false => rfl
        | true =>
          have := isPath_name_inj hk hl (List.getElem?_eq_getElem (i := t + 1 + i) (by omega)) hx (eq_of_beq hb)
          omega
      rw [this]
    rw [hup]
  · right
    rw [hu]
    exact ⟨rfl, hn⟩

/-- C50 is false of targets after the last applied migration, except the latest of all: the
command panics.  (Nothing is done to the database.) -/
theorem cli_unmigrate_later_violated (hk : Keyed ms) {l : List M} (hl : IsPath ms l) {fuel : Nat}
    (hf : l.length < fuel) (c : MigConn U) {Is : Option M → U → Prop} {k : Nat} {db : MigDb U}
    (hat : At ms Is l k db) (hk0 : 0 < k) {t : Nat} {m : M} (ht : l[t]? = some m) (hkt : k ≤ t)
    (htl' : t + 1 < l.length) : unmigrateTo ms fuel c.reliable (ms.name m) db = (.error .panic, db) := by
  rcases unmigrateTo_later hk hl hf c.reliable hat hk0 ht hkt htl' with h | ⟨_, n, hn⟩
  · exact h
  · exact absurd rfl hn

/-- C50: without a target, the last applied migration is undone, or nothing is done; and if
there is none, the command says so. -/
theorem cli_unmigrate_latest (hk : Keyed ms) {l : List M} (hl : IsPath ms l) {fuel : Nat}
    (hf : l.length < fuel) {c : MigConn U} (hkeep : KeepsRecords ms c.exec l) {Is : Option M → U → Prop}
    (hc : Correct ms c.exec Is l) {k : Nat} {db db' : MigDb U} (hat : At ms Is l k db)
    {r : Except CliErr Unit} (h : unmigrateLatest ms fuel c db = (r, db')) :
    (At ms Is l k db' ∧ ∃ e, r = .error e ∧ e ≠ .panic) ∨ (0 < k ∧ At ms Is l (k - 1) db') := by
  have hle := hat.le
  unfold unmigrateLatest at h
  rcases at_lastApplied hl hf hat c with hu | ⟨hu, _⟩
  · rw [hu] at h
    rcases List.eq_nil_or_concat (l.take k) with hn | ⟨p, x, hn⟩
    · rw [hn] at h
      cases h
      exact .inl ⟨hat, _, rfl, by simp⟩
    · rw [List.concat_eq_append] at hn
      rw [hn] at h
      simp only [List.getLast?_append, List.getLast?_singleton, Option.some_or] at h
      have hlen := congrArg List.length hn
      simp only [List.length_take, List.length_append, List.length_singleton] at hlen
      have key : ∀ {d}, UndoneOne ms c.exec x db d → 0 < k ∧ At ms Is l (k - 1) d := by
        intro d hd
        have := undone_at hk hl hkeep hc hat (a := [x]) (b := p.reverse) (by rw [hn]; simp) (.cons hd .nil)
        rw [show p.reverse.length = k - 1 by simp; omega] at this
        exact ⟨by omega, this⟩
      split at h
      · rename_i e d hd
        cases h
        rcases downgradeOne_cases hd with ⟨rfl, _⟩ | h3
        · exact .inl ⟨hat, _, rfl, by simp⟩
        · exact .inr (key h3)
      · rename_i d hd
        cases h
        rcases downgradeOne_cases hd with ⟨_, h3⟩ | h3
        · exact absurd rfl h3
        · exact .inr (key h3)
  · rw [hu] at h
    cases h
    exact .inl ⟨hat, _, rfl, by simp⟩

/-- C50: the list of migrations is the chain, and says of each whether it is applied. -/
theorem cli_list (hk : Keyed ms) {l : List M} (hl : IsPath ms l) {fuel : Nat}
    (hf : l.length < fuel) (c : MigConn U) {Is : Option M → U → Prop} {k : Nat} {db : MigDb U}
    (hat : At ms Is l k db) : ∃ r, listMigrations ms fuel c.reliable db = .ok r ∧
      r.map (·.1) = l.map ms.name ∧ ∀ e ∈ r, e.2 = true ↔ Recorded db e.1 := by
  have hnd := isPath_nodup hk hl
  unfold listMigrations
  rcases unapplied_ok hk hl (List.take_append_drop k l).symm hat.others (at_pre hat) hf c.reliable with hu | ⟨_, n, hn⟩
  · rw [hu, (all_migrations_exact fuel l).2 ⟨hl, Nat.le_of_lt hf⟩]
    refine ⟨_, rfl, by rw [List.map_map]; rfl, ?_⟩
    intro e he
    obtain ⟨m, hm, rfl⟩ := List.mem_map.1 he
    simp only [Bool.not_eq_true', List.contains_eq_mem, decide_eq_false_iff_not]
    rw [← List.take_append_drop k l] at hm hnd
    rw [List.map_append, List.nodup_append] at hnd
    rcases List.mem_append.1 hm with hm | hm
    · exact ⟨fun _ => hat.recorded m hm, fun _ hc => hnd.2.2 _ (List.mem_map.2 ⟨m, hm, rfl⟩) _ hc rfl⟩
    · exact ⟨fun h => absurd (List.mem_map.2 ⟨m, hm, rfl⟩) h, fun h => absurd h (hat.others m hm)⟩
  · exact absurd rfl hn

/-- All three, or the first two, of the example are applied. -/
theorem exAll_at : At exThree exIs [migA, migB, migC] 3 ⟨["x", "y", "z"], some ["a", "b", "c"]⟩ :=
  ⟨by decide, by
    intro m hm
    refine ⟨_, rfl, ?_⟩
    revert m
    decide, by simp, rfl⟩

theorem exOne_at : At exThree exIs [migA, migB, migC] 1 ⟨["x"], some ["a"]⟩ :=
  ⟨by decide, by
    intro m hm
    refine ⟨_, rfl, ?_⟩
    revert m
    decide, by
    rintro m hm ⟨names, h, hn⟩
    cases h
    revert m
    decide, rfl⟩

example :
    unmigrateTo exThree 9 (exConn fun _ => .ok) "a" ⟨["x", "y", "z"], some ["a", "b", "c"]⟩ =
      (.ok (), ⟨["x"], some ["a"]⟩) ∧
    unmigrateTo exThree 9 (exConn fun n => if n = 8 then .fail else .ok) "a"
      ⟨["x", "y", "z"], some ["a", "b", "c"]⟩ = (.error (.lib .db), ⟨["x", "y"], some ["a", "b"]⟩) ∧
    unmigrateTo exThree 9 (exConn fun _ => .ok) "d" ⟨["x"], some ["a"]⟩ =
      (.error (.lib .notInChain), ⟨["x"], some ["a"]⟩) ∧
    unmigrateTo exThree 9 (exConn fun _ => .ok) "b" ⟨["x"], some ["a"]⟩ = (.error .panic, ⟨["x"], some ["a"]⟩) ∧
    unmigrateLatest exThree 9 (exConn fun _ => .ok) ⟨["x"], some ["a"]⟩ = (.ok (), ⟨[], some []⟩) ∧
    listMigrations exThree 9 (exConn fun _ => .ok) ⟨["x"], some ["a"]⟩ =
      .ok [("a", true), ("b", false), ("c", false)] := ⟨rfl, rfl, rfl, rfl, rfl, rfl⟩

example := cli_unmigrate_to (c := exConn fun n => if n = 8 then .fail else .ok) exThree_keyed exThree_path
  (fuel := 9) (by decide) exThree_keeps exThree_correct exAll_at (t := 0) (m := migA) rfl (by decide) rfl

example := cli_unmigrate_to_succeeds (c := exConn fun _ => .fail) exThree_keyed exThree_path (fuel := 9)
  (by decide) exThree_keeps exThree_correct exAll_at (t := 0) (m := migA) rfl (by decide) (by
    intro a m b h db hi _
    rcases exThree_split h with ⟨rfl, rfl⟩ | ⟨rfl, rfl⟩ | ⟨rfl, rfl⟩ <;> exact ⟨_, _, _, rfl, rfl, rfl⟩)

example := cli_unmigrate_later_violated exThree_keyed exThree_path (fuel := 9) (by decide)
  (exConn fun _ => .ok) exOne_at (by decide) (t := 1) (m := migB) rfl (by decide) (by decide)

example := cli_unmigrate_impossible_partial exThree_keyed exThree_path (fuel := 9) (by decide)
  (exConn fun _ => .ok) exOne_at "d" (.inr (.inl (by decide)))

example := cli_migrate_target_violated exThree_keyed exThree_path (fuel := 9) (by decide)
  (exConn fun _ => .ok) exOne_at "a" (by decide)

example := cli_list exThree_keyed exThree_path (fuel := 9) (by decide) (exConn fun _ => .ok) exOne_at

end Butane.Props
