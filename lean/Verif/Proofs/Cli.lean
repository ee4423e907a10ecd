/-
Lemmas about the commands that apply and undo migrations.
-/
import Verif.Model.Cli
import Verif.Props.MigStore

namespace Butane
open Spec Cli
variable {M U : Type} {ms : Migs M}

/-- Applying the next migrations moves on along the chain. -/
theorem applied_at (hk : Keyed ms) {l : List M} (hl : IsPath ms l)
    {exec : String → MigDb U → Except MErr (MigDb U)} (hkeep : KeepsRecords ms exec l)
    {Is : Option M → U → Prop} (hc : Correct ms exec Is l) {k : Nat} {db db' : MigDb U} (hat : At ms Is l k db)
    {a b : List M} (he : l.drop k = a ++ b) (happ : Applied ms exec a db db') :
    At ms Is l (k + a.length) db' := by
  have hl' : l = l.take k ++ a ++ b := by
    rw [List.append_assoc, ← he, List.take_append_drop]
  have hlen : (l.take k).length = k := by simp [hat.le]
  have htake : l.take (k + a.length) = l.take k ++ a := by
    conv => lhs; rw [hl']
    rw [List.take_append_of_le_length (by simp [hat.le]), List.take_of_length_le (by simp [hat.le])]
  have hdrop : l.drop (k + a.length) = b := by
    conv => lhs; rw [hl']
    rw [List.drop_append_of_le_length (by simp [hat.le]), List.drop_of_length_le (by simp [hat.le])]
    rfl
  have hsub : ∀ m ∈ a, m ∈ l := by
    intro m hm
    rw [hl']
    simp [hm]
  have hrec := applied_recorded hkeep hsub happ
  refine ⟨?_, ?_, ?_, ?_⟩
  · have := congrArg List.length hl'
    simp only [List.length_append, hlen] at this
    omega
  · rw [htake]
    intro m hm
    rw [hrec]
    rcases List.mem_append.1 hm with hm | hm
    · exact .inl (hat.recorded m hm)
    · exact .inr (List.mem_map.2 ⟨m, hm, rfl⟩)
  · rw [hdrop]
    intro m hm
    rw [hrec, not_or]
    refine ⟨hat.others m (by rw [he]; simp [hm]), ?_⟩
    intro hc
    have hnd := isPath_nodup hk hl
    rw [hl', List.map_append, List.map_append, List.nodup_append] at hnd
    exact hnd.2.2 _ (List.mem_append.2 (.inr hc)) _ (List.mem_map.2 ⟨m, hm, rfl⟩) rfl
  · rw [htake]
    have hstep : ∀ {a : List M} {db db' : MigDb U} (p : List M), Applied ms exec a db db' →
        ∀ b, l = p ++ a ++ b → Is p.getLast? db.user → Is (p ++ a).getLast? db'.user := by
      intro a db db' p happ
      induction happ generalizing p with
      | nil => intro b _ hi; simpa using hi
      | @cons m a db db1 db2 h1 _ ih =>
        intro b hb hi
        have := ih (p ++ [m]) b (by rw [hb]; simp) (by
          obtain ⟨s, d, names, g1, g2, g3, g4, rfl⟩ := h1
          have := hc.up p m (a ++ b) (by rw [hb]; simp) s db d g1 hi g2
          simpa using this)
        simpa using this
    exact hstep (l.take k) happ b hl' hat.schema

/-- Undoing the last migrations, newest first, moves back along the chain. -/
theorem undone_at (hk : Keyed ms) {l : List M} (hl : IsPath ms l)
    {exec : String → MigDb U → Except MErr (MigDb U)} (hkeep : KeepsRecords ms exec l)
    {Is : Option M → U → Prop} (hc : Correct ms exec Is l) {k : Nat} {db db' : MigDb U} (hat : At ms Is l k db)
    {a b : List M} (he : (l.take k).reverse = a ++ b) (hund : Undone ms exec a db db') :
    At ms Is l b.length db' := by
  have htake : l.take k = b.reverse ++ a.reverse := by
    rw [← List.reverse_append, ← he, List.reverse_reverse]
  have hl' : l = b.reverse ++ (a.reverse ++ l.drop k) := by
    rw [← List.append_assoc, ← htake, List.take_append_drop]
  have hlen : b.length + a.length = k := by
    have := congrArg List.length htake
    simp only [List.length_take, List.length_append, List.length_reverse] at this
    have := hat.le
    omega
  have htb : l.take b.length = b.reverse := by
    conv => lhs; rw [hl']
    rw [List.take_append_of_le_length (by simp), List.take_of_length_le (by simp)]
  have hdb : l.drop b.length = a.reverse ++ l.drop k := by
    conv => lhs; rw [hl']
    rw [List.drop_append_of_le_length (by simp), List.drop_of_length_le (by simp)]
    rfl
  have hsub : ∀ m ∈ a, m ∈ l := by
    intro m hm
    rw [hl']
    simp [hm]
  have hrec := undone_recorded hkeep hsub hund
  refine ⟨by have := hat.le; omega, ?_, ?_, ?_⟩
  · rw [htb]
    intro m hm
    rw [hrec]
    refine ⟨hat.recorded m (by rw [htake]; exact List.mem_append.2 (.inl hm)), ?_⟩
    intro hc
    have hnd := isPath_nodup hk hl
    rw [hl', List.map_append, List.map_append, List.nodup_append] at hnd
    refine hnd.2.2 _ (List.mem_map.2 ⟨m, hm, rfl⟩) _ (List.mem_append.2 (.inl ?_)) rfl
    simpa using hc
  · rw [hdb]
    intro m hm
    rw [hrec]
    rcases List.mem_append.1 hm with hm | hm
    · exact fun h => h.2 (List.mem_map.2 ⟨m, by simpa using hm, rfl⟩)
    · exact fun h => hat.others m hm h.1
  · rw [htb]
    have hstep : ∀ {a : List M} {db db' : MigDb U} (q : List M), Undone ms exec a db db' →
        ∀ b, l = b ++ (a.reverse ++ q) → Is (b ++ a.reverse).getLast? db.user →
          Is b.getLast? db'.user := by
      intro a db db' q hund
      induction hund generalizing q with
      | nil => intro b _ hi; simpa using hi
      | @cons m a db db1 db2 h1 _ ih =>
        intro b hb hi
        refine ih (m :: q) b (by rw [hb]; simp) ?_
        obtain ⟨s, d, names, g1, g2, g3, rfl⟩ := h1
        refine hc.down (b ++ a.reverse) m q (by rw [hb]; simp) s db d g1 ?_ g2
        simpa using hi
    refine hstep (l.drop k) hund b.reverse hl' ?_
    rw [← htake]
    exact hat.schema

/-- The loop of `migrate`: some first part of the list is applied, with the target nowhere
but at its end; if it ends well, this is all of the list, or it ends with the target. -/
theorem migrateLoop_cases {c : MigConn U} {name : Option String} {n : Nat} {l : List M} {db : MigDb U}
    {r : Except CliErr Unit} {db' : MigDb U} (h : migrateLoop ms c name n l db = (r, db')) :
    ∃ a b, l = a ++ b ∧ Applied ms c.exec a db db' ∧ (∀ m ∈ a.dropLast, name ≠ some (ms.name m)) ∧
      (r = .ok () → b = [] ∨ ∃ m, a.getLast? = some m ∧ name = some (ms.name m)) := by
  induction l generalizing n db with
  | nil =>
    cases h
    exact ⟨[], [], rfl, .nil, by simp, fun _ => .inl rfl⟩
  | cons m l ih =>
    unfold migrateLoop at h
    split at h
    · rename_i e d hd
      cases h
      rcases applyOne_cases hd with ⟨rfl, _⟩ | h3
      · exact ⟨[], m :: l, rfl, .nil, by simp, fun h => by cases h⟩
      · exact ⟨[m], l, rfl, .cons h3 .nil, by simp, fun h => by cases h⟩
    · rename_i d hd
      rcases applyOne_cases hd with ⟨_, h3⟩ | h3
      · exact absurd rfl h3
      · have hgo : ∀ n, name ≠ some (ms.name m) → migrateLoop ms c name n l d = (r, db') →
            ∃ a b, m :: l = a ++ b ∧ Applied ms c.exec a db db' ∧
              (∀ m ∈ a.dropLast, name ≠ some (ms.name m)) ∧
              (r = .ok () → b = [] ∨ ∃ m, a.getLast? = some m ∧ name = some (ms.name m)) := by
          intro n hne h
          obtain ⟨a, b, g1, g2, g3, g4⟩ := ih h
          refine ⟨m :: a, b, by rw [g1]; rfl, .cons h3 g2, ?_, ?_⟩
          · intro x hx
            cases a with
            | nil => simp at hx
            | cons y a =>
              rw [List.dropLast_cons_cons] at hx
              rcases List.mem_cons.1 hx with rfl | hx
              · exact hne
              · exact g3 x hx
          · intro hr
            rcases g4 hr with h | ⟨x, h, hx⟩
            · exact .inl h
            · exact .inr ⟨x, by rw [List.getLast?_cons, h]; rfl, hx⟩
        split at h
        · exact hgo _ (by simp) h
        · rename_i t
          by_cases ht : t = ms.name m
          · rw [if_pos ht] at h
            cases h
            exact ⟨[m], l, rfl, .cons h3 .nil, by simp, fun _ => .inr ⟨m, rfl, by rw [ht]⟩⟩
          · rw [if_neg ht] at h
            exact hgo _ (by simp [ht]) h

theorem undoList_cases {c : MigConn U} {n : Nat} {l : List M} {db : MigDb U}
    {r : Except CliErr Unit} {db' : MigDb U} (h : undoList ms c n l db = (r, db')) :
    ∃ a b, l = a ++ b ∧ Undone ms c.exec a db db' ∧ (r = .ok () → b = []) ∧
      (∀ e, r = .error e → ∃ e', e = .lib e') := by
  induction l generalizing n db with
  | nil =>
    cases h
    exact ⟨[], [], rfl, .nil, fun _ => rfl, fun e he => by cases he⟩
  | cons m l ih =>
    unfold undoList at h
    split at h
    · rename_i e d hd
      cases h
      rcases downgradeOne_cases hd with ⟨rfl, _⟩ | h3
      · exact ⟨[], m :: l, rfl, .nil, (fun h => by cases h), fun e he => ⟨_, by cases he; rfl⟩⟩
      · exact ⟨[m], l, rfl, .cons h3 .nil, (fun h => by cases h), fun e he => ⟨_, by cases he; rfl⟩⟩
    · rename_i d hd
      rcases downgradeOne_cases hd with ⟨_, h3⟩ | h3
      · exact absurd rfl h3
      · obtain ⟨a, b, g1, g2, g3, g4⟩ := ih h
        exact ⟨m :: a, b, by rw [g1]; rfl, .cons h3 g2, g3, g4⟩

theorem isPath_name_inj (hk : Keyed ms) {l : List M} (hl : IsPath ms l) {i j : Nat} {x y : M}
    (hi : l[i]? = some x) (hj : l[j]? = some y) (h : ms.name x = ms.name y) : i = j := by
  have hnd := isPath_nodup hk hl
  have hil := (List.getElem?_eq_some_iff.1 hi).1
  refine (List.getElem?_inj (l := l.map ms.name) (by simpa using hil) hnd).1 ?_
  rw [List.getElem?_map, List.getElem?_map, hi, hj]
  simp [h]

/-- What is recorded and the chain determine the last applied migration. -/
theorem at_lastApplied {Is : Option M → U → Prop} {l : List M} (hl : IsPath ms l) {fuel : Nat}
    (hf : l.length < fuel) {k : Nat} {db : MigDb U} (hat : At ms Is l k db) (c : MigConn U) :
    ms.lastApplied fuel c db = .ok (l.take k).getLast? ∨
      ms.lastApplied fuel c db = .error .db ∧ ∃ n, c.outcome n ≠ .ok :=
  lastApplied_ok hl (List.take_append_drop k l).symm hat.others (Props.at_pre hat) hf c

end Butane
