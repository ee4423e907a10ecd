/-
Lemmas about chains of migrations and applying them.
-/
import Verif.Spec.Migrations

namespace Butane
open Spec
variable {M U : Type} {ms : Migs M}

/-- Following the links, newest first. -/
inductive Back (ms : Migs M) : Option M → List M → Prop
  | nil : Back ms none []
  | cons {m p l} : ms.prev m = .ok p → Back ms p l → Back ms (some m) (m :: l)

theorem Back.head {o : Option M} {l : List M} (h : Back ms o l) : l.head? = o := by
  cases h <;> rfl

theorem Back.det {o : Option M} {l l' : List M} (h : Back ms o l) (h' : Back ms o l') : l = l' := by
  induction h generalizing l' with
  | nil => cases h'; rfl
  | cons hp _ ih =>
    cases h' with
    | cons hp' h' =>
      rw [hp] at hp'
      cases hp'
      rw [ih h']

theorem Back.suffix {o : Option M} {a b : List M} {m : M} (h : Back ms o (a ++ m :: b)) :
    Back ms (some m) (m :: b) := by
  induction a generalizing o with
  | nil =>
    have hh := h.head
    cases hh
    exact h
  | cons x a ih =>
    cases h with
    | cons hp h => exact ih h

theorem prev_ok_iff {m : M} {p : Option M} : ms.prev m = .ok p ↔
    (p = none ∧ (ms.from_ m = .ok none ∨ ∃ n, ms.from_ m = .ok (some n) ∧ ms.get n = none)) ∨
    ∃ q n, p = some q ∧ ms.from_ m = .ok (some n) ∧ ms.get n = some q := by
  unfold Migs.prev
  cases hf : ms.from_ m with
  | error e => simp
  | ok o =>
    cases o with
    | none => cases p <;> simp
    | some n => cases p <;> cases hg : ms.get n <;> simp [hg, eq_comm]

theorem Back.get {o : Option M} {l : List M} (h : Back ms o l)
    (ho : ∀ m, o = some m → ms.get (ms.name m) = some m) (hn : ∀ n m, ms.get n = some m → ms.name m = n) :
    ∀ m ∈ l, ms.get (ms.name m) = some m := by
  induction h with
  | nil => intro m hm; cases hm
  | @cons m p l hp h ih =>
    intro x hx
    rcases List.mem_cons.1 hx with rfl | hx
    · exact ho x rfl
    · refine ih ?_ x hx
      intro q hq
      rcases prev_ok_iff.1 hp with ⟨h1, _⟩ | ⟨q', n, h1, h2, h3⟩
      · rw [h1] at hq; cases hq
      · obtain rfl : q' = q := by rw [h1] at hq; exact Option.some.inj hq
        rw [hn n q' h3]
        exact h3

theorem Back.nodup {o : Option M} {l : List M} (h : Back ms o l)
    (hg : ∀ m ∈ l, ms.get (ms.name m) = some m) : (l.map ms.name).Nodup := by
  induction h with
  | nil => exact List.nodup_nil
  | @cons m p l hp h ih =>
    rw [List.map_cons, List.nodup_cons]
    refine ⟨?_, ih fun m hm => hg m (by simp [hm])⟩
    intro hmem
    obtain ⟨x, hx, hname⟩ := List.mem_map.1 hmem
    have e1 := hg x (by simp [hx])
    have e2 := hg m (by simp)
    rw [hname] at e1
    obtain rfl : x = m := Option.some.inj (e1.symm.trans e2)
    obtain ⟨a, b, rfl⟩ := List.append_of_mem hx
    have := (Back.cons hp h).det h.suffix
    have := congrArg List.length this
    simp only [List.length_cons, List.length_append] at this
    omega

/-! ### The path -/

theorem infix_concat2 {α : Type} {l : List α} {p m x : α} :
    [p, m] <:+: l ++ [x] ↔ [p, m] <:+: l ∨ (l.getLast? = some p ∧ m = x) := by
  constructor
  · rintro ⟨a, b, h⟩
    rcases List.eq_nil_or_concat b with rfl | ⟨b, y, rfl⟩
    · right
      rw [List.append_nil, show a ++ [p, m] = (a ++ [p]) ++ [m] by simp] at h
      obtain ⟨h1, h2⟩ := List.append_inj' h rfl
      cases h2
      exact ⟨by rw [← h1]; simp, rfl⟩
    · left
      rw [List.concat_eq_append, ← List.append_assoc] at h
      obtain ⟨h1, h2⟩ := List.append_inj' h rfl
      exact ⟨a, b, h1⟩
  · rintro (⟨a, b, h⟩ | ⟨h, rfl⟩)
    · exact ⟨a, b ++ [x], by rw [← List.append_assoc, h]⟩
    · obtain ⟨l', rfl⟩ := List.getLast?_eq_some_iff.1 h
      exact ⟨l', [], by simp⟩

theorem back_iff {l : List M} {o : Option M} : Back ms o l ↔
    l.head? = o ∧
    (∀ p m, [p, m] <:+: l.reverse → ∃ n, ms.from_ m = .ok (some n) ∧ ms.get n = some p) ∧
    (∀ m, l.reverse.head? = some m →
      ms.from_ m = .ok none ∨ ∃ n, ms.from_ m = .ok (some n) ∧ ms.get n = none) := by
  constructor
  · intro h
    refine ⟨h.head, ?_⟩
    induction h with
    | nil => exact ⟨fun p m h => by simpa using h.length_le, fun m h => by simp at h⟩
    | @cons m p l hp h ih =>
      obtain ⟨ih1, ih2⟩ := ih
      rw [List.reverse_cons]
      rcases prev_ok_iff.1 hp with ⟨rfl, hf⟩ | ⟨q, n, rfl, hf, hg⟩
      · cases h
        refine ⟨fun p x h => by simpa using h.length_le, ?_⟩
        intro x hx
        simp only [List.reverse_nil, List.nil_append, List.head?_cons, Option.some.injEq] at hx
        exact hx ▸ hf
      · have hh := h.head
        refine ⟨?_, ?_⟩
        · intro x y hxy
          rcases infix_concat2.1 hxy with h1 | ⟨h1, rfl⟩
          · exact ih1 x y h1
          · rw [List.getLast?_reverse, hh] at h1
            cases h1
            exact ⟨n, hf, hg⟩
        · intro x hx
          refine ih2 x ?_
          cases hl : l.reverse with
          | nil =>
            rw [List.reverse_eq_nil_iff] at hl
            rw [hl] at hh
            cases hh
          | cons y ys =>
            rw [hl] at hx
            exact hx
  · rintro ⟨h1, h2, h3⟩
    induction l generalizing o with
    | nil => cases h1; exact .nil
    | cons m l ih =>
      cases h1
      rw [List.reverse_cons] at h2 h3
      refine .cons (p := l.head?) ?_ (ih rfl (fun p x h => h2 p x (infix_concat2.2 (.inl h))) ?_)
      · rw [prev_ok_iff]
        cases hl : l.head? with
        | none =>
          rw [List.head?_eq_none_iff] at hl
          subst hl
          exact .inl ⟨rfl, h3 m rfl⟩
        | some q =>
          obtain ⟨n, hn, hg⟩ := h2 q m (infix_concat2.2 (.inr ⟨by rw [List.getLast?_reverse, hl], rfl⟩))
          exact .inr ⟨q, n, rfl, hn, hg⟩
      · intro x hx
        refine h3 x ?_
        cases hl : l.reverse with
        | nil => rw [hl] at hx; cases hx
        | cons y ys => rw [hl] at hx; exact hx

theorem isPath_iff {l : List M} : IsPath ms l ↔ Back ms ms.latest l.reverse := by
  rw [back_iff]
  simp only [List.reverse_reverse, List.head?_reverse]
  exact ⟨fun h => ⟨h.latest, h.link, h.first⟩, fun h => ⟨h.1, h.2.1, h.2.2⟩⟩

theorem isPath_get (hk : Keyed ms) {l : List M} (h : IsPath ms l) :
    ∀ m ∈ l, ms.get (ms.name m) = some m := fun m hm =>
  (isPath_iff.1 h).get hk.latest hk.name m (by simpa using hm)

theorem isPath_nodup (hk : Keyed ms) {l : List M} (h : IsPath ms l) : (l.map ms.name).Nodup := by
  have := (isPath_iff.1 h).nodup fun m hm => isPath_get hk h m (by simpa using hm)
  rw [List.map_reverse] at this
  exact (List.pairwise_reverse.1 this).imp Ne.symm

/-! ### The loops -/

theorem allLoop_ok {fuel : Nat} {o : Option M} {acc r : List M} :
    ms.allLoop fuel o acc = .ok r ↔ ∃ l, Back ms o l ∧ l.length ≤ fuel ∧ r = (acc ++ l).reverse := by
  induction fuel generalizing o acc with
  | zero =>
    cases o with
    | none =>
      simp only [Migs.allLoop, Except.ok.injEq]
      refine ⟨fun h => ⟨[], .nil, by simp, by simp [h]⟩, ?_⟩
      rintro ⟨l, hl, _, rfl⟩
      cases hl
      simp
    | some m =>
      simp only [Migs.allLoop, reduceCtorEq, false_iff]
      rintro ⟨l, hl, hlen, _⟩
      cases hl
      simp at hlen
  | succ fuel ih =>
    cases o with
    | none =>
      simp only [Migs.allLoop, Except.ok.injEq]
      refine ⟨fun h => ⟨[], .nil, by simp, by simp [h]⟩, ?_⟩
      rintro ⟨l, hl, _, rfl⟩
      cases hl
      simp
    | some m =>
      simp only [Migs.allLoop]
      cases hp : ms.prev m with
      | error e =>
        simp only [reduceCtorEq, false_iff]
        rintro ⟨l, hl, _, _⟩
        cases hl with
        | cons hp' _ => rw [hp] at hp'; cases hp'
      | ok p =>
        simp only []
        rw [ih]
        constructor
        · rintro ⟨l, hl, hlen, rfl⟩
          exact ⟨m :: l, .cons hp hl, by simpa using hlen, by simp⟩
        · rintro ⟨l, hl, hlen, rfl⟩
          cases hl with
          | cons hp' hl =>
            rw [hp] at hp'
            cases hp'
            exact ⟨_, hl, by simpa using hlen, by simp⟩

theorem sinceLoop_found {s x : M} {b a : List M} {fuel : Nat} {o : Option M} {acc : List M}
    (h : Back ms o (b ++ x :: a)) (hx : ms.name x = ms.name s) (hb : ∀ y ∈ b, ms.name y ≠ ms.name s)
    (hf : b.length < fuel) : ms.sinceLoop s fuel o acc = .ok (acc ++ b).reverse := by
  induction b generalizing fuel o acc with
  | nil =>
    cases h with
    | cons hp h =>
      cases fuel with
      | zero => simp at hf
      | succ fuel => simp [Migs.sinceLoop, hx]
  | cons y b ih =>
    cases h with
    | cons hp h =>
      cases fuel with
      | zero => simp at hf
      | succ fuel =>
        rw [Migs.sinceLoop, if_pos (hb y (by simp)), hp]
        simp only []
        rw [ih h (fun z hz => hb z (by simp [hz])) (by simpa using hf)]
        simp

theorem sinceLoop_missing {s : M} {l : List M} {fuel : Nat} {o : Option M} {acc : List M}
    (h : Back ms o l) (hb : ∀ y ∈ l, ms.name y ≠ ms.name s)
    (hf : l.length ≤ fuel) : ms.sinceLoop s fuel o acc = .error .notInChain := by
  induction h generalizing fuel acc with
  | nil => cases fuel <;> rfl
  | @cons m p l hp h ih =>
    cases fuel with
    | zero => simp at hf
    | succ fuel =>
      rw [Migs.sinceLoop, if_pos (hb m (by simp)), hp]
      exact ih (fun z hz => hb z (by simp [hz])) (by simpa using hf)

theorem lastLoop_found {names : List String} {x : M} {b a : List M} {fuel : Nat} {o : Option M}
    (h : Back ms o (b ++ x :: a)) (hx : ms.name x ∈ names) (hb : ∀ y ∈ b, ms.name y ∉ names)
    (hf : b.length < fuel) : ms.lastLoop names fuel o = .ok (some x) := by
  induction b generalizing fuel o with
  | nil =>
    cases h with
    | cons hp h =>
      cases fuel with
      | zero => simp at hf
      | succ fuel => simp [Migs.lastLoop, hx]
  | cons y b ih =>
    cases h with
    | cons hp h =>
      cases fuel with
      | zero => simp at hf
      | succ fuel =>
        rw [Migs.lastLoop, if_neg (hb y (by simp)), hp]
        exact ih h (fun z hz => hb z (by simp [hz])) (by simpa using hf)

theorem lastLoop_none {names : List String} {l : List M} {fuel : Nat} {o : Option M}
    (h : Back ms o l) (hb : ∀ y ∈ l, ms.name y ∉ names) (hf : l.length ≤ fuel) :
    ms.lastLoop names fuel o = .ok none := by
  induction h generalizing fuel with
  | nil => cases fuel <;> rfl
  | @cons m p l hp h ih =>
    cases fuel with
    | zero => simp at hf
    | succ fuel =>
      rw [Migs.lastLoop, if_neg (hb m (by simp)), hp]
      exact ih (fun z hz => hb z (by simp [hz])) (by simpa using hf)

/-- A connection without failures. -/
def MigConn.reliable (c : MigConn U) : MigConn U := { c with outcome := fun _ => .ok }

/-- The part of the path that is pending, given what is recorded. -/
theorem split_recorded (l : List M) (db : MigDb U) : ∃ pre todo, l = pre ++ todo ∧
    (∀ m ∈ todo, ¬ Recorded db (ms.name m)) ∧
    (pre = [] ∨ ∃ x a, pre = a ++ [x] ∧ Recorded db (ms.name x)) := by
  classical
  induction l with
  | nil => exact ⟨[], [], rfl, by simp, .inl rfl⟩
  | cons m l ih =>
    obtain ⟨pre, todo, rfl, h1, h2⟩ := ih
    rcases h2 with rfl | ⟨x, a, rfl, hx⟩
    · by_cases hm : Recorded db (ms.name m)
      · exact ⟨[m], todo, rfl, h1, .inr ⟨m, [], rfl, hm⟩⟩
      · refine ⟨[], m :: todo, rfl, ?_, .inl rfl⟩
        intro y hy
        rcases List.mem_cons.1 hy with rfl | hy
        · exact hm
        · exact h1 y hy
    · exact ⟨m :: (a ++ [x]), todo, rfl, h1, .inr ⟨x, m :: a, rfl, hx⟩⟩

theorem lastApplied_ok {l : List M} (hl : IsPath ms l) {pre todo : List M} (he : l = pre ++ todo)
    {db : MigDb U} (htodo : ∀ m ∈ todo, ¬ Recorded db (ms.name m))
    (hpre : pre = [] ∨ ∃ x a, pre = a ++ [x] ∧ Recorded db (ms.name x)) {fuel : Nat}
    (hf : l.length < fuel) (c : MigConn U) :
    ms.lastApplied fuel c db = .ok pre.getLast? ∨ ms.lastApplied fuel c db = .error .db ∧
      ∃ n, c.outcome n ≠ .ok := by
  have hb := isPath_iff.1 hl
  subst he
  rw [List.reverse_append] at hb
  have hnot : ∀ names, db.log = some names → ∀ y ∈ todo.reverse, ms.name y ∉ names := by
    intro names hn y hy hc
    exact htodo y (by simpa using hy) ⟨names, hn, hc⟩
  unfold Migs.lastApplied
  by_cases h0 : c.outcome 0 = .ok
  · rw [if_neg (by simp [h0])]
    cases hlog : db.log with
    | none =>
      left
      rcases hpre with rfl | ⟨x, a, rfl, names, h1, _⟩
      · rfl
      · rw [hlog] at h1; cases h1
    | some names =>
      simp only []
      by_cases h1 : c.outcome 1 = .ok
      · left
        rw [if_neg (by simp [h1])]
        rcases hpre with rfl | ⟨x, a, rfl, names', h2, h3⟩
        · simp only [List.reverse_nil, List.append_nil] at hb
          rw [lastLoop_none hb (hnot names hlog) (by simp at hf ⊢; omega)]
          rfl
        · rw [hlog] at h2
          cases h2
          rw [List.reverse_append] at hb
          rw [lastLoop_found hb h3 (hnot names hlog) (by simp at hf ⊢; omega)]
          simp
      · exact .inr ⟨by rw [if_pos h1], 1, h1⟩
  · exact .inr ⟨by rw [if_pos h0], 0, h0⟩

theorem unapplied_ok (hk : Keyed ms) {l : List M} (hl : IsPath ms l) {pre todo : List M}
    (he : l = pre ++ todo) {db : MigDb U} (htodo : ∀ m ∈ todo, ¬ Recorded db (ms.name m))
    (hpre : pre = [] ∨ ∃ x a, pre = a ++ [x] ∧ Recorded db (ms.name x)) {fuel : Nat}
    (hf : l.length < fuel) (c : MigConn U) :
    ms.unapplied fuel c db = .ok todo ∨ ms.unapplied fuel c db = .error .db ∧
      ∃ n, c.outcome n ≠ .ok := by
  rcases lastApplied_ok hl he htodo hpre hf c with h | ⟨h, hn⟩
  · left
    unfold Migs.unapplied
    rw [h]
    rcases hpre with rfl | ⟨x, a, rfl, _⟩
    · show ms.allMigrations fuel = _
      rw [Migs.allMigrations, allLoop_ok]
      refine ⟨l.reverse, isPath_iff.1 hl, by simp; omega, by simp [he]⟩
    · simp only [List.getLast?_append, List.getLast?_singleton, Option.some_or]
      have hb := isPath_iff.1 hl
      have hnd := isPath_nodup hk hl
      subst he
      rw [List.reverse_append, List.reverse_append] at hb
      rw [Migs.migrationsSince, sinceLoop_found hb rfl ?_ (by simp at hf ⊢; omega)]
      · simp
      · intro y hy hc
        rw [List.map_append, List.nodup_append] at hnd
        exact hnd.2.2 (ms.name x) (by simp) (ms.name y) (by simp; exact ⟨y, by simpa using hy, rfl⟩) hc.symm
  · right
    refine ⟨?_, hn⟩
    unfold Migs.unapplied
    rw [h]

/-! ### Applying -/

theorem markApplied_ok {name : String} {db db' : MigDb U} : markApplied name db = .ok db' ↔
    ∃ names, db.log = some names ∧ name ∉ names ∧ db' = ⟨db.user, some (names ++ [name])⟩ := by
  unfold markApplied
  cases hl : db.log with
  | none => simp
  | some names =>
    by_cases hn : name ∈ names
    · simp [hn]
    · simp [hn, eq_comm]

theorem unmark_ok {name : String} {db db' : MigDb U} : unmark name db = .ok db' ↔
    ∃ names, db.log = some names ∧ db' = ⟨db.user, some (names.filter (· ≠ name))⟩ := by
  unfold unmark
  cases hl : db.log with
  | none => simp
  | some names => simp [eq_comm]

theorem runMig_cases {c : MigConn U} {n : Nat} {sql : Except MErr (Option String)}
    {record : MigDb U → Except MErr (MigDb U)} {db : MigDb U} {r : Except MErr Unit} {db' : MigDb U}
    (h : runMig c n sql record db = (r, db')) :
    (db' = db ∧ r ≠ .ok ()) ∨
    ∃ s db1, sql = .ok (some s) ∧ c.exec s db = .ok db1 ∧ record db1 = .ok db' := by
  unfold runMig at h
  split at h
  · cases h; exact .inl ⟨rfl, by simp⟩
  · split at h
    · cases h; exact .inl ⟨rfl, by simp⟩
    · cases h; exact .inl ⟨rfl, by simp⟩
    · split at h
      · cases h; exact .inl ⟨rfl, by simp⟩
      · split at h
        · cases h; exact .inl ⟨rfl, by simp⟩
        · rename_i he
          split at h
          · cases h; exact .inl ⟨rfl, by simp⟩
          · split at h
            · cases h; exact .inl ⟨rfl, by simp⟩
            · rename_i hr
              split at h
              · cases h; exact .inr ⟨_, _, rfl, he, hr⟩
              · cases h; exact .inl ⟨rfl, by simp⟩
              · cases h; exact .inr ⟨_, _, rfl, he, hr⟩

theorem runMig_reliable {c : MigConn U} {n : Nat} {s : String}
    {record : MigDb U → Except MErr (MigDb U)} {db db1 db2 : MigDb U}
    (h1 : c.exec s db = .ok db1) (h2 : record db1 = .ok db2) :
    runMig c.reliable n (.ok (some s)) record db = (.ok (), db2) := by
  simp [runMig, MigConn.reliable, h1, h2]

theorem runMig_reliable_n {c : MigConn U} {n n' : Nat} {sql : Except MErr (Option String)}
    {record : MigDb U → Except MErr (MigDb U)} {db : MigDb U} :
    runMig c.reliable n sql record db = runMig c.reliable n' sql record db := by
  simp [runMig, MigConn.reliable]

theorem applyOne_cases {c : MigConn U} {n : Nat} {m : M} {db : MigDb U} {r : Except MErr Unit}
    {db' : MigDb U} (h : ms.applyOne c n m db = (r, db')) :
    (db' = db ∧ r ≠ .ok ()) ∨ AppliedOne ms c.exec m db db' := by
  rcases runMig_cases h with h | ⟨s, db1, h1, h2, h3⟩
  · exact .inl h
  · obtain ⟨names, h4, h5, h6⟩ := markApplied_ok.1 h3
    exact .inr ⟨s, db1, names, h1, h2, h4, h5, h6⟩

theorem applyOne_reliable {c : MigConn U} {n : Nat} {m : M} {db db' : MigDb U}
    (h : AppliedOne ms c.exec m db db') : ms.applyOne c.reliable n m db = (.ok (), db') := by
  obtain ⟨s, db1, names, h1, h2, h4, h5, h6⟩ := h
  rw [Migs.applyOne, h1]
  exact runMig_reliable h2 (markApplied_ok.2 ⟨names, h4, h5, h6⟩)

theorem applyAll_reliable_n {c : MigConn U} {n n' : Nat} {l : List M} {db : MigDb U} :
    ms.applyAll c.reliable n l db = ms.applyAll c.reliable n' l db := by
  induction l generalizing n n' db with
  | nil => rfl
  | cons m l ih =>
    unfold Migs.applyAll
    rw [Migs.applyOne, Migs.applyOne, runMig_reliable_n (n := n) (n' := n')]
    split
    · rfl
    · exact ih

/-- What an interrupted run leaves: a number of complete migrations. -/
theorem applyAll_cases {c : MigConn U} {n : Nat} {l : List M} {db : MigDb U} {r : Except MErr Unit}
    {db' : MigDb U} (h : ms.applyAll c n l db = (r, db')) :
    ∃ a b, l = a ++ b ∧ Applied ms c.exec a db db' ∧ (r = .ok () → b = []) := by
  induction l generalizing n db with
  | nil =>
    cases h
    exact ⟨[], [], rfl, .nil, fun _ => rfl⟩
  | cons m l ih =>
    unfold Migs.applyAll at h
    split at h
    · rename_i e db1 ha
      cases h
      rcases applyOne_cases ha with ⟨rfl, _⟩ | h1
      · exact ⟨[], m :: l, rfl, .nil, fun h => by cases h⟩
      · exact ⟨[m], l, rfl, .cons h1 .nil, fun h => by cases h⟩
    · rename_i db1 ha
      rcases applyOne_cases ha with ⟨_, h1⟩ | h1
      · exact absurd rfl h1
      · obtain ⟨a, b, rfl, h2, h3⟩ := ih h
        exact ⟨m :: a, b, rfl, .cons h1 h2, h3⟩

/-- Going on after an interruption. -/
theorem applyAll_resume {c : MigConn U} {n : Nat} {a b : List M} {db db' : MigDb U}
    (h : Applied ms c.exec a db db') :
    ms.applyAll c.reliable n (a ++ b) db = ms.applyAll c.reliable n b db' := by
  induction h generalizing n with
  | nil => rfl
  | @cons m l db db1 db2 h1 _ ih =>
    rw [List.cons_append, Migs.applyAll, applyOne_reliable h1]
    simp only []
    rw [ih]
    exact applyAll_reliable_n

/-! ### Records -/

theorem appliedOne_recorded {exec : String → MigDb U → Except MErr (MigDb U)} {l : List M}
    (hkeep : KeepsRecords ms exec l) {m : M} (hm : m ∈ l) {db db' : MigDb U}
    (h : AppliedOne ms exec m db db') (n : String) :
    Recorded db' n ↔ Recorded db n ∨ n = ms.name m := by
  obtain ⟨s, db1, names, h1, h2, h4, h5, rfl⟩ := h
  rw [← hkeep m hm s (.inl h1) db db1 h2 n]
  simp only [Recorded, h4, Option.some.injEq, exists_eq_left', List.mem_append, List.mem_singleton]

theorem applied_recorded {exec : String → MigDb U → Except MErr (MigDb U)} {l : List M}
    (hkeep : KeepsRecords ms exec l) {a : List M} (ha : ∀ m ∈ a, m ∈ l) {db db' : MigDb U}
    (h : Applied ms exec a db db') (n : String) :
    Recorded db' n ↔ Recorded db n ∨ n ∈ a.map ms.name := by
  induction h with
  | nil => simp
  | @cons m a db db1 db2 h1 _ ih =>
    rw [ih (fun m hm => ha m (by simp [hm])), appliedOne_recorded hkeep (ha m (by simp)) h1]
    simp only [List.map_cons, List.mem_cons, or_assoc]

theorem applied_append {exec : String → MigDb U → Except MErr (MigDb U)} {a b : List M}
    {db db1 db2 : MigDb U} (h : Applied ms exec a db db1) (h' : Applied ms exec b db1 db2) :
    Applied ms exec (a ++ b) db db2 := by
  induction h with
  | nil => exact h'
  | cons h1 _ ih => exact .cons h1 (ih h')

/-! ### Undoing -/

theorem downgradeOne_cases {c : MigConn U} {n : Nat} {m : M} {db : MigDb U} {r : Except MErr Unit}
    {db' : MigDb U} (h : ms.downgradeOne c n m db = (r, db')) :
    (db' = db ∧ r ≠ .ok ()) ∨ UndoneOne ms c.exec m db db' := by
  rcases runMig_cases h with h | ⟨s, db1, h1, h2, h3⟩
  · exact .inl h
  · obtain ⟨names, h4, h6⟩ := unmark_ok.1 h3
    exact .inr ⟨s, db1, names, h1, h2, h4, h6⟩

theorem downgradeOne_reliable {c : MigConn U} {n : Nat} {m : M} {db db' : MigDb U}
    (h : UndoneOne ms c.exec m db db') : ms.downgradeOne c.reliable n m db = (.ok (), db') := by
  obtain ⟨s, db1, names, h1, h2, h4, h6⟩ := h
  rw [Migs.downgradeOne, h1]
  exact runMig_reliable h2 (unmark_ok.2 ⟨names, h4, h6⟩)

/-- `b` is newest first. -/
theorem undoLoop_cases {c : MigConn U} {fuel n : Nat} {m : M} {b : List M}
    (hb : Back ms (some m) (m :: b)) (hc : ∀ x, (m :: b).getLast? = some x → ms.from_ x = .ok none)
    (hf : b.length < fuel) {db : MigDb U} {r : Except MErr Unit}
    {db' : MigDb U} (h : ms.undoLoop c fuel n m db = (r, db')) :
    ∃ a b', b = a ++ b' ∧ Undone ms c.exec a db db' ∧ (r = .ok () → b' = []) := by
  induction b generalizing fuel n m db with
  | nil =>
    cases fuel with
    | zero => simp at hf
    | succ fuel =>
      rw [Migs.undoLoop, hc m rfl] at h
      cases h
      exact ⟨[], [], rfl, .nil, fun _ => rfl⟩
  | cons p b ih =>
    cases fuel with
    | zero => simp at hf
    | succ fuel =>
      cases hb with
      | cons hp hb =>
        have hh := hb.head
        cases hh
        rcases prev_ok_iff.1 hp with ⟨h1, _⟩ | ⟨q, name, h1, h2, h3⟩
        · cases h1
        · cases h1
          rw [Migs.undoLoop, h2] at h
          simp only [h3] at h
          split at h
          · rename_i e db1 hd
            cases h
            rcases downgradeOne_cases hd with ⟨rfl, _⟩ | h1
            · exact ⟨[], p :: b, rfl, .nil, fun h => by cases h⟩
            · exact ⟨[p], b, rfl, .cons h1 .nil, fun h => by cases h⟩
          · rename_i db1 hd
            rcases downgradeOne_cases hd with ⟨_, h1⟩ | h1
            · exact absurd rfl h1
            · obtain ⟨a, b', rfl, h4, h5⟩ := ih hb
                (fun x hx => hc x (by rw [List.getLast?_cons_cons]; exact hx))
                (by simpa using hf) h
              exact ⟨p :: a, b', rfl, .cons h1 h4, h5⟩

theorem undoneOne_recorded {exec : String → MigDb U → Except MErr (MigDb U)} {l : List M}
    (hkeep : KeepsRecords ms exec l) {m : M} (hm : m ∈ l) {db db' : MigDb U}
    (h : UndoneOne ms exec m db db') (n : String) :
    Recorded db' n ↔ Recorded db n ∧ n ≠ ms.name m := by
  obtain ⟨s, db1, names, h1, h2, h4, rfl⟩ := h
  rw [← hkeep m hm s (.inr h1) db db1 h2 n]
  simp [Recorded, h4]

theorem undone_recorded {exec : String → MigDb U → Except MErr (MigDb U)} {l : List M}
    (hkeep : KeepsRecords ms exec l) {a : List M} (ha : ∀ m ∈ a, m ∈ l) {db db' : MigDb U}
    (h : Undone ms exec a db db') (n : String) :
    Recorded db' n ↔ Recorded db n ∧ n ∉ a.map ms.name := by
  induction h with
  | nil => simp
  | @cons m a db db1 db2 h1 _ ih =>
    rw [ih (fun m hm => ha m (by simp [hm])), undoneOne_recorded hkeep (ha m (by simp)) h1]
    simp only [List.map_cons, List.mem_cons, not_or, and_assoc, ne_eq]

end Butane
