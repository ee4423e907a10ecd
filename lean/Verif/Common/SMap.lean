/-
Sorted association lists: the model of Rust's `BTreeMap<K, V>` (std).
Iteration order of a `BTreeMap` is ascending key order, which is list order here.
-/
namespace Butane

/-- A `BTreeMap<K, V>` as the list of its entries in iteration order. -/
abbrev SMap (K V : Type) := List (K × V)

namespace SMap

variable {K V : Type} [Ord K]

/-- `BTreeMap::get`. -/
def lookup (m : SMap K V) (k : K) : Option V :=
  match m with
  | [] => none
  | (k', v) :: rest => if compare k k' = .eq then some v else lookup rest k

/-- `BTreeMap::insert` (replacing an existing entry). -/
def insert (m : SMap K V) (k : K) (v : V) : SMap K V :=
  match m with
  | [] => [(k, v)]
  | (k', v') :: rest =>
    match compare k k' with
    | .lt => (k, v) :: (k', v') :: rest
    | .eq => (k, v) :: rest
    | .gt => (k', v') :: insert rest k v

/-- `BTreeMap::remove`. -/
def erase (m : SMap K V) (k : K) : SMap K V :=
  match m with
  | [] => []
  | (k', v') :: rest =>
    if compare k k' = .eq then rest else (k', v') :: erase rest k

/-- `BTreeMap::get_mut` followed by an in-place update of the value. -/
def modify (m : SMap K V) (k : K) (f : V → V) : SMap K V :=
  match m with
  | [] => []
  | (k', v') :: rest =>
    if compare k k' = .eq then (k', f v') :: rest else (k', v') :: modify rest k f

/-- `BTreeMap::keys`. -/
def keys (m : SMap K V) : List K := m.map (·.1)

/-- `BTreeMap::values`. -/
def values (m : SMap K V) : List V := m.map (·.2)

/-- Strictly ascending keys: the representation invariant of a `BTreeMap`. -/
def Sorted (m : SMap K V) : Prop := m.Pairwise (fun a b => compare a.1 b.1 = .lt)

instance [DecidableEq K] (m : SMap K V) : Decidable (Sorted m) :=
  inferInstanceAs (Decidable (m.Pairwise _))

theorem sorted_nil : Sorted ([] : SMap K V) := List.Pairwise.nil

section Laws
variable [Std.TransOrd K] [Std.LawfulEqOrd K] [DecidableEq K]

theorem cmp_eq_iff {a b : K} : compare a b = .eq ↔ a = b := Std.LawfulEqCmp.compare_eq_iff_eq

theorem cmp_self (a : K) : compare a a = .eq := cmp_eq_iff.2 rfl

theorem cmp_gt_of_lt {a b : K} (h : compare a b = .lt) : compare b a = .gt :=
  (Std.OrientedCmp.gt_iff_lt (cmp := compare)).2 h

theorem cmp_lt_of_gt {a b : K} (h : compare a b = .gt) : compare b a = .lt :=
  (Std.OrientedCmp.gt_iff_lt (cmp := compare)).1 h

theorem lt_trans' {a b c : K} (h : compare a b = .lt) (h' : compare b c = .lt) :
    compare a c = .lt := Std.TransCmp.lt_trans h h'

theorem ne_of_lt {a b : K} (h : compare a b = .lt) : a ≠ b := by
  intro e; subst e; rw [cmp_self] at h; cases h

theorem lookup_eq_none_iff (m : SMap K V) (k : K) : m.lookup k = none ↔ ∀ p ∈ m, p.1 ≠ k := by
  induction m with
  | nil => simp [lookup]
  | cons p rest ih =>
    obtain ⟨k', v⟩ := p
    simp only [lookup, List.mem_cons, forall_eq_or_imp]
    split
    · rename_i h
      have := cmp_eq_iff.1 h
      simp [this]
    · rename_i h
      rw [ih]
      constructor
      · intro h2; exact ⟨fun e => h (cmp_eq_iff.2 e.symm), h2⟩
      · intro h2; exact h2.2

theorem mem_of_lookup {m : SMap K V} {k : K} {v : V} (h : m.lookup k = some v) : (k, v) ∈ m := by
  induction m with
  | nil => simp [lookup] at h
  | cons p rest ih =>
    obtain ⟨k', v'⟩ := p
    simp only [lookup] at h
    split at h
    · rename_i he
      have := cmp_eq_iff.1 he
      cases h; subst this; simp
    · exact List.mem_cons_of_mem _ (ih h)

theorem lookup_of_mem {m : SMap K V} (hs : Sorted m) {k : K} {v : V} (h : (k, v) ∈ m) :
    m.lookup k = some v := by
  induction m with
  | nil => cases h
  | cons p rest ih =>
    obtain ⟨k', v'⟩ := p
    simp only [lookup]
    have hs' := List.pairwise_cons.1 hs
    rcases List.mem_cons.1 h with h | h
    · cases h; simp [cmp_self]
    · have hlt : compare k' k = .lt := hs'.1 _ h
      have : compare k k' ≠ .eq := by
        intro e; exact ne_of_lt hlt (cmp_eq_iff.1 e).symm
      simp only [this, if_false]
      exact ih hs'.2 h

theorem lookup_insert (m : SMap K V) (k : K) (v : V) (k' : K) :
    (m.insert k v).lookup k' = if k' = k then some v else m.lookup k' := by
  induction m with
  | nil =>
    simp only [insert, lookup, cmp_eq_iff]
  | cons p rest ih =>
    obtain ⟨k1, v1⟩ := p
    simp only [insert]
    split
    · simp only [lookup, cmp_eq_iff]
    · rename_i h
      have hk := cmp_eq_iff.1 h
      subst hk
      simp only [lookup, cmp_eq_iff]
      split <;> rfl
    · rename_i h
      simp only [lookup, ih, cmp_eq_iff]
      split
      · rename_i e
        subst e
        have : k' ≠ k := fun e => by rw [e, cmp_self] at h; cases h
        simp [this]
      · rfl

theorem mem_insert_of {m : SMap K V} {k : K} {v : V} {p : K × V} (h : p ∈ m.insert k v) :
    p = (k, v) ∨ p ∈ m := by
  induction m with
  | nil => simp [insert] at h; exact Or.inl h
  | cons q rest ih =>
    obtain ⟨k1, v1⟩ := q
    simp only [insert] at h
    split at h
    · rcases List.mem_cons.1 h with h | h
      · exact Or.inl h
      · exact Or.inr h
    · rcases List.mem_cons.1 h with h | h
      · exact Or.inl h
      · exact Or.inr (List.mem_cons_of_mem _ h)
    · rcases List.mem_cons.1 h with h | h
      · subst h; exact Or.inr List.mem_cons_self
      · rcases ih h with h | h
        · exact Or.inl h
        · exact Or.inr (List.mem_cons_of_mem _ h)

theorem sorted_insert {m : SMap K V} (hs : Sorted m) (k : K) (v : V) : Sorted (m.insert k v) := by
  induction m with
  | nil => simp [insert, Sorted]
  | cons p rest ih =>
    obtain ⟨k1, v1⟩ := p
    have hs' := List.pairwise_cons.1 hs
    simp only [insert]
    split
    · rename_i h
      refine List.pairwise_cons.2 ⟨?_, hs⟩
      intro q hq
      rcases List.mem_cons.1 hq with hq | hq
      · subst hq; exact h
      · exact lt_trans' h (hs'.1 _ hq)
    · rename_i h
      have := cmp_eq_iff.1 h
      subst this
      exact List.pairwise_cons.2 ⟨hs'.1, hs'.2⟩
    · rename_i h
      refine List.pairwise_cons.2 ⟨?_, ih hs'.2⟩
      intro q hq
      rcases mem_insert_of hq with hq | hq
      · subst hq; exact cmp_lt_of_gt h
      · exact hs'.1 _ hq

theorem erase_sublist (m : SMap K V) (k : K) : (m.erase k).Sublist m := by
  induction m with
  | nil => exact List.Sublist.slnil
  | cons p rest ih =>
    obtain ⟨k1, v1⟩ := p
    simp only [erase]
    split
    · exact List.sublist_cons_self _ _
    · exact ih.cons_cons _

theorem sorted_erase {m : SMap K V} (hs : Sorted m) (k : K) : Sorted (m.erase k) :=
  List.Pairwise.sublist (erase_sublist m k) hs

theorem lookup_erase {m : SMap K V} (hs : Sorted m) (k k' : K) :
    (m.erase k).lookup k' = if k' = k then none else m.lookup k' := by
  induction m with
  | nil => simp [erase, lookup]
  | cons p rest ih =>
    obtain ⟨k1, v1⟩ := p
    have hs' := List.pairwise_cons.1 hs
    simp only [erase]
    split
    · rename_i h
      have := cmp_eq_iff.1 h
      subst this
      split
      · rename_i e
        subst e
        rw [lookup_eq_none_iff]
        intro q hq
        exact (ne_of_lt (hs'.1 _ hq)).symm
      · rename_i e
        simp [lookup, cmp_eq_iff, e]
    · rename_i h
      simp only [lookup, ih hs'.2, cmp_eq_iff]
      split
      · rename_i e
        subst e
        rw [cmp_eq_iff] at h
        simp [Ne.symm h]
      · rfl

theorem keys_modify (m : SMap K V) (k : K) (f : V → V) : (m.modify k f).keys = m.keys := by
  induction m with
  | nil => rfl
  | cons p rest ih =>
    obtain ⟨k1, v1⟩ := p
    simp only [modify]
    split
    · rfl
    · simp only [keys, List.map_cons] at ih ⊢
      rw [ih]

theorem sorted_iff_keys (m : SMap K V) : Sorted m ↔ m.keys.Pairwise (fun a b => compare a b = .lt) := by
  simp [Sorted, keys, List.pairwise_map]

theorem sorted_modify {m : SMap K V} (hs : Sorted m) (k : K) (f : V → V) : Sorted (m.modify k f) := by
  rw [sorted_iff_keys, keys_modify, ← sorted_iff_keys]; exact hs

theorem lookup_modify (m : SMap K V) (k : K) (f : V → V) (k' : K) :
    (m.modify k f).lookup k' = if k' = k then (m.lookup k').map f else m.lookup k' := by
  induction m with
  | nil => simp [modify, lookup]
  | cons p rest ih =>
    obtain ⟨k1, v1⟩ := p
    simp only [modify]
    split
    · rename_i h
      have := cmp_eq_iff.1 h
      subst this
      simp only [lookup, cmp_eq_iff]
      split
      · rename_i e; simp
      · rename_i e; rfl
    · rename_i h
      rw [cmp_eq_iff] at h
      simp only [lookup, ih, cmp_eq_iff]
      split
      · rename_i e
        subst e
        simp [Ne.symm h]
      · rfl

theorem mem_keys_iff (m : SMap K V) (k : K) : k ∈ m.keys ↔ ∃ v, m.lookup k = some v := by
  constructor
  · intro h
    cases hl : m.lookup k with
    | some v => exact ⟨v, rfl⟩
    | none =>
      rw [lookup_eq_none_iff] at hl
      obtain ⟨p, hp, e⟩ := List.mem_map.1 h
      exact absurd e (hl p hp)
  · intro ⟨v, h⟩
    exact List.mem_map.2 ⟨_, mem_of_lookup h, rfl⟩

/-- Two sorted maps with the same lookups are the same list. -/
theorem ext {m m' : SMap K V} (hs : Sorted m) (hs' : Sorted m')
    (h : ∀ k, m.lookup k = m'.lookup k) : m = m' := by
  induction m generalizing m' with
  | nil =>
    cases m' with
    | nil => rfl
    | cons p rest =>
      have := h p.1
      rw [lookup_of_mem hs' (k := p.1) (v := p.2) List.mem_cons_self] at this
      simp [lookup] at this
  | cons p rest ih =>
    obtain ⟨k, v⟩ := p
    cases m' with
    | nil =>
      have := h k
      rw [lookup_of_mem hs List.mem_cons_self] at this
      simp [lookup] at this
    | cons p' rest' =>
      obtain ⟨k', v'⟩ := p'
      have h1 := List.pairwise_cons.1 hs
      have h2 := List.pairwise_cons.1 hs'
      have hk : k = k' := by
        cases hc : compare k k' with
        | eq => exact cmp_eq_iff.1 hc
        | lt =>
          exfalso
          have e := h k
          rw [lookup_of_mem hs List.mem_cons_self] at e
          have hm := mem_of_lookup e.symm
          rcases List.mem_cons.1 hm with hm | hm
          · injection hm with a b; subst a; rw [cmp_self] at hc; cases hc
          · have := h2.1 _ hm
            have := lt_trans' hc this
            rw [cmp_self] at this; cases this
        | gt =>
          exfalso
          have hc := cmp_lt_of_gt hc
          have e := h k'
          rw [lookup_of_mem hs' List.mem_cons_self] at e
          have hm := mem_of_lookup e
          rcases List.mem_cons.1 hm with hm | hm
          · injection hm with a b; subst a; rw [cmp_self] at hc; cases hc
          · have := h1.1 _ hm
            have := lt_trans' hc this
            rw [cmp_self] at this; cases this
      subst hk
      have hv : v = v' := by
        have e := h k
        rw [lookup_of_mem hs List.mem_cons_self, lookup_of_mem hs' List.mem_cons_self] at e
        exact Option.some.inj e
      subst hv
      congr 1
      apply ih h1.2 h2.2
      intro q
      have e := h q
      by_cases hq : q = k
      · subst hq
        have a1 : lookup rest q = none := by
          rw [lookup_eq_none_iff]; intro x hx; exact (ne_of_lt (h1.1 _ hx)).symm
        have a2 : lookup rest' q = none := by
          rw [lookup_eq_none_iff]; intro x hx; exact (ne_of_lt (h2.1 _ hx)).symm
        rw [a1, a2]
      · simp only [lookup, cmp_eq_iff, hq, if_false] at e
        exact e

theorem nodup_keys {m : SMap K V} (hs : Sorted m) : m.keys.Nodup := by
  rw [sorted_iff_keys] at hs
  exact hs.imp (fun h => ne_of_lt h)

end Laws
end SMap
end Butane
