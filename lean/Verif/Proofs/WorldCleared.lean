/-
What a database holds when tables are emptied.
-/
import Verif.Proofs.ClearData
import Verif.Spec.ClearData

namespace Butane
open Butane.Spec Butane.Ddl

variable {k : SqliteConn} {u u' : SDb} {W : World} {names : List String}

theorem deleted_some (h : RowsDeleted names u u') {n : String} {t : STable} (hl : u.lookup n = some t) :
    ∃ rows, u'.lookup n = some { t with rows := rows } ∧ (n ∈ names → rows = []) ∧ (n ∉ names → rows = t.rows) := by
  have := h n
  by_cases hn : n ∈ names
  · rw [if_pos hn, hl] at this
    exact ⟨[], this, fun _ => rfl, fun h => absurd hn h⟩
  · rw [if_neg hn, hl] at this
    exact ⟨t.rows, this, fun h => absurd h hn, fun _ => rfl⟩

theorem emptied_stock {n : String} {s' : Stock} (h : (W.emptied names).stock n = some s') :
    ∃ s, W.stock n = some s ∧ s'.m = s.m ∧ s'.pk = s.pk ∧ (n ∉ names → s' = s) ∧
      (n ∈ names → s' = ⟨s.m, s.pk, fun _ => none⟩) := by
  unfold World.emptied at h
  by_cases hn : n ∈ names
  · simp only [hn, if_true] at h
    cases hs : W.stock n with
    | none => rw [hs] at h; cases h
    | some s => rw [hs] at h; cases h; exact ⟨s, rfl, rfl, rfl, (fun h => absurd hn h), fun _ => rfl⟩
  · simp only [hn, if_false] at h
    exact ⟨s', h, rfl, rfl, (fun _ => rfl), fun h => absurd h hn⟩

theorem emptied_has {n : String} {s : Stock} (h : W.stock n = some s) :
    ∃ s', (W.emptied names).stock n = some s' ∧ s'.pk = s.pk := by
  unfold World.emptied
  by_cases hn : n ∈ names
  · simp only [hn, if_true, h]
    exact ⟨_, rfl, rfl⟩
  · simp only [hn, if_false, h]
    exact ⟨_, rfl, rfl⟩

theorem emptied_links {n : String} {L' : Links} (h : (W.emptied names).links n = some L') :
    ∃ L, W.links n = some L ∧ L'.owner = L.owner ∧ L'.target = L.target ∧ (n ∉ names → L' = L) ∧
      (n ∈ names → ∀ x y, ¬ L'.linked x y) := by
  unfold World.emptied at h
  by_cases hn : n ∈ names
  · simp only [hn, if_true] at h
    cases hs : W.links n with
    | none => rw [hs] at h; cases h
    | some s => rw [hs] at h; cases h; exact ⟨s, rfl, rfl, rfl, (fun h => absurd hn h), fun _ _ _ h => h⟩
  · simp only [hn, if_false] at h
    exact ⟨L', h, rfl, rfl, (fun _ => rfl), fun h => absurd h hn⟩

theorem emptied_none {n : String} (h : W.stock n = none) : (W.emptied names).stock n = none := by
  unfold World.emptied
  simp only [h, Option.map_none, ite_self]

theorem keeps_emptied (hK : Keeps k u W) (hd : RowsDeleted names u u') (hs : SoundDb k.env u') :
    Keeps k u' (W.emptied names) := by
  constructor
  · intro n s' hs'
    obtain ⟨s, h1, -, -, h4, h5⟩ := emptied_stock hs'
    obtain ⟨q1, q2, t, q3, q4, q5⟩ := hK.stock n s h1
    obtain ⟨rows, r1, r2, r3⟩ := deleted_some hd q3
    have hready : Ready k s.m s.pk u' := by
      refine ⟨q2.model, q2.data, q2.strict, q2.codecs, hs, _, r1, ?_⟩
      obtain ⟨t', ht', hfit⟩ := q2.table
      rw [q3] at ht'
      cases ht'
      exact ⟨hfit.1, hfit.2, hfit.3, hfit.4⟩
    rw [q1] at r2 r3
    by_cases hn : n ∈ names
    · obtain rfl := h5 hn
      obtain rfl := r2 hn
      exact ⟨q1, hready, _, r1, (fun r hr => by cases hr), fun id a _ => rfl⟩
    · obtain rfl := h4 hn
      obtain rfl := r3 hn
      exact ⟨q1, hready, _, r1, q4, q5⟩
  · intro n L' hL'
    obtain ⟨L, h1, -, -, h4, h5⟩ := emptied_links hL'
    obtain ⟨q1, q2, t, q3, q4, q5, q6⟩ := hK.links n L h1
    obtain ⟨rows, r1, r2, r3⟩ := deleted_some hd q3
    refine ⟨emptied_none q1, q2, ?_⟩
    by_cases hn : n ∈ names
    · obtain rfl := r2 hn
      exact ⟨_, r1, q4, (fun r hr => by cases hr), fun x y h => absurd h (h5 hn x y)⟩
    · obtain rfl := h4 hn
      obtain rfl := r3 hn
      exact ⟨_, r1, q4, q5, q6⟩

theorem linksReady_emptied (hL : LinksReady k u W) (hd : RowsDeleted names u u') :
    LinksReady k u' (W.emptied names) := by
  refine ⟨hL.plain, ?_, ?_, ?_⟩
  · intro n L' h
    obtain ⟨L, h1, h2, -⟩ := emptied_links h
    obtain ⟨n', s, q1, q2⟩ := hL.owner n L h1
    obtain ⟨s', r1, r2⟩ := emptied_has (names := names) q1
    exact ⟨n', s', r1, by rw [r2, q2, h2]⟩
  · intro n L' h
    obtain ⟨L, h1, -, h2, -⟩ := emptied_links h
    obtain ⟨n', s, q1, q2⟩ := hL.target n L h1
    obtain ⟨s', r1, r2⟩ := emptied_has (names := names) q1
    exact ⟨n', s', r1, by rw [r2, q2, h2]⟩
  · intro n L' h
    obtain ⟨L, h1, h2, h3, -⟩ := emptied_links h
    obtain ⟨t, q1, q2⟩ := hL.table n L h1
    obtain ⟨rows, r1, -⟩ := deleted_some hd q1
    refine ⟨_, r1, ?_⟩
    obtain ⟨e1, e2⟩ := q2
    constructor
    · rw [h2]; exact e1
    · rw [h3]; exact e2

theorem emptied_covers (hc : ∀ n t, u.lookup n = some t → (W.stock n).isSome ∨ (W.links n).isSome)
    (hd : RowsDeleted names u u') : ∀ n t, u'.lookup n = some t →
      ((W.emptied names).stock n).isSome ∨ ((W.emptied names).links n).isSome := by
  intro n t ht
  have : ∃ t0, u.lookup n = some t0 := by
    have h := hd n
    rw [ht] at h
    cases hu : u.lookup n with
    | none => rw [hu] at h; simp at h
    | some t0 => exact ⟨t0, rfl⟩
  obtain ⟨t0, h0⟩ := this
  unfold World.emptied
  rcases hc n t0 h0 with h | h
  · left
    by_cases hn : n ∈ names <;> simp [hn, h]
  · right
    by_cases hn : n ∈ names <;> simp [hn, h]

end Butane
