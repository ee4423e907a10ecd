/-
Saving objects in a migrated SQLite database.
-/
import Verif.Proofs.SqliteObj

namespace Butane
open Butane.Ddl Butane.DdlP Spec
open Butane.Sql (Operand Cond)

variable {env : SqliteEnv} {D : SqliteData}

/-! ### Bound values -/

theorem bindAll_match {c : TextCodecs} : ∀ {vals : List SqlVal} {ps : List SqliteVal},
    bindAll c vals = .ok ps → AllMatch (fun v a => toSqlite c v = .ok a) vals ps
  | [], ps, h => by
    cases h
    exact .nil
  | v :: vs, ps, h => by
    simp only [bindAll] at h
    cases h1 : toSqlite c v <;> rw [h1] at h <;> simp only [Conv.bind, reduceCtorEq] at h
    cases h2 : bindAll c vs <;> rw [h2] at h <;> simp only [Conv.bind, reduceCtorEq] at h
    cases h
    exact .cons h1 (bindAll_match h2)

theorem bindAll_append {c : TextCodecs} {v : SqlVal} {vals : List SqlVal} {qs : List SqliteVal}
    (h : bindAll c (vals ++ [v]) = .ok qs) :
    ∃ ps a, bindAll c vals = .ok ps ∧ toSqlite c v = .ok a ∧ qs = ps ++ [a] := by
  induction vals generalizing qs with
  | nil =>
    simp only [List.nil_append, bindAll] at h
    cases h1 : toSqlite c v <;> rw [h1] at h <;> simp only [Conv.bind, reduceCtorEq] at h
    cases h
    exact ⟨[], _, rfl, rfl, rfl⟩
  | cons w vals ih =>
    simp only [List.cons_append, bindAll] at h
    cases h1 : toSqlite c w <;> rw [h1] at h <;> simp only [Conv.bind, reduceCtorEq] at h
    cases h2 : bindAll c (vals ++ [v]) <;> rw [h2] at h <;> simp only [Conv.bind, reduceCtorEq] at h
    cases h
    obtain ⟨ps, a, e1, e2, rfl⟩ := ih h2
    exact ⟨_ :: ps, a, by simp only [bindAll, h1, e1, Conv.bind], e2, rfl⟩

theorem match_length {α β : Type} {R : α → β → Prop} {as : List α} {bs : List β}
    (h : AllMatch R as bs) : as.length = bs.length := by
  induction h with
  | nil => rfl
  | cons _ _ ih => simp [ih]

/-- Values paired with the names of their columns. -/
theorem match_lookup {T R : String × SqlType → SqlVal → Prop} {c : TextCodecs}
    {cs : List (String × SqlType)} {vals : List SqlVal} {ps : List SqliteVal} (h1 : AllMatch T cs vals)
    (h2 : AllMatch (fun v a => toSqlite c v = .ok a) vals ps) (hn : (cs.map (·.1)).Nodup)
    (H : ∀ col ∈ cs, ∀ v a, T col v → toSqlite c v = .ok a →
      ((cs.map (·.1)).zip ps).lookup col.1 = some a → R col v) : AllMatch R cs vals := by
  induction h1 generalizing ps with
  | nil => exact .nil
  | cons h1 hr ih =>
    next col v cs vals =>
    cases h2 with
    | cons h2 h2r =>
      next a ps =>
      simp only [List.map_cons, List.nodup_cons] at hn
      refine .cons (H col (List.mem_cons_self ..) v a h1 h2 (by simp)) (ih h2r hn.2 ?_)
      intro col' hc v' a' e1 e2 e3
      refine H col' (List.mem_cons_of_mem _ hc) v' a' e1 e2 ?_
      simp only [List.map_cons, List.zip_cons_cons, List.lookup_cons]
      have : (col'.1 == col.1) = false := by
        simp only [beq_eq_false_iff_ne, ne_eq]
        intro e
        exact hn.1 (e ▸ List.mem_map_of_mem (f := (·.1)) hc)
      rw [this]
      exact e3

/-! ### Objects -/

theorem storable_vals {keep : TField → Bool} : ∀ {fs : List TField} (o : ObjVals fs), Storable fs o →
    ∃ vals, pushValues keep fs o = .ok vals ∧
      AllMatch (fun col v => v = .null ∨ v.sqltype = some col.2)
        (tcolumns (fun f => !f.isAuto && keep f) fs) vals
  | [], _, _ => ⟨[], rfl, .nil⟩
  | ⟨n, p, none⟩ :: fs, (x, os), hp => storable_vals os hp
  | ⟨n, p, some t⟩ :: fs, (x, os), hp => by
    by_cases ha : (TField.mk n p (some t)).isAuto = true
    · have hos : Storable fs os := by
        cases t <;> simp only [TField.isAuto, Bool.false_eq_true] at ha
        exact hp.2
      obtain ⟨vals, h1, h2⟩ := storable_vals (keep := keep) os hos
      have hf : (!(TField.mk n p (some t)).isAuto && keep ⟨n, p, some t⟩) = false := by simp [ha]
      exact ⟨vals, by simp only [pushValues, hf, Bool.false_eq_true, ↓reduceIte, h1],
        by simpa only [tcolumns, hf, Bool.false_eq_true, ↓reduceIte] using h2⟩
    · have hpx : Proper t x ∧ Storable fs os := by
        cases t <;> first | exact absurd rfl ha | exact hp
      obtain ⟨vals, h1, h2⟩ := storable_vals (keep := keep) os hpx.2
      by_cases hk : (!(TField.mk n p (some t)).isAuto && keep ⟨n, p, some t⟩) = true
      · obtain ⟨v, h3, -, h4, h5⟩ := Props.field_round_trip_partial (fun _ => none) t x hpx.1
        refine ⟨v :: vals, by simp only [pushValues, hk, ↓reduceIte, h3, h1, Conv.bind], ?_⟩
        simp only [tcolumns, hk, ↓reduceIte]
        refine .cons ?_ h2
        by_cases hpres : Present t x
        · exact .inr (h4 hpres)
        · exact .inl (h5 hpres)
      · exact ⟨vals, by simp only [pushValues, hk, ↓reduceIte, h1, Bool.false_eq_true],
          by simpa only [tcolumns, hk, ↓reduceIte, Bool.false_eq_true] using h2⟩

theorem storable_of_proper : ∀ {fs : List TField} (o : ObjVals fs), AllProper fs o → Storable fs o
  | [], _, _ => trivial
  | ⟨n, p, none⟩ :: fs, (x, os), hp => storable_of_proper os hp
  | ⟨n, p, some t⟩ :: fs, (x, os), hp => by
    have := storable_of_proper os hp.2
    cases t <;> first | exact ⟨hp.1, this⟩ | skip
    refine ⟨?_, this⟩
    rintro y hy
    cases hy
    exact hp.1

/-- Objects with all keys are proper. -/
theorem proper_of_storable {n : String} : ∀ {fs : List TField} (o : ObjVals fs), Storable fs o →
    (∀ f ∈ fs, f.isAuto = true → f.name = n) → keyValid n fs o = true → (fs.map (·.name)).Nodup →
    AllProper fs o
  | [], _, _, _, _, _ => trivial
  | ⟨n', p, none⟩ :: fs, (x, os), hp, ha, hv, hn => by
    simp only [List.map_cons, List.nodup_cons] at hn
    simp only [keyValid] at hv
    split at hv
    · next e =>
      subst e
      refine proper_of_storable_none os hp fun f hf => ?_
      cases hfa : f.isAuto with
      | false => rfl
      | true => exact absurd (List.mem_map.2 ⟨f, hf, ha f (List.mem_cons_of_mem _ hf) hfa⟩) hn.1
    · exact proper_of_storable (n := n) os hp (fun f hf => ha f (List.mem_cons_of_mem _ hf)) hv hn.2
  | ⟨n', p, some t⟩ :: fs, (x, os), hp, ha, hv, hn => by
    simp only [List.map_cons, List.nodup_cons] at hn
    by_cases hauto : (TField.mk n' p (some t)).isAuto = true
    · have e := ha _ (List.mem_cons_self ..) hauto
      simp only at e
      subst e
      have hrest : AllProper fs os := by
        refine proper_of_storable_none os ?_ fun f hf => ?_
        · cases t <;> first | exact hp.2 | exact absurd hauto (by simp [TField.isAuto])
        · cases hfa : f.isAuto with
          | false => rfl
          | true => exact absurd (List.mem_map.2 ⟨f, hf, ha f (List.mem_cons_of_mem _ hf) hfa⟩) hn.1
      cases t <;> simp only [TField.isAuto, Bool.false_eq_true] at hauto
      refine ⟨?_, hrest⟩
      simp only [keyValid, ↓reduceIte] at hv
      cases x with
      | none => simp at hv
      | some y => exact hp.1 y rfl
    · have hpx : Proper t x ∧ Storable fs os := by
        cases t <;> first | exact absurd rfl hauto | exact hp
      refine ⟨hpx.1, ?_⟩
      have hv' : (if n' = n then true else keyValid n fs os) = true := by
        cases t <;> first | exact absurd rfl hauto | exact hv
      split at hv'
      · next e =>
        subst e
        refine proper_of_storable_none os hpx.2 fun f hf => ?_
        cases hfa : f.isAuto with
        | false => rfl
        | true => exact absurd (List.mem_map.2 ⟨f, hf, ha f (List.mem_cons_of_mem _ hf) hfa⟩) hn.1
      · exact proper_of_storable (n := n) os hpx.2 (fun f hf => ha f (List.mem_cons_of_mem _ hf)) hv' hn.2
where
  /-- The same without automatic keys. -/
  proper_of_storable_none : ∀ {fs : List TField} (o : ObjVals fs), Storable fs o →
      (∀ f ∈ fs, f.isAuto = false) → AllProper fs o
    | [], _, _, _ => trivial
    | ⟨_, _, none⟩ :: fs, (_, os), hp, ha =>
      proper_of_storable_none os hp fun f hf => ha f (List.mem_cons_of_mem _ hf)
    | ⟨n', p, some t⟩ :: fs, (x, os), hp, ha => by
      have h0 := ha _ (List.mem_cons_self ..)
      have hpx : Proper t x ∧ Storable fs os := by
        cases t <;> first | exact hp | (simp [TField.isAuto] at h0)
      exact ⟨hpx.1, proper_of_storable_none os hpx.2 fun f hf => ha f (List.mem_cons_of_mem _ hf)⟩

/-- The key of an object with a stored form. -/
theorem keySql_proper {n : String} : ∀ {fs : List TField} (o : ObjVals fs), AllProper fs o →
    ∀ f ∈ fs, f.name = n → ∀ ty, f.ty = some ty → ¬ MayBeAbsent ty → (fs.map (·.name)).Nodup →
    ∃ id, keySql n fs o = .ok id ∧ id.sqltype = some ty.sqltype
  | [], _, _, f, hf, _, _, _, _, _ => by cases hf
  | ⟨n', p, none⟩ :: fs, (x, os), hp, f, hf, e, ty, hty, ha, hn => by
    simp only [List.map_cons, List.nodup_cons] at hn
    simp only [keySql]
    rcases List.mem_cons.1 hf with rfl | hf
    · cases hty
    · exact keySql_proper os hp f hf e ty hty ha hn.2
  | ⟨n', p, some t⟩ :: fs, (x, os), hp, f, hf, e, ty, hty, ha, hn => by
    simp only [List.map_cons, List.nodup_cons] at hn
    simp only [keySql]
    rcases List.mem_cons.1 hf with rfl | hf
    · simp only at e
      cases hty
      rw [if_pos e]
      obtain ⟨v, h3, -, h4, -⟩ := Props.field_round_trip_partial (fun _ => none) t x hp.1
      exact ⟨v, h3, h4 (present_of_proper t x hp.1 ha)⟩
    · rw [if_neg (fun h => hn.1 (List.mem_map.2 ⟨f, hf, e.trans h.symm⟩))]
      exact keySql_proper os hp.2 f hf e ty hty ha hn.2

/-- Among the values of the columns is the key's. -/
theorem keySql_lookup {c : TextCodecs} {n : String} {id : SqlVal} :
    ∀ {fs : List TField} (o : ObjVals fs) (vals : List SqlVal) (ps : List SqliteVal),
    pushValues (fun _ => true) fs o = .ok vals → bindAll c vals = .ok ps → keySql n fs o = .ok id →
    (∀ f ∈ fs, f.isAuto = false) →
    ∃ a, toSqlite c id = .ok a ∧ (((tcolumns (fun f => !f.isAuto) fs).map (·.1)).zip ps).lookup n = some a
  | [], _, _, _, _, _, h, _ => by cases h
  | ⟨n', p, none⟩ :: fs, (x, os), vals, ps, h1, h2, h3, ha => by
    simp only [pushValues] at h1
    simp only [keySql] at h3
    simp only [tcolumns]
    exact keySql_lookup os vals ps h1 h2 h3 fun f hf => ha f (List.mem_cons_of_mem _ hf)
  | ⟨n', p, some t⟩ :: fs, (x, os), vals, ps, h1, h2, h3, ha => by
    have h0 := ha _ (List.mem_cons_self ..)
    simp only [pushValues, h0, Bool.not_false, Bool.and_true, ↓reduceIte] at h1
    cases e1 : t.toSql x <;> rw [e1] at h1 <;> simp only [Conv.bind, reduceCtorEq] at h1
    next v =>
    cases e2 : pushValues (fun _ => true) fs os <;> rw [e2] at h1 <;>
      simp only [Conv.bind, reduceCtorEq] at h1
    cases h1
    simp only [bindAll] at h2
    cases e3 : toSqlite c v <;> rw [e3] at h2 <;> simp only [Conv.bind, reduceCtorEq] at h2
    next a =>
    next vs =>
    cases e4 : bindAll c vs <;> rw [e4] at h2 <;> simp only [Conv.bind, reduceCtorEq] at h2
    cases h2
    simp only [keySql] at h3
    simp only [tcolumns, h0, Bool.not_false, ↓reduceIte, List.map_cons, List.zip_cons_cons,
      List.lookup_cons]
    split at h3
    · next e =>
      subst e
      rw [e1] at h3
      cases h3
      exact ⟨a, e3, by simp⟩
    · next e =>
      have : (n == n') = false := by simpa using Ne.symm e
      rw [this]
      exact keySql_lookup os vs _ e2 e4 h3 fun f hf => ha f (List.mem_cons_of_mem _ hf)

theorem autoHolds_none {Holds : String × SqlType → SqlVal → Prop} : ∀ {fs : List TField}
    (o : ObjVals fs), (∀ f ∈ fs, f.isAuto = false) → AutoHolds Holds fs o
  | [], _, _ => trivial
  | ⟨_, _, none⟩ :: fs, (_, os), h => autoHolds_none os fun f hf => h f (List.mem_cons_of_mem _ hf)
  | ⟨n, p, some t⟩ :: fs, (x, os), h => by
    have h0 := h _ (List.mem_cons_self ..)
    have := autoHolds_none (Holds := Holds) os fun f hf => h f (List.mem_cons_of_mem _ hf)
    cases t <;> first | exact this | (simp [TField.isAuto] at h0)

theorem autoHolds_of_key {Holds : String × SqlType → SqlVal → Prop} {n : String} {id : SqlVal} :
    ∀ {fs : List TField} (o : ObjVals fs), (∀ f ∈ fs, f.isAuto = true → f.name = n) →
    (fs.map (·.name)).Nodup → keySql n fs o = .ok id →
    (∀ f ∈ fs, ∀ t, f.ty = some (.autoPk t) → Holds (n, t.sqltype) id) → AutoHolds Holds fs o
  | [], _, _, _, _, _ => trivial
  | ⟨n', p, none⟩ :: fs, (_, os), ha, hn, hk, hH => by
    simp only [List.map_cons, List.nodup_cons] at hn
    exact autoHolds_of_key (n := n) os (fun f hf => ha f (List.mem_cons_of_mem _ hf)) hn.2 hk
      fun f hf => hH f (List.mem_cons_of_mem _ hf)
  | ⟨n', p, some t⟩ :: fs, (x, os), ha, hn, hk, hH => by
    simp only [List.map_cons, List.nodup_cons] at hn
    simp only [keySql] at hk
    by_cases e : n' = n
    · subst e
      rw [if_pos rfl] at hk
      have hrest : AutoHolds Holds fs os := by
        refine autoHolds_none os fun f hf => ?_
        cases hfa : f.isAuto with
        | false => rfl
        | true => exact absurd (List.mem_map.2 ⟨f, hf, ha f (List.mem_cons_of_mem _ hf) hfa⟩) hn.1
      cases t <;> first | exact hrest | skip
      next t =>
      cases x with
      | none => simp [FieldTy.toSql] at hk
      | some y => exact ⟨⟨y, id, rfl, hk, hH _ (List.mem_cons_self ..) t rfl⟩, hrest⟩
    · rw [if_neg e] at hk
      have := autoHolds_of_key (Holds := Holds) (n := n) os
        (fun f hf => ha f (List.mem_cons_of_mem _ hf)) hn.2 hk
        fun f hf => hH f (List.mem_cons_of_mem _ hf)
      cases t <;> first | exact this | skip
      exact absurd (ha _ (List.mem_cons_self ..) rfl) e

end Butane
