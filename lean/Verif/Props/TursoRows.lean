/-
C67: what is stored on Turso is read back.
`ColumnHolds` (Spec/Convert.lean) is what a column holds after a value of its own class was
written: Turso's tables are not STRICT, but this matters only for values of another class.
-/
import Verif.Model.TursoRows
import Verif.Props.Convert

namespace Butane.Props
open Butane Spec

theorem toTurso_eq (c : TextCodecs) (v : SqlVal) : Turso.toTurso c v = toSqlite c v := by
  cases v <;> rfl

theorem fromTurso_eq (c : TextCodecs) (b : Turso.Val) (ty : SqlType) :
    Turso.fromTurso c b ty = fromSqlite c b ty := by
  cases b <;> cases ty <;> rfl

/-- All cells of a row are read. -/
theorem turso_collect {c : TextCodecs} {columns : List SqlType} {row : List Turso.Val}
    {vs : List SqlVal} (hlen : vs.length = columns.length)
    (h : ∀ i v ty, vs[i]? = some v → columns[i]? = some ty → Turso.cell c row i ty = .ok v) :
    Turso.decodeRow c columns row = .ok vs := by
  have : ∀ (cols : List SqlType) (k : Nat) (vs : List SqlVal), vs.length = cols.length →
      (∀ (i : Nat) v ty, vs[i]? = some v → cols[i]? = some ty → Turso.cell c row (k + i) ty = .ok v) →
      collectRows ((cols.zipIdx k).map fun x => Turso.cell c row x.2 x.1) = .ok vs := by
    intro cols
    induction cols with
    | nil =>
      intro k vs hl _
      cases vs with
      | nil => rfl
      | cons => simp at hl
    | cons ty cols ih =>
      intro k vs hl hc
      cases vs with
      | nil => simp at hl
      | cons v vs =>
        have h0 := hc 0 v ty (by simp) (by simp)
        have h1 := ih (k + 1) vs (by simpa using hl) (by
          intro i w ty' hw hty
          have := hc (i + 1) w ty' (by simpa using hw) (by simpa using hty)
          rwa [show k + 1 + i = k + (i + 1) by omega])
        simp only [List.zipIdx_cons, List.map_cons]
        rw [show Turso.cell c row k ty = .ok v from h0]
        simp only [collectRows, h1]
  exact this columns 0 vs hlen (by simpa using h)

theorem exists_list {α : Type} {P : Nat → α → Prop} (n : Nat) (h : ∀ i, i < n → ∃ a, P i a) :
    ∃ l : List α, l.length = n ∧ ∀ (i : Nat) a, l[i]? = some a → P i a := by
  induction n with
  | zero => exact ⟨[], rfl, by simp⟩
  | succ n ih =>
    obtain ⟨l, h1, h2⟩ := ih (fun i hi => h i (by omega))
    obtain ⟨a, ha⟩ := h n (by omega)
    refine ⟨l ++ [a], by simp [h1], ?_⟩
    intro i b hb
    rw [List.getElem?_append] at hb
    split at hb
    · exact h2 i b hb
    · rename_i hi
      have h3 : i - l.length = 0 := by
        have := (List.getElem?_eq_some_iff.1 hb).1
        simp only [List.length_singleton] at this
        omega
      rw [h3] at hb
      simp only [List.getElem?_cons_zero, Option.some.injEq] at hb
      obtain rfl : i = n := by omega
      exact hb ▸ ha

/-- The stored cells of one row: the values `vs` were bound and written to columns of the types
`columns`. -/
def TursoStored (c : TextCodecs) (columns : List SqlType) (vs : List SqlVal)
    (row : List Turso.Val) : Prop :=
  row.length = columns.length ∧
  ∀ (i : Nat) v ty b, vs[i]? = some v → columns[i]? = some ty → row[i]? = some b →
    ∃ name a, sqliteType ty = some name ∧ Turso.toTurso c v = .ok a ∧ ColumnHolds name a b

/-- The values fit the columns. -/
def TursoFits (columns : List SqlType) (vs : List SqlVal) : Prop :=
  vs.length = columns.length ∧
  ∀ (i : Nat) v ty, vs[i]? = some v → columns[i]? = some ty →
    (v = .null ∨ v.sqltype = some ty) ∧ (∀ n, ty ≠ .custom n) ∧ ¬ IsNaN v

/-- **C67** (partial).  A row of values that fit their columns can be stored on Turso; whatever the
database then returns for it, the query reads it, and the row gives for each column, asked for
with the column's type, the value that was stored.  Missing: NaN (`turso_nan_violated`) and custom
types. -/
theorem turso_row_round_trip_partial (c : TextCodecs) (hc : Faithful c) {columns : List SqlType}
    {vs : List SqlVal} (hf : TursoFits columns vs) :
    (∃ row, TursoStored c columns vs row) ∧
    ∀ row, TursoStored c columns vs row →
      ∃ vals, Turso.decodeRow c columns row = .ok vals ∧ vals.length = columns.length ∧
        ∀ (i : Nat) v ty, vs[i]? = some v → columns[i]? = some ty →
          ∃ v', Turso.rowGet vals i ty = .ok v' ∧ SameVal v v' := by
  obtain ⟨hlen, hfit⟩ := hf
  constructor
  · -- each value has a cell
    have : ∀ i, i < columns.length → ∃ b, ∀ v ty, vs[i]? = some v → columns[i]? = some ty →
        ∃ name a, sqliteType ty = some name ∧ Turso.toTurso c v = .ok a ∧ ColumnHolds name a b := by
      intro i hi
      obtain ⟨h1, h2, h3⟩ := hfit i _ _ (List.getElem?_eq_getElem (hlen ▸ hi))
        (List.getElem?_eq_getElem hi)
      obtain ⟨name, a, p1, p2, ⟨b, p3⟩, _⟩ := sqlite_round_trip_partial c hc _ _ h1 h2 h3
      refine ⟨b, fun v ty hv hty => ⟨name, a, ?_, ?_, p3⟩⟩
      · rw [List.getElem?_eq_getElem hi] at hty
        rwa [← Option.some.inj hty]
      · rw [List.getElem?_eq_getElem (hlen ▸ hi)] at hv
        rwa [← Option.some.inj hv, toTurso_eq]
    obtain ⟨row, h1, h2⟩ := exists_list columns.length this
    exact ⟨row, h1, fun i v ty b hv hty hb => h2 i b hb v ty hv hty⟩
  · rintro row ⟨hrl, hst⟩
    -- each cell is read
    have key : ∀ i, i < columns.length → ∃ v', ∀ v ty, vs[i]? = some v → columns[i]? = some ty →
        Turso.cell c row i ty = .ok v' ∧ SameVal v v' ∧ v'.isCompatible ty true = true := by
      intro i hi
      have e1 := List.getElem?_eq_getElem (l := vs) (hlen ▸ hi)
      have e2 := List.getElem?_eq_getElem hi
      have e3 := List.getElem?_eq_getElem (l := row) (hrl ▸ hi)
      obtain ⟨h1, h2, h3⟩ := hfit i _ _ e1 e2
      obtain ⟨name, a, p1, p2, p3⟩ := hst i _ _ _ e1 e2 e3
      obtain ⟨name', a', q1, q2, _, q4⟩ := sqlite_round_trip_partial c hc _ _ h1 h2 h3
      rw [toTurso_eq, q2] at p2
      rw [q1] at p1
      cases p2
      cases p1
      obtain ⟨v', r1, r2⟩ := q4 _ p3
      refine ⟨v', fun v ty hv hty => ?_⟩
      rw [e1] at hv
      rw [e2] at hty
      obtain rfl := Option.some.inj hv
      obtain rfl := Option.some.inj hty
      refine ⟨?_, r2, ?_⟩
      · simp only [Turso.cell, e3, fromTurso_eq, r1]
      · rcases h1 with h1 | h1
        · rw [h1] at r2
          rcases r2 with r2 | ⟨x, y, hx, _⟩
          · rw [← r2]
            rfl
          · cases hx
        · rcases r2 with r2 | ⟨x, y, hx, hy, _⟩
          · rw [← r2]
            simp [SqlVal.isCompatible, h1]
          · rw [hx] at h1
            rw [hy]
            simp only [SqlVal.isCompatible]
            simp only [SqlVal.sqltype, Option.some.injEq] at h1 ⊢
            simp [← h1]
    obtain ⟨vals, h1, h2⟩ := exists_list columns.length key
    refine ⟨vals, turso_collect h1 ?_, h1, ?_⟩
    · intro i w ty hw hty
      have hi : i < columns.length := (List.getElem?_eq_some_iff.1 hty).1
      exact (h2 i w hw _ ty (List.getElem?_eq_getElem (hlen ▸ hi)) hty).1
    · intro i v ty hv hty
      have hi : i < vals.length := h1 ▸ (List.getElem?_eq_some_iff.1 hty).1
      have hw := List.getElem?_eq_getElem hi
      obtain ⟨_, h3, h4⟩ := h2 i _ hw v ty hv hty
      refine ⟨_, ?_, h3⟩
      unfold Turso.rowGet
      rw [hw]
      simp only [h4, if_true]

/-- C67 for the whole result: the rows are read in their order, all or none; a failure is that of
the first row that cannot be fetched or read. -/
theorem turso_rows (c : TextCodecs) (columns : List SqlType)
    (fetched : List (Except RowErr (List Turso.Val))) :
    (∀ out, Turso.decodeRows c columns fetched = .ok out ↔
      out.length = fetched.length ∧ ∀ (i : Nat) f vs, fetched[i]? = some f → out[i]? = some vs →
        ∃ row, f = .ok row ∧ Turso.decodeRow c columns row = .ok vs) ∧
    (∀ e, Turso.decodeRows c columns fetched = .error e ↔
      ∃ i : Nat, ∃ f, fetched[i]? = some f ∧
        (f = .error e ∨ ∃ row, f = .ok row ∧ Turso.decodeRow c columns row = .error e) ∧
        ∀ j, j < i → ∀ g, fetched[j]? = some g →
          ∃ row vs, g = .ok row ∧ Turso.decodeRow c columns row = .ok vs) := by
  induction fetched with
  | nil =>
    constructor
    · intro out
      cases out <;> simp [Turso.decodeRows]
    · intro e
      simp [Turso.decodeRows]
  | cons f rest ih =>
    obtain ⟨ih1, ih2⟩ := ih
    -- what the first element is
    cases f with
    | error e0 =>
      constructor
      · intro out
        simp only [Turso.decodeRows, reduceCtorEq, false_iff]
        rintro ⟨hl, h⟩
        cases out with
        | nil => simp at hl
        | cons vs out =>
          obtain ⟨row, hr, _⟩ := h 0 _ vs rfl rfl
          cases hr
      · intro e
        simp only [Turso.decodeRows, Except.error.injEq]
        constructor
        · rintro rfl
          exact ⟨0, _, rfl, .inl rfl, by simp⟩
        · rintro ⟨i, g, hg, hfail, hbefore⟩
          cases i with
          | zero =>
            simp only [List.getElem?_cons_zero, Option.some.injEq] at hg
            subst hg
            rcases hfail with h | ⟨row, h, _⟩
            · exact Except.error.inj h
            · cases h
          | succ i =>
            obtain ⟨row, vs, h, _⟩ := hbefore 0 (by omega) _ rfl
            cases h
    | ok row =>
      cases hd : Turso.decodeRow c columns row with
      | error e0 =>
        constructor
        · intro out
          simp only [Turso.decodeRows, hd, reduceCtorEq, false_iff]
          rintro ⟨hl, h⟩
          cases out with
          | nil => simp at hl
          | cons vs out =>
            obtain ⟨row', hr, h⟩ := h 0 _ vs rfl rfl
            cases hr
            rw [hd] at h
            cases h
        · intro e
          simp only [Turso.decodeRows, hd, Except.error.injEq]
          constructor
          · rintro rfl
            exact ⟨0, _, rfl, .inr ⟨row, rfl, hd⟩, by simp⟩
          · rintro ⟨i, g, hg, hfail, hbefore⟩
            cases i with
            | zero =>
              simp only [List.getElem?_cons_zero, Option.some.injEq] at hg
              subst hg
              rcases hfail with h | ⟨row', h, h'⟩
              · cases h
              · cases h
                rw [hd] at h'
                exact Except.error.inj h'
            | succ i =>
              obtain ⟨row', vs, h, h'⟩ := hbefore 0 (by omega) _ rfl
              cases h
              rw [hd] at h'
              cases h'
      | ok vs =>
        have hstep : Turso.decodeRows c columns (.ok row :: rest) =
            match Turso.decodeRows c columns rest with
            | .error e => .error e
            | .ok more => .ok (vs :: more) := by
          simp only [Turso.decodeRows, hd]
          cases Turso.decodeRows c columns rest <;> rfl
        rw [hstep]
        constructor
        · intro out
          constructor
          · intro h
            cases hr : Turso.decodeRows c columns rest with
            | error e => rw [hr] at h; cases h
            | ok more =>
              rw [hr] at h
              cases h
              obtain ⟨h1, h2⟩ := (ih1 more).1 hr
              refine ⟨by simp [h1], ?_⟩
              intro i g ws hg hws
              cases i with
              | zero =>
                simp only [List.getElem?_cons_zero, Option.some.injEq] at hg hws
                subst hg hws
                exact ⟨row, rfl, hd⟩
              | succ i => exact h2 i g ws (by simpa using hg) (by simpa using hws)
          · rintro ⟨hl, h⟩
            cases out with
            | nil => simp at hl
            | cons ws out =>
              obtain ⟨row', hr, h'⟩ := h 0 _ ws rfl rfl
              cases hr
              rw [hd] at h'
              cases h'
              rw [(ih1 out).2 ⟨by simpa using hl, fun i g xs hg hxs =>
                h (i + 1) g xs (by simpa using hg) (by simpa using hxs)⟩]
        · intro e
          constructor
          · intro h
            cases hr : Turso.decodeRows c columns rest with
            | ok more => rw [hr] at h; cases h
            | error e' =>
              rw [hr] at h
              cases h
              obtain ⟨i, g, h1, h2, h3⟩ := (ih2 _).1 hr
              refine ⟨i + 1, g, by simpa using h1, h2, ?_⟩
              intro j hj g' hg'
              cases j with
              | zero =>
                simp only [List.getElem?_cons_zero, Option.some.injEq] at hg'
                exact ⟨row, vs, hg'.symm, hd⟩
              | succ j => exact h3 j (by omega) g' (by simpa using hg')
          · rintro ⟨i, g, hg, hfail, hbefore⟩
            cases i with
            | zero =>
              simp only [List.getElem?_cons_zero, Option.some.injEq] at hg
              subst hg
              rcases hfail with h | ⟨row', h, h'⟩
              · cases h
              · cases h
                rw [hd] at h'
                cases h'
            | succ i =>
              rw [(ih2 e).2 ⟨i, g, by simpa using hg, hfail, fun j hj g' hg' =>
                hbefore (j + 1) (by omega) g' (by simpa using hg')⟩]

/-- C67.  A row never gives a value of another type than it was asked for: the value is null or
has that type. -/
theorem turso_get_typed (vals : List SqlVal) (i : Nat) (ty : SqlType) (v : SqlVal) :
    Turso.rowGet vals i ty = .ok v ↔
      vals[i]? = some v ∧ (v = .null ∨ v.sqltype = some ty) := by
  unfold Turso.rowGet
  cases h : vals[i]? with
  | none => simp
  | some w =>
    simp only [Option.some.injEq]
    have : w.isCompatible ty true = true ↔ w = .null ∨ w.sqltype = some ty := by
      unfold SqlVal.isCompatible
      cases hs : w.sqltype with
      | none => cases w <;> simp_all [SqlVal.sqltype]
      | some t =>
        have : w ≠ .null := by
          rintro rfl
          cases hs
        simp only [this, false_or, Option.some.injEq, beq_iff_eq]
        exact eq_comm
    by_cases hc : w.isCompatible ty true = true
    · simp only [hc, if_true, Except.ok.injEq]
      constructor
      · rintro rfl
        exact ⟨rfl, this.1 hc⟩
      · exact fun h => h.1
    · simp only [if_neg hc, reduceCtorEq, false_iff]
      rintro ⟨rfl, hh⟩
      exact hc (this.2 hh)

/-- **C67 fails for NaN**: it is read back as NULL. -/
theorem turso_nan_violated (c : TextCodecs) (r : F64) (hr : r.isNaN = true) :
    ∃ row, TursoStored c [.real] [.real r] row ∧
      Turso.decodeRow c [.real] row = .ok [.null] := by
  refine ⟨[.null], ⟨rfl, ?_⟩, rfl⟩
  intro i v ty b hv hty hb
  cases i with
  | zero =>
    simp only [List.getElem?_cons_zero, Option.some.injEq] at hv hty hb
    subst hv hty hb
    exact ⟨_, _, rfl, rfl, .nan r hr⟩
  | succ i => simp at hv

/-- **C67 fails for integers**: an integer of more than 32 bits in a column declared `Int` is read,
without an error, as another number.  One that fits is read as it is. -/
theorem turso_int_violated (c : TextCodecs) (i : Int64) :
    ∃ j, Turso.decodeRow c [.int] [.integer i] = .ok [.int j] ∧
      (j.toInt = i.toInt ↔ -2147483648 ≤ i.toInt ∧ i.toInt ≤ 2147483647) := by
  obtain ⟨j, h1, h2⟩ := sqlite_int_violated c i
  refine ⟨j, ?_, h2⟩
  have : i.toInt32 = j := by
    have : Conv.ok (SqlVal.int i.toInt32) = .ok (.int j) := h1
    simpa using this
  rw [← this]
  rfl

/-- A row of a truth value, a key, a name and a date that fits its columns. -/
example : TursoFits [.bool, .int, .text, .date, .real]
    [.bool true, .int 7, .null, .date 20000, .real ⟨0x3ff0000000000000⟩] := by
  refine ⟨rfl, ?_⟩
  intro i v ty hv hty
  rcases i with _ | _ | _ | _ | _ | i
  all_goals simp only [List.getElem?_cons_zero, List.getElem?_cons_succ, List.getElem?_nil,
    Option.some.injEq, reduceCtorEq] at hv hty
  all_goals subst hv hty
  all_goals exact ⟨by first | exact .inl rfl | exact .inr rfl, by simp, by simp only [IsNaN]; decide⟩

example : ∃ vals, Turso.decodeRow exCodecs [.bool, .int, .text, .date]
      [.integer 1, .integer 7, .null, .text "xx"] = .ok vals ∧
    Turso.rowGet vals 1 .int = .ok (.int 7) ∧ Turso.rowGet vals 2 .text = .ok .null ∧
    Turso.rowGet vals 1 .bigInt = .error .cannotConvert :=
  ⟨[.bool true, .int 7, .null, .date 2], rfl, rfl, rfl, rfl⟩

end Butane.Props
