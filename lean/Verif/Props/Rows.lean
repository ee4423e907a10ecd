import Verif.Spec.Rows
import Verif.Proofs.Convert
/-
Properties C48 and C59: buffered rows.
-/
namespace Butane.Props
open Butane Butane.Spec

/-! ### C48 -/

theorem rowResults_nexts {T : Type} (cs : List RowCall) (r : VecRows T) :
    ((rowResults r cs).filter (·.1 = .next)).map (·.2) =
      (List.range' r.idx (nexts cs)).map fun k => r.rows[k]? := by
  induction cs generalizing r with
  | nil => rfl
  | cons c cs ih =>
    cases c with
    | next =>
      have := ih r.next.2
      simp only [rowResults, List.filter_cons, decide_true, if_true, List.map_cons, this,
        nexts, List.length_cons, List.range'_succ]
      rfl
    | current =>
      have := ih r
      simp only [rowResults, List.filter_cons, nexts] at *
      simpa using this

/-- C48: in every history of calls, the calls of `next` return each row once, in order, and then
nothing, forever. -/
theorem next_each_once {T : Type} (rows : List T) (cs : List RowCall) :
    ((rowResults (VecRows.new rows) cs).filter (·.1 = .next)).map (·.2) =
      (rows.map some ++ List.replicate (nexts cs) none).take (nexts cs) := by
  rw [rowResults_nexts]
  apply List.ext_getElem?
  intro k
  simp only [VecRows.new, List.getElem?_map, List.getElem?_take]
  by_cases hk : k < nexts cs
  · rw [if_pos hk, List.getElem?_range' (by omega)]
    simp only [Option.map_some, Nat.one_mul, Nat.zero_add]
    by_cases hr : k < rows.length
    · rw [List.getElem?_append_left (by simpa using hr)]
      simp [hr]
    · rw [List.getElem?_append_right (by simp; omega)]
      rw [List.getElem?_eq_none (by omega)]
      simp [List.getElem?_replicate]
      omega
  · rw [if_neg hk, List.getElem?_eq_none (by simp; omega)]
    rfl

example : rowResults (VecRows.new [10, 20]) [.next, .current, .next, .next, .next] =
    [(.next, some 10), (.current, some 20), (.next, some 20), (.next, none), (.next, none)] := rfl

/-- `current` returns the row the following `next` will return. -/
theorem current_is_next {T : Type} (r : VecRows T) : r.current = r.next.1 := rfl

/-- **C48 fails for `current`**: after `next` has returned a row, `current` does not return that
row, for every result without two equal consecutive rows; before the first `next` it returns the
first row. -/
theorem current_violated {T : Type} (rows : List T) (k : Nat)
    (hd : ∀ i, i < rows.length → rows[i]? ≠ rows[i + 1]?) (hk : k < rows.length) :
    (VecRows.mk rows k).next.1 = rows[k]? ∧ (VecRows.mk rows k).next.2.current ≠ rows[k]? :=
  ⟨rfl, fun h => hd k hk h.symm⟩

example : ∀ i, i < [1, 2, 1].length → [1, 2, 1][i]? ≠ [1, 2, 1][i + 1]? := by decide

/-! ### C59: rows read through the adapter -/

theorem collect_get {α : Type} {l : List (Except RowErr α)} {as : List α} (h : collectRows l = .ok as) :
    l = as.map .ok := by
  induction l generalizing as with
  | nil => cases h; rfl
  | cons x l ih =>
    cases x with
    | error e => cases h
    | ok a =>
      simp only [collectRows] at h
      split at h
      · next bs hb =>
        cases h
        rw [ih hb]
        rfl
      · cases h

/-- A buffered row has the length of the original and gives, for every column and its type, the
value the original gives: as long as the original gives values of the type asked for. -/
theorem buffered_row {original : BRow} {columns : List SqlType} {vals : List SqlVal}
    (h : vecRowNew original columns = .ok vals)
    (hty : ∀ i ty v, original.get i ty = .ok v → v = .null ∨ v.sqltype = some ty) :
    (vecRow vals).len = original.len ∧ ∀ i ty, columns[i]? = some ty →
      ∃ v, original.get i ty = .ok v ∧ (vecRow vals).get i ty = .ok v := by
  unfold vecRowNew at h
  split at h
  · cases h
  next hlen =>
  have hlen : original.len = columns.length := by simpa using hlen
  have := collect_get h
  have hl : vals.length = columns.length := by
    have := congrArg List.length this
    simpa using this.symm
  refine ⟨by simp [vecRow, hl, hlen], fun i ty hi => ?_⟩
  have hi' := congrArg (·[i]?) this
  simp only [List.getElem?_map, List.getElem?_zipIdx, hi, Option.map_some, Nat.zero_add] at hi'
  cases hv : vals[i]? with
  | none => rw [hv] at hi'; cases hi'
  | some v =>
    rw [hv] at hi'
    simp only [Option.map_some, Option.some.injEq] at hi'
    refine ⟨v, hi', ?_⟩
    simp only [vecRow, vecRowGet, hv, SqlVal.isCompatible]
    rcases hty i ty v hi' with rfl | h1
    · rfl
    · simp [h1]

theorem sqliteBRow_type (codecs : TextCodecs) (row : List SqliteVal) (i : Nat) (ty : SqlType)
    (v : SqlVal) (h : (sqliteBRow codecs row).get i ty = .ok v) : v = .null ∨ v.sqltype = some ty := by
  simp only [sqliteBRow] at h
  split at h
  · cases h
  · next b hb =>
    split at h
    · next w hw =>
      cases h
      by_cases hn : b = .null
      · subst hn
        left
        simp only [fromSqlite, ↓reduceIte] at hw
        cases hw
        rfl
      · right
        simp only [fromSqlite, hn, ↓reduceIte] at hw
        cases ty <;> cases b <;>
          simp only [SqliteVal.asI64, SqliteVal.asF64, SqliteVal.asStr, SqliteVal.asBlob, Conv.bind,
            parsed] at hw <;>
          first
            | (cases hw; rfl)
            | (cases hw; done)
            | (split at hw <;> first | (cases hw; done) | (cases hw; rfl))
    · cases h
    · cases h

/-- C59: if every value can be read, a query through the async adapter of an SQLite connection
gives the same rows in the same order as the connection itself, with the same value for each
column; if a value cannot be read, the query fails. -/
theorem adapter_rows (codecs : TextCodecs) (columns : List SqlType) (rows : List (List SqliteVal)) :
    match vecFromRows columns (rows.map fun r => .ok (sqliteBRow codecs r)) with
    | .ok vals => AllMatch (fun row v => row.length = columns.length ∧ v.length = columns.length ∧
        ∀ i ty, columns[i]? = some ty →
          ∃ x, (sqliteBRow codecs row).get i ty = .ok x ∧ (vecRow v).get i ty = .ok x) rows vals
    | .error _ => ∃ row ∈ rows, row.length ≠ columns.length ∨
        ∃ i ty e, columns[i]? = some ty ∧ (sqliteBRow codecs row).get i ty = .error e := by
  induction rows with
  | nil => exact .nil
  | cons row rows ih =>
    simp only [List.map_cons, vecFromRows]
    cases h1 : vecRowNew (sqliteBRow codecs row) columns with
    | error e =>
      refine ⟨row, List.mem_cons_self, ?_⟩
      unfold vecRowNew at h1
      split at h1
      · next hne => exact .inl hne
      · right
        have key : ∀ (l : List (Except RowErr SqlVal)), collectRows l = .error e →
            ∃ (i : Nat) (e' : RowErr), l[i]? = some (.error e') := by
          intro l
          induction l with
          | nil => intro h; cases h
          | cons x l ih =>
            cases x with
            | error e' => exact fun _ => ⟨0, e', rfl⟩
            | ok a =>
              intro h
              simp only [collectRows] at h
              split at h
              · cases h
              · next e2 he =>
                obtain ⟨i, e', hi⟩ := ih (by rw [he]; simpa using h)
                exact ⟨i + 1, e', by simpa using hi⟩
        obtain ⟨i, e', hi⟩ := key _ h1
        simp only [List.getElem?_map, List.getElem?_zipIdx, Option.map_map,
          Option.map_eq_some_iff, Function.comp] at hi
        obtain ⟨ty, h2, h3⟩ := hi
        exact ⟨i, ty, e', h2, by simpa using h3⟩
    | ok v =>
      simp only
      cases h2 : vecFromRows columns (rows.map fun r => .ok (sqliteBRow codecs r)) with
      | error e =>
        rw [h2] at ih
        obtain ⟨r, hr, h3⟩ := ih
        exact ⟨r, List.mem_cons_of_mem _ hr, h3⟩
      | ok more =>
        rw [h2] at ih
        obtain ⟨h3, h4⟩ := buffered_row h1 (sqliteBRow_type codecs row)
        have h5 : row.length = columns.length := by
          unfold vecRowNew at h1
          split at h1
          · cases h1
          · next hne => simpa [sqliteBRow] using hne
        exact .cons ⟨h5, by rw [← h5]; exact h3, h4⟩ ih

/-- A reader that looks at the columns of a query with their types only. -/
def ReadsColumns {β : Type} (columns : List SqlType) (f : BRow → Except RowErr β) : Prop :=
  ∀ r r' : BRow, r.len = r'.len →
    (∀ i ty, columns[i]? = some ty → r.get i ty = r'.get i ty) → f r = f r'

/-- C59: objects read from the buffered rows are the objects read from the rows of the connection,
whatever the reader does with the columns of the query. -/
theorem adapter_objects {β : Type} (codecs : TextCodecs) (columns : List SqlType)
    (f : BRow → Except RowErr β) (hf : ReadsColumns columns f) (rows : List (List SqliteVal))
    (vals : List (List SqlVal))
    (h : vecFromRows columns (rows.map fun r => .ok (sqliteBRow codecs r)) = .ok vals) :
    mapRows f (vals.map fun v => .ok (vecRow v)) =
      mapRows f (rows.map fun r => .ok (sqliteBRow codecs r)) := by
  have hm := adapter_rows codecs columns rows
  rw [h] at hm
  clear h
  induction hm with
  | nil => rfl
  | cons h1 _ ih =>
    obtain ⟨h2, h3, h4⟩ := h1
    simp only [List.map_cons, mapRows, ih]
    rw [hf (vecRow _) (sqliteBRow codecs _) (h3.trans h2.symm) ?_]
    intro i ty hi
    obtain ⟨x, h5, h6⟩ := h4 i ty hi
    rw [h5, h6]

/-- Reading an integer and a text, as a generated `from_row` does. -/
example : ReadsColumns [.int, .text] (fun r =>
    match r.get 0 .int, r.get 1 .text with
    | .ok a, .ok b => .ok (a, b)
    | .error e, _ => .error e
    | _, .error e => .error e) := by
  intro r r' _ h
  simp only [h 0 .int rfl, h 1 .text rfl]

example (codecs : TextCodecs) :
    vecFromRows [.int, .text] ([[.integer 1, .text "a"], [.null, .text "b"]].map
      fun r => .ok (sqliteBRow codecs r)) = .ok [[.int 1, .text "a"], [.null, .text "b"]] := rfl

/-- The row of the wrong length and the value of the wrong kind. -/
example (codecs : TextCodecs) :
    vecFromRows [.int] ([[.integer 1, .text "a"]].map fun r => .ok (sqliteBRow codecs r)) =
      .error .bounds := rfl

/-- C59: every row of a result that ends in an error is lost: the query fails as a whole. -/
theorem fetch_error (columns : List SqlType) (rows : Fetched) (e : RowErr)
    (h : Except.error e ∈ rows) : ∃ e', vecFromRows columns rows = .error e' := by
  induction rows with
  | nil => cases h
  | cons r rows ih =>
    cases r with
    | error e' => exact ⟨e', rfl⟩
    | ok r =>
      rcases List.mem_cons.1 h with h | h
      · cases h
      · simp only [vecFromRows]
        obtain ⟨e', h1⟩ := ih h
        cases vecRowNew r columns with
        | error e2 => exact ⟨e2, rfl⟩
        | ok v => exact ⟨e', by simp only [h1]⟩

end Butane.Props
