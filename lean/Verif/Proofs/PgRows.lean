/-
The rows after the statements butane sends to PostgreSQL.
-/
import Verif.Proofs.PgStmt

namespace Butane.PgP
open Butane Butane.PgData Spec
open Butane.Sql (Operand Cond SStmt)

variable {S : Server} {k : PgConn} {m : TModel} {pk : TField}

/-! ### What a statement may change -/

/-- Only the rows of a table are changed, and the constraints hold. -/
structure Changed (S : Server) (u u' : PDb) (n : String) (t : Table) (rows : List PRow) : Prop where
  sorted : u'.Sorted
  valid : valid S u' = true
  table : u'.lookup n = some { t with rows := rows }
  others : ∀ n', n' ≠ n → u'.lookup n' = u.lookup n'

theorem changed_putRows {u u' : PDb} {n : String} {t : Table} {rows : List PRow} (hs : u.Sorted)
    (h : putRows S u n t rows = some u') : Changed S u u' n t rows := by
  unfold putRows at h
  split at h
  · next hv =>
    cases h
    refine ⟨SMap.sorted_insert hs _ _, hv, ?_, fun n' hn => ?_⟩
    · rw [SMap.lookup_insert, if_pos rfl]
    · rw [SMap.lookup_insert, if_neg hn]
  · cases h

theorem changed_refl {u : PDb} {n : String} {t : Table} (hs : u.Sorted) (hv : valid S u = true)
    (hlk : u.lookup n = some t) : Changed S u u n t t.rows := ⟨hs, hv, hlk, fun _ _ => rfl⟩

theorem map_some_eq {α β : Type} {x : Option α} {f : α → β} {b : β} (h : x.map f = some b) :
    ∃ a, x = some a ∧ f a = b := Option.map_eq_some_iff.1 h

/-- Every statement changes only the rows of its table. -/
theorem execData_changed {u u' : PDb} (hs : u.Sorted) (hv : valid S u = true) {key : Int64}
    {ps : List PgVal} {s : SStmt} {r : Option PgVal} (h : execData S u key ps s = some (u', r)) :
    ∃ t rows, u.lookup (tableOf s) = some t ∧ Changed S u u' (tableOf s) t rows := by
  have put : ∀ {n t rows} {f : PDb → Option PgVal}, u.lookup n = some t →
      ((putRows S u n t rows).map fun db' => (db', f db')) = some (u', r) →
      ∃ t rows, u.lookup n = some t ∧ Changed S u u' n t rows := by
    intro n t rows f hlk he
    obtain ⟨a, h1, h2⟩ := map_some_eq he
    cases h2
    exact ⟨t, rows, hlk, changed_putRows hs h1⟩
  cases s with
  | select s => cases h
  | delete n c =>
    simp only [execData, tableOf] at h ⊢
    split at h
    · cases h
    · next t hlk =>
      split at h
      · exact put hlk h
      · cases h
  | update n sets c =>
    simp only [execData, tableOf] at h ⊢
    split at h
    · cases h
    · next t hlk =>
      split at h
      · split at h
        · exact put hlk h
        · cases h
      · cases h
  | insert n cols vals conf ret =>
    simp only [execData, tableOf] at h ⊢
    split at h
    · cases h
    · next t hlk =>
      split at h
      · split at h
        · cases h
        · split at h
          · cases h
          · split at h
            · split at h
              · exact put hlk h
              · split at h
                · split at h
                  · split at h
                    · cases h
                      exact ⟨t, t.rows, hlk, changed_refl hs hv hlk⟩
                    · split at h
                      · split at h
                        · exact put hlk h
                        · cases h
                      · cases h
                  · exact put hlk h
                · cases h
            · cases h
      · cases h

/-! ### Pairs -/

theorem lookup_zip_none {β : Type} {cols : List String} {ps : List β} {n : String} (h : n ∉ cols) :
    (cols.zip ps).lookup n = none := by
  induction cols generalizing ps with
  | nil => rfl
  | cons c cols ih =>
    cases ps with
    | nil => rfl
    | cons p ps =>
      simp only [List.mem_cons, not_or] at h
      simp only [List.zip_cons_cons, List.lookup_cons]
      rw [show (n == c) = false by simpa using h.1]
      exact ih h.2

theorem lookup_zip_mem {β : Type} {cols : List String} {ps : List β} {n : String} {v : β}
    (h : (cols.zip ps).lookup n = some v) : n ∈ cols := by
  by_cases hc : n ∈ cols
  · exact hc
  · rw [lookup_zip_none hc] at h; cases h

theorem lookup_zip_map {β : Type} (f : String → β) {cols : List String} {n : String} (h : n ∈ cols) :
    (cols.zip (cols.map f)).lookup n = some (f n) := by
  induction cols with
  | nil => cases h
  | cons c cols ih =>
    simp only [List.map_cons, List.zip_cons_cons, List.lookup_cons]
    by_cases e : n = c
    · subst e; simp
    · rw [show (n == c) = false by simpa using e]
      exact ih ((List.mem_cons.1 h).resolve_left e)

theorem mapOk_some {α β : Type} {f : α → Option β} : ∀ {l : List α} {l' : List β},
    Sql.mapOk f l = some l' → AllMatch (fun a b => f a = some b) l l'
  | [], l', h => by
    cases h
    exact .nil
  | a :: l, l', h => by
    simp only [Sql.mapOk] at h
    split at h
    · next h1 h2 =>
      cases h
      exact .cons h1 (mapOk_some h2)
    · cases h

theorem mapOk_congr {α β : Type} {f g : α → Option β} {l : List α} (h : ∀ a ∈ l, f a = g a) :
    Sql.mapOk f l = Sql.mapOk g l := by
  induction l with
  | nil => rfl
  | cons a l ih =>
    simp only [Sql.mapOk, h a (List.mem_cons_self ..), ih fun b hb => h b (List.mem_cons_of_mem _ hb)]

/-! ### New rows -/

theorem newRow_col {key : Int64} {t : Table} (hn : (names t).Nodup) {given : List (String × PgVal)}
    {new : PRow} (h : newRow key t given = some new) {d : Column} (hd : d ∈ t.cols) :
    newValue key given d = some (new d.name) := by
  unfold newRow at h
  split at h
  · next vs hvs =>
    cases h
    have hm := mapOk_some hvs
    clear hvs
    have hn' : (t.cols.map (·.name)).Nodup := hn
    generalize t.cols = cols at *
    clear hn
    induction hm with
    | nil => cases hd
    | cons h1 hr ih =>
      next e p l l' =>
      obtain ⟨v, e1, e2⟩ := map_some_eq h1
      subst e2
      simp only [List.map_cons, List.nodup_cons] at hn'
      simp only [List.lookup_cons]
      rcases List.mem_cons.1 hd with rfl | hd'
      · simp [e1]
      · have hne : (d.name == e.name) = false := by
          simp only [beq_eq_false_iff_ne, ne_eq]
          intro he
          exact hn'.1 (he ▸ List.mem_map_of_mem (f := (·.name)) hd')
        rw [hne]
        exact ih hd' hn'.2
  · cases h

theorem newRow_given {key : Int64} {t : Table} (hn : (names t).Nodup) {given : List (String × PgVal)}
    {new : PRow} (h : newRow key t given = some new) {c : String} (hc : c ∈ names t) {v : PgVal}
    (hv : given.lookup c = some v) : new c = v := by
  obtain ⟨d, hd, rfl⟩ := List.mem_map.1 hc
  have := newRow_col hn h hd
  simp only [newValue, hv, Option.some.injEq] at this
  exact this.symm

/-! ### Parameters -/

theorem operand_params (t : Table) (rows : List (String × PRow)) (ps : List PgVal) (n : Nat)
    (h : ps.length = n) : Sql.mapOk (operand t ps rows) ((List.range n).map .param) = some ps := by
  subst h
  have : ∀ (l : List Nat), (∀ i ∈ l, i < ps.length) →
      Sql.mapOk (operand t ps rows) (l.map .param) = some (l.map fun i => (ps[i]?).getD .null) := by
    intro l
    induction l with
    | nil => intro _; rfl
    | cons i l ih =>
      intro hl
      have hi := hl i (List.mem_cons_self ..)
      rw [List.map_cons, Sql.mapOk, ih fun j hj => hl j (List.mem_cons_of_mem _ hj)]
      simp [operand, List.getElem?_eq_getElem hi]
  rw [this _ (by simp)]
  congr 1
  apply List.ext_getElem
  · simp
  · intro i h1 h2
    simp [List.getElem?_eq_getElem h2]

theorem operand_excluded (t : Table) (ps : List PgVal) {table : String} (ht : table ≠ "excluded")
    (r new : PRow) {cs : List String} (hc : ∀ c ∈ cs, c ∈ names t) :
    Sql.mapOk (operand t ps [(table, r), ("excluded", new)])
        (cs.map fun c => .col (some "excluded") c) = some (cs.map new) := by
  induction cs with
  | nil => rfl
  | cons c cs ih =>
    have h1 := hc c (List.mem_cons_self ..)
    rw [List.map_cons, Sql.mapOk, ih fun c' h' => hc c' (List.mem_cons_of_mem _ h')]
    simp [operand, List.filter_cons, Ne.symm ht, h1]

theorem setsOf_operands (t : Table) (rows : List (String × PRow))
    (cs : List String) (n : Nat) (ps : List PgVal) (h : n + cs.length ≤ ps.length) :
    Sql.mapOk (operand t ps rows) ((setsOf cs n).map (·.2)) = some ((ps.drop n).take cs.length) := by
  induction cs generalizing n with
  | nil => simp [setsOf, Sql.mapOk]
  | cons c cs ih =>
    simp only [List.length_cons] at h
    have hn : n < ps.length := by omega
    simp only [setsOf, List.map_cons, Sql.mapOk, operand, List.getElem?_eq_getElem hn]
    rw [ih (n + 1) (by omega)]
    simp only
    rw [List.length_cons, List.drop_eq_getElem_cons hn, List.take_succ_cons]

theorem setsOf_names (cs : List String) (n : Nat) : (setsOf cs n).map (·.1) = cs := by
  induction cs generalizing n with
  | nil => rfl
  | cons c cs ih => simp [setsOf, ih]

/-! ### The row of the key -/

/-- After the statement there is exactly one row with the key, which has the given values, and the other
rows are the same in the same order. -/
structure Put (t : Table) (rows : List PRow) (pk : String) (a : PgVal) (given : List (String × PgVal)) :
    Prop where
  others : rows.filter (fun r => !decide (r pk = a)) = t.rows.filter fun r => !decide (r pk = a)
  row : ∃ r, rows.filter (fun r => decide (r pk = a)) = [r] ∧ ∀ c v, given.lookup c = some v → r c = v

theorem filter_key_nil {rows : List PRow} {pk : String} {a : PgVal} (h : ∀ r ∈ rows, r pk ≠ a) :
    rows.filter (fun r => decide (r pk = a)) = [] := by
  rw [List.filter_eq_nil_iff]
  intro r hr
  simpa using h r hr

theorem filter_key_all {rows : List PRow} {pk : String} {a : PgVal} (h : ∀ r ∈ rows, r pk ≠ a) :
    rows.filter (fun r => !decide (r pk = a)) = rows := by
  rw [List.filter_eq_self]
  intro r hr
  simpa using h r hr

theorem filter_key_one {rows : List PRow} {pk : String} {a : PgVal}
    (hu : rows.Pairwise fun r s => r pk ≠ s pk) {r : PRow} (hr : r ∈ rows) (e : r pk = a) :
    rows.filter (fun r => decide (r pk = a)) = [r] := by
  induction rows with
  | nil => cases hr
  | cons s rows ih =>
    cases hu with
    | cons h1 h2 =>
      rcases List.mem_cons.1 hr with rfl | hr'
      · rw [List.filter_cons_of_pos (by simpa using e), filter_key_nil fun s hs he => h1 s hs (e.trans he.symm)]
      · rw [List.filter_cons_of_neg (by simpa using fun he => h1 r hr' (he.trans e.symm)), ih h2 hr']

theorem put_append {t : Table} {new : PRow} {pk : String} {a : PgVal} {given : List (String × PgVal)}
    (ha : new pk = a) (hu : (t.rows ++ [new]).Pairwise fun r s => r pk ≠ s pk)
    (hg : ∀ c v, given.lookup c = some v → new c = v) :
    Put t (t.rows ++ [new]) pk a given ∧ ∀ r ∈ t.rows, r pk ≠ a := by
  have hno : ∀ r ∈ t.rows, r pk ≠ a := by
    intro r hr e
    exact (List.pairwise_append.1 hu).2.2 r hr new (List.mem_singleton_self _) (e.trans ha.symm)
  refine ⟨⟨?_, new, ?_, hg⟩, hno⟩
  · simp [List.filter_append, ha]
  · rw [List.filter_append, filter_key_nil hno]
    simp [ha]

theorem put_map {t : Table} {pk : String} {a : PgVal} {given sets : List (String × PgVal)}
    (hu : t.rows.Pairwise fun r s => r pk ≠ s pk) (hs : ∀ v, sets.lookup pk = some v → v = a)
    (hg : ∀ c v, given.lookup c = some v → sets.lookup c = some v) {r : PRow} (hr : r ∈ t.rows)
    (e : r pk = a) :
    Put t (t.rows.map fun r => if r pk = a then setRow sets r else r) pk a given := by
  have hkey : ∀ s : PRow, (if s pk = a then setRow sets s else s) pk = a ↔ s pk = a := by
    intro s
    split
    · next h =>
      simp only [setRow, h, iff_true]
      cases hl : sets.lookup pk with
      | none => simp
      | some v => simpa using hs v hl
    · next h => simp [h]
  have h1 : ∀ l : List PRow, (l.map fun r => if r pk = a then setRow sets r else r).filter
      (fun r => !decide (r pk = a)) = l.filter fun r => !decide (r pk = a) := by
    intro l
    induction l with
    | nil => rfl
    | cons s l ih =>
      rw [List.map_cons, List.filter_cons, List.filter_cons, ih]
      have := hkey s
      by_cases hs : s pk = a
      · simp [hs, this.2 hs] at this ⊢
        exact this
      · simp [hs]
  have h2 : ∀ l : List PRow, (l.map fun r => if r pk = a then setRow sets r else r).filter
      (fun r => decide (r pk = a)) = (l.filter fun r => decide (r pk = a)).map (setRow sets) := by
    intro l
    induction l with
    | nil => rfl
    | cons s l ih =>
      rw [List.map_cons, List.filter_cons, List.filter_cons, ih]
      have := hkey s
      by_cases hs : s pk = a
      · simp [hs, this.2 hs] at this ⊢
        exact this
      · simp [hs]
  refine ⟨h1 _, setRow sets r, ?_, ?_⟩
  · rw [h2, filter_key_one hu hr e]
    rfl
  · intro c v hv
    simp [setRow, hg c v hv]

/-! ### The statements -/

theorem data_insert {u u' : PDb} {table : String} {t : Table} (hlk : u.lookup table = some t)
    {cols : List String} {ps : List PgVal} (hl : ps.length = cols.length) {key : Int64} {pkcol : String}
    {r : Option PgVal}
    (h : execData S u key ps (.insert table cols ((List.range cols.length).map .param) none
      (some pkcol)) = some (u', r)) :
    ∃ new, newRow key t (cols.zip ps) = some new ∧ rowOk S t new = true ∧
      putRows S u table t (t.rows ++ [new]) = some u' ∧ r = some (new pkcol) := by
  simp only [execData, hlk, operand_params t [] ps cols.length hl] at h
  split at h
  · split at h
    · cases h
    · next new hnew =>
      split at h
      · next hr =>
        obtain ⟨a, h1, h2⟩ := map_some_eq h
        cases h2
        exact ⟨new, hnew, hr, h1, rfl⟩
      · cases h
  · cases h

theorem data_upsert {u u' : PDb} {table pkcol : String} {t : Table} (hlk : u.lookup table = some t)
    (ht : table ≠ "excluded") {cols : List String} (hcols : ∀ c ∈ cols, c ∈ names t) {ps : List PgVal}
    (hl : ps.length = cols.length) {key : Int64} {r : Option PgVal}
    (h : execData S u key ps (.insert table cols ((List.range cols.length).map .param) (some ⟨pkcol,
        if cols.length > 1 then some (cols, cols.map fun c => .col (some "excluded") c) else none⟩)
        none) = some (u', r)) :
    ∃ new, newRow key t (cols.zip ps) = some new ∧ rowOk S t new = true ∧
      if t.rows.any fun r => same S (r pkcol) (new pkcol) then
        if cols.length > 1 then
          putRows S u table t (t.rows.map fun r => if same S (r pkcol) (new pkcol) then
            setRow (cols.zip (cols.map new)) r else r) = some u'
        else u' = u
      else putRows S u table t (t.rows ++ [new]) = some u' := by
  simp only [execData, hlk, operand_params t [] ps cols.length hl] at h
  split at h
  · split at h
    · cases h
    · next new hnew =>
      split at h
      · next hr =>
        refine ⟨new, hnew, hr, ?_⟩
        split at h
        · split at h
          · next hany =>
            rw [if_pos hany]
            by_cases hc : cols.length > 1
            · simp only [hc, if_true] at h ⊢
              split at h
              · have e : Sql.mapOk (fun r => if same S (r pkcol) (new pkcol) = true then
                    (Sql.mapOk (operand t ps [(table, r), ("excluded", new)])
                      (cols.map fun c => .col (some "excluded") c)).map fun ws => setRow (cols.zip ws) r
                    else some r) t.rows = some (t.rows.map fun r => if same S (r pkcol) (new pkcol) then
                      setRow (cols.zip (cols.map new)) r else r) := by
                  refine mapOk_ok fun r _ => ?_
                  rw [operand_excluded t ps ht r new hcols]
                  split <;> rfl
                rw [e] at h
                simp only at h
                obtain ⟨a, h1, h2⟩ := map_some_eq h
                cases h2
                exact h1
              · cases h
            · simp only [hc, if_false] at h ⊢
              cases h
              rfl
          · next hany =>
            rw [if_neg hany]
            obtain ⟨a, h1, h2⟩ := map_some_eq h
            cases h2
            exact h1
        · cases h
      · cases h
  · cases h

theorem data_update_eq {u : PDb} {table : String} {t : Table} (hlk : u.lookup table = some t)
    {ty : PgType} (hk : Keys S t pk ty) {cols : List String} (hcols : ∀ c ∈ cols, c ∈ names t)
    {ps : List PgVal} {a : PgVal} (hl : ps.length = cols.length) (hty : ofType ty a = true)
    (hn : a ≠ .null) (key : Int64) :
    execData S u key (ps ++ [a]) (.update table (setsOf cols 0) (keyCond pk.name (.param cols.length))) =
      (putRows S u table t (t.rows.map fun r => if r pk.name = a then setRow (cols.zip ps) r else r)).map
        fun u' => (u', none) := by
  have h1 : ((setsOf cols 0).all fun s => (names t).contains s.1) = true := by
    rw [List.all_eq_true]
    intro s hs
    have : s.1 ∈ (setsOf cols 0).map (·.1) := List.mem_map_of_mem hs
    rw [setsOf_names] at this
    simpa using hcols _ this
  have h2 : ∀ rows, Sql.mapOk (operand t (ps ++ [a]) rows) ((setsOf cols 0).map (·.2)) = some ps := by
    intro rows
    rw [setsOf_operands t rows cols 0 (ps ++ [a]) (by simp [hl])]
    simp [← hl]
  have ho : ∀ e, Sql.evalOperand ((ps ++ [a]).map seen) e (.param cols.length) = some (seen a) := by
    intro e
    simp [Sql.evalOperand, ← hl]
  simp only [execData, hlk, h1, if_true]
  rw [mapOk_ok (g := fun r => if r pk.name = a then setRow (cols.zip ps) r else r) (l := t.rows)]
  intro r hr
  rw [holdsFor_is u table hk hty hn ho hr, h2, setsOf_names]
  by_cases hra : r pk.name = a <;> simp [hra]

theorem data_delete_eq {u : PDb} {table : String} {t : Table} (hlk : u.lookup table = some t)
    {ty : PgType} (hk : Keys S t pk ty) {ps : List PgVal} {a : PgVal} {o : Operand}
    (ho : ∀ e, Sql.evalOperand (ps.map seen) e o = some (seen a)) (hty : ofType ty a = true)
    (hn : a ≠ .null) (key : Int64) :
    execData S u key ps (.delete table (keyCond pk.name o)) =
      (putRows S u table t (t.rows.filter fun r => !decide (r pk.name = a))).map fun u' => (u', none) := by
  simp only [execData, hlk]
  have e : Sql.mapOk (fun r => (holdsFor S u ps table t (keyCond pk.name o) r).map fun b =>
      if b then none else some r) t.rows =
      some (t.rows.map fun r => if r pk.name = a then none else some r) := by
    refine mapOk_ok fun r hr => ?_
    rw [holdsFor_is u table hk hty hn ho hr]
    by_cases hra : r pk.name = a <;> simp [hra]
  rw [e]
  have : (t.rows.map fun r => if r pk.name = a then none else some r).filterMap id =
      t.rows.filter fun r => !decide (r pk.name = a) := by
    generalize t.rows = l
    induction l with
    | nil => rfl
    | cons s l ih =>
      rw [List.map_cons, List.filter_cons, ← ih]
      by_cases hs : s pk.name = a <;> simp [hs]
  simp only [this]

end Butane.PgP
