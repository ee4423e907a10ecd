/-
What executing the generated statements does.
-/
import Verif.Proofs.Stmt
import Verif.Spec.Data

namespace Butane
open Sql Spec

/-! ### Values -/

theorem evalOperands_params (env : List Scope) (ps : List DbVal) (n k : Nat) (h : n + k ≤ ps.length) :
    evalOperands ps env ((List.range' n k).map .param) = some ((ps.drop n).take k) := by
  induction k generalizing n with
  | zero => simp [evalOperands]
  | succ k ih =>
    have hn : n < ps.length := by omega
    rw [List.range'_succ, List.map_cons, evalOperands, ih (n + 1) (by omega)]
    simp only [evalOperand]
    rw [List.getElem?_eq_getElem hn]
    simp only
    rw [List.drop_eq_getElem_cons hn, List.take_succ_cons]

theorem evalOperands_all (env : List Scope) (ps : List DbVal) (k : Nat) (h : ps.length = k) :
    evalOperands ps env ((List.range k).map .param) = some ps := by
  rw [List.range_eq_range', evalOperands_params env ps 0 k (by omega)]
  simp [← h]

theorem evalSets_params {ps : List DbVal} (env : List Scope) {cols : List String} {vals : List SqlVal}
    {n : Nat} (hl : vals.length = cols.length) (h : Seg ps n vals) :
    evalSets ps env (setsOf cols n) = some (cols.zip (vals.map toDb)) := by
  induction cols generalizing n vals with
  | nil => simp [setsOf, evalSets]
  | cons c cs ih =>
    cases vals with
    | nil => simp at hl
    | cons v vs =>
      have h0 := h 0 v rfl
      have h1 : Seg ps (n + 1) vs := by
        intro i w hi
        have := h (i + 1) w (by simpa using hi)
        rwa [show n + 1 + i = n + (i + 1) by omega]
      simp only [setsOf, evalSets, evalOperand]
      rw [ih (by simpa using hl) h1]
      rw [Nat.add_zero] at h0
      rw [h0]
      rfl

theorem lookup_zip_mem {cols : List String} (hnd : cols.Nodup) {vs : List DbVal} {i : Nat}
    {c : String} {v : DbVal} (hc : cols[i]? = some c) (hv : vs[i]? = some v) :
    (cols.zip vs).lookup c = some v := by
  induction cols generalizing vs i with
  | nil => simp at hc
  | cons a cs ih =>
    cases vs with
    | nil => simp at hv
    | cons w ws =>
      rw [List.nodup_cons] at hnd
      cases i with
      | zero =>
        simp only [List.getElem?_cons_zero, Option.some.injEq] at hc hv
        subst hc hv
        simp [List.lookup]
      | succ i =>
        simp only [List.getElem?_cons_succ] at hc hv
        have : c ≠ a := by
          rintro rfl
          exact hnd.1 (List.mem_of_getElem? hc)
        rw [List.zip_cons_cons, List.lookup_cons, beq_eq_false_iff_ne.2 this]
        exact ih hnd.2 hc hv

theorem lookup_zip_not_mem {cols : List String} {vs : List DbVal} {c : String} (h : c ∉ cols) :
    (cols.zip vs).lookup c = none := by
  induction cols generalizing vs with
  | nil => simp
  | cons a cs ih =>
    cases vs with
    | nil => simp
    | cons w ws =>
      rw [List.mem_cons, not_or] at h
      rw [List.zip_cons_cons, List.lookup_cons, beq_eq_false_iff_ne.2 h.1]
      exact ih h.2

theorem stored_overlay {cols : List String} (hnd : cols.Nodup) (base : Row) (vals : List SqlVal) :
    Stored base cols vals (overlay base (cols.zip (vals.map toDb))) := by
  refine ⟨rfl, ?_, ?_⟩
  · intro i c v hc hv
    simp only [overlay]
    rw [lookup_zip_mem hnd hc (v := toDb v) (by simp [hv])]
  · intro c hc
    simp only [overlay]
    rw [lookup_zip_not_mem hc]

theorem sameKey_iff {rel : Compare} {a b : DbVal} : sameKey rel a b = true ↔ Equal rel a b := by
  unfold sameKey Equal
  cases a <;> cases b <;> simp [cmp3]

theorem not_any_sameKey {rel : Compare} {rows : List Row} {k : String} {x : DbVal}
    (h : ¬∃ r ∈ rows, Equal rel (r.val k) x) :
    ¬(rows.any fun r => sameKey rel (r.val k) x) = true := by
  rw [List.any_eq_true]
  rintro ⟨r, hr, he⟩
  exact h ⟨r, hr, sameKey_iff.1 he⟩

theorem all_mem {cols : List String} {p : String → Bool} (h : ∀ c ∈ cols, p c = true) :
    cols.all p = true := List.all_eq_true.2 h

/-! ### INSERT -/

theorem exec_insert {rel : Compare} {env : Env} {db : Db} {table : String} {cols : List String}
    {vals : List SqlVal} (hnd : cols.Nodup) (hl : vals.length = cols.length)
    (hdb : db.has table = true)
    (hcols : ∀ c ∈ cols, (env.template table (db.rows table)).has c = true)
    {ret : Option String} (hret : ∀ c ∈ ret, (env.template table (db.rows table)).has c = true) :
    ∃ new, Stored (env.template table (db.rows table)) cols vals new ∧
      ((∃ r ∈ db.rows table, Equal rel (r.val (env.key table)) (new.val (env.key table))) →
        execStmt rel env db (vals.map toDb)
          (.insert table cols ((List.range cols.length).map .param) none ret) = none) ∧
      ((¬∃ r ∈ db.rows table, Equal rel (r.val (env.key table)) (new.val (env.key table))) →
        execStmt rel env db (vals.map toDb)
          (.insert table cols ((List.range cols.length).map .param) none ret) =
          some (setRows db table (db.rows table ++ [new]), 1, ret.map new.val)) := by
  refine ⟨_, stored_overlay hnd _ vals, ?_⟩
  have e := evalOperands_all [] (vals.map toDb) cols.length (by simpa using hl)
  have key : ∀ x, execStmt rel env db (vals.map toDb)
      (.insert table cols ((List.range cols.length).map .param) none ret) = x ↔
      (if (db.rows table).any (fun r => sameKey rel (r.val (env.key table))
        ((overlay (env.template table (db.rows table)) (cols.zip (vals.map toDb))).val
          (env.key table))) then none
      else some (setRows db table (db.rows table ++
        [overlay (env.template table (db.rows table)) (cols.zip (vals.map toDb))]), 1,
        ret.map (overlay (env.template table (db.rows table)) (cols.zip (vals.map toDb))).val)) = x := by
    intro x
    cases ret with
    | none => simp only [execStmt, hdb, all_mem hcols, List.length_map, List.length_range,
        beq_self_eq_true, Bool.and_self, if_true, e]
    | some c => simp only [execStmt, hdb, all_mem hcols, List.length_map, List.length_range,
        beq_self_eq_true, Bool.and_self, if_true, e, hret c rfl]
  constructor
  · rintro ⟨r, hr, he⟩
    rw [key, if_pos (List.any_eq_true.2 ⟨r, hr, sameKey_iff.2 he⟩)]
  · intro hn
    rw [key, if_neg (not_any_sameKey hn)]

/-! ### Upsert -/

theorem lookup_excluded {t c : String} (ht : t ≠ "excluded") {r new : Row} (hc : new.has c = true) :
    lookupCol (some "excluded") c [[(t, r), ("excluded", new)]] = some (new.val c) := by
  have : inScope (some "excluded") c [(t, r), ("excluded", new)] = some (some (new.val c)) := by
    unfold inScope
    have h1 : ¬(some "excluded" = some t) := by
      intro h
      exact ht (Option.some.inj h).symm
    simp [hc, Ne.symm ht]
  simp [lookupCol, this]

theorem evalSets_excluded {ps : List DbVal} {t : String} (ht : t ≠ "excluded") {r new : Row}
    {cols : List String} (hc : ∀ c ∈ cols, new.has c = true) :
    evalSets ps [[(t, r), ("excluded", new)]]
      (cols.zip (cols.map fun c => .col (some "excluded") c)) =
      some (cols.zip (cols.map new.val)) := by
  induction cols with
  | nil => rfl
  | cons c cs ih =>
    simp only [List.map_cons, List.zip_cons_cons, evalSets, evalOperand]
    rw [lookup_excluded ht (hc c (List.mem_cons_self ..)),
      ih fun x hx => hc x (List.mem_cons_of_mem _ hx)]

theorem stored_excluded {cols : List String} (hnd : cols.Nodup) {vals : List SqlVal}
    (hl : vals.length = cols.length) {base new : Row} (hn : Stored base cols vals new) (r : Row) :
    Stored r cols vals (overlay r (cols.zip (cols.map new.val))) := by
  have : cols.map new.val = vals.map toDb := by
    apply List.ext_getElem?
    intro i
    rw [List.getElem?_map, List.getElem?_map]
    cases hc : cols[i]? with
    | none =>
      have : vals[i]? = none := by
        rw [List.getElem?_eq_none_iff] at hc ⊢
        omega
      rw [this]
      rfl
    | some c =>
      have hi : i < vals.length := by
        have := (List.getElem?_eq_some_iff.1 hc).1
        omega
      have hv : vals[i]? = some vals[i] := List.getElem?_eq_getElem hi
      rw [hv]
      simp [hn.2.1 i c _ hc hv]
  rw [this]
  exact stored_overlay hnd r vals

theorem exec_upsert {rel : Compare} {env : Env} {db : Db} {table : String} {cols : List String}
    {vals : List SqlVal} (hnd : cols.Nodup) (hl : vals.length = cols.length)
    (hone : cols.length > 1) (hx : table ≠ "excluded") (hdb : db.has table = true)
    (hcols : ∀ c ∈ cols, (env.template table (db.rows table)).has c = true) :
    ∃ new, Stored (env.template table (db.rows table)) cols vals new ∧
      ((∃ r ∈ db.rows table, Equal rel (r.val (env.key table)) (new.val (env.key table))) →
        ∃ f : Row → Row,
          (∀ r, Equal rel (r.val (env.key table)) (new.val (env.key table)) →
            Stored r cols vals (f r)) ∧
          (∀ r, ¬ Equal rel (r.val (env.key table)) (new.val (env.key table)) → f r = r) ∧
          execStmt rel env db (vals.map toDb)
            (.insert table cols ((List.range cols.length).map .param) (some ⟨env.key table,
              some (cols, cols.map fun c => .col (some "excluded") c)⟩) none) =
            some (setRows db table ((db.rows table).map f), 1, none)) ∧
      ((¬∃ r ∈ db.rows table, Equal rel (r.val (env.key table)) (new.val (env.key table))) →
        execStmt rel env db (vals.map toDb)
            (.insert table cols ((List.range cols.length).map .param) (some ⟨env.key table,
              some (cols, cols.map fun c => .col (some "excluded") c)⟩) none) =
          some (setRows db table (db.rows table ++ [new]), 1, none)) := by
  have hst := stored_overlay hnd (env.template table (db.rows table)) vals
  refine ⟨_, hst, ?_⟩
  have e := evalOperands_all [] (vals.map toDb) cols.length (by simpa using hl)
  simp only [execStmt, hdb, all_mem hcols, List.length_map, List.length_range, beq_self_eq_true,
    Bool.and_self, if_true, e]
  constructor
  · rintro ⟨r, hr, he⟩
    generalize hnew : overlay (env.template table (db.rows table)) (cols.zip (vals.map toDb)) = new
      at hst he
    refine ⟨fun r => if sameKey rel (r.val (env.key table)) (new.val (env.key table)) then
      overlay r (cols.zip (cols.map new.val)) else r, ?_, ?_, ?_⟩
    · intro r he
      simp only [sameKey_iff.2 he, if_true]
      exact stored_excluded hnd hl hst r
    · intro r he
      have : sameKey rel (r.val (env.key table)) (new.val (env.key table)) = false := by
        cases h : sameKey rel (r.val (env.key table)) (new.val (env.key table)) with
        | false => rfl
        | true => exact absurd (sameKey_iff.1 h) he
      simp [this]
    · rw [if_pos (List.any_eq_true.2 ⟨r, hr, sameKey_iff.2 he⟩)]
      rw [mapOk_ok (g := fun r => if sameKey rel (r.val (env.key table)) (new.val (env.key table)) then
          overlay r (cols.zip (cols.map new.val)) else r)]
      · rfl
      · intro a _
        have hc : ∀ c ∈ cols, new.has c = true := by
          intro c hc
          rw [hst.1]
          exact hcols c hc
        by_cases hs : sameKey rel (a.val (env.key table)) (new.val (env.key table)) = true
        · rw [if_pos hs, if_pos hs, evalSets_excluded hx hc]
        · rw [if_neg hs, if_neg hs]
  · intro hn
    rw [if_neg (not_any_sameKey hn)]
    rfl

/-- The upsert of a table with one column. -/
theorem exec_upsert_one {rel : Compare} {env : Env} {db : Db} {table : String} {cols : List String}
    {vals : List SqlVal} (hnd : cols.Nodup) (hl : vals.length = cols.length)
    (hdb : db.has table = true)
    (hcols : ∀ c ∈ cols, (env.template table (db.rows table)).has c = true) :
    ∃ new, Stored (env.template table (db.rows table)) cols vals new ∧
      ((∃ r ∈ db.rows table, Equal rel (r.val (env.key table)) (new.val (env.key table))) →
          execStmt rel env db (vals.map toDb)
            (.insert table cols ((List.range cols.length).map .param) (some ⟨env.key table, none⟩)
              none) = some (db, 0, none)) ∧
      ((¬∃ r ∈ db.rows table, Equal rel (r.val (env.key table)) (new.val (env.key table))) →
        execStmt rel env db (vals.map toDb)
            (.insert table cols ((List.range cols.length).map .param) (some ⟨env.key table, none⟩)
              none) = some (setRows db table (db.rows table ++ [new]), 1, none)) := by
  have hst := stored_overlay hnd (env.template table (db.rows table)) vals
  refine ⟨_, hst, ?_⟩
  have e := evalOperands_all [] (vals.map toDb) cols.length (by simpa using hl)
  simp only [execStmt, hdb, all_mem hcols, List.length_map, List.length_range, beq_self_eq_true,
    Bool.and_self, if_true, e]
  constructor
  · rintro ⟨r, hr, he⟩
    rw [if_pos (List.any_eq_true.2 ⟨r, hr, sameKey_iff.2 he⟩)]
  · intro hn
    rw [if_neg (not_any_sameKey hn)]
    rfl

/-! ### UPDATE -/

theorem setsOf_names (cols : List String) (n : Nat) : (setsOf cols n).map (·.1) = cols := by
  induction cols generalizing n with
  | nil => rfl
  | cons c cs ih => simp [setsOf, ih]

theorem sum_filter {α} (p : α → Bool) (l : List α) :
    (l.map fun a => if p a then 1 else 0).sum = (l.filter p).length := by
  induction l with
  | nil => rfl
  | cons a l ih =>
    cases h : p a <;> simp [h, ih, Nat.add_comm]

theorem exec_update {rel : Compare} {env : Env} {db : Db} {table pkcol : String}
    {cols : List String} {vals : List SqlVal} {pk : SqlVal} (hnd : cols.Nodup)
    (hl : vals.length = cols.length) (hdb : db.has table = true)
    (hcols : ∀ c ∈ cols, (env.template table (db.rows table)).has c = true)
    (hpk : ∀ r ∈ db.rows table, r.has pkcol = true) :
    ∃ f : Row → Row,
      (∀ r, Equal rel (r.val pkcol) (toDb pk) → Stored r cols vals (f r)) ∧
      (∀ r, ¬ Equal rel (r.val pkcol) (toDb pk) → f r = r) ∧
      execStmt rel env db ((vals ++ [pk]).map toDb) (.update table (setsOf cols 0)
          (.any [.all [.cmp .eq (.col none pkcol) (.param cols.length)]])) =
        some (setRows db table ((db.rows table).map f),
          ((db.rows table).filter fun r => sameKey rel (r.val pkcol) (toDb pk)).length, none) := by
  refine ⟨fun r => if sameKey rel (r.val pkcol) (toDb pk) then
      overlay r (cols.zip (vals.map toDb)) else r, ?_, ?_, ?_⟩
  · intro r he
    simp only [sameKey_iff.2 he, if_true]
    exact stored_overlay hnd r vals
  · intro r he
    have : sameKey rel (r.val pkcol) (toDb pk) = false := by
      cases h : sameKey rel (r.val pkcol) (toDb pk) with
      | false => rfl
      | true => exact absurd (sameKey_iff.1 h) he
    simp [this]
  · have hall : (setsOf cols 0).all (fun s => (env.template table (db.rows table)).has s.1) = true := by
      rw [List.all_eq_true]
      intro s hs
      apply hcols
      rw [← setsOf_names cols 0]
      exact List.mem_map_of_mem hs
    simp only [execStmt, hdb, hall, Bool.and_self, if_true]
    rw [mapOk_ok (g := fun r => if sameKey rel (r.val pkcol) (toDb pk) then
      (overlay r (cols.zip (vals.map toDb)), 1) else (r, 0))]
    · simp only [List.map_map]
      congr 2
      · congr 1
        apply List.map_congr_left
        intro r _
        by_cases h : sameKey rel (r.val pkcol) (toDb pk) = true <;> simp [h]
      · rw [← sum_filter]
        congr 2
        apply List.map_congr_left
        intro r _
        by_cases h : sameKey rel (r.val pkcol) (toDb pk) = true <;> simp [h]
    · intro r hr
      have hseg : Seg ((vals ++ [pk]).map toDb) 0 vals := (seg_all (vals ++ [pk])).left
      have hlk : lookupCol none pkcol [[(table, r)]] = some (r.val pkcol) := by
        simp [lookupCol, inScope, hpk r hr]
      have hp : ((vals ++ [pk]).map toDb)[cols.length]? = some (toDb pk) := by
        rw [← hl]
        simp
      have hc : evalCond rel db ((vals ++ [pk]).map toDb) [[(table, r)]]
          (.any [.all [.cmp .eq (.col none pkcol) (.param cols.length)]]) =
          some (cmp3 rel .eq (r.val pkcol) (toDb pk)) := by
        simp only [evalCond, evalAny, evalAll, evalOperand, hlk, hp]
        cases cmp3 rel .eq (r.val pkcol) (toDb pk) with
        | none => rfl
        | some b => cases b <;> rfl
      rw [hc, evalSets_params _ hl hseg]
      simp only [sameKey]
      by_cases h : cmp3 rel .eq (r.val pkcol) (toDb pk) = some true
      · simp [h]
      · have : (cmp3 rel .eq (r.val pkcol) (toDb pk) == some true) = false := by
          simpa using h
        simp [h]

/-! ### DELETE -/

theorem filterMap_zip {α} (g : α → Option Bool) (l : List α) :
    (l.zip (l.map g)).filterMap (fun p => if p.2 = some true then none else some p.1) =
      l.filter fun a => !decide (g a = some true) := by
  induction l with
  | nil => rfl
  | cons a l ih => by_cases h : g a = some true <;> simp [h, ih]

theorem exec_delete {sq : Bool} {rel : Compare} {env : Env} {db : Db} {table : String} {e : BoolExpr}
    (h : NeedsNoParens sq .or e) (hs : ∀ r ∈ db.rows table, Scoped db r [] e)
    (hdb : db.has table = true) :
    execStmt rel env db ((valsBool e).map toDb) (.delete table (.any (disjs e 0))) =
      some (setRows db table ((db.rows table).filter fun r => !decide (boolValue rel db r e = some true)),
        ((db.rows table).filter fun r => decide (boolValue rel db r e = some true)).length, none) := by
  simp only [execStmt, hdb, if_true]
  rw [mapOk_ok (g := fun r => boolValue rel db r e)]
  · simp only
    rw [filterMap_zip]
    congr 3
    rw [List.filter_map, List.length_map]
    rfl
  · intro r hr
    exact evalDisjs e h 0 table r [] [] (hs r hr) (seg_all _)

/-! ### SELECT -/

theorem readCount_nonneg {sq : Bool} {neg : Option Nat} {n : Option Int32} (h : NonNeg n) :
    readCount sq neg (n.map (·.toInt)) = some (Spec.count n) := by
  cases n with
  | none => rfl
  | some n =>
    have h0 := h n rfl
    simp only [Option.map_some, Spec.count]
    cases hi : n.toInt with
    | ofNat k => simp [readCount]
    | negSucc k => rw [hi] at h0; omega

theorem select_rows {sq : Bool} {rel : Compare} {db : Db} {table : String} {e : Option BoolExpr}
    (h : ∀ x ∈ e, NeedsNoParens sq .or x ∧ ∀ r ∈ db.rows table, Scoped db r [] x) {ps : List DbVal}
    (hps : ∀ x ∈ e, ps = (valsBool x).map toDb) :
    selectTrue (whereTrue rel db ps table (e.map fun e => Cond.any (disjs e 0))) (db.rows table) =
      some (matching rel db table e) := by
  cases e with
  | none =>
    simp only [Option.map_none]
    rw [selectTrue_ok (p := whereTrue rel db ps table none) (q := fun _ => some true)
      (fun _ _ => rfl)]
    simp [matching]
  | some e =>
    simp only [Option.map_some]
    rw [selectTrue_ok (q := fun r => boolValue rel db r e)]
    · rfl
    · intro r hr
      rw [hps e rfl]
      exact evalDisjs e (h e rfl).1 0 table r [] [] ((h e rfl).2 r hr) (seg_all _)

/-- What a `SELECT` for a query returns. -/
theorem selectOut_iff {sq : Bool} {rel : Compare} {le : DbVal → DbVal → Bool} {db : Db}
    {table : String} {cols : List String} {e : Option BoolExpr} {sort : List Order}
    (hdb : db.has table = true)
    (hc : ∀ c ∈ cols, ∀ r ∈ db.rows table, r.has c = true)
    (ho : ∀ o ∈ sort, ∀ r ∈ db.rows table, r.has o.column = true)
    (h : ∀ x ∈ e, NeedsNoParens sq .or x ∧ ∀ r ∈ db.rows table, Scoped db r [] x) {ps : List DbVal}
    (hps : ∀ x ∈ e, ps = (valsBool x).map toDb) {l o : Option Int32} {nl no : Option Nat}
    (hl : readCount sq none (l.map (·.toInt)) = some nl)
    (hof : readCount sq (some 0) (o.map (·.toInt)) = some no)
    (out : Option (List (List DbVal))) :
    SelectOut sq rel le db ps ⟨cols, table, e.map fun e => .any (disjs e 0), sort.map dirOf,
        l.map (·.toInt), o.map (·.toInt)⟩ out ↔
      ∃ rows, LoadResult rel le db table e nl no sort rows ∧
        out = some (rows.map fun r => cols.map r.val) := by
  have hmem : ∀ r ∈ matching rel db table e, r ∈ db.rows table :=
    fun r hr => (List.mem_filter.1 hr).1
  have hall : (matching rel db table e).all (fun r =>
      cols.all r.has && (sort.map dirOf).all (fun k => r.has k.1)) = true := by
    rw [List.all_eq_true]
    intro r hr
    rw [Bool.and_eq_true]
    refine ⟨all_mem fun c hcm => hc c hcm r (hmem r hr), ?_⟩
    rw [List.all_map, List.all_eq_true]
    intro x hx
    exact ho x hx r (hmem r hr)
  unfold SelectOut
  simp only [hdb, if_true]
  rw [select_rows h hps, hl, hof]
  simp only
  rw [if_pos hall]
  constructor
  · rintro ⟨all, h1, h2, h3⟩
    refine ⟨slice nl no all, ⟨all, h1, ?_, ?_⟩, h3⟩
    · exact h2
    · unfold slice
      cases nl <;> cases no <;> simp
  · rintro ⟨rows, ⟨all, h1, h2, h3⟩, h4⟩
    refine ⟨all, h1, h2, ?_⟩
    rw [h4, h3]
    unfold slice
    cases nl <;> cases no <;> simp

theorem whereClause_vals (d : Dialect) (e : Option BoolExpr) :
    (whereClause d e).vals = match e with | none => [] | some e => valsBool e := by
  cases e with
  | none => rfl
  | some e => exact renderBool_vals d e 0

/-- The query text of either backend parses as the expected statement. -/
theorem parse_query {b : Backend} {kw res : String → Bool} (hk : CoversReserved kw res) {db : Db}
    {q : Query} {cols : List String} (hq : QueryOK b.isSqlite res db q cols) (l o : Option Int32)
    (hlo : b = .sqlite → l = none → o = none) :
    parseStmt b.isSqlite (lex res (b.query kw q.table cols q.filter l o q.sort).text) =
      some (.select ⟨cols, q.table, q.filter.map fun e => .any (disjs e 0), q.sort.map dirOf,
        l.map (·.toInt), o.map (·.toInt)⟩) := by
  have hcnt : ∀ x ∈ q.filter, cntBool x = (valsBool x).length := by
    intro x hx
    exact (valsBool_len x (noPlaceholder_of x _ (hq.filter x hx).2.1)).symm
  have hlex : lex res (b.query kw q.table cols q.filter l o q.sort).text =
      toksSelect q.table cols q.filter l o q.sort := by
    cases b with
    | sqlite =>
      have := reads_select (d := sqliteDialect kw) (res := res) (cnt := fun n => n)
        (B := cntWhere q.filter) hk (phReads_sqlite kw res _) hq.table
        (fun c hc => (hq.cols c hc).1) (fun x hx => oneJoin_of x _ (hq.filter x hx).2.1)
        (fun x hx => (hq.filter x hx).1) (fun x hx => (hq.sort x hx).1) l o (Nat.le_refl _)
      have := this.lex rfl
      rw [← this]
      simp only [Backend.query, sqliteQuery]
      cases l with
      | none =>
        rw [hlo rfl rfl]
      | some l => cases o <;> simp
    | pg =>
      have := reads_select (d := pgDialect kw) (res := res) (cnt := fun _ => 0)
        (B := 127) hk (phReads_pg kw res) hq.table
        (fun c hc => (hq.cols c hc).1) (fun x hx => oneJoin_of x _ (hq.filter x hx).2.1)
        (fun x hx => (hq.filter x hx).1) (fun x hx => (hq.sort x hx).1) l o (by
          cases hf : q.filter with
          | none => simp [cntWhere]
          | some e =>
            have h1 := (hq.filter e hf).2.2.2 rfl
            have h2 := hcnt e hf
            simp only [cntWhere]
            omega)
      have := this.lex rfl
      rw [← this]
      rfl
  rw [hlex, parse_select hq.cols_ne (fun x hx => (hq.filter x hx).2.1) q.sort l o (by
    intro hb
    apply hlo
    cases b with
    | sqlite => rfl
    | pg => simp [Backend.isSqlite] at hb)]

/-- The query text of either backend, read by its database. -/
theorem queryOut_iff {b : Backend} {rel : Compare} {le : DbVal → DbVal → Bool}
    {kw res : String → Bool} (hk : CoversReserved kw res) {db : Db} {q : Query} {cols : List String}
    (hq : QueryOK b.isSqlite res db q cols) (l o : Option Int32) {nl no : Option Nat}
    (hlo : b = .sqlite → l = none → o = none)
    (hl : readCount b.isSqlite none (l.map (·.toInt)) = some nl)
    (hof : readCount b.isSqlite (some 0) (o.map (·.toInt)) = some no)
    (out : Option (List (List DbVal))) :
    QueryOut b.isSqlite rel le res db (b.query kw q.table cols q.filter l o q.sort).text
        (b.query kw q.table cols q.filter l o q.sort).params out ↔
      ∃ rows, LoadResult rel le db q.table q.filter nl no q.sort rows ∧
        out = some (rows.map fun r => cols.map r.val) := by
  have hparams : (b.query kw q.table cols q.filter l o q.sort).params =
      match q.filter with | none => [] | some e => valsBool e := by
    cases b with
    | sqlite => exact whereClause_vals _ _
    | pg => exact whereClause_vals _ _
  unfold QueryOut
  rw [parse_query hk hq l o hlo]
  simp only
  rw [hparams]
  exact selectOut_iff hq.exists_ (fun c hc => (hq.cols c hc).2) (fun x hx => (hq.sort x hx).2)
    (fun x hx => ⟨(hq.filter x hx).2.1, (hq.filter x hx).2.2.1⟩)
    (fun x hx => by rw [Option.mem_def.1 hx]) hl hof out

/-- PostgreSQL refuses a negative limit. -/
theorem queryOut_neg_limit_pg {rel : Compare} {le : DbVal → DbVal → Bool}
    {kw res : String → Bool} (hk : CoversReserved kw res) {db : Db} {q : Query} {cols : List String}
    (hq : QueryOK false res db q cols) {l : Int32} {k : Nat} (hl : l.toInt = .negSucc k)
    (out : Option (List (List DbVal))) :
    QueryOut false rel le res db (Backend.query .pg kw q.table cols q.filter (some l) none q.sort).text
        (Backend.query .pg kw q.table cols q.filter (some l) none q.sort).params out ↔ out = none := by
  unfold QueryOut
  rw [show false = Backend.pg.isSqlite from rfl,
    parse_query (b := .pg) hk hq (some l) none (by simp)]
  simp only [SelectOut, Option.map_some, Option.map_none, Backend.isSqlite]
  rw [hl]
  simp only [readCount, Bool.false_eq_true, if_false]
  split
  · rename_i h _
    exact absurd h (by simp)
  · rfl

end Butane
