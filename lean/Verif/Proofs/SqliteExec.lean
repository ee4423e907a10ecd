/-
The rows after the statements butane sends to SQLite.
-/
import Verif.Proofs.SqliteStmt

namespace Butane
open Butane.Ddl Butane.DdlP Spec
open Butane.Sql (Operand Cond)

variable {env : SqliteEnv} {D : SqliteData}

/-! ### The statements -/

theorem allSome_congr {α β : Type} {f g : α → Option β} {l : List α} (h : ∀ a ∈ l, f a = g a) :
    allSome f l = allSome g l := by
  induction l with
  | nil => rfl
  | cons a l ih =>
    rw [allSome, allSome, h a (List.mem_cons_self ..), ih fun b hb => h b (List.mem_cons_of_mem _ hb)]

theorem operand_params (cols : List ColDef) (rows : List (String × List SqliteVal))
    (ps extra : List SqliteVal) (k : Nat) (h : ps.length = k) :
    allSome (operand cols (ps ++ extra) rows) ((List.range k).map .param) = some ps := by
  subst h
  have : ∀ (l : List Nat), (∀ i ∈ l, i < ps.length) →
      allSome (operand cols (ps ++ extra) rows) (l.map .param) =
        some (l.map fun i => (ps[i]?).getD .null) := by
    intro l
    induction l with
    | nil => intro _; rfl
    | cons i l ih =>
      intro hl
      have hi := hl i (List.mem_cons_self ..)
      rw [List.map_cons, allSome, ih fun j hj => hl j (List.mem_cons_of_mem _ hj)]
      simp only [operand, List.getElem?_append_left hi, List.getElem?_eq_getElem hi]
      simp [List.getElem?_eq_getElem hi]
  rw [this _ (by simp)]
  congr 1
  apply List.ext_getElem
  · simp
  · intro i h1 h2
    simp [List.getElem?_eq_getElem h2]

theorem data_insert {db : SDb} {table : String} {t : STable} (hlk : db.lookup table = some t)
    {cols : List String} (hcols : ∀ c ∈ cols, c ∈ t.cols.map (·.name)) {ps : List SqliteVal}
    (hl : ps.length = cols.length) :
    execData env D db ps (.insert table cols ((List.range cols.length).map .param) none none) =
      (newRow env D t (cols.zip ps)).bind fun new => replaceRows db table t (t.rows ++ [new]) := by
  have h1 := operand_params t.cols [] ps [] cols.length hl
  rw [List.append_nil] at h1
  have h2 : (cols.all (t.cols.map (·.name)).contains &&
      decide (cols.length = ((List.range cols.length).map Operand.param).length)) = true := by
    rw [Bool.and_eq_true, List.all_eq_true]
    exact ⟨fun c hc => by simpa using hcols c hc, by simp⟩
  simp only [execData, hlk]
  rw [if_pos h2, h1]
  simp only
  cases newRow env D t (cols.zip ps) <;> rfl

theorem operand_excluded (cols : List ColDef) (ps : List SqliteVal) {table : String}
    (ht : table ≠ "excluded") (r new : List SqliteVal) (cs : List String) :
    allSome (operand cols ps [(table, r), ("excluded", new)])
        (cs.map fun c => .col (some "excluded") c) = allSome (field cols new) cs := by
  induction cs with
  | nil => rfl
  | cons c cs ih =>
    rw [List.map_cons, allSome, ih, allSome]
    have h1 : (some "excluded" = some table) = False := by
      simp [Ne.symm ht]
    simp [operand, List.filter_cons, Ne.symm ht]

theorem data_upsert {db : SDb} {table pk : String} {t : STable} (hlk : db.lookup table = some t)
    (ht : table ≠ "excluded") {cols : List String} (hcols : ∀ c ∈ cols, c ∈ t.cols.map (·.name))
    {ps : List SqliteVal} (hl : ps.length = cols.length)
    (hpk : (t.cols.any fun d => decide (d.name = pk) && (d.pk || d.unique)) = true) :
    execData env D db ps (.insert table cols ((List.range cols.length).map .param) (some ⟨pk,
        if cols.length > 1 then some (cols, cols.map fun c => .col (some "excluded") c) else none⟩)
        none) =
      (newRow env D t (cols.zip ps)).bind fun new =>
        if t.rows.any (hasValue t.cols pk (field t.cols new pk)) then
          if cols.length > 1 then
            (allSome (fun r =>
              if hasValue t.cols pk (field t.cols new pk) r then
                (allSome (field t.cols new) cols).bind fun ws => setRow env t.cols (cols.zip ws) r
              else some r) t.rows).bind fun rows => replaceRows db table t rows
          else some db
        else replaceRows db table t (t.rows ++ [new]) := by
  have h1 := operand_params t.cols [] ps [] cols.length hl
  rw [List.append_nil] at h1
  have h2 : (cols.all (t.cols.map (·.name)).contains) = true := by
    rw [List.all_eq_true]
    exact fun c hc => by simpa using hcols c hc
  simp only [execData, hlk]
  rw [if_pos (by simp only [h2, Bool.true_and, List.length_map, List.length_range, decide_true]), h1]
  simp only
  cases newRow env D t (cols.zip ps) with
  | none => rfl
  | some new =>
    simp only [Option.bind_some]
    rw [if_pos hpk]
    split
    · by_cases hc : cols.length > 1
      · simp only [hc, if_true]
        rw [if_pos (by simp only [h2, Bool.and_true, List.length_map, decide_true])]
        rw [allSome_congr (g := fun r =>
              if hasValue t.cols pk (field t.cols new pk) r then
                (allSome (field t.cols new) cols).bind fun ws => setRow env t.cols (cols.zip ws) r
              else some r)]
        · generalize allSome (fun r =>
              if hasValue t.cols pk (field t.cols new pk) r then
                (allSome (field t.cols new) cols).bind fun ws => setRow env t.cols (cols.zip ws) r
              else some r) t.rows = x
          cases x <;> rfl
        · intro r _
          rw [operand_excluded t.cols ps ht]
          cases allSome (field t.cols new) cols <;> rfl
      · simp only [hc, if_false]
    · rfl

theorem setsOf_operands (cols : List ColDef) (rows : List (String × List SqliteVal))
    (cs : List String) (n : Nat) (ps : List SqliteVal) (h : n + cs.length ≤ ps.length) :
    allSome (operand cols ps rows) ((setsOf cs n).map (·.2)) = some ((ps.drop n).take cs.length) := by
  induction cs generalizing n with
  | nil => simp [setsOf, allSome]
  | cons c cs ih =>
    simp only [List.length_cons] at h
    have hn : n < ps.length := by omega
    simp only [setsOf, List.map_cons, allSome, operand, List.getElem?_eq_getElem hn]
    rw [ih (n + 1) (by omega)]
    simp only
    rw [List.length_cons, List.drop_eq_getElem_cons hn, List.take_succ_cons]

theorem data_update (hD : DataLaws env D) {db : SDb} {table pk : String} {t : STable}
    (hlk : db.lookup table = some t) {cols : List String}
    (hcols : ∀ c ∈ cols, c ∈ t.cols.map (·.name)) {ps : List SqliteVal} {a : SqliteVal}
    (hl : ps.length = cols.length) (hk : KeyClass t pk a) :
    execData env D db (ps ++ [a]) (.update table (setsOf cols 0) (keyCond pk (.param cols.length))) =
      (allSome (fun r => if field t.cols r pk = some a then setRow env t.cols (cols.zip ps) r
        else some r) t.rows).bind fun rows => replaceRows db table t rows := by
  have h2 : ((setsOf cols 0).all fun s => (t.cols.map (·.name)).contains s.1) = true := by
    rw [List.all_eq_true]
    intro s hs
    have : s.1 ∈ cols := by
      have := List.mem_map_of_mem (f := (·.1)) hs
      rwa [setsOf_names] at this
    simpa using hcols _ this
  simp only [execData, hlk]
  rw [if_pos h2]
  have h3 : ∀ rows, allSome (operand t.cols (ps ++ [a]) rows) ((setsOf cols 0).map (·.2)) =
      some ps := by
    intro rows
    rw [setsOf_operands _ _ _ _ _ (by simp [hl]), List.drop_zero, ← hl, List.take_left']
    rfl
  rw [allSome_congr (g := fun r => if field t.cols r pk = some a then
      setRow env t.cols (cols.zip ps) r else some r)]
  · generalize allSome (fun r => if field t.cols r pk = some a then
      setRow env t.cols (cols.zip ps) r else some r) t.rows = x
    cases x <;> rfl
  · intro r hr
    rw [holdsFor_key hD db table (a := a) (fun e => by
      simp [Sql.evalOperand, ← hl]) hk hr, h3, setsOf_names]
    by_cases he : field t.cols r pk = some a <;> simp [he]

theorem data_delete (hD : DataLaws env D) {db : SDb} {table pk : String} {t : STable}
    (hlk : db.lookup table = some t) {ps : List SqliteVal} {o : Operand} {a : SqliteVal}
    (ho : ∀ e, Sql.evalOperand (ps.map seen) e o = some (seen a)) (hk : KeyClass t pk a) :
    execData env D db ps (.delete table (keyCond pk o)) =
      replaceRows db table t (t.rows.filter fun r => !decide (field t.cols r pk = some a)) := by
  simp only [execData, hlk]
  have hcongr : ∀ l : List (List SqliteVal), (∀ r ∈ l, r ∈ t.rows) →
      ∃ rows, allSome (fun r => (holdsFor D db ps table t.cols (keyCond pk o) r).map
          fun b => if b then none else some r) l = some rows ∧
        rows.filterMap id = l.filter fun r => !decide (field t.cols r pk = some a) := by
    intro l hin
    induction l with
    | nil => exact ⟨[], rfl, rfl⟩
    | cons r l ih =>
      obtain ⟨rows, h1, h2⟩ := ih fun x hx => hin x (List.mem_cons_of_mem _ hx)
      simp only [allSome, h1]
      rw [holdsFor_key hD db table ho hk (hin r (List.mem_cons_self ..))]
      refine ⟨_, rfl, ?_⟩
      by_cases he : field t.cols r pk = some a <;> simp [he, h2]
  obtain ⟨rows, h1, h2⟩ := hcongr t.rows fun _ h => h
  rw [h1, ← h2]

/-! ### What a select by key returns -/

/-- The selected values of a row. -/
def pick (cols : List ColDef) (cs : List String) (r : List SqliteVal) : List SqliteVal :=
  cs.map fun c => (field cols r c).getD .null

theorem map_seen_inj {a b : List (List SqliteVal)} (h : a.map (·.map seen) = b.map (·.map seen)) :
    a = b := by
  have h1 : ∀ (x y : List SqliteVal), x.map seen = y.map seen → x = y := by
    intro x
    induction x with
    | nil => intro y h; cases y <;> simp_all
    | cons v x ih =>
      intro y h
      cases y with
      | nil => simp at h
      | cons w y =>
        simp only [List.map_cons, List.cons.injEq] at h
        rw [seen_inj h.1, ih y h.2]
  induction a generalizing b with
  | nil => cases b <;> simp_all
  | cons x a ih =>
    cases b with
    | nil => simp at h
    | cons y b =>
      simp only [List.map_cons, List.cons.injEq] at h
      rw [h1 x y h.1, ih h.2]

theorem data_select (hD : DataLaws env D) {db : SDb} {table pk : String} {t : STable}
    (hlk : db.lookup table = some t) {ps : List SqliteVal} {o : Operand} {a : SqliteVal}
    (ho : ∀ e, Sql.evalOperand (ps.map seen) e o = some (seen a)) (hk : KeyClass t pk a)
    {cs : List String} (hcs : ∀ c ∈ cs, c ∈ t.cols.map (·.name))
    (hf : ∀ r ∈ t.rows, ∀ c ∈ cs, ∃ v, field t.cols r c = some v)
    (out : Option (List (List SqliteVal))) :
    Sql.SelectOut true D.rel D.le (seenDb db) (ps.map seen)
        ⟨cs, table, some (keyCond pk o), [], some 1, none⟩ (out.map fun rows => rows.map (·.map seen)) ↔
      ∃ l : List (List SqliteVal), l.Perm (t.rows.filter fun r => field t.cols r pk = some a) ∧
        out = some ((l.take 1).map (pick t.cols cs)) := by
  have hrows : (seenDb db).rows table = t.rows.map (seenRow t.cols) := by simp [seenDb, hlk]
  have hsel : Sql.selectTrue (Sql.whereTrue D.rel (seenDb db) (ps.map seen) table
      (some (keyCond pk o))) (t.rows.map (seenRow t.cols)) =
      some ((t.rows.filter fun r => field t.cols r pk = some a).map (seenRow t.cols)) := by
    have : ∀ l : List (List SqliteVal), (∀ r ∈ l, r ∈ t.rows) →
        Sql.selectTrue (Sql.whereTrue D.rel (seenDb db) (ps.map seen) table
          (some (keyCond pk o))) (l.map (seenRow t.cols)) =
        some ((l.filter fun r => field t.cols r pk = some a).map (seenRow t.cols)) := by
      intro l hin
      induction l with
      | nil => rfl
      | cons r l ih =>
        rw [List.map_cons, Sql.selectTrue, ih fun x hx => hin x (List.mem_cons_of_mem _ hx)]
        obtain ⟨v, hv, hc⟩ := hk.2.2 r (hin r (List.mem_cons_self ..))
        simp only [Sql.whereTrue]
        rw [evalCond_key D.rel (seenDb db) (ps.map seen) table (seenRow t.cols r) (pk := pk) (o := o)
          (x := seen a) hk.1 ho]
        have hval : (seenRow t.cols r).val pk = seen v := by simp [seenRow, hv]
        rw [hval]
        simp only [cmp3_key hD hc]
        by_cases he : v = a
        · subst he; simp [hv, hk.2.1]
        · simp [hv, he]
    exact this t.rows fun _ h => h
  have hpick : ∀ r ∈ t.rows, (cs.map (seenRow t.cols r).val) = (pick t.cols cs r).map seen := by
    intro r hr
    simp only [pick, List.map_map]
    apply List.map_congr_left
    intro c hc
    obtain ⟨v, hv⟩ := hf r hr c hc
    simp [seenRow, hv]
  unfold Sql.SelectOut
  have hhas : (seenDb db).has table = true := by simp [seenDb, hlk]
  simp only [hhas, if_true, hrows, hsel, Sql.readCount]
  rw [if_pos (by
    rw [List.all_eq_true]
    intro r hr
    obtain ⟨r', -, rfl⟩ := List.mem_map.1 hr
    simp only [List.all_nil, Bool.and_true, List.all_eq_true]
    intro c hc
    simpa [seenRow] using hcs c hc)]
  constructor
  · rintro ⟨arr, h1, -, h3⟩
    obtain ⟨l, hl1, hl2⟩ : ∃ l : List (List SqliteVal),
        l.Perm (t.rows.filter fun r => field t.cols r pk = some a) ∧ arr = l.map (seenRow t.cols) := by
      have : ∀ (p q : List Sql.Row), p.Perm q → ∀ l0 : List (List SqliteVal),
          q = l0.map (seenRow t.cols) → ∃ l : List (List SqliteVal), l.Perm l0 ∧ p = l.map (seenRow t.cols) := by
        intro p q hpq
        induction hpq with
        | nil =>
          intro l0 h
          have : l0 = [] := by simpa using h.symm
          subst this
          exact ⟨[], .nil, rfl⟩
        | cons x _ ih =>
          intro l0 h
          cases l0 with
          | nil => simp at h
          | cons y l0 =>
            simp only [List.map_cons, List.cons.injEq] at h
            obtain ⟨l, e1, e2⟩ := ih l0 h.2
            exact ⟨y :: l, e1.cons y, by simp [h.1, e2]⟩
        | swap x y l1 =>
          intro l0 h
          match l0, h with
          | u :: v :: l0, h =>
            simp only [List.map_cons, List.cons.injEq] at h
            exact ⟨v :: u :: l0, List.Perm.swap .., by simp [h.1, h.2.1, h.2.2]⟩
        | trans _ _ ih1 ih2 =>
          intro l0 h
          obtain ⟨l, e1, e2⟩ := ih2 l0 h
          obtain ⟨l', e3, e4⟩ := ih1 l e2
          exact ⟨l', e3.trans e1, e4⟩
      exact this _ _ h1 _ rfl
    refine ⟨l, hl1, ?_⟩
    subst hl2
    cases out with
    | none => simp at h3
    | some rows =>
      simp only [Option.map_some, Option.some.injEq, Sql.slice, List.drop_zero] at h3 ⊢
      refine map_seen_inj ?_
      rw [h3, List.map_map, ← List.map_take, List.map_map]
      apply List.map_congr_left
      intro r hr
      exact hpick r ((List.mem_filter.1 ((hl1.mem_iff).1 (List.mem_of_mem_take hr))).1)
  · rintro ⟨l, h1, rfl⟩
    refine ⟨l.map (seenRow t.cols), h1.map _, ?_, ?_⟩
    · exact List.pairwise_iff_getElem.2 fun _ _ _ _ _ => trivial
    · simp only [Option.map_some, Option.some.injEq, Sql.slice, List.drop_zero]
      rw [← List.map_take, List.map_map, List.map_map]
      apply List.map_congr_left
      intro r hr
      exact (hpick r ((List.mem_filter.1 ((h1.mem_iff).1 (List.mem_of_mem_take hr))).1)).symm

/-! ### What becomes of the rows -/

/-- The row holds the given values, converted for the columns. -/
def Takes (env : SqliteEnv) (cols : List ColDef) (given : List (String × SqliteVal))
    (r : List SqliteVal) : Prop :=
  ∀ d ∈ cols, ∀ v, given.lookup d.name = some v →
    ∃ st w, strictType d.type = some st ∧ env.coerce st v = some w ∧ field cols r d.name = some w

/-- The rows of a table after a row with the key `a` was written. -/
structure Put (env : SqliteEnv) (t : STable) (rows : List (List SqliteVal)) (pk : String)
    (a : SqliteVal) (given : List (String × SqliteVal)) : Prop where
  others : rows.filter (fun r => !decide (field t.cols r pk = some a)) =
    t.rows.filter fun r => !decide (field t.cols r pk = some a)
  row : ∃ r, rows.filter (fun r => decide (field t.cols r pk = some a)) = [r] ∧
    Takes env t.cols given r
  proper : ∀ r ∈ rows, AllMatch (fun (d : ColDef) v => ∃ st, strictType d.type = some st ∧
    env.coerce st v = some v) t.cols r

/-- Adding a row with a key that is not in use. -/
theorem put_append (hs : StrictLaws env) {t : STable} (hp : Proper.Table env t)
    {given : List (String × SqliteVal)} {new : List SqliteVal} (h : newRow env D t given = some new)
    (hg : ∀ d ∈ t.cols, ∀ v, given.lookup d.name = some v → newValue env D t given d = some v)
    {pk : String} {a : SqliteVal} (ha : field t.cols new pk = some a)
    (hno : ∀ r ∈ t.rows, field t.cols r pk ≠ some a) : Put env t (t.rows ++ [new]) pk a given := by
  refine ⟨?_, ⟨new, ?_, ?_⟩, ?_⟩
  · simp [List.filter_append, ha]
  · rw [List.filter_append]
    have : t.rows.filter (fun r => decide (field t.cols r pk = some a)) = [] := by
      rw [List.filter_eq_nil_iff]
      intro r hr
      simpa using hno r hr
    simp [this, ha]
  · intro d hd v hv
    obtain ⟨v', st, w, h1, h2, h3, h4, -⟩ := newRow_column hp.distinct h hd
    rw [hg d hd v hv] at h1
    cases h1
    exact ⟨st, w, h2, h3, h4⟩
  · intro r hr
    rcases List.mem_append.1 hr with hr | hr
    · exact hp.stored r hr
    · simp only [List.mem_singleton] at hr
      subst hr
      exact newRow_proper hs h

theorem filter_map_keyed {α : Type} {rows : List α} {f : α → α} {p : α → Bool}
    (h1 : ∀ r ∈ rows, p r = false → f r = r) (h2 : ∀ r ∈ rows, p r = true → p (f r) = true) :
    (rows.map f).filter p = (rows.filter p).map f ∧
      (rows.map f).filter (fun r => !p r) = rows.filter fun r => !p r := by
  induction rows with
  | nil => exact ⟨rfl, rfl⟩
  | cons r rows ih =>
    obtain ⟨g1, g2⟩ := ih (fun x hx => h1 x (List.mem_cons_of_mem _ hx))
      (fun x hx => h2 x (List.mem_cons_of_mem _ hx))
    cases hp : p r with
    | true =>
      have := h2 r (List.mem_cons_self ..) hp
      simp [List.filter_cons, hp, this, g1, g2]
    | false =>
      have e := h1 r (List.mem_cons_self ..) hp
      simp [List.filter_cons, hp, e, g1, g2]

/-- Changing the row with a key. -/
theorem put_change (hs : StrictLaws env) {t : STable} (hp : Proper.Table env t)
    (hu : uniqueOk t.cols t.rows = true) {given sets : List (String × SqliteVal)} {dk : ColDef}
    (hdk : dk ∈ t.cols) (hkey : (dk.unique || dk.pk) = true) {a : SqliteVal} (hna : a ≠ .null)
    (hsets : ∀ v, sets.lookup dk.name = some v → v = a)
    (hgs : ∀ d ∈ t.cols, ∀ v, given.lookup d.name = some v → ∀ st, strictType d.type = some st →
      ∃ u, sets.lookup d.name = some u ∧ env.coerce st u = env.coerce st v)
    {rows : List (List SqliteVal)}
    (h : allSome (fun r => if field t.cols r dk.name = some a then setRow env t.cols sets r
      else some r) t.rows = some rows)
    (hex : ∃ r ∈ t.rows, field t.cols r dk.name = some a) : Put env t rows dk.name a given := by
  haveI : Nonempty (List SqliteVal) := ⟨[]⟩
  obtain ⟨f, rfl, hf⟩ := allSome_fun h
  have hset : ∀ r ∈ t.rows, field t.cols r dk.name = some a → setRow env t.cols sets r = some (f r) := by
    intro r hr he
    have := hf r hr
    rwa [if_pos he] at this
  have hkeep : ∀ r ∈ t.rows, field t.cols r dk.name ≠ some a → f r = r := by
    intro r hr he
    have := hf r hr
    rw [if_neg he] at this
    exact (Option.some.inj this).symm
  have hkeyed : ∀ r ∈ t.rows, field t.cols r dk.name = some a → field t.cols (f r) dk.name = some a := by
    intro r hr he
    obtain ⟨st, w, e1, e2, e3, -⟩ := setRow_column hp.distinct (allMatch_length (hp.stored r hr))
      (hset r hr he) hdk
    rw [e3]
    have hval : (sets.lookup dk.name).getD ((field t.cols r dk.name).getD .null) = a := by
      cases hl : sets.lookup dk.name with
      | none => simp [he]
      | some v => simp [hsets v hl]
    rw [hval] at e2
    obtain ⟨v, g1, st', g2, g3⟩ := field_some_of_mem (hp.stored r hr) hp.distinct hdk
    rw [he] at g1
    cases g1
    rw [e1] at g2
    cases g2
    rw [e2] at g3
    exact g3
  obtain ⟨m1, m2⟩ := filter_map_keyed (rows := t.rows) (f := f)
    (p := fun r => decide (field t.cols r dk.name = some a))
    (fun r hr he => hkeep r hr (by simpa using he))
    (fun r hr he => by simpa using hkeyed r hr (by simpa using he))
  refine ⟨m2, ?_, ?_⟩
  · obtain ⟨r, hr, he⟩ := hex
    have hlen := unique_filter hu hdk hkey hna
    have hmem : r ∈ t.rows.filter fun r => decide (field t.cols r dk.name = some a) :=
      List.mem_filter.2 ⟨hr, by simpa using he⟩
    obtain ⟨r', hr'⟩ : ∃ r', t.rows.filter (fun r => decide (field t.cols r dk.name = some a)) = [r'] := by
      match hl : t.rows.filter (fun r => decide (field t.cols r dk.name = some a)) with
      | [] => rw [hl] at hmem; cases hmem
      | [r'] => exact ⟨r', rfl⟩
      | _ :: _ :: _ => rw [hl] at hlen; simp at hlen
    have hr2 : r' ∈ t.rows ∧ field t.cols r' dk.name = some a := by
      have : r' ∈ t.rows.filter fun r => decide (field t.cols r dk.name = some a) := by
        rw [hr']; exact List.mem_singleton_self _
      simpa using List.mem_filter.1 this
    refine ⟨f r', by rw [m1, hr']; rfl, ?_⟩
    intro d hd v hv
    obtain ⟨st, w, e1, e2, e3, -⟩ := setRow_column hp.distinct (allMatch_length (hp.stored r' hr2.1))
      (hset r' hr2.1 hr2.2) hd
    obtain ⟨u, g1, g2⟩ := hgs d hd v hv st e1
    rw [g1, Option.getD_some, g2] at e2
    exact ⟨st, w, e1, e2, e3⟩
  · intro r hr
    obtain ⟨r0, hr0, rfl⟩ := List.mem_map.1 hr
    by_cases he : field t.cols r0 dk.name = some a
    · have := hset r0 hr0 he
      unfold setRow at this
      exact stored_proper hs this
    · rw [hkeep r0 hr0 he]
      exact hp.stored r0 hr0

end Butane
