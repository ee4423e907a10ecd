/-
What the operations of a migration do to the catalog of PostgreSQL.
-/
import Verif.Proofs.PgExec
import Verif.Spec.LiveRefs

namespace Butane.PgP
open Butane.Ddl hiding exec execAll execScript
open Butane.PgCat Butane.DdlP Spec

variable {env : PgEnv} {old new : ADB} {kw : String → Bool} {p : LitPrinters}

theorem execAll_cons_some {db db' : PDb} {a : DStmt} {b : List DStmt} :
    execAll env db (a :: b) = some db' ↔
      ∃ d, execAll env db [a] = some d ∧ execAll env d b = some db' :=
  execAll_append_some (a := [a])

/-! ### Changing a column -/

theorem clear_replace {t : ATable} {x : AColumn} :
    clearPk (t.replaceColumn x) = (clearPk t).replaceColumn { x with pk := false } := by
  have key : ∀ cols : List AColumn, (replaceCol cols x).map (fun c => { c with pk := false }) =
      replaceCol (cols.map fun c => { c with pk := false }) { x with pk := false } := by
    intro cols
    induction cols with
    | nil => rfl
    | cons a cols ih =>
      simp only [replaceCol, List.map_cons]
      split
      · next h => simp [replaceCol]
      · next h => simp [replaceCol, ih]
  simp only [clearPk, ATable.replaceColumn, key]

theorem collapse {G : String → Option ATable} {db : PDb} {n : String} {a : Option ATable}
    {t : ATable} {x x' : AColumn} (hn : x'.name = x.name)
    (h : J old new (upd (upd G n a) n (some ((t.replaceColumn x).replaceColumn x'))) db) :
    J old new (upd G n (some (t.replaceColumn x'))) db := by
  rw [upd_upd, replace_replace hn] at h
  exact h

/-- Equal but for the key flag and the default. -/
structure EqPk (x o : AColumn) : Prop where
  name : x.name = o.name
  type : x.typeid = o.typeid
  nullable : x.nullable = o.nullable
  auto : x.auto = o.auto
  unique : x.unique = o.unique
  reference : x.reference = o.reference

/-- The table after a column is changed. -/
def pgChange (t : ATable) (o c : AColumn) : ATable :=
  if c.pk && !o.pk then (clearPk t).replaceColumn c
  else
    match colByName t.columns c.name with
    | some x => t.replaceColumn { c with pk := x.pk }
    | none => t.replaceColumn { c with pk := false }

theorem op_change (hen : Naming env) (ha : NamesApart old new) {G : String → Option ATable}
    {db db' : PDb} (hJ : J old new G db) {n : String} {t : ATable} (hG : G n = some t)
    {x o c : AColumn} (hx : x ∈ t.columns) (hxo : EqPk x o) (hon : o.name = c.name)
    (hauto : o.auto = c.auto) (ho : PgColumn kw o) (hc : PgColumn kw c)
    (he : execAll env db (pgChangeStmts p n o c) = some db') :
    J old new (upd G n (some (pgChange t o c))) db' := by
  obtain ⟨s0, hl0, hT0⟩ := hJ.tables n t hG
  simp only [pgChangeStmts] at he
  obtain ⟨d5, he, h6⟩ := execAll_append_some.1 he
  obtain ⟨d4, he, h5⟩ := execAll_append_some.1 he
  obtain ⟨d3, he, h4⟩ := execAll_append_some.1 he
  obtain ⟨d2, he, h3⟩ := execAll_append_some.1 he
  obtain ⟨d1, h1, h2⟩ := execAll_append_some.1 he
  clear he
  have hxn : x.name = c.name := hxo.name.trans hon
  have m : ∀ (u : ATable) (y : AColumn), (u.columns.map (·.name)).Nodup →
      y ∈ (u.replaceColumn y).columns := fun u y h => (mem_replace h).2 (.inl rfl)
  -- type
  have k1 := seg_type ha hJ hG hx hxo.type hc hxo.name.symm h1
  -- nullability
  have k2 := seg_null ha k1 upd_self (m t _ hT0.distinct) (c := c) hxo.nullable hxo.name.symm h2
  replace k2 := collapse (by rfl) k2
  -- what the rest does, for any table
  have rest : ∀ (u : ATable) (y : AColumn), (u.columns.map (·.name)).Nodup → y.name = x.name →
      y.sqltype = c.sqltype → y.nullable = c.nullable → y.auto = x.auto → y.unique = x.unique →
      y.reference = x.reference → J old new (upd G n (some (u.replaceColumn y))) d3 →
      J old new (upd G n (some (u.replaceColumn { c with pk := y.pk }))) db' := by
    intro u y hu yn ys ynull ya yu yr hk
    have k4 := seg_unique hen ha hk upd_self (m u _ hu) (c := c) (o := o) (yu.trans hxo.unique)
      (by rw [yn, hxo.name]) (by rw [yn, hxn]) h4
    replace k4 := collapse (by rfl) k4
    have k5 := seg_default ha k4 upd_self (m u _ hu) (c := c) (o := o)
      (by show o.name = y.name; rw [yn, hxo.name])
      (fun hA => ?_) h5
    · replace k5 := collapse (by rfl) k5
      have k6 := seg_ref hen ha k5 upd_self (m u _ hu) (c := c) (o := o)
        (by show y.reference = _; rw [yr, hxo.reference])
        (by show o.name = y.name; rw [yn, hxo.name]) (by show c.name = y.name; rw [yn, hxn]) ho hc h6
      replace k6 := collapse (by rfl) k6
      have e : ({ c with pk := y.pk } : AColumn) =
          { y with unique := c.unique, default := c.default, reference := c.reference } := by
        have hya : y.auto = c.auto := by rw [ya, hxo.auto, hauto]
        have hyn : y.name = c.name := by rw [yn, hxn]
        rw [← hya, ← hyn, ← ys, ← ynull]
      rw [e]
      exact k6
    · have hA : y.auto = true := hA
      have hoA : o.auto = true := by rw [← hxo.auto, ← ya, hA]
      exact ⟨(ho.auto hoA).2.1, (hc.auto (hauto ▸ hoA)).2.1⟩
  by_cases hset : (o.pk ≠ c.pk && c.pk) = true
  · rw [if_pos hset] at h3
    have hcp : c.pk = true := by
      simp only [Bool.and_eq_true] at hset; exact hset.2
    have hop : o.pk = false := by
      simp only [Bool.and_eq_true, decide_eq_true_eq, hcp] at hset
      simpa using hset.1
    have hp : pgChange t o c = (clearPk t).replaceColumn c := by
      simp [pgChange, hcp, hop]
    obtain ⟨d, g1, g2⟩ : ∃ d, exec env d2 (.dropConstraint (lower n) (lower n ++ "_pkey") true) =
        some d ∧ exec env d (.addPrimaryKey (lower n) (lower c.name)) = some d3 := by
      simp only [execAll] at h3
      cases e1 : exec env d2 (.dropConstraint (lower n) (lower n ++ "_pkey") true) with
      | none => rw [e1] at h3; cases h3
      | some d =>
        rw [e1] at h3
        simp only at h3
        refine ⟨d, rfl, ?_⟩
        cases e2 : exec env d (.addPrimaryKey (lower n) (lower c.name)) with
        | none => rw [e2] at h3; cases h3
        | some d' => rw [e2] at h3; exact h3
    have q1 := stmt_dropPk ha k2 upd_self g1
    rw [upd_upd, clear_replace] at q1
    have hcd : ((clearPk t).columns.map (·.name)).Nodup := by
      rw [names_clearPk]; exact hT0.distinct
    have q2 := stmt_addPk hen ha q1 upd_self (m (clearPk t) _ hcd)
      (hc.pk hcp) ?_ (by
        show exec env d (.addPrimaryKey (lower n) (lower x.name)) = _
        rw [hxn]; exact g2)
    · replace q2 := collapse (by rfl) q2
      rw [hp]
      have := rest (clearPk t) { x with sqltype := c.sqltype, nullable := c.nullable, pk := true }
        hcd rfl rfl rfl rfl rfl rfl q2
      have e : ({ c with pk := true } : AColumn) = c := by rw [← hcp]
      rw [← e]
      exact this
    · intro y hy
      rcases (mem_replace hcd).1 hy with rfl | ⟨hy, -⟩
      · rfl
      · obtain ⟨z, -, rfl⟩ := mem_clearPk.1 hy
        rfl
  · rw [if_neg hset] at h3
    cases h3
    have hp : pgChange t o c = t.replaceColumn { c with pk := x.pk } := by
      have : (c.pk && !o.pk) = false := by
        revert hset
        cases c.pk <;> cases o.pk <;> simp
      simp only [pgChange, this, Bool.false_eq_true, if_false]
      rw [← hxn, colByName_of_mem hT0.distinct hx]
    rw [hp]
    exact rest t { x with sqltype := c.sqltype, nullable := c.nullable } hT0.distinct rfl rfl rfl rfl
      rfl rfl k2

/-! ### New columns -/

/-- The definition of a column says what the schema does. -/
structure DefOf (c : AColumn) (d : ColDef) : Prop where
  name : d.name = lower c.name
  type : d.type = pgWordsOf c
  notNull : d.notNull = !c.nullable
  pk : d.pk = c.pk
  unique : d.unique = c.unique

theorem pgDef_of (c : AColumn) : DefOf c (pgDef c) := by
  refine ⟨rfl, rfl, ?_, ?_, ?_⟩ <;>
  · simp only [ColDef.notNull, ColDef.pk, ColDef.unique, pgDef, conList]
    cases c.nullable <;> cases c.pk <;> cases c.unique <;> rfl

theorem pgDef_default (c : AColumn) (l : Lit) :
    DefOf c { pgDef c with cons := conList c ++ [.default l] } := by
  refine ⟨rfl, rfl, ?_, ?_, ?_⟩ <;>
  · simp only [ColDef.notNull, ColDef.pk, ColDef.unique, pgDef, conList]
    cases c.nullable <;> cases c.pk <;> cases c.unique <;> simp

theorem makeCol_is {c : AColumn} {d : ColDef} (hd : DefOf c d) (hc : PgColumn kw c) {x : PCol}
    (h : makeCol env d = some x) : PgColumnIs c x := by
  obtain ⟨ty, w, h1, h2⟩ := hc.type
  simp only [makeCol, hd.type] at h
  cases hA : c.auto with
  | true =>
    obtain ⟨hty, -, hnull⟩ := hc.auto hA
    have key : ∃ w', serialType (pgWordsOf c) = some w' ∧ pgTypeOf ty = some w' := by
      rcases hty with e | e <;> rw [e] at h1 <;> cases h1 <;> simp only [pgWordsOf, e, hA] <;>
        exact ⟨_, rfl, rfl⟩
    obtain ⟨w', k1, k2⟩ := key
    rw [k1] at h
    simp only at h
    split at h
    · cases h
    · cases h
      exact ⟨hd.name, ⟨ty, h1, k2⟩, by simp [hnull], hA.symm⟩
  | false =>
    have hw : pgWordsOf c = w := by simp [pgWordsOf, h1, hA, h2]
    have hs : serialType (pgWordsOf c) = none := by
      rw [hw]
      cases ty <;> cases h2 <;> rfl
    rw [hs] at h
    simp only at h
    split at h
    · cases h
      refine ⟨hd.name, ⟨ty, h1, by rw [h2, hw]⟩, ?_, hA.symm⟩
      simp only [hd.notNull, hd.pk]
      cases hp : c.pk with
      | false => simp
      | true => simp [hc.pk hp]
    · cases h

theorem makeCol_default {d : ColDef} {l : Lit} {x : PCol} (hl : d.default = some l)
    (h : makeCol env d = some x) : x.serial = false := by
  simp only [makeCol] at h
  split at h
  · rw [hl] at h; cases h
  · split at h
    · cases h; rfl
    · cases h

/-- The constraints of a new column. -/
def kindsOf (c : AColumn) : List PKind :=
  (if c.pk then [.pk (lower c.name)] else []) ++ (if c.unique then [.unique (lower c.name)] else [])

theorem colKinds_of {c : AColumn} {d : ColDef} (hd : DefOf c d) : colKinds d = kindsOf c := by
  simp only [colKinds, kindsOf, hd.name, hd.pk, hd.unique]

theorem mem_kindsOf {c : AColumn} {k : PKind} :
    k ∈ kindsOf c ↔ ColCon { c with reference := none } k := by
  simp only [kindsOf, List.mem_append]
  cases k <;> cases c.pk <;> cases c.unique <;> simp [ColCon]

theorem kinds_nodup {n : String} (c : AColumn) : ((kindsOf c).map (stdName n)).Nodup := by
  simp only [kindsOf]
  cases c.pk <;> cases c.unique <;> simp [stdName_label, label]

theorem label_same {x y : AColumn} {k k' : PKind} (hk : k ∈ kindsOf x) (hk' : k' ∈ kindsOf y)
    (h : label k = label k') : (x.pk = true ∧ y.pk = true) ∨ lower x.name = lower y.name := by
  rw [mem_kindsOf] at hk hk'
  cases k <;> cases k' <;> simp_all [label, ColCon]

theorem kindsOf_col {c : AColumn} {k : PKind} (h : k ∈ kindsOf c) : k.col = lower c.name :=
  (colCon_col (mem_kindsOf.1 h) :)

/-- A new table. -/
theorem create_nodup {n : String} {cols : List AColumn}
    (hn : (cols.map fun c => lower c.name).Nodup) (hp : (cols.filter (·.pk)).length ≤ 1) :
    ((cols.flatMap kindsOf).map (stdName n)).Nodup := by
  induction cols with
  | nil => simp
  | cons c cols ih =>
    simp only [List.map_cons, List.nodup_cons, List.mem_map, not_exists, not_and] at hn
    simp only [List.flatMap_cons, List.map_append, List.nodup_append]
    refine ⟨kinds_nodup c, ih hn.2 ?_, ?_⟩
    · simp only [List.filter_cons] at hp
      split at hp
      · simp only [List.length_cons] at hp; omega
      · exact hp
    · intro a ha b hb e
      obtain ⟨k, hk, rfl⟩ := List.mem_map.1 ha
      obtain ⟨k', hk', rfl⟩ := List.mem_map.1 hb
      obtain ⟨y, hy, hk'⟩ := List.mem_flatMap.1 hk'
      rw [stdName_label] at e
      rcases label_same hk hk' e with ⟨h1, h2⟩ | h
      · simp only [List.filter_cons, h1, if_true, List.length_cons] at hp
        have : (cols.filter (·.pk)) = [] := List.eq_nil_of_length_eq_zero (by omega)
        rw [List.filter_eq_nil_iff] at this
        exact this y hy h2
      · exact hn.1 y hy h.symm

theorem makeCols_is {cols : List AColumn} (hc : ∀ c ∈ cols, PgColumn kw c) {xs : List PCol}
    (h : makeCols env (cols.map pgDef) = some xs) : AllMatch PgColumnIs cols xs := by
  induction cols generalizing xs with
  | nil => cases h; exact .nil
  | cons c cols ih =>
    simp only [List.map_cons, makeCols] at h
    split at h
    · next a b h1 h2 =>
      cases h
      exact .cons (makeCol_is (pgDef_of c) (hc c (List.mem_cons_self ..)) h1)
        (ih (fun x hx => hc x (List.mem_cons_of_mem _ hx)) h2)
    · cases h

theorem names_match {cols : List AColumn} {xs : List PCol} (h : AllMatch PgColumnIs cols xs) :
    xs.map (·.name) = cols.map fun c => lower c.name := by
  induction h with
  | nil => rfl
  | cons h1 h2 ih => simp only [List.map_cons, ih, h1.name]

theorem nodup_lower (ha : NamesApart old new) {n : String} {cols : List AColumn}
    (hd : (cols.map (·.name)).Nodup) (hk : ∀ c ∈ cols, HasColumn old new n c.name) :
    (cols.map fun c => lower c.name).Nodup := by
  induction cols with
  | nil => simp
  | cons c cols ih =>
    simp only [List.map_cons, List.nodup_cons, List.mem_map, not_exists, not_and] at hd ⊢
    refine ⟨?_, ih hd.2 fun x hx => hk x (List.mem_cons_of_mem _ hx)⟩
    intro y hy e
    exact hd.1 y hy (ha.columns n _ _ (hk y (List.mem_cons_of_mem _ hy))
      (hk c (List.mem_cons_self ..)) e)

theorem op_create (hen : Naming env) (ha : NamesApart old new) {G : String → Option ATable}
    {db db' : PDb} (hJ : J old new G db) {t : ATable} (ht : PgTable kw t)
    (hnew : HasTable old new t.name) (hcols : ∀ c ∈ t.columns, HasColumn old new t.name c.name)
    (hd : (t.columns.map (·.name)).Nodup)
    (he : exec env db (pgCreate false t) = some db') :
    J old new (upd G t.name (some (withoutRefs t))) db' := by
  have hnl := nodup_lower ha hd hcols
  simp only [exec, pgCreate, altered] at he
  cases hperm : env.permits db (.createTable false (lower t.name) (t.columns.map pgDef) [] false) with
  | false => simp [hperm] at he
  | true =>
  simp only [hperm, Bool.not_true, Bool.false_eq_true, if_false] at he
  split at he
  · cases he
  · next hl =>
    split at he
    · next cs hcs =>
      split at he
      · next hcond =>
        cases he
        simp only [Bool.and_eq_true, decide_eq_true_eq] at hcond
        have hm := makeCols_is ht.columns hcs
        have hkinds : (t.columns.map pgDef).flatMap colKinds = t.columns.flatMap kindsOf := by
          rw [List.flatMap_map]
          congr 1
          funext c
          exact colKinds_of (pgDef_of c)
        have hpk : (t.columns.filter (·.pk)).length ≤ 1 := by
          have := hcond.2
          rw [List.filter_map, List.length_map] at this
          have e : ((fun x : ColDef => x.pk) ∘ pgDef) = fun c : AColumn => c.pk := by
            funext c; exact (pgDef_of c).pk
          rw [e] at this
          exact this
        rw [hkinds, addCons_std hen hJ.sorted (t := ⟨cs, []⟩)]
        · refine hJ.set ha hnew ⟨⟨?_, ?_, ?_⟩, ?_, ?_, ?_, ?_, ?_⟩
          · intro c hc
            obtain ⟨y, hy, rfl⟩ := List.mem_map.1 hc
            obtain ⟨x, hx, hi⟩ := hm.mem_left hy
            exact ⟨x, hx, ⟨hi.name, hi.type, hi.notNull, hi.serial⟩⟩
          · intro x hx
            obtain ⟨c, hc, hi⟩ := hm.mem_right hx
            exact ⟨_, List.mem_map.2 ⟨c, hc, rfl⟩, hi.name⟩
          · intro k
            rw [colCon_iff]
            simp only [List.nil_append, List.mem_map, List.mem_flatMap, withoutRefs]
            constructor
            · rintro ⟨x, ⟨k', ⟨c, hc, hk⟩, rfl⟩, rfl⟩
              exact ⟨_, ⟨c, hc, rfl⟩, mem_kindsOf.1 hk⟩
            · rintro ⟨x, ⟨c, hc, rfl⟩, hk⟩
              exact ⟨_, ⟨k, ⟨c, hc, mem_kindsOf.2 hk⟩, rfl⟩, rfl⟩
          · rw [names_match hm]; exact hnl
          · intro x hx
            simp only [List.nil_append, List.mem_map] at hx
            obtain ⟨k, -, rfl⟩ := hx
            rfl
          · simp only [List.nil_append, List.map_map]
            have := create_nodup (n := lower t.name) hnl hpk
            exact this
          · intro c hc
            obtain ⟨y, hy, rfl⟩ := List.mem_map.1 hc
            exact hcols y hy
          · simp only [withoutRefs, List.map_map]
            exact hd
        · intro k hk
          obtain ⟨c, hc, hk⟩ := List.mem_flatMap.1 hk
          exact ⟨hJ.outside ha (hcols c hc) (kindsOf_col hk),
            ha.short _ _ _ (hcols c hc) (kindsOf_col hk)⟩
        · simpa using create_nodup hnl hpk
      · cases he
    · cases he

theorem default_default (c : AColumn) (l : Lit) :
    ColDef.default { pgDef c with cons := conList c ++ [.default l] } = some l := by
  simp only [ColDef.default, conList]
  cases c.nullable <;> cases c.pk <;> cases c.unique <;> rfl

theorem hasPk_iff {n : String} {t : ATable} {s : PTable} (h : TJ old new n t s) :
    hasPk s = true ↔ ∃ y ∈ t.columns, y.pk = true := by
  simp only [hasPk, List.any_eq_true]
  constructor
  · rintro ⟨x, hx, hk⟩
    cases e : x.kind with
    | pk c =>
      obtain ⟨y, hy, hp, -⟩ := (h.is.constraints _).1 ⟨x, hx, e⟩
      exact ⟨y, hy, hp⟩
    | unique c => rw [e] at hk; cases hk
    | fk c r k => rw [e] at hk; cases hk
  · rintro ⟨y, hy, hp⟩
    obtain ⟨x, hx, e⟩ := (h.is.constraints (.pk (lower y.name))).2 ⟨y, hy, hp, rfl⟩
    exact ⟨x, hx, by rw [e]⟩

theorem mem_add {cols : List AColumn} {c y : AColumn} (h : ∀ x ∈ cols, x.name ≠ c.name) :
    y ∈ replaceCol cols c ↔ y ∈ cols ∨ y = c := by
  induction cols with
  | nil => simp [replaceCol]
  | cons a cols ih =>
    have ha := h a (List.mem_cons_self ..)
    simp only [replaceCol, beq_iff_eq, ha, if_false, List.mem_cons,
      ih fun x hx => h x (List.mem_cons_of_mem _ hx), or_assoc]

/-- The table with a column more; a key replaces the other one. -/
def pgAdd (t : ATable) (c : AColumn) : ATable :=
  (if c.pk then clearPk t else t).addColumn c

theorem clearPk_none {t : ATable} (h : ∀ y ∈ t.columns, y.pk = false) : clearPk t = t := by
  cases t with
  | mk n cols =>
    simp only [clearPk, ATable.mk.injEq, true_and]
    induction cols with
    | nil => rfl
    | cons a cols ih =>
      simp only [List.map_cons, List.cons.injEq]
      refine ⟨?_, ih fun y hy => h y (List.mem_cons_of_mem _ hy)⟩
      have := h a (List.mem_cons_self ..)
      rw [← this]

theorem op_add (hen : Naming env) (ha : NamesApart old new) {G : String → Option ATable}
    {db db' : PDb} (hJ : J old new G db) {n : String} {t : ATable} (hG : G n = some t)
    {c : AColumn} (hc : PgColumn kw c) (hk : HasColumn old new n c.name)
    (hno : ∀ y ∈ t.columns, y.name ≠ c.name)
    (he : execAll env db (pgStmts p (.addColumn n c)) = some db') :
    J old new (upd G n (some (pgAdd t c))) db' := by
  obtain ⟨v, hv⟩ := pg_default hc
  simp only [pgStmts, hv] at he
  obtain ⟨d1, h1, h2⟩ := execAll_cons_some.1 he
  rw [execAll_one] at h1
  have hJ1 : J old new (upd G n (some (pgAdd t { c with reference := none }))) d1 := by
    refine hJ.stmt ha hG rfl h1 ?_
    intro s s' hT hl hal
    simp only [alter] at hal
    split at hal
    · next x hx =>
      split at hal
      · cases hal
      · next hcond =>
        cases hal
        rw [colKinds_of (pgDef_default c _)]
        have hpk : c.pk = true → ∀ y ∈ t.columns, y.pk = false := by
          intro hp y hy
          cases hy' : y.pk with
          | false => rfl
          | true =>
            exfalso
            apply hcond
            simp only [Bool.or_eq_true, Bool.and_eq_true]
            exact .inr ⟨by rw [(pgDef_default c _).pk]; exact hp, (hasPk_iff hT).2 ⟨y, hy, hy'⟩⟩
        have et : pgAdd t { c with reference := none } = t.addColumn { c with reference := none } := by
          simp only [pgAdd]
          split
          · next hp => rw [clearPk_none (hpk hp)]
          · rfl
        rw [et]
        have hi := makeCol_is (pgDef_default c _) hc hx
        have hnm : lower c.name ∉ colNames s := hT.not_colName ha hk hno
        have hmem : ∀ y, y ∈ (t.addColumn { c with reference := none }).columns ↔
            y ∈ t.columns ∨ y = { c with reference := none } := fun y =>
          mem_add (c := { c with reference := none }) hno
        have hlab : ∀ k, PgConstraint t k → ∀ k' ∈ kindsOf c, label k ≠ label k' := by
          intro k hk1 k' hk' e
          obtain ⟨y, hy, hk1⟩ := colCon_iff.1 hk1
          have e2 : lower y.name ≠ lower c.name := fun h =>
            hno y hy (ha.columns n _ _ (hT.known y hy) hk h)
          rw [mem_kindsOf] at hk'
          have := hpk
          cases k <;> cases k' <;> simp_all [label, ColCon]
        rw [addCons_std hen hJ.sorted]
        · refine ⟨⟨?_, ?_, ?_⟩, ?_, ?_, ?_, ?_, nodup_replaceCol hT.distinct _⟩
          · intro y hy
            rcases (hmem y).1 hy with hy | rfl
            · obtain ⟨d, hd, hdi⟩ := hT.is.columns y hy
              exact ⟨d, List.mem_append_left _ hd, hdi⟩
            · exact ⟨x, List.mem_append_right _ (List.mem_singleton.2 rfl),
                ⟨hi.name, hi.type, hi.notNull, hi.serial⟩⟩
          · intro d hd
            rcases List.mem_append.1 hd with hd | hd
            · obtain ⟨y, hy, e⟩ := hT.is.only d hd
              exact ⟨y, (hmem y).2 (.inl hy), e⟩
            · simp only [List.mem_singleton] at hd
              subst hd
              exact ⟨_, (hmem _).2 (.inr rfl), hi.name⟩
          · intro k
            rw [colCon_iff]
            constructor
            · rintro ⟨y, hy, rfl⟩
              rcases List.mem_append.1 hy with hy | hy
              · obtain ⟨z, hz, hzk⟩ := colCon_iff.1 ((hT.is.constraints _).1 ⟨y, hy, rfl⟩)
                exact ⟨z, (hmem z).2 (.inl hz), hzk⟩
              · obtain ⟨k, hk', rfl⟩ := List.mem_map.1 hy
                exact ⟨_, (hmem _).2 (.inr rfl), mem_kindsOf.1 hk'⟩
            · rintro ⟨z, hz, hzk⟩
              rcases (hmem z).1 hz with hz | rfl
              · obtain ⟨y, hy, e⟩ := (hT.is.constraints k).2 (colCon_iff.2 ⟨z, hz, hzk⟩)
                exact ⟨y, List.mem_append_left _ hy, e⟩
              · exact ⟨stdCon (lower n) k, List.mem_append_right _
                  (List.mem_map.2 ⟨k, mem_kindsOf.2 hzk, rfl⟩), rfl⟩
          · simp only [List.map_append, List.map_cons, List.map_nil]
            rw [List.nodup_append]
            refine ⟨hT.cols, by simp, ?_⟩
            intro a ha' b hb e
            simp only [List.mem_singleton] at hb
            rw [e, hb, hi.name] at ha'
            exact hnm ha'
          · intro y hy
            rcases List.mem_append.1 hy with hy | hy
            · exact hT.names y hy
            · obtain ⟨k, -, rfl⟩ := List.mem_map.1 hy
              rfl
          · simp only [List.map_append, List.map_map]
            rw [List.nodup_append]
            refine ⟨hT.cons, kinds_nodup c, ?_⟩
            intro a ha' b hb e
            obtain ⟨k, hk', rfl⟩ := List.mem_map.1 hb
            obtain ⟨y, hy, rfl⟩ := List.mem_map.1 ha'
            rw [hT.names y hy] at e
            exact hlab y.kind ((hT.is.constraints _).1 ⟨y, hy, rfl⟩) k hk' (stdName_label.1 e)
          · intro y hy
            rcases (hmem y).1 hy with hy | rfl
            · exact hT.known y hy
            · exact hk
        · intro k hk'
          exact ⟨hJ.outside ha hk (kindsOf_col hk'), ha.short _ _ _ hk (kindsOf_col hk')⟩
        · rw [List.nodup_append]
          refine ⟨hT.cons, kinds_nodup c, ?_⟩
          intro a ha' b hb e
          obtain ⟨k, hk', rfl⟩ := List.mem_map.1 hb
          obtain ⟨y, hy, rfl⟩ := List.mem_map.1 ha'
          rw [hT.names y hy, stdName_label] at e
          exact hlab y.kind ((hT.is.constraints _).1 ⟨y, hy, rfl⟩) k hk' e
    · cases hal
  obtain ⟨s0, -, hT0⟩ := hJ1.tables n _ upd_self
  have hx1 : ({ c with reference := none } : AColumn) ∈
      (pgAdd t { c with reference := none }).columns := by
    have hz' : colByName (pgAdd t { c with reference := none }).columns c.name =
        some { c with reference := none } := by
      simp only [pgAdd, ATable.addColumn, ATable.replaceColumn, colByName_replaceCol, if_true]
    exact (colByName_some hz').1
  simp only [pgFk] at h2
  cases hr : c.reference with
  | none =>
    rw [hr] at h2
    cases h2
    have e : ({ c with reference := none } : AColumn) = c := by rw [← hr]
    rw [e] at hJ1
    exact hJ1
  | some r =>
    obtain ⟨a, b, rfl, -⟩ := hc.reference r hr
    rw [hr] at h2
    simp only [Option.toList] at h2
    rw [execAll_one] at h2
    have := stmt_addFk hen ha hJ1 upd_self hx1 rfl h2
    have e : ({ c with reference := some (.literal a b) } : AColumn) = c := by rw [← hr]
    have := collapse (t := if c.pk then clearPk t else t) (x := { c with reference := none })
      (x' := { c with reference := some (.literal a b) }) rfl this
    rw [e] at this
    exact this

/-! ### Removing -/

theorem op_remove (ha : NamesApart old new) {G : String → Option ATable}
    {db db' : PDb} (hJ : J old new G db) {n c : String} {t : ATable} (hG : G n = some t)
    (hk : HasColumn old new n c)
    (he : exec env db (.dropColumn (lower n) (lower c)) = some db') :
    J old new (upd G n (some (t.removeColumn c))) db' := by
  refine hJ.stmt ha hG rfl he ?_
  intro s s' hT hl hal
  simp only [alter] at hal
  split at hal
  · cases hal
    have hmem : ∀ y, y ∈ (t.removeColumn c).columns ↔ y ∈ t.columns ∧ y.name ≠ c := by
      intro y
      simp [ATable.removeColumn]
    have hlow : ∀ y ∈ t.columns, (lower y.name = lower c ↔ y.name = c) := fun y hy =>
      ⟨fun h => ha.columns n _ _ (hT.known y hy) hk h, fun h => by rw [h]⟩
    refine ⟨⟨?_, ?_, ?_⟩, ?_, ?_, ?_, ?_, nodup_filter_names hT.distinct _⟩
    · intro y hy
      obtain ⟨hy, hne⟩ := (hmem y).1 hy
      obtain ⟨d, hd, hi⟩ := hT.is.columns y hy
      refine ⟨d, List.mem_filter.2 ⟨hd, ?_⟩, hi⟩
      simp only [ne_eq, decide_eq_true_eq, hi.name, hlow y hy]
      exact hne
    · intro d hd
      obtain ⟨hd, hne⟩ := List.mem_filter.1 hd
      obtain ⟨y, hy, e⟩ := hT.is.only d hd
      simp only [ne_eq, decide_eq_true_eq, e, hlow y hy] at hne
      exact ⟨y, (hmem y).2 ⟨hy, hne⟩, e⟩
    · intro k
      rw [colCon_iff]
      constructor
      · rintro ⟨x, hx, rfl⟩
        obtain ⟨hx, hne⟩ := List.mem_filter.1 hx
        obtain ⟨y, hy, hyk⟩ := colCon_iff.1 ((hT.is.constraints _).1 ⟨x, hx, rfl⟩)
        simp only [ne_eq, decide_eq_true_eq, colCon_col hyk, hlow y hy] at hne
        exact ⟨y, (hmem y).2 ⟨hy, hne⟩, hyk⟩
      · rintro ⟨y, hy, hyk⟩
        obtain ⟨hy, hne⟩ := (hmem y).1 hy
        obtain ⟨x, hx, rfl⟩ := (hT.is.constraints k).2 (colCon_iff.2 ⟨y, hy, hyk⟩)
        refine ⟨x, List.mem_filter.2 ⟨hx, ?_⟩, rfl⟩
        simp only [ne_eq, decide_eq_true_eq, colCon_col hyk, hlow y hy]
        exact hne
    · exact (List.filter_sublist.map _).nodup hT.cols
    · intro x hx
      exact hT.names x (List.mem_filter.1 hx).1
    · exact (List.filter_sublist.map _).nodup hT.cons
    · intro y hy
      exact hT.known y ((hmem y).1 hy).1
  · cases hal

theorem op_drop (ha : NamesApart old new) {G : String → Option ATable}
    {db db' : PDb} (hJ : J old new G db) {n : String} (hn : HasTable old new n)
    (he : exec env db (.dropTable (lower n)) = some db') :
    J old new (upd G n none) db' := by
  simp only [exec, altered] at he
  split at he
  · cases he
  split at he
  · split at he
    · cases he
    · cases he
      exact hJ.remove ha hn
  · cases he

/-! ### Foreign keys of whole tables -/

theorem replace_at {pre post : List AColumn} {x x' : AColumn} (hn : x'.name = x.name)
    (hp : ∀ y ∈ pre, y.name ≠ x.name) :
    replaceCol (pre ++ x :: post) x' = pre ++ x' :: post := by
  induction pre with
  | nil => simp [replaceCol, hn]
  | cons a pre ih =>
    have := hp a (List.mem_cons_self ..)
    simp only [List.cons_append, replaceCol, hn, beq_iff_eq, this, if_false,
      ih fun y hy => hp y (List.mem_cons_of_mem _ hy)]

/-- The column without its reference. -/
def noRef (c : AColumn) : AColumn := { c with reference := none }

theorem op_addFks (hen : Naming env) (ha : NamesApart old new) {n : String} {N : String}
    {pre post : List AColumn} (hd : ((pre ++ post).map (·.name)).Nodup)
    (hc : ∀ c ∈ post, PgColumn kw c) {G : String → Option ATable}
    {db db' : PDb} (hJ : J old new G db) (hG : G n = some ⟨N, pre ++ post.map noRef⟩)
    (he : execAll env db (post.filterMap (pgFk n)) = some db') :
    J old new (upd G n (some ⟨N, pre ++ post⟩)) db' := by
  induction post generalizing pre db G with
  | nil =>
    cases he
    rw [upd_same (by simpa using hG)]
    exact hJ
  | cons c post ih =>
    have hpre : ∀ y ∈ pre, y.name ≠ c.name := by
      rw [List.map_append, List.nodup_append] at hd
      exact fun y hy => hd.2.2 _ (List.mem_map_of_mem hy) _ (by simp)
    have hcp := hc c (List.mem_cons_self ..)
    have hd' : (((pre ++ [c]) ++ post).map (·.name)).Nodup := by simpa using hd
    obtain ⟨d, h1, h2⟩ : ∃ d, J old new (upd G n (some ⟨N, (pre ++ [c]) ++ post.map noRef⟩)) d ∧
        execAll env d (post.filterMap (pgFk n)) = some db' := by
      cases hr : c.reference with
      | none =>
        simp only [List.filterMap_cons, pgFk, hr] at he
        refine ⟨db, ?_, he⟩
        have e : noRef c = c := by simp only [noRef]; rw [← hr]
        rw [upd_same (by simpa [e] using hG)]
        exact hJ
      | some r =>
        obtain ⟨a, b, rfl, -⟩ := hcp.reference r hr
        simp only [List.filterMap_cons, pgFk, hr] at he
        obtain ⟨d, g1, g2⟩ := execAll_cons_some.1 he
        rw [execAll_one] at g1
        refine ⟨d, ?_, g2⟩
        have := stmt_addFk hen ha hJ hG (x := noRef c) (by simp) rfl g1
        have e : ({ noRef c with reference := some (.literal a b) } : AColumn) = c := by
          simp only [noRef]; rw [← hr]
        rw [e] at this
        simp only [ATable.replaceColumn, List.map_cons] at this
        rw [replace_at (x := noRef c) (x' := c) rfl hpre] at this
        simpa using this
    have := ih hd' (fun x hx => hc x (List.mem_cons_of_mem _ hx)) h1 upd_self h2
    rw [upd_upd] at this
    simpa using this

theorem op_dropFks (ha : NamesApart old new) {n : String} {N : String}
    {pre post : List AColumn} (hd : ((pre ++ post).map (·.name)).Nodup)
    {G : String → Option ATable}
    {db db' : PDb} (hJ : J old new G db) (hG : G n = some ⟨N, pre ++ post⟩)
    (he : execAll env db (post.filterMap (pgDropFk n)) = some db') :
    J old new (upd G n (some ⟨N, pre ++ post.map noRef⟩)) db' := by
  induction post generalizing pre db G with
  | nil =>
    cases he
    rw [upd_same (by simpa using hG)]
    exact hJ
  | cons c post ih =>
    have hpre : ∀ y ∈ pre, y.name ≠ c.name := by
      rw [List.map_append, List.nodup_append] at hd
      exact fun y hy => hd.2.2 _ (List.mem_map_of_mem hy) _ (by simp)
    have hd' : (((pre ++ [noRef c]) ++ post).map (·.name)).Nodup := by simpa [noRef] using hd
    obtain ⟨d, h1, h2⟩ : ∃ d, J old new (upd G n (some ⟨N, (pre ++ [noRef c]) ++ post⟩)) d ∧
        execAll env d (post.filterMap (pgDropFk n)) = some db' := by
      cases hr : c.reference with
      | none =>
        simp only [List.filterMap_cons, pgDropFk, hr] at he
        refine ⟨db, ?_, he⟩
        have e : noRef c = c := by simp only [noRef]; rw [← hr]
        rw [upd_same (by simpa [e] using hG)]
        exact hJ
      | some r =>
        simp only [List.filterMap_cons, pgDropFk, hr, Option.isSome_some, if_true] at he
        obtain ⟨d, g1, g2⟩ := execAll_cons_some.1 he
        rw [execAll_one] at g1
        refine ⟨d, ?_, g2⟩
        have := stmt_dropFk ha hJ hG (x := c) (by simp) g1
        simp only [ATable.replaceColumn] at this
        rw [replace_at (x := c) (x' := { c with reference := none }) rfl hpre] at this
        simpa [noRef] using this
    have := ih hd' h1 upd_self h2
    rw [upd_upd] at this
    simpa using this

end Butane.PgP
