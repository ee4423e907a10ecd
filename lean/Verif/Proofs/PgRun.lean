/-
A whole migration on PostgreSQL.
-/
import Verif.Proofs.PgOps
import Verif.Proofs.DdlRun

namespace Butane.PgP
open Butane.Ddl hiding exec execAll execScript
open Butane.PgCat Butane.DdlP Spec

variable {env : PgEnv} {old new : ADB} {kw : String → Bool} {p : LitPrinters}

/-! ### The schema of the database while the migration runs -/

/-- The table after an operation on a column. -/
def pgTab (t : ATable) : Operation → ATable
  | .addColumn _ c => pgAdd t c
  | .removeColumn _ c => t.removeColumn c
  | .changeColumn _ o c => pgChange t o c
  | _ => t

/-- What an operation makes of the table it is about. -/
def pgTable (o : Option ATable) : Operation → Option ATable
  | .addTable t => some (withoutRefs t)
  | .addTableIfNotExists t => some (withoutRefs t)
  | .addTableConstraints t => some t
  | .removeTableConstraints t => some (withoutRefs t)
  | .removeTable _ => none
  | .addColumn n c => o.map (pgTab · (.addColumn n c))
  | .removeColumn n c => o.map (pgTab · (.removeColumn n c))
  | .changeColumn n o' c => o.map (pgTab · (.changeColumn n o' c))

/-- The tables after an operation. -/
def pgEff (G : String → Option ATable) (op : Operation) : String → Option ATable :=
  upd G op.target (pgTable (G op.target) op)

/-- What an operation needs. -/
def Ready (old new : ADB) (kw : String → Bool) (G : String → Option ATable) : Operation → Prop
  | .addTable t => PgTable kw t ∧ HasTable old new t.name ∧
      (∀ c ∈ t.columns, HasColumn old new t.name c.name) ∧ (t.columns.map (·.name)).Nodup
  | .addTableIfNotExists _ => False
  | .addTableConstraints t => G t.name = some (withoutRefs t) ∧ PgTable kw t ∧
      (t.columns.map (·.name)).Nodup
  | .removeTableConstraints t => G t.name = some t ∧ (t.columns.map (·.name)).Nodup
  | .removeTable n => HasTable old new n
  | .addColumn n c => ∃ t, G n = some t ∧ PgColumn kw c ∧ HasColumn old new n c.name ∧
      ∀ y ∈ t.columns, y.name ≠ c.name
  | .removeColumn n c => ∃ t, G n = some t ∧ HasColumn old new n c
  | .changeColumn n o c => ∃ t x, G n = some t ∧ x ∈ t.columns ∧ EqPk x o ∧ o.name = c.name ∧
      o.auto = c.auto ∧ PgColumn kw o ∧ PgColumn kw c

theorem op_step (hen : Naming env) (ha : NamesApart old new) {G : String → Option ATable}
    {db db' : PDb} (hJ : J old new G db) {op : Operation} (hr : Ready old new kw G op)
    (he : execAll env db (pgStmts p op) = some db') : J old new (pgEff G op) db' := by
  cases op with
  | addTable t =>
    obtain ⟨h1, h2, h3, h4⟩ := hr
    simp only [pgStmts] at he
    rw [execAll_one] at he
    exact op_create hen ha hJ h1 h2 h3 h4 he
  | addTableIfNotExists t => exact hr.elim
  | addTableConstraints t =>
    obtain ⟨h1, h2, h3⟩ := hr
    exact op_addFks hen ha (pre := []) (N := t.name) (n := t.name) (by simpa using h3) h2.columns hJ
      (by rw [h1]; rfl) he
  | removeTableConstraints t =>
    obtain ⟨h1, h3⟩ := hr
    exact op_dropFks ha (pre := []) (N := t.name) (n := t.name) (by simpa using h3) hJ
      (by rw [h1]; rfl) he
  | removeTable n =>
    simp only [pgStmts] at he
    rw [execAll_one] at he
    exact op_drop ha hJ hr he
  | addColumn n c =>
    obtain ⟨t, h1, h2, h3, h4⟩ := hr
    have := op_add hen ha hJ h1 h2 h3 h4 he
    simpa only [pgEff, Operation.target, pgTable, h1, Option.map_some, pgTab] using this
  | removeColumn n c =>
    obtain ⟨t, h1, h2⟩ := hr
    simp only [pgStmts] at he
    rw [execAll_one] at he
    have := op_remove ha hJ h1 h2 he
    simpa only [pgEff, Operation.target, pgTable, h1, Option.map_some, pgTab] using this
  | changeColumn n o c =>
    obtain ⟨t, x, h1, h2, h3, h4, h5, h6, h7⟩ := hr
    have := op_change hen ha hJ h1 h2 h3 h4 h5 h6 h7 he
    simpa only [pgEff, Operation.target, pgTable, h1, Option.map_some, pgTab] using this

theorem ops_step (hen : Naming env) (ha : NamesApart old new) {ops : List Operation}
    {G : String → Option ATable} {db db' : PDb} (hJ : J old new G db)
    (hr : ∀ pre op post, ops = pre ++ op :: post → Ready old new kw (pre.foldl pgEff G) op)
    (he : execAll env db (ops.flatMap (pgStmts p)) = some db') :
    J old new (ops.foldl pgEff G) db' := by
  induction ops generalizing G db with
  | nil => cases he; exact hJ
  | cons op ops ih =>
    simp only [List.flatMap_cons] at he
    obtain ⟨d, h1, h2⟩ := execAll_append_some.1 he
    refine ih (op_step hen ha hJ (hr [] op ops rfl) h1) ?_ h2
    intro pre op' post e
    have := hr (op :: pre) op' post (by rw [e]; rfl)
    exact this

/-! ### Following one table -/

theorem pgEff_all (ops : List Operation) (G : String → Option ATable) (n : String) :
    (ops.foldl pgEff G) n = (ops.filter (fun op => op.target == n)).foldl pgTable (G n) := by
  induction ops generalizing G with
  | nil => rfl
  | cons op ops ih =>
    simp only [List.foldl_cons, ih, List.filter_cons]
    by_cases h : op.target = n
    · subst h
      simp [pgEff, upd]
    · have h' : n ≠ op.target := Ne.symm h
      simp [h, pgEff, upd, h']

theorem pgTable_tab {t : ATable} {ops : List Operation}
    (h : ∀ op ∈ ops, op.colTarget.isSome = true) :
    ops.foldl pgTable (some t) = some (ops.foldl pgTab t) := by
  induction ops generalizing t with
  | nil => rfl
  | cons op ops ih =>
    have h1 := h op (List.mem_cons_self ..)
    simp only [List.foldl_cons]
    have e : pgTable (some t) op = some (pgTab t op) := by
      cases op <;> first | rfl | cases h1
    rw [e, ih fun o ho => h o (List.mem_cons_of_mem _ ho)]

/-! ### Following one column -/

/-- A column without the key flag. -/
def npc (c : AColumn) : AColumn := { c with pk := false }

theorem colByName_clear (t : ATable) (m : String) :
    colByName (clearPk t).columns m = (colByName t.columns m).map npc := by
  simp only [clearPk, colByName, List.find?_map]
  rfl

theorem npc_npc (o : Option AColumn) : (o.map npc).map npc = o.map npc := by
  cases o <;> rfl

theorem np_tab (t : ATable) (op : Operation) (m : String) :
    (colByName (pgTab t op).columns m).map npc =
      if op.colTarget = some m then (colEff (colByName t.columns m) op).map npc
      else (colByName t.columns m).map npc := by
  cases op with
  | addColumn n c =>
    simp only [pgTab, pgAdd, Operation.colTarget, colEff, ATable.addColumn, ATable.replaceColumn,
      colByName_replaceCol, Option.some.injEq, eq_comm (a := m)]
    split
    · rfl
    · split
      · rw [colByName_clear, npc_npc]
      · rfl
  | removeColumn n c =>
    simp only [pgTab, Operation.colTarget, colEff, ATable.removeColumn, colByName_filter,
      Option.some.injEq, eq_comm (a := m)]
    split <;> rfl
  | changeColumn n o c =>
    simp only [pgTab, pgChange, Operation.colTarget, colEff, Option.some.injEq]
    split
    · simp only [ATable.replaceColumn, colByName_replaceCol, eq_comm (a := m)]
      split
      · rfl
      · rw [colByName_clear, npc_npc]
    · split <;> simp only [ATable.replaceColumn, colByName_replaceCol, eq_comm (a := m)] <;> split <;> rfl
  | _ => simp [pgTab, Operation.colTarget]

theorem colEff_np (ops : List Operation) {a b : Option AColumn} (h : a.map npc = b.map npc) :
    (ops.foldl colEff a).map npc = (ops.foldl colEff b).map npc := by
  induction ops generalizing a b with
  | nil => exact h
  | cons op ops ih =>
    simp only [List.foldl_cons]
    refine ih ?_
    cases op <;> first | rfl | exact h

theorem np_all (ops : List Operation) (t : ATable) (m : String) :
    (colByName (ops.foldl pgTab t).columns m).map npc =
      ((ops.filter (fun op => op.colTarget == some m)).foldl colEff (colByName t.columns m)).map npc := by
  induction ops generalizing t with
  | nil => rfl
  | cons op ops ih =>
    simp only [List.foldl_cons, ih, List.filter_cons]
    by_cases h : op.colTarget = some m
    · simp only [h, beq_self_eq_true, if_true, List.foldl_cons]
      exact colEff_np _ (by rw [np_tab, if_pos h])
    · simp only [beq_iff_eq, h, if_false]
      exact colEff_np _ (by rw [np_tab, if_neg h])

theorem EqPk.of_np {x o : AColumn} (h : npc x = npc o) : EqPk x o := by
  cases x; cases o
  simp only [npc, AColumn.mk.injEq] at h
  obtain ⟨rfl, rfl, rfl, -, rfl, rfl, rfl, rfl⟩ := h
  exact ⟨rfl, rfl, rfl, rfl, rfl, rfl⟩

/-! ### Keys -/

/-- A column of that name is the key. -/
def flag (t : ATable) (m : String) : Bool := (colByName t.columns m).any (·.pk)

/-- The operation makes a column the key. -/
def setter : Operation → Bool
  | .addColumn _ c => c.pk
  | .changeColumn _ o c => c.pk && !o.pk
  | _ => false

/-- What an operation does to the key. -/
def flagEff (F : String → Bool) (op : Operation) (m : String) : Bool :=
  if setter op then decide (op.colTarget = some m)
  else
    match op with
    | .addColumn _ c => decide (c.name ≠ m) && F m
    | .removeColumn _ c => decide (c ≠ m) && F m
    | _ => F m

theorem flag_clear (t : ATable) (m : String) : flag (clearPk t) m = false := by
  simp only [flag, colByName_clear]
  cases colByName t.columns m <;> rfl

theorem flag_replace (t : ATable) (c : AColumn) (m : String) :
    flag (t.replaceColumn c) m = if c.name = m then c.pk else flag t m := by
  simp only [flag, ATable.replaceColumn, colByName_replaceCol, eq_comm (a := m)]
  split <;> rfl

theorem flag_tab (t : ATable) (op : Operation) (m : String) :
    flag (pgTab t op) m = flagEff (flag t) op m := by
  cases op with
  | addColumn n c =>
    simp only [pgTab, pgAdd, ATable.addColumn, flag_replace, flagEff, setter, Operation.colTarget]
    rcases Bool.eq_false_or_eq_true c.pk with hp | hp
    · by_cases h : c.name = m <;> simp [hp, h, flag_clear]
    · by_cases h : c.name = m <;> simp [hp, h]
  | removeColumn n c =>
    simp only [pgTab, flag, ATable.removeColumn, colByName_filter, flagEff, setter]
    by_cases h : c = m
    · simp [h]
    · simp [h, Ne.symm h]
  | changeColumn n o c =>
    rcases Bool.eq_false_or_eq_true (c.pk && !o.pk) with hs | hs
    · have hp : c.pk = true := by
        simp only [Bool.and_eq_true] at hs; exact hs.1
      have hf : flagEff (flag t) (.changeColumn n o c) m = decide (c.name = m) := by
        have : setter (.changeColumn n o c) = true := hs
        simp [flagEff, this, Operation.colTarget]
      rw [hf]
      simp only [pgTab, pgChange, hs, if_true]
      simp [flag_replace, flag_clear, hp]
    · have hf : flagEff (flag t) (.changeColumn n o c) m = flag t m := by
        have : setter (.changeColumn n o c) = false := hs
        simp [flagEff, this]
      rw [hf]
      simp only [pgTab, pgChange, hs, Bool.false_eq_true, if_false]
      split
      · next x hx =>
        rw [flag_replace]
        split
        · next e => rw [← e]; simp [flag, hx]
        · rfl
      · next hx =>
        rw [flag_replace]
        split
        · next e => rw [← e]; simp [flag, hx]
        · rfl
  | _ => rfl

theorem flag_all (ops : List Operation) (t : ATable) :
    flag (ops.foldl pgTab t) = ops.foldl flagEff (flag t) := by
  induction ops generalizing t with
  | nil => rfl
  | cons op ops ih =>
    simp only [List.foldl_cons, ih]
    congr 1
    funext m
    exact flag_tab t op m

/-- Without operations that set the key, it stays except where the column is removed or new. -/
theorem flag_unset {ops : List Operation} {F : String → Bool} {m : String}
    (h : ∀ op ∈ ops, setter op = false)
    (hm : ∀ op ∈ ops, op.colTarget = some m → ∃ n o c, op = .changeColumn n o c) :
    ops.foldl flagEff F m = F m := by
  induction ops generalizing F with
  | nil => rfl
  | cons op ops ih =>
    simp only [List.foldl_cons]
    rw [ih (fun o ho => h o (List.mem_cons_of_mem _ ho)) fun o ho => hm o (List.mem_cons_of_mem _ ho)]
    have h1 := h op (List.mem_cons_self ..)
    have h2 := hm op (List.mem_cons_self ..)
    simp only [flagEff, h1, Bool.false_eq_true, if_false]
    cases op with
    | addColumn n c =>
      have : c.name ≠ m := fun e => by
        obtain ⟨a, b, d, h⟩ := h2 (by rw [← e]; rfl)
        cases h
      simp [this]
    | removeColumn n c =>
      have : c ≠ m := fun e => by
        obtain ⟨a, b, d, h⟩ := h2 (by rw [← e]; rfl)
        cases h
      simp [this]
    | _ => rfl

theorem flag_off {ops : List Operation} {F : String → Bool} {m : String}
    (h : ∀ op ∈ ops, setter op = false) (hF : F m = false) : ops.foldl flagEff F m = false := by
  induction ops generalizing F with
  | nil => exact hF
  | cons op ops ih =>
    simp only [List.foldl_cons]
    refine ih (fun o ho => h o (List.mem_cons_of_mem _ ho)) ?_
    have h1 := h op (List.mem_cons_self ..)
    simp only [flagEff, h1, Bool.false_eq_true, if_false]
    cases op <;> simp [hF]

theorem diffTable_mem {s t : ATable} {op : Operation} {m : String}
    (h : op ∈ diffColFor s t m (colByName s.columns m) (colByName t.columns m)) :
    op ∈ diffTable s t := by
  rw [← diffTable_filter] at h
  exact (List.mem_filter.1 h).1

theorem diffTable_at {s t : ATable} {op : Operation} {m : String} (h : op ∈ diffTable s t)
    (hm : op.colTarget = some m) :
    op ∈ diffColFor s t m (colByName s.columns m) (colByName t.columns m) := by
  rw [← diffTable_filter]
  exact List.mem_filter.2 ⟨h, by simpa using hm⟩

theorem setter_col {s t : ATable} {op : Operation} (h : op ∈ diffTable s t)
    (hs : setter op = true) :
    ∃ c ∈ t.columns, c.pk = true ∧ op.colTarget = some c.name := by
  cases op with
  | addColumn n c =>
    have := diffTable_at (m := c.name) h rfl
    cases h1 : colByName s.columns c.name <;> cases h2 : colByName t.columns c.name <;>
      rw [h1, h2] at this <;> simp only [diffColFor] at this
    · cases this
    · simp only [List.mem_singleton, Operation.addColumn.injEq] at this
      obtain ⟨-, rfl⟩ := this
      exact ⟨c, (colByName_some h2).1, hs, rfl⟩
    · simp at this
    · split at this <;> simp at this
  | changeColumn n o c =>
    have := diffTable_at (m := c.name) h rfl
    cases h1 : colByName s.columns c.name <;> cases h2 : colByName t.columns c.name <;>
      rw [h1, h2] at this <;> simp only [diffColFor] at this
    · cases this
    · simp at this
    · simp at this
    · split at this
      · cases this
      · simp only [List.mem_singleton, Operation.changeColumn.injEq] at this
        obtain ⟨-, rfl, rfl⟩ := this
        simp only [setter, Bool.and_eq_true] at hs
        exact ⟨c, (colByName_some h2).1, hs.1, rfl⟩
  | _ => cases hs

theorem beq_pk {a b : AColumn} (h : a.beq b = true) : a.pk = b.pk := (col_beq_same h).pk

/-- After the operations for a table, its key is the one of the new schema. -/
theorem diffTable_flag {s t : ATable} (hs : (s.columns.map (·.name)).Nodup)
    (ht : (t.columns.map (·.name)).Nodup) (ks : OneKey s) (kt : OneKey t)
    (kept : ∀ m x y, s.column m = some x → t.column m = some y → x.pk = true →
      ∃ z ∈ t.columns, z.pk = true) {m : String} {c : AColumn}
    (hc : colByName t.columns m = some c) :
    flag ((diffTable s t).foldl pgTab s) m = c.pk := by
  rw [flag_all]
  by_cases hset : ∃ op ∈ diffTable s t, setter op = true
  · obtain ⟨op, hop, hst⟩ := hset
    obtain ⟨y, hy, hyp, hyt⟩ := setter_col hop hst
    obtain ⟨L1, L2, hL⟩ := List.append_of_mem hop
    have hL2 : ∀ o ∈ L2, o.colTarget ≠ some y.name := by
      intro o ho e
      have hf := diffTable_filter s t y.name
      rw [hL, List.filter_append, List.filter_cons, if_pos (by simpa using hyt)] at hf
      have hlen := diffColFor_short s t y.name (colByName s.columns y.name) (colByName t.columns y.name)
      rw [← hf] at hlen
      have : o ∈ L2.filter (fun o => o.colTarget == some y.name) :=
        List.mem_filter.2 ⟨ho, by simpa using e⟩
      have := List.length_pos_of_mem this
      simp only [List.length_append, List.length_cons] at hlen
      omega
    have hns : ∀ o ∈ L2, setter o = false := by
      intro o ho
      cases h : setter o with
      | false => rfl
      | true =>
        obtain ⟨z, hz, hzp, hzt⟩ := setter_col (s := s) (t := t) (by rw [hL]; simp [ho]) h
        rw [kt z hz y hy hzp hyp] at hzt
        exact absurd hzt (hL2 o ho)
    rw [hL, List.foldl_append, List.foldl_cons]
    have hFm : ∀ m, flagEff (L1.foldl flagEff (flag s)) op m = decide (y.name = m) := by
      intro m
      simp only [flagEff, hst, if_true, hyt, Option.some.injEq]
    by_cases e : y.name = m
    · rw [flag_unset hns (fun o ho h => absurd h (e ▸ hL2 o ho)), hFm]
      subst e
      rw [colByName_of_mem ht hy] at hc
      cases hc
      simp [hyp]
    · rw [flag_off hns (by rw [hFm]; simpa using e)]
      obtain ⟨h1, h2⟩ := colByName_some hc
      cases hcp : c.pk with
      | false => rfl
      | true => exact absurd ((kt y hy c h1 hyp hcp).trans h2) e
  · have hns : ∀ op ∈ diffTable s t, setter op = false := by
      intro op hop
      cases h : setter op with
      | false => rfl
      | true => exact absurd ⟨op, hop, h⟩ hset
    obtain ⟨hcm, hcn⟩ := colByName_some hc
    -- a key of the new table was the key before
    have back : ∀ y ∈ t.columns, y.pk = true → ∃ o ∈ s.columns, o.name = y.name ∧ o.pk = true := by
      intro y hy hyp
      have h2 := colByName_of_mem ht hy
      cases h1 : colByName s.columns y.name with
      | none =>
        have := hns (.addColumn t.name y) (diffTable_mem (m := y.name) (by
          rw [h1, h2]; simp [diffColFor]))
        simp only [setter, hyp] at this
        cases this
      | some o =>
        obtain ⟨k1, k2⟩ := colByName_some h1
        refine ⟨o, k1, k2, ?_⟩
        cases hop : o.pk with
        | true => rfl
        | false =>
          have hb : y.beq o = false := by
            cases hb : y.beq o with
            | false => rfl
            | true => have := beq_pk hb; rw [hyp, hop] at this; cases this
          have := hns (.changeColumn t.name o y) (diffTable_mem (m := y.name) (by
            rw [h1, h2]; simp [diffColFor, hb]))
          simp only [setter, hyp, hop] at this
          cases this
    cases h1 : colByName s.columns m with
    | none =>
      rw [flag_off hns (by simp [flag, h1])]
      cases hcp : c.pk with
      | false => rfl
      | true =>
        obtain ⟨o, ho, hon, -⟩ := back c hcm hcp
        rw [hcn] at hon
        exact absurd hon (by
          rw [colByName_none] at h1
          exact h1 o ho)
    | some o =>
      obtain ⟨k1, k2⟩ := colByName_some h1
      rw [flag_unset hns]
      · simp only [flag, h1, Option.any_some]
        cases hop : o.pk with
        | false =>
          cases hcp : c.pk with
          | false => rfl
          | true =>
            obtain ⟨o', ho', hon', hop'⟩ := back c hcm hcp
            have := mem_uniq hs ho' k1 (by rw [hon', hcn, k2])
            rw [this, hop] at hop'
            cases hop'
        | true =>
          obtain ⟨z, hz, hzp⟩ := kept m o c h1 hc hop
          obtain ⟨o', ho', hon', hop'⟩ := back z hz hzp
          have e := ks o' ho' o k1 hop' hop
          have : z = c := mem_uniq ht hz hcm (by rw [← hon', e, k2, hcn])
          rw [← this, hzp]
      · intro op hop ht'
        have := diffTable_at hop ht'
        rw [h1, hc] at this
        simp only [diffColFor] at this
        split at this
        · cases this
        · simp only [List.mem_singleton] at this
          exact ⟨_, _, _, this⟩

/-! ### Columns at the end -/

/-- The same column for PostgreSQL. -/
structure PgSame (x y : AColumn) : Prop where
  name : x.name = y.name
  type : x.typeid = y.typeid
  nullable : x.nullable = y.nullable
  pk : x.pk = y.pk
  auto : x.auto = y.auto
  unique : x.unique = y.unique
  reference : x.reference = y.reference

/-- The same columns for PostgreSQL. -/
def PgSameTable (u t : ATable) : Prop := ∀ m, OptRel PgSame (colByName u.columns m) (colByName t.columns m)

theorem typeid_denotes {a b : AColumn} (h : denotes a.sqltype = denotes b.sqltype) :
    a.typeid = b.typeid := by
  simp only [AColumn.typeid]
  cases ha : a.sqltype <;> cases hb : b.sqltype <;> simp_all [denotes]

theorem same_ref {a b : AColumn} (ha : PgColumn kw a) (hb : PgColumn kw b)
    (h : OptRel SameRef a.reference b.reference) : a.reference = b.reference := by
  cases h1 : a.reference with
  | none =>
    cases h2 : b.reference with
    | none => rfl
    | some r => rw [h1, h2] at h; cases h
  | some r =>
    cases h2 : b.reference with
    | none => rw [h1, h2] at h; cases h
    | some r' =>
      rw [h1, h2] at h
      obtain ⟨x, y, rfl, -⟩ := ha.reference r h1
      obtain ⟨x', y', rfl, -⟩ := hb.reference r' h2
      simp only [OptRel, SameRef] at h
      rw [h.1, h.2]

theorem PgSame.of_eqPk {x o c : AColumn} (h : EqPk x o) (hs : EqPk o c) (hp : x.pk = c.pk) :
    PgSame x c :=
  ⟨h.name.trans hs.name, h.type.trans hs.type, h.nullable.trans hs.nullable, hp,
    h.auto.trans hs.auto, h.unique.trans hs.unique, h.reference.trans hs.reference⟩

theorem eqPk_refl (c : AColumn) : EqPk c c := ⟨rfl, rfl, rfl, rfl, rfl, rfl⟩

theorem eqPk_of_beq {c o : AColumn} (hc : PgColumn kw c) (ho : PgColumn kw o)
    (h : c.beq o = true) : EqPk o c := by
  have := col_beq_same h
  exact ⟨this.name.symm, (typeid_denotes this.type).symm, this.nullable.symm, this.auto.symm,
    this.unique.symm, (same_ref hc ho this.reference).symm⟩

theorem diffTable_final {s t : ATable} (hps : PgTable kw s) (hpt : PgTable kw t)
    (hs : (s.columns.map (·.name)).Nodup)
    (ht : (t.columns.map (·.name)).Nodup) (ks : OneKey s) (kt : OneKey t)
    (kept : ∀ m x y, s.column m = some x → t.column m = some y → x.pk = true →
      ∃ z ∈ t.columns, z.pk = true) :
    PgSameTable ((diffTable s t).foldl pgTab s) t := by
  intro m
  have hnp := np_all (diffTable s t) s m
  rw [diffTable_filter] at hnp
  cases hu : colByName ((diffTable s t).foldl pgTab s).columns m with
  | none =>
    rw [hu] at hnp
    cases h1 : colByName s.columns m <;> cases h2 : colByName t.columns m <;>
      rw [h1, h2] at hnp <;> simp only [diffColFor] at hnp
    · trivial
    · cases hnp
    · trivial
    · split at hnp <;> cases hnp
  | some x =>
    rw [hu] at hnp
    have hfl := fun c hc => diffTable_flag hs ht ks kt kept (m := m) (c := c) hc
    simp only [flag, hu, Option.any_some] at hfl
    cases h1 : colByName s.columns m with
    | none =>
      cases h2 : colByName t.columns m with
      | none => rw [h1, h2] at hnp; simp only [diffColFor] at hnp; cases hnp
      | some c =>
        rw [h1, h2] at hnp
        simp only [diffColFor, List.foldl_cons, List.foldl_nil, colEff, Option.map_some,
          Option.some.injEq] at hnp
        exact .of_eqPk (.of_np hnp) (eqPk_refl c) (hfl c h2)
    | some o =>
      cases h2 : colByName t.columns m with
      | none => rw [h1, h2] at hnp; simp only [diffColFor] at hnp; cases hnp
      | some c =>
        rw [h1, h2] at hnp
        simp only [diffColFor] at hnp
        split at hnp
        · next hb =>
          simp only [List.foldl_nil, Option.map_some, Option.some.injEq] at hnp
          exact .of_eqPk (.of_np hnp) (eqPk_of_beq (hpt.columns c (colByName_some h2).1)
            (hps.columns o (colByName_some h1).1) hb) (hfl c h2)
        · simp only [List.foldl_cons, List.foldl_nil, colEff, Option.map_some,
            Option.some.injEq] at hnp
          exact .of_eqPk (.of_np hnp) (eqPk_refl c) (hfl c h2)

/-! ### The operations of a comparison -/

theorem cut_pair {α : Type} {a b x y : α} {pre post : List α} (h : [a, b] = pre ++ x :: post)
    (_ : x = y) : (pre = [] ∧ x = a) ∨ (pre = [a] ∧ x = b) := by
  match pre with
  | [] =>
    simp only [List.nil_append, List.cons.injEq] at h
    exact .inl ⟨rfl, h.1.symm⟩
  | [c] =>
    simp only [List.cons_append, List.nil_append, List.cons.injEq] at h
    exact .inr ⟨by rw [h.1], h.2.1.symm⟩
  | c :: d :: r =>
    have := congrArg List.length h
    simp at this

theorem hasColumn_of {n : String} {t : ATable} (h : old.getTable n = some t ∨ new.getTable n = some t)
    {c : AColumn} (hc : c ∈ t.columns) : HasColumn old new n c.name := ⟨t, h, c, hc, rfl⟩

theorem no_column {t : ATable} {m : String} (h : colByName t.columns m = none) :
    ∀ y ∈ t.columns, y.name ≠ m := by
  rw [colByName_none] at h
  exact h

/-- The live column before the operation on it. -/
theorem live_column {s t : ATable} {A B : List Operation} {op : Operation}
    (h : diffTable s t = A ++ op :: B) {m : String} (hm : op.colTarget = some m) :
    (colByName (A.foldl pgTab s).columns m).map npc = (colByName s.columns m).map npc := by
  rw [np_all]
  have hf := diffTable_filter s t m
  rw [h, List.filter_append, List.filter_cons, if_pos (by simpa using hm)] at hf
  rcases append_short hf (diffColFor_short ..) with e | ⟨-, e⟩
  · rw [e]; rfl
  · cases e

theorem diff_ready (ho : ValidSchema old) (hn : ValidSchema new) (po : PgSchema kw old)
    (pn : PgSchema kw new) (hkk : KeepsKeys old new) (pre : List Operation) (op : Operation)
    (post : List Operation) (h : diff old new = pre ++ op :: post) :
    Ready old new kw (pre.foldl pgEff old.getTable) op := by
  have hmem : op ∈ diff old new := by rw [h]; simp
  have hfo := diff_found ho hn hmem
  have hfil := diff_filter ho hn op.target
  rw [h, List.filter_append, List.filter_cons, if_pos (by simp)] at hfil
  have hcols : ∀ s t, old.getTable op.target = some s → new.getTable op.target = some t →
      (pre.foldl pgEff old.getTable) op.target =
        some ((pre.filter (fun o => o.target == op.target)).foldl pgTab s) ∧
      ∀ m, op.colTarget = some m →
        (colByName ((pre.filter (fun o => o.target == op.target)).foldl pgTab s).columns m).map npc =
          (colByName s.columns m).map npc := by
    intro s t hs ht
    rw [hs, ht] at hfil
    simp only [diffFor] at hfil
    constructor
    · rw [pgEff_all, hs, pgTable_tab]
      intro o hmo
      exact diffTable_isCol (s := s) (t := t) (by rw [← hfil]; exact List.mem_append_left _ hmo)
    · intro m hm
      exact live_column hfil.symm hm
  cases op with
  | addTable t =>
    obtain ⟨h1, h2⟩ := hfo
    exact ⟨pn _ _ h1, ⟨t, .inr h1⟩, fun c hc => hasColumn_of (.inr h1) hc,
      distinct_of_getTable hn h1⟩
  | addTableIfNotExists t => exact hfo
  | addTableConstraints t =>
    obtain ⟨h1, h2⟩ := hfo
    refine ⟨?_, pn _ _ h1, distinct_of_getTable hn h1⟩
    rw [show Operation.target (.addTableConstraints t) = t.name from rfl] at hfil
    rw [pgEff_all, h2]
    rw [h2, h1] at hfil
    simp only [diffFor] at hfil
    split at hfil
    · rcases cut_pair hfil.symm rfl with ⟨-, e⟩ | ⟨e, -⟩
      · cases e
      · rw [e]; rfl
    · have := congrArg List.length hfil
      simp only [List.length_append, List.length_cons, List.length_nil] at this
      have e : (pre.filter fun op => op.target == t.name) = [] :=
        List.eq_nil_of_length_eq_zero (by omega)
      rw [e] at hfil
      simp at hfil
  | removeTableConstraints t =>
    obtain ⟨h1, h2⟩ := hfo
    refine ⟨?_, distinct_of_getTable ho h1⟩
    rw [show Operation.target (.removeTableConstraints t) = t.name from rfl] at hfil
    rw [pgEff_all, h1]
    rw [h1, h2] at hfil
    simp only [diffFor] at hfil
    rcases cut_pair hfil.symm rfl with ⟨e, -⟩ | ⟨-, e⟩
    · rw [e]; rfl
    · cases e
  | removeTable n =>
    obtain ⟨⟨t, h1⟩, -⟩ := hfo
    exact ⟨t, .inl h1⟩
  | addColumn n c =>
    obtain ⟨s, t, h1, h2, h3, h4⟩ := hfo
    obtain ⟨k1, k2⟩ := hcols s t h1 h2
    obtain ⟨hc, -⟩ := colByName_some h4
    refine ⟨_, k1, (pn _ _ h2).columns c hc, hasColumn_of (.inr h2) hc, no_column ?_⟩
    have := k2 c.name rfl
    simp only [ATable.column] at h3
    rw [h3] at this
    simpa using this
  | removeColumn n c =>
    obtain ⟨s, t, x, h1, h2, h3, h4⟩ := hfo
    obtain ⟨k1, -⟩ := hcols s t h1 h2
    obtain ⟨hc, e⟩ := colByName_some h3
    exact ⟨_, k1, e ▸ hasColumn_of (.inl h1) hc⟩
  | changeColumn n o c =>
    obtain ⟨s, t, h1, h2, h3, h4⟩ := hfo
    obtain ⟨k1, k2⟩ := hcols s t h1 h2
    obtain ⟨hom, hon⟩ := colByName_some h3
    obtain ⟨hcm, -⟩ := colByName_some h4
    have := k2 c.name rfl
    simp only [ATable.column] at h3
    rw [h3] at this
    cases hx : colByName ((pre.filter fun op =>
        op.target == (Operation.changeColumn n o c).target).foldl pgTab s).columns c.name with
    | none => rw [hx] at this; cases this
    | some x =>
      rw [hx] at this
      simp only [Option.map_some, Option.some.injEq] at this
      exact ⟨_, x, k1, (colByName_some hx).1, .of_np this, hon,
        hkk.auto n s t c.name o c h1 h2 h3 h4, (po _ _ h1).columns o hom, (pn _ _ h2).columns c hcm⟩

theorem withoutRefs_none {t : ATable} (h : t.columns.any (fun c => c.reference.isSome) = false) :
    withoutRefs t = t := by
  cases t with
  | mk n cols =>
    simp only [withoutRefs, ATable.mk.injEq, true_and]
    induction cols with
    | nil => rfl
    | cons a cols ih =>
      simp only [List.any_cons, Bool.or_eq_false_iff] at h
      simp only [List.map_cons, ih h.2, List.cons.injEq, and_true]
      have : a.reference = none := by simpa using h.1
      rw [← this]

theorem pgSame_refl (t : ATable) : PgSameTable t t := by
  intro m
  cases colByName t.columns m with
  | none => trivial
  | some c => exact ⟨rfl, rfl, rfl, rfl, rfl, rfl, rfl⟩

theorem diff_final (ho : ValidSchema old) (hn : ValidSchema new) (po : PgSchema kw old)
    (pn : PgSchema kw new) (hkk : KeepsKeys old new) (n : String) :
    OptRel PgSameTable (((diff old new).foldl pgEff old.getTable) n) (new.getTable n) := by
  rw [pgEff_all, diff_filter ho hn]
  cases h1 : old.getTable n with
  | none =>
    cases h2 : new.getTable n with
    | none => trivial
    | some t =>
      simp only [diffFor]
      split
      · exact pgSame_refl t
      · next h =>
        have := withoutRefs_none (t := t) (by simpa using h)
        simp only [List.foldl_cons, List.foldl_nil, pgTable, this]
        exact pgSame_refl t
  | some s =>
    cases h2 : new.getTable n with
    | none => trivial
    | some t =>
      simp only [diffFor]
      rw [pgTable_tab fun op hop => diffTable_isCol hop]
      exact diffTable_final (po _ _ h1) (pn _ _ h2) (distinct_of_getTable ho h1)
        (distinct_of_getTable hn h2) (hkk.before _ _ h1) (hkk.after _ _ h2)
        fun m x y hx hy hp => hkk.key n s t m x y h1 h2 hx hy hp

theorem tableIs_same {u t : ATable} {s : PTable} (hu : (u.columns.map (·.name)).Nodup)
    (ht : (t.columns.map (·.name)).Nodup) (h : PgSameTable u t) (hi : PgTableIs u s) :
    PgTableIs t s := by
  have fwd : ∀ c ∈ t.columns, ∃ x ∈ u.columns, PgSame x c := by
    intro c hc
    have := h c.name
    rw [colByName_of_mem ht hc] at this
    cases hx : colByName u.columns c.name with
    | none => rw [hx] at this; cases this
    | some x => rw [hx] at this; exact ⟨x, (colByName_some hx).1, this⟩
  have bwd : ∀ x ∈ u.columns, ∃ c ∈ t.columns, PgSame x c := by
    intro x hx
    have := h x.name
    rw [colByName_of_mem hu hx] at this
    cases hc : colByName t.columns x.name with
    | none => rw [hc] at this; cases this
    | some c => rw [hc] at this; exact ⟨c, (colByName_some hc).1, this⟩
  have same : ∀ x c k, PgSame x c → (ColCon x k ↔ ColCon c k) := by
    intro x c k e
    cases k <;> simp only [ColCon, e.pk, e.name, e.unique, e.reference]
  refine ⟨?_, ?_, ?_⟩
  · intro c hc
    obtain ⟨x, hx, e⟩ := fwd c hc
    obtain ⟨d, hd, i⟩ := hi.columns x hx
    exact ⟨d, hd, by rw [i.name, e.name], by rw [← e.type]; exact i.type,
      by rw [i.notNull, e.nullable], by rw [i.serial, e.auto]⟩
  · intro d hd
    obtain ⟨x, hx, e⟩ := hi.only d hd
    obtain ⟨c, hc, e'⟩ := bwd x hx
    exact ⟨c, hc, by rw [e, e'.name]⟩
  · intro k
    rw [hi.constraints, colCon_iff, colCon_iff]
    constructor
    · rintro ⟨x, hx, hk⟩
      obtain ⟨c, hc, e⟩ := bwd x hx
      exact ⟨c, hc, (same x c k e).1 hk⟩
    · rintro ⟨c, hc, hk⟩
      obtain ⟨x, hx, e⟩ := fwd c hc
      exact ⟨x, hx, (same x c k e).2 hk⟩

theorem J.start (ho : ValidSchema old) {db : PDb} (hdb : PgProper db)
    (hi : PgImplements old db) : J old new old.getTable db := by
  refine ⟨?_, hi.only, hdb.sorted, fun n t h => ⟨t, .inl h⟩⟩
  intro n t h
  obtain ⟨s, hl, his⟩ := hi.tables n t h
  exact ⟨s, hl, his, hdb.columns _ _ hl, hdb.names _ _ hl, hdb.constraints _ _ hl,
    fun c hc => hasColumn_of (.inl h) hc, distinct_of_getTable ho h⟩

theorem J.proper {G : String → Option ATable} {db : PDb} (h : J old new G db) : PgProper db := by
  have key : ∀ m s, db.lookup m = some s → ∃ n t, m = lower n ∧ TJ old new n t s := by
    intro m s hl
    obtain ⟨n, t, hG, rfl⟩ := h.only m s hl
    obtain ⟨s', hl', hT⟩ := h.tables n t hG
    rw [hl] at hl'
    cases hl'
    exact ⟨n, t, rfl, hT⟩
  refine ⟨h.sorted, ?_, ?_, ?_⟩
  · intro m s hl
    obtain ⟨n, t, -, hT⟩ := key m s hl
    exact hT.cols
  · intro m s hl x hx
    obtain ⟨n, t, rfl, hT⟩ := key m s hl
    exact hT.names x hx
  · intro m s hl
    obtain ⟨n, t, -, hT⟩ := key m s hl
    exact hT.cons

theorem J.finish (hn : ValidSchema new) {G : String → Option ATable} {db : PDb}
    (h : J old new G db) (hG : ∀ n, OptRel PgSameTable (G n) (new.getTable n)) :
    PgImplements new db := by
  constructor
  · intro n t ht
    have := hG n
    rw [ht] at this
    cases hu : G n with
    | none => rw [hu] at this; cases this
    | some u =>
      rw [hu] at this
      obtain ⟨s, hl, hT⟩ := h.tables n u hu
      exact ⟨s, hl, tableIs_same hT.distinct (distinct_of_getTable hn ht) this hT.is⟩
  · intro m s hl
    obtain ⟨n, u, hu, rfl⟩ := h.only m s hl
    have := hG n
    rw [hu] at this
    cases ht : new.getTable n with
    | none => rw [ht] at this; cases this
    | some t => exact ⟨n, t, ht, rfl⟩

/-- The operations can be written. -/
theorem diff_pgOp (ho : ValidSchema old) (hn : ValidSchema new) (po : PgSchema kw old)
    (pn : PgSchema kw new) (hw : PgWritable p old new) {op : Operation} (h : op ∈ diff old new) :
    PgOp kw p op := by
  have hfo := diff_found ho hn h
  cases op with
  | addTable t => exact ⟨pn _ _ hfo.1, hw.created _ _ hfo.2 hfo.1⟩
  | addTableIfNotExists t => exact hfo.elim
  | addTableConstraints t => exact pn _ _ hfo.1
  | removeTableConstraints t => exact ⟨po _ _ hfo.1, hw.removed _ _ hfo.1 hfo.2⟩
  | removeTable n =>
    obtain ⟨⟨t, h1⟩, -⟩ := hfo
    have := (po _ _ h1).name
    rw [name_of_getTable ho h1] at this
    exact this
  | addColumn n c =>
    obtain ⟨s, t, h1, h2, h3, h4⟩ := hfo
    have := (pn _ _ h2).name
    rw [name_of_getTable hn h2] at this
    exact ⟨this, (pn _ _ h2).columns c (colByName_some h4).1, hw.added n s t c.name c h1 h2 h3 h4⟩
  | removeColumn n c =>
    obtain ⟨s, t, x, h1, h2, h3, h4⟩ := hfo
    have := (po _ _ h1).name
    rw [name_of_getTable ho h1] at this
    obtain ⟨hx, e⟩ := colByName_some h3
    exact ⟨this, e ▸ ((po _ _ h1).columns x hx).name⟩
  | changeColumn n o c =>
    obtain ⟨s, t, h1, h2, h3, h4⟩ := hfo
    have := (po _ _ h1).name
    rw [name_of_getTable ho h1] at this
    obtain ⟨hom, hon⟩ := colByName_some h3
    obtain ⟨hcm, -⟩ := colByName_some h4
    refine ⟨this, (po _ _ h1).columns o hom, (pn _ _ h2).columns c hcm, hon, ?_⟩
    intro hb v hv
    rcases hw.changed n s t c.name o c h1 h2 h3 h4 v hv with h | ⟨e, hr⟩
    · exact h
    · exfalso
      have : c.default = o.default := by rw [hv, e]
      rw [this] at hb
      rw [optBeq_self (c := o) fun r h => hr r (by rw [e] at h; cases h; rfl)] at hb
      cases hb

theorem migration_text {res : String → Bool} (hk : PgWords kw res) (ho : ValidSchema old)
    (hn : ValidSchema new) (po : PgSchema kw old) (pn : PgSchema kw new)
    (hw : PgWritable p old new) :
    ∃ s, PgDdl.migrationSql kw p old (diff old new) = .ok s ∧
      Ddl.parse false res (foldCase none s) = some ((diff old new).flatMap (pgStmts p)) := by
  refine pgScript_ok hk (fun op hop => diff_pgOp ho hn po pn hw hop) ?_
  intro t o n h
  obtain ⟨s, u, h1, -⟩ := diff_found ho hn h
  exact ⟨s, h1, name_of_getTable ho h1⟩

theorem pg_migration {res : String → Bool} (hk : PgWords kw res) (hen : Naming env)
    (ho : ValidSchema old) (hn : ValidSchema new) (po : PgSchema kw old) (pn : PgSchema kw new)
    (ha : NamesApart old new) (hw : PgWritable p old new) (hkk : KeepsKeys old new) {db : PDb}
    (hdb : PgProper db) (hi : PgImplements old db) :
    ∃ s, PgDdl.migrationSql kw p old (diff old new) = .ok s ∧
      ∀ db', execScript env res db s = some db' → PgProper db' ∧ PgImplements new db' := by
  obtain ⟨s, h1, h2⟩ := migration_text hk ho hn po pn hw
  refine ⟨s, h1, ?_⟩
  intro db' he
  simp only [execScript, h2] at he
  have hJ := ops_step hen ha (J.start ho hdb hi) (diff_ready ho hn po pn hkk) he
  exact ⟨hJ.proper, hJ.finish hn (diff_final ho hn po pn hkk)⟩

end Butane.PgP
