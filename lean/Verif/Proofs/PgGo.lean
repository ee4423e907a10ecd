/-
When the statements of a migration succeed on PostgreSQL.
-/
import Verif.Proofs.PgRun

namespace Butane.PgP
open Butane.Ddl hiding exec execAll execScript
open Butane.PgCat Butane.DdlP Spec

variable {env : PgEnv} {old new : ADB} {kw : String → Bool} {p : LitPrinters}

/-! ### References and keys in the live schema -/

/-- Some column of the table refers to `r.k`. -/
def RefIn (G : String → Option ATable) (m r k : String) : Prop :=
  ∃ u y, G m = some u ∧ y ∈ u.columns ∧ y.reference = some (.literal r k)

/-- `r.k` can be referred to. -/
def KeyIn (G : String → Option ATable) (r k : String) : Prop :=
  ∃ u z, G r = some u ∧ z ∈ u.columns ∧ z.name = k ∧ (z.pk = true ∨ z.unique = true)

/-- No column refers to `n.c`. -/
def Unref (G : String → Option ATable) (n c : String) : Prop :=
  ∀ m r k, RefIn G m r k → ¬ (lower r = lower n ∧ lower k = lower c)

theorem fk_ref {G : String → Option ATable} {db : PDb} (hJ : J old new G db) {m : String}
    {s : PTable} (hl : db.lookup m = some s) {x : PCon} (hx : x ∈ s.cons) {c r k : String}
    (hk : x.kind = .fk c r k) :
    ∃ m' r' k', m = lower m' ∧ RefIn G m' r' k' ∧ r = lower r' ∧ k = lower k' := by
  obtain ⟨m', t, hG, rfl⟩ := hJ.only m s hl
  obtain ⟨s', hl', hT⟩ := hJ.tables m' t hG
  rw [hl] at hl'
  cases hl'
  obtain ⟨y, hy, -, r', k', h1, h2, h3⟩ := (hT.is.constraints _).1 ⟨x, hx, hk⟩
  exact ⟨m', r', k', rfl, ⟨t, y, hG, hy, h1⟩, h2, h3⟩

theorem keyUsed_false {G : String → Option ATable} {db : PDb} (hJ : J old new G db) {n c : String}
    (h : Unref G n c) : keyUsed db (lower n) (lower c) = false := by
  cases hu : keyUsed db (lower n) (lower c) with
  | false => rfl
  | true =>
    exfalso
    simp only [keyUsed, List.any_eq_true] at hu
    obtain ⟨e, he, x, hx, h1⟩ := hu
    cases hk : x.kind with
    | pk a => rw [hk] at h1; cases h1
    | unique a => rw [hk] at h1; cases h1
    | fk a r k =>
      rw [hk] at h1
      simp only [decide_eq_true_eq] at h1
      obtain ⟨m, r', k', -, h2, h3, h4⟩ :=
        fk_ref hJ (SMap.lookup_of_mem hJ.sorted (k := e.1) (v := e.2) he) hx hk
      exact h m r' k' h2 ⟨by rw [← h3]; exact h1.1, by rw [← h4]; exact h1.2.1⟩

theorem tableUsed_false {G : String → Option ATable} {db : PDb} (hJ : J old new G db) {n : String}
    (h : ∀ m r k, RefIn G m r k → lower m ≠ lower n → lower r ≠ lower n) :
    tableUsed db (lower n) = false := by
  cases hu : tableUsed db (lower n) with
  | false => rfl
  | true =>
    exfalso
    simp only [tableUsed, List.any_eq_true, Bool.and_eq_true, decide_eq_true_eq] at hu
    obtain ⟨e, he, hne, x, hx, h1⟩ := hu
    cases hk : x.kind with
    | pk a => rw [hk] at h1; cases h1
    | unique a => rw [hk] at h1; cases h1
    | fk a r k =>
      rw [hk] at h1
      simp only [decide_eq_true_eq] at h1
      obtain ⟨m, r', k', e1, h2, h3, -⟩ :=
        fk_ref hJ (SMap.lookup_of_mem hJ.sorted (k := e.1) (v := e.2) he) hx hk
      exact h m r' k' h2 (by rw [← e1]; exact hne) (by rw [← h3]; exact h1)

/-! ### Single statements -/

/-- The rows allow everything. -/
def Permissive (env : PgEnv) : Prop := ∀ db st, env.permits db st = true

theorem go_alter (hp : Permissive env) {G : String → Option ATable} {db : PDb}
    (hJ : J old new G db) {n : String} {t : ATable} (hG : G n = some t) {st : DStmt}
    (hst : altered st = some (lower n))
    (h : ∀ s, TJ old new n t s → ∃ s', alter env db (lower n) s st = some s') :
    ∃ db', execAll env db [st] = some db' := by
  obtain ⟨s, hl, hT⟩ := hJ.tables n t hG
  obtain ⟨s', hs⟩ := h s hT
  exact ⟨_, by rw [execAll_one]; exact (exec_alter hst hl).2 ⟨hp _ _, s', hs, rfl⟩⟩

theorem go_drop (hp : Permissive env) {G : String → Option ATable} {db : PDb}
    (hJ : J old new G db) {n : String} {t : ATable} (hG : G n = some t) {k : PKind}
    (hk : PgConstraint t k) (hnp : ∀ c, k ≠ .pk c)
    (hu : ∀ c, k = .unique c → keyUsed db (lower n) c = false) {b : Bool} :
    ∃ db', execAll env db [.dropConstraint (lower n) (stdName (lower n) k) b] = some db' := by
  refine go_alter hp hJ hG rfl fun s hT => ?_
  simp only [alter]
  cases hf : s.cons.find? (·.name = stdName (lower n) k) with
  | none =>
    exfalso
    obtain ⟨x, hx, e⟩ := (hT.is.constraints k).2 hk
    rw [List.find?_eq_none] at hf
    exact hf x hx (by simp [hT.names x hx, e])
  | some x =>
    have hx := List.mem_of_find?_eq_some hf
    have hn := List.find?_some hf
    simp only [decide_eq_true_eq] at hn
    rw [hT.names x hx, stdName_label] at hn
    simp only
    cases k with
    | pk c => exact absurd rfl (hnp c)
    | unique c =>
      cases hxk : x.kind with
      | unique c' =>
        rw [hxk] at hn
        simp only [label, Prod.mk.injEq, true_and] at hn
        subst hn
        simp only [hu _ rfl, Bool.false_eq_true, if_false]
        exact ⟨_, rfl⟩
      | pk c' => rw [hxk] at hn; simp [label] at hn
      | fk _ _ _ => rw [hxk] at hn; simp [label] at hn
    | fk c r q =>
      cases hxk : x.kind with
      | fk _ _ _ => exact ⟨_, rfl⟩
      | pk c' => rw [hxk] at hn; simp [label] at hn
      | unique _ => rw [hxk] at hn; simp [label] at hn

theorem go_addFk (hp : Permissive env) {G : String → Option ATable} {db : PDb}
    (hJ : J old new G db) {n : String} {t : ATable} (hG : G n = some t) {x : AColumn}
    (hx : x ∈ t.columns) {r k : String} (hk : KeyIn G r k) :
    ∃ db', execAll env db [.addForeignKey (lower n) ⟨lower x.name, lower r, lower k⟩] = some db' := by
  refine go_alter hp hJ hG rfl fun s hT => ?_
  obtain ⟨u, z, hu, hz, rfl, hkey⟩ := hk
  obtain ⟨s2, hl2, hT2⟩ := hJ.tables r u hu
  simp only [alter, hl2]
  have h1 : lower x.name ∈ colNames s := hT.colName hx
  have h2 : (s2.cons.any fun q =>
      decide (q.kind = .pk (lower z.name) ∨ q.kind = .unique (lower z.name))) = true := by
    rw [List.any_eq_true]
    rcases hkey with h | h
    · obtain ⟨q, hq, e⟩ := (hT2.is.constraints (.pk (lower z.name))).2 ⟨z, hz, h, rfl⟩
      exact ⟨q, hq, by simp [e]⟩
    · obtain ⟨q, hq, e⟩ := (hT2.is.constraints (.unique (lower z.name))).2 ⟨z, hz, h, rfl⟩
      exact ⟨q, hq, by simp [e]⟩
  simp only [h1, h2, decide_true, Bool.and_self, if_true]
  exact ⟨_, rfl⟩

/-! ### Changing a column -/

theorem go_type (hp : Permissive env) {G : String → Option ATable} {db : PDb}
    (hJ : J old new G db) {n : String} {t : ATable} (hG : G n = some t) {x o c : AColumn}
    (hx : x ∈ t.columns) (ho : x.typeid = o.typeid) (hc : PgColumn kw c) (hon : o.name = x.name)
    (hty : o.typeid ≠ c.typeid → c.auto = false ∧ ∀ a b v w, o.typeid = some (.ty a) →
      c.typeid = some (.ty b) → pgTypeOf a = some v → pgTypeOf b = some w → env.castable v w = true) :
    ∃ db', execAll env db (if o.typeid ≠ c.typeid then
      [.setType (lower n) (lower o.name) (pgWordsOf c)] else []) = some db' := by
  split
  · next hne =>
    obtain ⟨hA, hcast⟩ := hty hne
    refine go_alter hp hJ hG rfl fun s hT => ?_
    obtain ⟨d, hd, hi⟩ := hT.find hx
    simp only [alter, hon, hd]
    obtain ⟨a, ha1, ha2⟩ := hi.type
    obtain ⟨b, w, hb1, hb2⟩ := hc.type
    have hw : pgWordsOf c = w := by simp [pgWordsOf, hb1, hA, hb2]
    have hin : w ∈ pgTypes := by
      revert hb2
      cases b <;> simp only [pgTypeOf, Option.some.injEq, reduceCtorEq, false_implies] <;>
        (try (rintro rfl; decide))
    have := hcast a b d.type w (by rw [← ho]; exact ha1) hb1 ha2 hb2
    simp only [hw, hin, this, decide_true, Bool.and_self, if_true]
    exact ⟨_, rfl⟩
  · exact ⟨_, rfl⟩

theorem go_null (hp : Permissive env) (ha : NamesApart old new) {G : String → Option ATable}
    {db : PDb} (hJ : J old new G db) {n : String} {t : ATable} (hG : G n = some t) {x o c : AColumn}
    (hx : x ∈ t.columns) (hon : o.name = x.name) (hpk : x.pk = true → c.nullable = false) :
    ∃ db', execAll env db (if o.nullable ≠ c.nullable then
      [.setNotNull (lower n) (lower o.name) (!c.nullable)] else []) = some db' := by
  split
  · refine go_alter hp hJ hG rfl fun s hT => ?_
    have h1 : lower x.name ∈ colNames s := hT.colName hx
    have h2 : (!c.nullable || !s.cons.any (fun k => decide (k.kind = .pk (lower x.name)))) = true := by
      cases hc : c.nullable with
      | false => rfl
      | true =>
        simp only [Bool.not_true, Bool.false_or, Bool.not_eq_true', List.any_eq_false,
          decide_eq_true_eq]
        intro k hk e
        obtain ⟨y, hy, hyp, hyn⟩ := (hT.is.constraints _).1 ⟨k, hk, e⟩
        have := ha.columns n _ _ (hT.known y hy) (hT.known x hx) hyn.symm
        have hxy : y = x := mem_uniq hT.distinct hy hx this
        subst hxy
        rw [hpk hyp] at hc
        cases hc
    simp only [alter, hon, h1, h2, decide_true, Bool.and_self, if_true]
    exact ⟨_, rfl⟩
  · exact ⟨_, rfl⟩

theorem go_unique (hp : Permissive env) {G : String → Option ATable}
    {db : PDb} (hJ : J old new G db) {n : String} {t : ATable} (hG : G n = some t) {x o c : AColumn}
    (hx : x ∈ t.columns) (ho : x.unique = o.unique) (hon : o.name = x.name) (hcn : c.name = x.name)
    (hu : o.unique = true → c.unique = false → Unref G n x.name) :
    ∃ db', execAll env db (if o.unique ≠ c.unique then
      (if c.unique then [.addUnique (lower n) (lower c.name)]
       else [.dropConstraint (lower n) (lower n ++ "_" ++ lower o.name ++ "_key") false])
      else []) = some db' := by
  split
  · next hne =>
    split
    · refine go_alter hp hJ hG rfl fun s hT => ?_
      have h1 : lower x.name ∈ colNames s := hT.colName hx
      simp only [alter, hcn, h1, if_true]
      exact ⟨_, rfl⟩
    · next hcu =>
      have hcu : c.unique = false := by simpa using hcu
      have hou : o.unique = true := by
        rw [hcu] at hne
        simpa using hne
      rw [hon]
      refine go_drop hp hJ hG (k := .unique (lower x.name)) ⟨x, hx, ho.trans hou, rfl⟩
        (fun c h => by cases h) ?_
      intro c' e
      cases e
      exact keyUsed_false hJ (hu hou hcu)
  · exact ⟨_, rfl⟩

theorem go_default (hp : Permissive env) {G : String → Option ATable}
    {db : PDb} (hJ : J old new G db) {n : String} {t : ATable} (hG : G n = some t) {x o c : AColumn}
    (hx : x ∈ t.columns) (hon : o.name = x.name)
    (hf : ∀ v, optBeq SqlVal.beq o.default c.default = false → c.default = some v →
      ∀ ty w, x.typeid = some (.ty ty) → pgTypeOf ty = some w → env.fits w (pgLit p v) = true) :
    ∃ db', execAll env db (if optBeq SqlVal.beq o.default c.default then []
      else [.setDefault (lower n) (lower o.name) (c.default.map (pgLit p))]) = some db' := by
  split
  · exact ⟨_, rfl⟩
  · next hb =>
    refine go_alter hp hJ hG rfl fun s hT => ?_
    obtain ⟨d, hd, hi⟩ := hT.find hx
    obtain ⟨ty, h1, h2⟩ := hi.type
    simp only [alter, hon, hd]
    have : ((c.default.map (pgLit p)).elim true (env.fits d.type)) = true := by
      cases hv : c.default with
      | none => rfl
      | some v => exact hf v (by simpa using hb) hv ty _ h1 h2
    simp only [this, if_true]
    exact ⟨_, rfl⟩

theorem keyIn_upd {G : String → Option ATable} {n : String} {t t' : ATable} (hG : G n = some t)
    (h : ∀ z ∈ t.columns, ∃ z' ∈ t'.columns, z'.name = z.name ∧
      (z.pk = true ∨ z.unique = true → z'.pk = true ∨ z'.unique = true)) {r k : String}
    (hk : KeyIn G r k) : KeyIn (upd G n (some t')) r k := by
  obtain ⟨u, z, hu, hz, e, hkey⟩ := hk
  by_cases hr : r = n
  · subst hr
    rw [hG] at hu
    cases hu
    obtain ⟨z', h1, h2, h3⟩ := h z hz
    exact ⟨t', z', upd_self, h1, h2.trans e, h3 hkey⟩
  · exact ⟨u, z, by simp [upd, hr, hu], hz, e, hkey⟩

theorem unref_upd {G : String → Option ATable} {n : String} {t t' : ATable} (hG : G n = some t)
    (h : ∀ z ∈ t'.columns, ∀ r k, z.reference = some (.literal r k) →
      ∃ z' ∈ t.columns, z'.reference = some (.literal r k)) {m c : String}
    (hu : Unref G m c) : Unref (upd G n (some t')) m c := by
  rintro a r k ⟨u, y, h1, h2, h3⟩
  by_cases ha : a = n
  · subst ha
    rw [upd_self] at h1
    cases h1
    obtain ⟨z', h4, h5⟩ := h y h2 r k h3
    exact hu a r k ⟨t, z', hG, h4, h5⟩
  · simp only [upd, if_neg ha] at h1
    exact hu a r k ⟨u, y, h1, h2, h3⟩

theorem go_ref (hp : Permissive env) (ha : NamesApart old new) {G : String → Option ATable}
    {db : PDb} (hJ : J old new G db) {n : String} {t : ATable} (hG : G n = some t) {x o c : AColumn}
    (hx : x ∈ t.columns) (ho : x.reference = o.reference) (hon : o.name = x.name)
    (hcn : c.name = x.name) (hoc : PgColumn kw o)
    (hk : ∀ r k, c.reference = some (.literal r k) → KeyIn G r k) :
    ∃ db', execAll env db (if optBeq ARef.beq o.reference c.reference then []
      else (pgDropFk n o).toList ++ (pgFk n c).toList) = some db' := by
  obtain ⟨s0, hl0, hT0⟩ := hJ.tables n t hG
  split
  · exact ⟨_, rfl⟩
  · obtain ⟨d1, h1, hJ1⟩ : ∃ d1, execAll env db (pgDropFk n o).toList = some d1 ∧
        J old new (upd G n (some (t.replaceColumn { x with reference := none }))) d1 := by
      simp only [pgDropFk]
      cases hr : o.reference with
      | none =>
        refine ⟨db, rfl, ?_⟩
        have hxr : x.reference = none := by rw [ho, hr]
        have e : ({ x with reference := none } : AColumn) = x := by rw [← hxr]
        rw [e, replace_self hT0.distinct hx, upd_same hG]
        exact hJ
      | some r =>
        obtain ⟨a, b, rfl, -⟩ := hoc.reference r hr
        simp only [Option.isSome_some, if_true, Option.toList, hon]
        obtain ⟨d1, h1⟩ := go_drop (env := env) hp hJ hG (b := false)
          (k := .fk (lower x.name) (lower a) (lower b))
          ⟨x, hx, rfl, a, b, ho.trans hr, rfl, rfl⟩ (fun c h => by cases h) (fun c h => by cases h)
        refine ⟨d1, h1, ?_⟩
        rw [execAll_one] at h1
        exact stmt_dropFk ha hJ hG hx h1
    have hx1 : ({ x with reference := none } : AColumn) ∈
        (t.replaceColumn { x with reference := none }).columns :=
      (mem_replace hT0.distinct).2 (.inl rfl)
    obtain ⟨d2, h2⟩ : ∃ d2, execAll env d1 (pgFk n c).toList = some d2 := by
      simp only [pgFk]
      split
      · next r k e =>
        simp only [Option.toList, hcn]
        refine go_addFk hp hJ1 upd_self hx1 (keyIn_upd hG ?_ (hk r k e))
        intro z hz
        by_cases hzx : z.name = x.name
        · obtain rfl := mem_uniq hT0.distinct hz hx hzx
          exact ⟨_, hx1, rfl, fun h => h⟩
        · exact ⟨z, (mem_replace hT0.distinct).2 (.inr ⟨hz, hzx⟩), rfl, fun h => h⟩
      · exact ⟨_, rfl⟩
    exact ⟨d2, execAll_append_some.2 ⟨d1, h1, h2⟩⟩

theorem go_change (hp : Permissive env) (hen : Naming env) (ha : NamesApart old new)
    {G : String → Option ATable} {db : PDb} (hJ : J old new G db) {n : String} {t : ATable}
    (hG : G n = some t) {x o c : AColumn} (hx : x ∈ t.columns) (hxo : EqPk x o)
    (hon : o.name = c.name) (hauto : o.auto = c.auto) (ho : PgColumn kw o) (hc : PgColumn kw c)
    (hpk : x.pk = c.pk) (hopk : o.pk = c.pk)
    (hty : o.typeid ≠ c.typeid → c.auto = false ∧ ∀ a b v w, o.typeid = some (.ty a) →
      c.typeid = some (.ty b) → pgTypeOf a = some v → pgTypeOf b = some w → env.castable v w = true)
    (hu : o.unique = true → c.unique = false → Unref G n x.name)
    (hf : ∀ v, optBeq SqlVal.beq o.default c.default = false → c.default = some v →
      ∀ ty w, c.typeid = some (.ty ty) → pgTypeOf ty = some w → env.fits w (pgLit p v) = true)
    (hk : ∀ r k, c.reference = some (.literal r k) →
      KeyIn (upd G n (some (t.replaceColumn c))) r k) :
    ∃ db', execAll env db (pgChangeStmts p n o c) = some db' := by
  obtain ⟨s0, hl0, hT0⟩ := hJ.tables n t hG
  have hxn : x.name = c.name := hxo.name.trans hon
  have m : ∀ (y : AColumn), y ∈ (t.replaceColumn y).columns :=
    fun y => (mem_replace hT0.distinct).2 (.inl rfl)
  simp only [pgChangeStmts]
  -- type
  obtain ⟨d1, h1⟩ := go_type hp hJ hG hx hxo.type hc hxo.name.symm hty
  have k1 := seg_type ha hJ hG hx hxo.type hc hxo.name.symm h1
  -- nullability
  obtain ⟨d2, h2⟩ := go_null (env := env) (o := o) (c := c) hp ha k1 upd_self (m _)
    (by show o.name = x.name; exact hxo.name.symm)
    (by intro h; exact hc.pk (hpk ▸ h))
  have k2 := seg_null ha k1 upd_self (m _) (c := c) hxo.nullable hxo.name.symm h2
  replace k2 := collapse (by rfl) k2
  -- uniqueness
  obtain ⟨d4, h4⟩ := go_unique (env := env) (o := o) (c := c) hp k2 upd_self (m _)
    (by show x.unique = _; exact hxo.unique)
    (by show o.name = x.name; exact hxo.name.symm) (by show c.name = x.name; exact hxn.symm)
    (by
      intro h h'
      refine unref_upd hG ?_ (hu h h')
      intro z hz r k e
      rcases (mem_replace hT0.distinct).1 hz with rfl | ⟨hz, -⟩
      · exact ⟨x, hx, e⟩
      · exact ⟨z, hz, e⟩)
  have k4 := seg_unique hen ha k2 upd_self (m _) (c := c) (o := o) hxo.unique
      (by show o.name = x.name; exact hxo.name.symm) (by show c.name = x.name; exact hxn.symm) h4
  replace k4 := collapse (by rfl) k4
  -- default
  obtain ⟨d5, h5⟩ := go_default (env := env) (p := p) (o := o) (c := c) hp k4 upd_self (m _)
    (by show o.name = x.name; exact hxo.name.symm)
    (fun v h h' ty w g => hf v h h' ty w g)
  have k5 := seg_default (p := p) ha k4 upd_self (m _) (c := c) (o := o)
    (by show o.name = x.name; exact hxo.name.symm)
    (fun hA => by
      have hA : x.auto = true := hA
      have hoA : o.auto = true := by rw [← hxo.auto, hA]
      exact ⟨(ho.auto hoA).2.1, (hc.auto (hauto ▸ hoA)).2.1⟩) h5
  replace k5 := collapse (by rfl) k5
  -- reference
  obtain ⟨d6, h6⟩ := go_ref (env := env) (o := o) (c := c) hp ha k5 upd_self (m _)
    (by show x.reference = _; exact hxo.reference)
    (by show o.name = x.name; exact hxo.name.symm) (by show c.name = x.name; exact hxn.symm) ho
    (by
      intro r k e
      have := hk r k e
      obtain ⟨u, z, g1, g2, g3, g4⟩ := this
      by_cases hr : r = n
      · subst hr
        rw [upd_self] at g1
        cases g1
        rcases (mem_replace hT0.distinct).1 g2 with rfl | ⟨g2, hne⟩
        · exact ⟨_, _, upd_self, m _, hxn.trans g3, by
            show x.pk = true ∨ z.unique = true
            rw [hpk]; exact g4⟩
        · exact ⟨_, z, upd_self, (mem_replace hT0.distinct).2
            (.inr ⟨g2, by show z.name ≠ x.name; rw [hxn]; exact hne⟩), g3, g4⟩
      · simp only [upd, if_neg hr] at g1
        exact ⟨u, z, by simp [upd, hr, g1], g2, g3, g4⟩)
  refine ⟨d6, execAll_append_some.2 ⟨d5, execAll_append_some.2 ⟨d4, execAll_append_some.2
    ⟨d2, execAll_append_some.2 ⟨d2, execAll_append_some.2 ⟨d1, h1, h2⟩, ?_⟩, h4⟩, h5⟩, h6⟩⟩
  simp [hopk, execAll]

/-! ### New columns and tables -/

theorem pgType_in {ty : SqlType} {w : List String} (h : pgTypeOf ty = some w) :
    w ∈ pgTypes ∧ serialType w = none := by
  cases ty <;> simp only [pgTypeOf, Option.some.injEq, reduceCtorEq] at h <;> subst h <;>
    exact ⟨by decide, rfl⟩

theorem makeCol_plain {c : AColumn} {d : ColDef} (hd : DefOf c d) (hc : PgColumn kw c)
    (hn : d.default = none) : ∃ x, makeCol env d = some x := by
  obtain ⟨ty, w, h1, h2⟩ := hc.type
  simp only [makeCol, hd.type, hn]
  cases hA : c.auto with
  | true =>
    rcases (hc.auto hA).1 with h | h <;> simp [pgWordsOf, h, hA, serialType]
  | false =>
    have hw : pgWordsOf c = w := by simp [pgWordsOf, h1, hA, h2]
    obtain ⟨h3, h4⟩ := pgType_in h2
    rw [hw, h4]
    simp [h3]

theorem makeCol_fits {c : AColumn} {d : ColDef} (hd : DefOf c d) (hc : PgColumn kw c) {l : Lit}
    (hn : d.default = some l) (hA : c.auto = false)
    (hf : ∀ ty w, c.typeid = some (.ty ty) → pgTypeOf ty = some w → env.fits w l = true) :
    ∃ x, makeCol env d = some x := by
  obtain ⟨ty, w, h1, h2⟩ := hc.type
  simp only [makeCol, hd.type, hn]
  have hw : pgWordsOf c = w := by simp [pgWordsOf, h1, hA, h2]
  obtain ⟨h3, h4⟩ := pgType_in h2
  rw [hw, h4]
  simp [h3, hf ty w h1 h2]

theorem makeCols_plain {cols : List AColumn} (hc : ∀ c ∈ cols, PgColumn kw c) :
    ∃ xs, makeCols env (cols.map pgDef) = some xs := by
  induction cols with
  | nil => exact ⟨_, rfl⟩
  | cons c cols ih =>
    obtain ⟨xs, h1⟩ := ih fun x hx => hc x (List.mem_cons_of_mem _ hx)
    obtain ⟨x, h2⟩ := makeCol_plain (env := env) (pgDef_of c) (hc c (List.mem_cons_self ..)) (by
      simp only [ColDef.default, pgDef, conList]
      cases c.nullable <;> cases c.pk <;> cases c.unique <;> rfl)
    exact ⟨x :: xs, by simp only [List.map_cons, makeCols, h1, h2]⟩

theorem filter_pk_one {cols : List AColumn} (hd : (cols.map (·.name)).Nodup)
    (h : ∀ c ∈ cols, ∀ d ∈ cols, c.pk = true → d.pk = true → c.name = d.name) :
    ((cols.map pgDef).filter (·.pk)).length ≤ 1 := by
  induction cols with
  | nil => simp
  | cons c cols ih =>
    simp only [List.map_cons, List.nodup_cons] at hd
    have ih := ih hd.2 fun a ha b hb =>
      h a (List.mem_cons_of_mem _ ha) b (List.mem_cons_of_mem _ hb)
    rw [List.map_cons, List.filter_cons]
    split
    · next hp =>
      rw [(pgDef_of c).pk] at hp
      have : (cols.map pgDef).filter (·.pk) = [] := by
        rw [List.filter_eq_nil_iff]
        intro d hdm hdp
        obtain ⟨a, ha, rfl⟩ := List.mem_map.1 hdm
        rw [(pgDef_of a).pk] at hdp
        have := h c (List.mem_cons_self ..) a (List.mem_cons_of_mem _ ha) hp hdp
        exact hd.1 (List.mem_map.2 ⟨a, ha, this.symm⟩)
      rw [this]
      simp
    · exact ih

theorem go_create (hp : Permissive env) (ha : NamesApart old new) {G : String → Option ATable}
    {db : PDb} (hJ : J old new G db) {t : ATable} (ht : PgTable kw t)
    (hnew : HasTable old new t.name) (hcols : ∀ c ∈ t.columns, HasColumn old new t.name c.name)
    (hd : (t.columns.map (·.name)).Nodup) (hG : G t.name = none) (h1 : OneKey t) :
    ∃ db', exec env db (pgCreate false t) = some db' := by
  have hl : db.lookup (lower t.name) = none := by
    cases h : db.lookup (lower t.name) with
    | none => rfl
    | some s =>
      obtain ⟨m, u, hm, e⟩ := hJ.only _ _ h
      have := ha.tables _ _ hnew (hJ.known m u hm) e
      rw [← this, hG] at hm
      cases hm
  obtain ⟨xs, hxs⟩ := makeCols_plain (env := env) ht.columns
  have htk : lower t.name ∉ taken db := by
    intro hm
    simp only [taken, List.mem_append, List.mem_map, List.mem_flatMap] at hm
    rcases hm with ⟨e, he, h⟩ | ⟨e, he, c, hc, h⟩
    · have := SMap.lookup_of_mem hJ.sorted (k := e.1) (v := e.2) he
      rw [h, hl] at this
      cases this
    · have := SMap.lookup_of_mem hJ.sorted (k := e.1) (v := e.2) he
      obtain ⟨m, u, hm, e'⟩ := hJ.only _ _ this
      obtain ⟨s', hl', hT⟩ := hJ.tables m u hm
      rw [← e', this] at hl'
      cases hl'
      obtain ⟨y, hy, hyk⟩ := con_col ((hT.is.constraints c.kind).1 ⟨c, hc, rfl⟩)
      rw [hT.names c hc] at h
      exact ha.free _ m _ c.kind hnew (hT.known y hy) hyk h
  have hnd : (((t.columns.map pgDef)).map (·.name)).Nodup := by
    have := nodup_lower ha hd hcols
    simpa [List.map_map, Function.comp_def, pgDef] using this
  have hpk := filter_pk_one hd h1
  simp only [exec, pgCreate, altered, hp _ _, Bool.not_true, Bool.false_eq_true, if_false, hl, hxs,
    List.isEmpty_nil, Bool.not_false, Bool.and_self, Bool.true_and, htk, not_false_eq_true,
    decide_true, hnd, hpk, if_true]
  exact ⟨_, rfl⟩

theorem go_add (hp : Permissive env) (hen : Naming env) (ha : NamesApart old new)
    {G : String → Option ATable} {db : PDb} (hJ : J old new G db) {n : String} {t : ATable}
    (hG : G n = some t) {c : AColumn} (hc : PgColumn kw c) (hk : HasColumn old new n c.name)
    (hno : ∀ y ∈ t.columns, y.name ≠ c.name) (hA : c.auto = false)
    (hpk : c.pk = true → ∀ y ∈ t.columns, y.pk = false)
    (hf : ∀ v, columnDefault c = .ok v → ∀ ty w, c.typeid = some (.ty ty) → pgTypeOf ty = some w →
      env.fits w (pgLit p v) = true)
    (hr : ∀ r k, c.reference = some (.literal r k) →
      KeyIn G r k ∨ (r = n ∧ k = c.name ∧ (c.pk = true ∨ c.unique = true))) :
    ∃ db', execAll env db (pgStmts p (.addColumn n c)) = some db' := by
  obtain ⟨v, hv⟩ := pg_default hc
  simp only [pgStmts, hv]
  obtain ⟨d1, h1⟩ : ∃ d1, execAll env db [.addColumn (lower n)
      { pgDef c with cons := conList c ++ [.default (pgLit p v)] }] = some d1 := by
    refine go_alter hp hJ hG rfl fun s hT => ?_
    obtain ⟨x, hx⟩ := makeCol_fits (env := env) (pgDef_default c (pgLit p v)) hc
      (default_default c (pgLit p v)) hA (hf v hv)
    have hnm : (pgDef c).name ∉ colNames s := hT.not_colName ha hk hno
    have h2 : (c.pk && hasPk s) = false := by
      cases hcp : c.pk with
      | false => rfl
      | true =>
        cases h : hasPk s with
        | false => rfl
        | true =>
          obtain ⟨y, hy, hyp⟩ := (hasPk_iff hT).1 h
          rw [hpk hcp y hy] at hyp
          cases hyp
    simp only [alter, hx, (pgDef_default c (pgLit p v)).pk, h2,
      hnm, decide_false, Bool.or_self, Bool.false_eq_true, if_false]
    exact ⟨_, rfl⟩
  cases hcr : c.reference with
  | none =>
    refine ⟨d1, ?_⟩
    simp only [pgFk, hcr, Option.toList]
    exact h1
  | some r =>
    obtain ⟨a, b, rfl, -⟩ := hc.reference r hcr
    -- the column without the reference is there
    have hc0 : PgColumn kw { c with reference := none } :=
      ⟨hc.name, hc.type, hc.auto, hc.pk, fun r h => by cases h⟩
    have hJ1 := op_add (p := p) hen ha hJ hG hc0 hk hno (db' := d1) (by
      have : columnDefault { c with reference := none } = .ok v := hv
      simp only [pgStmts, this, pgFk, Option.toList]
      exact h1)
    have et : pgAdd t { c with reference := none } = t.addColumn { c with reference := none } := by
      simp only [pgAdd]
      split
      · next h => rw [clearPk_none (hpk h)]
      · rfl
    rw [et] at hJ1
    have hmem : ∀ y, y ∈ (t.addColumn { c with reference := none }).columns ↔
        y ∈ t.columns ∨ y = { c with reference := none } := fun y =>
      mem_add (c := { c with reference := none }) hno
    have hkey : KeyIn (upd G n (some (t.addColumn { c with reference := none }))) a b := by
      rcases hr a b hcr with h | ⟨rfl, rfl, h⟩
      · exact keyIn_upd hG (fun z hz => ⟨z, (hmem z).2 (.inl hz), rfl, fun h => h⟩) h
      · exact ⟨_, _, upd_self, (hmem _).2 (.inr rfl), rfl, h⟩
    obtain ⟨d2, h2⟩ := go_addFk (env := env) hp hJ1 upd_self ((hmem _).2 (.inr rfl)) hkey
    refine ⟨d2, execAll_cons_some.2 ⟨d1, h1, ?_⟩⟩
    simp only [pgFk, hcr, Option.toList]
    exact h2

/-! ### Removing -/

theorem go_remove (hp : Permissive env) {G : String → Option ATable}
    {db : PDb} (hJ : J old new G db) {n : String} {t : ATable} (hG : G n = some t) {x : AColumn}
    (hx : x ∈ t.columns) (hu : Unref G n x.name) :
    ∃ db', execAll env db [.dropColumn (lower n) (lower x.name)] = some db' := by
  refine go_alter hp hJ hG rfl fun s hT => ?_
  have h1 : lower x.name ∈ colNames s := hT.colName hx
  simp only [alter, h1, keyUsed_false hJ hu, decide_true, Bool.not_false, Bool.and_self, if_true]
  exact ⟨_, rfl⟩

theorem go_dropTable (hp : Permissive env) {G : String → Option ATable}
    {db : PDb} (hJ : J old new G db) {n : String} {t : ATable} (hG : G n = some t)
    (hu : ∀ m r k, RefIn G m r k → lower m ≠ lower n → lower r ≠ lower n) :
    ∃ db', exec env db (.dropTable (lower n)) = some db' := by
  obtain ⟨s, hl, -⟩ := hJ.tables n t hG
  simp only [exec, altered, hp _ _, Bool.not_true, Bool.false_eq_true, if_false, hl,
    tableUsed_false hJ hu]
  exact ⟨_, rfl⟩

/-! ### Foreign keys of whole tables -/

theorem go_addFks (hp : Permissive env) (hen : Naming env) (ha : NamesApart old new) {n : String}
    {N : String} {pre post : List AColumn} (hd : ((pre ++ post).map (·.name)).Nodup)
    (hc : ∀ c ∈ post, PgColumn kw c) {G : String → Option ATable}
    {db : PDb} (hJ : J old new G db) (hG : G n = some ⟨N, pre ++ post.map noRef⟩)
    (hk : ∀ c ∈ post, ∀ r k, c.reference = some (.literal r k) → KeyIn G r k) :
    ∃ db', execAll env db (post.filterMap (pgFk n)) = some db' := by
  induction post generalizing pre db G with
  | nil => exact ⟨_, rfl⟩
  | cons c post ih =>
    have hpre : ∀ y ∈ pre, y.name ≠ c.name := by
      rw [List.map_append, List.nodup_append] at hd
      exact fun y hy => hd.2.2 _ (List.mem_map_of_mem hy) _ (by simp)
    have hcp := hc c (List.mem_cons_self ..)
    have hd' : (((pre ++ [c]) ++ post).map (·.name)).Nodup := by simpa using hd
    cases hr : c.reference with
    | none =>
      simp only [List.filterMap_cons, pgFk, hr]
      have e : noRef c = c := by simp only [noRef]; rw [← hr]
      exact ih hd' (fun x hx => hc x (List.mem_cons_of_mem _ hx)) hJ (by simpa [e] using hG)
        fun x hx => hk x (List.mem_cons_of_mem _ hx)
    | some r =>
      obtain ⟨a, b, rfl, -⟩ := hcp.reference r hr
      simp only [List.filterMap_cons, pgFk, hr]
      obtain ⟨d, h1⟩ := go_addFk (env := env) hp hJ hG (x := noRef c) (by simp)
        (hk c (List.mem_cons_self ..) a b hr)
      have h1' := h1
      rw [execAll_one] at h1'
      have hJ1 := stmt_addFk hen ha hJ hG (x := noRef c) (by simp) rfl h1'
      have e : ({ noRef c with reference := some (.literal a b) } : AColumn) = c := by
        simp only [noRef]; rw [← hr]
      rw [e] at hJ1
      simp only [ATable.replaceColumn, List.map_cons] at hJ1
      rw [replace_at (x := noRef c) (x' := c) rfl hpre] at hJ1
      obtain ⟨d2, h2⟩ := ih hd' (fun x hx => hc x (List.mem_cons_of_mem _ hx)) hJ1
        (by rw [upd_self]; simp) (fun x hx r k e => keyIn_upd hG (by
          intro z hz
          simp only [List.map_cons, List.mem_append, List.mem_cons, List.mem_map] at hz ⊢
          rcases hz with hz | rfl | hz
          · exact ⟨z, .inl hz, rfl, fun h => h⟩
          · exact ⟨c, .inr (.inl rfl), rfl, fun h => h⟩
          · exact ⟨z, .inr (.inr hz), rfl, fun h => h⟩)
          (hk x (List.mem_cons_of_mem _ hx) r k e))
      exact ⟨d2, execAll_cons_some.2 ⟨d, h1, h2⟩⟩

theorem go_dropFks (hp : Permissive env) (ha : NamesApart old new) {n : String} {N : String}
    {pre post : List AColumn} (hd : ((pre ++ post).map (·.name)).Nodup)
    (hc : ∀ c ∈ post, PgColumn kw c) {G : String → Option ATable}
    {db : PDb} (hJ : J old new G db) (hG : G n = some ⟨N, pre ++ post⟩) :
    ∃ db', execAll env db (post.filterMap (pgDropFk n)) = some db' := by
  induction post generalizing pre db G with
  | nil => exact ⟨_, rfl⟩
  | cons c post ih =>
    have hpre : ∀ y ∈ pre, y.name ≠ c.name := by
      rw [List.map_append, List.nodup_append] at hd
      exact fun y hy => hd.2.2 _ (List.mem_map_of_mem hy) _ (by simp)
    have hd' : (((pre ++ [noRef c]) ++ post).map (·.name)).Nodup := by simpa [noRef] using hd
    have hcp := hc c (List.mem_cons_self ..)
    cases hr : c.reference with
    | none =>
      simp only [List.filterMap_cons, pgDropFk, hr]
      have e : noRef c = c := by simp only [noRef]; rw [← hr]
      exact ih hd' (fun x hx => hc x (List.mem_cons_of_mem _ hx)) hJ (by simpa [e] using hG)
    | some r =>
      obtain ⟨a, b, rfl, -⟩ := hcp.reference r hr
      simp only [List.filterMap_cons, pgDropFk, hr, Option.isSome_some, if_true]
      obtain ⟨d, h1⟩ := go_drop (env := env) hp hJ hG (b := false)
        (k := .fk (lower c.name) (lower a) (lower b))
        ⟨c, by simp, rfl, a, b, hr, rfl, rfl⟩ (fun c h => by cases h) (fun c h => by cases h)
      have h1' := h1
      rw [execAll_one] at h1'
      have hJ1 := stmt_dropFk ha hJ hG (x := c) (by simp) h1'
      simp only [ATable.replaceColumn] at hJ1
      rw [replace_at (x := c) (x' := { c with reference := none }) rfl hpre] at hJ1
      obtain ⟨d2, h2⟩ := ih hd' (fun x hx => hc x (List.mem_cons_of_mem _ hx)) hJ1
        (by rw [upd_self]; simp [noRef])
      exact ⟨d2, execAll_cons_some.2 ⟨d, h1, h2⟩⟩

end Butane.PgP
