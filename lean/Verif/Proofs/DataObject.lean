/-
Lemmas about the operations on objects.
-/
import Verif.Spec.Objects
import Verif.Props.Statements
import Mathlib.Data.List.Perm.Subperm

namespace Butane
open Sql Spec Props

/-! ### Deleting by condition -/

theorem exec_deleteWhere {s : Session} {db : Db} {table : String} {e : BoolExpr}
    (hk : CoversReserved s.kw s.reserved) (ht : IsName table) (hdb : db.has table = true)
    (hn : NamesOK s.reserved e) (hp : NeedsNoParens s.b.isSqlite .or e)
    (hs : ∀ r ∈ db.rows table, Scoped db r [] e)
    (hv : s.b.isSqlite = false → (valsBool e).length ≤ 126) :
    s.exec db (s.b.deleteWhere s.kw table e) =
      .ok (setRows db table ((db.rows table).filter fun r =>
          !decide (boolValue s.rel db r e = some true)),
        ((db.rows table).filter fun r => decide (boolValue s.rel db r e = some true)).length, none) := by
  have hcnt : cntBool e = (valsBool e).length := (valsBool_len e (noPlaceholder_of e _ hp)).symm
  have hlex : lex s.reserved (s.b.deleteWhere s.kw table e).text =
      [.kw "DELETE", .kw "FROM", .ident table, .kw "WHERE"] ++ toksBool e 0 := by
    cases hb : s.b with
    | sqlite => exact (reads_delete (d := sqliteDialect s.kw) (cnt := fun n => n) hk
        (phReads_sqlite s.kw s.reserved (cntBool e)) ht (oneJoin_of e _ hp) hn (Nat.le_refl _)).lex rfl
    | pg => exact (reads_delete (d := pgDialect s.kw) (cnt := fun _ => 0) (B := 127) hk
        (phReads_pg s.kw s.reserved) ht (oneJoin_of e _ hp) hn (by
          have := hv (by rw [hb]; rfl)
          omega)).lex rfl
  have hpar : (s.b.deleteWhere s.kw table e).params = valsBool e := by
    cases s.b <;> exact renderBool_vals _ e 0
  simp only [Session.exec, execText, hlex, hpar, parse_delete hp]
  rw [exec_delete hp hs hdb]

/-! ### Comparing keys -/

theorem toDb_null {v : SqlVal} (h : toDb v ≠ .null) : v ≠ .null := by
  rintro rfl
  exact h rfl

/-- A comparison with a key selects the rows with that key. -/
theorem key_selects {s : Session} {Key : DbVal → Prop} (hK : KeysOK s Key) {db : Db} {r : Row}
    {pkcol : String} {id : SqlVal} (hr : Key (r.val pkcol)) (hid : Key (toDb id)) :
    boolValue s.rel db r (.cmp .eq pkcol (.val id)) = some true ↔ r.val pkcol = toDb id := by
  have hne := toDb_null (hK.notNull _ hid)
  have h1 : boolValue s.rel db r (.cmp .eq pkcol (.val id)) =
      cmp3 s.rel .eq (r.val pkcol) (toDb id) := by
    cases id <;> simp_all [boolValue, exprValue]
  rw [h1, ← hK.exact_ _ _ hr hid]
  have ha := hK.notNull _ hr
  have hb := hK.notNull _ hid
  generalize r.val pkcol = a at ha
  generalize toDb id = b at hb
  cases a <;> cases b <;> simp_all [cmp3]

theorem equal_iff {s : Session} {Key : DbVal → Prop} (hK : KeysOK s Key) {a b : DbVal}
    (ha : Key a) (hb : Key b) : Equal s.rel a b ↔ a = b := by
  unfold Equal
  rw [hK.exact_ _ _ ha hb]
  exact ⟨fun h => h.2.2, fun h => ⟨hK.notNull _ ha, hK.notNull _ hb, h⟩⟩

/-! ### Fields -/

theorem pkField_mem {m : ModelDef} {pk : Field} (h : m.pkField = some pk) : pk ∈ m.fields := by
  unfold ModelDef.pkField at h
  split at h
  · next f hf =>
    obtain rfl := Option.some.inj h
    exact List.mem_of_find?_eq_some hf
  · exact List.mem_of_find?_eq_some h

theorem mem_columns {m : ModelDef} {f : Field} (h : f ∈ m.fields) (hr : f.isRow = true) :
    f.name ∈ m.columns :=
  List.mem_map.2 ⟨f, List.mem_filter.2 ⟨h, hr⟩, rfl⟩

theorem columns_mem {m : ModelDef} {c : String} (h : c ∈ m.columns) :
    ∃ f ∈ m.fields, f.isRow = true ∧ f.name = c := by
  obtain ⟨f, hf, rfl⟩ := List.mem_map.1 h
  obtain ⟨h1, h2⟩ := List.mem_filter.1 hf
  exact ⟨f, h1, h2, rfl⟩

theorem Spec.ModelOK.columns_names {s : Session} {m : ModelDef} {pk : Field} (h : ModelOK s m pk) :
    ∀ c ∈ m.columns, IsName c := by
  intro c hc
  obtain ⟨f, hf, _, rfl⟩ := columns_mem hc
  exact h.names f hf

theorem Spec.ModelOK.columns_nodup {s : Session} {m : ModelDef} {pk : Field} (h : ModelOK s m pk) :
    m.columns.Nodup :=
  List.Nodup.sublist (List.Sublist.map _ List.filter_sublist) h.nodup

theorem Spec.ModelOK.pk_mem {s : Session} {m : ModelDef} {pk : Field} (h : ModelOK s m pk) :
    pk ∈ m.fields := pkField_mem h.pk_field

theorem Spec.ModelOK.pk_col {s : Session} {m : ModelDef} {pk : Field} (h : ModelOK s m pk) :
    pk.name ∈ m.columns := mem_columns h.pk_mem h.pk_row

/-- Fields are determined by their name. -/
theorem Spec.ModelOK.field_inj {s : Session} {m : ModelDef} {pk : Field} (h : ModelOK s m pk)
    {f g : Field} (hf : f ∈ m.fields) (hg : g ∈ m.fields) (he : f.name = g.name) : f = g := by
  obtain ⟨i, hi, rfl⟩ := List.getElem_of_mem hf
  obtain ⟨j, hj, rfl⟩ := List.getElem_of_mem hg
  have := (List.getElem_inj (xs := m.fields.map Field.name) (i := i) (j := j)
    (h₀ := by simpa using hi) (h₁ := by simpa using hj) h.nodup).1 (by simpa using he)
  subst this
  rfl

/-- Without an automatic key there is no automatic field. -/
theorem Spec.ModelOK.no_auto {s : Session} {m : ModelDef} {pk : Field} (h : ModelOK s m pk)
    (ha : pk.isAuto = false) : ∀ f ∈ m.fields, f.isAuto = false := by
  intro f hf
  have hv := h.verify
  unfold ModelDef.verifyFields at hv
  rw [h.pk_field] at hv
  have := List.all_eq_true.1 hv f hf
  cases hfa : f.isAuto with
  | false => rfl
  | true =>
    rw [hfa] at this
    simp only [Bool.not_true, Bool.false_or, decide_eq_true_eq] at this
    rw [this, ha] at hfa
    exact hfa.symm

/-- Only the key is automatic. -/
theorem Spec.ModelOK.auto_pk {s : Session} {m : ModelDef} {pk : Field} (h : ModelOK s m pk)
    {f : Field} (hf : f ∈ m.fields) (ha : f.isAuto = true) : f = pk := by
  have hv := h.verify
  unfold ModelDef.verifyFields at hv
  rw [h.pk_field] at hv
  have := List.all_eq_true.1 hv f hf
  rw [ha] at this
  simpa using this

theorem nonAutoValues_true {m : ModelDef} (h : ∀ f ∈ m.fields, f.isAuto = false) (o : Obj) :
    m.nonAutoValues o true = m.columns.map o.val := by
  unfold ModelDef.nonAutoValues ModelDef.columns
  rw [List.map_map]
  congr 1
  apply List.filter_congr
  intro f hf
  simp [h f hf]

theorem stored_val {base row : Row} {cols : List String} {g : String → SqlVal}
    (h : Stored base cols (cols.map g) row) {c : String} (hc : c ∈ cols) :
    row.val c = toDb (g c) := by
  obtain ⟨i, hi, rfl⟩ := List.getElem_of_mem hc
  exact h.2.1 i _ _ (List.getElem?_eq_getElem hi) (by simp [hi])

theorem stores_of_stored {m : ModelDef} {row : Row} {o : Obj}
    (ha : ∀ f ∈ m.fields, f.isAuto = false)
    (h : ∀ c ∈ m.columns, row.val c = toDb (o.val c)) : Stores m o row := by
  intro f hf hr
  refine ⟨o.val f.name, ?_, h _ (mem_columns hf hr)⟩
  simp [fieldVal, ha f hf]

/-! ### Reading an object -/

/-- The values `rows_for_from` reads from a row that holds the object. -/
theorem rowsForFrom_ok {dec : String → DbVal → Option SqlVal} {o : Obj} {r : Row}
    (fs : List Field) (pre : List DbVal)
    (h : ∀ f ∈ fs, f.isRow = true → ∃ v, fieldVal o f = some v ∧ r.val f.name = toDb v ∧
      dec f.name (toDb v) = some v) :
    ∃ vals, rowsForFrom dec (pre ++ ((fs.filter (·.isRow)).map (·.name)).map r.val) fs pre.length = .ok vals ∧
      vals.map (fun p => (p.1, some p.2)) = (fs.filter (·.isRow)).map fun f => (f.name, fieldVal o f) := by
  induction fs generalizing pre with
  | nil => exact ⟨[], rfl, rfl⟩
  | cons f fs ih =>
    have ih' := fun pre => ih pre (fun g hg => h g (List.mem_cons_of_mem _ hg))
    cases hr : f.isRow with
    | false =>
      obtain ⟨vals, h1, h2⟩ := ih' pre
      refine ⟨vals, ?_, ?_⟩
      · simpa [rowsForFrom, hr] using h1
      · simpa [hr] using h2
    | true =>
      obtain ⟨v, h1, h2, h3⟩ := h f (List.mem_cons_self) hr
      obtain ⟨vals, h4, h5⟩ := ih' (pre ++ [r.val f.name])
      refine ⟨(f.name, v) :: vals, ?_, ?_⟩
      · rw [List.length_append] at h4
        simp only [List.length_cons, List.length_nil, Nat.zero_add, List.append_assoc,
          List.cons_append, List.nil_append] at h4
        simp only [rowsForFrom, hr, List.filter_cons, if_true, List.map_cons]
        rw [List.getElem?_append_right (Nat.le_refl _)]
        simp only [Nat.sub_self, List.getElem?_cons_zero]
        rw [h2, h3]
        simp only
        rw [← h2, h4]
      · simp [hr, h5, h1]

theorem lookup_of_map {vals : List (String × SqlVal)} {fs : List Field} {o : Obj}
    (h : vals.map (fun p => (p.1, some p.2)) = fs.map fun f => (f.name, fieldVal o f))
    (hn : (fs.map (·.name)).Nodup) {f : Field} (hf : f ∈ fs) :
    vals.lookup f.name = fieldVal o f := by
  induction fs generalizing vals with
  | nil => simp at hf
  | cons g fs ih =>
    cases vals with
    | nil => simp at h
    | cons p vals =>
      simp only [List.map_cons, List.cons.injEq, Prod.mk.injEq] at h
      obtain ⟨⟨h1, h2⟩, h3⟩ := h
      simp only [List.map_cons, List.nodup_cons] at hn
      by_cases hfg : f.name = g.name
      · have : f = g ∨ f ∈ fs := List.mem_cons.1 hf
        rcases this with rfl | hmem
        · rw [← h2]
          simp [List.lookup, ← h1]
        · exact absurd (List.mem_map.2 ⟨f, hmem, hfg⟩) hn.1
      · have hmem : f ∈ fs := by
          rcases List.mem_cons.1 hf with rfl | h'
          · exact absurd rfl hfg
          · exact h'
        rw [← ih h3 hn.2 hmem]
        have : (f.name == p.1) = false := by
          rw [h1]
          simpa using hfg
        simp [List.lookup, this]

theorem fromRow_ok {s : Session} {m : ModelDef} {pk : Field} (hm : ModelOK s m pk) {o : Obj} {r : Row}
    (hs : Stores m o r) (hr : Readable m s o) :
    ∃ o', m.fromRow s (m.columns.map r.val) = .ok o' ∧ SameObj m o' o := by
  obtain ⟨vals, h1, h2⟩ := rowsForFrom_ok (dec := s.decode) (o := o) (r := r) m.fields [] (by
    intro f hf hrow
    obtain ⟨v, hv1, hv2⟩ := hs f hf hrow
    exact ⟨v, hv1, hv2, hr f hf hrow v hv1⟩)
  have hlen : ¬ (m.columns.map r.val).length ≠ (m.fields.filter (·.isRow)).length := by
    simp [ModelDef.columns]
  have h1' : rowsForFrom s.decode (m.columns.map r.val) m.fields 0 = .ok vals := h1
  refine ⟨_, by rw [ModelDef.fromRow, if_neg hlen, h1'], ?_⟩
  intro f hf hrow
  have hl := lookup_of_map h2 (List.Nodup.sublist (List.Sublist.map _ List.filter_sublist) hm.nodup)
    (List.mem_filter.2 ⟨hf, hrow⟩)
  cases ha : f.isAuto with
  | true =>
    have hfp := hm.auto_pk hf ha
    have hfind : m.fields.find? (·.isAuto) = some f := by
      cases hfd : m.fields.find? (·.isAuto) with
      | none =>
        have := List.find?_eq_none.1 hfd f hf
        simp [ha] at this
      | some g =>
        have hg1 := List.mem_of_find?_eq_some hfd
        have hg2 := List.find?_some hfd
        rw [hfp, hm.auto_pk hg1 hg2]
    simp only [fieldVal, ha, if_true] at hl ⊢
    rw [hfind]
    exact hl
  | false =>
    simp only [fieldVal, ha, Bool.false_eq_true, if_false] at hl ⊢
    rw [hl]

/-! ### Getting an object by key -/

theorem getQuery_ok {s : Session} {m : ModelDef} {pk : Field} (hm : ModelOK s m pk) {db : Db}
    (ht : TableOK m db) (id : SqlVal) :
    QueryOK s.b.isSqlite s.reserved db (m.getQuery pk.name id) m.columns where
  table := hm.table
  exists_ := ht.1
  cols_ne := by
    intro h
    have := hm.pk_col
    rw [h] at this
    cases this
  cols := fun c hc => ⟨hm.columns_names c hc, fun r hr => ht.2 r hr c hc⟩
  sort := by
    intro o ho
    exact absurd ho (by simp [ModelDef.getQuery, Query.withLimit, Query.withFilter, Query.new])
  filter := by
    intro e he
    obtain rfl : BoolExpr.cmp .eq pk.name (.val id) = e := Option.some.inj he
    refine ⟨⟨hm.pk_plain, trivial⟩, trivial, ?_, ?_⟩
    · intro r hr
      exact ⟨⟨ht.2 r hr _ hm.pk_col, by simp⟩, trivial⟩
    · intro _
      simp only [valsBool, valsExpr]
      split
      · simp
      · cases id <;> simp [valsVal]

/-- The rows with a given key, when keys are distinct. -/
theorem matching_key {s : Session} {m : ModelDef} {pk : Field} {Key : DbVal → Prop}
    (hK : KeysOK s Key) {db : Db} {id : SqlVal} (hid : Key (toDb id))
    (hkeys : ∀ r ∈ db.rows m.table, Key (r.val pk.name)) :
    matching s.rel db m.table (some (.cmp .eq pk.name (.val id))) =
      (db.rows m.table).filter fun r => decide (r.val pk.name = toDb id) := by
  unfold matching
  apply List.filter_congr
  intro r hr
  exact decide_eq_decide.2 (key_selects hK (hkeys r hr) hid)

theorem filter_key_unique {α : Type} {f : α → DbVal} {k : DbVal} {rows : List α}
    (hd : rows.Pairwise fun a b => f a ≠ f b) {r : α} (hr : r ∈ rows) (hk : f r = k) :
    rows.filter (fun x => decide (f x = k)) = [r] := by
  induction rows with
  | nil => cases hr
  | cons x xs ih =>
    obtain ⟨h1, h2⟩ := List.pairwise_cons.1 hd
    by_cases hx : f x = k
    · have : xs.filter (fun x => decide (f x = k)) = [] := by
        rw [List.filter_eq_nil_iff]
        intro y hy hyk
        exact h1 y hy (hx.trans (of_decide_eq_true hyk).symm)
      rcases List.mem_cons.1 hr with rfl | hr
      · simp [hx, this]
      · exact absurd (hx.trans hk.symm) (h1 r hr)
    · rcases List.mem_cons.1 hr with rfl | hr
      · exact absurd hk hx
      · simp [hx, ih h2 hr]

theorem load_key_iff {s : Session} {m : ModelDef} {pk : Field} {Key : DbVal → Prop}
    (hm : ModelOK s m pk) (hK : KeysOK s Key) {db : Db} (ht : TableOK m db) {id : SqlVal}
    (hid : Key (toDb id)) (hkeys : ∀ r ∈ db.rows m.table, Key (r.val pk.name))
    (hd : (db.rows m.table).Pairwise fun a b => a.val pk.name ≠ b.val pk.name)
    (res : Except OpErr (List Obj)) :
    m.LoadOut s db (m.getQuery pk.name id) res ↔
      res = m.fromRows s (((db.rows m.table).filter fun r => decide (r.val pk.name = toDb id)).map
        fun r => m.columns.map r.val) := by
  have key := load_result_partial (b := s.b) s.rel s.le hm.covers (getQuery_ok hm ht id)
    (by
      intro x hx
      obtain rfl : (1 : Int32) = x := Option.some.inj hx
      decide)
    (by
      intro x hx
      exact absurd hx (by simp [ModelDef.getQuery, Query.withLimit, Query.withFilter, Query.new]))
    (by
      intro _ h
      exact absurd h (by simp [ModelDef.getQuery, Query.withLimit]))
  have hmatch : ∀ rows, LoadResult s.rel s.le db m.table (some (.cmp .eq pk.name (.val id)))
      (some 1) none [] rows ↔
      rows = (db.rows m.table).filter fun r => decide (r.val pk.name = toDb id) := by
    intro rows
    have hle : ((db.rows m.table).filter fun r => decide (r.val pk.name = toDb id)).length ≤ 1 := by
      cases hf : (db.rows m.table).filter fun r => decide (r.val pk.name = toDb id) with
      | nil => simp
      | cons r rs =>
        have hmem : r ∈ (db.rows m.table).filter fun r => decide (r.val pk.name = toDb id) := by
          rw [hf]; exact List.mem_cons_self
        obtain ⟨h1, h2⟩ := List.mem_filter.1 hmem
        rw [← hf, filter_key_unique hd h1 (of_decide_eq_true h2)]
        simp
    constructor
    · rintro ⟨all, h1, _, h3⟩
      rw [matching_key hK hid hkeys] at h1
      have h3 : rows = all.take 1 := h3
      have hlen := h1.length_eq
      generalize (db.rows m.table).filter (fun r => decide (r.val pk.name = toDb id)) = l at *
      match l, hle, h1 with
      | [], _, h1 =>
        rw [h3, h1.eq_nil]
        rfl
      | [r], _, h1 =>
        rw [h3, List.perm_singleton.1 h1]
        rfl
    · rintro rfl
      refine ⟨_, .refl _, List.pairwise_of_forall (by intro a b; trivial), ?_⟩
      rw [matching_key hK hid hkeys]
      show _ = List.take 1 _
      rw [List.take_of_length_le hle]
  constructor
  · rintro ⟨out, h1, rfl⟩
    obtain ⟨rows, h2, rfl⟩ := (key out).1 h1
    rw [(hmatch rows).1 h2]
  · rintro rfl
    refine ⟨_, (key _).2 ⟨_, (hmatch _).2 rfl, rfl⟩, rfl⟩

theorem tryGet_iff {s : Session} {m : ModelDef} {pk : Field} {Key : DbVal → Prop} {st : Store}
    (hm : ModelOK s m pk) (hK : KeysOK s Key) {db : Db} (hh : Holds m s pk Key st db) {id : SqlVal}
    (hid : Key (toDb id)) :
    match st (toDb id) with
    | none => ∀ res, m.TryGetOut s db id res ↔ res = .ok none
    | some o => ∃ o', SameObj m o' o ∧ ∀ res, m.TryGetOut s db id res ↔ res = .ok (some o') := by
  have key := load_key_iff hm hK hh.table hid hh.keys hh.distinct
  cases hst : st (toDb id) with
  | none =>
    simp only
    intro res
    have hnil : (db.rows m.table).filter (fun r => decide (r.val pk.name = toDb id)) = [] := by
      rw [List.filter_eq_nil_iff]
      intro r hr h
      exact hh.absent _ hst r hr (of_decide_eq_true h)
    rw [hnil] at key
    simp only [ModelDef.TryGetOut, hm.pk_field]
    constructor
    · rintro ⟨os, h1, rfl⟩
      rw [(key _).1 h1]
      rfl
    · rintro rfl
      exact ⟨_, (key _).2 rfl, rfl⟩
  | some o =>
    simp only
    obtain ⟨r, hr, hrk, hrs, hrr⟩ := hh.present _ _ hst
    have hone := filter_key_unique hh.distinct hr hrk
    rw [hone] at key
    obtain ⟨o', h1, h2⟩ := fromRow_ok hm hrs hrr
    have hrows : m.fromRows s ([r].map fun r => m.columns.map r.val) = .ok [o'] := by
      simp [ModelDef.fromRows, h1]
    rw [hrows] at key
    refine ⟨o', h2, ?_⟩
    intro res
    simp only [ModelDef.TryGetOut, hm.pk_field]
    constructor
    · rintro ⟨os, h3, rfl⟩
      rw [(key _).1 h3]
      rfl
    · rintro rfl
      exact ⟨_, (key _).2 rfl, rfl⟩

/-! ### Saving and deleting -/

theorem exec_of_text {s : Session} {db : Db} {st : Stmt} {r : Db × Nat × Option DbVal}
    (h : execText s.b.isSqlite s.rel s.reserved s.env db st.text st.params = some r) :
    s.exec db st = .ok r := by
  simp only [Session.exec, h]

/-- `save` without automatic key. -/
theorem save_ok {s : Session} {m : ModelDef} {pk : Field} {Key : DbVal → Prop} {st : Store}
    (hm : ModelOK s m pk) (hK : KeysOK s Key) (ha : pk.isAuto = false) {db : Db}
    (hh : Holds m s pk Key st db) {o : Obj} (hk : Key (toDb (o.val pk.name))) (hr : Readable m s o) :
    ∃ rows', m.save s db o = .ok (setRows db m.table rows', o) ∧
      Holds m s pk Key (st.set (toDb (o.val pk.name)) (some o)) (setRows db m.table rows') := by
  have hna := hm.no_auto ha
  have hvals := nonAutoValues_true hna o
  have hsave : ∀ {r}, s.exec db (s.b.upsert s.kw m.table m.columns pk.name (m.columns.map o.val)) = .ok r →
      m.save s db o = .ok (r.1, o) := by
    intro r h
    simp [ModelDef.save, hm.pk_field, ha, hvals, h]
  -- the new content satisfies the invariant
  have fin : ∀ rows' : List Row,
      (∀ r ∈ rows', ∀ c ∈ m.columns, r.has c = true) →
      (rows'.Pairwise fun a b => a.val pk.name ≠ b.val pk.name) →
      (∀ r ∈ rows', Key (r.val pk.name)) →
      (∃ r ∈ rows', r.val pk.name = toDb (o.val pk.name) ∧ ∀ c ∈ m.columns, r.val c = toDb (o.val c)) →
      (∀ r, r.val pk.name ≠ toDb (o.val pk.name) → (r ∈ rows' ↔ r ∈ db.rows m.table)) →
      Holds m s pk Key (st.set (toDb (o.val pk.name)) (some o)) (setRows db m.table rows') := by
    intro rows' h1 h2 h3 h4 h5
    have hrows : (setRows db m.table rows').rows m.table = rows' := by simp [setRows]
    refine ⟨⟨hh.table.1, by rw [hrows]; exact h1⟩, by rw [hrows]; exact h2, by rw [hrows]; exact h3, ?_, ?_⟩
    · rw [hrows]
      intro k hk' r hr
      unfold Store.set at hk'
      split at hk'
      · cases hk'
      · next hne =>
        intro hrk
        have := (h5 r (by rw [hrk]; exact hne)).1 hr
        exact hh.absent k hk' r this hrk
    · rw [hrows]
      intro k o' hk'
      unfold Store.set at hk'
      split at hk'
      · next he =>
        obtain rfl := Option.some.inj hk'
        obtain ⟨r, hr1, hr2, hr3⟩ := h4
        exact ⟨r, hr1, by rw [hr2, he], stores_of_stored hna hr3, hr⟩
      · next hne =>
        obtain ⟨r, hr1, hr2, hr3⟩ := hh.present k o' hk'
        exact ⟨r, (h5 r (by rw [hr2]; exact hne)).2 hr1, hr2, hr3⟩
  have hpkc := hm.pk_col
  have htmpl := hm.template (db.rows m.table)
  -- a row was appended
  have append : ∀ new, Stored (s.env.template m.table (db.rows m.table)) m.columns (m.columns.map o.val) new →
      (¬∃ r ∈ db.rows m.table, r.val pk.name = toDb (o.val pk.name)) →
      Holds m s pk Key (st.set (toDb (o.val pk.name)) (some o))
        (setRows db m.table (db.rows m.table ++ [new])) := by
    intro new hnew hno
    have hnk : new.val pk.name = toDb (o.val pk.name) := stored_val hnew hpkc
    apply fin
    · intro r hr c hc
      rcases List.mem_append.1 hr with h | h
      · exact hh.table.2 r h c hc
      · obtain rfl := List.mem_singleton.1 h
        rw [hnew.1]
        exact htmpl c hc
    · rw [List.pairwise_append]
      refine ⟨hh.distinct, List.pairwise_singleton _ _, ?_⟩
      intro a hA b hB heq
      obtain rfl := List.mem_singleton.1 hB
      exact hno ⟨a, hA, heq.trans hnk⟩
    · intro r hr
      rcases List.mem_append.1 hr with h | h
      · exact hh.keys r h
      · obtain rfl := List.mem_singleton.1 h
        rw [hnk]
        exact hk
    · exact ⟨new, by simp, hnk, fun c hc => stored_val hnew hc⟩
    · intro r hne
      rw [List.mem_append, List.mem_singleton]
      constructor
      · rintro (h | rfl)
        · exact h
        · exact absurd hnk hne
      · exact .inl
  -- rows were rewritten
  have rewrite_ : ∀ f : Row → Row,
      (∀ r, r ∈ db.rows m.table → r.val pk.name = toDb (o.val pk.name) →
        (f r).has = r.has ∧ ∀ c ∈ m.columns, (f r).val c = toDb (o.val c)) →
      (∀ r, r ∈ db.rows m.table → r.val pk.name ≠ toDb (o.val pk.name) → f r = r) →
      (∃ r ∈ db.rows m.table, r.val pk.name = toDb (o.val pk.name)) →
      Holds m s pk Key (st.set (toDb (o.val pk.name)) (some o))
        (setRows db m.table ((db.rows m.table).map f)) := by
    intro f hf1 hf2 hex
    have hfk : ∀ r ∈ db.rows m.table, (f r).val pk.name = r.val pk.name := by
      intro r hr
      by_cases he : r.val pk.name = toDb (o.val pk.name)
      · rw [(hf1 r hr he).2 _ hpkc, he]
      · rw [hf2 r hr he]
    apply fin
    · intro r hr c hc
      obtain ⟨r0, h0, rfl⟩ := List.mem_map.1 hr
      by_cases he : r0.val pk.name = toDb (o.val pk.name)
      · rw [(hf1 r0 h0 he).1]
        exact hh.table.2 r0 h0 c hc
      · rw [hf2 r0 h0 he]
        exact hh.table.2 r0 h0 c hc
    · rw [List.pairwise_map]
      refine List.Pairwise.imp_of_mem ?_ hh.distinct
      intro a b hA hB hab
      rw [hfk a hA, hfk b hB]
      exact hab
    · intro r hr
      obtain ⟨r0, h0, rfl⟩ := List.mem_map.1 hr
      rw [hfk r0 h0]
      exact hh.keys r0 h0
    · obtain ⟨r0, h0, he⟩ := hex
      exact ⟨f r0, List.mem_map.2 ⟨r0, h0, rfl⟩, by rw [hfk r0 h0, he], (hf1 r0 h0 he).2⟩
    · intro r hne
      rw [List.mem_map]
      constructor
      · rintro ⟨r0, h0, rfl⟩
        by_cases he : r0.val pk.name = toDb (o.val pk.name)
        · exact absurd ((hfk r0 h0).trans he) hne
        · rw [hf2 r0 h0 he]
          exact h0
      · intro h0
        exact ⟨r, h0, hf2 r h0 hne⟩
  by_cases hlen : 1 < m.columns.length
  · obtain ⟨new, h1, h2, h3⟩ := upsert_stores (b := s.b) s.rel hm.covers hm.excluded s.env
      (db := db) (table := m.table) (cols := m.columns) (vals := m.columns.map o.val) hm.table hm.table_ne
      (by rw [hm.key]; exact hm.pk_plain.1) hm.columns_names hm.columns_nodup (by simp) hlen hh.table.1
      htmpl
    rw [hm.key] at h2 h3
    have hnk : new.val pk.name = toDb (o.val pk.name) := stored_val h1 hpkc
    rw [hnk] at h2 h3
    by_cases hex : ∃ r ∈ db.rows m.table, r.val pk.name = toDb (o.val pk.name)
    · obtain ⟨r, hr1, hr2⟩ := hex
      obtain ⟨f, hf1, hf2, hf3⟩ := h2 ⟨r, hr1, (equal_iff hK (hh.keys r hr1) hk).2 hr2⟩
      refine ⟨_, hsave (exec_of_text hf3), ?_⟩
      apply rewrite_
      · intro r hr he
        have := hf1 r ((equal_iff hK (hh.keys r hr) hk).2 he)
        exact ⟨this.1, fun c hc => stored_val this hc⟩
      · intro r hr he
        exact hf2 r (fun h => he ((equal_iff hK (hh.keys r hr) hk).1 h))
      · exact ⟨r, hr1, hr2⟩
    · have h3' := h3 (by
        rintro ⟨r, hr1, hr2⟩
        exact hex ⟨r, hr1, (equal_iff hK (hh.keys r hr1) hk).1 hr2⟩)
      exact ⟨_, hsave (exec_of_text h3'), append new h1 hex⟩
  · -- the key is the only column
    have hcols : m.columns = [pk.name] := by
      match hc : m.columns, hpkc with
      | [], h => cases h
      | [c], h => rw [List.mem_singleton.1 h]
      | _ :: _ :: _, _ => rw [hc] at hlen; simp at hlen
    obtain ⟨new, h1, h2, h3⟩ := upsert_single_stores (b := s.b) s.rel hm.covers hm.excluded s.env
      (db := db) (table := m.table) (c := pk.name) (v := o.val pk.name) hm.table
      (by rw [hm.key]; exact hm.pk_plain.1) hm.pk_plain.1 hh.table.1 (htmpl _ hpkc)
    rw [hm.key] at h2 h3
    have hnk : new.val pk.name = toDb (o.val pk.name) := h1.2.1 0 _ _ rfl rfl
    rw [hnk] at h2 h3
    have e1 : [pk.name] = m.columns := hcols.symm
    have e2 : [o.val pk.name] = m.columns.map o.val := by rw [hcols]; rfl
    rw [e2, e1] at h1 h2 h3
    by_cases hex : ∃ r ∈ db.rows m.table, r.val pk.name = toDb (o.val pk.name)
    · obtain ⟨r, hr1, hr2⟩ := hex
      have h2' := h2 ⟨r, hr1, (equal_iff hK (hh.keys r hr1) hk).2 hr2⟩
      have hself : setRows db m.table ((db.rows m.table).map id) = db := by
        cases db with
        | mk has rows =>
          simp only [setRows, List.map_id]
          congr 1
          funext t
          split
          · next h => rw [h]
          · rfl
      refine ⟨(db.rows m.table).map id, ?_, ?_⟩
      · rw [hself]
        exact hsave (exec_of_text h2')
      · apply rewrite_ id
        · intro r hr he
          refine ⟨rfl, ?_⟩
          intro c hc
          rw [hcols] at hc
          rw [List.mem_singleton.1 hc]
          exact he
        · intro r _ _
          rfl
        · exact ⟨r, hr1, hr2⟩
    · have h3' := h3 (by
        rintro ⟨r, hr1, hr2⟩
        exact hex ⟨r, hr1, (equal_iff hK (hh.keys r hr1) hk).1 hr2⟩)
      exact ⟨_, hsave (exec_of_text h3'), append new h1 hex⟩

theorem exec_delete_key {s : Session} {m : ModelDef} {pk : Field} {Key : DbVal → Prop}
    (hm : ModelOK s m pk) (hK : KeysOK s Key) {db : Db} (ht : TableOK m db)
    (hkeys : ∀ r ∈ db.rows m.table, Key (r.val pk.name)) {id : SqlVal} (hid : Key (toDb id)) :
    ∃ n, s.exec db (s.b.delete s.kw m.table pk.name id) =
      .ok (setRows db m.table ((db.rows m.table).filter fun r => decide (r.val pk.name ≠ toDb id)), n, none) := by
  have hq := getQuery_ok hm ht id
  obtain ⟨h1, h2, h3, h4⟩ := hq.filter (.cmp .eq pk.name (.val id)) rfl
  have h := exec_deleteWhere hm.covers hm.table ht.1 h1 h2 h3 h4
  have he : ((db.rows m.table).filter fun r => !decide (boolValue s.rel db r
      (.cmp .eq pk.name (.val id)) = some true)) =
      (db.rows m.table).filter fun r => decide (r.val pk.name ≠ toDb id) := by
    apply List.filter_congr
    intro r hr
    rw [decide_not, decide_eq_decide.2 (key_selects hK (hkeys r hr) hid)]
  rw [he] at h
  exact ⟨_, h⟩

/-- `delete`. -/
theorem delete_ok {s : Session} {m : ModelDef} {pk : Field} {Key : DbVal → Prop} {st : Store}
    (hm : ModelOK s m pk) (hK : KeysOK s Key) {db : Db}
    (hh : Holds m s pk Key st db) {o : Obj} {v : SqlVal} (hpk : m.pkVal o = .ok v) (hk : Key (toDb v)) :
    ∃ rows', m.delete s db o = .ok (setRows db m.table rows') ∧
      Holds m s pk Key (st.set (toDb v) none) (setRows db m.table rows') := by
  obtain ⟨n, hn⟩ := exec_delete_key hm hK hh.table hh.keys hk
  refine ⟨(db.rows m.table).filter fun r => decide (r.val pk.name ≠ toDb v),
    by simp only [ModelDef.delete, hm.pk_field, hpk, hn], ?_⟩
  have hrows : ∀ rows', (setRows db m.table rows').rows m.table = rows' := by simp [setRows]
  refine ⟨⟨hh.table.1, ?_⟩, ?_, ?_, ?_, ?_⟩
  · rw [hrows]
    intro r hr
    exact hh.table.2 r (List.mem_filter.1 hr).1
  · rw [hrows]
    exact hh.distinct.sublist List.filter_sublist
  · rw [hrows]
    intro r hr
    exact hh.keys r (List.mem_filter.1 hr).1
  · rw [hrows]
    intro k hk' r hr
    obtain ⟨h1, h2⟩ := List.mem_filter.1 hr
    unfold Store.set at hk'
    split at hk'
    · next he =>
      rw [he]
      exact of_decide_eq_true h2
    · exact hh.absent k hk' r h1
  · rw [hrows]
    intro k o' hk'
    unfold Store.set at hk'
    split at hk'
    · cases hk'
    · next hne =>
      obtain ⟨r, h1, h2, h3⟩ := hh.present k o' hk'
      refine ⟨r, List.mem_filter.2 ⟨h1, ?_⟩, h2, h3⟩
      rw [h2]
      exact decide_eq_true hne

/-! ### Automatic keys -/

theorem Spec.ModelOK.nonAuto_pk {s : Session} {m : ModelDef} {pk : Field} (hm : ModelOK s m pk)
    (ha : pk.isAuto = true) : pk.name ∉ m.nonAutoColumns := by
  intro h
  obtain ⟨f, hf, he⟩ := List.mem_map.1 h
  obtain ⟨h1, h2⟩ := List.mem_filter.1 hf
  have := hm.field_inj h1 hm.pk_mem he
  subst this
  simp [ha] at h2

theorem nonAuto_subset {m : ModelDef} {c : String} (h : c ∈ m.nonAutoColumns) : c ∈ m.columns := by
  obtain ⟨f, hf, rfl⟩ := List.mem_map.1 h
  obtain ⟨h1, h2⟩ := List.mem_filter.1 hf
  exact mem_columns h1 (by simpa using (Bool.and_eq_true _ _ ▸ h2).1)

theorem mem_nonAuto {m : ModelDef} {f : Field} (hf : f ∈ m.fields) (hr : f.isRow = true)
    (ha : f.isAuto = false) : f.name ∈ m.nonAutoColumns :=
  List.mem_map.2 ⟨f, List.mem_filter.2 ⟨hf, by simp [hr, ha]⟩, rfl⟩

theorem Spec.ModelOK.nonAuto_nodup {s : Session} {m : ModelDef} {pk : Field} (h : ModelOK s m pk) :
    m.nonAutoColumns.Nodup :=
  List.Nodup.sublist (List.Sublist.map _ List.filter_sublist) h.nodup

theorem Spec.ModelOK.nonAutoValues_eq {s : Session} {m : ModelDef} {pk : Field} (hm : ModelOK s m pk)
    (ha : pk.isAuto = true) (o : Obj) (b : Bool) :
    m.nonAutoValues o b = m.nonAutoColumns.map o.val := by
  unfold ModelDef.nonAutoValues ModelDef.nonAutoColumns
  rw [List.map_map]
  congr 1
  apply List.filter_congr
  intro f hf
  rw [hm.pk_field]
  by_cases hfp : f = pk
  · subst hfp
    simp [ha]
  · cases b <;> simp [hfp]

theorem Spec.ModelOK.nonAuto_ne {s : Session} {m : ModelDef} {pk : Field} (hm : ModelOK s m pk)
    (h : m.columns.length ≠ 1) : m.nonAutoColumns ≠ [] := by
  intro hnil
  have hall : ∀ f ∈ m.fields, f.isRow = true → f = pk := by
    intro f hf hr
    cases ha : f.isAuto with
    | true => exact hm.auto_pk hf ha
    | false =>
      have := mem_nonAuto hf hr ha
      rw [hnil] at this
      cases this
  have hcol : ∀ c ∈ m.columns, c = pk.name := by
    intro c hc
    obtain ⟨f, h1, h2, rfl⟩ := columns_mem hc
    rw [hall f h1 h2]
  have hnd := hm.columns_nodup
  have hpk := hm.pk_col
  match hc : m.columns with
  | [] => rw [hc] at hpk; cases hpk
  | [_] => rw [hc] at h; simp at h
  | a :: b :: l =>
    rw [hc] at hcol hnd
    have e1 := hcol a (by simp)
    have e2 := hcol b (by simp)
    simp [e1, e2] at hnd

/-- The object with its automatic key set. -/
def withKey (o : Obj) (v : SqlVal) : Obj := { o with auto := some v }

/-- An appended row that stores an object under a new key. -/
theorem append_holds {s : Session} {m : ModelDef} {pk : Field} {Key : DbVal → Prop} {st : Store}
    {db : Db} (hh : Holds m s pk Key st db) {o : Obj} {new : Row}
    (hcol : ∀ c ∈ m.columns, new.has c = true) (hkey : Key (new.val pk.name))
    (hfresh : ∀ r ∈ db.rows m.table, r.val pk.name ≠ new.val pk.name)
    (hstores : Stores m o new) (hread : Readable m s o) :
    Holds m s pk Key (st.set (new.val pk.name) (some o)) (setRows db m.table (db.rows m.table ++ [new])) := by
  have hrows : (setRows db m.table (db.rows m.table ++ [new])).rows m.table = db.rows m.table ++ [new] := by
    simp [setRows]
  refine ⟨⟨hh.table.1, ?_⟩, ?_, ?_, ?_, ?_⟩ <;> rw [hrows]
  · intro r hr c hc
    rcases List.mem_append.1 hr with h | h
    · exact hh.table.2 r h c hc
    · obtain rfl := List.mem_singleton.1 h
      exact hcol c hc
  · rw [List.pairwise_append]
    refine ⟨hh.distinct, List.pairwise_singleton _ _, ?_⟩
    intro a hA b hB
    obtain rfl := List.mem_singleton.1 hB
    exact hfresh a hA
  · intro r hr
    rcases List.mem_append.1 hr with h | h
    · exact hh.keys r h
    · obtain rfl := List.mem_singleton.1 h
      exact hkey
  · intro k hk r hr
    unfold Store.set at hk
    split at hk
    · cases hk
    · next hne =>
      rcases List.mem_append.1 hr with h | h
      · exact hh.absent k hk r h
      · obtain rfl := List.mem_singleton.1 h
        exact fun he => hne he.symm
  · intro k o' hk
    unfold Store.set at hk
    split at hk
    · next he =>
      obtain rfl := Option.some.inj hk
      exact ⟨new, by simp, he.symm, hstores, hread⟩
    · obtain ⟨r, h1, h2⟩ := hh.present k o' hk
      exact ⟨r, List.mem_append_left _ h1, h2⟩

/-- `insert_returning_pk` appends one row and returns its key. -/
theorem insertReturning_ok {s : Session} {m : ModelDef} {pk : Field} {Key : DbVal → Prop}
    {cap : Nat} (hm : ModelOK s m pk) (hK : KeysOK s Key) (ha : pk.isAuto = true)
    (hfresh : FreshKeys s m pk Key cap) (hfit : s.b = .pg → m.columns.length ≤ 126)
    {db : Db} (ht : TableOK m db) (hroom : (db.rows m.table).length < cap)
    (hkeys : ∀ r ∈ db.rows m.table, Key (r.val pk.name)) (o : Obj) :
    ∃ new, Stored (s.env.template m.table (db.rows m.table)) m.nonAutoColumns
        (m.nonAutoColumns.map o.val) new ∧
      s.insertReturningPk db m.table m.nonAutoColumns pk.name (m.nonAutoColumns.map o.val) =
        .ok (setRows db m.table (db.rows m.table ++ [new]), new.val pk.name) := by
  obtain ⟨hf1, hf2, _⟩ := hfresh (db.rows m.table) hroom hkeys
  have hpkn := hm.nonAuto_pk ha
  have hnames : ∀ c ∈ m.nonAutoColumns, IsName c := fun c hc => hm.columns_names c (nonAuto_subset hc)
  have htm : ∀ c ∈ m.nonAutoColumns, (s.env.template m.table (db.rows m.table)).has c = true :=
    fun c hc => hm.template _ c (nonAuto_subset hc)
  have hle : m.nonAutoColumns.length ≤ m.columns.length := by
    have : m.nonAutoColumns.Sublist m.columns := by
      refine List.Sublist.map _ ?_
      have : (m.fields.filter fun f => f.isRow && !f.isAuto) =
          (m.fields.filter (·.isRow)).filter (fun f => !f.isAuto) := by
        rw [List.filter_filter]
        congr 1
        funext f
        rw [Bool.and_comm]
      rw [this]
      exact List.filter_sublist
    exact this.length_le
  have hno : ∀ new : Row, new.val pk.name = (s.env.template m.table (db.rows m.table)).val pk.name →
      ¬∃ r ∈ db.rows m.table, Equal s.rel (r.val pk.name) (new.val pk.name) := by
    rintro new hn ⟨r, hr, he⟩
    rw [hn] at he
    exact hf2 r hr ((equal_iff hK (hkeys r hr) hf1).1 he)
  have last : ∀ new : Row, ((setRows db m.table (db.rows m.table ++ [new])).rows m.table).getLast? = some new := by
    intro new
    simp [setRows]
  cases hb : s.b with
  | pg =>
    obtain ⟨new, h1, _, h3⟩ := pg_insert_returning_partial s.rel hm.covers s.env (db := db)
      (table := m.table) (pkcol := pk.name) (cols := m.nonAutoColumns)
      (vals := m.nonAutoColumns.map o.val) hm.table hm.pk_plain hnames hm.nonAuto_nodup (by simp)
      (Nat.le_trans hle (hfit hb)) ht.1 htm (hm.template _ _ hm.pk_col)
    rw [hm.key] at h3
    have h3' := h3 (hno new (h1.2.2 _ hpkn))
    refine ⟨new, h1, ?_⟩
    simp only [Session.insertReturningPk, hb, Session.exec, Backend.isSqlite, h3']
  | sqlite =>
    by_cases hne : m.nonAutoColumns = []
    · obtain ⟨new, h1, h3⟩ := insert_default_stores (b := .sqlite) s.rel hm.covers s.env (db := db)
        (table := m.table) hm.table ht.1 (by rw [hm.key]; exact hno _ rfl)
      rw [hne]
      refine ⟨new, h1, ?_⟩
      have h3' : execText true s.rel s.reserved s.env db (Backend.insert .sqlite s.kw m.table [] []).text
        (Backend.insert .sqlite s.kw m.table [] []).params = _ := h3
      simp only [Session.insertReturningPk, hb, Session.exec, Backend.isSqlite, List.map_nil, h3', last]
    · obtain ⟨new, h1, _, h3⟩ := insert_stores_partial (b := .sqlite) s.rel hm.covers s.env (db := db)
        (table := m.table) (cols := m.nonAutoColumns)
        (vals := m.nonAutoColumns.map o.val) hm.table hnames hne hm.nonAuto_nodup (by simp)
        (fun h => by cases h) ht.1 htm
      rw [hm.key] at h3
      have h3' : execText true s.rel s.reserved s.env db
        (Backend.insert .sqlite s.kw m.table m.nonAutoColumns (m.nonAutoColumns.map o.val)).text
        (Backend.insert .sqlite s.kw m.table m.nonAutoColumns (m.nonAutoColumns.map o.val)).params = _ :=
        h3 (hno new (h1.2.2 _ hpkn))
      refine ⟨new, h1, ?_⟩
      simp only [Session.insertReturningPk, hb, Session.exec, Backend.isSqlite, h3', last]

/-- `save` with an uninitialised automatic key. -/
theorem save_new_ok {s : Session} {m : ModelDef} {pk : Field} {Key : DbVal → Prop} {st : Store}
    {cap : Nat} (hm : ModelOK s m pk) (hK : KeysOK s Key) (ha : pk.isAuto = true)
    (hfresh : FreshKeys s m pk Key cap) (hfit : s.b = .pg → m.columns.length ≤ 126)
    {db : Db} (hh : Holds m s pk Key st db) (hroom : (db.rows m.table).length < cap)
    {o : Obj} (ho : o.auto = none) (hr : Readable m s o) :
    ∃ new v, m.save s db o = .ok (setRows db m.table (db.rows m.table ++ [new]), withKey o v) ∧
      new.val pk.name = toDb v ∧ (∀ r ∈ db.rows m.table, r.val pk.name ≠ toDb v) ∧
      st (toDb v) = none ∧ Stores m (withKey o v) new ∧
      Holds m s pk Key (st.set (toDb v) (some (withKey o v)))
        (setRows db m.table (db.rows m.table ++ [new])) := by
  obtain ⟨hf1, hf2, v, hf3, hf4⟩ := hfresh (db.rows m.table) hroom hh.keys
  obtain ⟨new, h1, h2⟩ := insertReturning_ok hm hK ha hfresh hfit hh.table hroom hh.keys o
  have hkey : new.val pk.name = toDb v := by rw [hf4]; exact h1.2.2 _ (hm.nonAuto_pk ha)
  have hstores : Stores m (withKey o v) new := by
    intro f hf hrow
    cases hfa : f.isAuto with
    | true =>
      have := hm.auto_pk hf hfa
      subst this
      exact ⟨v, by simp [fieldVal, hfa, withKey], hkey⟩
    | false => exact ⟨o.val f.name, by simp [fieldVal, hfa, withKey], stored_val h1 (mem_nonAuto hf hrow hfa)⟩
  have hread : Readable m s (withKey o v) := by
    intro f hf hrow w hw
    cases hfa : f.isAuto with
    | true =>
      have := hm.auto_pk hf hfa
      subst this
      have : v = w := by simpa [fieldVal, hfa, withKey] using hw
      subst this
      rw [hf4]
      exact hf3
    | false =>
      apply hr f hf hrow
      simpa [fieldVal, hfa, withKey] using hw
  have hfr : ∀ r ∈ db.rows m.table, r.val pk.name ≠ new.val pk.name := by
    rw [hkey, hf4]
    exact hf2
  have hinit : initPk s pk.name o (new.val pk.name) = .ok (withKey o v) := by
    simp only [initPk, ho, hkey, hf4, hf3]
    rfl
  refine ⟨new, v, ?_, hkey, by rw [← hkey]; exact hfr, ?_, hstores, ?_⟩
  · by_cases hone : m.columns.length = 1
    · have hnil : m.nonAutoColumns = [] := by
        have hcol : m.columns = [pk.name] := by
          match hc : m.columns, hm.pk_col with
          | [], h => cases h
          | [c], h => rw [List.mem_singleton.1 h]
          | _ :: _ :: _, _ => rw [hc] at hone; simp at hone
        cases hn : m.nonAutoColumns with
        | nil => rfl
        | cons c cs =>
          have h' : c ∈ m.columns := nonAuto_subset (hn ▸ List.mem_cons_self)
          rw [hcol] at h'
          exact absurd (List.mem_singleton.1 h' ▸ hn ▸ List.mem_cons_self) (hm.nonAuto_pk ha)
      rw [hnil] at h2
      have h2' : s.insertReturningPk db m.table [] pk.name [] = _ := h2
      simp [ModelDef.save, hm.pk_field, ha, hone, ho, h2', hinit]
    · simp [ModelDef.save, hm.pk_field, ha, hone, ho, hm.nonAutoValues_eq ha, h2, hinit]
  · cases hst : st (toDb v) with
    | none => rfl
    | some o' =>
      obtain ⟨r, hr1, hr2, _⟩ := hh.present _ _ hst
      exact absurd (hr2.trans hkey.symm) (hfr r hr1)
  · rw [← hkey]
    refine append_holds hh ?_ (by rw [hkey, hf4]; exact hf1) hfr hstores hread
    intro c hc
    rw [h1.1]
    exact hm.template _ c hc

/-- `save` with an initialised automatic key: the row with that key, if there is one, is
rewritten; nothing else happens. -/
theorem save_again_ok {s : Session} {m : ModelDef} {pk : Field} {Key : DbVal → Prop} {st : Store}
    (hm : ModelOK s m pk) (hK : KeysOK s Key) (ha : pk.isAuto = true)
    (hfit : s.b = .pg → m.columns.length ≤ 126)
    {db : Db} (hh : Holds m s pk Key st db) {o : Obj} {v : SqlVal} (ho : o.auto = some v)
    (hk : Key (toDb v)) (hr : Readable m s o) :
    ∃ f : Row → Row, m.save s db o = .ok (setRows db m.table ((db.rows m.table).map f), o) ∧
      (∀ r ∈ db.rows m.table, r.val pk.name = toDb v → Stores m o (f r)) ∧
      (∀ r ∈ db.rows m.table, r.val pk.name ≠ toDb v → f r = r) ∧
      Holds m s pk Key (match st (toDb v) with | some _ => st.set (toDb v) (some o) | none => st)
        (setRows db m.table ((db.rows m.table).map f)) := by
  -- the statement
  obtain ⟨f, hsave, hf1, hf1', hf2⟩ : ∃ f : Row → Row,
      m.save s db o = .ok (setRows db m.table ((db.rows m.table).map f), o) ∧
      (∀ r ∈ db.rows m.table, r.val pk.name = toDb v → Stores m o (f r)) ∧
      (∀ r ∈ db.rows m.table, (f r).has = r.has ∧ (f r).val pk.name = r.val pk.name) ∧
      (∀ r ∈ db.rows m.table, r.val pk.name ≠ toDb v → f r = r) := by
    by_cases hone : m.columns.length = 1
    · refine ⟨id, ?_, ?_, fun _ _ => ⟨rfl, rfl⟩, fun _ _ _ => rfl⟩
      · have hself : setRows db m.table ((db.rows m.table).map id) = db := by
          cases db with
          | mk has rows =>
            simp only [setRows, List.map_id]
            congr 1
            funext t
            split
            · next h => rw [h]
            · rfl
        rw [hself]
        simp [ModelDef.save, hm.pk_field, ha, hone, ho]
      · intro r hr' he g hg hrow
        have hcol : m.columns = [pk.name] := by
          match hc : m.columns, hm.pk_col with
          | [], h => cases h
          | [c], h => rw [List.mem_singleton.1 h]
          | _ :: _ :: _, _ => rw [hc] at hone; simp at hone
        have : g.name ∈ m.columns := mem_columns hg hrow
        rw [hcol] at this
        have := hm.field_inj hg hm.pk_mem (List.mem_singleton.1 this)
        subst this
        exact ⟨v, by simp [fieldVal, ha, ho], he⟩
    · have hle : m.nonAutoColumns.length + 1 ≤ m.columns.length := by
        have hs : (pk.name :: m.nonAutoColumns).Nodup :=
          List.nodup_cons.2 ⟨hm.nonAuto_pk ha, hm.nonAuto_nodup⟩
        have hsub : (pk.name :: m.nonAutoColumns) ⊆ m.columns := by
          intro c hc
          rcases List.mem_cons.1 hc with rfl | h
          · exact hm.pk_col
          · exact nonAuto_subset h
        exact (List.subperm_of_subset hs hsub).length_le
      obtain ⟨f, h1, h2, h3⟩ := update_stores_partial (b := s.b) s.rel hm.covers s.env (db := db)
        (table := m.table) (pkcol := pk.name) (pk := v) (cols := m.nonAutoColumns)
        (vals := m.nonAutoColumns.map o.val) hm.table hm.pk_plain.1
        (fun c hc => hm.columns_names c (nonAuto_subset hc)) (hm.nonAuto_ne hone) hm.nonAuto_nodup
        (by simp) (fun h => Nat.le_trans hle (hfit h)) hh.table.1
        (fun c hc => hm.template _ c (nonAuto_subset hc)) (fun r hr => hh.table.2 r hr _ hm.pk_col)
      have e := fun r (hr : r ∈ db.rows m.table) => equal_iff hK (hh.keys r hr) hk
      refine ⟨f, ?_, ?_, ?_, ?_⟩
      · simp [ModelDef.save, hm.pk_field, ha, hone, ho, hm.nonAutoValues_eq ha, exec_of_text h3]
      · intro r hr' he g hg hrow
        have hst := h1 r ((e r hr').2 he)
        cases hga : g.isAuto with
        | true =>
          have := hm.auto_pk hg hga
          subst this
          refine ⟨v, by simp [fieldVal, hga, ho], ?_⟩
          rw [hst.2.2 _ (hm.nonAuto_pk ha)]
          exact he
        | false => exact ⟨o.val g.name, by simp [fieldVal, hga], stored_val hst (mem_nonAuto hg hrow hga)⟩
      · intro r hr'
        by_cases he : r.val pk.name = toDb v
        · have hst := h1 r ((e r hr').2 he)
          exact ⟨hst.1, hst.2.2 _ (hm.nonAuto_pk ha)⟩
        · rw [h2 r (fun h => he ((e r hr').1 h))]
          exact ⟨rfl, rfl⟩
      · intro r hr' he
        exact h2 r (fun h => he ((e r hr').1 h))
  refine ⟨f, hsave, hf1, hf2, ?_⟩
  have hrows : (setRows db m.table ((db.rows m.table).map f)).rows m.table = (db.rows m.table).map f := by
    simp [setRows]
  refine ⟨⟨hh.table.1, ?_⟩, ?_, ?_, ?_, ?_⟩ <;> rw [hrows]
  · intro r hr' c hc
    obtain ⟨r0, h0, rfl⟩ := List.mem_map.1 hr'
    rw [(hf1' r0 h0).1]
    exact hh.table.2 r0 h0 c hc
  · rw [List.pairwise_map]
    refine List.Pairwise.imp_of_mem ?_ hh.distinct
    intro a b hA hB hab
    rw [(hf1' a hA).2, (hf1' b hB).2]
    exact hab
  · intro r hr'
    obtain ⟨r0, h0, rfl⟩ := List.mem_map.1 hr'
    rw [(hf1' r0 h0).2]
    exact hh.keys r0 h0
  · intro k hk' r hr'
    obtain ⟨r0, h0, rfl⟩ := List.mem_map.1 hr'
    rw [(hf1' r0 h0).2]
    refine hh.absent k ?_ r0 h0
    cases hst : st (toDb v) with
    | none => rw [hst] at hk'; exact hk'
    | some o' =>
      rw [hst] at hk'
      simp only [Store.set] at hk'
      split at hk'
      · cases hk'
      · exact hk'
  · intro k o' hk'
    have other : st k = some o' → k ≠ toDb v →
        ∃ r ∈ (db.rows m.table).map f, r.val pk.name = k ∧ Stores m o' r ∧ Readable m s o' := by
      intro h1 h2
      obtain ⟨r, hr1, hr2, hr3⟩ := hh.present k o' h1
      refine ⟨f r, List.mem_map.2 ⟨r, hr1, rfl⟩, ?_⟩
      rw [hf2 r hr1 (by rw [hr2]; exact h2)]
      exact ⟨hr2, hr3⟩
    cases hst : st (toDb v) with
    | none =>
      rw [hst] at hk'
      refine other hk' ?_
      rintro rfl
      have hk2 : st (toDb v) = some o' := hk'
      rw [hst] at hk2
      cases hk2
    | some o'' =>
      rw [hst] at hk'
      simp only [Store.set] at hk'
      split at hk'
      · next he =>
        obtain rfl := Option.some.inj hk'
        obtain ⟨r, hr1, hr2, _⟩ := hh.present _ _ hst
        exact ⟨f r, List.mem_map.2 ⟨r, hr1, rfl⟩, by rw [(hf1' r hr1).2, hr2, he],
          hf1 r hr1 hr2, hr⟩
      · next hne => exact other hk' hne

end Butane
