/-
An object the PostgreSQL database accepts is saved.
-/
import Verif.Spec.PgAccept
import Verif.Proofs.PgShows

namespace Butane.PgP
open Butane Butane.PgData Spec
open Butane.Sql (Operand Cond SStmt)

variable {S : Server} {k : PgConn} {m : TModel} {pk : TField} {u : PDb}

/-! ### Constraints after one row was put -/

theorem pairwise_put {R : PRow → PRow → Prop} {p : PRow → Bool} {r0 : PRow} : ∀ {rows : List PRow},
    (rows.filter fun r => !p r).Pairwise R → rows.filter p = [r0] →
    (∀ r ∈ rows, p r = false → R r r0 ∧ R r0 r) → rows.Pairwise R
  | [], _, _, _ => .nil
  | s :: rows, h1, h2, h3 => by
    cases hp : p s with
    | true =>
      rw [List.filter_cons_of_pos hp] at h2
      simp only [List.cons.injEq] at h2
      obtain ⟨rfl, h2⟩ := h2
      have hno : ∀ r ∈ rows, p r = false := by
        intro r hr
        cases hq : p r with
        | false => rfl
        | true =>
          have : r ∈ rows.filter p := List.mem_filter.2 ⟨hr, hq⟩
          rw [h2] at this
          cases this
      rw [List.filter_cons_of_neg (by simp [hp]),
        List.filter_eq_self.2 fun r hr => by simp [hno r hr]] at h1
      exact .cons (fun r hr => (h3 r (List.mem_cons_of_mem _ hr) (hno r hr)).2) h1
    | false =>
      rw [List.filter_cons_of_neg (by simp [hp])] at h2
      rw [List.filter_cons_of_pos (by simp [hp])] at h1
      cases h1 with
      | cons g1 g2 =>
        refine .cons (fun r hr => ?_) (pairwise_put g2 h2 fun r hr => h3 r (List.mem_cons_of_mem _ hr))
        cases hq : p r with
        | false => exact g1 r (List.mem_filter.2 ⟨hr, by simp [hq]⟩)
        | true =>
          have : r ∈ rows.filter p := List.mem_filter.2 ⟨hr, hq⟩
          rw [h2, List.mem_singleton] at this
          subst this
          exact (h3 s (List.mem_cons_self ..) hp).1

/-- The row is referred to. -/
def Referred (S : Server) (db : PDb) (fk : Ddl.RefCon) (w : PgVal) : Prop :=
  ∃ p, db.lookup fk.table = some p ∧ ∃ s ∈ p.rows, same S (s fk.refCol) w = true

theorem refsOk_iff {db : PDb} {t : Table} : refsOk S db t = true ↔
    ∀ fk ∈ t.fks, ∀ r ∈ t.rows, r fk.col = .null ∨ Referred S db fk (r fk.col) := by
  simp only [refsOk, List.all_eq_true, Bool.or_eq_true, decide_eq_true_eq]
  refine forall_congr' fun fk => forall_congr' fun _ => forall_congr' fun r => forall_congr' fun _ => ?_
  refine or_congr Iff.rfl ?_
  unfold Referred
  cases hl : db.lookup fk.table with
  | none => simp
  | some p => simp [List.any_eq_true]

theorem uniqueOk_iff {t : Table} : uniqueOk S t = true ↔ ∀ d ∈ t.cols, d.unique = true →
    t.rows.Pairwise fun r s => same S (r d.name) (s d.name) = false := by
  simp only [uniqueOk, List.all_eq_true, Bool.or_eq_true, Bool.not_eq_true', decide_eq_true_eq]
  refine forall_congr' fun d => forall_congr' fun _ => ?_
  cases d.unique <;> simp

theorem valid_iff {db : PDb} (hs : db.Sorted) : valid S db = true ↔ ∀ n t, db.lookup n = some t →
    (∀ r ∈ t.rows, rowOk S t r = true) ∧ uniqueOk S t = true ∧ refsOk S db t = true := by
  simp only [valid, List.all_eq_true, Bool.and_eq_true]
  constructor
  · intro h n t hl
    obtain ⟨⟨h1, h2⟩, h3⟩ := h _ (SMap.mem_of_lookup hl)
    exact ⟨h1, h2, h3⟩
  · intro h e he
    obtain ⟨h1, h2, h3⟩ := h e.1 e.2 (SMap.lookup_of_mem hs he)
    exact ⟨⟨h1, h2⟩, h3⟩

/-- The constraints hold after the row with a key was put. -/
theorem valid_put {n pkn : String} {t : Table} {rows : List PRow} {a : PgVal} {r0 : PRow} (hs : u.Sorted)
    (hv : valid S u = true) (hlk : u.lookup n = some t)
    (hoth : rows.filter (fun r => !decide (r pkn = a)) = t.rows.filter fun r => !decide (r pkn = a))
    (h0 : rows.filter (fun r => decide (r pkn = a)) = [r0]) (hrow : rowOk S t r0 = true)
    (huniq : ∀ d ∈ t.cols, d.unique = true → ∀ r ∈ t.rows, r pkn ≠ a →
      same S (r d.name) (r0 d.name) = false ∧ same S (r0 d.name) (r d.name) = false)
    (hself : ∀ fk ∈ t.fks, r0 fk.col = .null ∨ Referred S u fk (r0 fk.col) ∨
      fk.table = n ∧ same S (r0 fk.refCol) (r0 fk.col) = true)
    (hkey : ∀ n' s, u.lookup n' = some s → ∀ fk ∈ s.fks, fk.table = n → fk.refCol = pkn) :
    valid S (u.insert n { t with rows := rows }) = true := by
  have hvi := (valid_iff hs).1 hv
  have hold : ∀ r ∈ rows, r pkn ≠ a → r ∈ t.rows := by
    intro r hr hne
    have : r ∈ rows.filter fun r => !decide (r pkn = a) := List.mem_filter.2 ⟨hr, by simpa using hne⟩
    rw [hoth] at this
    exact (List.mem_filter.1 this).1
  have hnew : ∀ r ∈ t.rows, r pkn ≠ a → r ∈ rows := by
    intro r hr hne
    have : r ∈ t.rows.filter fun r => !decide (r pkn = a) := List.mem_filter.2 ⟨hr, by simpa using hne⟩
    rw [← hoth] at this
    exact (List.mem_filter.1 this).1
  have hone : ∀ r ∈ rows, r pkn = a → r = r0 := by
    intro r hr he
    have : r ∈ rows.filter fun r => decide (r pkn = a) := List.mem_filter.2 ⟨hr, by simpa using he⟩
    rw [h0] at this
    simpa using this
  have hm0 : r0 ∈ rows ∧ r0 pkn = a := by
    have : r0 ∈ rows.filter fun r => decide (r pkn = a) := by rw [h0]; exact List.mem_singleton_self _
    simpa using List.mem_filter.1 this
  have href : ∀ {fk : Ddl.RefCon} {w : PgVal}, (fk.table = n → fk.refCol = pkn) → Referred S u fk w →
      Referred S (u.insert n { t with rows := rows }) fk w := by
    rintro fk w hk ⟨p, h1, s, h2, h3⟩
    by_cases e : fk.table = n
    · rw [e, hlk] at h1
      cases h1
      refine ⟨{ t with rows := rows }, by rw [SMap.lookup_insert, if_pos e], ?_⟩
      by_cases he : s pkn = a
      · exact ⟨r0, hm0.1, by rw [hk e] at h3 ⊢; rw [hm0.2, ← he]; exact h3⟩
      · exact ⟨s, hnew s h2 he, h3⟩
    · exact ⟨p, by rw [SMap.lookup_insert, if_neg e]; exact h1, s, h2, h3⟩
  rw [valid_iff (SMap.sorted_insert hs _ _)]
  intro n' s hl
  rw [SMap.lookup_insert] at hl
  split at hl
  · cases hl
    obtain ⟨g1, g2, g3⟩ := hvi n t hlk
    refine ⟨?_, ?_, ?_⟩
    · intro r hr
      by_cases he : r pkn = a
      · rw [hone r hr he]; exact hrow
      · exact g1 r (hold r hr he)
    · rw [uniqueOk_iff] at g2 ⊢
      intro d hd hu
      refine pairwise_put (p := fun r => decide (r pkn = a)) (r0 := r0) ?_ h0 ?_
      · show (rows.filter _).Pairwise _
        rw [hoth]
        exact (g2 d hd hu).filter _
      · intro r hr hp
        have hne : r pkn ≠ a := by simpa using hp
        exact huniq d hd hu r (hold r hr hne) hne
    · rw [refsOk_iff] at g3 ⊢
      intro fk hfk r hr
      by_cases he : r pkn = a
      · rw [hone r hr he]
        rcases hself fk hfk with h | h | ⟨h1, h2⟩
        · exact .inl h
        · exact .inr (href (hkey n t hlk fk hfk) h)
        · exact .inr ⟨{ t with rows := rows }, by rw [SMap.lookup_insert, if_pos h1], r0, hm0.1, h2⟩
      · exact (g3 fk hfk r (hold r hr he)).imp id (href (hkey n t hlk fk hfk))
  · next hne =>
    obtain ⟨g1, g2, g3⟩ := hvi n' s hl
    refine ⟨g1, g2, ?_⟩
    rw [refsOk_iff] at g3 ⊢
    intro fk hfk r hr
    exact (g3 fk hfk r hr).imp id (href (hkey n' s hl fk hfk))

/-! ### The values of an object -/

theorem pg_given_value (t : FieldTy) (x : t.Val) (hp : Proper t x) : ∃ v, t.toSql x = .ok v ∧
    (v = .null ∨ v.sqltype = some t.sqltype) ∧ (¬ MayBeAbsent t → v ≠ .null) := by
  obtain ⟨v, h3, -, h4, h5⟩ := Props.field_round_trip_partial (fun _ => none) t x hp
  refine ⟨v, h3, ?_, fun ha => ?_⟩
  · by_cases hpres : Present t x
    · exact .inr (h4 hpres)
    · exact .inl (h5 hpres)
  · have := h4 (present_of_proper t x hp ha)
    rintro rfl
    cases this

theorem pg_given_fields : ∀ {fs : List TField} (o : ObjVals fs), Storable fs o →
    (fs.map (·.name)).Nodup → ∃ vals, pushValues (fun _ => true) fs o = .ok vals ∧
      AllMatch (fun col v => v = .null ∨ v.sqltype = some col.2) (tcolumns (fun f => !f.isAuto) fs) vals ∧
      ∀ f ∈ fs, f.isAuto = false → ∀ ty, f.ty = some ty → ∃ v, keySql f.name fs o = .ok v ∧
        (((tcolumns (fun f => !f.isAuto) fs).map (·.1)).zip vals).lookup f.name = some v ∧
        (¬ MayBeAbsent ty → v ≠ .null)
  | [], _, _, _ => ⟨[], rfl, .nil, fun f hf => by cases hf⟩
  | ⟨n, p, none⟩ :: fs, (x, os), hs, hd => by
    simp only [List.map_cons, List.nodup_cons] at hd
    obtain ⟨vals, h1, h3, h4⟩ := pg_given_fields os hs hd.2
    refine ⟨vals, h1, h3, fun f hf ha ty hty => ?_⟩
    rcases List.mem_cons.1 hf with rfl | hf
    · cases hty
    · exact h4 f hf ha ty hty
  | ⟨n, p, some t⟩ :: fs, (x, os), hs, hd => by
    simp only [List.map_cons, List.nodup_cons] at hd
    by_cases ha : (TField.mk n p (some t)).isAuto = true
    · have hos : Storable fs os := by
        cases t <;> simp only [TField.isAuto, Bool.false_eq_true] at ha
        exact hs.2
      obtain ⟨vals, h1, h3, h4⟩ := pg_given_fields os hos hd.2
      refine ⟨vals, by simp only [pushValues, ha, Bool.not_true, Bool.false_and, Bool.false_eq_true,
        ↓reduceIte, h1], by simpa only [tcolumns, ha, Bool.not_true, Bool.false_eq_true, ↓reduceIte] using h3,
        fun f hf haf ty hty => ?_⟩
      rcases List.mem_cons.1 hf with rfl | hf
      · rw [ha] at haf; cases haf
      · obtain ⟨v, g1, g2, g3⟩ := h4 f hf haf ty hty
        refine ⟨v, ?_, by simpa only [tcolumns, ha, Bool.not_true, Bool.false_eq_true, ↓reduceIte] using g2, g3⟩
        simp only [keySql]
        rw [if_neg fun h => hd.1 (List.mem_map.2 ⟨f, hf, h.symm⟩)]
        exact g1
    · have hpx : Proper t x ∧ Storable fs os := by
        cases t <;> first | exact absurd rfl ha | exact hs
      have ha' : (TField.mk n p (some t)).isAuto = false := by simpa using ha
      obtain ⟨vals, h1, h3, h4⟩ := pg_given_fields os hpx.2 hd.2
      obtain ⟨v, e1, e2, e3⟩ := pg_given_value t x hpx.1
      refine ⟨v :: vals, by simp only [pushValues, ha', Bool.not_false, Bool.and_true, ↓reduceIte,
        e1, h1, Conv.bind], by simp only [tcolumns, ha', Bool.not_false, ↓reduceIte]; exact .cons e2 h3,
        fun f hf haf ty hty => ?_⟩
      simp only [tcolumns, ha', Bool.not_false, ↓reduceIte, List.map_cons, List.zip_cons_cons,
        List.lookup_cons, keySql]
      rcases List.mem_cons.1 hf with rfl | hf
      · cases hty
        exact ⟨v, by rw [if_pos rfl]; exact e1, by simp, e3⟩
      · have hne : n ≠ f.name := fun h => hd.1 (List.mem_map.2 ⟨f, hf, h.symm⟩)
        obtain ⟨v', g1, g2, g3⟩ := h4 f hf haf ty hty
        refine ⟨v', by rw [if_neg hne]; exact g1, ?_, g3⟩
        rw [show (f.name == n) = false by simpa using Ne.symm hne]
        exact g2

/-- What is sent for a column. -/
theorem bind_lookup {ty : Nat → Option PgType} {col : String → Option PgType} {c : String} {v : SqlVal} :
    ∀ {cols : List String} {vals : List SqlVal} {ps : List PgVal} {i : Nat},
    (∀ (j : Nat) (c : String), cols[j]? = some c → ty (i + j) = col c) → pgBind ty i vals = .ok ps →
    (cols.zip vals).lookup c = some v →
    ∃ t w, (cols.zip ps).lookup c = some w ∧ col c = some t ∧ toPg t v = .ok w
  | [], vals, ps, i, _, _, h => by cases h
  | c' :: cols, [], ps, i, _, _, h => by cases h
  | c' :: cols, v' :: vals, ps, i, hty, h, hl => by
    simp only [pgBind] at h
    have h0 := hty 0 c' rfl
    rw [Nat.add_zero] at h0
    rw [h0] at h
    split at h
    · cases h
    · next t ht =>
      cases e1 : toPg t v' <;> rw [e1] at h <;> simp only [Conv.bind, reduceCtorEq] at h
      next a =>
      cases e2 : pgBind ty (i + 1) vals <;> rw [e2] at h <;> simp only [Conv.bind, reduceCtorEq] at h
      cases h
      simp only [List.zip_cons_cons, List.lookup_cons] at hl ⊢
      cases e : (c == c') with
      | true =>
        rw [e] at hl
        cases hl
        have : c = c' := by simpa using e
        subst this
        exact ⟨t, a, rfl, ht, e1⟩
      | false =>
        rw [e] at hl
        exact bind_lookup (fun j d hd => by
          have := hty (j + 1) d (by simpa using hd)
          rwa [show i + (j + 1) = i + 1 + j by omega] at this) e2 hl

/-- The values sent for an object. -/
structure PgWritten (m : TModel) (t : Table) (o : ObjVals m.fields) (vals : List SqlVal) (ps : List PgVal) :
    Prop where
  pushed : pushValues (fun _ => true) m.fields o = .ok vals
  vlen : vals.length = m.nonAutoColumns.length
  length : ps.length = m.nonAutoColumns.length
  column : ∀ d ∈ t.cols, ∀ f ∈ m.fields, f.name = d.name → f.isAuto = false → f.ty ≠ none →
    ∃ w, (m.nonAutoColumns.zip ps).lookup d.name = some w ∧ PgWrites m o d w ∧ (d.notNull = true → w ≠ .null)

theorem column_eq {t : Table} (hn : (names t).Nodup) {d d' : Column} (hd : d ∈ t.cols) (hd' : d' ∈ t.cols)
    (e : d.name = d'.name) : d = d' := by
  have hn' : (t.cols.map (·.name)).Nodup := hn
  generalize t.cols = l at *
  clear hn
  induction l with
  | nil => cases hd
  | cons x l ih =>
    rw [List.map_cons, List.nodup_cons] at hn'
    rcases List.mem_cons.1 hd with e1 | h1
    · rcases List.mem_cons.1 hd' with e2 | h2
      · exact e1.trans e2.symm
      · exact absurd (List.mem_map.2 ⟨d', h2, by rw [← e, e1]⟩) hn'.1
    · rcases List.mem_cons.1 hd' with e2 | h2
      · exact absurd (List.mem_map.2 ⟨d, h1, by rw [e, e2]⟩) hn'.1
      · exact ih h1 h2 hn'.2

theorem pg_written (hm : PgModelOk k m pk) {t : Table} (ht : PgTableFits m pk t) {o : ObjVals m.fields}
    (ho : Storable m.fields o) {ty : Nat → Option PgType}
    (hty : ∀ (j : Nat) (c : String), m.nonAutoColumns[j]? = some c → ty j = colType t c) :
    ∃ vals ps, pgBind ty 0 vals = .ok ps ∧ PgWritten m t o vals ps := by
  obtain ⟨vals, h1, h2, h3⟩ := pg_given_fields o ho hm.distinct
  have htyp : ∀ (j : Nat) (c : String × SqlType), (tcolumns (fun f => !f.isAuto) m.fields)[j]? = some c →
      ty (0 + j) = some (pgType c.2) := fun j c hc => by
    rw [Nat.zero_add, hty j c.1 (by simp [TModel.nonAutoColumns, hc])]
    exact (pg_columns_in ht c (List.mem_of_getElem? hc)).2
  have hlen : vals.length = m.nonAutoColumns.length := by
    rw [← match_length h2, TModel.nonAutoColumns, List.length_map]
  obtain ⟨ps, hps⟩ := bind_ok h2 htyp
  have hb' := bind_holds (cs := tcolumns (fun f => !f.isAuto) m.fields) (nodup_nonAuto hm)
    (by simpa [TModel.nonAutoColumns] using hlen) htyp hps
  have hpl : ps.length = m.nonAutoColumns.length := by simpa [TModel.nonAutoColumns] using hb'.1
  refine ⟨vals, ps, hps, h1, hlen, hpl, fun d hd f hf hfd ha hft => ?_⟩
  obtain ⟨fty, hfty⟩ := Option.ne_none_iff_exists'.1 hft
  obtain ⟨v, g1, g2, g3⟩ := h3 f hf ha fty hfty
  obtain ⟨d', hd', hfits⟩ := ht.fields f hf fty hfty
  have : d' = d := column_eq ht.distinct hd' hd (hfits.name.trans hfd)
  subst this
  obtain ⟨t', w, e1, e2, e3⟩ := bind_lookup (col := colType t) (cols := m.nonAutoColumns) (fun j c hc => by
    rw [Nat.zero_add]; exact hty j c hc) hps g2
  rw [hfits.name.symm, colType_of_mem ht.distinct hd'] at e2
  cases e2
  refine ⟨w, by rw [hfits.name]; exact e1, ⟨v, by rw [hfits.name]; exact g1, e3⟩, fun hnn => ?_⟩
  exact toPg_ne_null e3 (g3 (hfits.notNull hnn))

/-! ### Accepted rows -/

/-- The columns of a row an object was written to. -/
theorem accepts_col (hm : PgModelOk k m pk) {t : Table} (hof : OnlyFields m t) {o : ObjVals m.fields}
    {vals : List SqlVal} {ps : List PgVal} (hw : PgWritten m t o vals ps) {r0 : PRow}
    (hr0 : ∀ c v, (m.nonAutoColumns.zip ps).lookup c = some v → r0 c = v) {d : Column} (hd : d ∈ t.cols) :
    (pk.isAuto = true ∧ d.name = pk.name) ∨ ((pk.isAuto = true → d.name ≠ pk.name) ∧
      PgWrites m o d (r0 d.name) ∧ (d.notNull = true → r0 d.name ≠ .null)) := by
  obtain ⟨f, hf, hfd, hft⟩ := hof d hd
  cases hfa : f.isAuto with
  | true =>
    have := hm.auto f hf hfa
    subst this
    exact .inl ⟨hfa, hfd.symm⟩
  | false =>
    obtain ⟨w, g1, g2, g3⟩ := hw.column d hd f hf hfd hfa hft
    refine .inr ⟨fun hp e => ?_, ?_⟩
    · rw [field_eq_of_name hm.distinct hf hm.pk_mem (hfd.trans e), hp] at hfa
      cases hfa
    · rw [hr0 _ _ g1]; exact ⟨g2, g3⟩

theorem accepts_row (hm : PgModelOk k m pk) {t : Table} (hof : OnlyFields m t) {key : Int64}
    {o : ObjVals m.fields} {vals : List SqlVal} {ps : List PgVal} (hw : PgWritten m t o vals ps)
    (hacc : PgAccepts k m pk u t key o) {a : PgVal}
    (ha : pk.isAuto = true → ∀ d ∈ t.cols, d.name = pk.name →
      ofType d.type a = true ∧ k.server.refuses a = false ∧ a ≠ .null) {r0 : PRow}
    (hr0 : ∀ c v, (m.nonAutoColumns.zip ps).lookup c = some v → r0 c = v) (hra : r0 pk.name = a) :
    rowOk k.server t r0 = true := by
  simp only [rowOk, List.all_eq_true]
  intro d hd
  simp only [Bool.and_eq_true, Bool.not_eq_true', Bool.and_eq_false_iff, decide_eq_false_iff_not]
  rcases accepts_col hm hof hw hr0 hd with ⟨h1, h2⟩ | ⟨-, h2, h3⟩
  · obtain ⟨g1, g2, g3⟩ := ha h1 d hd h2
    rw [h2, hra]
    exact ⟨⟨g1, g2⟩, .inr g3⟩
  · obtain ⟨v, e1, e2⟩ := id h2
    refine ⟨⟨ofType_of_toPg e2, hacc.stored d hd _ h2⟩, ?_⟩
    cases hn : d.notNull with
    | false => exact .inl rfl
    | true => exact .inr (h3 hn)

theorem accepts_valid (h : PgReady k m pk u) {t : Table} (hlk : u.lookup m.table = some t)
    (ht : PgTableFits m pk t) (hof : OnlyFields m t) {key : Int64} {o : ObjVals m.fields} {vals : List SqlVal}
    {ps : List PgVal} (hw : PgWritten m t o vals ps) (hacc : PgAccepts k m pk u t key o)
    (href : PgKeyRefs m pk u) {rows : List PRow} {a : PgVal}
    (hput : Put t rows pk.name a (m.nonAutoColumns.zip ps))
    (ha : pk.isAuto = true → ∀ d ∈ t.cols, d.name = pk.name →
      ofType d.type a = true ∧ k.server.refuses a = false ∧ a ≠ .null)
    (hkey : ∀ d ∈ t.cols, d.name = pk.name → ∀ a', PgWrites m o d a' → a' = a) :
    putRows k.server u m.table t rows = some (u.insert m.table { t with rows := rows }) := by
  have hm := h.model
  obtain ⟨r0, h0, hr0⟩ := hput.row
  have hra : r0 pk.name = a := by
    have : r0 ∈ rows.filter fun r => decide (r pk.name = a) := by rw [h0]; exact List.mem_singleton_self _
    simpa using (List.mem_filter.1 this).2
  have hcol := fun d (hd : d ∈ t.cols) => accepts_col hm hof hw hr0 hd
  have hvalid := valid_put h.sorted h.valid hlk hput.others h0 (accepts_row hm hof hw hacc ha hr0 hra) (by
    intro d hd hu r hr hne
    rcases hcol d hd with ⟨h1, h2⟩ | ⟨-, h2, h3⟩
    · obtain ⟨d', ty, hd', hdn, -, -, hty, hdt, hdf, -⟩ := pg_key_column hm ht
      have : d' = d := column_eq ht.distinct hd' hd (hdn.trans h2.symm)
      subst this
      obtain ⟨g1, -, g3⟩ := ha h1 d' hd h2
      obtain ⟨q1, q2⟩ := valid_table h.valid hlk
      have hkeys := keys_of hm h.laws ht q1 q2 hty
      obtain ⟨e1, e2⟩ := hkeys.rows r hr
      rw [← hdt] at e1
      rw [h2, hra]
      constructor
      · have := (same_iff h.laws hdf e1 g1 e2 g3).1
        cases hs : same k.server (r pk.name) a with
        | false => rfl
        | true => exact absurd (this hs) hne
      · have := (same_iff h.laws hdf g1 e1 g3 e2).1
        cases hs : same k.server a (r pk.name) with
        | false => rfl
        | true => exact absurd (this hs).symm hne
    · have key : ¬ PgEqual k.server (r d.name) (r0 d.name) := by
        intro he
        obtain ⟨dk, hdk, hdkn, hwk⟩ := hacc.unique d hd hu _ h2 r hr he
        exact hne (hkey dk hdk hdkn _ hwk)
      constructor
      · cases hs : same k.server (r d.name) (r0 d.name) with
        | false => rfl
        | true => exact absurd (.inl hs) key
      · cases hs : same k.server (r0 d.name) (r d.name) with
        | false => rfl
        | true => exact absurd (.inr hs) key) (by
    intro fk hfk
    obtain ⟨d, hd, hdn, hrefs⟩ := hacc.refs fk hfk
    rcases hcol d hd with ⟨h1, h2⟩ | ⟨-, h2, h3⟩
    · exact absurd (hdn.symm.trans h2) (href.auto h1 t hlk fk hfk)
    · rw [hdn] at h2
      by_cases hn : r0 fk.col = .null
      · exact .inl hn
      · rcases hrefs _ h2 hn with h | ⟨g1, g2, dk, hdk, hdkn, a', g3, g4⟩
        · exact .inr (.inl h)
        · refine .inr (.inr ⟨g1, ?_⟩)
          rw [g2, hra, ← hkey dk hdk hdkn a' g3]
          exact g4) href.refer
  simp only [putRows, hvalid, if_true]

/-! ### New rows -/

theorem mapOk_exists {α β : Type} {f : α → Option β} : ∀ {l : List α}, (∀ a ∈ l, ∃ b, f a = some b) →
    ∃ l', Sql.mapOk f l = some l'
  | [], _ => ⟨[], rfl⟩
  | a :: l, h => by
    obtain ⟨b, hb⟩ := h a (List.mem_cons_self ..)
    obtain ⟨l', hl⟩ := mapOk_exists fun a' ha => h a' (List.mem_cons_of_mem _ ha)
    exact ⟨b :: l', by simp only [Sql.mapOk, hb, hl]⟩

theorem newRow_exists {key : Int64} {t : Table} {given : List (String × PgVal)}
    (h : ∀ d ∈ t.cols, ∃ v, newValue key given d = some v) : ∃ new, newRow key t given = some new := by
  obtain ⟨vs, hvs⟩ := mapOk_exists (f := fun d => (newValue key given d).map fun v => (d.name, v)) fun d hd => by
    obtain ⟨v, hv⟩ := h d hd
    exact ⟨(d.name, v), by rw [hv]; rfl⟩
  unfold newRow
  rw [hvs]
  exact ⟨_, rfl⟩

theorem all_contains {t : Table} {cols : List String} (h : ∀ c ∈ cols, c ∈ names t) :
    cols.all (names t).contains = true := by
  rw [List.all_eq_true]
  intro c hc
  rw [List.contains_iff_mem]
  exact h c hc

theorem data_insert_of {u u' : PDb} {table : String} {t : Table} (hlk : u.lookup table = some t)
    {cols : List String} (hcols : ∀ c ∈ cols, c ∈ names t) {ps : List PgVal} (hl : ps.length = cols.length)
    {key : Int64} {pkcol : String} (hpk : pkcol ∈ names t) {new : PRow}
    (h1 : newRow key t (cols.zip ps) = some new) (h2 : rowOk S t new = true)
    (h3 : putRows S u table t (t.rows ++ [new]) = some u') :
    execData S u key ps (.insert table cols ((List.range cols.length).map .param) none
      (some pkcol)) = some (u', some (new pkcol)) := by
  have hc := all_contains hcols
  have hp : (names t).contains pkcol = true := by rw [List.contains_iff_mem]; exact hpk
  simp only [execData, hlk, operand_params t [] ps cols.length hl, hc, List.length_map, List.length_range,
    Option.all_some, hp, beq_self_eq_true, Bool.and_self, if_true, h1, h2, h3, Option.map_some]

theorem data_upsert_of {u u' : PDb} {table pkcol : String} {t : Table} (hlk : u.lookup table = some t)
    (ht : table ≠ "excluded") {cols : List String} (hcols : ∀ c ∈ cols, c ∈ names t) {ps : List PgVal}
    (hl : ps.length = cols.length) {key : Int64}
    (hpk : (t.cols.any fun d => decide (d.name = pkcol) && d.unique) = true) {new : PRow}
    (h1 : newRow key t (cols.zip ps) = some new) (h2 : rowOk S t new = true)
    (h3 : if t.rows.any fun r => same S (r pkcol) (new pkcol) then
        if cols.length > 1 then
          putRows S u table t (t.rows.map fun r => if same S (r pkcol) (new pkcol) then
            setRow (cols.zip (cols.map new)) r else r) = some u'
        else u' = u
      else putRows S u table t (t.rows ++ [new]) = some u') :
    execData S u key ps (.insert table cols ((List.range cols.length).map .param) (some ⟨pkcol,
        if cols.length > 1 then some (cols, cols.map fun c => .col (some "excluded") c) else none⟩)
        none) = some (u', none) := by
  have hc := all_contains hcols
  simp only [execData, hlk, operand_params t [] ps cols.length hl, hc, List.length_map, List.length_range,
    Option.all_none, beq_self_eq_true, Bool.and_self, if_true, h1, h2, hpk]
  split at h3
  · next hany =>
    rw [if_pos hany]
    split at h3
    · next hlen =>
      simp only [hlen, if_true, List.length_map, hc, beq_self_eq_true, Bool.and_self]
      rw [mapOk_ok (g := fun r => if same S (r pkcol) (new pkcol) then
        setRow (cols.zip (cols.map new)) r else r) (l := t.rows) fun r _ => by
          rw [operand_excluded t ps ht r new hcols]
          split <;> rfl]
      simp only [h3, Option.map_some, Option.map_none]
    · next hlen =>
      subst h3
      simp only [hlen, if_false]
  · next hany =>
    rw [if_neg hany, h3]
    rfl

/-! ### Saving -/

/-- What `PgAccepts` says of the key. -/
theorem writes_key (hm : PgModelOk k m pk) {t : Table} (ht : PgTableFits m pk t) {o : ObjVals m.fields}
    {id : SqlVal} {a : PgVal} (hkey : keySql pk.name m.fields o = .ok id) (hid : IsKey pk id a) {d : Column}
    (hd : d ∈ t.cols) (hdn : d.name = pk.name) {w : PgVal} : PgWrites m o d w ↔ w = a := by
  obtain ⟨d', ty, hd', hdn', -, -, hty, hdt, -⟩ := pg_key_column hm ht
  have : d' = d := column_eq ht.distinct hd' hd (hdn'.trans hdn.symm)
  subst this
  unfold PgWrites
  rw [hdn, hkey, hdt]
  constructor
  · rintro ⟨v, e1, e2⟩
    cases e1
    rw [hid.stored ty hty] at e2
    cases e2
    rfl
  · rintro rfl
    exact ⟨id, rfl, hid.stored ty hty⟩

theorem names_in (ht : PgTableFits m pk t) : ∀ c ∈ m.nonAutoColumns, c ∈ names t := fun c hc => by
  obtain ⟨x, hx, rfl⟩ := List.mem_map.1 hc
  exact (pg_columns_in ht x hx).1

theorem written_newRow (hm : PgModelOk k m pk) {t : Table} (ht : PgTableFits m pk t) (hof : OnlyFields m t)
    {o : ObjVals m.fields} {vals : List SqlVal} {ps : List PgVal} (hw : PgWritten m t o vals ps) {key : Int64}
    (hnum : pk.isAuto = true → ∀ d ∈ t.cols, d.name = pk.name → ∃ p, number key d.type = some p) :
    ∃ new, newRow key t (m.nonAutoColumns.zip ps) = some new := by
  refine newRow_exists fun d hd => ?_
  obtain ⟨f, hf, hfd, hft⟩ := hof d hd
  cases hfa : f.isAuto with
  | true =>
    have := hm.auto f hf hfa
    subst this
    obtain ⟨p, hp⟩ := hnum hfa d hd hfd.symm
    obtain ⟨d', ty, hd', hdn', -, -, -, -, -, -, hser⟩ := pg_key_column hm ht
    have : d' = d := column_eq ht.distinct hd' hd (hdn'.trans hfd)
    subst this
    refine ⟨p, ?_⟩
    rw [newValue, hdn', lookup_zip_none (key_not_column (model_ok hm) hfa)]
    simp only [hser hfa, if_true, hp]
  | false =>
    obtain ⟨w, g1, -⟩ := hw.column d hd f hf hfd hfa hft
    exact ⟨w, by simp only [newValue, g1]⟩

theorem insertNew_of (h : PgReady k m pk u) {t : Table} (hlk : u.lookup m.table = some t)
    (ht : PgTableFits m pk t) (hof : OnlyFields m t) {key : Int64} {o : ObjVals m.fields}
    (ho : Storable m.fields o) (hwm : AllWholeMicros m.fields o) (hroom : PgKeyFits pk key)
    (hacc : PgAccepts k m pk u t key o) (href : PgKeyRefs m pk u) (ha : pk.isAuto = true)
    (hval : keyValid pk.name m.fields o = false) : ∃ vals, pushValues (fun _ => true) m.fields o = .ok vals ∧
      vals.length = m.nonAutoColumns.length ∧
      ∃ u' o', m.pgInsertNew k u key pk o m.nonAutoColumns vals = .ok (u', o') := by
  have hm := h.model
  obtain ⟨vals, ps, hb, hw⟩ := pg_written hm ht ho (ty := paramType u (.insert m.table m.nonAutoColumns
    ((List.range m.nonAutoColumns.length).map .param) none (some pk.name)))
    (fun j c hc => paramType_insert hlk hc)
  refine ⟨vals, hw.pushed, hw.vlen, ?_⟩
  obtain ⟨d, ty, hd, hdn, hdnn, hdu, hty, hdt, hdf, -, hser⟩ := pg_key_column hm ht
  obtain ⟨q1, q2⟩ := valid_table h.valid hlk
  have hkeys := keys_of hm h.laws ht q1 q2 hty
  obtain ⟨p, hp, hpr, hno⟩ := hacc.number hval d hd hdn
  obtain ⟨kt, hkt⟩ := auto_type ha
  rw [hkt] at hty
  cases hty
  obtain ⟨I, hI⟩ := hm.autoInt kt hkt
  obtain ⟨hlo, hhi⟩ := hroom kt I hkt hI
  have hp' := hp
  rw [hdt, show FieldTy.sqltype (.autoPk kt) = kt.sqltype from rfl] at hp'
  obtain ⟨y, v, n1, n2, n3, n4, n5⟩ := pg_new_key hI k.parseUuid hlo hhi hp'
  obtain ⟨new, hnew⟩ := written_newRow hm ht hof hw (key := key) fun _ d' hd' hdn' => by
    rw [column_eq ht.distinct hd' hd (hdn'.trans hdn.symm)]
    exact ⟨p, hp⟩
  have hnk : new pk.name = p := by
    have := newRow_col ht.distinct hnew hd
    rw [newValue, hdn, lookup_zip_none (key_not_column (model_ok hm) ha)] at this
    simp only [hser ha, if_true, hp, Option.some.injEq] at this
    exact this.symm
  have hgiven : ∀ c v, (m.nonAutoColumns.zip ps).lookup c = some v → new c = v := fun c v hcv =>
    newRow_given ht.distinct hnew (names_in ht c (lookup_zip_mem hcv)) hcv
  have hap : pk.isAuto = true → ∀ d ∈ t.cols, d.name = pk.name →
      ofType d.type p = true ∧ k.server.refuses p = false ∧ p ≠ .null := fun _ d' hd' hdn' => by
    rw [column_eq ht.distinct hd' hd (hdn'.trans hdn.symm), hdt]
    refine ⟨ofType_of_toPg n3, hpr, toPg_ne_null n3 ?_⟩
    rintro rfl
    cases n4
  have hput := (put_append (t := t) (given := m.nonAutoColumns.zip ps) hnk
    (List.pairwise_append.2 ⟨hkeys.unique, List.pairwise_singleton .., fun r hr s hs => by
      rw [List.mem_singleton] at hs
      subst hs
      rw [hnk]
      exact hno r hr⟩) hgiven).1
  have hrows := accepts_valid h hlk ht hof hw hacc href hput hap fun d' hd' hdn' a' ⟨v', e1, _⟩ =>
    absurd (hdn' ▸ e1) (keySql_invalid o ⟨pk, hm.pk_mem, rfl, ha⟩ hm.distinct hval v')
  have hcl : m.nonAutoColumns.length ≤ 126 := Nat.le_trans (nonAuto_le m) hm.count
  have hexec := exec_of (k := k) (key := key) (st := pgInsertReturning k.kw m.table m.nonAutoColumns pk.name vals)
    (pg_lex_insert hm.covers (cols := m.nonAutoColumns) hm.table hm.plain (pg_columns_names hm) hcl) hb
    (data_insert_of hlk (names_in ht) hw.length (by rw [← hdn]; exact List.mem_map_of_mem hd) hnew
      (accepts_row hm hof hw hacc hap hgiven hnk) hrows)
  have hpy : Proper kt y := by cases hI <;> trivial
  have hny : WholeMicros kt y := by cases hI <;> trivial
  obtain ⟨o1, i1, -⟩ := initKey_new n1 n2 hpy hny (n := pk.name) o
    (auto_name (model_ok hm)) ⟨pk, hm.pk_mem, rfl, hkt⟩ hm.distinct hval ho hwm
  refine ⟨u.insert m.table { t with rows := t.rows ++ [new] }, o1, ?_⟩
  unfold TModel.pgInsertNew PgConn.insertReturningPk
  rw [hexec]
  simp only [hnk]
  rw [if_pos (by
    rw [n5]
    simp [SqlVal.isCompatible, n4, TModel.keyType, hkt, FieldTy.sqltype])]
  simp only [i1, Conv.orErr]

/-- The database accepts the object: it is saved. -/
theorem save_of (h : PgReady k m pk u) {t : Table} (hlk : u.lookup m.table = some t)
    (ht : PgTableFits m pk t) (hof : OnlyFields m t) {key : Int64} {o : ObjVals m.fields}
    (ho : Storable m.fields o) (hwm : AllWholeMicros m.fields o) (hroom : PgKeyFits pk key)
    (hacc : PgAccepts k m pk u t key o) (href : PgKeyRefs m pk u) :
    ∃ u' o', m.pgSave k u key o = .ok (u', o') := by
  have hm := h.model
  obtain ⟨d, ty, hd, hdn, hdnn, hdu, hty, hdt, hdf, hct, hser⟩ := pg_key_column hm ht
  obtain ⟨q1, q2⟩ := valid_table h.valid hlk
  have hkeys := keys_of hm h.laws ht q1 q2 hty
  have hcn := key_not_column (model_ok hm)
  have hcl : m.nonAutoColumns.length ≤ 126 := Nat.le_trans (nonAuto_le m) hm.count
  by_cases ha : pk.isAuto = true
  · by_cases hval : keyValid pk.name m.fields o = true
    · have hprop := proper_of_storable (n := pk.name) o ho (auto_name (model_ok hm)) hval hm.distinct
      obtain ⟨id, -, hkey, -⟩ := key_of_proper (model_ok hm) hprop
      obtain ⟨a, hid⟩ := isKey_of_like hm (pg_keyLike hm ho hwm hkey)
      obtain ⟨hidn, han⟩ := hid.ne_null hm
      have hst := hid.stored ty hty
      by_cases hex : ∃ r ∈ t.rows, r pk.name = a
      · obtain ⟨r, hr, he⟩ := hex
        obtain ⟨vals, ps, hb, hw⟩ := pg_written hm ht ho (ty := paramType u (.update m.table
          (setsOf m.nonAutoColumns 0) (keyCond pk.name (.param m.nonAutoColumns.length))))
          (fun j c hc => paramType_update hlk (by
            rw [List.getElem?_append_left (List.getElem?_eq_some_iff.1 hc).1]
            exact hc))
        have hpush2 : m.nonAutoValues pk o false = .ok vals := by
          rw [← hw.pushed]
          refine pushValues_congr o fun f hf hfa => ?_
          simp only [Bool.false_or, bne_iff_ne, ne_eq]
          intro e
          have := field_eq_of_name hm.distinct hf hm.pk_mem e
          subst this
          rw [ha] at hfa
          cases hfa
        unfold TModel.pgSave
        rw [hm.key]
        simp only [ha, Bool.true_and, hval, if_true]
        split
        · exact ⟨_, _, rfl⟩
        · next h1 =>
          rw [hkey, hpush2]
          simp only [Conv.orErr]
          have hcne : m.nonAutoColumns ≠ [] := nonAuto_ne (model_ok hm) fun e => h1 (by simp [e])
          have hput := put_map (t := t) (given := m.nonAutoColumns.zip ps) (sets := m.nonAutoColumns.zip ps)
            hkeys.unique (fun v hvv => by rw [lookup_zip_none (hcn ha)] at hvv; cases hvv) (fun _ _ h => h) hr he
          have hrows := accepts_valid h hlk ht hof hw hacc href hput (fun _ d' hd' hdn' => by
            rw [column_eq ht.distinct hd' hd (hdn'.trans hdn.symm)]
            exact ⟨hdt ▸ ofType_of_toPg hst,
              hacc.stored d hd a ((writes_key hm ht hkey hid hd hdn).2 rfl), han⟩)
            (fun d' hd' hdn' a' hwr => (writes_key hm ht hkey hid hd' hdn').1 hwr)
          rw [exec_of (r := (u.insert m.table { t with rows := t.rows.map (fun r => if r pk.name = a then
                setRow (m.nonAutoColumns.zip ps) r else r) }, none))
            (pg_lex_update hm.covers (cols := m.nonAutoColumns) hm.table
              (hm.names pk hm.pk_mem) (pg_columns_names hm) hcne hcl)
            (bind_append_of hb (t := d.type) (v := id) (a := a)
              (by rw [Nat.zero_add, hw.vlen, paramType_update hlk (c := pk.name) (by simp), hct])
              (by rw [hdt]; exact hst))
            (by rw [data_update_eq hlk hkeys (names_in ht) hw.length (ofType_of_toPg hst) han, hrows]; rfl)]
          exact ⟨_, _, rfl⟩
      · exact ⟨_, _, save_missing h hlk ht ho ha hkey hid (fun r hr e => hex ⟨r, hr, e⟩) key⟩
    · have hval' : keyValid pk.name m.fields o = false := by simpa using hval
      obtain ⟨vals, hv, hlenv, u', o', hins⟩ := insertNew_of h hlk ht hof ho hwm hroom hacc href ha hval'
      have hpush1 : m.nonAutoValues pk o true = .ok vals := by
        rw [← hv]; exact pushValues_congr o fun f _ _ => by simp
      refine ⟨u', o', ?_⟩
      unfold TModel.pgSave
      rw [hm.key]
      simp only [ha, Bool.true_and, hval', Bool.false_eq_true, if_false, if_true]
      split
      · next h1 =>
        have hone : m.columns.length = 1 := by simpa using h1
        have hnil := nonAuto_nil ha (model_ok hm) hone
        have hvn : vals = [] := List.eq_nil_of_length_eq_zero (by rw [hlenv, hnil]; rfl)
        subst hvn
        rw [hnil] at hins
        exact hins
      · rw [hpush1]
        exact hins
  · have ha' : pk.isAuto = false := by simpa using ha
    have hna := no_auto (model_ok hm) ha'
    have hval := keyValid_of_not_auto (n := pk.name) o hna ⟨pk, hm.pk_mem, rfl⟩
    have hprop := proper_of_storable (n := pk.name) o ho (auto_name (model_ok hm)) hval hm.distinct
    obtain ⟨id, -, hkey, -⟩ := key_of_proper (model_ok hm) hprop
    obtain ⟨a, hid⟩ := isKey_of_like hm (pg_keyLike hm ho hwm hkey)
    obtain ⟨hidn, han⟩ := hid.ne_null hm
    have hst := hid.stored ty hty
    have hcols : m.columns = m.nonAutoColumns := by
      unfold TModel.columns TModel.nonAutoColumns
      rw [tcolumns_congr (k1 := fun _ => true) (k2 := fun f => !f.isAuto) fun f hf => by
        simp [hna f hf]]
    have hlex := pg_lex_upsert (vals := ([] : List SqlVal)) hm.covers hm.excluded (cols := m.columns) hm.table
      (hm.names pk hm.pk_mem) (pg_columns_names hm) (pg_columns_ne hm)
    rw [hcols] at hlex
    obtain ⟨vals, ps, hb, hw⟩ := pg_written hm ht ho (ty := paramType u (.insert m.table m.nonAutoColumns
      ((List.range m.nonAutoColumns.length).map .param) (some ⟨pk.name,
        if m.nonAutoColumns.length > 1 then some (m.nonAutoColumns,
          m.nonAutoColumns.map fun c => .col (some "excluded") c) else none⟩) none))
      (fun j c hc => paramType_insert hlk hc)
    have hpush1 : m.nonAutoValues pk o true = .ok vals := by
      rw [← hw.pushed]; exact pushValues_congr o fun f _ _ => by simp
    obtain ⟨new, hnew⟩ := written_newRow hm ht hof hw (key := key) fun h => absurd h ha
    have hgiven : ∀ c v, (m.nonAutoColumns.zip ps).lookup c = some v → new c = v := fun c v hcv =>
      newRow_given ht.distinct hnew (names_in ht c (lookup_zip_mem hcv)) hcv
    have hla : (m.nonAutoColumns.zip ps).lookup pk.name = some a := by
      obtain ⟨w, g1, g2, -⟩ := hw.column d hd pk hm.pk_mem hdn.symm ha' (by rw [hty]; exact Option.some_ne_none _)
      rw [(writes_key hm ht hkey hid hd hdn).1 g2, hdn] at g1
      exact g1
    have hna' : new pk.name = a := hgiven _ _ hla
    have hsame : ∀ r ∈ t.rows, same k.server (r pk.name) (new pk.name) = decide (r pk.name = a) := by
      intro r hr
      rw [hna', Bool.eq_iff_iff, decide_eq_true_eq]
      exact same_iff h.laws hkeys.type (hkeys.rows r hr).1 (ofType_of_toPg hst) (hkeys.rows r hr).2 han
    have hap : pk.isAuto = true → ∀ d ∈ t.cols, d.name = pk.name →
        ofType d.type a = true ∧ k.server.refuses a = false ∧ a ≠ .null := fun h => absurd h ha
    have hwk := fun d' hd' hdn' a' hwr => (writes_key hm ht hkey hid (d := d') hd' hdn' (w := a')).1 hwr
    have hrest : ∃ u', if t.rows.any fun r => same k.server (r pk.name) (new pk.name) then
        if m.nonAutoColumns.length > 1 then
          putRows k.server u m.table t (t.rows.map fun r => if same k.server (r pk.name) (new pk.name) then
            setRow (m.nonAutoColumns.zip (m.nonAutoColumns.map new)) r else r) = some u'
        else u' = u
      else putRows k.server u m.table t (t.rows ++ [new]) = some u' := by
      by_cases hany : (t.rows.any fun r => same k.server (r pk.name) (new pk.name)) = true
      · simp only [if_pos hany]
        obtain ⟨r, hr, he⟩ := List.any_eq_true.1 hany
        rw [hsame r hr, decide_eq_true_eq] at he
        by_cases hlen : m.nonAutoColumns.length > 1
        · simp only [if_pos hlen]
          have hrows : (t.rows.map fun r => if same k.server (r pk.name) (new pk.name) = true then
              setRow (m.nonAutoColumns.zip (m.nonAutoColumns.map new)) r else r) =
              t.rows.map fun r => if r pk.name = a then
                setRow (m.nonAutoColumns.zip (m.nonAutoColumns.map new)) r else r := by
            refine List.map_congr_left fun r hr => ?_
            rw [hsame r hr]
            simp
          rw [hrows]
          exact ⟨_, accepts_valid h hlk ht hof hw hacc href (put_map hkeys.unique (fun v hvv => by
            rw [lookup_zip_map new (lookup_zip_mem hla), hna'] at hvv
            cases hvv
            rfl) (fun c v hcv => by
            rw [lookup_zip_map new (lookup_zip_mem hcv), hgiven c v hcv]) hr he) hap hwk⟩
        · simp only [if_neg hlen]
          exact ⟨u, rfl⟩
      · simp only [if_neg hany]
        have hno : ∀ r ∈ t.rows, r pk.name ≠ a := fun r hr e => hany (List.any_eq_true.2 ⟨r, hr, by
          rw [hsame r hr]; simpa using e⟩)
        exact ⟨_, accepts_valid h hlk ht hof hw hacc href (put_append hna'
          (List.pairwise_append.2 ⟨hkeys.unique, List.pairwise_singleton .., fun r hr s hs => by
            rw [List.mem_singleton] at hs
            subst hs
            rw [hna']
            exact hno r hr⟩) hgiven).1 hap hwk⟩
    obtain ⟨u', hrest⟩ := hrest
    have hx := data_upsert_of (S := k.server) hlk hm.table_ne (names_in ht) hw.length (key := key)
      (pkcol := pk.name) (List.any_eq_true.2 ⟨d, hd, by simp [hdn, hdu]⟩) hnew
      (accepts_row hm hof hw hacc hap hgiven hna') hrest
    have hexec := exec_of (k := k) (key := key) (st := Backend.pg.upsert k.kw m.table m.nonAutoColumns pk.name vals)
      hlex hb hx
    refine ⟨u', o, ?_⟩
    unfold TModel.pgSave
    rw [hm.key]
    simp only
    rw [if_neg (by simp [ha']), if_neg ha, hpush1, hcols]
    simp only [Conv.orErr, hexec]

/-! ### Deleting -/

theorem valid_delete {n pkn : String} {t : Table} {a : PgVal} (hs : u.Sorted)
    (hv : valid S u = true) (hlk : u.lookup n = some t)
    (hkey : ∀ n' s, u.lookup n' = some s → ∀ fk ∈ s.fks, fk.table = n → fk.refCol = pkn)
    (hun : ∀ n' s, u.lookup n' = some s → ∀ fk ∈ s.fks, fk.table = n → ∀ r ∈ s.rows,
      n' = n ∧ r pkn = a ∨ ∀ r' ∈ t.rows, r' pkn = a → same S (r' pkn) (r fk.col) = false) :
    valid S (u.insert n { t with rows := t.rows.filter fun r => !decide (r pkn = a) }) = true := by
  have hvi := (valid_iff hs).1 hv
  have href : ∀ n' s, u.lookup n' = some s → ∀ fk ∈ s.fks, ∀ r ∈ s.rows, ¬ (n' = n ∧ r pkn = a) →
      Referred S u fk (r fk.col) →
      Referred S (u.insert n { t with rows := t.rows.filter fun r => !decide (r pkn = a) }) fk (r fk.col) := by
    rintro n' s hl fk hfk r hr hne ⟨p, h1, s', h2, h3⟩
    by_cases e : fk.table = n
    · rw [e, hlk] at h1
      cases h1
      refine ⟨_, by rw [SMap.lookup_insert, if_pos e], s', List.mem_filter.2 ⟨h2, ?_⟩, h3⟩
      simp only [Bool.not_eq_true', decide_eq_false_iff_not]
      intro he
      rcases hun n' s hl fk hfk e r hr with h | h
      · exact hne h
      · rw [hkey n' s hl fk hfk e, h s' h2 he] at h3
        cases h3
    · exact ⟨p, by rw [SMap.lookup_insert, if_neg e]; exact h1, s', h2, h3⟩
  rw [valid_iff (SMap.sorted_insert hs _ _)]
  intro n' s hl
  rw [SMap.lookup_insert] at hl
  split at hl
  · cases hl
    obtain ⟨g1, g2, g3⟩ := hvi n t hlk
    refine ⟨fun r hr => g1 r (List.mem_filter.1 hr).1, ?_, ?_⟩
    · rw [uniqueOk_iff] at g2 ⊢
      exact fun d hd hu => (g2 d hd hu).filter _
    · rw [refsOk_iff] at g3 ⊢
      intro fk hfk r hr
      obtain ⟨hr1, hr2⟩ := List.mem_filter.1 hr
      exact (g3 fk hfk r hr1).imp id (href n t hlk fk hfk r hr1 fun h => by simp [h.2] at hr2)
  · next hne =>
    obtain ⟨g1, g2, g3⟩ := hvi n' s hl
    refine ⟨g1, g2, ?_⟩
    rw [refsOk_iff] at g3 ⊢
    intro fk hfk r hr
    exact (g3 fk hfk r hr).imp id (href n' s hl fk hfk r hr fun h => hne h.1)

theorem delete_of (h : PgReady k m pk u) {t : Table} (hlk : u.lookup m.table = some t)
    (ht : PgTableFits m pk t) {o : ObjVals m.fields} (ho : Storable m.fields o)
    (hwm : AllWholeMicros m.fields o) (hval : keyValid pk.name m.fields o = true) (href : PgKeyRefs m pk u)
    (hun : PgUnused k m pk u t o) : ∃ u', m.pgDelete k u o = .ok u' := by
  have hm := h.model
  obtain ⟨d, ty, hd, hdn, -, -, hty, hdt, hdf, hct, hser⟩ := pg_key_column hm ht
  obtain ⟨q1, q2⟩ := valid_table h.valid hlk
  have hkeys := keys_of hm h.laws ht q1 q2 hty
  have hprop := proper_of_storable (n := pk.name) o ho (auto_name (model_ok hm)) hval hm.distinct
  obtain ⟨id, -, hkey, -⟩ := key_of_proper (model_ok hm) hprop
  obtain ⟨a, hid⟩ := isKey_of_like hm (pg_keyLike hm ho hwm hkey)
  obtain ⟨hne, hna⟩ := hid.ne_null hm
  have hrow : ∀ r, IsPgRowOf m pk t o r ↔ r pk.name = a := fun r =>
    ⟨fun ⟨d', hd', hdn', hwr⟩ => (writes_key hm ht hkey hid hd' hdn').1 hwr,
      fun e => ⟨d, hd, hdn, (writes_key hm ht hkey hid hd hdn).2 e⟩⟩
  have hv := valid_delete h.sorted h.valid hlk (a := a) href.refer fun n' s hl fk hfk e r hr => by
    rcases hun n' s hl fk hfk e r hr with ⟨h1, h2⟩ | h1
    · exact .inl ⟨h1, (hrow r).1 h2⟩
    · exact .inr fun r' hr' e' => h1 r' hr' ((hrow r').2 e')
  obtain ⟨ps, hb, hop⟩ := key_bind hm hlk ht hid
  unfold TModel.pgDelete
  rw [hm.key]
  simp only [hkey, Conv.orErr]
  rw [exec_of (r := (u.insert m.table { t with rows := t.rows.filter fun r => !decide (r pk.name = a) }, none))
    (pg_lex_delete hm.covers hm.table hm.plain hne) (by rw [pg_delete_params hne]; exact hb)
    (by rw [data_delete_eq hlk hkeys hop (ofType_of_toPg (hid.stored ty hty)) hna]; simp [putRows, hv])]
  exact ⟨_, rfl⟩

end Butane.PgP
