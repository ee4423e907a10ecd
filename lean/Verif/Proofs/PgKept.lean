/-
The objects a PostgreSQL table holds, through operations.
-/
import Verif.Proofs.PgQuery
import Verif.Model.PgFirst

namespace Butane.PgP
open Butane Butane.PgData Spec

variable {k : PgConn} {m : TModel} {pk : TField} {u : PDb}

theorem stores_empty {t : Table} (hlk : u.lookup m.table = some t) (he : t.rows = []) :
    PgKeepsObjs m pk u fun _ => none := by
  refine ⟨t, hlk, ?_, ?_⟩
  · intro r hr; rw [he] at hr; cases hr
  · rintro id o ⟨-, h⟩; cases h

/-- A row of the same object among other objects. -/
theorem rowIs_of {st st' : Objects m} {r : PRow} {id : SqlVal} {o : ObjVals m.fields}
    (h : PgRowIs m pk st r id o) (he : st' id = st id) : PgRowIs m pk st' r id o :=
  ⟨⟨h.has.1, he.trans h.has.2⟩, h.key, h.proper, h.whole, h.holds⟩

theorem stores_saved (hm : PgModelOk k m pk) {st : Objects m} (hs : PgKeepsObjs m pk u st) {u' : PDb} {t : Table}
    (hlk : u.lookup m.table = some t) {o : ObjVals m.fields} {id : SqlVal} {a : PgVal}
    (hsv : Saved k m pk u u' t o id a) : PgKeepsObjs m pk u' (st.put id o) := by
  obtain ⟨t1, g1, hrow, hobj⟩ := hs
  rw [hlk] at g1
  cases g1
  obtain ⟨rows, hc, hrest, r0, hone, hof⟩ := hsv.rows
  have hl : PgKeyLike pk id := ⟨hsv.isKey.type, keySql_whole o hsv.whole hsv.key⟩
  have h0 : PgRowIs m pk (st.put id o) r0 id o :=
    ⟨⟨hl, by simp [Objects.put]⟩, hsv.key, hsv.proper, hsv.whole, hof⟩
  have hm0 : r0 ∈ rows := by
    have : r0 ∈ rows.filter fun r => decide (r pk.name = a) := by rw [hone]; exact List.mem_singleton_self _
    exact (List.mem_filter.1 this).1
  have hoff : ∀ r, r pk.name ≠ a → (r ∈ rows ↔ r ∈ t.rows) := by
    intro r hr
    have h1 : ∀ l : List PRow, r ∈ l ↔ r ∈ l.filter fun r => !decide (r pk.name = a) := by
      intro l; simp [List.mem_filter, hr]
    rw [h1 rows, h1 t.rows, hrest]
  refine ⟨_, hc.table, fun r hr => ?_, fun id2 o2 h2 => ?_⟩
  · by_cases he : r pk.name = a
    · have : r ∈ rows.filter fun r => decide (r pk.name = a) := List.mem_filter.2 ⟨hr, by simpa using he⟩
      rw [hone, List.mem_singleton] at this
      subst this
      exact ⟨id, o, h0⟩
    · obtain ⟨id2, o2, h2⟩ := hrow r ((hoff r he).1 hr)
      refine ⟨id2, o2, rowIs_of h2 ?_⟩
      have : id2 ≠ id := by
        rintro rfl
        exact he ((pg_rowKey hm h2).det hm hsv.isKey)
      simp [Objects.put, this]
  · by_cases he : id2 = id
    · subst he
      have : o2 = o := by
        have := h2.2
        simp only [Objects.put, if_true] at this
        exact (Option.some.inj this).symm
      subst this
      exact ⟨r0, hm0, h0⟩
    · have hst : (st.put id o) id2 = st id2 := by simp [Objects.put, he]
      obtain ⟨r, hr, hro⟩ := hobj id2 o2 ⟨h2.1, hst ▸ h2.2⟩
      have : r pk.name ≠ a := by
        intro e
        have h3 := pg_rowKey hm hro
        rw [e] at h3
        exact he (h3.inj hsv.isKey)
      exact ⟨r, (hoff r this).2 hr, rowIs_of hro hst⟩

theorem stores_deleted (hm : PgModelOk k m pk) {st : Objects m} (hs : PgKeepsObjs m pk u st) {u' : PDb} {t : Table}
    (hlk : u.lookup m.table = some t) {id : SqlVal} {a : PgVal} (hid : IsKey pk id a)
    (hc : Changed k.server u u' m.table t (t.rows.filter fun r => !decide (r pk.name = a))) :
    PgKeepsObjs m pk u' (st.remove id) := by
  obtain ⟨t1, g1, hrow, hobj⟩ := hs
  rw [hlk] at g1
  cases g1
  refine ⟨_, hc.table, fun r hr => ?_, fun id2 o2 h2 => ?_⟩
  · obtain ⟨h1, h2⟩ := List.mem_filter.1 hr
    obtain ⟨id2, o2, h3⟩ := hrow r h1
    refine ⟨id2, o2, rowIs_of h3 ?_⟩
    have : id2 ≠ id := by
      rintro rfl
      have := (pg_rowKey hm h3).det hm hid
      simp [this] at h2
    simp [Objects.remove, this]
  · have he : id2 ≠ id := by
      rintro rfl
      have := h2.2
      simp [Objects.remove] at this
    have hst : (st.remove id) id2 = st id2 := by simp [Objects.remove, he]
    obtain ⟨r, hr, hro⟩ := hobj id2 o2 ⟨h2.1, hst ▸ h2.2⟩
    refine ⟨r, List.mem_filter.2 ⟨hr, ?_⟩, rowIs_of hro hst⟩
    have : r pk.name ≠ a := by
      intro e
      have h3 := pg_rowKey hm hro
      rw [e] at h3
      exact he (h3.inj hid)
    simpa using this

theorem stores_other {st : Objects m} (hs : PgKeepsObjs m pk u st) {u' : PDb} {n : String}
    (hr : Touches k.server u u' n) (hn : n ≠ m.table) : PgKeepsObjs m pk u' st := by
  rcases hr with rfl | ⟨t0, rows, h1, hc⟩
  · exact hs
  · obtain ⟨t, h2, h3, h4⟩ := hs
    exact ⟨t, by rw [hc.others _ (Ne.symm hn), h2], h3, h4⟩

theorem ready_of_touches {u' : PDb} {n : String} (h : PgReady k m pk u) (hr : Touches k.server u u' n) :
    PgReady k m pk u' := by
  rcases hr with rfl | ⟨t0, rows, h1, hc⟩
  · exact h
  · exact ready_of_changed h h1 hc

/-- Whatever objects are saved and deleted. -/
theorem stores_run {u0 : PDb} {st0 st : Objects m} (h : PgReady k m pk u0) (h0 : PgKeepsObjs m pk u0 st0)
    (hr : PgRun k m pk u0 st0 u st) : PgReady k m pk u ∧ PgKeepsObjs m pk u st := by
  induction hr with
  | start => exact ⟨h, h0⟩
  | save _ ho hw hfit hrow hsave hkey ih =>
    obtain ⟨hR, hS⟩ := ih
    obtain ⟨t, hlk, ht⟩ := hR.table
    obtain ⟨-, id, a, h3, -⟩ := save_saved hR.model hR.laws hR.sorted hR.valid hlk ht ho hw hfit
      (fun ha hv id a hk hst => by
        have := hrow ha hv id hk
        obtain ⟨t1, g1, -, hobj⟩ := hS
        rw [hlk] at g1
        cases g1
        obtain ⟨o2, ho2⟩ := Option.isSome_iff_exists.1 this
        obtain ⟨r, hr, hro⟩ := hobj id o2 ⟨pg_keyLike hR.model ho hw hk, ho2⟩
        exact ⟨r, hr, (pg_rowKey hR.model hro).det hR.model hst⟩) hsave
    have e := h3.key
    rw [hkey] at e
    cases e
    obtain ⟨rows, hc, -⟩ := h3.rows
    exact ⟨ready_of_changed hR hlk hc, stores_saved hR.model hS hlk h3⟩
  | delete _ ho hw hd hkey ih =>
    obtain ⟨hR, hS⟩ := ih
    obtain ⟨t, hlk, ht⟩ := hR.table
    obtain ⟨a, hkv⟩ := isKey_of_like hR.model (pg_keyLike hR.model ho hw hkey)
    have hc := delete_changed hR hlk ht hkey hkv hd
    exact ⟨ready_of_changed hR hlk hc, stores_deleted hR.model hS hlk hkv hc⟩
  | saveOther _ hne hm' hsave ih =>
    have ht := save_touches hm' ih.1.sorted ih.1.valid hsave
    exact ⟨ready_of_touches ih.1 ht, stores_other ih.2 ht hne⟩
  | deleteOther _ hne hm' ho hd ih =>
    have ht := delete_touches hm' ih.1.sorted ih.1.valid ho hd
    exact ⟨ready_of_touches ih.1 ht, stores_other ih.2 ht hne⟩

/-! ### JSON -/

/-- A parameter beside a column of a type it cannot be compared with. -/
theorem queryRows_uncomparable {S : Server} {reserved : String → Bool} {text : List Char} {types : List PgType}
    {ps : List PgVal} {out : Option (List (List PgVal))} (h : QueryRows S reserved u text types ps out)
    {s : Sql.Select} (hparse : Sql.parseStmt false (Sql.lex reserved text) = some (.select s)) {t : Table}
    (hlk : u.lookup s.table = some t) {i : Nat} {f : String} (hp : (i, f) ∈ uses (.select s)) {a b : PgType}
    (ha : colType t f = some a) (hb : types[i]? = some b) (hc : comparable a b = false) : out = none := by
  unfold QueryRows at h
  simp only [hparse, hlk] at h
  split at h
  · next hall =>
    have := List.all_eq_true.1 hall (i, f) hp
    simp [ha, hb, hc] at this
  · exact h

/-- A JSON value is declared as `json`, which is not the type of the column. -/
theorem json_fails (h : PgReady k m pk u) {f : String} {ty : FieldTy} (hf : HasField m f ty)
    (hj : ty.sqltype = .json) (hp : PlainName k.reserved f) (op : CmpOp) (j : String)
    {res : Except OpErr (List (ObjVals m.fields))}
    (hl : m.PgLoadOut k u ((Query.new m.table).withFilter (fieldCmp op f (.json j))) res) :
    ∃ e, res = .error e := by
  obtain ⟨t, hlk, ht⟩ := h.table
  have hm := h.model
  have hcol : ∀ f ty, HasField m f ty → IsName f ∧ ∀ r ∈ (seenDb u).rows m.table, r.has f = true := by
    intro f ty hf
    refine ⟨?_, fun r hr => ?_⟩
    · obtain ⟨g, hg, rfl, -⟩ := hf
      exact hm.names g hg
    · rw [pg_seenDb_rows hlk] at hr
      obtain ⟨r', -, rfl⟩ := List.mem_map.1 hr
      exact pg_visible ht hf r'
  let e : FOr := .one (.one (.cmp op f (.json j)))
  have hok : QueryOK false k.reserved (seenDb u) ((Query.new m.table).withFilter e.toBool) m.columns := by
    refine ⟨hm.table, by simp [Query.new, Query.withFilter, seenDb, hlk], pg_columns_ne hm, ?_, ?_, ?_⟩
    · intro c hc
      obtain ⟨p, hp, rfl⟩ := List.mem_map.1 hc
      obtain ⟨g, hg, -, ty, hty, rfl⟩ := tcolumns_mem.1 hp
      exact hcol g.name ty ⟨g, hg, rfl, hty⟩
    · intro c hc; cases hc
    · intro b hb
      cases hb
      refine ⟨filter_names e (by simpa [e, FilterNames, AndNames, AtomNames] using hp),
        filter_noParens e (.inr (by simp [e, FilterLists, AndLists, AtomLists])), ?_, fun _ => ?_⟩
      · intro r hr
        refine filter_scoped e _ _ ?_
        simp only [e, FilterScoped, AndScoped, AtomScoped]
        exact ⟨(hcol f ty hf).2 r hr, fun _ h => by cases h⟩
      · cases op <;> simp [e, FOr.toBool, FAnd.toBool, FAtom.toBool, fieldCmp, valsBool, isNullTest, valsExpr, valsVal]
  have hparse := parse_query (b := .pg) hm.covers hok none none (by simp)
  unfold TModel.PgLoadOut at hl
  split at hl
  · next e' _ => exact ⟨e', hl⟩
  · next ps _ =>
    obtain ⟨out, hout, rfl⟩ := hl
    have : out = none := by
      have e1 := pg_colType ht hf
      rw [hj] at e1
      have e2 : (((Query.new m.table).withFilter (fieldCmp op f (.json j))).load .pg k.kw m.columns).params =
          [.json j] := by
        rw [pg_load_params]
        cases op <;> simp [Query.new, Query.withFilter, fieldCmp, valsBool, isNullTest, valsExpr, valsVal]
      refine queryRows_uncomparable hout hparse (i := 0) hlk ?_ e1 (by rw [e2]; rfl) (by simp [pgType, pgTypeForVal, SqlVal.sqltype, comparable])
      cases op <;> simp [e, FOr.toBool, FAnd.toBool, FAtom.toBool, fieldCmp, uses, condUses, disjs, condsUses,
        atomOf, astCmp, isNullTest, astExpr, astVal, beside, Query.new, Query.withFilter]
    subst this
    exact ⟨.db, rfl⟩

/-! ### The first object -/

theorem pg_fromRows_take {rows : List (List PgVal)} {os : List (ObjVals m.fields)}
    (h : m.pgFromRows k rows = .ok os) : ∃ os', m.pgFromRows k (rows.take 1) = .ok os' ∧ os'.head? = os.head? := by
  cases rows with
  | nil =>
    cases h
    exact ⟨[], rfl, rfl⟩
  | cons r rs =>
    simp only [List.take_succ_cons, List.take_zero]
    simp only [TModel.pgFromRows] at h ⊢
    split at h
    · cases h
    · next c hc =>
      split at h
      · cases h
      · next o ho =>
        split at h
        · cases h
          exact ⟨[o], by simp [hc, ho], rfl⟩
        · cases h

theorem page_first {α : Type} {l : Option Nat} (hl : ∀ x ∈ l, 0 < x) (o : Option Nat) (xs : List α) :
    (page (some 1) o xs) = (page l o xs).take 1 := by
  unfold page
  cases l with
  | none => cases o <;> rfl
  | some n =>
    have hn : min 1 n = 1 := Nat.min_eq_left (hl n rfl)
    cases o <;> simp only [List.take_take, hn]

/-- What `load_first` returns. -/
theorem pg_first_selects {st : Objects m} {t : Table} (hT : PgTabled k m pk u st t) {q : Query} {e : Option FOr}
    (hq : PgSendable k m q e) (hl : ∀ x ∈ q.limit, 0 < x.toInt)
    {res : Except OpErr (Option (ObjVals m.fields))} (h : m.PgLoadFirstOut k u q res) :
    ∃ os, res = .ok os.head? ∧ PgSelects k m pk st e q.sort (count q.limit) (count q.offset) os := by
  have hq1 : PgSendable k m (q.withLimit 1) e :=
    ⟨hq.table, hq.filter, hq.fits, hq.count, hq.sort, (by rintro x ⟨⟩; decide), hq.offset⟩
  obtain ⟨ps, hps, hiff⟩ := pg_rows_iff hT.ready.model hT.lookup hT.fits hq1
  unfold TModel.PgLoadFirstOut at h
  rw [show (q.loadFirst .pg k.kw m.columns) = ((q.withLimit 1).load .pg k.kw m.columns) from rfl, hps] at h
  obtain ⟨out, hout, rfl⟩ := h
  obtain ⟨all, g1, g2, rfl⟩ := (hiff out).1 hout
  simp only [pg_lengths, if_true]
  obtain ⟨os, h1, h2⟩ := pg_selects_of hT hq (all := all) g1 g2 (count q.limit) (count q.offset)
  refine ⟨os, ?_, h2⟩
  obtain ⟨os', h3, h4⟩ := pg_fromRows_take h1
  have hp : page (count (q.withLimit 1).limit) (count (q.withLimit 1).offset) all =
      (page (count q.limit) (count q.offset) all).take 1 := by
    refine page_first (l := count q.limit) (fun x hx => ?_) _ _
    obtain ⟨y, hy, rfl⟩ := Option.map_eq_some_iff.1 hx
    have := hl y hy
    omega
  rw [hp, List.map_take, List.take_take, Nat.min_self, h3]
  simp only [h4]

theorem pg_first_exists (hO : PgOrderLaws k.server) {st : Objects m} {t : Table} (hT : PgTabled k m pk u st t)
    {q : Query} {e : Option FOr} (hq : PgSendable k m q e) : ∃ res, m.PgLoadFirstOut k u q res := by
  have hq1 : PgSendable k m (q.withLimit 1) e :=
    ⟨hq.table, hq.filter, hq.fits, hq.count, hq.sort, (by rintro x ⟨⟩; decide), hq.offset⟩
  obtain ⟨res, h⟩ := pg_load_exists hO hT hq1
  unfold TModel.PgLoadOut at h
  unfold TModel.PgLoadFirstOut
  rw [show (q.loadFirst .pg k.kw m.columns) = ((q.withLimit 1).load .pg k.kw m.columns) from rfl]
  split
  · exact ⟨_, rfl⟩
  · next ps hps =>
    rw [hps] at h
    obtain ⟨out, hout, -⟩ := h
    exact ⟨_, out, hout, rfl⟩

end Butane.PgP
