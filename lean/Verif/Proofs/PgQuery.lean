/-
Queries and the objects a PostgreSQL database holds.
-/
import Verif.Proofs.PgShows
import Verif.Proofs.ObjLoad
import Verif.Spec.PgQuery

namespace Butane.PgP
open Butane Butane.PgData Spec
open Butane.Sql (Operand Cond SStmt toDb)

variable {S : Server} {k : PgConn} {m : TModel} {pk : TField} {u : PDb}

/-! ### Columns -/

theorem wholeMicros_val {n : String} {t : FieldTy} {x : t.Val} : ∀ {fs : List TField} {o : ObjVals fs},
    AllWholeMicros fs o → valueOf n fs o = some ⟨t, x⟩ → WholeMicros t x
  | [], _, _, h => by cases h
  | ⟨n', p, none⟩ :: fs, (y, os), hp, h => by
    simp only [valueOf] at h
    split at h
    · cases h
    · exact wholeMicros_val (fs := fs) hp h
  | ⟨n', p, some t'⟩ :: fs, (y, os), hp, h => by
    simp only [valueOf] at h
    split at h
    · cases h; exact hp.1
    · exact wholeMicros_val (fs := fs) hp.2 h

theorem seen_of_toPg {ty : SqlType} {v : SqlVal} {a : PgVal} (h : toPg (pgType ty) v = .ok a)
    (hn : ¬ SubMicro v) : seen a = toDb v := by
  cases v <;> simp only [toPg] at h
  · cases h; rfl
  case timestamp t =>
    split at h
    · cases h
      have ht : t % 1000 = 0 := by simpa [SubMicro] using hn
      simp only [seen, fromPg]
      rw [Int.tdiv_mul_cancel (Int.dvd_of_emod_eq_zero ht)]
    · cases h
  all_goals
    split at h
    · cases h; rfl
    · cases h

/-- What a column of an object's row shows. -/
theorem pg_column (hm : PgModelOk k m pk) {st : Objects m} {r : PRow} {id : SqlVal} {o : ObjVals m.fields}
    (h : PgRowIs m pk st r id o) {f : String} {ty : FieldTy} (hf : HasField m f ty) :
    ∃ v, FieldSql m o f v ∧ seen (r f) = toDb v := by
  obtain ⟨x, hx⟩ := fieldVal_some hm.distinct o hf
  obtain ⟨⟨vals, h1, h2⟩, h3⟩ := h.holds
  obtain ⟨v, g1, g2⟩ := holds_val _ _ _ h1 h2 h3 hx
  exact ⟨v, ⟨ty, x, hx, g1⟩, seen_of_toPg g2 (Props.field_whole_micros ty x v (wholeMicros_val h.whole hx) g1)⟩

/-- The key column of an object's row. -/
theorem pg_rowKey (hm : PgModelOk k m pk) {st : Objects m} {r : PRow} {id : SqlVal} {o : ObjVals m.fields}
    (h : PgRowIs m pk st r id o) : IsKey pk id (r pk.name) := by
  obtain ⟨a, ha⟩ := isKey_of_like hm h.has.1
  obtain ⟨ty, hty, -⟩ := hm.keyType
  obtain ⟨⟨vals, h1, h2⟩, h3⟩ := h.holds
  have hf : HasField m pk.name ty := ⟨pk, hm.pk_mem, rfl, hty⟩
  obtain ⟨x, hx⟩ := fieldVal_some hm.distinct o hf
  obtain ⟨v, g1, g2⟩ := holds_val _ _ _ h1 h2 h3 hx
  have hv : v = id := fieldSql_unique ⟨ty, x, hx, g1⟩ (fieldSql_key (model_ok hm) h.key)
  subst hv
  have := (ha.stored ty hty).symm.trans g2
  cases this
  exact ha

/-! ### Filters -/

theorem related_pg_iff {op : CmpOp} {w : Sql.DbVal} {x v : SqlVal} (hw : w = toDb x) :
    (w ≠ .null ∧ toDb v ≠ .null ∧ k.server.rel op w (toDb v) = true) ↔ PgRelated k op x v := by
  subst hw
  unfold PgRelated
  rw [ne_eq, toDb_eq_null, ne_eq, toDb_eq_null]

theorem compares_pg_iff {op : CmpOp} {w : Sql.DbVal} {x v : SqlVal} (hw : w = toDb x) :
    CmpHolds k.server.rel op w v ↔ PgCompares k op x v := by
  have key := related_pg_iff (k := k) (op := op) (v := v) hw
  have e1 : w = .null ↔ x = .null := by rw [hw, toDb_eq_null]
  cases op <;> cases v <;> first | exact e1 | exact not_congr e1 | exact key

theorem pg_atom_means (hm : PgModelOk k m pk) {st : Objects m} {t : Table} {r : PRow} {id : SqlVal}
    {o : ObjVals m.fields} (h : PgRowIs m pk st r id o) {db : Sql.Db} : ∀ (a : FAtom), PgAtomFits k m a →
    (AtomHolds k.server.rel db (seenRow t r) a ↔ PgAtomMeans k m o a)
  | .cmp op f v, hf => by
    obtain ⟨-, ty, hty, -⟩ := hf
    obtain ⟨x, h1, h2⟩ := pg_column hm h hty
    simp only [AtomHolds, PgAtomMeans]
    have hc := compares_pg_iff (k := k) (op := op) (w := (seenRow t r).val f) (x := x) (v := v) h2
    rw [hc]
    exact ⟨fun h => ⟨x, h1, h⟩, fun ⟨x', h1', h⟩ => fieldSql_unique h1 h1' ▸ h⟩
  | .isIn f vs, hf => by
    obtain ⟨-, ty, hty, -⟩ := hf
    obtain ⟨x, h1, h2⟩ := pg_column hm h hty
    simp only [AtomHolds, PgAtomMeans]
    constructor
    · rintro ⟨v, hv, he⟩
      exact ⟨x, h1, v, hv, (related_pg_iff h2).1 he⟩
    · rintro ⟨x', h1', v, hv, he⟩
      cases fieldSql_unique h1 h1'
      exact ⟨v, hv, (related_pg_iff h2).2 he⟩
  | .matchesPk .., hf => hf.elim
  | .matches .., hf => hf.elim
  | .containsPk .., hf => hf.elim
  | .contains .., hf => hf.elim

theorem pg_and_means (hm : PgModelOk k m pk) {st : Objects m} {t : Table} {r : PRow} {id : SqlVal}
    {o : ObjVals m.fields} (h : PgRowIs m pk st r id o) {db : Sql.Db} : ∀ (a : FAnd), PgAndFits k m a →
    (AndHolds k.server.rel db (seenRow t r) a ↔ PgAndMeans k m o a)
  | .one a, hf => by simpa only [AndHolds, PgAndMeans] using pg_atom_means hm h a hf
  | .and x y, hf => by
    simp only [AndHolds, PgAndMeans]
    exact and_congr (pg_and_means hm h x hf.1) (pg_atom_means hm h y hf.2)

theorem pg_filter_means (hm : PgModelOk k m pk) {st : Objects m} {t : Table} {r : PRow} {id : SqlVal}
    {o : ObjVals m.fields} (h : PgRowIs m pk st r id o) {db : Sql.Db} : ∀ (e : FOr), PgFilterFits k m e →
    (FilterHolds k.server.rel db (seenRow t r) e ↔ PgFilterMeans k m o e)
  | .one a, hf => by simpa only [FilterHolds, PgFilterMeans] using pg_and_means hm h a hf
  | .or x y, hf => by
    simp only [FilterHolds, PgFilterMeans]
    exact or_congr (pg_filter_means hm h x hf.1) (pg_and_means hm h y hf.2)

/-! ### The query can be sent -/

theorem pg_visible {t : Table} (ht : PgTableFits m pk t) {f : String} {ty : FieldTy} (hf : HasField m f ty)
    (r : PRow) : (seenRow t r).has f = true := by
  obtain ⟨g, hg, rfl, hty⟩ := hf
  obtain ⟨d, hd, hfd⟩ := ht.fields g hg ty hty
  simp only [seenRow, List.contains_iff_mem, names]
  exact hfd.name ▸ List.mem_map_of_mem hd

theorem pg_colType {t : Table} (ht : PgTableFits m pk t) {f : String} {ty : FieldTy} (hf : HasField m f ty) :
    colType t f = some (pgType ty.sqltype) := by
  obtain ⟨g, hg, rfl, hty⟩ := hf
  exact (pg_columns_in ht (keep := fun _ => true) (g.name, ty.sqltype)
    (tcolumns_mem.2 ⟨g, hg, rfl, ty, hty, rfl⟩)).2

theorem atom_ok (hm : PgModelOk k m pk) {t : Table} (ht : PgTableFits m pk t) (db : Sql.Db) (a : FAtom)
    (h : PgAtomFits k m a) :
    (∀ r, AtomScoped db (seenRow t r) [] a) ∧ AtomNames k.reserved a ∧ AtomLists a := by
  cases a <;> simp only [PgAtomFits] at h <;> simp only [AtomScoped, AtomNames, AtomLists]
  · obtain ⟨h1, ty, hf, -⟩ := h
    exact ⟨fun r => ⟨pg_visible ht hf r, fun _ h => by cases h⟩, h1, trivial⟩
  · obtain ⟨h1, ty, hf, -⟩ := h
    refine ⟨fun r => ⟨pg_visible ht hf r, fun _ h => by cases h⟩, ?_, h1⟩
    obtain ⟨g, hg, rfl, -⟩ := hf
    exact hm.names g hg

theorem and_ok (hm : PgModelOk k m pk) {t : Table} (ht : PgTableFits m pk t) (db : Sql.Db) :
    ∀ (e : FAnd), PgAndFits k m e →
    (∀ r, AndScoped db (seenRow t r) [] e) ∧ AndNames k.reserved e ∧ AndLists e
  | .one a, h => by
    simpa only [AndScoped, AndNames, AndLists] using atom_ok hm ht db a h
  | .and l a, h => by
    obtain ⟨h1, h2, h3⟩ := and_ok hm ht db l h.1
    obtain ⟨g1, g2, g3⟩ := atom_ok hm ht db a h.2
    simp only [AndScoped, AndNames, AndLists]
    exact ⟨fun r => ⟨h1 r, g1 r⟩, ⟨h2, g2⟩, h3, g3⟩

theorem filter_ok (hm : PgModelOk k m pk) {t : Table} (ht : PgTableFits m pk t) (db : Sql.Db) :
    ∀ (e : FOr), PgFilterFits k m e →
    (∀ r, FilterScoped db (seenRow t r) [] e) ∧ FilterNames k.reserved e ∧ FilterLists e
  | .one a, h => by
    simpa only [FilterScoped, FilterNames, FilterLists] using and_ok hm ht db a h
  | .or l a, h => by
    obtain ⟨h1, h2, h3⟩ := filter_ok hm ht db l h.1
    obtain ⟨g1, g2, g3⟩ := and_ok hm ht db a h.2
    simp only [FilterScoped, FilterNames, FilterLists]
    exact ⟨fun r => ⟨h1 r, g1 r⟩, ⟨h2, g2⟩, h3, g3⟩

theorem pg_seenDb_rows {n : String} {t : Table} (h : u.lookup n = some t) :
    (seenDb u).rows n = t.rows.map (seenRow t) := by simp [seenDb, h]

theorem pg_queryOK (hm : PgModelOk k m pk) {t : Table} (hlk : u.lookup m.table = some t)
    (ht : PgTableFits m pk t) {q : Query} {e : Option FOr} (hq : PgSendable k m q e) :
    QueryOK false k.reserved (seenDb u) q m.columns := by
  have hcol : ∀ f ty, HasField m f ty → IsName f ∧ ∀ r ∈ (seenDb u).rows q.table, r.has f = true := by
    intro f ty hf
    refine ⟨?_, fun r hr => ?_⟩
    · obtain ⟨g, hg, rfl, -⟩ := hf
      exact hm.names g hg
    · rw [hq.table, pg_seenDb_rows hlk] at hr
      obtain ⟨r', -, rfl⟩ := List.mem_map.1 hr
      exact pg_visible ht hf r'
  refine ⟨by rw [hq.table]; exact hm.table, by rw [hq.table]; simp [seenDb, hlk], pg_columns_ne hm, ?_, ?_, ?_⟩
  · intro c hc
    obtain ⟨p, hp, rfl⟩ := List.mem_map.1 hc
    obtain ⟨f, hf, -, ty, hty, rfl⟩ := tcolumns_mem.1 hp
    exact hcol f.name ty ⟨f, hf, rfl, hty⟩
  · intro c hc
    obtain ⟨ty, hty⟩ := hq.sort c hc
    exact hcol _ ty hty
  · intro b hb
    rw [hq.filter] at hb
    cases e with
    | none => cases hb
    | some f =>
      cases hb
      obtain ⟨h1, h2, h3⟩ := filter_ok hm ht (seenDb u) f (hq.fits f rfl)
      refine ⟨filter_names f h2, filter_noParens f (.inr h3), ?_, fun _ => hq.count f rfl⟩
      intro r hr
      rw [hq.table, pg_seenDb_rows hlk] at hr
      obtain ⟨r', -, rfl⟩ := List.mem_map.1 hr
      exact filter_scoped f _ _ (h1 r')

/-! ### Parameters -/

theorem condsUses_append (a b : List Cond) : condsUses (a ++ b) = condsUses a ++ condsUses b := by
  induction a with
  | nil => rfl
  | cons c a ih => simp [condsUses, ih]

/-- Each parameter, counted from `n`, has a value that fits the column, and each value is that of a
parameter. -/
def Fits (m : TModel) (n : Nat) (us : List (Nat × String)) (vs : List SqlVal) : Prop :=
  (∀ v ∈ vs, ∃ ty, PgValFits ty v) ∧
  (∀ p ∈ us, ∃ j v ty, p.1 = n + j ∧ vs[j]? = some v ∧ HasField m p.2 ty ∧ PgValFits ty v) ∧
  ∀ j, j < vs.length → ∃ f, (n + j, f) ∈ us

theorem fits_append {n : Nat} {us us' : List (Nat × String)} {vs vs' : List SqlVal} (h : Fits m n us vs)
    (h' : Fits m (n + vs.length) us' vs') : Fits m n (us ++ us') (vs ++ vs') := by
  refine ⟨fun v hv => ?_, fun p hp => ?_, fun j hj => ?_⟩
  · rcases List.mem_append.1 hv with hv | hv
    · exact h.1 v hv
    · exact h'.1 v hv
  · rcases List.mem_append.1 hp with hp | hp
    · obtain ⟨j, v, ty, h1, h2, h3⟩ := h.2.1 p hp
      refine ⟨j, v, ty, h1, ?_, h3⟩
      rw [List.getElem?_append_left (List.getElem?_eq_some_iff.1 h2).1]
      exact h2
    · obtain ⟨j, v, ty, h1, h2, h3⟩ := h'.2.1 p hp
      refine ⟨vs.length + j, v, ty, by omega, ?_, h3⟩
      rw [List.getElem?_append_right (by omega)]
      simpa using h2
  · by_cases hlt : j < vs.length
    · obtain ⟨f, hf⟩ := h.2.2 j hlt
      exact ⟨f, List.mem_append_left _ hf⟩
    · rw [List.length_append] at hj
      obtain ⟨f, hf⟩ := h'.2.2 (j - vs.length) (by omega)
      refine ⟨f, List.mem_append_right _ ?_⟩
      rwa [show n + vs.length + (j - vs.length) = n + j by omega] at hf

theorem fits_val {f : String} {ty : FieldTy} (hf : HasField m f ty) {v : SqlVal} (hv : PgValFits ty v) (n : Nat) :
    Fits m n (beside (.col none f) (astVal v n)) (valsVal v) := by
  cases v <;> simp only [astVal, valsVal, beside] <;> refine ⟨fun w hw => ?_, fun p hp => ?_, fun j hj => ?_⟩ <;>
    first
    | (cases hj; done)
    | (cases Nat.lt_one_iff.1 hj; exact ⟨f, List.mem_singleton_self _⟩)
    | (cases hw; done)
    | (cases hp; done)
    | (rw [List.mem_singleton.1 hw]; exact ⟨ty, hv⟩)
    | (rw [List.mem_singleton.1 hp]; exact ⟨0, _, ty, rfl, rfl, hf, hv⟩)

theorem fits_vals {f : String} {ty : FieldTy} (hf : HasField m f ty) : ∀ (vs : List SqlVal) (n : Nat),
    (∀ v ∈ vs, PgValFits ty v) → Fits m n ((astVals vs n).flatMap (beside (.col none f))) (valsVals vs)
  | [], n, _ => ⟨fun _ h => (by cases h), fun _ h => (by cases h), fun _ h => (by cases h)⟩
  | v :: vs, n, h => by
    simp only [astVals, List.flatMap_cons, valsVals]
    refine fits_append (fits_val hf (h v (List.mem_cons_self ..)) n) ?_
    have : cntVal v = (valsVal v).length := by cases v <;> rfl
    rw [← this]
    exact fits_vals hf vs _ fun w hw => h w (List.mem_cons_of_mem _ hw)

theorem fits_atom (a : FAtom) (h : PgAtomFits k m a) (n : Nat) :
    Fits m n (condUses (atomOf a.toBool n)) (valsBool a.toBool) ∧
      conjs a.toBool n = [atomOf a.toBool n] ∧ disjs a.toBool n = [.all [atomOf a.toBool n]] := by
  cases a with
  | cmp op f v =>
    obtain ⟨-, ty, hf, hv, -⟩ := h
    simp only [FAtom.toBool, fieldCmp]
    refine ⟨?_, by simp only [conjs], by simp only [disjs]⟩
    simp only [atomOf, astCmp, valsBool]
    by_cases hn : isNullTest op (.val v) = true
    · rw [if_pos hn, if_pos hn]
      split <;> exact ⟨fun _ h => (by cases h), fun _ h => (by simp [condUses] at h), fun _ h => (by cases h)⟩
    · rw [if_neg hn, if_neg hn]
      simp only [condUses, astExpr, valsExpr]
      exact fits_val hf hv n
  | isIn f vs =>
    obtain ⟨-, ty, hf, hv⟩ := h
    simp only [FAtom.toBool, fieldIsIn]
    refine ⟨?_, by simp only [conjs], by simp only [disjs]⟩
    simp only [atomOf, condUses, valsBool]
    exact fits_vals hf vs n hv
  | _ => exact h.elim

theorem fits_and : ∀ (a : FAnd), PgAndFits k m a → NeedsNoParens false .and a.toBool → ∀ (n : Nat),
    Fits m n (condsUses (conjs a.toBool n)) (valsBool a.toBool) ∧
      condsUses (disjs a.toBool n) = condsUses (conjs a.toBool n)
  | .one a, h, _, n => by
    obtain ⟨h1, h2, h3⟩ := fits_atom a h n
    simp only [FAnd.toBool]
    rw [h2, h3]
    simp only [condsUses, condUses, List.append_nil]
    exact ⟨h1, trivial⟩
  | .and l r, h, hn, n => by
    simp only [FAnd.toBool, NeedsNoParens] at hn
    obtain ⟨-, hn1, hn2⟩ := hn
    have hl := fits_and l h.1 hn1 n
    obtain ⟨h1, h2, h3⟩ := fits_atom r h.2 (n + cntBool l.toBool)
    have hc : cntBool l.toBool = (valsBool l.toBool).length := (valsBool_len _ (noPlaceholder_of _ _ hn1)).symm
    simp only [FAnd.toBool, conjs, disjs, condsUses_append, valsBool]
    refine ⟨fits_append hl.1 ?_, by simp [condsUses, condUses, condsUses_append]⟩
    rw [h2, ← hc]
    simpa only [condsUses, List.append_nil] using h1

theorem fits_filter : ∀ (e : FOr), PgFilterFits k m e → FilterLists e → ∀ (n : Nat),
    Fits m n (condsUses (disjs e.toBool n)) (valsBool e.toBool)
  | .one a, h, hl, n => by
    have hn : NeedsNoParens false .and a.toBool :=
      and_noParens a (.inr (by simpa only [FilterLists] using hl)) .and (by decide)
    obtain ⟨h1, h2⟩ := fits_and a h hn n
    simp only [FOr.toBool]
    rw [h2]
    exact h1
  | .or l r, h, hl, n => by
    simp only [FilterLists] at hl
    have hn : NeedsNoParens false .or l.toBool := filter_noParens l (.inr hl.1)
    have hn2 : NeedsNoParens false .and r.toBool := and_noParens r (.inr hl.2) .and (by decide)
    have hc : cntBool l.toBool = (valsBool l.toBool).length := (valsBool_len _ (noPlaceholder_of _ _ hn)).symm
    obtain ⟨h1, h2⟩ := fits_and r h.2 hn2 (n + cntBool l.toBool)
    simp only [FOr.toBool, disjs, condsUses_append, valsBool]
    refine fits_append (fits_filter l h.1 hl.1 n) ?_
    rw [h2, ← hc]
    exact h1

theorem comparable_fits {ty : FieldTy} {v : SqlVal} (h : PgValFits ty v) :
    comparable (pgType ty.sqltype) (pgTypeForVal v) = true := by
  have hself : ∀ a : PgType, comparable a a = true := by
    intro a
    unfold comparable
    split <;> simp_all
  rcases h with rfl | ⟨h1, h2, -⟩
  · simp only [pgTypeForVal, SqlVal.sqltype]
    cases pgType ty.sqltype <;> rfl
  · have : pgTypeForVal v = pgType ty.sqltype := by
      unfold pgTypeForVal
      rw [h1]
      split
      · next e => cases e
      · next e => exact absurd (Option.some.inj e) h2
      · next e => rw [Option.some.inj e]
    rw [this]
    exact hself _

theorem send_fits {ty : FieldTy} {v : SqlVal} (h : PgValFits ty v) : ∃ a, pgSend v = .ok a ∧ seen a = toDb v := by
  rcases h with rfl | ⟨h1, -, h3⟩
  · exact ⟨.null, rfl, rfl⟩
  · obtain ⟨a, g1, g2⟩ := Props.pg_round_trip_partial v ty.sqltype (.inr h1) h3
    refine ⟨a, ?_, by rw [seen, g2]⟩
    unfold pgSend
    rw [h1]
    exact g1

theorem sendAll_fits : ∀ {vs : List SqlVal}, (∀ v ∈ vs, ∃ ty, PgValFits ty v) →
    ∃ ps, pgSendAll vs = .ok ps ∧ ps.map seen = vs.map toDb
  | [], _ => ⟨[], rfl, rfl⟩
  | v :: vs, h => by
    obtain ⟨ty, hv⟩ := h v (List.mem_cons_self ..)
    obtain ⟨a, h1, h2⟩ := send_fits hv
    obtain ⟨ps, h3, h4⟩ := sendAll_fits fun w hw => h w (List.mem_cons_of_mem _ hw)
    exact ⟨a :: ps, by simp only [pgSendAll, h1, h3, Conv.bind], by simp only [List.map_cons, h2, h4]⟩

/-! ### Results -/

theorem pg_load_params (kw : String → Bool) (cols : List String) (q : Query) :
    (q.load .pg kw cols).params = match q.filter with | none => [] | some e => valsBool e :=
  whereClause_vals _ _

/-- Whether the filter is true of a row. -/
def chosen (k : PgConn) (u : PDb) (t : Table) (q : Query) (r : PRow) : Bool :=
  match q.filter with
  | none => true
  | some b => decide (boolValue k.server.rel (seenDb u) (seenRow t r) b = some true)

/-- The order of rows. -/
def pgBefore (k : PgConn) (t : Table) (sort : List Order) (r r' : PRow) : Prop :=
  Sql.Before k.server.le (sort.map dirOf) (seenRow t r) (seenRow t r')

theorem slice_page {α : Type} (l o : Option Nat) (xs : List α) : Sql.slice l o xs = page l o xs := by
  unfold Sql.slice page
  cases l <;> cases o <;> simp

/-- The rows a query returns. -/
theorem pg_rows_iff (hm : PgModelOk k m pk) {t : Table} (hlk : u.lookup m.table = some t)
    (ht : PgTableFits m pk t) {q : Query} {e : Option FOr} (hq : PgSendable k m q e) :
    ∃ ps, pgSendAll (q.load .pg k.kw m.columns).params = .ok ps ∧ ∀ out,
      (QueryRows k.server k.reserved u (q.load .pg k.kw m.columns).text
        ((q.load .pg k.kw m.columns).params.map pgTypeForVal) ps out ↔
      ∃ all : List PRow, all.Perm (t.rows.filter (chosen k u t q)) ∧ all.Pairwise (pgBefore k t q.sort) ∧
        out = some ((page (count q.limit) (count q.offset) all).map fun r => m.columns.map r)) := by
  have hok := pg_queryOK hm hlk ht hq
  have hfit : Fits m 0 (uses (.select ⟨m.columns, q.table, q.filter.map fun e => .any (disjs e 0),
      q.sort.map dirOf, q.limit.map (·.toInt), q.offset.map (·.toInt)⟩))
      (match q.filter with | none => [] | some e => valsBool e) := by
    rw [hq.filter]
    cases e with
    | none => exact ⟨fun _ h => (by cases h), fun _ h => (by simp [uses] at h), fun _ h => (by cases h)⟩
    | some f =>
      simp only [Option.map_some, uses, condUses]
      exact fits_filter f (hq.fits f rfl) (filter_ok hm ht (seenDb u) f (hq.fits f rfl)).2.2 0
  obtain ⟨ps, hps, hseen⟩ := sendAll_fits hfit.1
  rw [pg_load_params]
  refine ⟨ps, hps, fun out => ?_⟩
  have hparse := parse_query (b := .pg) hm.covers hok q.limit q.offset (by simp)
  have hsel : Sql.selectTrue (fun r => Sql.whereTrue k.server.rel (seenDb u) (ps.map seen) q.table
      (q.filter.map fun e => .any (disjs e 0)) (seenRow t r)) t.rows = some (t.rows.filter (chosen k u t q)) := by
    cases hf : q.filter with
    | none =>
      refine (selectTrue_ok (q := fun _ => some true) (fun _ _ => rfl)).trans ?_
      congr 1
      exact List.filter_congr fun r _ => by simp [chosen, hf]
    | some b =>
      rw [hf] at hseen
      refine (selectTrue_ok (q := fun r => boolValue k.server.rel (seenDb u) (seenRow t r) b) ?_).trans ?_
      rotate_left
      · congr 1
        exact List.filter_congr fun r _ => by simp only [chosen, hf]
      · intro r hr
        rw [hseen]
        obtain ⟨-, h2, h3, -⟩ := hok.filter b hf
        refine evalDisjs b h2 0 _ _ [] [] (h3 _ ?_) (seg_all _)
        rw [hq.table, pg_seenDb_rows hlk]
        exact List.mem_map_of_mem hr
  unfold QueryRows
  rw [show Sql.parseStmt false (Sql.lex k.reserved (q.load .pg k.kw m.columns).text) = _ from hparse]
  simp only
  rw [hq.table, hlk]
  simp only
  rw [if_pos]
  · rw [← hq.table, hsel, readCount_nonneg hq.limit, readCount_nonneg hq.offset]
    simp only
    rw [if_pos]
    · simp only [slice_page]
      exact Iff.rfl
    · rw [Bool.and_eq_true, List.all_eq_true, List.all_eq_true]
      refine ⟨fun c hc => ?_, fun c hc => ?_⟩
      · obtain ⟨x, hx, rfl⟩ := List.mem_map.1 hc
        rw [List.contains_iff_mem]
        exact (pg_columns_in ht x hx).1
      · obtain ⟨x, hx, rfl⟩ := List.mem_map.1 hc
        obtain ⟨ty, hty⟩ := hq.sort x hx
        exact pg_visible ht hty (fun _ => .null)
  · rw [List.all_eq_true]
    intro p hp
    rw [← hq.table] at hp
    obtain ⟨j, v, ty, h1, h2, h3, h4⟩ := hfit.2.1 p hp
    rw [Nat.zero_add] at h1
    have e1 := pg_colType ht h3
    simp only [e1, h1, List.getElem?_map, h2, Option.map_some]
    exact comparable_fits h4

/-! ### Objects of rows -/

/-- A table of objects. -/
structure PgTabled (k : PgConn) (m : TModel) (pk : TField) (u : PDb) (st : Objects m) (t : Table) : Prop where
  ready : PgReady k m pk u
  lookup : u.lookup m.table = some t
  fits : PgTableFits m pk t
  row : ∀ r ∈ t.rows, ∃ id o, PgRowIs m pk st r id o
  obj : ∀ id o, PgHas pk st id o → ∃ r ∈ t.rows, PgRowIs m pk st r id o

theorem pg_tabled {st : Objects m} (h : PgReady k m pk u) (hs : PgKeepsObjs m pk u st) :
    ∃ t, PgTabled k m pk u st t := by
  obtain ⟨t, h1, h2, h3⟩ := hs
  obtain ⟨t', h4, h5⟩ := h.table
  rw [h1] at h4
  cases h4
  exact ⟨t, h, h1, h5, h2, h3⟩

theorem pg_rows_unique {st : Objects m} {t : Table} (hT : PgTabled k m pk u st t) :
    t.rows.Pairwise fun r s => r pk.name ≠ s pk.name := by
  obtain ⟨ty, hty, -⟩ := hT.ready.model.keyType
  obtain ⟨h1, h2⟩ := valid_table hT.ready.valid hT.lookup
  exact (keys_of hT.ready.model hT.ready.laws hT.fits h1 h2 hty).unique

theorem pg_rowIs_obj (hm : PgModelOk k m pk) {st : Objects m} {r : PRow} {id id' : SqlVal}
    {o o' : ObjVals m.fields} (h : PgRowIs m pk st r id o) (h' : PgRowIs m pk st r id' o') : id = id' ∧ o = o' := by
  have := (pg_rowKey hm h).inj (pg_rowKey hm h')
  subst this
  have := h.has.2.symm.trans h'.has.2
  exact ⟨rfl, Option.some.inj this⟩

theorem pg_fromRows_cons {r : List PgVal} {rs : List (List PgVal)} {o : ObjVals m.fields}
    {os : List (ObjVals m.fields)} (h1 : m.pgFromRows k [r] = .ok [o]) (h2 : m.pgFromRows k rs = .ok os) :
    m.pgFromRows k (r :: rs) = .ok (o :: os) := by
  simp only [TModel.pgFromRows] at h1 ⊢
  rw [h2]
  split at h1
  · cases h1
  · next c hc =>
    split at h1
    · cases h1
    · next o' ho' => cases h1; rfl

theorem pg_fromRows_match {st : Objects m} {rows : List PRow} {l : List (SqlVal × ObjVals m.fields)}
    (h : AllMatch (fun r p => PgRowIs m pk st r p.1 p.2) rows l) :
    ∃ os, m.pgFromRows k (rows.map fun r => m.columns.map r) = .ok os ∧
      AllMatch (fun p o' => EqualFields m.fields p.2 o') l os := by
  induction h with
  | nil => exact ⟨[], rfl, .nil⟩
  | cons hr _ ih =>
    obtain ⟨os, h1, h2⟩ := ih
    obtain ⟨o', h3, h4⟩ := fromRows_one (k := k) hr.proper hr.whole hr.holds
    exact ⟨o' :: os, pg_fromRows_cons h3 h1, .cons h4 h2⟩

theorem pg_ids_nodup (hm : PgModelOk k m pk) {st : Objects m} {rows : List PRow}
    (hu : rows.Pairwise fun r s => r pk.name ≠ s pk.name)
    {l : List (SqlVal × ObjVals m.fields)} (h : AllMatch (fun r p => PgRowIs m pk st r p.1 p.2) rows l) :
    (l.map (·.1)).Nodup := by
  have := match_pairwise (R := fun r (p : SqlVal × ObjVals m.fields) => PgRowIs m pk st r p.1 p.2)
    (P := fun r s => r pk.name ≠ s pk.name) (Q := fun p q => p.1 ≠ q.1)
    (fun r r' p p' g1 g2 g3 e => g3 (by
      have h1 := pg_rowKey hm g1
      have h2 := pg_rowKey hm g2
      rw [e] at h1
      exact h1.det hm h2)) h hu
  exact List.pairwise_map.2 this

theorem pg_before_precedes (hm : PgModelOk k m pk) {st : Objects m} {t : Table} {r r' : PRow}
    {id id' : SqlVal} {o o' : ObjVals m.fields} (h : PgRowIs m pk st r id o) (h' : PgRowIs m pk st r' id' o') :
    ∀ (sort : List Order), (∀ c ∈ sort, ∃ ty, HasField m c.column ty) →
      pgBefore k t sort r r' → PgPrecedes k m sort o o'
  | [], _, _ => trivial
  | c :: rest, hf, hb => by
    obtain ⟨ty, hty⟩ := hf c (List.mem_cons_self ..)
    obtain ⟨x, h1, h2⟩ := pg_column hm h hty
    obtain ⟨y, g1, g2⟩ := pg_column hm h' hty
    simp only [pgBefore, List.map_cons, Sql.Before, dirOf, seenRow, h2, g2] at hb
    refine ⟨x, y, h1, g1, hb.1, fun e => ?_⟩
    exact pg_before_precedes (t := t) hm h h' rest (fun c hc => hf c (List.mem_cons_of_mem _ hc)) (hb.2 e)

theorem chosen_iff (hm : PgModelOk k m pk) {t : Table} (ht : PgTableFits m pk t) {st : Objects m} {q : Query}
    {e : Option FOr} (hq : PgSendable k m q e) {r : PRow} {id : SqlVal} {o : ObjVals m.fields}
    (h : PgRowIs m pk st r id o) : chosen k u t q r = true ↔ ∀ f ∈ e, PgFilterMeans k m o f := by
  unfold chosen
  rw [hq.filter]
  cases e with
  | none => simp
  | some f =>
    simp only [Option.map_some, Option.mem_def, Option.some.injEq, forall_eq', decide_eq_true_eq]
    rw [filter_holds f _ _ ((filter_ok hm ht (seenDb u) f (hq.fits f rfl)).1 r)]
    exact pg_filter_means hm h f (hq.fits f rfl)

/-- The objects of these rows. -/
theorem pg_selects_of {st : Objects m} {t : Table} (hT : PgTabled k m pk u st t) {q : Query} {e : Option FOr}
    (hq : PgSendable k m q e) {all : List PRow} (h1 : all.Perm (t.rows.filter (chosen k u t q)))
    (h2 : all.Pairwise (pgBefore k t q.sort)) (lim off : Option Nat) :
    ∃ os, m.pgFromRows k ((page lim off all).map fun r => m.columns.map r) = .ok os ∧
      PgSelects k m pk st e q.sort lim off os := by
  have hm := hT.ready.model
  have hin : ∀ r ∈ all, r ∈ t.rows ∧ chosen k u t q r = true := fun r hr => List.mem_filter.1 (h1.mem_iff.1 hr)
  obtain ⟨l, hl⟩ := match_choose (R := fun r (p : SqlVal × ObjVals m.fields) => PgRowIs m pk st r p.1 p.2)
    (l := all) fun r hr => by
      obtain ⟨id, o, h⟩ := hT.row r (hin r hr).1
      exact ⟨(id, o), h⟩
  obtain ⟨os, h3, h4⟩ := pg_fromRows_match (k := k) (match_page hl lim off)
  have hu : all.Pairwise fun r s => r pk.name ≠ s pk.name :=
    (h1.pairwise_iff (fun h => Ne.symm h)).2 ((pg_rows_unique hT).filter _)
  refine ⟨os, h3, l, pg_ids_nodup hm hu hl, fun id o => ⟨fun hmem => ?_, ?_⟩, ?_, h4⟩
  · obtain ⟨r, hr, hro⟩ := match_mem_right hl _ hmem
    exact ⟨hro.has, (chosen_iff (u := u) hm hT.fits hq hro).1 (hin r hr).2⟩
  · rintro ⟨hhas, hmeans⟩
    obtain ⟨r, hr, hro⟩ := hT.obj id o hhas
    have hra : r ∈ all := h1.mem_iff.2 (List.mem_filter.2 ⟨hr, (chosen_iff hm hT.fits hq hro).2 hmeans⟩)
    obtain ⟨p, hp, hro'⟩ := match_mem_left hl r hra
    obtain ⟨e1, e2⟩ := pg_rowIs_obj hm hro hro'
    rw [e1, e2]
    exact hp
  · exact match_pairwise (R := fun r (p : SqlVal × ObjVals m.fields) => PgRowIs m pk st r p.1 p.2)
      (P := pgBefore k t q.sort)
      (fun r r' p p' g1 g2 g3 => pg_before_precedes hm g1 g2 q.sort hq.sort g3) hl h2

theorem pg_lengths (l : List PRow) :
    ((l.map fun r => m.columns.map r).all fun r => r.length == m.columns.length) = true := by
  simp [List.all_eq_true]

/-- What `load` returns. -/
theorem pg_load_selects {st : Objects m} {t : Table} (hT : PgTabled k m pk u st t) {q : Query} {e : Option FOr}
    (hq : PgSendable k m q e) {res : Except OpErr (List (ObjVals m.fields))} (h : m.PgLoadOut k u q res) :
    ∃ os, res = .ok os ∧ PgSelects k m pk st e q.sort (count q.limit) (count q.offset) os := by
  obtain ⟨ps, hps, hiff⟩ := pg_rows_iff hT.ready.model hT.lookup hT.fits hq
  unfold TModel.PgLoadOut at h
  rw [hps] at h
  obtain ⟨out, hout, rfl⟩ := h
  obtain ⟨all, g1, g2, rfl⟩ := (hiff out).1 hout
  simp only [pg_lengths, if_true]
  exact pg_selects_of hT hq g1 g2 _ _

/-- `load` has a result. -/
theorem pg_load_exists (hO : PgOrderLaws k.server) {st : Objects m} {t : Table} (hT : PgTabled k m pk u st t)
    {q : Query} {e : Option FOr} (hq : PgSendable k m q e) : ∃ res, m.PgLoadOut k u q res := by
  obtain ⟨ps, hps, hiff⟩ := pg_rows_iff hT.ready.model hT.lookup hT.fits hq
  obtain ⟨rows, h1, h2⟩ := exists_sorted hO.total hO.trans (q.sort.map dirOf)
    ((t.rows.filter (chosen k u t q)).map (seenRow t))
  obtain ⟨all, g1, rfl⟩ := perm_of_map h1 _ rfl
  unfold TModel.PgLoadOut
  rw [hps]
  exact ⟨_, _, (hiff _).2 ⟨all, g1, (List.pairwise_map (f := seenRow t)).1 h2, rfl⟩, rfl⟩

end Butane.PgP
