/-
What saving and deleting an object does to a PostgreSQL database.
-/
import Verif.Proofs.PgRows
import Verif.Proofs.SqliteSucceeds

namespace Butane.PgP
open Butane Butane.PgData Spec
open Butane.Sql (Operand Cond SStmt)

variable {S : Server} {k : PgConn} {m : TModel} {pk : TField}

/-! ### The model, independently of the database -/

/-- A connection of the other kind, for what is known of models. -/
def other (k : PgConn) : SqliteConn :=
  ⟨⟨fun _ _ => none, fun _ => ⟨0⟩⟩, ⟨k.server.rel, k.server.le, fun _ => none⟩, k.kw, k.reserved,
    ⟨id, some, fun _ => "", fun _ => none, fun _ => "", fun _ => none⟩, k.parseUuid⟩

theorem model_ok (hm : PgModelOk k m pk) : TModelOk (other k) m pk := by
  refine ⟨hm.covers, hm.excluded, hm.table, hm.table_ne, hm.names, hm.distinct, hm.key, hm.plain, ?_, hm.auto,
    hm.autoInt⟩
  obtain ⟨ty, h1, h2, h3, h4⟩ := hm.keyType
  cases hs : ty.sqltype with
  | real => exact absurd hs h2
  | custom n => exact absurd hs (Props.field_not_custom ty n)
  | _ => exact ⟨ty, _, h1, by rw [hs]; rfl, by decide, h4⟩

theorem keySql_whole {n : String} {id : SqlVal} : ∀ {fs : List TField} (o : ObjVals fs),
    AllWholeMicros fs o → keySql n fs o = .ok id → ¬ SubMicro id
  | [], _, _, h => by cases h
  | ⟨_, _, none⟩ :: fs, (_, os), hw, h => keySql_whole (n := n) os hw h
  | ⟨n', _, some t⟩ :: fs, (x, os), hw, h => by
    simp only [keySql] at h
    split at h
    · exact Props.field_whole_micros t x id hw.1 h
    · exact keySql_whole (n := n) os hw.2 h

theorem pg_keyLike (hm : PgModelOk k m pk) {o : ObjVals m.fields} (ho : Storable m.fields o)
    (hw : AllWholeMicros m.fields o) {id : SqlVal} (h : keySql pk.name m.fields o = .ok id) :
    PgKeyLike pk id := ⟨keyLike_of_storable (model_ok hm) ho h, keySql_whole o hw h⟩

/-- Among the values of the columns is the key's. -/
theorem keySql_holds {H : String × SqlType → SqlVal → Prop} {n : String} {id : SqlVal} :
    ∀ {fs : List TField} (o : ObjVals fs) (vals : List SqlVal),
    pushValues (fun _ => true) fs o = .ok vals → AllMatch H (tcolumns (fun f => !f.isAuto) fs) vals →
    keySql n fs o = .ok id → (∀ f ∈ fs, f.isAuto = false) → (fs.map (·.name)).Nodup →
    ∀ f ∈ fs, f.name = n → ∀ ty, f.ty = some ty → H (n, ty.sqltype) id
  | [], _, _, _, _, h, _, _, _, _, _, _, _ => by cases h
  | ⟨n', p, none⟩ :: fs, (x, os), vals, h1, h2, h3, ha, hn, f, hf, e, ty, hty => by
    simp only [List.map_cons, List.nodup_cons] at hn
    simp only [pushValues] at h1
    simp only [keySql] at h3
    simp only [tcolumns] at h2
    rcases List.mem_cons.1 hf with rfl | hf
    · cases hty
    · exact keySql_holds os vals h1 h2 h3 (fun f hf => ha f (List.mem_cons_of_mem _ hf)) hn.2 f hf e ty hty
  | ⟨n', p, some t⟩ :: fs, (x, os), vals, h1, h2, h3, ha, hn, f, hf, e, ty, hty => by
    simp only [List.map_cons, List.nodup_cons] at hn
    have h0 := ha _ (List.mem_cons_self ..)
    simp only [pushValues, h0, Bool.not_false, Bool.and_true, ↓reduceIte] at h1
    cases e1 : t.toSql x <;> rw [e1] at h1 <;> simp only [Conv.bind, reduceCtorEq] at h1
    cases e2 : pushValues (fun _ => true) fs os <;> rw [e2] at h1 <;>
      simp only [Conv.bind, reduceCtorEq] at h1
    cases h1
    simp only [tcolumns, h0, Bool.not_false, ↓reduceIte] at h2
    cases h2 with
    | cons h2 h2r =>
      simp only [keySql] at h3
      rcases List.mem_cons.1 hf with rfl | hf
      · simp only at e
        cases hty
        rw [if_pos e, e1] at h3
        cases h3
        rw [← e]
        exact h2
      · rw [if_neg (fun h => hn.1 (List.mem_map.2 ⟨f, hf, e.trans h.symm⟩))] at h3
        exact keySql_holds os _ e2 h2r h3 (fun f hf => ha f (List.mem_cons_of_mem _ hf)) hn.2 f hf e ty hty

/-- Putting the key into an object without one. -/
theorem initKey_new {parse : String → Option (Vector UInt8 16)} {n : String} {w : SqlVal}
    {t : FieldTy} {y : t.Val} (hw : t.fromSql parse w = .ok y) {v : SqlVal} (hv : t.toSql y = .ok v)
    (hp : Proper t y) (hmic : WholeMicros t y) :
    ∀ {fs : List TField} (o : ObjVals fs), (∀ f ∈ fs, f.isAuto = true → f.name = n) →
    (∃ f ∈ fs, f.name = n ∧ f.ty = some (.autoPk t)) → (fs.map (·.name)).Nodup →
    keyValid n fs o = false → Storable fs o → AllWholeMicros fs o →
    ∃ o', initKey parse n w fs o = .ok o' ∧ SameButAuto fs o o' ∧ Storable fs o' ∧ AllWholeMicros fs o' ∧
      keyValid n fs o' = true ∧ keySql n fs o' = .ok v ∧
      ∀ keep, pushValues keep fs o' = pushValues keep fs o
  | [], _, _, ⟨f, hf, _⟩, _, _, _, _ => by cases hf
  | ⟨n', p, ty⟩ :: fs, (x, os), ha, ⟨f, hf, he, hty⟩, hn, hval, hst, hnn => by
    simp only [List.map_cons, List.nodup_cons] at hn
    by_cases e : n' = n
    · have hfe : f = ⟨n', p, ty⟩ := by
        rcases List.mem_cons.1 hf with h | h
        · exact h
        · exact absurd (List.mem_map.2 ⟨f, h, he.trans e.symm⟩) hn.1
      subst hfe
      simp only at hty
      subst hty
      subst e
      simp only [keyValid, ↓reduceIte] at hval
      cases x with
      | some y => simp at hval
      | none =>
        refine ⟨(some y, os), ?_, sameButAuto_refl os, ⟨?_, hst.2⟩, ⟨?_, hnn.2⟩, ?_, ?_, ?_⟩
        · simp only [initKey, ↓reduceIte, FieldTy.fromSql, hw, Conv.bind]
        · rintro _ ⟨⟩; exact hp
        · rintro _ ⟨⟩; exact hmic
        · simp [keyValid]
        · simp only [keySql, ↓reduceIte]
          exact hv
        · intro keep
          simp [pushValues, TField.isAuto]
    · have hf' : f ∈ fs := by
        rcases List.mem_cons.1 hf with h | h
        · subst h; exact absurd he e
        · exact h
      have hna : (TField.mk n' p ty).isAuto = false := by
        cases hauto : (TField.mk n' p ty).isAuto with
        | false => rfl
        | true => exact absurd (ha _ (List.mem_cons_self ..) hauto) e
      have hval' : keyValid n fs os = false := by
        cases ty with
        | none => simpa only [keyValid, if_neg e] using hval
        | some ty =>
          cases ty <;> simpa only [keyValid, if_neg e] using hval
      have hst' : Storable fs os := by
        cases ty with
        | none => exact hst
        | some ty => cases ty <;> exact hst.2
      have hnn' : AllWholeMicros fs os := by
        cases ty with
        | none => exact hnn
        | some ty => exact hnn.2
      obtain ⟨os', h1, h2, h3, h4, h5, h6, h7⟩ := initKey_new hw hv hp hmic (n := n) os
        (fun f hf => ha f (List.mem_cons_of_mem _ hf)) ⟨f, hf', he, hty⟩ hn.2 hval' hst' hnn'
      refine ⟨(x, os'), ?_, ?_, ?_, ?_, ?_, ?_, ?_⟩
      · cases ty with
        | none => simp only [initKey, h1, Conv.bind]
        | some ty => cases ty <;> simp only [initKey, h1, Conv.bind, if_neg e]
      · cases ty with
        | none => exact ⟨rfl, h2⟩
        | some ty => cases ty <;> first | exact ⟨rfl, h2⟩ | exact h2
      · cases ty with
        | none => exact h3
        | some ty => cases ty <;> exact ⟨hst.1, h3⟩
      · cases ty with
        | none => exact h4
        | some ty => exact ⟨hnn.1, h4⟩
      · cases ty with
        | none => simpa only [keyValid, if_neg e] using h5
        | some ty => cases ty <;> simpa only [keyValid, if_neg e] using h5
      · cases ty with
        | none => simpa only [keySql] using h6
        | some ty => simpa only [keySql, if_neg e] using h6
      · intro keep
        cases ty with
        | none => simpa only [pushValues] using h7 keep
        | some ty => simp only [pushValues, h7 keep]

/-- A number of a sequence, in a field it fits in. -/
theorem pg_new_key {t : FieldTy} {I : IntType t} (hI : IsIntType I)
    (parse : String → Option (Vector UInt8 16)) {j : Int64} (hlo : I.lo ≤ j.toInt) (hhi : j.toInt ≤ I.hi)
    {p : PgVal} (hp : number j (pgType t.sqltype) = some p) :
    ∃ y v, t.fromSql parse (fromPg p) = .ok y ∧ t.toSql y = .ok v ∧ toPg (pgType t.sqltype) v = .ok p ∧
      v.sqltype = some t.sqltype ∧ fromPg p = v := by
  obtain ⟨w, y, v, n1, n2, n3, n4, n5, -⟩ := new_key hI (c := ⟨id, some, fun _ => "", fun _ => none,
    fun _ => "", fun _ => none⟩) parse hlo hhi
  have hpw : fromPg p = w ∧ toPg (pgType t.sqltype) v = .ok p ∧ fromPg p = v := by
    have h32 : ∀ {i : Int32}, i.toInt64 = j → i = j.toInt32 := by
      rintro i rfl
      simp
    cases hI
    case i64 =>
      cases hp
      cases n1
      cases v <;> simp only [SqlVal.sqltype, FieldTy.sqltype, reduceCtorEq, Option.some.injEq] at n5
      cases n4
      exact ⟨rfl, rfl, rfl⟩
    case u32 =>
      cases hp
      cases n1
      cases v <;> simp only [SqlVal.sqltype, FieldTy.sqltype, reduceCtorEq, Option.some.injEq] at n5
      cases n4
      exact ⟨rfl, rfl, rfl⟩
    all_goals
      simp only [FieldTy.sqltype, pgType, number] at hp
      split at hp
      · cases hp
        cases n1
        cases v <;> simp only [SqlVal.sqltype, FieldTy.sqltype, reduceCtorEq, Option.some.injEq] at n5
        simp only [toSqlite, Conv.ok.injEq, SqliteVal.integer.injEq] at n4
        rw [h32 n4]
        exact ⟨rfl, rfl, rfl⟩
      · cases hp
  exact ⟨y, v, by rw [hpw.1]; exact n2, n3, hpw.2.1, n5, hpw.2.2⟩

/-! ### Parameters -/

theorem bind_holds {ty : Nat → Option PgType} : ∀ {cs : List (String × SqlType)} {vals : List SqlVal}
    {ps : List PgVal} {i : Nat}, (cs.map (·.1)).Nodup → vals.length = cs.length →
    (∀ (j : Nat) (c : String × SqlType), cs[j]? = some c → ty (i + j) = some (pgType c.2)) → pgBind ty i vals = .ok ps →
    ps.length = cs.length ∧ ∀ row : PRow, (∀ c v, ((cs.map (·.1)).zip ps).lookup c = some v → row c = v) →
      AllMatch (PgHolds row) cs vals
  | [], [], ps, i, _, _, _, h => by
    cases h
    exact ⟨rfl, fun _ _ => .nil⟩
  | c :: cs, v :: vals, ps, i, hn, hl, hty, h => by
    simp only [List.map_cons, List.nodup_cons] at hn
    simp only [pgBind] at h
    have h0 := hty 0 c rfl
    rw [Nat.add_zero] at h0
    rw [h0] at h
    simp only at h
    cases e1 : toPg (pgType c.2) v <;> rw [e1] at h <;> simp only [Conv.bind, reduceCtorEq] at h
    next a =>
    cases e2 : pgBind ty (i + 1) vals <;> rw [e2] at h <;> simp only [Conv.bind, reduceCtorEq] at h
    next as =>
    cases h
    obtain ⟨g1, g2⟩ := bind_holds hn.2 (by simpa using hl) (fun j d hd => by
      have := hty (j + 1) d (by simpa using hd)
      rwa [show i + (j + 1) = i + 1 + j by omega] at this) e2
    refine ⟨by simp [g1], fun row hrow => .cons ?_ (g2 row fun d v' hv' => hrow d v' ?_)⟩
    · simp only [PgHolds, e1, Conv.ok.injEq]
      exact (hrow c.1 a (by simp)).symm
    · simp only [List.map_cons, List.zip_cons_cons, List.lookup_cons]
      have hne : (d == c.1) = false := by
        simp only [beq_eq_false_iff_ne, ne_eq]
        rintro rfl
        exact hn.1 (lookup_zip_mem hv')
      rw [hne]
      exact hv'

theorem bind_append {ty : Nat → Option PgType} {v : SqlVal} : ∀ {vals : List SqlVal} {qs : List PgVal} {i : Nat},
    pgBind ty i (vals ++ [v]) = .ok qs →
    ∃ ps t a, pgBind ty i vals = .ok ps ∧ ty (i + vals.length) = some t ∧ toPg t v = .ok a ∧ qs = ps ++ [a]
  | [], qs, i, h => by
    simp only [List.nil_append, pgBind] at h
    split at h
    · cases h
    · next t ht =>
      cases e1 : toPg t v <;> rw [e1] at h <;> simp only [Conv.bind, reduceCtorEq] at h
      cases h
      exact ⟨[], t, _, rfl, ht, e1, rfl⟩
  | w :: vals, qs, i, h => by
    simp only [List.cons_append, pgBind] at h
    split at h
    · cases h
    · next t ht =>
      cases e1 : toPg t w <;> rw [e1] at h <;> simp only [Conv.bind, reduceCtorEq] at h
      cases e2 : pgBind ty (i + 1) (vals ++ [v]) <;> rw [e2] at h <;> simp only [Conv.bind, reduceCtorEq] at h
      cases h
      obtain ⟨ps, t', a, g1, g2, g3, rfl⟩ := bind_append e2
      refine ⟨_ :: ps, t', a, ?_, ?_, g3, rfl⟩
      · simp only [pgBind, ht, e1, g1, Conv.bind]
      · rwa [show i + (w :: vals).length = i + 1 + vals.length by simp; omega]

theorem bind_append_of {ty : Nat → Option PgType} {v : SqlVal} {t : PgType} {a : PgVal} :
    ∀ {vals : List SqlVal} {ps : List PgVal} {i : Nat}, pgBind ty i vals = .ok ps →
    ty (i + vals.length) = some t → toPg t v = .ok a → pgBind ty i (vals ++ [v]) = .ok (ps ++ [a])
  | [], ps, i, h, h2, h3 => by
    cases h
    rw [List.length_nil, Nat.add_zero] at h2
    simp [pgBind, h2, h3, Conv.bind]
  | w :: vals, ps, i, h, h2, h3 => by
    simp only [pgBind] at h
    split at h
    · cases h
    · next t' ht =>
      cases e1 : toPg t' w <;> rw [e1] at h <;> simp only [Conv.bind, reduceCtorEq] at h
      cases e2 : pgBind ty (i + 1) vals <;> rw [e2] at h <;> simp only [Conv.bind, reduceCtorEq] at h
      cases h
      have := bind_append_of e2 (by rwa [show i + 1 + vals.length = i + (w :: vals).length by simp; omega]) h3
      simp only [List.cons_append, pgBind, ht, e1, this, Conv.bind]

theorem bind_ok {ty : Nat → Option PgType} : ∀ {cs : List (String × SqlType)} {vals : List SqlVal} {i : Nat},
    AllMatch (fun col v => v = .null ∨ v.sqltype = some col.2) cs vals →
    (∀ (j : Nat) (c : String × SqlType), cs[j]? = some c → ty (i + j) = some (pgType c.2)) →
    ∃ ps, pgBind ty i vals = .ok ps
  | [], [], i, _, _ => ⟨[], rfl⟩
  | c :: cs, v :: vals, i, .cons h1 h2, hty => by
    obtain ⟨ps, hps⟩ := bind_ok (i := i + 1) h2 (fun j d hd => by
      have := hty (j + 1) d (by simpa using hd)
      rwa [show i + (j + 1) = i + 1 + j by omega] at this)
    have h0 := hty 0 c rfl
    rw [Nat.add_zero] at h0
    have ha : ∃ a, toPg (pgType c.2) v = .ok a := by
      rcases h1 with rfl | h1
      · exact ⟨_, rfl⟩
      · cases v <;> simp only [SqlVal.sqltype, reduceCtorEq, Option.some.injEq] at h1 <;> rw [← h1] <;>
          exact ⟨_, by simp only [toPg, pgType, ↓reduceIte]; rfl⟩
    obtain ⟨a, ha⟩ := ha
    exact ⟨a :: ps, by simp only [pgBind, h0, ha, hps, Conv.bind]⟩

theorem insert_uses : ∀ (cols : List String) (s j : Nat),
    ((cols.zip ((List.range' s cols.length).map Operand.param)).filterMap
      fun p => assigned p.1 p.2).lookup (s + j) = cols[j]?
  | [], s, j => by simp
  | c :: cols, s, j => by
    simp only [List.length_cons, List.range'_succ, List.map_cons, List.zip_cons_cons]
    rw [List.filterMap_cons_some (f := fun p : String × Operand => assigned p.1 p.2) (b := (s, c)) rfl,
      List.lookup_cons]
    cases j with
    | zero => simp
    | succ j =>
      have : (s + (j + 1) == s) = false := by simp
      rw [this, show s + (j + 1) = s + 1 + j by omega]
      simpa using insert_uses cols (s + 1) j

theorem paramType_insert {u : PDb} {table : String} {t : Table} (hlk : u.lookup table = some t)
    {cols : List String} {conf ret} {j : Nat} {c : String} (hc : cols[j]? = some c) :
    paramType u (.insert table cols ((List.range cols.length).map .param) conf ret) j = colType t c := by
  have := insert_uses cols 0 j
  rw [Nat.zero_add, ← List.range_eq_range', hc] at this
  simp only [paramType, tableOf, hlk, uses, this]

theorem update_uses : ∀ (cols : List String) (s j : Nat),
    ((setsOf cols s).filterMap fun p => assigned p.1 p.2).lookup (s + j) = cols[j]?
  | [], s, j => by simp [setsOf]
  | c :: cols, s, j => by
    simp only [setsOf]
    rw [List.filterMap_cons_some (f := fun p : String × Operand => assigned p.1 p.2) (b := (s, c)) rfl,
      List.lookup_cons]
    cases j with
    | zero => simp
    | succ j =>
      have : (s + (j + 1) == s) = false := by simp
      rw [this, show s + (j + 1) = s + 1 + j by omega]
      simpa using update_uses cols (s + 1) j

theorem paramType_update {u : PDb} {table pkcol : String} {t : Table} (hlk : u.lookup table = some t)
    {cols : List String} {j : Nat} {c : String} (hc : (cols ++ [pkcol])[j]? = some c) :
    paramType u (.update table (setsOf cols 0) (keyCond pkcol (.param cols.length))) j = colType t c := by
  have h1 := update_uses cols 0 j
  rw [Nat.zero_add] at h1
  have h2 : (uses (.update table (setsOf cols 0) (keyCond pkcol (.param cols.length)))).lookup j = some c := by
    simp only [uses, List.lookup_append, h1]
    by_cases hj : j < cols.length
    · rw [List.getElem?_append_left hj] at hc
      simp [hc]
    · have hl : j < (cols ++ [pkcol]).length := (List.getElem?_eq_some_iff.1 hc).1
      have : j = cols.length := by simp at hl; omega
      subst this
      simp at hc
      subst hc
      simp [keyCond, condUses, condsUses, beside]
  simp only [paramType, tableOf, hlk, h2]

theorem paramType_delete {u : PDb} {table pkcol : String} {t : Table} (hlk : u.lookup table = some t) :
    paramType u (.delete table (keyCond pkcol (.param 0))) 0 = colType t pkcol := by
  simp [paramType, tableOf, hlk, uses, keyCond, condUses, condsUses, beside]

/-- The value a key is compared with, in a statement that declares no types. -/
theorem key_bind (hm : PgModelOk k m pk) {u : PDb} {table : String} {t : Table} (hlk : u.lookup table = some t)
    (ht : PgTableFits m pk t) {id : SqlVal} {a : PgVal} (hid : IsKey pk id a) :
    ∃ ps, pgBind (paramType u (.delete table (keyCond pk.name (astVal id 0)))) 0 (valsVal id) = .ok ps ∧
      ∀ e, Sql.evalOperand (ps.map seen) e (astVal id 0) = some (seen a) := by
  obtain ⟨d, ty, h1, h2, h3, h4, h5, h6, h7, h8, -⟩ := pg_key_column hm ht
  have hst := hid.stored ty h5
  rw [← h6] at hst
  have hb := hid.back
  have hone : ∀ v, id = v → valsVal v = [v] → astVal v 0 = .param 0 → ∃ ps,
      pgBind (paramType u (.delete table (keyCond pk.name (astVal id 0)))) 0 (valsVal id) = .ok ps ∧
      ∀ e, Sql.evalOperand (ps.map seen) e (astVal id 0) = some (seen a) := by
    rintro v rfl e1 e2
    rw [e1, e2]
    refine ⟨[a], ?_, fun e => rfl⟩
    simp only [pgBind, paramType_delete hlk, h8, hst, Conv.bind]
  cases id with
  | int i => exact ⟨[], rfl, fun e => by simp [astVal, Sql.evalOperand, seen, hb, Sql.toDb]⟩
  | bigInt i => exact ⟨[], rfl, fun e => by simp [astVal, Sql.evalOperand, seen, hb, Sql.toDb]⟩
  | _ => exact hone _ rfl rfl rfl

theorem exec_ok {u u' : PDb} {key : Int64} {st : Stmt} {s : SStmt} {r : Option PgVal}
    (hp : Sql.parseStmt false (Sql.lex k.reserved st.text) = some s) (h : k.exec u key st = .ok (u', r)) :
    ∃ ps, pgBind (paramType u s) 0 st.params = .ok ps ∧ execData k.server u key ps s = some (u', r) := by
  unfold PgConn.exec at h
  rw [hp] at h
  simp only at h
  cases hb : pgBind (paramType u s) 0 st.params <;> rw [hb] at h <;> simp only [Conv.orErr, reduceCtorEq] at h
  next ps =>
  split at h
  · next h1 => cases h; exact ⟨ps, rfl, h1⟩
  · cases h

theorem exec_of {u : PDb} {key : Int64} {st : Stmt} {s : SStmt} {ps : List PgVal}
    (hp : Sql.parseStmt false (Sql.lex k.reserved st.text) = some s)
    (hb : pgBind (paramType u s) 0 st.params = .ok ps) {r : PDb × Option PgVal}
    (he : execData k.server u key ps s = some r) : k.exec u key st = .ok r := by
  unfold PgConn.exec
  rw [hp]
  simp only [hb, Conv.orErr, he]

/-! ### Saved objects -/

/-- The row holds the object. -/
def RowOf (m : TModel) (r : PRow) (o : ObjVals m.fields) : Prop :=
  (∃ vals, pushValues (fun _ => true) m.fields o = .ok vals ∧
    AllMatch (PgHolds r) (tcolumns (fun f => !f.isAuto) m.fields) vals) ∧
  AutoHolds (PgHolds r) m.fields o

/-- What is true after an object was saved: it is proper and has a key, the row with the key holds it,
and nothing else changed. -/
structure Saved (k : PgConn) (m : TModel) (pk : TField) (u u' : PDb) (t : Table) (o' : ObjVals m.fields)
    (id : SqlVal) (a : PgVal) : Prop where
  key : keySql pk.name m.fields o' = .ok id
  isKey : IsKey pk id a
  proper : AllProper m.fields o'
  whole : AllWholeMicros m.fields o'
  rows : ∃ rows, Changed k.server u u' m.table t rows ∧
    rows.filter (fun r => !decide (r pk.name = a)) = t.rows.filter (fun r => !decide (r pk.name = a)) ∧
    ∃ r, rows.filter (fun r => decide (r pk.name = a)) = [r] ∧ RowOf m r o'

theorem nodup_nonAuto (hm : PgModelOk k m pk) :
    ((tcolumns (fun f => !f.isAuto) m.fields).map (·.1)).Nodup := tcolumns_nodup hm.distinct

theorem saved_of_put (hm : PgModelOk k m pk) {u u' : PDb} {t : Table} {o : ObjVals m.fields}
    (ho : AllProper m.fields o) (hw : AllWholeMicros m.fields o) {vals : List SqlVal} {ps : List PgVal}
    (hv : pushValues (fun _ => true) m.fields o = .ok vals)
    (hb : ∀ row : PRow, (∀ c v, (m.nonAutoColumns.zip ps).lookup c = some v → row c = v) →
      AllMatch (PgHolds row) (tcolumns (fun f => !f.isAuto) m.fields) vals)
    {rows : List PRow} {id : SqlVal} {a : PgVal} (hc : Changed k.server u u' m.table t rows)
    (hput : Put t rows pk.name a (m.nonAutoColumns.zip ps))
    (hkey : keySql pk.name m.fields o = .ok id) (hid : IsKey pk id a) :
    Saved k m pk u u' t o id a := by
  obtain ⟨r, h1, h2⟩ := hput.row
  have hra : r pk.name = a := by
    have : r ∈ rows.filter fun r => decide (r pk.name = a) := by rw [h1]; exact List.mem_singleton_self _
    simpa using (List.mem_filter.1 this).2
  refine ⟨hkey, hid, ho, hw, rows, hc, hput.others, r, h1, ⟨vals, hv, hb r h2⟩, ?_⟩
  refine autoHolds_of_key (n := pk.name) o (fun f hf ha => by rw [hm.auto f hf ha]) hm.distinct hkey ?_
  intro f hf t' hft
  have hfp : f = pk := hm.auto f hf (by simp [TField.isAuto, hft])
  subst hfp
  have := hid.stored _ hft
  rw [← hra] at this
  exact this

/-- The rows of a valid database have unique keys. -/
theorem changed_unique (hm : PgModelOk k m pk) (hS : Laws k.server) {u u' : PDb} {t : Table}
    (ht : PgTableFits m pk t) {rows : List PRow} (hc : Changed k.server u u' m.table t rows) :
    rows.Pairwise fun r s => r pk.name ≠ s pk.name := by
  obtain ⟨ty, hty, -⟩ := hm.keyType
  obtain ⟨h1, h2⟩ := valid_table hc.valid hc.table
  exact (keys_of hm hS (t := { t with rows := rows }) ⟨ht.distinct, ht.fields⟩ h1 h2 hty).unique

theorem nonAuto_le (m : TModel) : m.nonAutoColumns.length ≤ m.columns.length := by
  have : ∀ fs : List TField, (tcolumns (fun f => !f.isAuto) fs).length ≤ (tcolumns (fun _ => true) fs).length := by
    intro fs
    induction fs with
    | nil => exact Nat.le_refl _
    | cons f fs ih =>
      simp only [tcolumns]
      split
      · split <;> simp <;> omega
      · exact ih
  simpa [TModel.nonAutoColumns, TModel.columns] using this m.fields

/-- Inserting a new object. -/
theorem insertNew_saved (hm : PgModelOk k m pk) (hS : Laws k.server) {u u' : PDb} {t : Table}
    (hs : u.Sorted) (hlk : u.lookup m.table = some t) (ht : PgTableFits m pk t)
    {key : Int64} {o o' : ObjVals m.fields} (ho : Storable m.fields o) (hw : AllWholeMicros m.fields o)
    (hroom : PgKeyFits pk key) (ha : pk.isAuto = true)
    (hval : keyValid pk.name m.fields o = false) {vals : List SqlVal}
    (hv : pushValues (fun _ => true) m.fields o = .ok vals)
    (hlen : vals.length = m.nonAutoColumns.length)
    (h : m.pgInsertNew k u key pk o m.nonAutoColumns vals = .ok (u', o')) :
    SameButAuto m.fields o o' ∧ ∃ id a, Saved k m pk u u' t o' id a ∧ ∀ r ∈ t.rows, r pk.name ≠ a := by
  unfold TModel.pgInsertNew at h
  split at h
  · cases h
  next db' w hins =>
  unfold PgConn.insertReturningPk at hins
  split at hins
  · cases hins
  · cases hins
  next db1 v hexec =>
  have hcl : m.nonAutoColumns.length ≤ 126 := Nat.le_trans (nonAuto_le m) hm.count
  obtain ⟨ps, hb, hx⟩ := exec_ok (pg_lex_insert hm.covers (cols := m.nonAutoColumns) hm.table hm.plain
    (pg_columns_names hm) hcl) hexec
  have hb' := bind_holds (cs := tcolumns (fun f => !f.isAuto) m.fields) (nodup_nonAuto hm)
    (show vals.length = _ by simpa [TModel.nonAutoColumns] using hlen)
    (fun j c hc => by
      rw [Nat.zero_add, paramType_insert hlk (cols := m.nonAutoColumns) (c := c.1) (by
        simp [TModel.nonAutoColumns, hc])]
      exact (pg_columns_in ht c (List.mem_of_getElem? hc)).2) hb
  have hpl : ps.length = m.nonAutoColumns.length := by simpa [TModel.nonAutoColumns] using hb'.1
  obtain ⟨new, hnew, hrow, hput, hret⟩ := data_insert hlk hpl hx
  cases hret
  have hch := changed_putRows hs hput
  obtain ⟨d, ty, hd, hdn, hdnn, hdu, hty, hdt, hdf, -, hser⟩ := pg_key_column hm ht
  obtain ⟨kt, hkt⟩ := auto_type ha
  rw [hkt] at hty
  cases hty
  obtain ⟨I, hI⟩ := hm.autoInt kt hkt
  obtain ⟨hlo, hhi⟩ := hroom kt I hkt hI
  have hnv := newRow_col ht.distinct hnew hd
  have hnone : (m.nonAutoColumns.zip ps).lookup d.name = none := by
    rw [hdn]; exact lookup_zip_none (key_not_column (model_ok hm) ha)
  simp only [newValue, hnone, hser ha, if_true] at hnv
  rw [hdt, hdn, show FieldTy.sqltype (.autoPk kt) = kt.sqltype from rfl] at hnv
  obtain ⟨y, v, n1, n2, n3, n4, n5⟩ := pg_new_key hI k.parseUuid hlo hhi hnv
  split at hins
  · cases hins
    have hpy : Proper kt y := by cases hI <;> trivial
    have hny : WholeMicros kt y := by cases hI <;> trivial
    obtain ⟨o1, i1, i2, i3, i4, i5, i6, i7⟩ := initKey_new n1 n2 hpy hny (n := pk.name) o
      (auto_name (model_ok hm)) ⟨pk, hm.pk_mem, rfl, hkt⟩ hm.distinct hval ho hw
    rw [i1] at h
    simp only [Conv.orErr] at h
    cases h
    have hprop := proper_of_storable (n := pk.name) o' i3 (auto_name (model_ok hm)) i5 hm.distinct
    have hid : IsKey pk v (new pk.name) := by
      refine ⟨fun ty hty => ?_, fun ty hty => ?_, n5⟩
      · rw [hkt] at hty
        cases hty
        exact n4
      · rw [hkt] at hty
        cases hty
        exact n3
    obtain ⟨hput', hno⟩ := put_append (t := t) (given := m.nonAutoColumns.zip ps) rfl
      (changed_unique hm hS ht hch) (fun c v hcv => by
        have hmem := lookup_zip_mem hcv
        obtain ⟨x, hx, rfl⟩ := List.mem_map.1 hmem
        exact newRow_given ht.distinct hnew (pg_columns_in ht x hx).1 hcv)
    exact ⟨i2, v, _, saved_of_put hm hprop i4 ((i7 _).trans hv) hb'.2 hch hput' i6 hid, hno⟩
  · cases hins

/-- Every successful save: the object has a key, its row holds it, and nothing else changed. -/
theorem save_saved (hm : PgModelOk k m pk) (hS : Laws k.server) {u u' : PDb} {t : Table}
    (hs : u.Sorted) (hvalid : valid k.server u = true) (hlk : u.lookup m.table = some t)
    (ht : PgTableFits m pk t) {key : Int64} {o o' : ObjVals m.fields} (ho : Storable m.fields o)
    (hw : AllWholeMicros m.fields o) (hroom : PgKeyFits pk key)
    (hrow : pk.isAuto = true → keyValid pk.name m.fields o = true → ∀ id a,
      keySql pk.name m.fields o = .ok id → IsKey pk id a → ∃ r ∈ t.rows, r pk.name = a)
    (h : m.pgSave k u key o = .ok (u', o')) :
    SameButAuto m.fields o o' ∧ ∃ id a, Saved k m pk u u' t o' id a ∧
      (keyValid pk.name m.fields o = true → o' = o) ∧
      (keyValid pk.name m.fields o = false → ∀ r ∈ t.rows, r pk.name ≠ a) := by
  obtain ⟨hrowok, huniq⟩ := valid_table hvalid hlk
  obtain ⟨vals, hv, hmatch⟩ := storable_vals (keep := fun _ => true) o ho
  have hcs : tcolumns (fun f => !f.isAuto && true) m.fields = tcolumns (fun f => !f.isAuto) m.fields :=
    tcolumns_congr fun f _ => by simp
  rw [hcs] at hmatch
  have hlenv : vals.length = m.nonAutoColumns.length := by
    rw [← match_length hmatch, TModel.nonAutoColumns, List.length_map]
  obtain ⟨d, ty, hd, hdn, hdnn, hdu, hty, hdt, hdf, hct, hser⟩ := pg_key_column hm ht
  have hkeys := keys_of hm hS ht hrowok huniq hty
  have hcn := key_not_column (model_ok hm)
  unfold TModel.pgSave at h
  rw [hm.key] at h
  simp only at h
  by_cases ha : pk.isAuto = true
  · have hpush1 : m.nonAutoValues pk o true = .ok vals := by
      rw [← hv]; exact pushValues_congr o fun f _ _ => by simp
    have hpush2 : m.nonAutoValues pk o false = .ok vals := by
      rw [← hv]
      refine pushValues_congr o fun f hf hfa => ?_
      simp only [Bool.false_or, bne_iff_ne, ne_eq]
      intro e
      have := field_eq_of_name hm.distinct hf hm.pk_mem e
      subst this
      rw [ha] at hfa
      cases hfa
    by_cases hval : keyValid pk.name m.fields o = true
    · have hprop := proper_of_storable (n := pk.name) o ho (auto_name (model_ok hm)) hval hm.distinct
      obtain ⟨id, -, hkey, -⟩ := key_of_proper (model_ok hm) hprop
      obtain ⟨a, hid⟩ := isKey_of_like hm (pg_keyLike hm ho hw hkey)
      obtain ⟨hidn, han⟩ := hid.ne_null hm
      obtain ⟨r, hr, he⟩ := hrow ha hval id a hkey hid
      have hst := hid.stored ty hty
      rw [hval] at h
      simp only [if_true] at h
      split at h
      · next h1 =>
        cases h
        have hone : m.columns.length = 1 := by
          simp only [Bool.and_eq_true, beq_iff_eq] at h1
          exact h1.2
        have hnil := nonAuto_nil ha (model_ok hm) hone
        have hvn : vals = [] := List.eq_nil_of_length_eq_zero (by rw [hlenv, hnil]; rfl)
        subst hvn
        refine ⟨sameButAuto_refl _, id, a, saved_of_put hm hprop hw hv (ps := []) (fun row _ => ?_)
          (changed_refl hs hvalid hlk) ⟨rfl, r, filter_key_one hkeys.unique hr he, fun c v hcv => ?_⟩ hkey hid,
          fun _ => rfl, fun h => by rw [hval] at h; cases h⟩
        · have : tcolumns (fun f => !f.isAuto) m.fields = [] := by
            have := hnil
            unfold TModel.nonAutoColumns at this
            exact List.map_eq_nil_iff.1 this
          rw [this]
          exact .nil
        · rw [hnil] at hcv
          cases hcv
      · next h1 =>
        rw [hkey, hpush2] at h
        simp only [Conv.orErr] at h
        split at h
        · next db' r' hexec =>
          cases h
          have hcne : m.nonAutoColumns ≠ [] := nonAuto_ne (model_ok hm) fun e => h1 (by simp [ha, e])
          have hcl : m.nonAutoColumns.length ≤ 126 := Nat.le_trans (nonAuto_le m) hm.count
          obtain ⟨qs, hb, hx⟩ := exec_ok (pg_lex_update hm.covers (cols := m.nonAutoColumns) hm.table
            (hm.names pk hm.pk_mem) (pg_columns_names hm) hcne hcl) hexec
          simp only [Backend.update] at hb
          obtain ⟨ps, t1, a1, hps, ht1, ha1, rfl⟩ := bind_append hb
          rw [Nat.zero_add, hlenv, paramType_update hlk (c := pk.name) (by simp), hct] at ht1
          cases ht1
          rw [hdt, hst] at ha1
          cases ha1
          have hb' := bind_holds (cs := tcolumns (fun f => !f.isAuto) m.fields) (nodup_nonAuto hm)
            (by simpa [TModel.nonAutoColumns] using hlenv)
            (fun j c hc => by
              rw [Nat.zero_add, paramType_update hlk (cols := m.nonAutoColumns) (c := c.1) (by
                rw [List.getElem?_append_left (by
                  have := (List.getElem?_eq_some_iff.1 hc).1
                  simpa [TModel.nonAutoColumns] using this)]
                simp [TModel.nonAutoColumns, hc])]
              exact (pg_columns_in ht c (List.mem_of_getElem? hc)).2) hps
          have hpl : ps.length = m.nonAutoColumns.length := by simpa [TModel.nonAutoColumns] using hb'.1
          rw [data_update_eq hlk hkeys (fun c hc => by
            obtain ⟨x, hx, rfl⟩ := List.mem_map.1 hc
            exact (pg_columns_in ht x hx).1) hpl (ofType_of_toPg hst) han] at hx
          obtain ⟨u1, hput, e⟩ := map_some_eq hx
          cases e
          refine ⟨sameButAuto_refl _, id, a, saved_of_put hm hprop hw hv hb'.2 (changed_putRows hs hput)
            (put_map hkeys.unique ?_ (fun _ _ h => h) hr he) hkey hid, fun _ => rfl, fun h => by rw [hval] at h; cases h⟩
          intro v hvv
          rw [lookup_zip_none (hcn ha)] at hvv
          cases hvv
        · cases h
    · have hval' : keyValid pk.name m.fields o = false := by simpa using hval
      rw [hval'] at h
      simp only [Bool.false_eq_true, if_false] at h
      split at h
      · next h1 =>
        have hone : m.columns.length = 1 := by
          simp only [Bool.and_eq_true, beq_iff_eq] at h1
          exact h1.2
        have hnil := nonAuto_nil ha (model_ok hm) hone
        have hvn : vals = [] := List.eq_nil_of_length_eq_zero (by rw [hlenv, hnil]; rfl)
        subst hvn
        rw [show ([] : List String) = m.nonAutoColumns from hnil.symm] at h
        obtain ⟨i1, id, a, i3, i4⟩ := insertNew_saved hm hS hs hlk ht ho hw hroom ha hval' hv hlenv h
        exact ⟨i1, id, a, i3, fun h => absurd h hval, fun _ => i4⟩
      · rw [hpush1] at h
        simp only [Conv.orErr] at h
        obtain ⟨i1, id, a, i3, i4⟩ := insertNew_saved hm hS hs hlk ht ho hw hroom ha hval' hv hlenv h
        exact ⟨i1, id, a, i3, fun h => absurd h hval, fun _ => i4⟩
  · have ha' : pk.isAuto = false := by simpa using ha
    have hna := no_auto (model_ok hm) ha'
    have hpush1 : m.nonAutoValues pk o true = .ok vals := by
      rw [← hv]; exact pushValues_congr o fun f _ _ => by simp
    have hval := keyValid_of_not_auto (n := pk.name) o hna ⟨pk, hm.pk_mem, rfl⟩
    have hprop := proper_of_storable (n := pk.name) o ho (auto_name (model_ok hm)) hval hm.distinct
    rw [if_neg (by simp [ha']), if_neg ha, hpush1] at h
    simp only [Conv.orErr] at h
    split at h
    · next db' r' hexec =>
      cases h
      have hcols : m.columns = m.nonAutoColumns := by
        unfold TModel.columns TModel.nonAutoColumns
        rw [tcolumns_congr (k1 := fun _ => true) (k2 := fun f => !f.isAuto) fun f hf => by
          simp [hna f hf]]
      obtain ⟨ps, hb, hx⟩ := exec_ok (pg_lex_upsert hm.covers hm.excluded (cols := m.columns) hm.table
        (hm.names pk hm.pk_mem) (pg_columns_names hm) (pg_columns_ne hm)) hexec
      simp only [Backend.upsert] at hb
      rw [hcols] at hb hx
      have hb' := bind_holds (cs := tcolumns (fun f => !f.isAuto) m.fields) (nodup_nonAuto hm)
        (by simpa [TModel.nonAutoColumns] using hlenv)
        (fun j c hc => by
          rw [Nat.zero_add, paramType_insert hlk (cols := m.nonAutoColumns) (c := c.1) (by
            simp [TModel.nonAutoColumns, hc])]
          exact (pg_columns_in ht c (List.mem_of_getElem? hc)).2) hb
      have hpl : ps.length = m.nonAutoColumns.length := by simpa [TModel.nonAutoColumns] using hb'.1
      obtain ⟨id, -, hkey, -⟩ := key_of_proper (model_ok hm) hprop
      obtain ⟨a, hid⟩ := isKey_of_like hm (pg_keyLike hm ho hw hkey)
      obtain ⟨hidn, han⟩ := hid.ne_null hm
      have hst := hid.stored ty hty
      have hla : (m.nonAutoColumns.zip ps).lookup pk.name = some a := by
        have hh := keySql_holds (H := PgHolds fun c => ((m.nonAutoColumns.zip ps).lookup c).getD .null) o vals hv
          (hb'.2 _ fun c v hcv => congrArg (·.getD PgVal.null) hcv) hkey hna hm.distinct pk hm.pk_mem rfl ty hty
        simp only [PgHolds, hst, Conv.ok.injEq] at hh
        cases hl : (m.nonAutoColumns.zip ps).lookup pk.name with
        | none => rw [hl] at hh; exact absurd hh han
        | some b => rw [hl] at hh; rw [hh]; rfl
      have hin : ∀ c ∈ m.nonAutoColumns, c ∈ names t := fun c hc => by
        obtain ⟨x, hx, rfl⟩ := List.mem_map.1 hc
        exact (pg_columns_in ht x hx).1
      obtain ⟨new, hnew, hnrow, hx⟩ := data_upsert hlk hm.table_ne hin hpl hx
      have hgiven : ∀ c v, (m.nonAutoColumns.zip ps).lookup c = some v → new c = v := fun c v hcv =>
        newRow_given ht.distinct hnew (hin c (lookup_zip_mem hcv)) hcv
      have hna' : new pk.name = a := hgiven _ _ hla
      have hsame : ∀ r ∈ t.rows, same k.server (r pk.name) (new pk.name) = decide (r pk.name = a) := by
        intro r hr
        rw [hna', Bool.eq_iff_iff, decide_eq_true_eq]
        exact same_iff hS hkeys.type (hkeys.rows r hr).1 (ofType_of_toPg hst) (hkeys.rows r hr).2 han
      refine ⟨sameButAuto_refl _, id, a, ?_, fun _ => rfl, fun h => by rw [hval] at h; cases h⟩
      split at hx
      · next hany =>
        obtain ⟨r, hr, he⟩ := List.any_eq_true.1 hany
        rw [hsame r hr, decide_eq_true_eq] at he
        split at hx
        · have hrows : (t.rows.map fun r => if same k.server (r pk.name) (new pk.name) = true then
              setRow (m.nonAutoColumns.zip (m.nonAutoColumns.map new)) r else r) =
              t.rows.map fun r => if r pk.name = a then
                setRow (m.nonAutoColumns.zip (m.nonAutoColumns.map new)) r else r := by
            refine List.map_congr_left fun r hr => ?_
            rw [hsame r hr]
            simp
          rw [hrows] at hx
          refine saved_of_put hm hprop hw hv hb'.2 (changed_putRows hs hx) (put_map hkeys.unique ?_ ?_ hr he)
            hkey hid
          · intro v hvv
            rw [lookup_zip_map new (lookup_zip_mem hla), hna'] at hvv
            cases hvv
            rfl
          · intro c v hcv
            rw [lookup_zip_map new (lookup_zip_mem hcv), hgiven c v hcv]
        · next hlen =>
          subst hx
          refine saved_of_put hm hprop hw hv hb'.2 (changed_refl hs hvalid hlk)
            ⟨rfl, r, filter_key_one hkeys.unique hr he, fun c v hcv => ?_⟩ hkey hid
          have h1 := lookup_zip_mem hcv
          have h2 := lookup_zip_mem hla
          have hc1 : c = pk.name := by
            match m.nonAutoColumns, hlen, h1, h2 with
            | [c'], _, h1, h2 =>
              rw [List.mem_singleton] at h1 h2
              rw [h1, h2]
            | _ :: _ :: _, hlen, _, _ => simp at hlen
          subst hc1
          rw [hla] at hcv
          cases hcv
          exact he
      · refine saved_of_put hm hprop hw hv hb'.2 (changed_putRows hs hx)
          (put_append hna' (changed_unique hm hS ht (changed_putRows hs hx)) hgiven).1 hkey hid
    · cases h

end Butane.PgP
