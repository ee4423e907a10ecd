/-
Which migrations SQLite can execute.
-/
import Verif.Proofs.DdlExec

namespace Butane.DdlP
open Butane.Ddl Spec

variable {env : SqliteEnv} {kw res : String → Bool}

/-! ### Reading -/

theorem createTable_scripted (hk : CoversDdl kw res) (hf : TypesFree res) {t : ATable}
    (hn : IsName t.name) (ht : ∀ c ∈ t.columns, PlainColumn c) (hne : t.columns ≠ []) (ifNot : Bool) :
    ∃ s, SqliteDdl.createTable kw t ifNot = .ok s ∧ Scripted res true s [createOf ifNot t] := by
  obtain ⟨s, h1, h2⟩ := createTable_lex hk hf hn ht ifNot
  exact ⟨s, h1, scripted_stmt (by simp [createToks]) (semi_createToks ifNot t) h2
    (parse_createToks hne)⟩

theorem changeText_scripted (hk : CoversDdl kw res) (hf : TypesFree res) {old changed : ATable}
    (ho : IsName old.name) (hc : ∀ c ∈ changed.columns, PlainColumn c) (hne : changed.columns ≠ []) :
    ∃ create, SqliteDdl.createTable kw { changed with name := SqliteDdl.tmpName old.name } false =
        .ok create ∧
      Scripted res true (joinText (lit "\n") [create,
        SqliteDdl.copyTable kw old { changed with name := SqliteDdl.tmpName old.name },
        SqliteDdl.dropTable kw old.name,
        lit "ALTER TABLE " ++ quoteName kw (SqliteDdl.tmpName old.name) ++ lit " RENAME TO " ++
          quoteName kw old.name ++ lit ";"]) (changeOf old changed) := by
  have htmp := tmpName_name ho
  obtain ⟨s, h1, h2⟩ := createTable_scripted (t := { changed with name := SqliteDdl.tmpName old.name })
    hk hf htmp hc hne false
  obtain ⟨K, k1, k2, k3, k4, -⟩ := copyTable_stmt (res := res)
    (new := { changed with name := SqliteDdl.tmpName old.name }) hk ho htmp (fun c h => (hc c h).name)
  refine ⟨s, h1, ?_⟩
  exact scripted_join (res := res) (.cons h2 (.cons (scripted_stmt k1 k2 k3 (k4 hne))
    (.cons (dropTable_reads hk ho) (.cons (renameTable_reads hk htmp ho) .nil))))

theorem scripted_filter {sq : Bool} {ts : List Text} {sss : List (List DStmt)}
    (h : AllMatch (Scripted res sq) ts sss) :
    ∃ sss', AllMatch (Scripted res sq) (ts.filter fun t => !t.isEmpty) sss' ∧
      sss'.flatten = sss.flatten := by
  induction h with
  | nil => exact ⟨[], .nil, rfl⟩
  | @cons t ss ts sss h1 h2 ih =>
    obtain ⟨sss', g1, g2⟩ := ih
    cases t with
    | nil =>
      have := scripted_empty (.inl h1)
      subst this
      exact ⟨sss', g1, by simpa using g2⟩
    | cons c t => exact ⟨ss :: sss', .cons h1 g1, by simp [g2]⟩

/-! ### Executing -/

/-- When an operation can be executed; `E` are the tables without rows. -/
def Ready (env : SqliteEnv) (p : LitPrinters) (E : String → Prop) (cur : ADB) : Operation → Prop
  | .addTable t => cur.getTable t.name = none ∧ PlainTable t ∧ t.columns ≠ [] ∧
      (t.columns.map (·.name)).Nodup ∧ OneKey t
  | .removeTable n => (∃ t, cur.getTable n = some t ∧ PlainTable t) ∧
      ∀ m u c k, cur.getTable m = some u → m ≠ n → c ∈ u.columns → c.reference ≠ some (.literal n k)
  | .addColumn n c => ∃ s, cur.getTable n = some s ∧ s.column c.name = none ∧ IsName n ∧
      PlainColumn c ∧ AddableColumn env p c ∧ c.pk = false ∧ c.unique = false ∧
      (c.nullable = false → ¬ NewValue c .null) ∧ ∃ v, NewValue c v
  | .removeColumn n c => ∃ s x k z, cur.getTable n = some s ∧ s.column c = some x ∧
      x.pk = false ∧ x.unique = false ∧ x.reference = none ∧ s.column k = some z ∧ k ≠ c
  | .changeColumn n _ c => ∃ s o, cur.getTable n = some s ∧ s.column c.name = some o ∧
      PlainColumn c ∧ o.pk = c.pk ∧ OneKey s ∧ E n ∧ cur.getTable (replacement n) = none
  | .addTableConstraints _ => True
  | .removeTableConstraints _ => True
  | .addTableIfNotExists _ => False

theorem keys_le {t : ATable} (hn : (t.columns.map (·.name)).Nodup) (hk : OneKey t)
    (hp : ∀ c ∈ t.columns, PlainColumn c) :
    ((t.columns.map colDefOf).filter (·.pk)).length ≤ 1 := by
  have hpk : ∀ c ∈ t.columns, (colDefOf c).pk = c.pk := fun c hc => (columnIs_colDefOf (hp c hc)).pk
  match h : (t.columns.map colDefOf).filter (·.pk) with
  | [] => rw [h]; simp
  | [_] => rw [h]; simp
  | a :: b :: rest =>
    have hnd : (((t.columns.map colDefOf).filter (·.pk)).map (·.name)).Nodup :=
      List.Nodup.sublist (List.Sublist.map _ List.filter_sublist) (by rw [names_map]; exact hn)
    have ha : a ∈ (t.columns.map colDefOf).filter (·.pk) := by rw [h]; simp
    have hb : b ∈ (t.columns.map colDefOf).filter (·.pk) := by rw [h]; simp
    rw [h] at hnd
    simp only [List.mem_filter, List.mem_map] at ha hb
    obtain ⟨⟨x, hx, rfl⟩, ha⟩ := ha
    obtain ⟨⟨y, hy, rfl⟩, hb⟩ := hb
    rw [hpk x hx] at ha
    rw [hpk y hy] at hb
    have := hk x hx y hy ha hb
    simp [colDefOf, this] at hnd

theorem exec_createOf {t : ATable} (hp : ∀ c ∈ t.columns, PlainColumn c) (hne : t.columns ≠ [])
    (hn : (t.columns.map (·.name)).Nodup) (hk : OneKey t) {db : SDb} (hl : db.lookup t.name = none) :
    exec env db (createOf false t) =
      some (db.insert t.name ⟨t.columns.map colDefOf, refsOf t, []⟩) := by
  have h1 : (t.columns.map colDefOf).isEmpty = false := by
    cases h : t.columns with
    | nil => exact absurd h hne
    | cons => rfl
  have h2 : ((t.columns.map colDefOf).all fun c => (strictType c.type).isSome) = true := by
    refine List.all_eq_true.2 ?_
    intro d hd
    obtain ⟨c, hc, rfl⟩ := List.mem_map.1 hd
    obtain ⟨st, -, h⟩ := (columnIs_colDefOf (hp c hc)).type
    rw [h, strictType_name]
    rfl
  have h3 : ((refsOf t).all fun fk => ((t.columns.map colDefOf).map (·.name)).contains fk.col) = true := by
    refine List.all_eq_true.2 ?_
    intro fk hfk
    obtain ⟨c, hc, -⟩ := (mem_refs hn fk).1 hfk
    obtain ⟨hm, he⟩ := colByName_some hc
    rw [names_map]
    simp only [List.contains_iff_mem]
    exact he ▸ List.mem_map_of_mem hm
  have h4 := keys_le hn hk hp
  have h5 : ((t.columns.map colDefOf).map (·.name)).Nodup := by rw [names_map]; exact hn
  simp only [exec, createOf, hl, h1, h2, h3, h4, h5, Bool.not_false, decide_true, Bool.and_true,
    ↓reduceIte]

theorem allSome_nil {α β : Type} (f : α → Option β) : allSome f [] = some [] := rfl

theorem allSome_all {α β : Type} {f : α → Option β} {l : List α} (h : ∀ a ∈ l, ∃ b, f a = some b) :
    ∃ bs, allSome f l = some bs := by
  induction l with
  | nil => exact ⟨[], rfl⟩
  | cons a l ih =>
    obtain ⟨b, hb⟩ := h a (List.mem_cons_self ..)
    obtain ⟨bs, hbs⟩ := ih fun x hx => h x (List.mem_cons_of_mem _ hx)
    exact ⟨b :: bs, by simp only [allSome, hb, hbs]⟩

theorem toSqlite_reads {codecs : TextCodecs} {p : LitPrinters} {st : SqliteType} {v : SqlVal}
    (h : LiteralReads env p st v) : ∃ b, toSqlite codecs v = .ok b ∧ (b = .null → v = .null) := by
  cases v <;> first | exact h.elim | exact ⟨_, rfl, fun _ => rfl⟩ | exact ⟨_, rfl, fun e => by cases e⟩

theorem isReferenced_false {cur : ADB} {db : SDb} (hi : Implements cur db) (hs : db.Sorted)
    {n : String} (t : STable)
    (h : ∀ m u c k, cur.getTable m = some u → m ≠ n → c ∈ u.columns →
      c.reference ≠ some (.literal n k)) : isReferenced db n t = false := by
  simp only [isReferenced, List.any_eq_false]
  intro e he
  simp only [Bool.and_eq_true, decide_eq_true_eq, List.any_eq_true, not_and, not_exists]
  intro hne fk hfk ht
  have hl := SMap.lookup_of_mem hs he
  obtain ⟨u, hu, his⟩ := Both.some_right (hl ▸ hi e.1)
  obtain ⟨c, hc, hr⟩ := (his.refs fk).1 hfk
  rw [ht] at hr
  exact absurd hr (h e.1 u c fk.refCol hu hne (colByName_some hc).1)

theorem isReferenced_norows {db : SDb} {n : String} {t : STable} (h : t.rows = []) :
    isReferenced db n t = false := by
  have hk : ∀ c v, hasKey t c v = false := by intro c v; simp [hasKey, h]
  simp only [isReferenced, List.any_eq_false]
  intro e he
  simp only [Bool.and_eq_true, decide_eq_true_eq, List.any_eq_true, not_and, not_exists]
  intro _ fk _ _ r _
  split <;> simp [hk]

theorem column_of_mem {t : ATable} (hn : (t.columns.map (·.name)).Nodup) {c : AColumn}
    (h : c ∈ t.columns) : t.column c.name = some c := colByName_of_mem hn h

/-- An operation that is ready is executed. -/
theorem ready_runs (hk : CoversDdl kw res) (hf : TypesFree res) (laws : StrictLaws env)
    {codecs : TextCodecs} {p : LitPrinters} {cur : ADB} (hv : ValidSchema cur) (hpl : PlainSchema cur)
    {op : Operation} {E : String → Prop} {db : SDb} (hop : Ready env p E cur op)
    (hE : ∀ n, E n → ∀ u, db.lookup n = some u → u.rows = []) (hi : Implements cur db)
    (hp : Proper.Db env db) :
    ∃ t cur', SqliteDdl.sqlForOp kw p cur op = .ok (t, cur') ∧
      Scripted res true t (stmtsOf p cur op) ∧
      ∃ db', execAll env db (stmtsOf p cur op) = some db' := by
  cases op with
  | addTable t =>
    obtain ⟨h1, h2, h3, h4, h5⟩ := hop
    obtain ⟨s, g1, g2⟩ := createTable_scripted (res := res) hk hf h2.name h2.columns h3 false
    refine ⟨s, cur, by simp only [SqliteDdl.sqlForOp, g1, Gen.bind], g2, ?_⟩
    have hl := Both.none_left (h1 ▸ hi t.name)
    exact ⟨_, by simp only [stmtsOf, execAll, exec_createOf h2.columns h3 h4 h5 hl]; rfl⟩
  | removeTable n =>
    obtain ⟨⟨t, h1, h2⟩, h3⟩ := hop
    have hname := name_of_getTable hv h1
    refine ⟨_, cur, rfl, dropTable_reads hk (hname ▸ h2.name), ?_⟩
    obtain ⟨s, hs, -⟩ := Both.some_left (h1 ▸ hi n)
    exact ⟨_, by simp only [stmtsOf, execAll, exec, hs, isReferenced_false hi hp.sorted s h3]; rfl⟩
  | addColumn n c =>
    obtain ⟨s, h1, h2, h3, h4, h5, h6, h7, h8, v, h9⟩ := hop
    obtain ⟨st, hst⟩ := h4.type
    have hcd := (newValue_iff ⟨st, hst⟩).1 h9
    have hl := h5.value v st h9 hst
    obtain ⟨tx, g1, -, g2⟩ := addColumn_reads (res := res) hk hf h3 h4 hcd hl
    refine ⟨tx, cur, by simp only [SqliteDdl.sqlForOp, g1, Gen.bind], by simp only [stmtsOf, hcd]; exact g2, ?_⟩
    simp only [stmtsOf, hcd]
    obtain ⟨u, hu, his⟩ := Both.some_left (h1 ▸ hi n)
    have hcol := columnIs_default h4 h6 (litOf p v)
    have hdef := default_of (c := c) (litOf p v)
    generalize ({ colDefOf c with cons := conList c ++ [.default (litOf p v)] } : ColDef) = d at hcol hdef
    obtain ⟨st', hst', hdt⟩ := hcol.type
    cases storedAs_unique hst hst'
    have hty : strictType d.type = some st := by rw [hdt, strictType_name]
    obtain ⟨b, hb, hbn⟩ := toSqlite_reads (codecs := codecs) hl
    have hval := literal_value laws hl hb
    obtain ⟨w, hw, hcw⟩ := Option.bind_eq_some_iff.1 hval
    have hno : (u.cols.map (·.name)).contains d.name = false := by
      have := Both.none_left (h2 ▸ his.columns c.name)
      rw [hcol.name, ← Bool.not_eq_true, List.contains_iff_mem]
      exact dbColumn_none.1 this
    have hnn : (d.notNull && decide (b = .null)) = false := by
      rw [hcol.notNull]
      cases hnu : c.nullable with
      | true => simp
      | false =>
        have : b ≠ .null := fun e => h8 hnu (hbn e ▸ h9)
        simp [this]
    obtain ⟨rows, hrows⟩ := allSome_all (f := fun r => some (r ++ [b])) (l := u.rows)
      (fun r _ => ⟨_, rfl⟩)
    exact ⟨_, by
      simp only [execAll, exec, hu, hty, hdef, Option.elim, hw, hcw, hno, hcol.pk, hcol.unique, h6,
        h7, Bool.or_false, Bool.false_eq_true, ↓reduceIte, hnn, hrows]
      rfl⟩
  | removeColumn n c =>
    obtain ⟨s, x, k, z, h1, h2, h3, h4, h5, h6, h7⟩ := hop
    have hname := name_of_getTable hv h1
    have hx := colByName_some h2
    have hpn := hname ▸ (hpl _ _ h1).name
    have hpc := hx.2 ▸ ((hpl _ _ h1).columns x hx.1).name
    have hr : x.reference.isSome = false := by rw [h5]; rfl
    refine ⟨_, cur, by simp only [SqliteDdl.sqlForOp, SqliteDdl.removeColumn, h1, h2, hr,
      Bool.false_eq_true, ↓reduceIte]; rfl, ?_, ?_⟩
    · simp only [stmtsOf, h1, h2, hr, Bool.false_eq_true, ↓reduceIte]
      exact dropColumn_reads hk hpn hpc
    simp only [stmtsOf, h1, h2, hr, Bool.false_eq_true, ↓reduceIte]
    obtain ⟨u, hu, his⟩ := Both.some_left (h1 ▸ hi n)
    have hps := hp.tables _ _ hu
    obtain ⟨d, hd, hxd⟩ := Both.some_left (h2 ▸ his.columns c)
    obtain ⟨d', hd', hzd⟩ := Both.some_left (h6 ▸ his.columns k)
    have hfind : u.cols.find? (fun e => decide (e.name = c)) = some d := hd
    have hfk : (u.fks.any fun fk => decide (fk.col = c)) = false := by
      simp only [List.any_eq_false, decide_eq_true_eq]
      intro fk hfk e
      obtain ⟨y, hy, hyr⟩ := (his.refs fk).1 hfk
      rw [e, h2] at hy
      cases hy
      rw [h5] at hyr
      cases hyr
    have hlen : decide (u.cols.length ≤ 1) = false := by
      obtain ⟨m1, n1⟩ := dbColumn_some hd
      obtain ⟨m2, n2⟩ := dbColumn_some hd'
      match hc : u.cols with
      | [] => rw [hc] at m1; cases m1
      | [a] =>
        rw [hc] at m1 m2
        simp only [List.mem_singleton] at m1 m2
        subst m1 m2
        exact absurd (n2.symm.trans n1) h7
      | a :: b :: rest => simp
    obtain ⟨rows, hrows⟩ := allSome_all (l := u.rows)
      (f := fun r => allSome (fun k => field u.cols r k.name)
        (u.cols.filter fun e => decide (e.name ≠ c))) (by
        intro r hr
        refine allSome_all ?_
        intro e he
        obtain ⟨v, hv, -⟩ := field_some_of_mem (hps.stored r hr) hps.distinct (List.mem_filter.1 he).1
        exact ⟨v, hv⟩)
    exact ⟨_, by
      simp only [execAll, exec, hu, hfind, hxd.pk, hxd.unique, h3, h4, hfk, hlen, Bool.or_false,
        Bool.false_eq_true, ↓reduceIte, hrows]
      rfl⟩
  | changeColumn n o c =>
    obtain ⟨s, x, h1, h2, h3, h4, h5, h6, h7⟩ := hop
    have hname := name_of_getTable hv h1
    have hnd := distinct_of_getTable hv h1
    have hcols := columnsPlain_replace (hpl _ _ h1).columns h3
    have hnd' : ((s.replaceColumn c).columns.map (·.name)).Nodup := nodup_replaceCol hnd c
    have hcol : (s.replaceColumn c).column c.name = some c := by
      simp only [ATable.replaceColumn, ATable.column, colByName_replaceCol, ↓reduceIte]
    have hne : (s.replaceColumn c).columns ≠ [] := by
      intro e
      have := (colByName_some hcol).1
      rw [e] at this
      cases this
    obtain ⟨create, g1, g2⟩ := changeText_scripted (res := res) hk hf (hpl _ _ h1).name hcols hne
    refine ⟨_, _, by simp only [SqliteDdl.sqlForOp, SqliteDdl.changeColumn, h1, SqliteDdl.changedTable,
      g1, Gen.bind]; rfl, by simp only [stmtsOf, h1]; rw [← hname]; exact g2, ?_⟩
    simp only [stmtsOf, h1]
    obtain ⟨u, hu, his⟩ := Both.some_left (h1 ▸ hi n)
    have hrows := hE n h6 u hu
    have htmp : db.lookup (SqliteDdl.tmpName s.name) = none := by
      rw [hname]
      exact Both.none_left (h7 ▸ hi (replacement n))
    have hkey : OneKey { (s.replaceColumn c) with name := SqliteDdl.tmpName s.name } := by
      have key : ∀ a ∈ (s.replaceColumn c).columns, a.pk = true →
          ∃ b ∈ s.columns, b.pk = true ∧ b.name = a.name := by
        intro a ha hpk
        rcases names_replaceCol_mem ha with rfl | ha
        · have := colByName_some h2
          exact ⟨x, this.1, h4.trans hpk, this.2⟩
        · exact ⟨a, ha, hpk, rfl⟩
      intro a ha b hb pa pb
      obtain ⟨a', ma, ka, na⟩ := key a ha pa
      obtain ⟨b', mb, kb, nb⟩ := key b hb pb
      rw [← na, ← nb]
      exact h5 a' ma b' mb ka kb
    have e1 := exec_createOf (env := env)
      (t := { (s.replaceColumn c) with name := SqliteDdl.tmpName s.name }) hcols hne hnd' hkey htmp
    have htn := tmp_ne s.name
    have hin : ((s.replaceColumn c).columns.map (·.name)).all (u.cols.map (·.name)).contains = true := by
      refine List.all_eq_true.2 ?_
      intro k hk'
      rw [List.contains_iff_mem]
      have hsome : (s.column k).isSome = true := by
        obtain ⟨a, ha, rfl⟩ := List.mem_map.1 hk'
        rcases names_replaceCol_mem ha with rfl | ha
        · rw [h2]; rfl
        · rw [column_of_mem hnd ha]; rfl
      obtain ⟨a, ha⟩ := Option.isSome_iff_exists.1 hsome
      obtain ⟨d, hd, -⟩ := Both.some_left (ha ▸ his.columns k)
      obtain ⟨dm, dn⟩ := dbColumn_some hd
      exact dn ▸ List.mem_map_of_mem dm
    have hun : uniqueOk ((s.replaceColumn c).columns.map colDefOf) [] = true := by
      simp [uniqueOk]
    have hfks : ∀ d cols fks, fksOk d cols fks [] = true := by intro d cols fks; simp [fksOk]
    rw [← hname] at hu
    simp only [changeOf, execAll, e1]
    simp only [exec, SMap.lookup_insert, ↓reduceIte, if_neg (Ne.symm htn), hu, hrows, allSome_nil, hin,
      List.length_map, decide_true, Bool.and_true, List.append_nil, hun, hfks]
    simp only [isReferenced_norows hrows, Bool.false_eq_true, ↓reduceIte]
    have so1 := SMap.sorted_insert hp.sorted (SqliteDdl.tmpName s.name)
      (⟨(s.replaceColumn c).columns.map colDefOf,
        refsOf { (s.replaceColumn c) with name := SqliteDdl.tmpName s.name }, []⟩ : STable)
    have so2 := SMap.sorted_insert so1 (SqliteDdl.tmpName s.name)
      (⟨(s.replaceColumn c).columns.map colDefOf,
        refsOf { (s.replaceColumn c) with name := SqliteDdl.tmpName s.name }, []⟩ : STable)
    simp only [SMap.lookup_erase so2, SMap.lookup_insert, ↓reduceIte, if_neg htn]
    exact ⟨_, rfl⟩
  | addTableConstraints t => exact ⟨[], cur, rfl, scripted_nil, db, rfl⟩
  | removeTableConstraints t => exact ⟨[], cur, rfl, scripted_nil, db, rfl⟩
  | addTableIfNotExists t => exact hop.elim

theorem ready_plain {p : LitPrinters} {E : String → Prop} {cur : ADB} (hv : ValidSchema cur)
    (hpl : PlainSchema cur) {op : Operation} (hop : Ready env p E cur op) :
    PlainOp env p op ∧ opOk op ∧ ∀ t, op ≠ .addTableIfNotExists t := by
  have hname : ∀ {n t}, cur.getTable n = some t → IsName n := fun {n t} ht => by
    rw [← name_of_getTable hv ht]
    exact (hpl n t ht).name
  cases op with
  | addTable t => exact ⟨hop.2.1, hop.2.2.2.1, fun _ e => by cases e⟩
  | removeTable n =>
    obtain ⟨⟨t, h1, -⟩, -⟩ := hop
    exact ⟨hname h1, trivial, fun _ e => by cases e⟩
  | addColumn n c =>
    obtain ⟨s, h1, h2, h3, h4, h5, -⟩ := hop
    exact ⟨⟨h3, h4, h5⟩, trivial, fun _ e => by cases e⟩
  | removeColumn n c =>
    obtain ⟨s, x, k, z, h1, h2, -⟩ := hop
    have hx := colByName_some h2
    exact ⟨⟨hname h1, hx.2 ▸ ((hpl _ _ h1).columns x hx.1).name⟩, trivial, fun _ e => by cases e⟩
  | changeColumn n o c =>
    obtain ⟨s, x, h1, -, h3, -⟩ := hop
    exact ⟨⟨hname h1, h3⟩, trivial, fun _ e => by cases e⟩
  | addTableConstraints t => exact ⟨trivial, trivial, fun _ e => by cases e⟩
  | removeTableConstraints t => exact ⟨trivial, trivial, fun _ e => by cases e⟩
  | addTableIfNotExists t => exact hop.elim

theorem ops_run (hk : CoversDdl kw res) (hf : TypesFree res) (laws : StrictLaws env)
    (codecs : TextCodecs) {p : LitPrinters} {E : String → Prop} {ops : List Operation} {cur : ADB}
    (hv : ValidSchema cur) (hpl : PlainSchema cur)
    (hready : ∀ pre op post, ops = pre ++ op :: post → Ready env p E (cur.transformAll pre) op)
    (hEW : ∀ n, E n → ∀ op ∈ ops, ¬ Whole n op) {db : SDb}
    (hE : ∀ n, E n → ∃ u, db.lookup n = some u ∧ u.rows = []) (hi : Implements cur db)
    (hp : Proper.Db env db) :
    ∃ ts sss db', SqliteDdl.opTexts kw p cur ops = .ok ts ∧ AllMatch (Scripted res true) ts sss ∧
      sss.flatten = allStmts p cur ops ∧ execAll env db (allStmts p cur ops) = some db' := by
  induction ops generalizing cur db with
  | nil => exact ⟨[], [], db, rfl, .nil, rfl, rfl⟩
  | cons op ops ih =>
    have hr := hready [] op ops rfl
    simp only [ADB.transformAll, List.foldl_nil] at hr
    obtain ⟨q1, q2, q3⟩ := ready_plain hv hpl hr
    obtain ⟨t, cur', h1, h2, db1, h3⟩ := ready_runs (res := res) (codecs := codecs) hk hf laws hv hpl hr
      (fun n hn u hu => by
        obtain ⟨u', hu', hr'⟩ := hE n hn
        rw [hu] at hu'
        cases hu'
        exact hr') hi hp
    have a1 := exec_op (codecs := codecs) laws hv hpl q1 q3 h1 hi hp h3
    have hstep := opTexts_step hv h1
    obtain ⟨ts, sss, db', g1, g2, g3, g4⟩ := ih (cur := cur.transformWith op) (db := db1)
      (valid_transformWith hv op q2) (plain_transform hv.sorted hpl q1)
      (fun pre o post e => hready (op :: pre) o post (by rw [e]; rfl))
      (fun n hn o ho => hEW n hn o (List.mem_cons_of_mem _ ho))
      (fun n hn => by
        obtain ⟨u, hu, hr'⟩ := hE n hn
        obtain ⟨u', hu', hm⟩ := a1.rows n u hu (hEW n hn op (List.mem_cons_self ..))
        rw [hr'] at hm
        refine ⟨u', hu', ?_⟩
        cases hm' : u'.rows with
        | nil => rfl
        | cons r rs => rw [hm'] at hm; cases hm)
      a1.schema a1.proper
    refine ⟨t :: ts, stmtsOf p cur op :: sss, db', ?_, .cons h2 g2, ?_, ?_⟩
    · simp only [SqliteDdl.opTexts, h1, Gen.bind, hstep, g1]
    · simp only [List.flatten_cons, g3, allStmts]
    · have : ∀ {l l' : List DStmt} {d d1 d2 : SDb}, execAll env d l = some d1 →
          execAll env d1 l' = some d2 → execAll env d (l ++ l') = some d2 := by
        intro l l' d d1 d2 e1 e2
        induction l generalizing d with
        | nil => cases e1; exact e2
        | cons x l ihl =>
          obtain ⟨d0, k1, k2⟩ := execAll_cons e1
          simp only [List.cons_append, execAll, k1]
          exact ihl k2
      exact this h3 g4

/-! ### Migrations found by comparison -/

theorem append_short {α : Type} {a b l : List α} (h : a ++ b = l) (hl : l.length ≤ 1) :
    a = [] ∨ (a = l ∧ b = []) := by
  cases a with
  | nil => exact .inl rfl
  | cons x a =>
    subst h
    simp only [List.cons_append, List.length_cons, List.length_append] at hl
    have h1 : a = [] := List.length_eq_zero_iff.1 (by omega)
    have h2 : b = [] := List.length_eq_zero_iff.1 (by omega)
    subst h1 h2
    exact .inr ⟨rfl, rfl⟩

theorem diffColFor_short (s t : ATable) (n : String) (a b : Option AColumn) :
    (diffColFor s t n a b).length ≤ 1 := by
  cases a <;> cases b <;> simp only [diffColFor] <;> first | simp | (split <;> simp)

/-- A table in both schemas while the operations are made. -/
theorem between_both {old new : ADB} (ho : ValidSchema old) (hn : ValidSchema new) {n : String}
    {s t : ATable} (hs : old.getTable n = some s) (ht : new.getTable n = some t)
    {pre post : List Operation} (h : diff old new = pre ++ post) :
    ∃ u, (old.transformAll pre).getTable n = some u ∧
      (∀ k, u.column k = s.column k ∨ u.column k = t.column k) ∧
      ∀ op post', post = op :: post' → op.target = n → ∀ k, op.colTarget = some k →
        u.column k = s.column k := by
  have hfil := diff_filter ho hn n
  rw [hs, ht] at hfil
  simp only [diffFor] at hfil
  have hpre : diffTable s t = pre.filter (fun op => op.target == n) ++
      post.filter (fun op => op.target == n) := by rw [← hfil, h, List.filter_append]
  have hcol : ∀ op ∈ pre.filter (fun op => op.target == n), op.colTarget.isSome = true := by
    intro op hop
    exact diffTable_isCol (s := s) (t := t) (by rw [hpre]; exact List.mem_append_left _ hop)
  refine ⟨⟨s.name, (pre.filter (fun op => op.target == n)).foldl colsEff s.columns⟩, ?_, ?_, ?_⟩
  · simp only [ADB.getTable] at hs ⊢
    rw [lookup_transformAll ho.sorted, hs, foldl_tableEff_col _ _ hcol]
  · intro k
    simp only [ATable.column, colByName_foldl]
    have hk := diffTable_filter s t k
    rw [hpre, List.filter_append] at hk
    rcases append_short hk (diffColFor_short ..) with e | ⟨e, -⟩
    · rw [e]
      exact .inl rfl
    · rw [e]
      cases h1 : colByName s.columns k <;> cases h2 : colByName t.columns k <;>
        simp only [diffColFor, List.foldl_cons, List.foldl_nil, colEff] <;>
        first | exact .inl trivial | exact .inl rfl | exact .inr trivial | exact .inr rfl | skip
      split
      · exact .inl rfl
      · exact .inr rfl
  · rintro op post' rfl htar k hk
    simp only [ATable.column, colByName_foldl]
    have hk' := diffTable_filter s t k
    rw [hpre, List.filter_append] at hk'
    rcases append_short hk' (diffColFor_short ..) with e | ⟨-, e⟩
    · rw [e]
      rfl
    · rw [List.filter_cons, if_pos (by simpa using htar), List.filter_cons,
        if_pos (by simpa using hk)] at e
      cases e

/-- A table of one schema only. -/
theorem between_new {old new : ADB} (ho : ValidSchema old) (hn : ValidSchema new) {n : String}
    {t : ATable} (hs : old.getTable n = none) (ht : new.getTable n = some t)
    {pre post : List Operation} (h : diff old new = pre ++ post) :
    ((old.transformAll pre).getTable n = none ∨ (old.transformAll pre).getTable n = some t) ∧
    ∀ post', post = .addTable t :: post' → (old.transformAll pre).getTable n = none := by
  have hfil := diff_filter ho hn n
  rw [hs, ht, h, List.filter_append] at hfil
  simp only [diffFor] at hfil
  simp only [ADB.getTable] at hs ⊢
  rw [lookup_transformAll ho.sorted, hs]
  have hname := name_of_getTable hn ht
  constructor
  · cases hp : pre.filter (fun op => op.target == n) with
    | nil => exact .inl rfl
    | cons a as =>
      rw [hp] at hfil
      simp only [List.cons_append, List.cons.injEq] at hfil
      obtain ⟨rfl, hfil⟩ := hfil
      right
      simp only [List.foldl_cons, tableEff]
      split at hfil
      · cases as with
        | nil => rfl
        | cons b bs =>
          simp only [List.cons_append, List.cons.injEq, List.append_eq_nil_iff] at hfil
          obtain ⟨rfl, rfl, -⟩ := hfil
          rfl
      · rw [(List.append_eq_nil_iff.1 hfil).1]
        rfl
  · rintro post' rfl
    cases hp : pre.filter (fun op => op.target == n) with
    | nil => rfl
    | cons a as =>
      rw [hp, List.filter_cons, if_pos (by simpa [Operation.target] using hname)] at hfil
      simp only [List.cons_append, List.cons.injEq] at hfil
      obtain ⟨rfl, hfil⟩ := hfil
      split at hfil
      · cases as with
        | nil => simp at hfil
        | cons b bs => simp at hfil
      · simp at hfil

theorem between_old {old new : ADB} (ho : ValidSchema old) (hn : ValidSchema new) {n : String}
    {s : ATable} (hs : old.getTable n = some s) (ht : new.getTable n = none)
    {pre post : List Operation} (h : diff old new = pre ++ post) :
    ((old.transformAll pre).getTable n = some s ∨ (old.transformAll pre).getTable n = none) ∧
    ∀ post', post = .removeTable n :: post' → (old.transformAll pre).getTable n = some s := by
  have hfil := diff_filter ho hn n
  rw [hs, ht, h, List.filter_append] at hfil
  simp only [diffFor] at hfil
  simp only [ADB.getTable] at hs ⊢
  rw [lookup_transformAll ho.sorted, hs]
  match hp : pre.filter (fun op => op.target == n) with
  | [] => rw [hp]; exact ⟨.inl rfl, fun _ _ => rfl⟩
  | [a] =>
    rw [hp] at hfil ⊢
    simp only [List.cons_append, List.cons.injEq] at hfil
    obtain ⟨rfl, hfil⟩ := hfil
    exact ⟨.inl rfl, fun _ _ => rfl⟩
  | a :: b :: rest =>
    rw [hp] at hfil ⊢
    simp only [List.cons_append, List.cons.injEq, List.append_eq_nil_iff] at hfil
    obtain ⟨rfl, rfl, rfl, hpost⟩ := hfil
    refine ⟨.inr rfl, ?_⟩
    rintro post' rfl
    rw [List.filter_cons, if_pos (by simp [Operation.target])] at hpost
    cases hpost

theorem between_none {old new : ADB} (ho : ValidSchema old) (hn : ValidSchema new) {n : String}
    (hs : old.getTable n = none) (ht : new.getTable n = none)
    {pre post : List Operation} (h : diff old new = pre ++ post) :
    (old.transformAll pre).getTable n = none := by
  have hfil := diff_filter ho hn n
  rw [hs, ht, h, List.filter_append] at hfil
  simp only [diffFor] at hfil
  simp only [ADB.getTable] at hs ⊢
  rw [lookup_transformAll ho.sorted, hs, (List.append_eq_nil_iff.1 hfil).1]
  rfl

/-- Any table in between has only columns of the schemas. -/
theorem between_column {old new : ADB} (ho : ValidSchema old) (hn : ValidSchema new) {n : String}
    {pre post : List Operation} (h : diff old new = pre ++ post) {u : ATable}
    (hu : (old.transformAll pre).getTable n = some u) {k : String} {c : AColumn}
    (hc : u.column k = some c) :
    ∃ t, (old.getTable n = some t ∨ new.getTable n = some t) ∧ t.column k = some c := by
  cases h1 : old.getTable n with
  | none =>
    cases h2 : new.getTable n with
    | none =>
      rw [between_none ho hn h1 h2 h] at hu
      cases hu
    | some t =>
      rcases (between_new ho hn h1 h2 h).1 with e | e
      · rw [e] at hu; cases hu
      · rw [e] at hu
        exact ⟨u, .inr hu, hc⟩
  | some s =>
    cases h2 : new.getTable n with
    | none =>
      rcases (between_old ho hn h1 h2 h).1 with e | e
      · rw [e] at hu
        exact ⟨u, .inl hu, hc⟩
      · rw [e] at hu; cases hu
    | some t =>
      obtain ⟨u', hu', hk, -⟩ := between_both ho hn h1 h2 h
      rw [hu] at hu'
      cases hu'
      rcases hk k with e | e
      · exact ⟨s, .inl rfl, by rw [← e]; exact hc⟩
      · exact ⟨t, .inr rfl, by rw [← e]; exact hc⟩

theorem feasible_ready {p : LitPrinters} {old new : ADB} (ho : ValidSchema old)
    (hn : ValidSchema new) (po : PlainSchema old) (pn : PlainSchema new)
    (hadd : ∀ n s t c y, old.getTable n = some s → new.getTable n = some t → s.column c = none →
      t.column c = some y → AddableColumn env p y)
    (hval : ∀ n s t c y, old.getTable n = some s → new.getTable n = some t → s.column c = none →
      t.column c = some y → ∃ v, NewValue y v) {db : SDb}
    (hfe : Feasible old new db) (hi : Implements old db) (pre : List Operation) (op : Operation)
    (post : List Operation) (h : diff old new = pre ++ op :: post) :
    Ready env p (fun n => (∃ t, new.getTable n = some t) ∧ ∃ u, db.lookup n = some u ∧ u.rows = [])
      (old.transformAll pre) op := by
  have hmem : op ∈ diff old new := by rw [h]; simp
  have hfo := diff_found ho hn hmem
  have hplain := plainOp_found (env := env) ho po pn hadd hfo
  have hok := diff_opOk hn hmem
  have hvalid : ∀ {m u}, (old.transformAll pre).getTable m = some u →
      (u.columns.map (·.name)).Nodup := by
    intro m u hu
    have hok' : ∀ o ∈ pre, opOk o := fun o ho => diff_opOk hn (by rw [h]; simp [ho])
    exact distinct_of_getTable (valid_transformAll ho _ hok') hu
  cases op with
  | addTable t =>
    obtain ⟨h1, h2⟩ := hfo
    obtain ⟨c1, c2⟩ := hfe.created _ t h2 h1
    exact ⟨(between_new ho hn h2 h1 h).2 post rfl, hplain, c1, hok, c2⟩
  | removeTable n =>
    obtain ⟨⟨t, h1⟩, h2⟩ := hfo
    refine ⟨⟨t, (between_old ho hn h1 h2 h).2 post rfl, po _ _ h1⟩, ?_⟩
    intro m u c k hu hm hc
    obtain ⟨t', ht', hc'⟩ := between_column ho hn h hu (column_of_mem (hvalid hu) hc)
    exact hfe.dropped n t h1 h2 m t' c k ht' hm (colByName_some hc').1
  | addColumn n c =>
    obtain ⟨s, t, h1, h2, h3, h4⟩ := hfo
    obtain ⟨u, hu, -, hk⟩ := between_both ho hn h1 h2 h
    obtain ⟨a1, a2, a3⟩ := hfe.added n s t _ c h1 h2 h3 h4
    exact ⟨u, hu, (hk _ _ rfl rfl _ rfl).trans h3, hplain.1, hplain.2.1, hplain.2.2, a1, a2, a3,
      hval n s t _ c h1 h2 h3 h4⟩
  | removeColumn n c =>
    obtain ⟨s, t, x, h1, h2, h3, h4⟩ := hfo
    obtain ⟨u, hu, hb, hk⟩ := between_both ho hn h1 h2 h
    obtain ⟨a1, a2, a3, k, z, w, hz, hw⟩ := hfe.removed n s t c x h1 h2 h3 h4
    have : ∃ z', u.column k = some z' := by
      rcases hb k with e | e
      · exact ⟨z, e.trans hz⟩
      · exact ⟨w, e.trans hw⟩
    obtain ⟨z', hz'⟩ := this
    refine ⟨u, x, k, z', hu, (hk _ _ rfl rfl _ rfl).trans h3, a1, a2, a3, hz', ?_⟩
    rintro rfl
    rw [h4] at hw
    cases hw
  | changeColumn n o c =>
    obtain ⟨s, t, h1, h2, h3, h4⟩ := hfo
    obtain ⟨u, hu, hb, hk⟩ := between_both ho hn h1 h2 h
    have hchg : c.beq o = false := by
      have hfil := diff_filter ho hn n
      rw [h1, h2] at hfil
      simp only [diffFor] at hfil
      have hm : Operation.changeColumn n o c ∈ diffTable s t := by
        rw [← hfil]
        exact List.mem_filter.2 ⟨hmem, by simp [Operation.target]⟩
      have hm2 : Operation.changeColumn n o c ∈ (diffTable s t).filter
          (fun op => op.colTarget == some c.name) :=
        List.mem_filter.2 ⟨hm, by simp [Operation.colTarget]⟩
      rw [diffTable_filter] at hm2
      simp only [ATable.column] at h3 h4
      rw [h3, h4] at hm2
      simp only [diffColFor] at hm2
      split at hm2
      · cases hm2
      · next hb => simpa using hb
    rcases hfe.changed n s t _ o c h1 h2 h3 h4 with ⟨e1, e2⟩ | ⟨e1, e2, e3, e4, e5⟩
    · rw [col_same_beq e1.symm e2] at hchg
      cases hchg
    · obtain ⟨d, hd, -⟩ := Both.some_left (h1 ▸ hi n)
      refine ⟨u, o, hu, (hk _ _ rfl rfl _ rfl).trans h3, hplain.2, e1, ?_, ⟨⟨t, h2⟩, d, hd, e3 d hd⟩,
        between_none ho hn e4 e5 h⟩
      have key : ∀ a ∈ u.columns, a.pk = true → ∃ b ∈ s.columns, b.pk = true ∧ b.name = a.name := by
        intro a ha hpk
        have hua := column_of_mem (hvalid hu) ha
        rcases hb a.name with e | e
        · rw [hua] at e
          have := colByName_some e.symm
          exact ⟨a, this.1, hpk, rfl⟩
        · rw [hua] at e
          cases hsa : s.column a.name with
          | none =>
            have := (hfe.added n s t _ a h1 h2 hsa e.symm).1
            rw [hpk] at this
            cases this
          | some b =>
            have hbm := colByName_some hsa
            rcases hfe.changed n s t _ b a h1 h2 hsa e.symm with ⟨q, -⟩ | ⟨q, -⟩
            · exact ⟨b, hbm.1, q.pk.trans hpk, hbm.2⟩
            · exact ⟨b, hbm.1, q.trans hpk, hbm.2⟩
      intro a ha b hb' pa pb
      obtain ⟨a', ma, ka, na⟩ := key a ha pa
      obtain ⟨b', mb, kb, nb⟩ := key b hb' pb
      rw [← na, ← nb]
      exact e2 a' ma b' mb ka kb
  | addTableConstraints t => trivial
  | removeTableConstraints t => trivial
  | addTableIfNotExists t => exact hfo.elim

theorem migration_stmts_run (hk : CoversDdl kw res) (hf : TypesFree res) (laws : StrictLaws env)
    (codecs : TextCodecs) {p : LitPrinters} {old new : ADB}
    (ho : ValidSchema old) (hn : ValidSchema new) (po : PlainSchema old) (pn : PlainSchema new)
    (hadd : ∀ n s t c y, old.getTable n = some s → new.getTable n = some t → s.column c = none →
      t.column c = some y → AddableColumn env p y)
    {db : SDb} (hfe : Feasible old new db) (hi : Implements old db) (hp : Proper.Db env db) :
    ∃ ts sss db', SqliteDdl.opTexts kw p old (diff old new) = .ok ts ∧
      AllMatch (Scripted res true) ts sss ∧ sss.flatten = allStmts p old (diff old new) ∧
      execAll env db (allStmts p old (diff old new)) = some db' := by
  have hval : ∀ n s t c y, old.getTable n = some s → new.getTable n = some t → s.column c = none →
      t.column c = some y → ∃ v, NewValue y v := by
    intro n s t c y h1 h2 h3 h4
    obtain ⟨st, ty, hty, hst⟩ := ((pn _ _ h2).columns y (colByName_some h4).1).type
    have : ∃ v, columnDefault y = .ok v := by
      simp only [columnDefault]
      cases y.default with
      | some v => exact ⟨v, rfl⟩
      | none =>
        simp only
        split
        · exact ⟨_, rfl⟩
        · rw [hty]
          cases ty <;> first | exact ⟨_, rfl⟩ | (simp [sqliteType] at hst)
    obtain ⟨v, hv⟩ := this
    exact ⟨v, (newValue_iff ⟨st, ty, hty, hst⟩).2 hv⟩
  exact ops_run (kw := kw) (res := res) (p := p) hk hf laws codecs
    ho po (feasible_ready ho hn po pn hadd hval hfe hi) (by
      rintro n ⟨⟨t, ht⟩, u, hu, -⟩ op hop hw
      have hfo := diff_found ho hn hop
      obtain ⟨s, hs, -⟩ := Both.some_right (hu ▸ hi n)
      cases op with
      | addTable a =>
        obtain rfl : a.name = n := hw
        rw [hfo.2] at hs
        cases hs
      | addTableIfNotExists a => exact hfo
      | removeTable m =>
        obtain rfl : m = n := hw
        rw [hfo.2] at ht
        cases ht
      | _ => exact hw) (fun n hn => hn.2) hi hp

theorem migration_runs (hk : CoversDdl kw res) (hf : TypesFree res) (laws : StrictLaws env)
    (codecs : TextCodecs) {p : LitPrinters} {old new : ADB}
    (ho : ValidSchema old) (hn : ValidSchema new) (po : PlainSchema old) (pn : PlainSchema new)
    (hadd : ∀ n s t c y, old.getTable n = some s → new.getTable n = some t → s.column c = none →
      t.column c = some y → AddableColumn env p y)
    {db : SDb} (hfe : Feasible old new db) (hi : Implements old db) (hp : Proper.Db env db) :
    ∃ text db', SqliteDdl.migrationSql kw p old (diff old new) = .ok text ∧
      execScript env res db text = some db' := by
  obtain ⟨ts, sss, db', h1, h2, h3, h4⟩ := migration_stmts_run (kw := kw) (res := res) hk hf laws codecs
    ho hn po pn hadd hfe hi hp
  obtain ⟨sss', f1, f2⟩ := scripted_filter h2
  have hscr := (scripted_join f1).append (scripted_newline (res := res) (sq := true))
  rw [List.append_nil, f2, h3] at hscr
  refine ⟨_, db', by simp only [SqliteDdl.migrationSql, h1, Gen.bind]; rfl, ?_⟩
  simp only [execScript, hscr.parse, h4]

end Butane.DdlP
