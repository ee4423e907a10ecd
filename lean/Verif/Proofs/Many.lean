/-
Lemmas about many-to-many fields.
-/
import Verif.Spec.Many
import Verif.Proofs.DataObject

namespace Butane
open Sql Spec Props

theorem ownerHas_names : ∀ c ∈ ["owner", "has"], IsName c := by
  intro c hc
  simp only [List.mem_cons, List.not_mem_nil, or_false] at hc
  rcases hc with rfl | rfl <;> exact nameOf rfl (by decide) (by decide)

theorem Spec.LinkSession.owner_plain {s : Session} {table : String} (h : LinkSession s table) :
    PlainName s.reserved "owner" :=
  ⟨ownerHas_names _ (by simp), by decide, h.owner⟩

theorem Spec.OnlyTable.refl {t : String} {db : Db} : OnlyTable t db db := ⟨rfl, fun _ _ => rfl⟩

theorem Spec.OnlyTable.trans {t : String} {a b c : Db} (h : OnlyTable t a b) (h' : OnlyTable t b c) :
    OnlyTable t a c := ⟨h'.1.trans h.1, fun x hx => (h'.2 x hx).trans (h.2 x hx)⟩

theorem onlyTable_setRows {t : String} {db : Db} {rows : List Row} : OnlyTable t db (setRows db t rows) :=
  ⟨rfl, fun x hx => by simp [setRows, hx]⟩

/-- One insert. -/
theorem insert_link {s : Session} {table : String} {OKey IKey : DbVal → Prop} {db : Db}
    (hs : LinkSession s table) (ht : LinkTable s table OKey IKey db) {o v : SqlVal}
    (ho : OKey (toDb o)) (hv : IKey (toDb v)) :
    ∃ db', Many.exec s false db (s.b.insert s.kw table ["owner", "has"] [o, v]) = .ok db' ∧
      links db' table = links db table ++ [(toDb o, toDb v)] ∧
      LinkTable s table OKey IKey db' ∧ OnlyTable table db db' := by
  obtain ⟨new, h1, _, h3⟩ := insert_stores_partial (b := s.b) s.rel hs.covers s.env (db := db)
    (table := table) (cols := ["owner", "has"]) (vals := [o, v]) hs.name ownerHas_names (by simp)
    (by simp) rfl (fun _ => by decide) ht.exists_ (hs.columns _)
  have hno : ¬∃ r ∈ db.rows table, Equal s.rel (r.val (s.env.key table)) (new.val (s.env.key table)) := by
    rintro ⟨r, hr, he⟩
    exact he.1 (ht.nokey r hr)
  have how : new.val "owner" = toDb o := h1.2.1 0 _ _ rfl rfl
  have hha : new.val "has" = toDb v := h1.2.1 1 _ _ rfl rfl
  have hrows : (setRows db table (db.rows table ++ [new])).rows table = db.rows table ++ [new] := by
    simp [setRows]
  refine ⟨setRows db table (db.rows table ++ [new]), ?_, ?_, ⟨ht.exists_, ?_, ?_, ?_⟩,
    onlyTable_setRows⟩
  · simp only [Many.exec, Bool.false_eq_true, if_false, exec_of_text (h3 hno)]
  · simp only [links, hrows, List.map_append, List.map_cons, List.map_nil, how, hha]
  all_goals rw [hrows]
  all_goals intro r hr
  all_goals rcases List.mem_append.1 hr with h | h
  · exact ht.columns r h
  · obtain rfl := List.mem_singleton.1 h
    intro c hc
    rw [h1.1]
    exact hs.columns _ c hc
  · exact ht.keys r h
  · obtain rfl := List.mem_singleton.1 h
    rw [how, hha]
    exact ⟨ho, hv⟩
  · exact ht.nokey r h
  · obtain rfl := List.mem_singleton.1 h
    rw [h1.2.2 _ hs.key]
    exact hs.nokey _

/-- The loop of `save` with any failures. -/
theorem insertAll_spec {s : Session} {table : String} {OKey IKey : DbVal → Prop}
    (hs : LinkSession s table) {o : SqlVal} (ho : OKey (toDb o)) (fails : Nat → Bool) :
    ∀ (vals : List SqlVal) (n : Nat) {db : Db}, LinkTable s table OKey IKey db →
      (∀ v ∈ vals, IKey (toDb v)) →
      ∃ db' done, links db' table = links db table ++ done.map (fun v => (toDb o, toDb v)) ∧
        LinkTable s table OKey IKey db' ∧ OnlyTable table db db' ∧
        ((vals = done ∧ Many.insertAll s fails table o n db vals = (db', [], none) ∧
            ∀ i, i < vals.length → fails (n + i) = false) ∨
          ∃ v rest, vals = done ++ v :: rest ∧ fails (n + done.length) = true ∧
            Many.insertAll s fails table o n db vals = (db', rest, some .db)) := by
  intro vals
  induction vals with
  | nil =>
    intro n db ht _
    exact ⟨db, [], by simp, ht, .refl, .inl ⟨rfl, rfl, by simp⟩⟩
  | cons v vs ih =>
    intro n db ht hv
    cases hf : fails n with
    | true =>
      refine ⟨db, [], by simp, ht, .refl, .inr ⟨v, vs, rfl, by simpa using hf, ?_⟩⟩
      simp [Many.insertAll, Many.exec, hf]
    | false =>
      obtain ⟨db1, h1, h2, h3, h4⟩ := insert_link hs ht ho (hv v (by simp))
      obtain ⟨db2, done, g1, g2, g3, g4⟩ := ih (n + 1) h3 (fun w hw => hv w (by simp [hw]))
      refine ⟨db2, v :: done, by rw [g1, h2]; simp, g2, h4.trans g3, ?_⟩
      rcases g4 with ⟨rfl, g5, g6⟩ | ⟨w, rest, rfl, g5, g6⟩
      · refine .inl ⟨rfl, ?_, ?_⟩
        · simp only [Many.insertAll, hf, h1, g5]
        · intro i hi
          cases i with
          | zero => simpa using hf
          | succ i =>
            have := g6 i (by simpa using hi)
            rw [← this]
            congr 1
            omega
      · refine .inr ⟨w, rest, rfl, ?_, ?_⟩
        · rw [← g5]
          congr 1
          simp only [List.length_cons]
          omega
        · simp only [Many.insertAll, hf, h1, g6]

theorem links_filter {s : Session} {table : String} {OKey IKey : DbVal → Prop} {db : Db}
    (ht : LinkTable s table OKey IKey db) {p : Row → Bool} {q : DbVal × DbVal → Bool}
    (h : ∀ r ∈ db.rows table, p r = q (r.val "owner", r.val "has")) :
    links (setRows db table ((db.rows table).filter p)) table = (links db table).filter q ∧
      LinkTable s table OKey IKey (setRows db table ((db.rows table).filter p)) := by
  have hrows : (setRows db table ((db.rows table).filter p)).rows table = (db.rows table).filter p := by
    simp [setRows]
  refine ⟨?_, ht.exists_, ?_, ?_, ?_⟩
  · simp only [links, hrows, List.filter_map]
    congr 1
    exact List.filter_congr h
  all_goals rw [hrows]; intro r hr
  · exact ht.columns r (List.mem_filter.1 hr).1
  · exact ht.keys r (List.mem_filter.1 hr).1
  · exact ht.nokey r (List.mem_filter.1 hr).1

/-- Deleting all links to some items. -/
theorem delete_items {s : Session} {table : String} {OKey IKey : DbVal → Prop} {db : Db}
    (hs : LinkSession s table) (hI : KeysOK s IKey) (ht : LinkTable s table OKey IKey db)
    {vs : List SqlVal} (hne : vs ≠ []) (hv : ∀ v ∈ vs, IKey (toDb v))
    (hfit : Fits s.b vs.length) :
    ∃ db', Many.exec s false db (s.b.deleteWhere s.kw table (.inVals "has" vs)) = .ok db' ∧
      links db' table = (links db table).filter (fun l => l.2 ∉ vs.map toDb) ∧
      LinkTable s table OKey IKey db' ∧ OnlyTable table db db' := by
  have hlen : (valsBool (.inVals "has" vs)).length ≤ vs.length := by
    simp only [valsBool]
    clear hne hv hfit
    induction vs with
    | nil => simp [valsVals]
    | cons v vs ih =>
      simp only [valsVals, List.length_append, List.length_cons]
      have : (valsVal v).length ≤ 1 := by cases v <;> simp [valsVal]
      omega
  have h := exec_deleteWhere (s := s) (db := db) (table := table) (e := .inVals "has" vs) hs.covers
    hs.name ht.exists_ (ownerHas_names _ (by simp)) (.inr hne)
    (fun r hr => ⟨ht.columns r hr _ (by simp), by simp⟩)
    (fun hb => Nat.le_trans hlen (hfit (by cases hs' : s.b <;> simp_all [Backend.isSqlite])))
  have hp : ∀ r ∈ db.rows table, (!decide (boolValue s.rel db r (.inVals "has" vs) = some true)) =
      (fun l : DbVal × DbVal => decide (l.2 ∉ vs.map toDb)) (r.val "owner", r.val "has") := by
    intro r hr
    have : boolValue s.rel db r (.inVals "has" vs) = some true ↔ r.val "has" ∈ vs.map toDb := by
      simp only [boolValue, in3_true]
      constructor
      · rintro ⟨x, hx, he⟩
        obtain ⟨v, hv', rfl⟩ := List.mem_map.1 hx
        rw [(equal_iff hI (ht.keys r hr).2 (hv v hv')).1 he]
        exact hx
      · intro hx
        obtain ⟨v, hv', he⟩ := List.mem_map.1 hx
        exact ⟨_, hx, (equal_iff hI (ht.keys r hr).2 (he ▸ hv v hv')).2 rfl⟩
    simp only [this, decide_not]
  obtain ⟨h1, h2⟩ := links_filter (q := fun l => decide (l.2 ∉ vs.map toDb)) ht hp
  exact ⟨_, by simp only [Many.exec, Bool.false_eq_true, if_false, h], h1, h2, onlyTable_setRows⟩

/-- Deleting all links of an owner. -/
theorem delete_owner {s : Session} {table : String} {OKey IKey : DbVal → Prop} {db : Db}
    (hs : LinkSession s table) (hO : KeysOK s OKey) (ht : LinkTable s table OKey IKey db)
    {o : SqlVal} (ho : OKey (toDb o)) :
    ∃ db', Many.exec s false db (s.b.deleteWhere s.kw table (.cmp .eq "owner" (.val o))) = .ok db' ∧
      links db' table = othersThan (links db table) (toDb o) ∧
      LinkTable s table OKey IKey db' ∧ OnlyTable table db db' := by
  have h := exec_deleteWhere (s := s) (db := db) (table := table) (e := .cmp .eq "owner" (.val o))
    hs.covers hs.name ht.exists_ ⟨hs.owner_plain, trivial⟩ trivial
    (fun r hr => ⟨⟨ht.columns r hr _ (by simp), by simp⟩, trivial⟩)
    (by
      intro _
      simp only [valsBool, valsExpr]
      split
      · simp
      · cases o <;> simp [valsVal])
  have hp : ∀ r ∈ db.rows table,
      (!decide (boolValue s.rel db r (.cmp .eq "owner" (.val o)) = some true)) =
      (fun l : DbVal × DbVal => decide (l.1 ≠ toDb o)) (r.val "owner", r.val "has") := by
    intro r hr
    simp only [key_selects hO (ht.keys r hr).1 ho, ne_eq, decide_not]
  obtain ⟨h1, h2⟩ := links_filter (q := fun l => decide (l.1 ≠ toDb o)) ht hp
  exact ⟨_, by simp only [Many.exec, Bool.false_eq_true, if_false, h], h1, h2, onlyTable_setRows⟩

theorem itemsOf_append (a b : List (DbVal × DbVal)) (k : DbVal) :
    itemsOf (a ++ b) k = itemsOf a k ++ itemsOf b k := by simp [itemsOf]

theorem itemsOf_own (vs : List SqlVal) (k : DbVal) :
    itemsOf (vs.map fun v => (k, toDb v)) k = vs.map toDb := by
  simp [itemsOf, List.filter_map, Function.comp_def]

theorem othersThan_append (a b : List (DbVal × DbVal)) (k : DbVal) :
    othersThan (a ++ b) k = othersThan a k ++ othersThan b k := by simp [othersThan]

theorem othersThan_own (vs : List SqlVal) (k : DbVal) :
    othersThan (vs.map fun v => (k, toDb v)) k = [] := by
  simp [othersThan]

theorem itemsOf_filter (ls : List (DbVal × DbVal)) (k : DbVal) (p : DbVal → Bool) :
    itemsOf (ls.filter fun l => p l.2) k = (itemsOf ls k).filter p := by
  simp only [itemsOf, List.filter_map, List.filter_filter]
  congr 1
  apply List.filter_congr
  intro l _
  simp [Bool.and_comm]

theorem itemsOf_others (ls : List (DbVal × DbVal)) (k : DbVal) : itemsOf (othersThan ls k) k = [] := by
  simp [itemsOf, othersThan]

theorem othersThan_idem (ls : List (DbVal × DbVal)) (k : DbVal) :
    othersThan (othersThan ls k) k = othersThan ls k := by
  simp [othersThan]

/-- What `save` does when no statement fails. -/
theorem save_links {s : Session} {OKey IKey : DbVal → Prop} {db : Db} {m : Many} {o : SqlVal}
    (hs : LinkSession s m.itemTable) (hI : KeysOK s IKey)
    (ht : LinkTable s m.itemTable OKey IKey db) (hown : m.owner = some o) (ho : OKey (toDb o))
    (hnew : ∀ v ∈ m.newValues, IKey (toDb v)) (hrem : ∀ v ∈ m.removedValues, IKey (toDb v))
    (hfit : Fits s.b m.removedValues.length) :
    ∃ db', m.save s (fun _ => false) db =
        (db', { m with newValues := [], removedValues := [] }, none) ∧
      links db' m.itemTable =
        (links db m.itemTable ++ m.newValues.reverse.map (fun v => (toDb o, toDb v))).filter
          (fun l => l.2 ∉ m.removedValues.map toDb) ∧
      LinkTable s m.itemTable OKey IKey db' ∧ OnlyTable m.itemTable db db' := by
  obtain ⟨db1, done, h1, h2, h3, h4⟩ := insertAll_spec hs ho (fun _ => false) m.newValues.reverse 0 ht
    (by simpa using hnew)
  rcases h4 with ⟨rfl, h5, _⟩ | ⟨_, _, _, h, _⟩
  · cases hr : m.removedValues with
    | nil =>
      refine ⟨db1, ?_, ?_, h2, h3⟩
      · simp [Many.save, hown, h5, hr]
      · simp [h1]
    | cons r rs =>
      rw [hr] at hrem hfit
      obtain ⟨db2, g1, g2, g3, g4⟩ := delete_items hs hI h2 (vs := r :: rs) (by simp) hrem hfit
      refine ⟨db2, ?_, ?_, g3, h3.trans g4⟩
      · simp [Many.save, hown, h5, hr, g1]
      · rw [g2, h1]
  · cases h

/-- What `delete` does when the statement does not fail. -/
theorem delete_links {s : Session} {OKey IKey : DbVal → Prop} {db : Db} {m : Many} {o : SqlVal}
    (hs : LinkSession s m.itemTable) (hO : KeysOK s OKey)
    (ht : LinkTable s m.itemTable OKey IKey db) (hown : m.owner = some o) (ho : OKey (toDb o)) :
    ∃ db', m.delete s false db =
        (db', { m with newValues := [], removedValues := [], cache := some [] }, none) ∧
      links db' m.itemTable = othersThan (links db m.itemTable) (toDb o) ∧
      LinkTable s m.itemTable OKey IKey db' ∧ OnlyTable m.itemTable db db' := by
  obtain ⟨db', h1, h2⟩ := delete_owner hs hO ht ho
  exact ⟨db', by simp [Many.delete, hown, h1], h2⟩

theorem addAll_spec {im : ModelDef} {m : Many} {os : List Obj} {vs : List SqlVal}
    (h : os.map im.pkVal = vs.map .ok) :
    ∃ c, m.addAll im os = ({ m with newValues := m.newValues ++ vs, cache := c }, none) := by
  induction os generalizing m vs with
  | nil =>
    cases vs with
    | nil => exact ⟨m.cache, by simp [Many.addAll]⟩
    | cons v vs => simp at h
  | cons o os ih =>
    cases vs with
    | nil => simp at h
    | cons v vs =>
      simp only [List.map_cons, List.cons.injEq] at h
      obtain ⟨c, hc⟩ := ih (m := { m with cache := none, newValues := m.newValues ++ [v] }) h.2
      refine ⟨c, ?_⟩
      simp only [Many.addAll, Many.add, h.1, hc]
      simp

/-- What `set` does when no statement fails and all values have keys. -/
theorem set_links {im : ModelDef} {s : Session} {OKey IKey : DbVal → Prop} {db : Db} {m : Many}
    {o : SqlVal} (hs : LinkSession s m.itemTable) (hO : KeysOK s OKey) (hI : KeysOK s IKey)
    (ht : LinkTable s m.itemTable OKey IKey db) (hown : m.owner = some o) (ho : OKey (toDb o))
    {os : List Obj} {vs : List SqlVal} (hvs : os.map im.pkVal = vs.map .ok)
    (hnew : ∀ v ∈ vs, IKey (toDb v)) :
    ∃ db', m.set im s (fun _ => false) db os =
        (db', { m with newValues := [], removedValues := [], cache := some os }, none) ∧
      links db' m.itemTable = othersThan (links db m.itemTable) (toDb o) ++
        vs.reverse.map (fun v => (toDb o, toDb v)) ∧
      LinkTable s m.itemTable OKey IKey db' ∧ OnlyTable m.itemTable db db' := by
  obtain ⟨db1, h1, h2, h3, h4⟩ := delete_links hs hO ht hown ho
  obtain ⟨c, hc⟩ := addAll_spec (m := { m with newValues := [], removedValues := [], cache := some [] }) hvs
  obtain ⟨db2, g1, g2, g3, g4⟩ := save_links
    (m := { m with newValues := [] ++ vs, removedValues := [], cache := c }) hs hI h3 hown ho
    (by simpa using hnew) (by simp) (fun _ => by simp)
  refine ⟨db2, ?_, ?_, g3, h4.trans g4⟩
  · simp only [Many.set, h1, hc, g1]
  · rw [g2, h2]
    simp

/-! ### Loading -/

theorem row_stored {s : Session} {m : ModelDef} {pk : Field} {Key : DbVal → Prop} {st : Store}
    {db : Db} (hh : Holds m s pk Key st db) {r : Row} (hr : r ∈ db.rows m.table) :
    ∃ o, st (r.val pk.name) = some o ∧ Stores m o r ∧ Readable m s o := by
  cases hst : st (r.val pk.name) with
  | none => exact absurd rfl (hh.absent _ hst r hr)
  | some o =>
    obtain ⟨r', hr', he, hs, hd⟩ := hh.present _ _ hst
    refine ⟨o, rfl, ?_, hd⟩
    have h1 := filter_key_unique (f := fun r : Row => r.val pk.name) hh.distinct hr rfl
    have h2 := filter_key_unique (f := fun r : Row => r.val pk.name) hh.distinct hr' he
    rw [h1] at h2
    rw [(List.cons.inj h2).1]
    exact hs

theorem objKey_same {s : Session} {m : ModelDef} {pk : Field} (hm : ModelOK s m pk) {o o' : Obj}
    (h : SameObj m o' o) {r : Row} (hs : Stores m o r) : objKey m o' = some (r.val pk.name) := by
  have h1 := h pk hm.pk_mem hm.pk_row
  obtain ⟨v, h2, h3⟩ := hs pk hm.pk_mem hm.pk_row
  rw [h2] at h1
  unfold objKey ModelDef.pkVal
  rw [hm.pk_field]
  simp only [fieldVal] at h1
  cases ha : pk.isAuto with
  | true =>
    rw [ha, if_pos rfl] at h1
    simp [ha, h1, h3]
  | false =>
    rw [ha] at h1
    simp only [Bool.false_eq_true, if_false, Option.some.injEq] at h1
    simp [ha, h1, h3]

/-- Rows of the table are read as the stored objects. -/
theorem rows_objs {s : Session} {m : ModelDef} {pk : Field} {Key : DbVal → Prop} {st : Store}
    {db : Db} (hm : ModelOK s m pk) (hh : Holds m s pk Key st db) :
    ∀ rows : List Row, (∀ r ∈ rows, r ∈ db.rows m.table) →
      ∃ os, m.fromRows s (rows.map fun r => m.columns.map r.val) = .ok os ∧
        os.map (objKey m) = rows.map (fun r => some (r.val pk.name)) ∧
        ∀ o ∈ os, ∃ k o', objKey m o = some k ∧ st k = some o' ∧ SameObj m o o' := by
  intro rows
  induction rows with
  | nil => exact fun _ => ⟨[], rfl, rfl, by simp⟩
  | cons r rows ih =>
    intro h
    obtain ⟨os, h1, h2, h3⟩ := ih (fun x hx => h x (by simp [hx]))
    obtain ⟨o, g1, g2, g3⟩ := row_stored hh (h r (by simp))
    obtain ⟨o', g4, g5⟩ := fromRow_ok hm g2 g3
    have hk := objKey_same hm g5 g2
    refine ⟨o' :: os, ?_, ?_, ?_⟩
    · simp only [List.map_cons, ModelDef.fromRows, g4, h1]
    · simp only [List.map_cons, hk, h2]
    · intro x hx
      rcases List.mem_cons.1 hx with rfl | hx
      · exact ⟨_, o, hk, g1, g5⟩
      · exact h3 x hx

theorem where_ok {s : Session} {m : ModelDef} {pk : Field} {Key : DbVal → Prop} {st : Store}
    {db : Db} (hm : ModelOK s m pk) (hh : Holds m s pk Key st db) {e : BoolExpr} {sort : List Order}
    (hn : NamesOK s.reserved e) (hp : NeedsNoParens s.b.isSqlite .or e)
    (hs : ∀ r ∈ db.rows m.table, Scoped db r [] e) (hv : s.b.isSqlite = false → (valsBool e).length ≤ 126)
    (hsort : ∀ o ∈ sort, o.column ∈ m.columns) :
    QueryOK s.b.isSqlite s.reserved db { (Query.new m.table).withFilter e with sort := sort } m.columns where
  table := hm.table
  exists_ := hh.table.1
  cols_ne := by
    intro h
    have := hm.pk_col
    rw [h] at this
    cases this
  cols := fun c hc => ⟨hm.columns_names c hc, fun r hr => hh.table.2 r hr c hc⟩
  sort := fun o ho => ⟨hm.columns_names _ (hsort o ho), fun r hr => hh.table.2 r hr _ (hsort o ho)⟩
  filter := by
    intro x hx
    obtain rfl : e = x := Option.some.inj hx
    exact ⟨hn, hp, hs, hv⟩

/-- Loading by a condition has a result. -/
theorem load_where_exists {s : Session} {m : ModelDef} {pk : Field} {Key : DbVal → Prop} {st : Store}
    {db : Db} (hm : ModelOK s m pk) (hh : Holds m s pk Key st db) {e : BoolExpr}
    (hn : NamesOK s.reserved e) (hp : NeedsNoParens s.b.isSqlite .or e)
    (hs : ∀ r ∈ db.rows m.table, Scoped db r [] e) (hv : s.b.isSqlite = false → (valsBool e).length ≤ 126)
    {sort : List Order} (hsort : ∀ x ∈ sort, x.column ∈ m.columns)
    (hex : ∀ rows : List Row, ∃ rows' : List Row, rows'.Perm rows ∧ rows'.Pairwise (InOrder s.le sort)) :
    ∃ res, m.LoadOut s db { (Query.new m.table).withFilter e with sort := sort } res := by
  have hq := where_ok (sort := sort) hm hh hn hp hs hv hsort
  obtain ⟨rows, h1, h2⟩ := hex (matching s.rel db m.table (some e))
  exact ⟨_, _, (load_result_partial (b := s.b) s.rel s.le hm.covers hq
    (by intro x hx; cases hx) (by intro x hx; cases hx) (by intro _ _ o ho; cases ho) _).2
    ⟨rows, ⟨rows, h1, h2, rfl⟩, rfl⟩, rfl⟩

theorem no_order (le : DbVal → DbVal → Bool) (rows : List Row) :
    ∃ rows' : List Row, rows'.Perm rows ∧ rows'.Pairwise (InOrder le []) :=
  ⟨rows, .refl _, List.pairwise_of_forall (fun _ _ => trivial)⟩

/-- Loading by a condition shows the objects of the rows that satisfy it. -/
theorem load_where {s : Session} {m : ModelDef} {pk : Field} {Key : DbVal → Prop} {st : Store}
    {db : Db} (hm : ModelOK s m pk) (hh : Holds m s pk Key st db) {e : BoolExpr} {sort : List Order}
    {P : DbVal → Prop} (hn : NamesOK s.reserved e) (hp : NeedsNoParens s.b.isSqlite .or e)
    (hs : ∀ r ∈ db.rows m.table, Scoped db r [] e) (hv : s.b.isSqlite = false → (valsBool e).length ≤ 126)
    (hsort : ∀ o ∈ sort, o.column ∈ m.columns)
    (hP : ∀ r ∈ db.rows m.table, boolValue s.rel db r e = some true ↔ P (r.val pk.name))
    {res : Except OpErr (List Obj)}
    (h : m.LoadOut s db { (Query.new m.table).withFilter e with sort := sort } res) :
    ∃ os, res = .ok os ∧ Shows m st os P ∧
      ∃ rows : List Row, rows.Pairwise (InOrder s.le sort) ∧
        os.map (objKey m) = rows.map (fun r => some (r.val pk.name)) := by
  have hq := where_ok hm hh hn hp hs hv hsort
  obtain ⟨out, h1, rfl⟩ := h
  obtain ⟨rows, ⟨all, h2, h3, h4⟩, rfl⟩ := (load_result_partial (b := s.b) s.rel s.le hm.covers hq
    (by intro x hx; cases hx) (by intro x hx; cases hx) (by intro _ _ o ho; cases ho) out).1 h1
  have h4 : rows = all := h4
  subst h4
  have h2 : rows.Perm ((db.rows m.table).filter fun r => boolValue s.rel db r e = some true) := h2
  have hmem : ∀ r ∈ rows, r ∈ db.rows m.table := fun r hr => (List.mem_filter.1 (h2.mem_iff.1 hr)).1
  obtain ⟨os, g1, g2, g3⟩ := rows_objs hm hh rows hmem
  refine ⟨os, g1, ⟨?_, g3, ?_⟩, rows, h3, g2⟩
  · rw [g2]
    have : (((db.rows m.table).filter fun r => boolValue s.rel db r e = some true).map
        fun r => some (r.val pk.name)).Nodup := by
      rw [List.Nodup, List.pairwise_map]
      refine (List.Pairwise.filter _ hh.distinct).imp ?_
      intro a b hab he
      exact hab (Option.some.inj he)
    exact ((h2.map fun r => some (r.val pk.name)).nodup_iff).2 this
  · intro k
    rw [g2]
    constructor
    · intro hk
      obtain ⟨r, hr, he⟩ := List.mem_map.1 hk
      obtain rfl := Option.some.inj he
      obtain ⟨hr1, hr2⟩ := List.mem_filter.1 (h2.mem_iff.1 hr)
      obtain ⟨o, ho, _⟩ := row_stored hh hr1
      exact ⟨⟨o, ho⟩, (hP r hr1).1 (of_decide_eq_true hr2)⟩
    · rintro ⟨⟨o, ho⟩, hk⟩
      obtain ⟨r, hr, he, _⟩ := hh.present _ _ ho
      refine List.mem_map.2 ⟨r, h2.mem_iff.2 (List.mem_filter.2 ⟨hr, decide_eq_true ((hP r hr).2 ?_)⟩), by rw [he]⟩
      rw [he]
      exact hk

theorem valsVals_le (vs : List SqlVal) : (valsVals vs).length ≤ vs.length := by
  induction vs with
  | nil => simp [valsVals]
  | cons v vs ih =>
    simp only [valsVals, List.length_append, List.length_cons]
    have : (valsVal v).length ≤ 1 := by cases v <;> simp [valsVal]
    omega

theorem fits_vals {s : Session} {n k : Nat} (hfit : Fits s.b n) (h : k ≤ n) :
    s.b.isSqlite = false → k ≤ 126 := by
  intro hb
  exact Nat.le_trans h (hfit (by cases hs' : s.b <;> simp_all [Backend.isSqlite]))

theorem load_in_exists {s : Session} {m : ModelDef} {pk : Field} {Key : DbVal → Prop} {st : Store}
    {db : Db} (hm : ModelOK s m pk) (hh : Holds m s pk Key st db)
    {vs : List SqlVal} (hne : vs ≠ []) (hfit : Fits s.b vs.length) :
    ∃ res, m.LoadOut s db ((Query.new m.table).withFilter (.inVals pk.name vs)) res :=
  load_where_exists (sort := []) (e := .inVals pk.name vs) hm hh hm.pk_plain.1 (.inr hne)
    (fun r hr => ⟨hh.table.2 r hr _ hm.pk_col, by simp⟩) (fits_vals hfit (valsVals_le vs)) (by simp)
    (no_order _)

/-- Loading the items with some keys. -/
theorem load_in {s : Session} {m : ModelDef} {pk : Field} {Key : DbVal → Prop} {st : Store}
    {db : Db} (hm : ModelOK s m pk) (hK : KeysOK s Key) (hh : Holds m s pk Key st db)
    {vs : List SqlVal} (hne : vs ≠ []) (hv : ∀ v ∈ vs, Key (toDb v)) (hfit : Fits s.b vs.length)
    {res : Except OpErr (List Obj)}
    (h : m.LoadOut s db ((Query.new m.table).withFilter (.inVals pk.name vs)) res) :
    ∃ os, res = .ok os ∧ Shows m st os (fun k => k ∈ vs.map toDb) := by
  obtain ⟨os, h1, h2, _⟩ := load_where (sort := []) (e := .inVals pk.name vs)
    (P := fun k => k ∈ vs.map toDb) hm hh hm.pk_plain.1 (.inr hne)
    (fun r hr => ⟨hh.table.2 r hr _ hm.pk_col, by simp⟩) (fits_vals hfit (valsVals_le vs))
    (by simp) (by
      intro r hr
      simp only [boolValue, in3_true]
      constructor
      · rintro ⟨x, hx, he⟩
        obtain ⟨v, hv', rfl⟩ := List.mem_map.1 hx
        rw [(equal_iff hK (hh.keys r hr) (hv v hv')).1 he]
        exact hx
      · intro hx
        obtain ⟨v, hv', he⟩ := List.mem_map.1 hx
        exact ⟨_, hx, (equal_iff hK (hh.keys r hr) (he ▸ hv v hv')).2 rfl⟩) h
  exact ⟨os, h1, h2⟩

theorem load_linked_exists {s : Session} {m : ModelDef} {pk : Field} {OKey IKey : DbVal → Prop}
    {st : Store} {db : Db} {table : String} (hm : ModelOK s m pk)
    (hh : Holds m s pk IKey st db) (hs : LinkSession s table) (ht : LinkTable s table OKey IKey db)
    (o : SqlVal) {sort : List Order} (hsort : ∀ x ∈ sort, x.column ∈ m.columns)
    (hex : ∀ rows : List Row, ∃ rows' : List Row, rows'.Perm rows ∧ rows'.Pairwise (InOrder s.le sort)) :
    ∃ res, m.LoadOut s db { (Query.new m.table).withFilter
      (.subquery pk.name table "has" (.cmp .eq "owner" (.val o))) with sort := sort } res :=
  load_where_exists (e := .subquery pk.name table "has" (.cmp .eq "owner" (.val o))) hm hh
    ⟨hm.pk_plain.1, hs.name, ownerHas_names _ (by simp), hs.owner_plain, trivial⟩ trivial
    (fun r hr => ⟨⟨hh.table.2 r hr _ hm.pk_col, by simp⟩, ht.exists_, fun l hl =>
      ⟨ht.columns l hl _ (by simp), ⟨ht.columns l hl _ (by simp), by simp⟩, trivial⟩⟩)
    (by
      intro _
      simp only [valsBool, valsExpr]
      split
      · simp
      · cases o <;> simp [valsVal]) hsort hex

/-- Loading the items linked to an owner. -/
theorem load_linked {s : Session} {m : ModelDef} {pk : Field} {OKey IKey : DbVal → Prop} {st : Store}
    {db : Db} {table : String} (hm : ModelOK s m pk) (hO : KeysOK s OKey) (hI : KeysOK s IKey)
    (hh : Holds m s pk IKey st db) (hs : LinkSession s table) (ht : LinkTable s table OKey IKey db)
    {o : SqlVal} (ho : OKey (toDb o)) {sort : List Order} (hsort : ∀ x ∈ sort, x.column ∈ m.columns)
    {res : Except OpErr (List Obj)}
    (h : m.LoadOut s db { (Query.new m.table).withFilter
      (.subquery pk.name table "has" (.cmp .eq "owner" (.val o))) with sort := sort } res) :
    ∃ os, res = .ok os ∧ Shows m st os (fun k => k ∈ itemsOf (links db table) (toDb o)) ∧
      ∃ rows : List Row, rows.Pairwise (InOrder s.le sort) ∧
        os.map (objKey m) = rows.map (fun r => some (r.val pk.name)) := by
  refine load_where (sort := sort)
    (e := .subquery pk.name table "has" (.cmp .eq "owner" (.val o))) (P := fun k => k ∈ itemsOf (links db table) (toDb o)) hm hh
    ⟨hm.pk_plain.1, hs.name, ownerHas_names _ (by simp), hs.owner_plain, trivial⟩ trivial
    (fun r hr => ⟨⟨hh.table.2 r hr _ hm.pk_col, by simp⟩, ht.exists_, fun l hl =>
      ⟨ht.columns l hl _ (by simp), ⟨ht.columns l hl _ (by simp), by simp⟩, trivial⟩⟩)
    (by
      intro _
      simp only [valsBool, valsExpr]
      split
      · simp
      · cases o <;> simp [valsVal]) hsort ?_ h
  intro r hr
  simp only [boolValue, in3_true, itemsOf, links, List.mem_map, List.mem_filter]
  constructor
  · rintro ⟨x, ⟨l, ⟨hl1, hl2⟩, rfl⟩, he⟩
    have hl2 := (key_selects hO (ht.keys l hl1).1 ho).1 (of_decide_eq_true hl2)
    exact ⟨(l.val "owner", l.val "has"), ⟨⟨l, hl1, rfl⟩, by simpa using hl2⟩,
      ((equal_iff hI (hh.keys r hr) (ht.keys l hl1).2).1 he).symm⟩
  · rintro ⟨x, ⟨⟨l, hl1, rfl⟩, hl2⟩, he⟩
    have he : l.val "has" = r.val pk.name := he
    refine ⟨l.val "has", ⟨l, ⟨hl1, ?_⟩, rfl⟩, (equal_iff hI (hh.keys r hr) (ht.keys l hl1).2).2 he.symm⟩
    exact decide_eq_true ((key_selects hO (ht.keys l hl1).1 ho).2 (by simpa using hl2))

/-- `load_query` of an unloaded `Many`, with any order. -/
theorem load_query_exact {im : ModelDef} {pk : Field} {s : Session} {OKey IKey : DbVal → Prop}
    {st : Store} {o : SqlVal} {m : Many} {db : Db} (hm : ModelOK s im pk)
    (hh : Holds im s pk IKey st db) (hs : LinkSession s m.itemTable)
    (ht : LinkTable s m.itemTable OKey IKey db) (hO : KeysOK s OKey) (hI : KeysOK s IKey)
    (ho : OKey (toDb o)) (hnew : ∀ v ∈ m.newValues, IKey (toDb v)) (hfit : Fits s.b m.newValues.length)
    (hc : m.cache = none) {sort : List Order} (hsort : ∀ x ∈ sort, x.column ∈ im.columns)
    {res : Except OpErr (List Obj)} {m' : Many}
    (hl : m.LoadQueryOut im pk.name s db { (Query.new im.table).withFilter
      (.subquery pk.name m.itemTable "has" (.cmp .eq "owner" (.val o))) with sort := sort } res m') :
    ∃ saved pending, res = .ok (saved ++ pending) ∧
      m' = { m with cache := some (saved ++ pending) } ∧
      Shows im st saved (· ∈ itemsOf (links db m.itemTable) (toDb o)) ∧
      Shows im st pending (· ∈ m.newValues.map toDb) ∧
      ∃ rows : List Row, rows.Pairwise (InOrder s.le sort) ∧
        saved.map (objKey im) = rows.map (fun r => some (r.val pk.name)) := by
  simp only [Many.LoadQueryOut, hc] at hl
  obtain ⟨⟨r1, h1, h2⟩, rfl⟩ := hl
  obtain ⟨os, rfl, h3, hrows⟩ := load_linked (sort := sort) hm hO hI hh hs ht ho hsort h1
  simp only at h2
  cases hn : m.newValues.isEmpty with
  | true =>
    have he : m.newValues = [] := List.isEmpty_iff.1 hn
    rw [hn, if_pos rfl] at h2
    subst h2
    refine ⟨os, [], by simp, by simp, h3, ?_, hrows⟩
    rw [he]
    exact ⟨List.nodup_nil, by simp, by simp⟩
  | false =>
    have hne : m.newValues ≠ [] := by
      intro he
      rw [he] at hn
      cases hn
    simp only [hn, Bool.false_eq_true, if_false] at h2
    obtain ⟨r2, h4, h5⟩ := h2
    obtain ⟨more, rfl, h6⟩ := load_in hm hI hh hne hnew hfit h4
    simp only at h5
    subst h5
    exact ⟨os, more, rfl, rfl, h3, h6, hrows⟩

theorem load_query_exists {im : ModelDef} {pk : Field} {s : Session} {OKey IKey : DbVal → Prop}
    {st : Store} {o : SqlVal} {m : Many} {db : Db} (hm : ModelOK s im pk)
    (hh : Holds im s pk IKey st db) (hs : LinkSession s m.itemTable)
    (ht : LinkTable s m.itemTable OKey IKey db) (hO : KeysOK s OKey) (hI : KeysOK s IKey)
    (ho : OKey (toDb o)) (hnew : ∀ v ∈ m.newValues, IKey (toDb v)) (hfit : Fits s.b m.newValues.length)
    (hc : m.cache = none) {sort : List Order} (hsort : ∀ x ∈ sort, x.column ∈ im.columns)
    (hex : ∀ rows : List Row, ∃ rows' : List Row, rows'.Perm rows ∧ rows'.Pairwise (InOrder s.le sort)) :
    ∃ res m', m.LoadQueryOut im pk.name s db { (Query.new im.table).withFilter
      (.subquery pk.name m.itemTable "has" (.cmp .eq "owner" (.val o))) with sort := sort } res m' := by
  obtain ⟨r1, h1⟩ := load_linked_exists hm hh hs ht o hsort hex
  obtain ⟨os, rfl, _⟩ := load_linked (sort := sort) hm hO hI hh hs ht ho hsort h1
  simp only [Many.LoadQueryOut, hc]
  cases hn : m.newValues.isEmpty with
  | true => exact ⟨.ok os, { m with cache := some os }, ⟨_, h1, by simp [hn]⟩, rfl⟩
  | false =>
    have hne : m.newValues ≠ [] := by
      intro he
      rw [he] at hn
      cases hn
    obtain ⟨r2, h2⟩ := load_in_exists hm hh hne hfit
    obtain ⟨more, rfl, _⟩ := load_in hm hI hh hne hnew hfit h2
    refine ⟨.ok (os ++ more), { m with cache := some (os ++ more) }, ⟨_, h1, ?_⟩, rfl⟩
    simp only [hn, Bool.false_eq_true, if_false]
    exact ⟨_, h2, rfl⟩

/-- Rows can be put into the order of a column. -/
theorem sort_exists {le : DbVal → DbVal → Bool} (htot : ∀ a b, le a b = true ∨ le b a = true)
    (htrans : ∀ a b c, le a b = true → le b c = true → le a c = true) (d : Dir) (c : String)
    (rows : List Row) : ∃ rows' : List Row, rows'.Perm rows ∧ rows'.Pairwise (InOrder le [⟨d, c⟩]) := by
  cases d with
  | asc =>
    refine ⟨rows.mergeSort (fun a b => le (a.val c) (b.val c)), List.mergeSort_perm _ _, ?_⟩
    refine (List.pairwise_mergeSort (le := fun a b : Row => le (a.val c) (b.val c))
      (fun x y z => htrans _ _ _) (fun x y => by simpa using htot _ _) rows).imp ?_
    exact fun h => ⟨h, fun _ => trivial⟩
  | desc =>
    refine ⟨rows.mergeSort (fun a b => le (b.val c) (a.val c)), List.mergeSort_perm _ _, ?_⟩
    refine (List.pairwise_mergeSort (le := fun a b : Row => le (b.val c) (a.val c))
      (fun x y z h1 h2 => htrans _ _ _ h2 h1) (fun x y => by simpa using htot _ _) rows).imp ?_
    exact fun h => ⟨h, fun _ => trivial⟩

end Butane
