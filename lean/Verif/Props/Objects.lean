/-
C19 - C21: saving, loading and deleting objects.

The operations are `ModelDef.save`, `.delete`, `.GetOut`, `.TryGetOut`
(Model/DataObject.lean); every one of them generates statement texts that the database of
Spec/Stmt.lean tokenizes, parses and executes.  Spec/Objects.lean has the maps they are
compared with.
-/
import Verif.Proofs.DataObject

namespace Butane.Props
open Butane Sql Spec

/-! ### Fixtures -/

def exDecode (_ : String) : DbVal → Option SqlVal
  | .null => some .null
  | .int i => some (.bigInt (Int64.ofInt i))
  | .other v => some v

/-- The least positive number that is not a key. -/
def leastFree (rows : List Row) : Nat :=
  match (List.range (rows.length + 1)).find? fun (n : Nat) =>
      rows.all fun r => r.val "id" ≠ .int ((n : Int) + 1) with
  | some n => n + 1
  | none => 0

/-- The number after the largest key: what SQLite does for an `INTEGER PRIMARY KEY`
without `AUTOINCREMENT`, and `create_table` writes none for a key
(db/sqlite.rs:706-736). -/
def afterLargest (rows : List Row) : Int :=
  rows.foldl (fun acc r => match r.val "id" with | .int i => max acc (i + 1) | _ => acc) 1

def objEnv (next : List Row → Int) : Env where
  key t := if t = "page" then "slug" else "id"
  template t rows :=
    if t = "page" then rowOf [("slug", .null), ("likes", .null)]
    else rowOf [("id", .int (next rows)), ("name", .null)]

def exSession (b : Backend) (next : List Row → Int) : Session :=
  ⟨b, exKw, exRes, exRel, fun _ _ => true, objEnv next, exDecode⟩

/-- `#[model] struct Page { #[pk] slug: String, likes: i64, tags: Many<Tag> }` -/
def pageModel : ModelDef :=
  ⟨"page", [⟨"slug", true, .plain⟩, ⟨"likes", false, .plain⟩, ⟨"tags", false, .many⟩]⟩

/-- `#[model] struct Blog { id: AutoPk<i64>, name: String }` -/
def blogModel : ModelDef := ⟨"blog", [⟨"id", false, .autoPk⟩, ⟨"name", false, .plain⟩]⟩

def page (slug : String) (likes : Int64) : Obj :=
  ⟨none, fun c => if c = "slug" then .text slug else if c = "likes" then .bigInt likes else .null⟩

def blog (id : Option SqlVal) (name : String) : Obj :=
  ⟨id, fun c => if c = "name" then .text name else .null⟩

def emptyDb : Db := ⟨fun t => t ∈ ["page", "blog"], fun _ => []⟩

theorem nameIn {cs : List String} (h : ∀ c ∈ cs, c ∈ ["page", "blog", "slug", "likes", "tags", "id", "name"]) :
    ∀ c ∈ cs, IsName c := by
  intro c hc
  have := h c hc
  simp only [List.mem_cons, List.not_mem_nil, or_false] at this
  rcases this with rfl | rfl | rfl | rfl | rfl | rfl | rfl <;> exact nameOf rfl (by decide) (by decide)

theorem pageOK (b : Backend) (next : List Row → Int) :
    ModelOK (exSession b next) pageModel ⟨"slug", true, .plain⟩ where
  covers := exCovers
  excluded := rfl
  table := nameIn (cs := ["page"]) (by decide) _ (by decide)
  table_ne := by decide
  names := fun f hf => nameIn (cs := pageModel.fields.map (·.name)) (by decide) _ (List.mem_map.2 ⟨f, hf, rfl⟩)
  nodup := by decide
  verify := by decide
  pk_field := by decide
  pk_row := rfl
  pk_plain := ⟨nameIn (cs := ["slug"]) (by decide) _ (by decide), show upper "slug".toList ∉ grammarWords by decide, rfl⟩
  key := rfl
  template := by
    intro rows c hc
    have : c ∈ ["slug", "likes"] := hc
    simp only [List.mem_cons, List.not_mem_nil, or_false] at this
    rcases this with rfl | rfl <;> rfl

theorem blogOK (b : Backend) (next : List Row → Int) :
    ModelOK (exSession b next) blogModel ⟨"id", false, .autoPk⟩ where
  covers := exCovers
  excluded := rfl
  table := nameIn (cs := ["blog"]) (by decide) _ (by decide)
  table_ne := by decide
  names := fun f hf => nameIn (cs := blogModel.fields.map (·.name)) (by decide) _ (List.mem_map.2 ⟨f, hf, rfl⟩)
  nodup := by decide
  verify := by decide
  pk_field := by decide
  pk_row := rfl
  pk_plain := ⟨nameIn (cs := ["id"]) (by decide) _ (by decide), show upper "id".toList ∉ grammarWords by decide, rfl⟩
  key := rfl
  template := by
    intro rows c hc
    have : c ∈ ["id", "name"] := hc
    simp only [List.mem_cons, List.not_mem_nil, or_false] at this
    rcases this with rfl | rfl <;> rfl

def TextKey (k : DbVal) : Prop := ∃ t, k = text t
def IntKey (k : DbVal) : Prop := ∃ i : Int64, k = .int i.toInt

theorem textKeys (b : Backend) (next : List Row → Int) : KeysOK (exSession b next) TextKey :=
  ⟨fun _ hk h => (by
      obtain ⟨_, he⟩ := hk
      rw [he] at h
      cases h), fun a b _ _ => decide_eq_true_iff⟩

theorem intKeys (b : Backend) (next : List Row → Int) : KeysOK (exSession b next) IntKey :=
  ⟨fun _ hk h => (by
      obtain ⟨_, he⟩ := hk
      rw [he] at h
      cases h), fun a b _ _ => decide_eq_true_iff⟩

theorem page_readable (b : Backend) (next : List Row → Int) (slug : String) (n : Int64) :
    Readable pageModel (exSession b next) (page slug n) := by
  intro f hf hr v hv
  simp only [pageModel, List.mem_cons, List.not_mem_nil, or_false] at hf
  rcases hf with rfl | rfl | rfl
  · obtain rfl : SqlVal.text slug = v := by simpa [fieldVal, Field.isAuto, page] using hv
    rfl
  · obtain rfl : SqlVal.bigInt n = v := by simpa [fieldVal, Field.isAuto, page] using hv
    simp [exSession, exDecode, toDb]
  · cases hr

theorem blog_readable (b : Backend) (next : List Row → Int) (id : Option Int64) (name : String) :
    Readable blogModel (exSession b next) (blog (id.map .bigInt) name) := by
  intro f hf hr v hv
  simp only [blogModel, List.mem_cons, List.not_mem_nil, or_false] at hf
  rcases hf with rfl | rfl
  · cases id with
    | none => simp [fieldVal, Field.isAuto, blog] at hv
    | some i =>
      obtain rfl : SqlVal.bigInt i = v := by simpa [fieldVal, Field.isAuto, blog] using hv
      simp [exSession, exDecode, toDb]
  · obtain rfl : SqlVal.text name = v := by simpa [fieldVal, Field.isAuto, blog] using hv
    rfl

/-- An empty table holds the empty map. -/
theorem holds_empty {m : ModelDef} {s : Session} {pk : Field} {Key : DbVal → Prop} {db : Db}
    (h : db.has m.table = true) (he : db.rows m.table = []) :
    Holds m s pk Key (fun _ => none) db :=
  ⟨⟨h, by simp [he]⟩, by simp [he], by simp [he], by simp [he], by simp⟩

/-! ### C19 -/

/-- One operation. -/
theorem step_map {s : Session} {m : ModelDef} {pk : Field} {Key : DbVal → Prop}
    (hm : ModelOK s m pk) (hK : KeysOK s Key) (ha : pk.isAuto = false) {st : Store} {db : Db}
    (hh : Holds m s pk Key st db) {op : Op} (ho : OpOK m s pk Key op) :
    (∃ r db', Step m s db op r db') ∧
    ∀ r db', Step m s db op r db' → ∃ st', MapStep m (fun o => toDb (o.val pk.name)) st op r st' ∧
      Holds m s pk Key st' db' ∧ ∀ t, t ≠ m.table → db'.rows t = db.rows t := by
  have hset : ∀ rows' t, t ≠ m.table → (setRows db m.table rows').rows t = db.rows t := by
    intro rows' t ht
    simp [setRows, ht]
  cases op with
  | save o =>
    obtain ⟨rows', h1, h2⟩ := save_ok hm hK ha hh ho.1 ho.2
    refine ⟨⟨_, _, .save h1⟩, ?_⟩
    intro r db' h
    cases h with
    | save h =>
      rw [h1] at h
      cases h
      exact ⟨_, .save, h2, hset _⟩
    | save_err h => rw [h1] at h; cases h
  | delete o =>
    have hpk : m.pkVal o = .ok (o.val pk.name) := by simp [ModelDef.pkVal, hm.pk_field, ha]
    obtain ⟨rows', h1, h2⟩ := delete_ok hm hK hh hpk ho
    refine ⟨⟨_, _, .delete h1⟩, ?_⟩
    intro r db' h
    cases h with
    | delete h =>
      rw [h1] at h
      cases h
      exact ⟨_, .delete, h2, hset _⟩
    | delete_err h => rw [h1] at h; cases h
  | get id =>
    have key := tryGet_iff hm hK hh ho
    cases hst : st (toDb id) with
    | none =>
      rw [hst] at key
      refine ⟨⟨_, _, .get_err ⟨_, (key _).2 rfl, rfl⟩⟩, ?_⟩
      intro r db' h
      cases h with
      | get h =>
        obtain ⟨res, h1, h2⟩ := h
        rw [(key res).1 h1] at h2
        cases h2
      | get_err h =>
        obtain ⟨res, h1, h2⟩ := h
        rw [(key res).1 h1] at h2
        cases h2
        exact ⟨st, .get_none hst, hh, fun _ _ => rfl⟩
    | some o =>
      rw [hst] at key
      obtain ⟨o', hs, key⟩ := key
      refine ⟨⟨_, _, .get ⟨_, (key _).2 rfl, rfl⟩⟩, ?_⟩
      intro r db' h
      cases h with
      | get h =>
        obtain ⟨res, h1, h2⟩ := h
        rw [(key res).1 h1] at h2
        cases h2
        exact ⟨st, .get hst hs, hh, fun _ _ => rfl⟩
      | get_err h =>
        obtain ⟨res, h1, h2⟩ := h
        rw [(key res).1 h1] at h2
        cases h2
  | tryGet id =>
    have key := tryGet_iff hm hK hh ho
    cases hst : st (toDb id) with
    | none =>
      rw [hst] at key
      refine ⟨⟨_, _, .tryGet_none ((key _).2 rfl)⟩, ?_⟩
      intro r db' h
      cases h with
      | tryGet h => cases (key _).1 h
      | tryGet_err h => cases (key _).1 h
      | tryGet_none h => exact ⟨st, .tryGet_none hst, hh, fun _ _ => rfl⟩
    | some o =>
      rw [hst] at key
      obtain ⟨o', hs, key⟩ := key
      refine ⟨⟨_, _, .tryGet ((key _).2 rfl)⟩, ?_⟩
      intro r db' h
      cases h with
      | tryGet h =>
        cases (key _).1 h
        exact ⟨st, .tryGet hst hs, hh, fun _ _ => rfl⟩
      | tryGet_err h => cases (key _).1 h
      | tryGet_none h => cases (key _).1 h

/-- C19: every history of `save`, `delete`, `get` and `try_get` on a model without
automatic key answers like the map it is supposed to be, ends in a table holding exactly
that map's entries, and leaves every other table alone.  `key` is the object's primary
key as the database sees it.

Partial: the key field must not be called like a SQL keyword (`filter_reserved_field_violated`);
`ModelOK` has this as `pk_plain`. -/
theorem objects_are_map_partial {s : Session} {m : ModelDef} {pk : Field} {Key : DbVal → Prop}
    (hm : ModelOK s m pk) (hK : KeysOK s Key) (ha : pk.isAuto = false) :
    ∀ (ops : List Op), (∀ op ∈ ops, OpOK m s pk Key op) → ∀ {st : Store} {db : Db},
      Holds m s pk Key st db → ∀ {rs : List Reply} {db' : Db}, Runs m s db ops rs db' →
      ∃ st', MapRuns m (fun o => toDb (o.val pk.name)) st ops rs st' ∧
        Holds m s pk Key st' db' ∧ ∀ t, t ≠ m.table → db'.rows t = db.rows t := by
  intro ops
  induction ops with
  | nil =>
    intro _ st db hh rs db' h
    cases h
    exact ⟨st, .nil, hh, fun _ _ => rfl⟩
  | cons op ops ih =>
    intro ho st db hh rs db' h
    cases h with
    | cons h1 h2 =>
      obtain ⟨st1, a1, a2, a3⟩ := (step_map hm hK ha hh (ho op (by simp))).2 _ _ h1
      obtain ⟨st2, b1, b2, b3⟩ := ih (fun o h => ho o (by simp [h])) a2 h2
      exact ⟨st2, .cons a1 b1, b2, fun t ht => (b3 t ht).trans (a3 t ht)⟩

/-- C19: no history gets stuck; in particular every operation answers. -/
theorem objects_progress_partial {s : Session} {m : ModelDef} {pk : Field} {Key : DbVal → Prop}
    (hm : ModelOK s m pk) (hK : KeysOK s Key) (ha : pk.isAuto = false) :
    ∀ (ops : List Op), (∀ op ∈ ops, OpOK m s pk Key op) → ∀ {st : Store} {db : Db},
      Holds m s pk Key st db → ∃ rs db', Runs m s db ops rs db' := by
  intro ops
  induction ops with
  | nil => exact fun _ _ db _ => ⟨[], db, .nil⟩
  | cons op ops ih =>
    intro ho st db hh
    obtain ⟨⟨r, db1, h1⟩, h2⟩ := step_map hm hK ha hh (ho op (by simp))
    obtain ⟨st1, _, a2, _⟩ := h2 _ _ h1
    obtain ⟨rs, db2, h3⟩ := ih (fun o h => ho o (by simp [h])) a2
    exact ⟨_, _, .cons h1 h3⟩

def pageOps : List Op :=
  [.save (page "a" 1), .save (page "b" 2), .save (page "a" 3), .get (.text "a"), .delete (page "a" 0),
   .get (.text "a"), .tryGet (.text "b")]

theorem pageOps_ok (b : Backend) (next : List Row → Int) :
    ∀ op ∈ pageOps, OpOK pageModel (exSession b next) ⟨"slug", true, .plain⟩ TextKey op := by
  intro op h
  simp only [pageOps, List.mem_cons, List.not_mem_nil, or_false] at h
  rcases h with rfl | rfl | rfl | rfl | rfl | rfl | rfl
  · exact ⟨⟨_, rfl⟩, page_readable b next _ _⟩
  · exact ⟨⟨_, rfl⟩, page_readable b next _ _⟩
  · exact ⟨⟨_, rfl⟩, page_readable b next _ _⟩
  · exact ⟨_, rfl⟩
  · exact ⟨_, rfl⟩
  · exact ⟨_, rfl⟩
  · exact ⟨_, rfl⟩

/-- The history has a run, and every run answers like the map: two saves under one key
leave one entry, and the deleted one is gone. -/
example (b : Backend) : ∃ rs db' st', Runs pageModel (exSession b afterLargest) emptyDb pageOps rs db' ∧
    MapRuns pageModel (fun o => toDb (o.val "slug")) (fun _ => none) pageOps rs st' := by
  have hh : Holds pageModel (exSession b afterLargest) ⟨"slug", true, .plain⟩ TextKey (fun _ => none) emptyDb :=
    holds_empty rfl rfl
  obtain ⟨rs, db', h⟩ := objects_progress_partial (pageOK b _) (textKeys b _) rfl _ (pageOps_ok b _) hh
  obtain ⟨st', h', _⟩ := objects_are_map_partial (pageOK b _) (textKeys b _) rfl _ (pageOps_ok b _) hh h
  exact ⟨rs, db', st', h, h'⟩

/-! ### C20 -/

theorem autoStep_map {s : Session} {m : ModelDef} {pk : Field} {Key : DbVal → Prop} {cap : Nat}
    (hm : ModelOK s m pk) (hK : KeysOK s Key) (ha : pk.isAuto = true)
    (hfresh : FreshKeys s m pk Key cap) (hfit : Fits s.b m.columns.length) {st : Store} {db : Db}
    (hh : Holds m s pk Key st db) (hroom : (db.rows m.table).length < cap) {op : Op}
    (ho : AutoOpOK m s Key op) :
    (∃ r db', Step m s db op r db') ∧
    ∀ r db', Step m s db op r db' → ∃ st', AutoMapStep m st op r st' ∧
      Holds m s pk Key st' db' ∧ (db'.rows m.table).length ≤ (db.rows m.table).length + 1 ∧
      ∀ t, t ≠ m.table → db'.rows t = db.rows t := by
  have hset : ∀ rows' t, t ≠ m.table → (setRows db m.table rows').rows t = db.rows t := by
    intro rows' t ht
    simp [setRows, ht]
  cases op with
  | save o =>
    cases hauto : o.auto with
    | none =>
      obtain ⟨new, v, h1, h2, h3, h4, h5, h6⟩ := save_new_ok hm hK ha hfresh hfit hh hroom hauto ho.2
      refine ⟨⟨_, _, .save h1⟩, ?_⟩
      intro r db' h
      cases h with
      | save h =>
        rw [h1] at h
        cases h
        exact ⟨_, .insert hauto h4, h6, by simp [setRows], hset _⟩
      | save_err h => rw [h1] at h; cases h
    | some v =>
      obtain ⟨f, h1, h2, h3, h4⟩ := save_again_ok hm hK ha hfit hh hauto (ho.1 v hauto) ho.2
      refine ⟨⟨_, _, .save h1⟩, ?_⟩
      intro r db' h
      cases h with
      | save h =>
        rw [h1] at h
        cases h
        refine ⟨_, ?_, h4, by simp [setRows], hset _⟩
        cases hst : st (toDb v) with
        | none => exact .update_none hauto hst
        | some o' => exact .update hauto hst
      | save_err h => rw [h1] at h; cases h
  | delete o =>
    obtain ⟨v, hv, hkey⟩ := ho
    have hpk : m.pkVal o = .ok v := by simp [ModelDef.pkVal, hm.pk_field, ha, hv]
    obtain ⟨n, hn⟩ := exec_delete_key hm hK hh.table hh.keys hkey
    obtain ⟨rows', h1, h2⟩ := delete_ok hm hK hh hpk hkey
    have hle : ((setRows db m.table rows').rows m.table).length ≤ (db.rows m.table).length := by
      have h3 : m.delete s db o = .ok (setRows db m.table
          ((db.rows m.table).filter fun r => decide (r.val pk.name ≠ toDb v))) := by
        simp only [ModelDef.delete, hm.pk_field, hpk, hn]
      rw [h1] at h3
      rw [Except.ok.inj h3]
      simp only [setRows, if_true]
      exact List.length_filter_le _ _
    refine ⟨⟨_, _, .delete h1⟩, ?_⟩
    intro r db' h
    cases h with
    | delete h =>
      rw [h1] at h
      cases h
      exact ⟨_, .delete hv, h2, Nat.le_succ_of_le hle, hset _⟩
    | delete_err h => rw [h1] at h; cases h
  | get id =>
    have key := tryGet_iff hm hK hh ho
    cases hst : st (toDb id) with
    | none =>
      rw [hst] at key
      refine ⟨⟨_, _, .get_err ⟨_, (key _).2 rfl, rfl⟩⟩, ?_⟩
      intro r db' h
      cases h with
      | get h =>
        obtain ⟨res, h1, h2⟩ := h
        rw [(key res).1 h1] at h2
        cases h2
      | get_err h =>
        obtain ⟨res, h1, h2⟩ := h
        rw [(key res).1 h1] at h2
        cases h2
        exact ⟨st, .get_none hst, hh, Nat.le_succ _, fun _ _ => rfl⟩
    | some o =>
      rw [hst] at key
      obtain ⟨o', hs, key⟩ := key
      refine ⟨⟨_, _, .get ⟨_, (key _).2 rfl, rfl⟩⟩, ?_⟩
      intro r db' h
      cases h with
      | get h =>
        obtain ⟨res, h1, h2⟩ := h
        rw [(key res).1 h1] at h2
        cases h2
        exact ⟨st, .get hst hs, hh, Nat.le_succ _, fun _ _ => rfl⟩
      | get_err h =>
        obtain ⟨res, h1, h2⟩ := h
        rw [(key res).1 h1] at h2
        cases h2
  | tryGet id =>
    have key := tryGet_iff hm hK hh ho
    cases hst : st (toDb id) with
    | none =>
      rw [hst] at key
      refine ⟨⟨_, _, .tryGet_none ((key _).2 rfl)⟩, ?_⟩
      intro r db' h
      cases h with
      | tryGet h => cases (key _).1 h
      | tryGet_err h => cases (key _).1 h
      | tryGet_none h => exact ⟨st, .tryGet_none hst, hh, Nat.le_succ _, fun _ _ => rfl⟩
    | some o =>
      rw [hst] at key
      obtain ⟨o', hs, key⟩ := key
      refine ⟨⟨_, _, .tryGet ((key _).2 rfl)⟩, ?_⟩
      intro r db' h
      cases h with
      | tryGet h =>
        cases (key _).1 h
        exact ⟨st, .tryGet hst hs, hh, Nat.le_succ _, fun _ _ => rfl⟩
      | tryGet_err h => cases (key _).1 h
      | tryGet_none h => cases (key _).1 h

/-- C20: every history on a model with an automatic key answers like a map that hands out
keys: saving an object without key inserts exactly one entry, under a key that no entry
has, and stores that key in the object; saving an object with a key changes the entry of
that key and no other, and never inserts.  Deletes are part of the history, so the keys
handed out may have been used before.

Partial: the key field must not be called like a SQL keyword, and on PostgreSQL a model
has at most 126 columns (`pg_placeholder_overflow_violated`).  `cap` bounds the number of
rows for which the database still has fresh keys. -/
theorem auto_objects_are_map_partial {s : Session} {m : ModelDef} {pk : Field} {Key : DbVal → Prop}
    {cap : Nat} (hm : ModelOK s m pk) (hK : KeysOK s Key) (ha : pk.isAuto = true)
    (hfresh : FreshKeys s m pk Key cap) (hfit : Fits s.b m.columns.length) :
    ∀ (ops : List Op), (∀ op ∈ ops, AutoOpOK m s Key op) → ∀ {st : Store} {db : Db},
      Holds m s pk Key st db → (db.rows m.table).length + ops.length ≤ cap →
      ∀ {rs : List Reply} {db' : Db}, Runs m s db ops rs db' →
      ∃ st', AutoMapRuns m st ops rs st' ∧
        Holds m s pk Key st' db' ∧ ∀ t, t ≠ m.table → db'.rows t = db.rows t := by
  intro ops
  induction ops with
  | nil =>
    intro _ st db hh _ rs db' h
    cases h
    exact ⟨st, .nil, hh, fun _ _ => rfl⟩
  | cons op ops ih =>
    intro ho st db hh hroom rs db' h
    cases h with
    | cons h1 h2 =>
      simp only [List.length_cons] at hroom
      obtain ⟨st1, a1, a2, a3, a4⟩ :=
        (autoStep_map hm hK ha hfresh hfit hh (by omega) (ho op (by simp))).2 _ _ h1
      obtain ⟨st2, b1, b2, b3⟩ := ih (fun o h => ho o (by simp [h])) a2 (by omega) h2
      exact ⟨st2, .cons a1 b1, b2, fun t ht => (b3 t ht).trans (a4 t ht)⟩

/-- C20: no history gets stuck. -/
theorem auto_objects_progress_partial {s : Session} {m : ModelDef} {pk : Field} {Key : DbVal → Prop}
    {cap : Nat} (hm : ModelOK s m pk) (hK : KeysOK s Key) (ha : pk.isAuto = true)
    (hfresh : FreshKeys s m pk Key cap) (hfit : Fits s.b m.columns.length) :
    ∀ (ops : List Op), (∀ op ∈ ops, AutoOpOK m s Key op) → ∀ {st : Store} {db : Db},
      Holds m s pk Key st db → (db.rows m.table).length + ops.length ≤ cap →
      ∃ rs db', Runs m s db ops rs db' := by
  intro ops
  induction ops with
  | nil => exact fun _ _ db _ _ => ⟨[], db, .nil⟩
  | cons op ops ih =>
    intro ho st db hh hroom
    simp only [List.length_cons] at hroom
    obtain ⟨⟨r, db1, h1⟩, h2⟩ := autoStep_map hm hK ha hfresh hfit hh (by omega) (ho op (by simp))
    obtain ⟨st1, _, a2, a3, _⟩ := h2 _ _ h1
    obtain ⟨rs, db2, h3⟩ := ih (fun o h => ho o (by simp [h])) a2 (by omega)
    exact ⟨_, _, .cons h1 h3⟩

/-- C20, in terms of rows: saving an object without key appends one row, whose key no
other row has, and the object gets exactly that key. -/
theorem auto_insert_partial {s : Session} {m : ModelDef} {pk : Field} {Key : DbVal → Prop}
    {cap : Nat} (hm : ModelOK s m pk) (hK : KeysOK s Key) (ha : pk.isAuto = true)
    (hfresh : FreshKeys s m pk Key cap) (hfit : Fits s.b m.columns.length) {st : Store} {db : Db}
    (hh : Holds m s pk Key st db) (hroom : (db.rows m.table).length < cap) {o : Obj}
    (ho : o.auto = none) (hr : Readable m s o) :
    ∃ new v, m.save s db o =
        .ok (setRows db m.table (db.rows m.table ++ [new]), { o with auto := some v }) ∧
      new.val pk.name = toDb v ∧ (∀ r ∈ db.rows m.table, r.val pk.name ≠ toDb v) ∧
      Stores m { o with auto := some v } new := by
  obtain ⟨new, v, h1, h2, h3, _, h5, _⟩ := save_new_ok hm hK ha hfresh hfit hh hroom ho hr
  exact ⟨new, v, h1, h2, h3, h5⟩

/-- C20, in terms of rows: saving an object that has a key inserts nothing, writes the
row with that key, and changes no other row. -/
theorem auto_update_partial {s : Session} {m : ModelDef} {pk : Field} {Key : DbVal → Prop}
    (hm : ModelOK s m pk) (hK : KeysOK s Key) (ha : pk.isAuto = true)
    (hfit : Fits s.b m.columns.length) {st : Store} {db : Db}
    (hh : Holds m s pk Key st db) {o : Obj} {v : SqlVal} (ho : o.auto = some v)
    (hk : Key (toDb v)) (hr : Readable m s o) :
    ∃ f : Row → Row, m.save s db o = .ok (setRows db m.table ((db.rows m.table).map f), o) ∧
      (∀ r ∈ db.rows m.table, r.val pk.name = toDb v → Stores m o (f r)) ∧
      (∀ r ∈ db.rows m.table, r.val pk.name ≠ toDb v → f r = r) := by
  obtain ⟨f, h1, h2, h3, _⟩ := save_again_ok hm hK ha hfit hh ho hk hr
  exact ⟨f, h1, h2, h3⟩

/-- C20: deleting an object that has no key yet deletes nothing: it panics before a
statement is sent. -/
theorem delete_unsaved {s : Session} {m : ModelDef} {pk : Field} (hpk : m.pkField = some pk)
    (ha : pk.isAuto = true) {db : Db} {o : Obj} (ho : o.auto = none) :
    m.delete s db o = .error .panic := by
  simp [ModelDef.delete, ModelDef.pkVal, hpk, ha, ho]

example (b : Backend) (next : List Row → Int) (db : Db) :
    blogModel.delete (exSession b next) db (blog none "x") = .error .panic :=
  delete_unsaved (pk := ⟨"id", false, .autoPk⟩) rfl rfl rfl

theorem leastFree_spec (rows : List Row) :
    1 ≤ leastFree rows ∧ leastFree rows ≤ rows.length + 1 ∧
    ∀ r ∈ rows, r.val "id" ≠ .int (leastFree rows) := by
  unfold leastFree
  split
  · next n h =>
    have h1 := List.find?_some h
    have h2 := List.mem_of_find?_eq_some h
    rw [List.mem_range] at h2
    refine ⟨by omega, by omega, ?_⟩
    intro r hr
    have := List.all_eq_true.1 h1 r hr
    simpa using this
  · next h =>
    exfalso
    have hsub : (List.range (rows.length + 1)).map (fun (n : Nat) => DbVal.int ((n : Int) + 1)) ⊆
        rows.map (fun r => r.val "id") := by
      intro d hd
      obtain ⟨n, hn, rfl⟩ := List.mem_map.1 hd
      have := List.find?_eq_none.1 h n hn
      simp only [List.all_eq_true, not_forall] at this
      obtain ⟨r, hr, he⟩ := this
      exact List.mem_map.2 ⟨r, hr, by simpa using he⟩
    have hnd : ((List.range (rows.length + 1)).map (fun (n : Nat) => DbVal.int ((n : Int) + 1))).Nodup := by
      rw [List.Nodup, List.pairwise_map]
      refine List.Pairwise.imp ?_ (List.nodup_range (n := rows.length + 1))
      intro a b hab he
      apply hab
      have := DbVal.int.inj he
      omega
    have := (List.subperm_of_subset hnd hsub).length_le
    simp only [List.length_map, List.length_range] at this
    omega

theorem blogFresh (b : Backend) :
    FreshKeys (exSession b fun rows => leastFree rows) blogModel ⟨"id", false, .autoPk⟩ IntKey 1000 := by
  intro rows hlen _
  obtain ⟨h1, h2, h3⟩ := leastFree_spec rows
  have hi : (Int64.ofInt (leastFree rows : Int)).toInt = (leastFree rows : Int) :=
    Int64.toInt_ofInt_of_le (by omega) (by omega)
  refine ⟨⟨Int64.ofInt (leastFree rows), ?_⟩, h3, .bigInt (Int64.ofInt (leastFree rows)), rfl, ?_⟩
  · rw [hi]; rfl
  · show DbVal.int _ = _
    rw [hi]; rfl

def blogOps : List Op :=
  [.save (blog none "cats"), .save (blog none "dogs"), .save (blog (some (.bigInt 1)) "lions"),
   .delete (blog (some (.bigInt 1)) ""), .save (blog none "birds"), .get (.bigInt 1)]

/-- Insert, insert, update, delete, insert with a key used before. -/
example (b : Backend) : ∃ rs db' st',
    Runs blogModel (exSession b fun rows => leastFree rows) emptyDb blogOps rs db' ∧
    AutoMapRuns blogModel (fun _ => none) blogOps rs st' := by
  have hh : Holds blogModel (exSession b fun rows => leastFree rows) ⟨"id", false, .autoPk⟩ IntKey
    (fun _ => none) emptyDb := holds_empty rfl rfl
  have ho : ∀ op ∈ blogOps, AutoOpOK blogModel (exSession b fun rows => leastFree rows) IntKey op := by
    intro op h
    simp only [blogOps, List.mem_cons, List.not_mem_nil, or_false] at h
    rcases h with rfl | rfl | rfl | rfl | rfl | rfl
    · exact ⟨fun v h => by simp [blog] at h, blog_readable b _ none _⟩
    · exact ⟨fun v h => by simp [blog] at h, blog_readable b _ none _⟩
    · refine ⟨fun v h => ?_, blog_readable b _ (some 1) _⟩
      obtain rfl : SqlVal.bigInt 1 = v := by simpa [blog] using h
      exact ⟨1, rfl⟩
    · exact ⟨_, rfl, 1, rfl⟩
    · exact ⟨fun v h => by simp [blog] at h, blog_readable b _ none _⟩
    · exact ⟨1, rfl⟩
  obtain ⟨rs, db', h⟩ := auto_objects_progress_partial (blogOK b _) (intKeys b _) rfl (blogFresh b)
    (fun _ => by decide) _ ho hh (by decide)
  obtain ⟨st', h', _⟩ := auto_objects_are_map_partial (blogOK b _) (intKeys b _) rfl (blogFresh b)
    (fun _ => by decide) _ ho hh (by decide) h
  exact ⟨rs, db', st', h, h'⟩

/-- The database of `exDb2`: blogs 1 and 2. -/
def twoBlogs : Db :=
  ⟨fun t => t ∈ ["page", "blog"], fun t => if t = "blog" then
    [rowOf [("id", .int 1), ("name", text "cats")], rowOf [("id", .int 2), ("name", text "dogs")]] else []⟩

/-- The name stored under a key. -/
def blogName (db : Db) (id : Int) : Option DbVal :=
  ((db.rows "blog").find? fun r => r.val "id" = .int id).map (·.val "name")

def okOf : Except OpErr (Db × Obj) → Option (Db × Obj)
  | .ok r => some r
  | .error _ => none

/-- C20, violated over histories with deletes: SQLite hands out the key of a deleted row
again, because butane creates automatic keys without `AUTOINCREMENT`
(db/sqlite.rs:706-736).  Blog 2 is deleted, a new blog is saved and gets key 2, and saving
the stale object again silently overwrites the new blog. -/
theorem auto_key_reuse_violated :
    let s := exSession .sqlite afterLargest
    let stale := blog (some (.bigInt 2)) "dogs"
    ∃ db1 db2 new db3 o, blogModel.delete s twoBlogs stale = .ok db1 ∧
      blogModel.save s db1 (blog none "birds") = .ok (db2, new) ∧
      new.auto = some (.bigInt 2) ∧ blogName db2 2 = some (text "birds") ∧
      blogModel.save s db2 stale = .ok (db3, o) ∧ blogName db3 2 = some (text "dogs") :=
  ⟨_, _, _, _, _, rfl, rfl, rfl, rfl, rfl, rfl⟩

/-! ### C21 -/

/-- C21 for a row that exists: after saving an object with a key, `get` finds it. -/
theorem save_with_key_partial {s : Session} {m : ModelDef} {pk : Field} {Key : DbVal → Prop}
    (hm : ModelOK s m pk) (hK : KeysOK s Key) (ha : pk.isAuto = true)
    (hfit : Fits s.b m.columns.length) {st : Store} {db : Db}
    (hh : Holds m s pk Key st db) {o o' : Obj} {v : SqlVal} (ho : o.auto = some v)
    (hk : Key (toDb v)) (hr : Readable m s o) (hin : st (toDb v) = some o') :
    ∃ db', m.save s db o = .ok (db', o) ∧ ∀ res, m.GetOut s db' v res ↔
      ∃ o'', SameObj m o'' o ∧ m.TryGetOut s db' v (.ok (some o'')) ∧ res = .ok o'' := by
  obtain ⟨f, h1, _, _, h4⟩ := save_again_ok hm hK ha hfit hh ho hk hr
  refine ⟨_, h1, ?_⟩
  have key := tryGet_iff hm hK h4 hk
  rw [hin] at key
  simp only [Store.set, if_true] at key
  obtain ⟨o'', hs, key⟩ := key
  intro res
  constructor
  · rintro ⟨r, hr1, rfl⟩
    rw [(key r).1 hr1]
    exact ⟨o'', hs, (key _).2 rfl, rfl⟩
  · rintro ⟨x, _, h3, rfl⟩
    exact ⟨_, h3, rfl⟩

theorem twoBlogs_holds (b : Backend) (next : List Row → Int) :
    Holds blogModel (exSession b next) ⟨"id", false, .autoPk⟩ IntKey
      (fun k => if k = .int 1 then some (blog (some (.bigInt 1)) "cats")
        else if k = .int 2 then some (blog (some (.bigInt 2)) "dogs") else none) twoBlogs where
  table := ⟨rfl, by
    intro r hr c hc
    have h1 : r = rowOf [("id", .int 1), ("name", text "cats")] ∨
      r = rowOf [("id", .int 2), ("name", text "dogs")] := by simpa [twoBlogs, blogModel] using hr
    have h2 : c = "id" ∨ c = "name" := by
      have : c ∈ ["id", "name"] := hc
      simpa using this
    rcases h1 with rfl | rfl <;> rcases h2 with rfl | rfl <;> rfl⟩
  distinct := by simp [twoBlogs, blogModel, rowOf]
  keys := by
    intro r hr
    have h1 : r = rowOf [("id", .int 1), ("name", text "cats")] ∨
      r = rowOf [("id", .int 2), ("name", text "dogs")] := by simpa [twoBlogs, blogModel] using hr
    rcases h1 with rfl | rfl
    · exact ⟨1, rfl⟩
    · exact ⟨2, rfl⟩
  absent := by
    intro k hk r hr
    have h1 : r = rowOf [("id", .int 1), ("name", text "cats")] ∨
      r = rowOf [("id", .int 2), ("name", text "dogs")] := by simpa [twoBlogs, blogModel] using hr
    rintro rfl
    rcases h1 with rfl | rfl
    · simp [rowOf] at hk
    · simp [rowOf] at hk
  present := by
    intro k o hk
    have st : ∀ i n, Stores blogModel (blog (some (.bigInt i)) n)
        (rowOf [("id", .int i.toInt), ("name", text n)]) := by
      intro i n f hf _
      simp only [blogModel, List.mem_cons, List.not_mem_nil, or_false] at hf
      rcases hf with rfl | rfl
      · exact ⟨.bigInt i, rfl, rfl⟩
      · exact ⟨.text n, rfl, rfl⟩
    split at hk
    · next h =>
      obtain rfl := Option.some.inj hk
      exact ⟨rowOf [("id", .int 1), ("name", text "cats")], by simp [twoBlogs, blogModel], h.symm,
        st 1 "cats", blog_readable b next (some 1) _⟩
    · split at hk
      · next h =>
        obtain rfl := Option.some.inj hk
        exact ⟨rowOf [("id", .int 2), ("name", text "dogs")], by simp [twoBlogs, blogModel], h.symm,
          st 2 "dogs", blog_readable b next (some 2) _⟩
      · cases hk

example (b : Backend) : ∃ db', blogModel.save (exSession b afterLargest) twoBlogs
      (blog (some (.bigInt 2)) "wolves") = .ok (db', blog (some (.bigInt 2)) "wolves") :=
  let ⟨db', h, _⟩ := save_with_key_partial (blogOK b _) (intKeys b _) rfl (fun _ => by decide)
    (twoBlogs_holds b _) (o := blog (some (.bigInt 2)) "wolves") rfl ⟨2, rfl⟩
    (blog_readable b _ (some 2) _) (o' := blog (some (.bigInt 2)) "dogs") rfl
  ⟨db', h⟩

/-- Two of the blogs, and a third one without key. -/
example (b : Backend) : ∃ new v, blogModel.save (exSession b fun rows => leastFree rows) twoBlogs
      (blog none "birds") = .ok (setRows twoBlogs "blog" (twoBlogs.rows "blog" ++ [new]),
        { blog none "birds" with auto := some v }) :=
  let ⟨new, v, h, _⟩ := auto_insert_partial (blogOK b _) (intKeys b _) rfl (blogFresh b)
    (fun _ => by decide) (twoBlogs_holds b _) (o := blog none "birds") (by decide) rfl
    (blog_readable b _ none _)
  ⟨new, v, h⟩

example (b : Backend) : ∃ f : Row → Row, blogModel.save (exSession b afterLargest) twoBlogs
      (blog (some (.bigInt 2)) "wolves") = .ok (setRows twoBlogs "blog" ((twoBlogs.rows "blog").map f),
        blog (some (.bigInt 2)) "wolves") :=
  let ⟨f, h, _⟩ := auto_update_partial (blogOK b _) (intKeys b _) rfl
    (fun _ => by decide) (twoBlogs_holds b _) (o := blog (some (.bigInt 2)) "wolves") rfl ⟨2, rfl⟩
    (blog_readable b _ (some 2) _)
  ⟨f, h⟩

/-- C21, violated: the documentation promises an upsert, but saving an object whose
automatic key is set and whose row is missing reports success and stores nothing, on
every backend and for every such object. -/
theorem save_missing_row_violated {s : Session} {m : ModelDef} {pk : Field} {Key : DbVal → Prop}
    (hm : ModelOK s m pk) (hK : KeysOK s Key) (ha : pk.isAuto = true)
    (hfit : Fits s.b m.columns.length) {st : Store} {db : Db}
    (hh : Holds m s pk Key st db) {o : Obj} {v : SqlVal} (ho : o.auto = some v)
    (hk : Key (toDb v)) (hr : Readable m s o) (hin : st (toDb v) = none) :
    ∃ db', m.save s db o = .ok (db', o) ∧ db'.rows m.table = db.rows m.table ∧
      ∀ res, m.GetOut s db' v res ↔ res = .error .noSuchObject := by
  obtain ⟨f, h1, _, h3, h4⟩ := save_again_ok hm hK ha hfit hh ho hk hr
  refine ⟨_, h1, ?_, ?_⟩
  · simp only [setRows, if_true]
    have : (db.rows m.table).map f = (db.rows m.table).map id := by
      apply List.map_congr_left
      intro r hr'
      exact h3 r hr' (hh.absent _ hin r hr')
    rw [this, List.map_id]
  · have key := tryGet_iff hm hK h4 hk
    rw [hin] at key
    simp only at key
    rw [hin] at key
    intro res
    constructor
    · rintro ⟨r, hr1, rfl⟩
      rw [(key r).1 hr1]
    · rintro rfl
      exact ⟨_, (key _).2 rfl, rfl⟩

example (b : Backend) : ∃ db', blogModel.save (exSession b afterLargest) twoBlogs
      (blog (some (.bigInt 7)) "wolves") = .ok (db', blog (some (.bigInt 7)) "wolves") ∧
    db'.rows "blog" = twoBlogs.rows "blog" :=
  let ⟨db', h, h2, _⟩ := save_missing_row_violated (blogOK b _) (intKeys b _) rfl (fun _ => by decide)
    (twoBlogs_holds b _) (o := blog (some (.bigInt 7)) "wolves") rfl ⟨7, rfl⟩
    (blog_readable b _ (some 7) _) rfl
  ⟨db', h, h2⟩

end Butane.Props
