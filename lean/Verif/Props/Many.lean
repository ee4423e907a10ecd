/-
C22 - C26, C54, C55: many-to-many fields.

The operations are those of Model/Many.lean on the database of Spec/Stmt.lean; a link
table is read through `links`, `itemsOf` and `othersThan` of Spec/Many.lean.
-/
import Verif.Proofs.Many
import Verif.Props.Objects

namespace Butane.Props
open Butane Sql Spec

/-- A `Many` with its link table: it belongs to owner `o`, all keys are keys, and on
PostgreSQL there are at most 126 pending additions and removals
(`pg_placeholder_overflow_violated`). -/
structure ManyOK (s : Session) (OKey IKey : DbVal → Prop) (o : SqlVal) (m : Many) (db : Db) : Prop where
  session : LinkSession s m.itemTable
  owners : KeysOK s OKey
  items : KeysOK s IKey
  table : LinkTable s m.itemTable OKey IKey db
  owner : m.owner = some o
  okey : OKey (toDb o)
  new : ∀ v ∈ m.newValues, IKey (toDb v)
  removed : ∀ v ∈ m.removedValues, IKey (toDb v)
  fitsNew : Fits s.b m.newValues.length
  fitsRemoved : Fits s.b m.removedValues.length

/-! ### Fixtures -/

def linkEnv : Env where
  key t := if t = "tag" then "tag" else "rowid"
  template t _ := if t = "tag" then rowOf [("tag", .null)] else rowOf [("owner", .null), ("has", .null)]

/-- Texts are ordered by their first character. -/
def textRank : DbVal → Nat
  | .other (.text a) =>
    match a.toList with
    | [] => 0
    | c :: _ => c.toNat
  | _ => 0

def textLe (a b : DbVal) : Bool := decide (textRank a ≤ textRank b)

def linkSession (b : Backend) : Session := ⟨b, exKw, exRes, exRel, textLe, linkEnv, exDecode⟩

/-- `#[model] struct Tag { #[pk] tag: String }` -/
def tagModel : ModelDef := ⟨"tag", [⟨"tag", true, .plain⟩]⟩

def tag (t : String) : Obj := ⟨none, fun c => if c = "tag" then .text t else .null⟩

/-- Three tags; blog 1 has "a" and "b", blog 2 has "b". -/
def linkDb : Db where
  has t := t ∈ ["tag", "blog_tags_Many"]
  rows t :=
    if t = "tag" then [rowOf [("tag", text "a")], rowOf [("tag", text "b")], rowOf [("tag", text "c")]]
    else [rowOf [("owner", .int 1), ("has", text "a")], rowOf [("owner", .int 1), ("has", text "b")],
          rowOf [("owner", .int 2), ("has", text "b")]]

/-- The `tags` of blog 1, with pending changes. -/
def tagsOf1 (new removed : List SqlVal) : Many := ⟨"blog_tags_Many", some (.bigInt 1), new, removed, none⟩

theorem tagOK (b : Backend) : ModelOK (linkSession b) tagModel ⟨"tag", true, .plain⟩ where
  covers := exCovers
  excluded := rfl
  table := nameOf rfl (by decide) (by decide)
  table_ne := by decide
  names := by
    intro f hf
    obtain rfl : f = ⟨"tag", true, .plain⟩ := by simpa [tagModel] using hf
    exact nameOf rfl (by decide) (by decide)
  nodup := by decide
  verify := by decide
  pk_field := by decide
  pk_row := rfl
  pk_plain := ⟨nameOf rfl (by decide) (by decide), show upper "tag".toList ∉ grammarWords by decide, rfl⟩
  key := rfl
  template := by
    intro rows c hc
    obtain rfl : c = "tag" := by simpa [tagModel, ModelDef.columns, Field.isRow] using hc
    rfl

theorem linkTextKeys (b : Backend) : KeysOK (linkSession b) TextKey :=
  ⟨fun _ hk h => (by
      obtain ⟨_, he⟩ := hk
      rw [he] at h
      cases h), fun a b _ _ => decide_eq_true_iff⟩

theorem linkIntKeys (b : Backend) : KeysOK (linkSession b) IntKey :=
  ⟨fun _ hk h => (by
      obtain ⟨_, he⟩ := hk
      rw [he] at h
      cases h), fun a b _ _ => decide_eq_true_iff⟩

def tagStore : Store := fun k =>
  if k = text "a" then some (tag "a") else if k = text "b" then some (tag "b")
  else if k = text "c" then some (tag "c") else none

theorem tag_stored (b : Backend) (t : String) :
    Stores tagModel (tag t) (rowOf [("tag", text t)]) ∧ Readable tagModel (linkSession b) (tag t) := by
  constructor
  · intro f hf _
    obtain rfl : f = ⟨"tag", true, .plain⟩ := by simpa [tagModel] using hf
    exact ⟨.text t, rfl, rfl⟩
  · intro f hf _ v hv
    obtain rfl : f = ⟨"tag", true, .plain⟩ := by simpa [tagModel] using hf
    obtain rfl : SqlVal.text t = v := by simpa [fieldVal, Field.isAuto, tag] using hv
    rfl

theorem tagHolds (b : Backend) :
    Holds tagModel (linkSession b) ⟨"tag", true, .plain⟩ TextKey tagStore linkDb where
  table := ⟨rfl, by
    intro r hr c hc
    obtain rfl : c = "tag" := by simpa [tagModel, ModelDef.columns, Field.isRow] using hc
    simp only [linkDb, tagModel, if_true, List.mem_cons, List.not_mem_nil, or_false] at hr
    rcases hr with rfl | rfl | rfl <;> rfl⟩
  distinct := by
    show List.Pairwise _ [_, _, _]
    simp only [List.pairwise_cons, List.mem_cons, List.not_mem_nil, or_false, forall_eq_or_imp,
      forall_eq, false_imp_iff, implies_true, List.Pairwise.nil, and_true]
    decide
  keys := by
    intro r hr
    simp only [linkDb, tagModel, if_true, List.mem_cons, List.not_mem_nil, or_false] at hr
    rcases hr with rfl | rfl | rfl <;> exact ⟨_, rfl⟩
  absent := by
    intro k hk r hr
    simp only [linkDb, tagModel, if_true, List.mem_cons, List.not_mem_nil, or_false] at hr
    rintro rfl
    rcases hr with rfl | rfl | rfl <;> exact absurd hk (by decide)
  present := by
    intro k o h
    unfold tagStore at h
    split at h
    · cases h
      exact ⟨_, List.mem_cons_self .., by rename_i h; exact h.symm, tag_stored b "a"⟩
    · split at h
      · cases h
        exact ⟨_, List.mem_cons_of_mem _ (List.mem_cons_self ..), by rename_i h; exact h.symm,
          tag_stored b "b"⟩
      · split at h
        · cases h
          exact ⟨_, List.mem_cons_of_mem _ (List.mem_cons_of_mem _ (List.mem_cons_self ..)),
            by rename_i h; exact h.symm, tag_stored b "c"⟩
        · cases h

theorem linkTable (b : Backend) :
    LinkTable (linkSession b) "blog_tags_Many" IntKey TextKey linkDb where
  exists_ := rfl
  columns := by
    intro r hr c hc
    simp only [List.mem_cons, List.not_mem_nil, or_false] at hc
    have : r ∈ [rowOf [("owner", .int 1), ("has", text "a")], rowOf [("owner", .int 1), ("has", text "b")],
          rowOf [("owner", .int 2), ("has", text "b")]] := hr
    simp only [List.mem_cons, List.not_mem_nil, or_false] at this
    rcases this with rfl | rfl | rfl <;> rcases hc with rfl | rfl <;> rfl
  keys := by
    intro r hr
    have : r ∈ [rowOf [("owner", .int 1), ("has", text "a")], rowOf [("owner", .int 1), ("has", text "b")],
          rowOf [("owner", .int 2), ("has", text "b")]] := hr
    simp only [List.mem_cons, List.not_mem_nil, or_false] at this
    rcases this with rfl | rfl | rfl
    · exact ⟨⟨1, rfl⟩, _, rfl⟩
    · exact ⟨⟨1, rfl⟩, _, rfl⟩
    · exact ⟨⟨2, rfl⟩, _, rfl⟩
  nokey := by
    intro r hr
    have : r ∈ [rowOf [("owner", .int 1), ("has", text "a")], rowOf [("owner", .int 1), ("has", text "b")],
          rowOf [("owner", .int 2), ("has", text "b")]] := hr
    simp only [List.mem_cons, List.not_mem_nil, or_false] at this
    rcases this with rfl | rfl | rfl <;> rfl

theorem linkSessionOK (b : Backend) : LinkSession (linkSession b) "blog_tags_Many" where
  covers := exCovers
  name := nameOf rfl (by decide) (by decide)
  owner := rfl
  columns := by
    intro rows c hc
    simp only [List.mem_cons, List.not_mem_nil, or_false] at hc
    rcases hc with rfl | rfl <;> rfl
  nokey := fun _ => rfl
  key := show "rowid" ∉ ["owner", "has"] by decide

theorem tagsOf1_ok (b : Backend) {new removed : List String} (hn : new.length ≤ 126)
    (hr : removed.length ≤ 126) : ManyOK (linkSession b) IntKey TextKey (.bigInt 1)
      (tagsOf1 (new.map .text) (removed.map .text)) linkDb where
  session := linkSessionOK b
  owners := linkIntKeys b
  items := linkTextKeys b
  table := linkTable b
  owner := rfl
  okey := ⟨1, rfl⟩
  new := by
    intro v hv
    obtain ⟨t, _, rfl⟩ := List.mem_map.1 hv
    exact ⟨t, rfl⟩
  removed := by
    intro v hv
    obtain ⟨t, _, rfl⟩ := List.mem_map.1 hv
    exact ⟨t, rfl⟩
  fitsNew := fun _ => by simpa [tagsOf1] using hn
  fitsRemoved := fun _ => by simpa [tagsOf1] using hr

/-! ### C22 -/

/-- C22: exactly what a successful `save` does to the link table: it adds the pending
additions and then removes all links, of any owner, to the pending removals. -/
theorem many_save_exact {s : Session} {OKey IKey : DbVal → Prop} {o : SqlVal} {m : Many} {db : Db}
    (h : ManyOK s OKey IKey o m db) :
    ∃ db', m.save s (fun _ => false) db =
        (db', { m with newValues := [], removedValues := [] }, none) ∧
      links db' m.itemTable =
        (links db m.itemTable ++ m.newValues.reverse.map (fun v => (toDb o, toDb v))).filter
          (fun l => l.2 ∉ m.removedValues.map toDb) ∧
      OnlyTable m.itemTable db db' := by
  obtain ⟨db', h1, h2, _, h3⟩ := save_links h.session h.items h.table h.owner h.okey h.new h.removed
    h.fitsRemoved
  exact ⟨db', h1, h2, h3⟩

theorem filter_others {ls : List (DbVal × DbVal)} {k : DbVal} {removed : List DbVal}
    (h : ∀ l ∈ othersThan ls k, l.2 ∉ removed) :
    othersThan (ls.filter fun l => l.2 ∉ removed) k = othersThan ls k := by
  unfold othersThan at h ⊢
  rw [List.filter_filter]
  apply List.filter_congr
  intro l hl
  by_cases hk : l.1 = k
  · simp [hk]
  · simp only [ne_eq, hk, not_false_eq_true, decide_true, Bool.true_and]
    exact decide_eq_true (h l (List.mem_filter.2 ⟨hl, by simpa using hk⟩))

/-- C22: one `save`.  Partial: no other owner may be linked to a removed item
(`many_save_other_owner_violated`). -/
theorem many_save_partial {s : Session} {OKey IKey : DbVal → Prop} {o : SqlVal} {m : Many} {db : Db}
    (h : ManyOK s OKey IKey o m db)
    (hoth : ∀ l ∈ othersThan (links db m.itemTable) (toDb o), l.2 ∉ m.removedValues.map toDb) :
    ∃ db', m.save s (fun _ => false) db =
        (db', { m with newValues := [], removedValues := [] }, none) ∧
      (itemsOf (links db' m.itemTable) (toDb o)).Perm
        ((itemsOf (links db m.itemTable) (toDb o) ++ m.newValues.map toDb).filter
          (· ∉ m.removedValues.map toDb)) ∧
      othersThan (links db' m.itemTable) (toDb o) = othersThan (links db m.itemTable) (toDb o) ∧
      OnlyTable m.itemTable db db' := by
  obtain ⟨db', h1, h2, h3⟩ := many_save_exact h
  refine ⟨db', h1, ?_, ?_, h3⟩
  · rw [h2, itemsOf_filter _ _ (fun k => decide (k ∉ m.removedValues.map toDb)), itemsOf_append,
      itemsOf_own]
    exact List.Perm.filter _ ((List.Perm.refl _).append ((List.reverse_perm _).map _))
  · rw [h2, filter_others, othersThan_append, othersThan_own, List.append_nil]
    rw [othersThan_append, othersThan_own, List.append_nil]
    exact hoth

/-- Adding "c" and removing "a": blog 2 only has "b". -/
example (b : Backend) : ∃ db', (tagsOf1 [.text "c"] [.text "a"]).save (linkSession b) (fun _ => false) linkDb =
      (db', tagsOf1 [] [], none) ∧
    (itemsOf (links db' "blog_tags_Many") (.int 1)).Perm [text "b", text "c"] ∧
    othersThan (links db' "blog_tags_Many") (.int 1) = [(.int 2, text "b")] := by
  obtain ⟨db', h1, h2, h3, _⟩ := many_save_partial (tagsOf1_ok b (new := ["c"]) (removed := ["a"])
    (by decide) (by decide)) (by decide)
  exact ⟨db', h1, h2.trans (by decide), h3⟩

/-- C22 is false of the code: when blog 1 drops "b", so does blog 2. -/
theorem many_save_other_owner_violated (b : Backend) :
    ∃ db', (tagsOf1 [] [.text "b"]).save (linkSession b) (fun _ => false) linkDb =
        (db', tagsOf1 [] [], none) ∧
      othersThan (links linkDb "blog_tags_Many") (.int 1) = [(.int 2, text "b")] ∧
      othersThan (links db' "blog_tags_Many") (.int 1) = [] := by
  obtain ⟨db', h1, h2, _⟩ := many_save_exact (tagsOf1_ok b (new := []) (removed := ["b"])
    (by decide) (by decide))
  refine ⟨db', h1, by decide, ?_⟩
  have h2 : links db' "blog_tags_Many" = _ := h2
  rw [h2]
  decide

/-- What a history has to keep. -/
structure Tracks (s : Session) (OKey IKey : DbVal → Prop) (o : SqlVal) (table : String)
    (others : List (DbVal × DbVal)) (l : LinkState) (db : Db) (m : Many) : Prop where
  name : m.itemTable = table
  linked : LinkTable s table OKey IKey db
  owner : m.owner = some o
  new : m.newValues.map toDb = l.added
  removed : m.removedValues.map toDb = l.removed
  newKeys : ∀ v ∈ m.newValues, IKey (toDb v)
  removedKeys : ∀ v ∈ m.removedValues, IKey (toDb v)
  saved : (itemsOf (links db table) (toDb o)).Perm l.saved
  rest : othersThan (links db table) (toDb o) = others

theorem keys_of {im : ModelDef} {IKey : DbVal → Prop} {key : Obj → DbVal} {os : List Obj}
    (h : ∀ o ∈ os, ∃ v, im.pkVal o = .ok v ∧ key o = toDb v ∧ IKey (toDb v)) :
    ∃ vs : List SqlVal, os.map im.pkVal = vs.map .ok ∧ vs.map toDb = os.map key ∧
      ∀ v ∈ vs, IKey (toDb v) := by
  induction os with
  | nil => exact ⟨[], rfl, rfl, by simp⟩
  | cons o os ih =>
    obtain ⟨vs, h1, h2, h3⟩ := ih (fun x hx => h x (by simp [hx]))
    obtain ⟨v, g1, g2, g3⟩ := h o (by simp)
    exact ⟨v :: vs, by simp [g1, h1], by simp [g2, h2], by simpa [g3] using h3⟩

theorem many_step {im : ModelDef} {s : Session} {OKey IKey : DbVal → Prop} {o : SqlVal} {table : String}
    {key : Obj → DbVal} (hs : LinkSession s table) (hO : KeysOK s OKey) (hI : KeysOK s IKey)
    (ho : OKey (toDb o)) {others : List (DbVal × DbVal)} {l : LinkState} {db : Db} {m : Many}
    (h : Tracks s OKey IKey o table others l db m) {op : MOp} (hop : MOpOK im IKey key op)
    (hoth : ∀ x ∈ others, x.2 ∉ l.removed) (hfit : Fits s.b l.removed.length) :
    ∃ db' m', manyStep im s (db, m) op = .ok (db', m') ∧
      Tracks s OKey IKey o table others (l.step key op) db' m' ∧ OnlyTable table db db' := by
  have hfit' : Fits s.b m.removedValues.length := by
    have := congrArg List.length h.removed
    rw [List.length_map] at this
    rwa [this]
  obtain ⟨rfl, ht, hown, hnew, hrem, hnk, hrk, hsav, rfl⟩ := h
  cases op with
  | add i =>
    obtain ⟨v, h1, h2, h3⟩ := hop
    refine ⟨db, { m with cache := none, newValues := m.newValues ++ [v] }, ?_, ?_, .refl⟩
    · simp [manyStep, Many.add, h1, Except.map]
    · refine ⟨rfl, ht, hown, by simp [LinkState.step, h2, hnew], hrem, ?_, hrk, hsav, rfl⟩
      intro w hw
      rcases List.mem_append.1 hw with hw | hw
      · exact hnk w hw
      · obtain rfl := List.mem_singleton.1 hw
        exact h3
  | remove i =>
    obtain ⟨v, h1, h2, h3⟩ := hop
    refine ⟨db, { m with cache := none, removedValues := m.removedValues ++ [v] }, ?_, ?_, .refl⟩
    · simp [manyStep, Many.remove, h1, Except.map]
    · refine ⟨rfl, ht, hown, hnew, by simp [LinkState.step, h2, hrem], hnk, ?_, hsav, rfl⟩
      intro w hw
      rcases List.mem_append.1 hw with hw | hw
      · exact hrk w hw
      · obtain rfl := List.mem_singleton.1 hw
        exact h3
  | save =>
    obtain ⟨db', h1, h2, h3, h4⟩ := save_links hs hI ht hown ho hnk hrk hfit'
    rw [hrem] at h2
    refine ⟨db', { m with newValues := [], removedValues := [] },
      by simp only [manyStep, h1], ⟨rfl, h3, hown, rfl, rfl, by simp, by simp, ?_, ?_⟩, h4⟩
    · show (itemsOf (links db' m.itemTable) (toDb o)).Perm ((l.saved ++ l.added).filter (· ∉ l.removed))
      rw [h2, itemsOf_filter _ _ (fun k => decide (k ∉ l.removed)), itemsOf_append, itemsOf_own, ← hnew]
      exact List.Perm.filter _ (hsav.append ((List.reverse_perm _).map _))
    · rw [h2, filter_others, othersThan_append, othersThan_own, List.append_nil]
      rw [othersThan_append, othersThan_own, List.append_nil]
      exact hoth
  | delete =>
    obtain ⟨db', h1, h2, h3, h4⟩ := delete_links hs hO ht hown ho
    refine ⟨db', { m with newValues := [], removedValues := [], cache := some [] },
      by simp only [manyStep, h1], ⟨rfl, h3, hown, rfl, rfl, by simp, by simp, ?_, ?_⟩, h4⟩
    · show (itemsOf (links db' m.itemTable) (toDb o)).Perm []
      rw [h2, itemsOf_others]
    · rw [h2, othersThan_idem]
  | set os =>
    obtain ⟨vs, g1, g2, g3⟩ := keys_of hop
    obtain ⟨db', h1, h2, h3, h4⟩ := set_links hs hO hI ht hown ho g1 g3
    refine ⟨db', { m with newValues := [], removedValues := [], cache := some os },
      by simp only [manyStep, h1], ⟨rfl, h3, hown, rfl, rfl, by simp, by simp, ?_, ?_⟩, h4⟩
    · show (itemsOf (links db' m.itemTable) (toDb o)).Perm (os.map key)
      rw [h2, itemsOf_append, itemsOf_others, itemsOf_own, ← g2, List.nil_append]
      exact (List.reverse_perm _).map _
    · rw [h2, othersThan_append, othersThan_idem, othersThan_own, List.append_nil]

/-- C22: any history of `add`, `remove`, `save`, `delete` and `set` on one owner's field.
All calls succeed, this owner's links are what the calls ask for, the links of all other
owners and all other tables are untouched.

Partial: other owners must not be linked to an item that the history removes with
`remove` (`many_save_other_owner_violated`), and on PostgreSQL there can be at most 126
pending removals. -/
theorem many_history_partial {im : ModelDef} {s : Session} {OKey IKey : DbVal → Prop} {o : SqlVal}
    {table : String} {key : Obj → DbVal} (hs : LinkSession s table) (hO : KeysOK s OKey)
    (hI : KeysOK s IKey) (ho : OKey (toDb o)) (ops : List MOp)
    (hops : ∀ op ∈ ops, MOpOK im IKey key op) {db : Db} (ht : LinkTable s table OKey IKey db)
    (hoth : ∀ op ∈ ops, ∀ k ∈ removedBy key op, ∀ l ∈ othersThan (links db table) (toDb o), l.2 ≠ k)
    (hfit : Fits s.b ops.length) :
    ∃ db' m', manyRun im s (db, ⟨table, some o, [], [], none⟩) ops = .ok (db', m') ∧
      (itemsOf (links db' table) (toDb o)).Perm
        (ops.foldl (LinkState.step key) ⟨itemsOf (links db table) (toDb o), [], []⟩).saved ∧
      othersThan (links db' table) (toDb o) = othersThan (links db table) (toDb o) ∧
      OnlyTable table db db' := by
  have key : ∀ (ops : List MOp), (∀ op ∈ ops, MOpOK im IKey key op) →
      (∀ op ∈ ops, ∀ k ∈ removedBy key op, ∀ l ∈ othersThan (links db table) (toDb o), l.2 ≠ k) →
      ∀ {db1 : Db} {m : Many} {l : LinkState},
        Tracks s OKey IKey o table (othersThan (links db table) (toDb o)) l db1 m →
        (∀ x ∈ othersThan (links db table) (toDb o), x.2 ∉ l.removed) →
        Fits s.b (l.removed.length + ops.length) →
        ∃ db' m', manyRun im s (db1, m) ops = .ok (db', m') ∧
          Tracks s OKey IKey o table (othersThan (links db table) (toDb o))
            (ops.foldl (LinkState.step key) l) db' m' ∧ OnlyTable table db1 db' := by
    intro ops
    induction ops with
    | nil => exact fun _ _ db1 m l h _ _ => ⟨db1, m, rfl, h, .refl⟩
    | cons op ops ih =>
      intro hops hoth db1 m l h hl hf
      obtain ⟨db2, m2, h1, h2, h3⟩ := many_step hs hO hI ho h (hops op (by simp)) hl
        (fun hb => Nat.le_trans (Nat.le_add_right _ _) (hf hb))
      have hstep : ∀ x ∈ othersThan (links db table) (toDb o), x.2 ∉ (l.step key op).removed := by
        intro x hx
        cases op with
        | add i => exact hl x hx
        | remove i =>
          simp only [LinkState.step, List.mem_append, List.mem_singleton, not_or]
          exact ⟨hl x hx, hoth (.remove i) (by simp) _ (by simp [removedBy]) x hx⟩
        | save => simp [LinkState.step]
        | delete => simp [LinkState.step]
        | set os => simp [LinkState.step]
      have hlen : (l.step key op).removed.length ≤ l.removed.length + 1 := by
        cases op <;> simp [LinkState.step]
      obtain ⟨db3, m3, g1, g2, g3⟩ := ih (fun x hx => hops x (by simp [hx]))
        (fun x hx => hoth x (by simp [hx])) h2 hstep (fun hb => by
          have := hf hb
          simp only [List.length_cons] at this
          omega)
      exact ⟨db3, m3, by simp only [manyRun, h1, g1], g2, h3.trans g3⟩
  obtain ⟨db', m', h1, h2, h3⟩ := key ops hops hoth
    (l := ⟨itemsOf (links db table) (toDb o), [], []⟩) (m := ⟨table, some o, [], [], none⟩)
    ⟨rfl, ht, rfl, rfl, rfl, by simp, by simp, .refl _, rfl⟩ (by simp) (by simpa using hfit)
  exact ⟨db', m', h1, h2.saved, h2.rest, h3⟩

def tagOps : List MOp :=
  [.add (tag "c"), .remove (tag "a"), .save, .set [tag "a", tag "b"], .add (tag "c"), .remove (tag "a"), .save]

example (b : Backend) : ∃ db' m', manyRun tagModel (linkSession b) (linkDb, tagsOf1 [] []) tagOps =
      .ok (db', m') ∧
    (itemsOf (links db' "blog_tags_Many") (.int 1)).Perm [text "b", text "c"] ∧
    othersThan (links db' "blog_tags_Many") (.int 1) = [(.int 2, text "b")] := by
  have hkey : ∀ t, ∃ v, tagModel.pkVal (tag t) = .ok v ∧ toDb ((tag t).val "tag") = toDb v ∧ TextKey (toDb v) :=
    fun t => ⟨.text t, rfl, rfl, t, rfl⟩
  obtain ⟨db', m', h1, h2, h3, _⟩ := many_history_partial (im := tagModel) (o := .bigInt 1)
    (key := fun o => toDb (o.val "tag")) (linkSessionOK b) (linkIntKeys b) (linkTextKeys b) ⟨1, rfl⟩ tagOps
    (by
      intro op h
      simp only [tagOps, List.mem_cons, List.not_mem_nil, or_false] at h
      rcases h with rfl | rfl | rfl | rfl | rfl | rfl | rfl
      · exact hkey "c"
      · exact hkey "a"
      · trivial
      · intro x hx
        simp only [List.mem_cons, List.not_mem_nil, or_false] at hx
        rcases hx with rfl | rfl
        · exact hkey "a"
        · exact hkey "b"
      · exact hkey "c"
      · exact hkey "a"
      · trivial) (linkTable b) (by
        intro op h
        simp only [tagOps, List.mem_cons, List.not_mem_nil, or_false] at h
        rcases h with rfl | rfl | rfl | rfl | rfl | rfl | rfl
        all_goals first
          | (intro k hk; cases hk; done)
          | (show ∀ k ∈ [text "a"], ∀ l ∈ othersThan (links linkDb "blog_tags_Many") (.int 1), l.2 ≠ k
             decide))
    (fun _ => by decide)
  exact ⟨db', m', h1, h2.trans (by decide), h3⟩

/-! ### C23 -/

/-- C23: `set` makes this owner's links exactly the given values, whatever was saved or
pending, and leaves every other owner and table alone. -/
theorem many_set {im : ModelDef} {s : Session} {OKey IKey : DbVal → Prop} {o : SqlVal} {m : Many}
    {db : Db} (h : ManyOK s OKey IKey o m db) {os : List Obj} {ks : List DbVal}
    (hks : os.map (objKey im) = ks.map some) (hI : ∀ k ∈ ks, IKey k) :
    ∃ db' m', m.set im s (fun _ => false) db os = (db', m', none) ∧
      (itemsOf (links db' m.itemTable) (toDb o)).Perm ks ∧
      othersThan (links db' m.itemTable) (toDb o) = othersThan (links db m.itemTable) (toDb o) ∧
      OnlyTable m.itemTable db db' ∧
      m'.newValues = [] ∧ m'.removedValues = [] ∧ m'.get = .ok os := by
  have : ∀ (os : List Obj) (ks : List DbVal), os.map (objKey im) = ks.map some →
      ∃ vs : List SqlVal, os.map im.pkVal = vs.map .ok ∧ vs.map toDb = ks := by
    intro os
    induction os with
    | nil =>
      intro ks h
      cases ks with
      | nil => exact ⟨[], rfl, rfl⟩
      | cons k ks => simp at h
    | cons x xs ih =>
      intro ks h
      cases ks with
      | nil => simp at h
      | cons k ks =>
        simp only [List.map_cons, List.cons.injEq] at h
        obtain ⟨vs, h1, h2⟩ := ih ks h.2
        have hx := h.1
        unfold objKey at hx
        cases hp : im.pkVal x with
        | error e => rw [hp] at hx; cases hx
        | ok v =>
          rw [hp] at hx
          refine ⟨v :: vs, by simp [hp, h1], ?_⟩
          simp only [Option.some.injEq] at hx
          simp [hx, h2]
  obtain ⟨vs, h1, rfl⟩ := this os ks hks
  obtain ⟨db', g1, g2, _, g4⟩ := set_links h.session h.owners h.items h.table h.owner h.okey h1
    (fun v hv => hI _ (List.mem_map.2 ⟨v, hv, rfl⟩))
  refine ⟨db', _, g1, ?_, ?_, g4, rfl, rfl, rfl⟩
  · rw [g2, itemsOf_append, itemsOf_others, itemsOf_own, List.nil_append]
    exact (List.reverse_perm _).map _
  · rw [g2, othersThan_append, othersThan_idem, othersThan_own, List.append_nil]

/-- C23: `delete` removes exactly this owner's links and discards pending changes. -/
theorem many_delete {s : Session} {OKey IKey : DbVal → Prop} {o : SqlVal} {m : Many}
    {db : Db} (h : ManyOK s OKey IKey o m db) :
    ∃ db' m', m.delete s false db = (db', m', none) ∧
      links db' m.itemTable = othersThan (links db m.itemTable) (toDb o) ∧
      OnlyTable m.itemTable db db' ∧
      m'.newValues = [] ∧ m'.removedValues = [] ∧ m'.get = .ok [] := by
  obtain ⟨db', h1, h2, _, h3⟩ := delete_links h.session h.owners h.table h.owner h.okey
  exact ⟨db', _, h1, h2, h3, rfl, rfl, rfl⟩

/-- Blog 1 is set to "c" while "a" is pending, then deleted. -/
example (b : Backend) : ∃ db' m', (tagsOf1 [.text "a"] [.text "b"]).set tagModel (linkSession b)
      (fun _ => false) linkDb [tag "c"] = (db', m', none) ∧
    (itemsOf (links db' "blog_tags_Many") (.int 1)).Perm [text "c"] ∧
    othersThan (links db' "blog_tags_Many") (.int 1) = [(.int 2, text "b")] := by
  obtain ⟨db', m', h1, h2, h3, _⟩ := many_set (im := tagModel) (tagsOf1_ok b (new := ["a"]) (removed := ["b"])
    (by decide) (by decide)) (os := [tag "c"]) (ks := [text "c"]) (by decide) (by simp [TextKey])
  exact ⟨db', m', h1, h2, h3⟩

example (b : Backend) : ∃ db' m', (tagsOf1 [.text "a"] [.text "b"]).delete (linkSession b) false linkDb =
      (db', m', none) ∧ links db' "blog_tags_Many" = [(.int 2, text "b")] := by
  obtain ⟨db', m', h1, h2, _⟩ := many_delete (tagsOf1_ok b (new := ["a"]) (removed := ["b"])
    (by decide) (by decide))
  exact ⟨db', m', h1, h2⟩

/-! ### C24 -/

/-- C24: exactly what loading an unloaded `Many` shows: the objects saved as linked,
followed by the objects whose addition is pending. -/
theorem many_load_exact {im : ModelDef} {pk : Field} {s : Session} {OKey IKey : DbVal → Prop}
    {st : Store} {o : SqlVal} {m : Many} {db : Db} (hm : ModelOK s im pk)
    (hh : Holds im s pk IKey st db) (h : ManyOK s OKey IKey o m db) (hc : m.cache = none) :
    (∃ res m', m.LoadOut im s db res m') ∧
    ∀ res m', m.LoadOut im s db res m' → ∃ saved pending, res = .ok (saved ++ pending) ∧
      m' = { m with cache := some (saved ++ pending) } ∧
      Shows im st saved (· ∈ itemsOf (links db m.itemTable) (toDb o)) ∧
      Shows im st pending (· ∈ m.newValues.map toDb) := by
  have hq : m.query im pk.name = some ((Query.new im.table).withFilter
      (.subquery pk.name m.itemTable "has" (.cmp .eq "owner" (.val o)))) := by
    simp [Many.query, h.owner]
  simp only [Many.LoadOut, hm.pk_field, hq]
  refine ⟨load_query_exists (sort := []) hm hh h.session h.table h.owners h.items h.okey h.new
    h.fitsNew hc (by simp) (no_order _), fun res m' hl => ?_⟩
  obtain ⟨a, b, h1, h2, h3, h4, _⟩ := load_query_exact (sort := []) hm hh h.session h.table h.owners
    h.items h.okey h.new h.fitsNew hc (by simp) hl
  exact ⟨a, b, h1, h2, h3, h4⟩

theorem shows_append {m : ModelDef} {st : Store} {a b : List Obj} {P Q : DbVal → Prop}
    (ha : Shows m st a P) (hb : Shows m st b Q) (hd : ∀ k, P k → ¬ Q k) :
    Shows m st (a ++ b) (fun k => P k ∨ Q k) := by
  refine ⟨?_, ?_, ?_⟩
  · rw [List.map_append, List.nodup_append]
    refine ⟨ha.1, hb.1, ?_⟩
    intro x hx y hy he
    subst he
    obtain ⟨o, ho, rfl⟩ := List.mem_map.1 hx
    obtain ⟨k, _, hk, _⟩ := ha.2.1 o ho
    rw [hk] at hx hy
    exact hd k ((ha.2.2 k).1 hx).2 ((hb.2.2 k).1 hy).2
  · intro o ho
    rcases List.mem_append.1 ho with ho | ho
    · exact ha.2.1 o ho
    · exact hb.2.1 o ho
  · intro k
    rw [List.map_append, List.mem_append, ha.2.2, hb.2.2]
    constructor
    · rintro (⟨h1, h2⟩ | ⟨h1, h2⟩)
      · exact ⟨h1, .inl h2⟩
      · exact ⟨h1, .inr h2⟩
    · rintro ⟨h1, h2 | h2⟩
      · exact .inl ⟨h1, h2⟩
      · exact .inr ⟨h1, h2⟩

theorem shows_congr {m : ModelDef} {st : Store} {a : List Obj} {P Q : DbVal → Prop}
    (h : Shows m st a P) (hPQ : ∀ k, P k ↔ Q k) : Shows m st a Q :=
  ⟨h.1, h.2.1, fun k => by rw [h.2.2, hPQ]⟩

/-- C24.  Partial: no pending addition may be saved already (it would be shown twice,
`many_load_twice_violated`), and no pending removal may be linked or added (it is still
shown, `many_load_removed_violated`). -/
theorem many_load_partial {im : ModelDef} {pk : Field} {s : Session} {OKey IKey : DbVal → Prop}
    {st : Store} {o : SqlVal} {m : Many} {db : Db} (hm : ModelOK s im pk)
    (hh : Holds im s pk IKey st db) (h : ManyOK s OKey IKey o m db) (hc : m.cache = none)
    (hnew : ∀ k ∈ itemsOf (links db m.itemTable) (toDb o), k ∉ m.newValues.map toDb)
    (hrem : ∀ k ∈ m.removedValues.map toDb,
      k ∉ itemsOf (links db m.itemTable) (toDb o) ∧ k ∉ m.newValues.map toDb) :
    (∃ res m', m.LoadOut im s db res m') ∧
    ∀ res m', m.LoadOut im s db res m' → ∃ os, res = .ok os ∧ m'.get = .ok os ∧
      Shows im st os fun k => (k ∈ itemsOf (links db m.itemTable) (toDb o) ∨ k ∈ m.newValues.map toDb) ∧
        k ∉ m.removedValues.map toDb := by
  obtain ⟨h1, h2⟩ := many_load_exact hm hh h hc
  refine ⟨h1, fun res m' hl => ?_⟩
  obtain ⟨a, b, rfl, rfl, h3, h4⟩ := h2 res m' hl
  refine ⟨a ++ b, rfl, rfl, shows_congr (shows_append h3 h4 hnew) ?_⟩
  intro k
  constructor
  · intro hk
    refine ⟨hk, fun hr => ?_⟩
    rcases hk with hk | hk
    · exact (hrem k hr).1 hk
    · exact (hrem k hr).2 hk
  · exact fun hk => hk.1

/-- Blog 1 with "c" pending: all three tags are shown, each once. -/
example (b : Backend) : ∃ res m', (tagsOf1 [.text "c"] []).LoadOut tagModel (linkSession b) linkDb res m' ∧
    ∃ os, res = .ok os ∧ m'.get = .ok os ∧ (os.map (objKey tagModel)).Nodup ∧
      some (text "a") ∈ os.map (objKey tagModel) ∧ some (text "c") ∈ os.map (objKey tagModel) := by
  obtain ⟨⟨res, m', h1⟩, h2⟩ := many_load_partial (tagOK b) (tagHolds b)
    (tagsOf1_ok b (new := ["c"]) (removed := []) (by decide) (by decide)) rfl (by decide) (by decide)
  obtain ⟨os, h3, h4, h5⟩ := h2 res m' h1
  exact ⟨res, m', h1, os, h3, h4, h5.1,
    (h5.2.2 _).2 ⟨⟨tag "a", rfl⟩, by decide⟩, (h5.2.2 _).2 ⟨⟨tag "c", rfl⟩, by decide⟩⟩

/-- C24 is false of the code: an addition of something already linked is shown twice. -/
theorem many_load_twice_violated (b : Backend) :
    (∃ res m', (tagsOf1 [.text "a"] []).LoadOut tagModel (linkSession b) linkDb res m') ∧
    ∀ res m', (tagsOf1 [.text "a"] []).LoadOut tagModel (linkSession b) linkDb res m' →
      ∃ os, res = .ok os ∧ ¬ (os.map (objKey tagModel)).Nodup := by
  obtain ⟨h1, h2⟩ := many_load_exact (tagOK b) (tagHolds b)
    (tagsOf1_ok b (new := ["a"]) (removed := []) (by decide) (by decide)) rfl
  refine ⟨h1, fun res m' hl => ?_⟩
  obtain ⟨x, y, rfl, _, h3, h4⟩ := h2 res m' hl
  refine ⟨x ++ y, rfl, fun hn => ?_⟩
  rw [List.map_append, List.nodup_append] at hn
  exact hn.2.2 (some (text "a")) ((h3.2.2 _).2 ⟨⟨tag "a", rfl⟩, by decide⟩) _
    ((h4.2.2 _).2 ⟨⟨tag "a", rfl⟩, by decide⟩) rfl

/-- C24 is false of the code: a removed object is still shown until `save`. -/
theorem many_load_removed_violated (b : Backend) :
    (∃ res m', (tagsOf1 [] [.text "a"]).LoadOut tagModel (linkSession b) linkDb res m') ∧
    ∀ res m', (tagsOf1 [] [.text "a"]).LoadOut tagModel (linkSession b) linkDb res m' →
      ∃ os, res = .ok os ∧ some (text "a") ∈ os.map (objKey tagModel) := by
  obtain ⟨h1, h2⟩ := many_load_exact (tagOK b) (tagHolds b)
    (tagsOf1_ok b (new := []) (removed := ["a"]) (by decide) (by decide)) rfl
  refine ⟨h1, fun res m' hl => ?_⟩
  obtain ⟨x, y, rfl, _, h3, _⟩ := h2 res m' hl
  refine ⟨x ++ y, rfl, ?_⟩
  rw [List.map_append, List.mem_append]
  exact .inl ((h3.2.2 _).2 ⟨⟨tag "a", rfl⟩, by decide⟩)

/-! ### C25 -/

/-- C25: what is left after a `save` that fails at any point.  The additions are split
into the ones already written, the ones still pending, and at most one that is neither.

Partial: the addition whose insert failed is lost (`many_failed_save_violated`). -/
theorem many_failed_save_partial {s : Session} {OKey IKey : DbVal → Prop} {o : SqlVal} {m : Many}
    {db : Db} (h : ManyOK s OKey IKey o m db) {fails : Nat → Bool} {db' : Db} {m' : Many} {e : OpErr}
    (hf : m.save s fails db = (db', m', some e)) :
    ∃ lost written, m.newValues = m'.newValues ++ lost ++ written ∧ lost.length ≤ 1 ∧
      links db' m.itemTable = links db m.itemTable ++ written.reverse.map (fun v => (toDb o, toDb v)) ∧
      m'.owner = m.owner ∧ m'.itemTable = m.itemTable ∧ ManyOK s OKey IKey o m' db' ∧
      (m'.newValues ≠ [] → m'.removedValues = m.removedValues) := by
  obtain ⟨db1, done, h1, h2, h3, h4⟩ := insertAll_spec h.session h.okey fails m.newValues.reverse 0
    h.table (by simpa using h.new)
  have hlen : ∀ n, n ≤ m.newValues.length → Fits s.b n := fun n hn hb => Nat.le_trans hn (h.fitsNew hb)
  rcases h4 with ⟨rfl, h5, _⟩ | ⟨v, rest, h5, _, h6⟩
  · cases hr : m.removedValues with
    | nil => simp [Many.save, h.owner, h5, hr] at hf
    | cons r rs =>
      simp only [Many.save, h.owner, h5, hr, List.isEmpty_cons, Bool.false_eq_true, if_false] at hf
      split at hf
      · cases hf
        refine ⟨[], m.newValues, by simp, by simp, h1, h.owner.symm, rfl, ?_, by simp⟩
        exact ⟨h.session, h.owners, h.items, h2, rfl, h.okey, by simp, by simp, fun _ => by simp, fun _ => by simp⟩
      · cases hf
  · simp only [Many.save, h.owner, h6] at hf
    cases hf
    have h5' := congrArg List.reverse h5
    simp only [List.reverse_reverse, List.reverse_append, List.reverse_cons] at h5'
    refine ⟨[v], done.reverse, by simpa using h5', by simp, by simpa using h1, h.owner.symm, rfl, ?_, by simp⟩
    refine ⟨h.session, h.owners, h.items, h2, rfl, h.okey, ?_, h.removed, ?_, h.fitsRemoved⟩
    · intro w hw
      refine h.new w ?_
      rw [h5']
      simp only [List.mem_append]
      exact .inl (.inl hw)
    · refine hlen _ ?_
      show rest.reverse.length ≤ _
      have := congrArg List.length h5'
      simp only [List.length_append, List.length_reverse, List.length_cons, List.length_nil] at this ⊢
      omega

/-- C25: saving again after a failure.  This owner's links then are the old ones, the
ones written before the failure and the ones still pending, without the removals that
are still pending. -/
theorem many_retry_partial {s : Session} {OKey IKey : DbVal → Prop} {o : SqlVal} {m : Many}
    {db : Db} (h : ManyOK s OKey IKey o m db) {fails : Nat → Bool} {db1 : Db} {m1 : Many} {e : OpErr}
    (hf : m.save s fails db = (db1, m1, some e)) :
    ∃ lost kept db2 m2, m.newValues.Perm (lost ++ kept) ∧ lost.length ≤ 1 ∧
      m1.save s (fun _ => false) db1 = (db2, m2, none) ∧
      (itemsOf (links db2 m.itemTable) (toDb o)).Perm
        ((itemsOf (links db m.itemTable) (toDb o) ++ kept.map toDb).filter
          (· ∉ m1.removedValues.map toDb)) := by
  obtain ⟨lost, written, h1, h2, h3, h4, h5, h6, _⟩ := many_failed_save_partial h hf
  obtain ⟨db2, g1, g2, _⟩ := many_save_exact h6
  rw [h5] at g2
  refine ⟨lost, m1.newValues ++ written, db2, _, ?_, h2, g1, ?_⟩
  · rw [h1]
    refine (List.perm_append_comm.append_right _).trans ?_
    rw [List.append_assoc]
  · rw [g2, itemsOf_filter _ _ (fun k => decide (k ∉ m1.removedValues.map toDb)), h3]
    simp only [itemsOf_append, itemsOf_own, List.map_append, List.append_assoc]
    refine List.Perm.filter _ ((List.Perm.refl _).append ?_)
    refine (List.perm_append_comm).trans ?_
    exact ((List.reverse_perm _).map _).append ((List.reverse_perm _).map _)

/-- The second of three inserts fails: "a" is written (the last one goes first), "b" is
lost, "c" remains. -/
theorem tags_fail (b : Backend) : ∃ db1, (tagsOf1 [.text "c", .text "b", .text "a"] []).save (linkSession b)
    (fun n => n == 1) linkDb = (db1, tagsOf1 [.text "c"] [], some .db) := by
  have h := tagsOf1_ok b (new := ["c", "b", "a"]) (removed := []) (by decide) (by decide)
  obtain ⟨db1, done, _, _, _, h4⟩ := insertAll_spec h.session h.okey (fun n => n == 1)
    (tagsOf1 [.text "c", .text "b", .text "a"] []).newValues.reverse 0 h.table
    (by intro v hv; exact h.new v (List.mem_reverse.1 hv))
  rcases h4 with ⟨_, _, h5⟩ | ⟨v, rest, h5, h6, h7⟩
  · exact absurd (h5 1 (by decide)) (by decide)
  · have hd : done.length = 1 := by simpa using h6
    refine ⟨db1, ?_⟩
    match done, hd with
    | [d], _ =>
      have h5 : [SqlVal.text "a", .text "b", .text "c"] = [d] ++ v :: rest := h5
      simp only [List.cons_append, List.nil_append, List.cons.injEq] at h5
      obtain ⟨rfl, rfl, rfl⟩ := h5
      have h7 : Many.insertAll (linkSession b) (fun n => n == 1) "blog_tags_Many" (.bigInt 1) 0 linkDb
        [.text "a", .text "b", .text "c"] = (db1, [.text "c"], some .db) := h7
      simp only [Many.save, tagsOf1, List.reverse_cons, List.reverse_nil, List.nil_append,
        List.cons_append, h7]

example (b : Backend) : ∃ db1 lost kept db2 m2,
    (tagsOf1 [.text "c", .text "b", .text "a"] []).save (linkSession b) (fun n => n == 1) linkDb =
      (db1, tagsOf1 [.text "c"] [], some .db) ∧
    [SqlVal.text "c", .text "b", .text "a"].Perm (lost ++ kept) ∧ lost.length ≤ 1 ∧
    (tagsOf1 [.text "c"] []).save (linkSession b) (fun _ => false) db1 = (db2, m2, none) := by
  obtain ⟨db1, h⟩ := tags_fail b
  obtain ⟨lost, kept, db2, m2, h1, h2, h3, _⟩ := many_retry_partial (tagsOf1_ok b (new := ["c", "b", "a"])
    (removed := []) (by decide) (by decide)) h
  exact ⟨db1, lost, kept, db2, m2, h, h1, h2, h3⟩

/-- C25 is false of the code: "c" is added to blog 1, its insert fails, and saving again
succeeds without ever linking "c". -/
theorem many_failed_save_violated (b : Backend) :
    (tagsOf1 [.text "c"] []).save (linkSession b) (fun _ => true) linkDb =
      (linkDb, tagsOf1 [] [], some .db) ∧
    ∃ db', (tagsOf1 [] []).save (linkSession b) (fun _ => false) linkDb = (db', tagsOf1 [] [], none) ∧
      text "c" ∉ itemsOf (links db' "blog_tags_Many") (.int 1) := by
  refine ⟨rfl, ?_⟩
  obtain ⟨db', h1, h2, _⟩ := many_save_exact (tagsOf1_ok b (new := []) (removed := []) (by decide) (by decide))
  refine ⟨db', h1, ?_⟩
  have h2 : links db' "blog_tags_Many" = _ := h2
  rw [h2]
  decide

/-! ### C26 -/

/-- One call: loaded values after it are either the ones from before, which the call has
not changed, or known from the call. -/
theorem many_call_cache {im : ModelDef} {s : Session} {db db' : Db} {m m' : Many} {c : MCall} {r : MReply}
    (h : CallStep im s db m c r db' m') {vs : List Obj} (hv : m'.get = .ok vs) :
    (m.get = .ok vs ∧ changes (c, r) = false) ∨ Knows vs (c, r) := by
  have hget : ∀ x : Many, x.get = .ok vs ↔ x.cache = some vs := by
    intro x
    unfold Many.get
    cases x.cache <;> simp
  rw [hget] at hv ⊢
  have hdel : ∀ {f : Bool} {db db' : Db} {m m' : Many} {e : Option OpErr},
      m.delete s f db = (db', m', e) → (∃ x, e = some x ∧ m' = m) ∨ (e = none ∧ m'.cache = some []) := by
    intro f db db' m m' e h
    unfold Many.delete at h
    split at h
    · cases h; exact .inl ⟨_, rfl, rfl⟩
    · split at h
      · cases h; exact .inl ⟨_, rfl, rfl⟩
      · cases h; exact .inr ⟨rfl, rfl⟩
  have hsave : ∀ {f : Nat → Bool} {db db' : Db} {m m' : Many} {e : Option OpErr},
      m.save s f db = (db', m', e) → m'.cache = m.cache := by
    intro f db db' m m' e h
    unfold Many.save at h
    split at h
    · cases h; rfl
    · split at h
      · cases h; rfl
      · split at h
        · cases h; rfl
        · split at h <;> (cases h; rfl)
  have hadd : ∀ {os : List Obj} {m m' : Many} {e : Option OpErr}, m.addAll im os = (m', e) →
      m'.cache = m.cache ∨ m'.cache = none := by
    intro os
    induction os with
    | nil =>
      intro m m' e h
      simp only [Many.addAll, Prod.mk.injEq] at h
      exact .inl (by rw [h.1])
    | cons x xs ih =>
      intro m m' e h
      simp only [Many.addAll] at h
      split at h
      · simp only [Prod.mk.injEq] at h
        exact .inl (by rw [h.1])
      · rename_i m1 h1
        unfold Many.add at h1
        split at h1
        · cases h1
        · cases h1
          rcases ih h with h | h
          · exact .inr h
          · exact .inr h
  cases h with
  | add h =>
    unfold Many.add at h
    split at h <;> cases h
    cases hv
  | add_err h => exact .inl ⟨hv, rfl⟩
  | remove h =>
    unfold Many.remove at h
    split at h <;> cases h
    cases hv
  | save h => exact .inl ⟨(hsave h) ▸ hv, by unfold replyOf; split <;> rfl⟩
  | delete h =>
    rcases hdel h with ⟨x, rfl, rfl⟩ | ⟨rfl, h1⟩
    · exact .inl ⟨hv, rfl⟩
    · rw [h1] at hv
      exact .inr (Option.some.inj hv).symm
  | set h =>
    unfold Many.set at h
    split at h
    · rename_i h1
      rcases hdel h1 with ⟨x, he, rfl⟩ | ⟨he, _⟩
      · cases h
        exact .inl ⟨hv, rfl⟩
      · cases he
    · rename_i h1
      rcases hdel h1 with ⟨x, he, _⟩ | ⟨_, hc1⟩
      · cases he
      split at h
      · rename_i h2
        cases h
        rcases hadd h2 with h3 | h3
        · rw [h3, hc1] at hv
          exact .inr (Option.some.inj hv).symm
        · rw [h3] at hv
          cases hv
      · rename_i h2
        split at h
        · rename_i h3
          have h4 := hsave h3
          cases h
          rcases hadd h2 with h5 | h5
          · rw [h4, h5, hc1] at hv
            exact .inr (Option.some.inj hv).symm
          · rw [h4, h5] at hv
            cases hv
        · cases h
          exact .inr (Option.some.inj hv)
  | load h =>
    unfold Many.LoadOut at h
    split at h
    · exact h.elim
    · split at h
      · obtain ⟨_, rfl⟩ := h
        exact .inl ⟨hv, rfl⟩
      · unfold Many.LoadQueryOut at h
        split at h
        · obtain ⟨_, rfl⟩ := h
          exact .inl ⟨hv, rfl⟩
        · obtain ⟨_, rfl⟩ := h
          exact .inr (Option.some.inj hv)
  | load_err h =>
    unfold Many.LoadOut at h
    split at h
    · exact h.elim
    · split at h
      · obtain ⟨_, rfl⟩ := h
        exact .inl ⟨hv, rfl⟩
      · unfold Many.LoadQueryOut at h
        split at h
        · obtain ⟨_, rfl⟩ := h
          exact .inl ⟨hv, rfl⟩
        · obtain ⟨_, rfl⟩ := h
          exact .inl ⟨hv, rfl⟩
  | loadOrdered h =>
    unfold Many.LoadOrderedOut at h
    split at h
    · exact h.elim
    · split at h
      · obtain ⟨_, rfl⟩ := h
        exact .inl ⟨hv, rfl⟩
      · unfold Many.LoadQueryOut at h
        split at h
        · obtain ⟨_, rfl⟩ := h
          exact .inl ⟨hv, rfl⟩
        · obtain ⟨_, rfl⟩ := h
          exact .inr (Option.some.inj hv)
  | loadOrdered_err h =>
    unfold Many.LoadOrderedOut at h
    split at h
    · exact h.elim
    · split at h
      · obtain ⟨_, rfl⟩ := h
        exact .inl ⟨hv, rfl⟩
      · unfold Many.LoadQueryOut at h
        split at h
        · obtain ⟨_, rfl⟩ := h
          exact .inl ⟨hv, rfl⟩
        · obtain ⟨_, rfl⟩ := h
          exact .inl ⟨hv, rfl⟩
  | elsewhere => exact .inl ⟨hv, rfl⟩

/-- C26: in every history, with failures anywhere and somebody else changing the
database, `get` returns values only if a load, `set` or `delete` reported them and there
has been no successful `add` or `remove` since. -/
theorem many_get_fresh {im : ModelDef} {s : Session} {db db' : Db} {m m' : Many}
    {h : List (MCall × MReply)} (hr : CallRuns im s db m h db' m') (hc : m.cache = none)
    {vs : List Obj} (hv : m'.get = .ok vs) :
    ∃ before c after, h = before ++ c :: after ∧ Knows vs c ∧ ∀ x ∈ after, changes x = false := by
  have key : ∀ {h : List (MCall × MReply)} {db db' : Db} {m m' : Many}, CallRuns im s db m h db' m' →
      m'.get = .ok vs → (m.get = .ok vs ∧ ∀ x ∈ h, changes x = false) ∨
      ∃ before c after, h = before ++ c :: after ∧ Knows vs c ∧ ∀ x ∈ after, changes x = false := by
    intro h
    induction h with
    | nil =>
      intro db db' m m' hr hv
      cases hr
      exact .inl ⟨hv, by simp⟩
    | cons x xs ih =>
      intro db db' m m' hr hv
      cases hr with
      | cons h1 h2 =>
        rcases ih h2 hv with ⟨h3, h4⟩ | ⟨b, c, a, rfl, h4, h5⟩
        · rcases many_call_cache h1 h3 with ⟨h5, h6⟩ | h5
          · refine .inl ⟨h5, ?_⟩
            intro y hy
            rcases List.mem_cons.1 hy with rfl | hy
            · exact h6
            · exact h4 y hy
          · exact .inr ⟨[], _, xs, rfl, h5, h4⟩
        · exact .inr ⟨_ :: b, c, a, rfl, h4, h5⟩
  rcases key hr hv with ⟨h1, _⟩ | h1
  · unfold Many.get at h1
    rw [hc] at h1
    cases h1
  · exact h1

/-- A history that ends with loaded values. -/
example (b : Backend) : ∃ vs m', CallRuns tagModel (linkSession b) linkDb (tagsOf1 [] [])
      [(.add (tag "c"), .done), (.load, .values vs)] linkDb m' ∧ m'.get = .ok vs := by
  obtain ⟨⟨res, m', h1⟩, h2⟩ := many_load_exact (tagOK b) (tagHolds b)
    (tagsOf1_ok b (new := ["c"]) (removed := []) (by decide) (by decide)) rfl
  obtain ⟨x, y, rfl, h3, _⟩ := h2 _ _ h1
  exact ⟨x ++ y, m', .cons (.add (m' := tagsOf1 [.text "c"] []) rfl) (.cons (.load h1) .nil), by rw [h3]; rfl⟩

/-- C26: an uninitialised `Many` cannot be saved, and loads as empty. -/
theorem many_uninit {im : ModelDef} {pk : Field} (hpk : im.pkField = some pk) (s : Session) (db : Db)
    {m : Many} (h : m.owner = none) :
    (∀ fails, m.save s fails db = (db, m, some .notInitialized)) ∧
    (∀ fail, m.delete s fail db = (db, m, some .notInitialized)) ∧
    (∀ res m', m.LoadOut im s db res m' ↔ res = .ok [] ∧ m' = m) ∧
    (∀ d res m', m.LoadOrderedOut im s db d res m' ↔ res = .ok [] ∧ m' = m) := by
  refine ⟨fun _ => by simp [Many.save, h], fun _ => by simp [Many.delete, h], ?_, ?_⟩
  · intro res m'
    simp [Many.LoadOut, hpk, Many.query, h]
  · intro d res m'
    simp [Many.LoadOrderedOut, hpk, Many.query, h]

example : Many.new.owner = none ∧ ∃ m', Many.new.add tagModel (tag "a") = .ok m' ∧ m'.owner = none ∧
    m'.newValues = [.text "a"] := ⟨rfl, _, rfl, rfl, rfl⟩

/-- C26: an object without key cannot be added, and the failed call changes nothing. -/
theorem many_add_invalid {im : ModelDef} {s : Session} {db db' : Db} {m m' : Many} {x : Obj} {r : MReply}
    (h : CallStep im s db m (.add x) r db' m') (hx : objKey im x = none) :
    r = .error .valueNotSaved ∧ db' = db ∧ m' = m := by
  unfold objKey at hx
  cases hp : im.pkVal x with
  | ok v => rw [hp] at hx; cases hx
  | error e =>
    cases h with
    | add h => simp [Many.add, hp] at h
    | add_err h =>
      simp only [Many.add, hp, Except.error.injEq] at h
      rw [h]
      exact ⟨rfl, rfl, rfl⟩

example (b : Backend) : objKey blogModel (blog none "cats") = none ∧
    CallStep blogModel (linkSession b) linkDb (tagsOf1 [] []) (.add (blog none "cats"))
      (.error .valueNotSaved) linkDb (tagsOf1 [] []) := ⟨rfl, .add_err rfl⟩

/-- C26: initialising keeps pending changes; a field that has its owner never gets
another one. -/
theorem many_init (m : Many) (table : String) (owner : SqlVal) :
    (m.ensureInit table owner).newValues = m.newValues ∧
    (m.ensureInit table owner).removedValues = m.removedValues ∧
    (m.owner = none → (m.ensureInit table owner).owner = some owner ∧
      (m.ensureInit table owner).itemTable = table) ∧
    ∀ o, m.owner = some o → m.ensureInit table owner = m := by
  refine ⟨?_, ?_, ?_, ?_⟩
  · unfold Many.ensureInit; split <;> rfl
  · unfold Many.ensureInit; split <;> rfl
  · intro h
    simp [Many.ensureInit, h]
  · intro o h
    simp [Many.ensureInit, h]

/-- "c" is added before the owner is known, and saved afterwards. -/
example (b : Backend) : ∃ m, Many.new.add tagModel (tag "c") = .ok m ∧
    ∃ db' m', (m.ensureInit "blog_tags_Many" (.bigInt 1)).save (linkSession b) (fun _ => false) linkDb =
        (db', m', none) ∧
      (itemsOf (links db' "blog_tags_Many") (.int 1)).Perm [text "a", text "b", text "c"] := by
  obtain ⟨db', h1, h2, _⟩ := many_save_partial (tagsOf1_ok b (new := ["c"]) (removed := [])
    (by decide) (by decide)) (by decide)
  exact ⟨_, rfl, db', _, h1, h2.trans (by decide)⟩

/-! ### C54 -/

/-- The keys of the objects are in the given direction. -/
def KeysInOrder (im : ModelDef) (le : DbVal → DbVal → Bool) (d : Dir) (os : List Obj) : Prop :=
  os.Pairwise fun a b => ∀ x y, objKey im a = some x → objKey im b = some y →
    match d with
    | .asc => le x y = true
    | .desc => le y x = true

theorem keys_in_order {im : ModelDef} {le : DbVal → DbVal → Bool} {d : Dir} {c : String} :
    ∀ (rows : List Row) (os : List Obj), rows.Pairwise (InOrder le [⟨d, c⟩]) →
      os.map (objKey im) = rows.map (fun r => some (r.val c)) → KeysInOrder im le d os := by
  intro rows
  induction rows with
  | nil =>
    intro os _ h
    obtain rfl : os = [] := by simpa using h
    exact .nil
  | cons r rows ih =>
    intro os h4 h5
    cases os with
    | nil => simp at h5
    | cons x xs =>
      simp only [List.map_cons, List.cons.injEq] at h5
      obtain ⟨h6, h7⟩ := List.pairwise_cons.1 h4
      refine List.pairwise_cons.2 ⟨?_, ih xs h7 h5.2⟩
      intro y hy kx ky hkx hky
      have hmem : objKey im y ∈ rows.map (fun r => some (r.val c)) := by
        rw [← h5.2]
        exact List.mem_map.2 ⟨y, hy, rfl⟩
      obtain ⟨r', hr', he⟩ := List.mem_map.1 hmem
      rw [hky] at he
      rw [h5.1] at hkx
      obtain rfl := Option.some.inj he
      obtain rfl := Option.some.inj hkx
      have := (h6 r' hr').1
      cases d <;> exact this

/-- C54: exactly what `load_ordered` of an unloaded `Many` shows: the saved objects in
order, followed by the pending ones in any order. -/
theorem many_load_ordered_exact {im : ModelDef} {pk : Field} {s : Session} {OKey IKey : DbVal → Prop}
    {st : Store} {o : SqlVal} {m : Many} {db : Db} (hm : ModelOK s im pk)
    (hh : Holds im s pk IKey st db) (h : ManyOK s OKey IKey o m db) (hc : m.cache = none)
    (htot : ∀ a b, s.le a b = true ∨ s.le b a = true)
    (htrans : ∀ a b c, s.le a b = true → s.le b c = true → s.le a c = true) (d : Dir) :
    (∃ res m', m.LoadOrderedOut im s db d res m') ∧
    ∀ res m', m.LoadOrderedOut im s db d res m' → ∃ saved pending, res = .ok (saved ++ pending) ∧
      m'.get = .ok (saved ++ pending) ∧ KeysInOrder im s.le d saved ∧
      Shows im st saved (· ∈ itemsOf (links db m.itemTable) (toDb o)) ∧
      Shows im st pending (· ∈ m.newValues.map toDb) := by
  have hq : m.query im pk.name = some ((Query.new im.table).withFilter
      (.subquery pk.name m.itemTable "has" (.cmp .eq "owner" (.val o)))) := by
    simp [Many.query, h.owner]
  have hcol : ∀ x ∈ [Order.mk d pk.name], x.column ∈ im.columns := by
    intro x hx
    obtain rfl := List.mem_singleton.1 hx
    exact hm.pk_col
  simp only [Many.LoadOrderedOut, hm.pk_field, hq]
  refine ⟨load_query_exists (sort := [⟨d, pk.name⟩]) hm hh h.session h.table h.owners h.items h.okey
    h.new h.fitsNew hc hcol (sort_exists htot htrans d pk.name), fun res m' hl => ?_⟩
  obtain ⟨a, b, h1, h2, h3, h4, rows, h5, h6⟩ := load_query_exact (sort := [⟨d, pk.name⟩]) hm hh h.session
    h.table h.owners h.items h.okey h.new h.fitsNew hc hcol hl
  exact ⟨a, b, h1, by rw [h2]; rfl, keys_in_order rows a h5 h6, h3, h4⟩

/-- C54.  Partial: only for a `Many` that has not been loaded
(`many_load_ordered_cached_violated`) and has no pending additions
(`many_load_ordered_pending_violated`). -/
theorem many_load_ordered_partial {im : ModelDef} {pk : Field} {s : Session} {OKey IKey : DbVal → Prop}
    {st : Store} {o : SqlVal} {m : Many} {db : Db} (hm : ModelOK s im pk)
    (hh : Holds im s pk IKey st db) (h : ManyOK s OKey IKey o m db) (hc : m.cache = none)
    (htot : ∀ a b, s.le a b = true ∨ s.le b a = true)
    (htrans : ∀ a b c, s.le a b = true → s.le b c = true → s.le a c = true)
    (hn : m.newValues = []) (d : Dir) :
    (∃ res m', m.LoadOrderedOut im s db d res m') ∧
    ∀ res m', m.LoadOrderedOut im s db d res m' → ∃ os, res = .ok os ∧ m'.get = .ok os ∧
      KeysInOrder im s.le d os ∧ Shows im st os (· ∈ itemsOf (links db m.itemTable) (toDb o)) := by
  obtain ⟨h1, h2⟩ := many_load_ordered_exact hm hh h hc htot htrans d
  refine ⟨h1, fun res m' hl => ?_⟩
  obtain ⟨a, b, rfl, h3, h4, h5, h6⟩ := h2 res m' hl
  have hb : b = [] := by
    cases b with
    | nil => rfl
    | cons x xs =>
      obtain ⟨k, _, hk, _⟩ := h6.2.1 x (by simp)
      have := (h6.2.2 k).1 (by simp [hk])
      rw [hn] at this
      exact absurd this.2 (by simp)
  subst hb
  rw [List.append_nil] at h3 ⊢
  exact ⟨a, rfl, h3, h4, h5⟩

theorem textLe_total : ∀ a b, textLe a b = true ∨ textLe b a = true := by
  intro a b
  simp only [textLe, decide_eq_true_eq]
  omega

theorem textLe_trans : ∀ a b c, textLe a b = true → textLe b c = true → textLe a c = true := by
  intro a b c
  simp only [textLe, decide_eq_true_eq]
  omega

example (b : Backend) : ∃ res m', (tagsOf1 [] []).LoadOrderedOut tagModel (linkSession b) linkDb .desc res m' ∧
    ∃ os, res = .ok os ∧ KeysInOrder tagModel textLe .desc os ∧
      some (text "a") ∈ os.map (objKey tagModel) ∧ some (text "b") ∈ os.map (objKey tagModel) := by
  obtain ⟨⟨res, m', h1⟩, h2⟩ := many_load_ordered_partial (tagOK b) (tagHolds b)
    (tagsOf1_ok b (new := []) (removed := []) (by decide) (by decide)) rfl textLe_total textLe_trans rfl .desc
  obtain ⟨os, h3, _, h4, h5⟩ := h2 res m' h1
  exact ⟨res, m', h1, os, h3, h4, (h5.2.2 _).2 ⟨⟨tag "a", rfl⟩, by decide⟩,
    (h5.2.2 _).2 ⟨⟨tag "b", rfl⟩, by decide⟩⟩

/-- C54 is false of the code: pending additions come after the ordered part.  Blog 1 has
"a" and "b", "c" is added, and the descending order is asked for. -/
theorem many_load_ordered_pending_violated (b : Backend) :
    (∃ res m', (tagsOf1 [.text "c"] []).LoadOrderedOut tagModel (linkSession b) linkDb .desc res m') ∧
    ∀ res m', (tagsOf1 [.text "c"] []).LoadOrderedOut tagModel (linkSession b) linkDb .desc res m' →
      ∃ os, res = .ok os ∧ ¬ KeysInOrder tagModel textLe .desc os := by
  obtain ⟨h1, h2⟩ := many_load_ordered_exact (tagOK b) (tagHolds b)
    (tagsOf1_ok b (new := ["c"]) (removed := []) (by decide) (by decide)) rfl textLe_total textLe_trans .desc
  refine ⟨h1, fun res m' hl => ?_⟩
  obtain ⟨x, y, rfl, _, _, h3, h4⟩ := h2 res m' hl
  refine ⟨x ++ y, rfl, fun h => ?_⟩
  obtain ⟨a, ha, hka⟩ := List.mem_map.1 ((h3.2.2 (text "a")).2 ⟨⟨tag "a", rfl⟩, by decide⟩)
  obtain ⟨c, hc, hkc⟩ := List.mem_map.1 ((h4.2.2 (text "c")).2 ⟨⟨tag "c", rfl⟩, by decide⟩)
  exact absurd ((List.pairwise_append.1 h).2.2 a ha c hc _ _ hka hkc) (by decide)

/-- C54 is false of the code: once values are there, they are returned as they are.  The
tags are set to "b", "a", and the ascending order is asked for. -/
theorem many_load_ordered_cached_violated (b : Backend) :
    ∃ db' m', (tagsOf1 [] []).set tagModel (linkSession b) (fun _ => false) linkDb [tag "b", tag "a"] =
        (db', m', none) ∧
      ∀ res m'', m'.LoadOrderedOut tagModel (linkSession b) db' .asc res m'' ↔
        res = .ok [tag "b", tag "a"] ∧ m'' = m' := by
  obtain ⟨db', h1, _⟩ := set_links (im := tagModel) (s := linkSession b) (m := tagsOf1 [] [])
    (o := .bigInt 1) (linkSessionOK b) (linkIntKeys b) (linkTextKeys b) (linkTable b) rfl ⟨1, rfl⟩
    (os := [tag "b", tag "a"]) (vs := [.text "b", .text "a"]) rfl (by
      intro v hv
      simp only [List.mem_cons, List.not_mem_nil, or_false] at hv
      rcases hv with rfl | rfl <;> exact ⟨_, rfl⟩)
  exact ⟨db', _, h1, fun res m'' => Iff.rfl⟩

example : ¬ KeysInOrder tagModel textLe .asc [tag "b", tag "a"] := by
  intro h
  exact absurd ((List.pairwise_cons.1 h).1 (tag "a") (by simp) _ _ rfl rfl) (by decide)

/-! ### C55 -/

/-- C55: after loading and then saving without failure, `get` returns exactly the linked
objects that exist.  Partial: the load must have been before a removal (then the removed
object is still shown, `many_get_after_save_violated`) or none is pending, and nothing
pending may be linked already (it is shown twice, `many_load_twice_violated`). -/
theorem many_get_after_save_partial {im : ModelDef} {pk : Field} {s : Session} {OKey IKey : DbVal → Prop}
    {st : Store} {o : SqlVal} {m : Many} {db : Db} (hm : ModelOK s im pk)
    (hh : Holds im s pk IKey st db) (h : ManyOK s OKey IKey o m db) (hc : m.cache = none)
    (hnew : ∀ k ∈ itemsOf (links db m.itemTable) (toDb o), k ∉ m.newValues.map toDb)
    (hrem : m.removedValues = []) {res : Except OpErr (List Obj)} {m1 : Many}
    (hl : m.LoadOut im s db res m1) :
    ∃ db' m2 os, m1.save s (fun _ => false) db = (db', m2, none) ∧ m2.get = .ok os ∧
      Shows im st os (· ∈ itemsOf (links db' m.itemTable) (toDb o)) := by
  obtain ⟨a, b, _, rfl, h3, h4⟩ := (many_load_exact hm hh h hc).2 res m1 hl
  obtain ⟨db', g1, g2, _⟩ := many_save_exact (m := { m with cache := some (a ++ b) })
    ⟨h.session, h.owners, h.items, h.table, h.owner, h.okey, h.new, h.removed, h.fitsNew, h.fitsRemoved⟩
  refine ⟨db', _, a ++ b, g1, rfl, shows_congr (shows_append h3 h4 hnew) ?_⟩
  intro k
  have g2 : links db' m.itemTable = (links db m.itemTable ++ m.newValues.reverse.map
    (fun v => (toDb o, toDb v))).filter (fun l => l.2 ∉ m.removedValues.map toDb) := g2
  rw [g2, hrem, List.filter_eq_self.2 (by simp), itemsOf_append, itemsOf_own]
  simp

example (b : Backend) : ∃ res m1, (tagsOf1 [.text "c"] []).LoadOut tagModel (linkSession b) linkDb res m1 ∧
    ∃ db' m2 os, m1.save (linkSession b) (fun _ => false) linkDb = (db', m2, none) ∧ m2.get = .ok os := by
  have hok := tagsOf1_ok b (new := ["c"]) (removed := []) (by decide) (by decide)
  obtain ⟨⟨res, m1, h1⟩, _⟩ := many_load_exact (tagOK b) (tagHolds b) hok rfl
  obtain ⟨db', m2, os, h2, h3, _⟩ := many_get_after_save_partial (tagOK b) (tagHolds b) hok rfl (by decide) rfl h1
  exact ⟨res, m1, h1, db', m2, os, h2, h3⟩

/-- C55 is false of the code: remove "a", load, save; `get` still returns "a". -/
theorem many_get_after_save_violated (b : Backend) :
    ∃ res m1, (tagsOf1 [] [.text "a"]).LoadOut tagModel (linkSession b) linkDb res m1 ∧
    ∃ db' m2 os, m1.save (linkSession b) (fun _ => false) linkDb = (db', m2, none) ∧
      text "a" ∉ itemsOf (links db' "blog_tags_Many") (.int 1) ∧
      m2.get = .ok os ∧ some (text "a") ∈ os.map (objKey tagModel) := by
  have h := tagsOf1_ok b (new := []) (removed := ["a"]) (by decide) (by decide)
  obtain ⟨⟨res, m1, h1⟩, h2⟩ := many_load_exact (tagOK b) (tagHolds b) h rfl
  refine ⟨res, m1, h1, ?_⟩
  obtain ⟨x, y, _, rfl, h3, _⟩ := h2 res m1 h1
  obtain ⟨db', g1, g2, _⟩ := many_save_exact (m := { tagsOf1 [] [.text "a"] with cache := some (x ++ y) })
    ⟨h.session, h.owners, h.items, h.table, h.owner, h.okey, h.new, h.removed, h.fitsNew, h.fitsRemoved⟩
  refine ⟨db', _, x ++ y, g1, ?_, rfl, ?_⟩
  · have g2 : links db' "blog_tags_Many" = (links linkDb "blog_tags_Many" ++ []).filter
      (fun l => l.2 ∉ [text "a"]) := g2
    rw [g2]
    decide
  · rw [List.map_append, List.mem_append]
    exact .inl ((h3.2.2 _).2 ⟨⟨tag "a", rfl⟩, by decide⟩)

end Butane.Props
