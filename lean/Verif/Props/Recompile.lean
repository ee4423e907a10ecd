/-
C73: what is recorded depends only on the source.
C74: what is recorded for a model that the macro rejects.
-/
import Verif.Props.Codegen
import Verif.Props.TypeKey

namespace Butane.Props
open Butane Butane.Spec Butane.Codegen Butane.Proofs.Codegen

theorem fold_sorted {K V : Type} [Ord K] [Std.TransOrd K] [Std.LawfulEqOrd K] [DecidableEq K]
    (l : List (K × V)) : ∀ (m : SMap K V), m.Sorted →
    (l.foldl (fun m e => m.insert e.1 e.2) m).Sorted := by
  induction l with
  | nil => intro m h; exact h
  | cons x l ih => intro m h; exact ih _ (SMap.sorted_insert h _ _)

/-- Inserting the same entries into maps that agree elsewhere gives maps that agree. -/
theorem fold_agree {K V : Type} [Ord K] [Std.TransOrd K] [Std.LawfulEqOrd K] [DecidableEq K]
    (l : List (K × V)) : ∀ (m m' : SMap K V),
    (∀ k, k ∉ l.map (·.1) → m.lookup k = m'.lookup k) →
    ∀ k, (l.foldl (fun m e => m.insert e.1 e.2) m).lookup k =
      (l.foldl (fun m e => m.insert e.1 e.2) m').lookup k := by
  induction l with
  | nil => intro m m' h k; exact h k (by simp)
  | cons x l ih =>
    intro m m' h k
    refine ih _ _ (fun k hk => ?_) k
    rw [SMap.lookup_insert, SMap.lookup_insert]
    by_cases e : k = x.1
    · rw [if_pos e, if_pos e]
    · rw [if_neg e, if_neg e]
      exact h k (by simp [e]; simpa using hk)

/-- What was not inserted is as before. -/
theorem fold_other {K V : Type} [Ord K] [Std.TransOrd K] [Std.LawfulEqOrd K] [DecidableEq K]
    (l : List (K × V)) : ∀ (m : SMap K V) (k : K), k ∉ l.map (·.1) →
    (l.foldl (fun m e => m.insert e.1 e.2) m).lookup k = m.lookup k := by
  induction l with
  | nil => intro m k _; rfl
  | cons x l ih =>
    intro m k hk
    simp only [List.map_cons, List.mem_cons, not_or] at hk
    simp only [List.foldl_cons]
    rw [ih _ k hk.2, SMap.lookup_insert, if_neg hk.1]

/-- Whether an item can be expanded does not depend on what is recorded. -/
theorem expand_ok {g : Cfg} {db r : ADB} {i : Item} (h : expand g db i = some r) :
    ItemOk g i := by
  cases i with
  | model s =>
    simp only [expand, writeTables, Option.map_eq_some_iff] at h
    obtain ⟨ts, h, _⟩ := h; exact ⟨ts, h⟩
  | alias n p =>
    simp only [expand, Option.map_eq_some_iff] at h
    obtain ⟨d, h, _⟩ := h; exact ⟨d, h⟩
  | typed n ty => trivial
  | derived n sh =>
    simp only [expand, Option.map_eq_some_iff] at h
    obtain ⟨d, h, _⟩ := h; exact ⟨d, h⟩

theorem expandAll_ok {g : Cfg} (items : List Item) : ∀ {db r : ADB}, expandAll g db items = some r →
    ∀ i ∈ items, ItemOk g i := by
  induction items with
  | nil => intro db r _ i hi; cases hi
  | cons j is ih =>
    intro db r h i hi
    rw [expandAll] at h
    cases he : expand g db j with
    | none => rw [he] at h; cases h
    | some db1 =>
      rw [he] at h
      rcases List.mem_cons.1 hi with rfl | hi
      · exact expand_ok he
      · exact ih h i hi

theorem adb_ext {a b : ADB} (h1 : a.tables = b.tables) (h2 : a.extraTypes = b.extraTypes) : a = b := by
  cases a; cases b; simp_all

theorem expandAll_sorted {g : Cfg} {items : List Item} {db r : ADB} (h : expandAll g db items = some r)
    (h1 : db.tables.Sorted) (h2 : db.extraTypes.Sorted) : r.tables.Sorted ∧ r.extraTypes.Sorted := by
  rw [expandAll_eq items db (expandAll_ok items h)] at h
  cases h
  exact ⟨fold_sorted _ _ h1, fold_sorted _ _ h2⟩

/-- C73: compiling an edited crate on top of what was recorded before the edit gives what
compiling it afresh gives, if every table and every type name recorded before still is. -/
theorem recompile_partial (g : Cfg) (old new : List Item) (a b : ADB)
    (ha : expandAll g ADB.new old = some a) (hb : expandAll g ADB.new new = some b)
    (hT : ∀ n ∈ a.tables.keys, n ∈ b.tables.keys)
    (hE : ∀ k ∈ a.extraTypes.keys, k ∈ b.extraTypes.keys) :
    expandAll g a new = some b := by
  obtain ⟨sa1, sa2⟩ := expandAll_sorted ha SMap.sorted_nil SMap.sorted_nil
  obtain ⟨sb1, sb2⟩ := expandAll_sorted hb SMap.sorted_nil SMap.sorted_nil
  have hok := expandAll_ok new hb
  rw [expandAll_eq new _ hok] at hb
  rw [expandAll_eq new _ hok]
  congr 1
  cases hb
  apply adb_ext
  · refine SMap.ext (fold_sorted _ _ sa1) sb1 fun k => fold_agree _ _ _ (fun k hk => ?_) k
    cases hl : SMap.lookup a.tables k with
    | none => rfl
    | some t =>
      obtain ⟨v, hv⟩ := (SMap.mem_keys_iff _ k).1 (hT k ((SMap.mem_keys_iff _ k).2 ⟨t, hl⟩))
      simp only at hv
      rw [fold_other _ _ _ hk] at hv
      cases hv
  · refine SMap.ext (fold_sorted _ _ sa2) sb2 fun k => fold_agree _ _ _ (fun k hk => ?_) k
    cases hl : SMap.lookup a.extraTypes k with
    | none => rfl
    | some t =>
      obtain ⟨v, hv⟩ := (SMap.mem_keys_iff _ k).1 (hE k ((SMap.mem_keys_iff _ k).2 ⟨t, hl⟩))
      simp only at hv
      rw [fold_other _ _ _ hk] at hv
      cases hv

/-- `exCrate` after an edit: `Post` has another field, and there is another model. -/
def exEdited : List Item :=
  [.model { postModel with fields := fld "title" (ty0 "String") :: postModel.fields },
   .model ⟨ident "User", [], [fld "id" (ty0 "i64")]⟩, .alias (ident "Number") (ty0 "i32"),
   .model authorModel, .derived (ident "Kind") .simpleEnum, .model labelModel]

example : ∃ a b, expandAll exCfg ADB.new exCrate = some a ∧ expandAll exCfg ADB.new exEdited = some b ∧
    a.tables ≠ b.tables ∧ expandAll exCfg a exEdited = some b := by
  refine ⟨_, _, rfl, rfl, by decide, ?_⟩
  exact recompile_partial exCfg exCrate exEdited _ _ rfl rfl (by decide) (by decide)

/-- C73: compiling an unchanged crate again changes nothing. -/
theorem recompile_unchanged (g : Cfg) (items : List Item) (a : ADB)
    (h : expandAll g ADB.new items = some a) : expandAll g a items = some a :=
  recompile_partial g items items a a h h (fun _ h => h) (fun _ h => h)

/-- C73: the order in which the compiler expands the items of a crate does not matter. -/
theorem compile_order (g : Cfg) (hr : ResolverOk g.resolve) (items items' : List Item)
    (hn : WellNamed items) (ht : Typed g.ft items) (hp : items.Perm items') :
    expandAll g ADB.new items' = expandAll g ADB.new items := by
  have hok := items_ok hr hn ht
  have hok' : ∀ i ∈ items', ItemOk g i := fun i hi => hok i (hp.mem_iff.2 hi)
  have hmodels : ∀ {l l' : List Item}, l.Perm l' → (modelsOf l).Perm (modelsOf l') := by
    intro l l' h
    induction h with
    | nil => exact .nil
    | cons x _ ih => cases x <;> simp only [modelsOf] <;> first | exact ih.cons _ | exact ih
    | swap x y l =>
      cases x <;> cases y <;> simp only [modelsOf] <;> first | exact .swap _ _ _ | exact .refl _
    | trans _ _ ih1 ih2 => exact ih1.trans ih2
  have hpt : (tabs g items).Perm (tabs g items') := (hmodels hp).flatMap_right _
  have hpe : (items.flatMap (ext g)).Perm (items'.flatMap (ext g)) := hp.flatMap_right _
  have hnt : ((tabs g items).map (·.1)).Nodup := by rw [tabs_names hr hn ht]; exact hn.tables
  have hne := ext_keys (g := g) items hn.structs hn.types hn.notRaw
  obtain ⟨s1, m1⟩ := fold_insert (tabs g items) [] SMap.sorted_nil hnt (fun _ _ => rfl)
  obtain ⟨s2, m2⟩ := fold_insert (tabs g items') [] SMap.sorted_nil
    ((hpt.map _).nodup_iff.1 hnt) (fun _ _ => rfl)
  obtain ⟨s3, m3⟩ := fold_insert (items.flatMap (ext g)) [] SMap.sorted_nil hne (fun _ _ => rfl)
  obtain ⟨s4, m4⟩ := fold_insert (items'.flatMap (ext g)) [] SMap.sorted_nil
    ((hpe.map _).nodup_iff.1 hne) (fun _ _ => rfl)
  have same : ∀ {K V : Type} [Ord K] [Std.TransOrd K] [Std.LawfulEqOrd K] [DecidableEq K]
      {m m' : SMap K V}, m.Sorted → m'.Sorted → (∀ e, e ∈ m ↔ e ∈ m') → m = m' := by
    intro K V _ _ _ _ m m' hs hs' h
    refine SMap.ext hs hs' fun k => ?_
    cases hl : m.lookup k with
    | some v => exact (SMap.lookup_of_mem hs' ((h _).1 (SMap.mem_of_lookup hl))).symm
    | none =>
      cases hl' : m'.lookup k with
      | none => rfl
      | some v =>
        rw [SMap.lookup_of_mem hs ((h _).2 (SMap.mem_of_lookup hl'))] at hl
        cases hl
  rw [expandAll_eq items _ hok, expandAll_eq items' _ hok']
  congr 1
  apply adb_ext
  · exact same s2 s1 fun e => ((m2 e).trans (by rw [hpt.mem_iff])).trans (m1 e).symm
  · exact same s4 s3 fun e => ((m4 e).trans (by rw [hpe.mem_iff])).trans (m3 e).symm

example : expandAll exCfg ADB.new exCrate.reverse = expandAll exCfg ADB.new exCrate :=
  compile_order exCfg exResolve_ok exCrate _ exCrate_named exCrate_typed (List.reverse_perm _).symm

/-- C73 violated: a model that is removed from the source stays recorded. -/
theorem removed_model_violated : ∃ a b, expandAll exCfg ADB.new exCrate = some a ∧
    expandAll exCfg ADB.new [.model authorModel] = some b ∧
    expandAll exCfg a [.model authorModel] = some a ∧ a.tables.keys ≠ b.tables.keys :=
  ⟨_, _, rfl, rfl, rfl, by decide⟩

/-- C73 violated: after the attribute with the table name is removed, foreign keys still refer to
the old table. -/
theorem removed_table_name_violated :
    let user : Struct := ⟨ident "User", ["users"], [fld "id" (ty0 "i64")]⟩
    let post : Struct := ⟨ident "Post", [], [fld "id" (ty0 "i64"),
      fld "by" (ty1 "ForeignKey" (ty0 "User"))]⟩
    let user' : Struct := { user with tables := [] }
    ∃ a b r, expandAll exCfg ADB.new [.model user, .model post] = some a ∧
      expandAll exCfg a [.model user', .model post] = some b ∧
      b.resolveTypes true (rounds b) = .ok r ∧ genTable user' = "User" ∧
      (r.getTable "Post").map (fun t => t.columns.map (·.reference)) =
        some [none, some (.literal "users" "id")] :=
  ⟨_, _, _, rfl, rfl, rfl, rfl, rfl⟩

/-! ### Rejected models -/

theorem addFields_names {g : Cfg} {pk : Codegen.Field} (fs : List Codegen.Field) :
    ∀ (t : ATable) (links : List ATable) (r : ATable × List ATable),
    addFields g pk t links fs = some r → r.1.name = t.name ∧
      ∀ l ∈ r.2, l ∈ links ∨ ∃ f ∈ fs, l.name = t.name ++ "_" ++ f.ident.name ++ "_Many" := by
  induction fs with
  | nil => intro t links r h; cases h; exact ⟨rfl, fun l hl => Or.inl hl⟩
  | cons f fs ih =>
    intro t links r h
    unfold addFields at h
    cases hm : isMany g f with
    | none => rw [hm] at h; cases h
    | some b =>
      rw [hm] at h
      cases b with
      | false =>
        cases hc : column g pk f with
        | none => simp [hc] at h
        | some c =>
          simp only [hc] at h
          obtain ⟨h1, h2⟩ := ih _ _ _ h
          refine ⟨h1, fun l hl => (h2 l hl).imp id ?_⟩
          rintro ⟨f', hf', e⟩
          exact ⟨f', List.mem_cons_of_mem _ hf', e⟩
      | true =>
        cases hc : manyTable g t.name pk f with
        | none => simp [hc] at h
        | some c =>
          simp only [hc] at h
          obtain ⟨h1, h2⟩ := ih _ _ _ h
          refine ⟨h1, fun l hl => ?_⟩
          rcases h2 l hl with h | ⟨f', hf', e⟩
          · rcases List.mem_append.1 h with h | h
            · exact Or.inl h
            · right
              simp only [List.mem_singleton] at h
              subst h
              refine ⟨f, List.mem_cons_self, ?_⟩
              unfold manyTable at hc
              split at hc
              · rename_i d p _ _
                cases hd : deferredType g p with
                | none => rw [hd] at hc; cases hc
                | some pkty =>
                  rw [hd] at hc
                  cases hc
                  exact many_table_name ..
              · cases hc
          · exact Or.inr ⟨f', List.mem_cons_of_mem _ hf', e⟩

theorem createATables_names {g : Cfg} {s : Struct} {ts : List ATable} (h : createATables g s = some ts) :
    ∃ t links, ts = t :: links ∧ t.name = tableOf s ∧
      ∀ l ∈ links, ∃ f ∈ s.fields, l.name = tableOf s ++ "_" ++ f.ident.name ++ "_Many" := by
  unfold createATables at h
  split at h
  · cases h
  · simp only [Option.map_eq_some_iff] at h
    obtain ⟨r, hr, rfl⟩ := h
    obtain ⟨h1, h2⟩ := addFields_names _ _ _ _ hr
    simp only [ATable.new, table_eq] at h1 h2
    refine ⟨r.1, r.2, rfl, h1, fun l hl => ?_⟩
    rcases h2 l hl with h | h
    · cases h
    · exact h

/-- C74: whatever the macro makes of a model, what is recorded for other tables and types stays. -/
theorem model_frame (g : Cfg) (db : ADB) (s : Struct) :
    (∀ n, n ≠ tableOf s → (∀ f ∈ s.fields, n ≠ tableOf s ++ "_" ++ f.ident.name ++ "_Many") →
      (modelMacro g db s).1.getTable n = db.getTable n) ∧
    ∀ k, k ≠ .pk s.ident.name →
      (modelMacro g db s).1.extraTypes.lookup k = db.extraTypes.lookup k := by
  unfold modelMacro writeTables
  cases h : createATables g s with
  | none => exact ⟨fun _ _ _ => rfl, fun _ _ => rfl⟩
  | some ts =>
    simp only [Option.map_some, fold_replace]
    constructor
    · intro n hn hl
      have := fold_other (ts.map fun t => (t.name, t)) db.tables n (by
        obtain ⟨t, links, rfl, h1, h2⟩ := createATables_names h
        simp only [List.map_cons, List.map_map, List.mem_cons, List.mem_map, Function.comp, not_or,
          not_exists, not_and]
        refine ⟨by rw [h1]; exact hn, fun l hm e => ?_⟩
        obtain ⟨f, hf, e'⟩ := h2 l hm
        exact hl f hf (e.symm.trans e'))
      cases s.config <;> exact this
    · intro k hk
      cases s.config with
      | none => rfl
      | some n => simp only; rw [SMap.lookup_insert, if_neg hk]

example : ((modelMacro exCfg ⟨[("Tag", ⟨"Tag", []⟩)], []⟩ postModel).1.getTable "Tag") =
    some ⟨"Tag", []⟩ :=
  (model_frame exCfg ⟨[("Tag", ⟨"Tag", []⟩)], []⟩ postModel).1 "Tag" (by decide) (by decide)

theorem link_ne (a b : String) : a ++ "_" ++ b ++ "_Many" ≠ a := by
  intro h
  have := congrArg (fun s => s.toList.length) h
  simp at this

/-- C74: the table of a model that the macro accepts is recorded. -/
theorem accepted_model (g : Cfg) (db : ADB) (s : Struct) (h : (modelMacro g db s).2 = true) :
    ∃ t, (modelMacro g db s).1.getTable (genTable s) = some t ∧ t.name = tableOf s := by
  unfold modelMacro writeTables at h ⊢
  cases hc : createATables g s with
  | none => rw [hc] at h; cases h
  | some ts =>
    obtain ⟨t, links, rfl, h1, h2⟩ := createATables_names hc
    refine ⟨t, ?_, h1⟩
    simp only [Option.map_some, fold_replace, genTable, table_eq]
    have hl : (((t :: links).map fun t => (t.name, t)).foldl (fun m e => SMap.insert m e.1 e.2)
        db.tables).lookup (tableOf s) = some t := by
      simp only [List.map_cons, List.foldl_cons]
      rw [fold_other]
      · rw [SMap.lookup_insert, if_pos h1.symm]
      · simp only [List.map_map, List.mem_map, Function.comp, not_exists, not_and]
        intro l hm e
        obtain ⟨f, _, e'⟩ := h2 l hm
        exact link_ne _ _ (e'.symm.trans e)
    cases s.config <;> exact hl

example : (modelMacro exCfg ADB.new postModel).2 = true := rfl

/-- C74: if the macro panics while it makes the tables, nothing is recorded. -/
theorem panicked_model_partial (g : Cfg) (db : ADB) (s : Struct)
    (h : s.pkField = none ∨ ∃ f ∈ s.fields, f.ty = none) : modelMacro g db s = (db, false) := by
  have hnone : createATables g s = none := by
    unfold createATables
    cases hk : s.pkField with
    | none => rfl
    | some pk =>
      rw [hk] at h
      obtain ⟨f, hf, hty⟩ := h.resolve_left (by simp)
      have : ∀ (fs : List Codegen.Field), f ∈ fs → ∀ t links, addFields g pk t links fs = none := by
        intro fs
        induction fs with
        | nil => intro h; cases h
        | cons x fs ih =>
          intro hm t links
          unfold addFields
          rcases List.mem_cons.1 hm with rfl | hm
          · simp [isMany, manyType, hty]
          · cases isMany g x with
            | none => rfl
            | some b => cases b with
              | false => cases hc : column g pk x with
                | none => simp
                | some c => simp [ih hm]
              | true => cases hc : manyTable g t.name pk x with
                | none => simp
                | some c => simp [ih hm]
      simp only [this s.fields hf, Option.map_none]
  simp [modelMacro, writeTables, hnone]

example : modelMacro exCfg ADB.new ⟨ident "Item", [], [fld "name" (ty0 "String")]⟩ =
    (ADB.new, false) := panicked_model_partial _ _ _ (Or.inl rfl)

/-- C74 violated: a model with a key of type `AutoPk<String>` is rejected, but its table is
recorded; so is one with an `AutoPk` field that is not the key. -/
theorem rejected_model_violated :
    let one : Struct := ⟨ident "Item", [], [fld "id" (ty1 "AutoPk" (ty0 "String"))]⟩
    let two : Struct := ⟨ident "Item", [], [fld "id" (ty0 "i64"), fld "n" (ty1 "AutoPk" (ty0 "i64"))]⟩
    (modelMacro exCfg ADB.new one).2 = false ∧ (modelMacro exCfg ADB.new one).1.tables.keys = ["Item"] ∧
    (modelMacro exCfg ADB.new two).2 = false ∧ (modelMacro exCfg ADB.new two).1.tables.keys = ["Item"] :=
  ⟨rfl, rfl, rfl, rfl⟩

end Butane.Props
