/-
The schema that is recorded for a crate, and what type keys stand for in it.
-/
import Verif.Proofs.CodegenRecord

namespace Butane.Proofs.Codegen
open Butane Butane.Spec Butane.Codegen

/-! ### Folding inserts -/

theorem fold_insert {K V : Type} [Ord K] [Std.TransOrd K] [Std.LawfulEqOrd K] [DecidableEq K]
    (l : List (K × V)) : ∀ (m : SMap K V), m.Sorted → (l.map (·.1)).Nodup →
    (∀ e ∈ l, m.lookup e.1 = none) →
    (l.foldl (fun m e => m.insert e.1 e.2) m).Sorted ∧
      ∀ e, e ∈ l.foldl (fun m e => m.insert e.1 e.2) m ↔ e ∈ m ∨ e ∈ l := by
  induction l with
  | nil => intro m hs _ _; exact ⟨hs, fun e => by simp⟩
  | cons x l ih =>
    intro m hs hnd hfr
    simp only [List.map_cons, List.nodup_cons] at hnd
    have hs' := SMap.sorted_insert hs x.1 x.2
    have hx := hfr x List.mem_cons_self
    obtain ⟨h1, h2⟩ := ih (m.insert x.1 x.2) hs' hnd.2 (by
      intro e he
      rw [SMap.lookup_insert, if_neg]
      · exact hfr e (List.mem_cons_of_mem _ he)
      · intro heq; exact hnd.1 (List.mem_map.2 ⟨e, he, heq⟩))
    refine ⟨h1, fun e => ?_⟩
    simp only [List.foldl_cons]
    rw [h2]
    have hm : e ∈ m.insert x.1 x.2 ↔ e = x ∨ e ∈ m := by
      constructor
      · intro h; exact SMap.mem_insert_of h
      · rintro (rfl | h)
        · exact SMap.mem_of_lookup (by rw [SMap.lookup_insert, if_pos rfl])
        · apply SMap.mem_of_lookup
          rw [SMap.lookup_insert, if_neg]
          · exact SMap.lookup_of_mem hs h
          · intro heq
            have := SMap.lookup_of_mem hs h
            rw [heq, hx] at this; cases this
    rw [hm, List.mem_cons]
    constructor
    · rintro ((h | h) | h)
      · exact Or.inr (Or.inl h)
      · exact Or.inl h
      · exact Or.inr (Or.inr h)
    · rintro (h | h | h)
      · exact Or.inl (Or.inr h)
      · exact Or.inl (Or.inl h)
      · exact Or.inr h

/-! ### What is recorded -/

/-- The tables recorded for a crate. -/
def tabs (g : Cfg) (items : List Item) : List (String × ATable) :=
  (modelsOf items).flatMap fun s => ((createATables g s).getD []).map fun t => (t.name, t)

/-- The types recorded for an item. -/
def ext (g : Cfg) : Item → List (TypeKey × DeferredSqlType)
  | .model s =>
    match s.config with
    | some n => [(.pk s.ident.name, .deferred (.pk n))]
    | none => []
  | .alias n p => ((deferredType g p).map fun d => (.customType n.name, d)).toList
  | .typed n ty => [(.customType n.name, .knownId ty)]
  | .derived n sh => ((sh.sqltype g.ft).map fun t => (.customType n.text, .knownId (.ty t))).toList

theorem fold_replace (ts : List ATable) : ∀ db : ADB,
    ts.foldl (fun db t => db.replaceTable t) db =
      { db with tables := (ts.map fun t => (t.name, t)).foldl (fun m e => m.insert e.1 e.2) db.tables } := by
  induction ts with
  | nil => intro db; rfl
  | cons t ts ih => intro db; simp only [List.foldl_cons, List.map_cons, ih]; rfl

/-- An item can be expanded. -/
def ItemOk (g : Cfg) : Item → Prop
  | .model s => ∃ ts, createATables g s = some ts
  | .alias _ p => ∃ d, deferredType g p = some d
  | .typed _ _ => True
  | .derived _ sh => ∃ t, sh.sqltype g.ft = some t

theorem expand_eq {g : Cfg} {db : ADB} {i : Item} (h : ItemOk g i) :
    expand g db i = some ⟨(tabs g [i]).foldl (fun m e => m.insert e.1 e.2) db.tables,
      (ext g i).foldl (fun m e => m.insert e.1 e.2) db.extraTypes⟩ := by
  cases i with
  | model s =>
    obtain ⟨ts, h⟩ := h
    simp only [expand, writeTables, h, Option.map_some, fold_replace, tabs, modelsOf,
      List.flatMap_cons, List.flatMap_nil, List.append_nil, Option.getD_some, ext]
    cases s.config <;> rfl
  | alias n p =>
    obtain ⟨d, h⟩ := h
    simp [expand, h, addType, tabs, modelsOf, ext]
  | typed n ty => simp [expand, addType, tabs, modelsOf, ext]
  | derived n sh =>
    obtain ⟨t, h⟩ := h
    simp [expand, h, addType, tabs, modelsOf, ext]

theorem tabs_cons (g : Cfg) (i : Item) (is : List Item) :
    tabs g (i :: is) = tabs g [i] ++ tabs g is := by
  cases i <;> simp [tabs, modelsOf]

theorem expandAll_eq {g : Cfg} (items : List Item) : ∀ db : ADB,
    (∀ i ∈ items, ItemOk g i) →
    expandAll g db items = some ⟨(tabs g items).foldl (fun m e => m.insert e.1 e.2) db.tables,
      (items.flatMap (ext g)).foldl (fun m e => m.insert e.1 e.2) db.extraTypes⟩ := by
  induction items with
  | nil => intro db _; rfl
  | cons i is ih =>
    intro db h
    rw [expandAll, expand_eq (h i List.mem_cons_self)]
    simp only
    rw [ih _ fun j hj => h j (List.mem_cons_of_mem _ hj), tabs_cons g i is, List.flatMap_cons,
      List.foldl_append, List.foldl_append]

/-- The items of a crate can be expanded. -/
theorem items_ok {g : Cfg} (hr : ResolverOk g.resolve) {items : List Item}
    (hn : WellNamed items) (ht : Typed g.ft items) : ∀ i ∈ items, ItemOk g i := by
  intro i hi
  cases i with
  | model s =>
    obtain ⟨ts, h, _⟩ := createATables_raw hr hn ht (mem_models.2 hi)
    exact ⟨ts, h⟩
  | alias n p =>
    obtain ⟨ty, h⟩ := ht.aliases n p hi
    exact has_deferred hr hn h
  | typed n ty => trivial
  | derived n sh =>
    rcases ht.derived n sh hi with ⟨p, ty, rfl, h⟩ | rfl | ⟨rfl, h⟩
    · exact ⟨ty, by simp [Shape.sqltype, builtin_prim h]⟩
    · exact ⟨_, rfl⟩
    · exact ⟨_, by simp [Shape.sqltype, h]; rfl⟩

theorem allMatch_map {α β γ : Type} {R : α → β → Prop} {as : List α} {bs : List β} {f : α → γ}
    {f' : β → γ} (h : AllMatch R as bs) (hr : ∀ a b, R a b → f a = f' b) : as.map f = bs.map f' := by
  induction h with
  | nil => rfl
  | cons h _ ih => simp [hr _ _ h, ih]

theorem raw_names {g : Cfg} {s : Struct} {ts : List ATable} (h : RawTables g s ts) :
    ts.map (·.name) = tablesOf s := by
  obtain ⟨k, p, d, cols, links, _, _, _, _, rfl, _, h2⟩ := h.tables
  simp only [List.map_cons, tablesOf, List.cons.injEq, true_and]
  refine (allMatch_map h2 ?_).symm
  rintro f l ⟨q, _, rfl⟩; rfl

theorem tabs_names {g : Cfg} (hr : ResolverOk g.resolve) {items : List Item}
    (hn : WellNamed items) (ht : Typed g.ft items) :
    (tabs g items).map (·.1) = (modelsOf items).flatMap tablesOf := by
  unfold tabs
  rw [List.map_flatMap]
  have : ∀ l : List Struct, (∀ s ∈ l, s ∈ modelsOf items) →
      (l.flatMap fun s => (((createATables g s).getD []).map fun t => (t.name, t)).map (·.1)) =
        l.flatMap tablesOf := by
    intro l
    induction l with
    | nil => intro _; rfl
    | cons s l ih =>
      intro h
      obtain ⟨ts, h1, h2⟩ := createATables_raw hr hn ht (h s List.mem_cons_self)
      simp only [List.flatMap_cons]
      rw [ih fun x hx => h x (List.mem_cons_of_mem _ hx)]
      congr 1
      rw [h1, ← raw_names h2]
      simp
  exact this _ fun s hs => hs

/-- Whether an entry belongs to an item. -/
theorem ext_keys {g : Cfg} (items : List Item)
    (hs : ((modelsOf items).map (·.ident.name)).Nodup) (ht : (typeNames items).Nodup)
    (hraw : ∀ n sh, Item.derived n sh ∈ items → n.raw = false) :
    ((items.flatMap (ext g)).map (·.1)).Nodup := by
  have hsub : ∀ items : List Item, (∀ n sh, Item.derived n sh ∈ items → n.raw = false) →
      (∀ n, .pk n ∈ (items.flatMap (ext g)).map (·.1) → n ∈ (modelsOf items).map (·.ident.name)) ∧
      (∀ n, .customType n ∈ (items.flatMap (ext g)).map (·.1) → n ∈ typeNames items) := by
    intro items
    induction items with
    | nil => intro _; simp
    | cons i is ih =>
      intro hraw
      obtain ⟨ih1, ih2⟩ := ih fun n sh h => hraw n sh (List.mem_cons_of_mem _ h)
      constructor
      · intro n hm
        simp only [List.flatMap_cons, List.map_append, List.mem_append] at hm
        rcases hm with hm | hm
        · cases i with
          | model s =>
            simp only [ext] at hm
            cases hc : s.config <;> rw [hc] at hm <;> simp at hm
            subst hm
            simp [modelsOf]
          | alias n' p => cases hd : deferredType g p <;> simp [ext, hd] at hm
          | typed n' ty => simp [ext] at hm
          | derived n' sh => cases hd : sh.sqltype g.ft <;> simp [ext, hd] at hm
        · have := ih1 n hm
          cases i <;> simp_all [modelsOf]
      · intro n hm
        simp only [List.flatMap_cons, List.map_append, List.mem_append] at hm
        rcases hm with hm | hm
        · cases i with
          | model s =>
            simp only [ext] at hm
            cases hc : s.config <;> rw [hc] at hm <;> simp at hm
          | alias n' p => cases hd : deferredType g p <;> simp [ext, hd] at hm; simp [typeNames, hm]
          | typed n' ty => simp [ext] at hm; simp [typeNames, hm]
          | derived n' sh =>
            have hr := hraw n' sh List.mem_cons_self
            cases hd : sh.sqltype g.ft <;> simp [ext, hd] at hm
            rw [text_mem hr] at hm
            simp [typeNames, hm]
        · have := ih2 n hm
          cases i <;> simp_all [typeNames]
  induction items with
  | nil => simp
  | cons i is ih =>
    have hraw' : ∀ n sh, Item.derived n sh ∈ is → n.raw = false :=
      fun n sh h => hraw n sh (List.mem_cons_of_mem _ h)
    obtain ⟨h1, h2⟩ := hsub is hraw'
    rw [List.flatMap_cons, List.map_append, List.nodup_append]
    cases i with
    | model s =>
      simp only [modelsOf, List.map_cons, List.nodup_cons, typeNames] at hs ht
      refine ⟨?_, ih hs.2 ht hraw', ?_⟩
      · simp only [ext]; cases s.config <;> simp
      · intro a ha b hb e
        subst e
        simp only [ext] at ha
        cases hc : s.config <;> rw [hc] at ha <;> simp at ha
        subst ha
        exact hs.1 (h1 _ hb)
    | alias n p =>
      simp only [modelsOf, List.nodup_cons, typeNames] at hs ht
      refine ⟨?_, ih hs ht.2 hraw', ?_⟩
      · cases hd : deferredType g p <;> simp [ext, hd]
      · intro a ha b hb e
        subst e
        cases hd : deferredType g p <;> simp [ext, hd] at ha
        subst ha
        exact ht.1 (h2 _ hb)
    | typed n ty =>
      simp only [modelsOf, List.nodup_cons, typeNames] at hs ht
      refine ⟨by simp [ext], ih hs ht.2 hraw', ?_⟩
      intro a ha b hb e
      subst e
      simp [ext] at ha
      subst ha
      exact ht.1 (h2 _ hb)
    | derived n sh =>
      simp only [modelsOf, List.nodup_cons, typeNames] at hs ht
      have hr := hraw n sh List.mem_cons_self
      refine ⟨?_, ih hs ht.2 hraw', ?_⟩
      · cases hd : sh.sqltype g.ft <;> simp [ext, hd]
      · intro a ha b hb e
        subst e
        cases hd : sh.sqltype g.ft <;> simp [ext, hd] at ha
        subst ha
        rw [text_mem hr] at hb
        exact ht.1 (h2 _ hb)

/-- The schema recorded for a crate. -/
structure Recorded (g : Cfg) (items : List Item) (db : ADB) : Prop where
  sortedT : db.tables.Sorted
  sortedE : db.extraTypes.Sorted
  tables : ∀ e, e ∈ db.tables ↔ ∃ s ts, s ∈ modelsOf items ∧ createATables g s = some ts ∧
    RawTables g s ts ∧ e.2 ∈ ts ∧ e.1 = e.2.name
  extra : ∀ e, e ∈ db.extraTypes ↔ ∃ i ∈ items, e ∈ ext g i

theorem recorded {g : Cfg} (hr : ResolverOk g.resolve) {items : List Item}
    (hn : WellNamed items) (ht : Typed g.ft items) :
    ∃ db, expandAll g ADB.new items = some db ∧ Recorded g items db := by
  refine ⟨_, expandAll_eq items _ (items_ok hr hn ht), ?_⟩
  obtain ⟨h1, h2⟩ := fold_insert (tabs g items) [] SMap.sorted_nil
    (by rw [tabs_names hr hn ht]; exact hn.tables) (fun _ _ => rfl)
  obtain ⟨h3, h4⟩ := fold_insert (items.flatMap (ext g)) [] SMap.sorted_nil
    (ext_keys items hn.structs hn.types hn.notRaw) (fun _ _ => rfl)
  refine ⟨h1, h3, fun e => ?_, fun e => ?_⟩
  · refine (h2 e).trans ?_
    simp only [List.not_mem_nil, false_or, tabs, List.mem_flatMap, List.mem_map]
    constructor
    · rintro ⟨s, hs, t, ht', rfl⟩
      obtain ⟨ts, h5, h6⟩ := createATables_raw hr hn ht hs
      rw [h5] at ht'
      exact ⟨s, ts, hs, h5, h6, ht', rfl⟩
    · rintro ⟨s, ts, hs, h5, _, h6, h7⟩
      refine ⟨s, hs, e.2, by rw [h5]; exact h6, ?_⟩
      rw [← h7]
  · refine (h4 e).trans ?_
    simp [List.mem_flatMap]

end Butane.Proofs.Codegen
