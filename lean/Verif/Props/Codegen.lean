/-
C72: the schema recorded for a crate is the one its code uses.
-/
import Verif.Proofs.CodegenTypes

namespace Butane.Props
open Butane Butane.Spec Butane.Codegen Butane.Proofs.Codegen

/-! ### A crate -/

/-- A resolver of paths that knows the spellings, and nothing else. -/
def exResolve (p : Path) : Option String :=
  ["Option", "ForeignKey", "AutoPk", "Many"].find? fun n =>
    !p.lead && (spellings n).contains (written p)

theorem exResolve_ok : ResolverOk exResolve := by
  constructor
  · intro n p hl hw
    have hmem : ∀ n L, L ∈ spellings n → ["Option", "ForeignKey", "AutoPk", "Many"].find?
        (fun n => (spellings n).contains L) = some n := by
      intro n L h
      unfold spellings at h
      split at h <;> simp only [List.mem_cons, List.not_mem_nil, or_false] at h
      all_goals rcases h with rfl | rfl | rfl <;> decide
    simp only [exResolve, hl, Bool.not_false, Bool.true_and]
    exact hmem n _ hw
  · intro n p hn h
    have h1 := List.find?_some h
    simp only [Bool.and_eq_true, List.contains_iff_mem] at h1
    have hw := h1.2
    unfold written at hw
    unfold spellings at hw
    split at hw <;> simp only [List.mem_cons, List.not_mem_nil, or_false] at hw
    all_goals
      rcases hw with hw | hw | hw <;>
      · have := (split_names hw).2
        simp at this
        exact (text_eq this (by decide)).1

/-- All features, with that resolver. -/
def exCfg : Cfg := ⟨⟨true, true, true⟩, exResolve⟩

/-- An identifier. -/
def ident (s : String) : Ident := ⟨s, false⟩

/-- A type without arguments. -/
def ty0 (s : String) : Path := .plain false [] (ident s)

/-- A type with one argument. -/
def ty1 (s : String) (p : Path) : Path := .app1 false [] (ident s) p

/-- A field. -/
def fld (s : String) (p : Path) (attrs : List Attr := []) : Codegen.Field := ⟨ident s, attrs, some p⟩

/-- `struct Author { #[pk] email: String }`, in the table `people`. -/
def authorModel : Struct :=
  ⟨ident "Author", ["people"], [fld "email" (ty0 "String") [.pk]]⟩

/-- `struct Tag { id: AutoPk<i64>, r#type: Kind }` -/
def labelModel : Struct :=
  ⟨ident "Tag", [], [fld "id" (ty1 "AutoPk" (ty0 "i64")), ⟨⟨"type", true⟩, [.unique], some (ty0 "Kind")⟩]⟩

/-- `struct Post { id: Number, author: Option<ForeignKey<Author>>, #[default = 1] score: f64,
tags: Many<Tag> }` -/
def postModel : Struct :=
  ⟨ident "Post", [], [fld "id" (ty0 "Number"),
    fld "author" (ty1 "Option" (ty1 "ForeignKey" (ty0 "Author"))),
    fld "score" (ty0 "f64") [.default (some (.int (some 1)))],
    fld "tags" (ty1 "Many" (ty0 "Tag"))]⟩

/-- A crate: the models, an alias and an enum. -/
def exCrate : List Item :=
  [.model postModel, .alias (ident "Number") (ty0 "i64"), .model authorModel,
   .derived (ident "Kind") .simpleEnum, .model labelModel]

/-- Whether a field is written as `Many<…>`. -/
def manySpelled (f : Codegen.Field) : Bool :=
  match f.ty with
  | some (.app1 false m i a) => (spellings "Many").contains (written (.app1 false m i a))
  | _ => false

theorem manySpelled_iff (f : Codegen.Field) : (∃ q, IsMany f q) ↔ manySpelled f = true := by
  unfold manySpelled IsMany
  constructor
  · rintro ⟨q, p, hp, m, i, rfl, hw⟩
    rw [hp]
    simpa using hw
  · intro h
    split at h
    · rename_i m i a hp
      exact ⟨a, _, hp, m, i, rfl, by simpa using h⟩
    · cases h

open Classical in
theorem tablesOf_eq (s : Struct) : tablesOf s = tableOf s :: (s.fields.filter manySpelled).map fun f =>
    tableOf s ++ "_" ++ f.ident.name ++ "_Many" := by
  unfold tablesOf manyFields
  congr 2
  apply List.filter_congr
  intro f _
  simp only [manySpelled_iff, Bool.decide_eq_true]

theorem exCrate_named : WellNamed exCrate := by
  refine ⟨by decide, ?_, ?_, by decide, by decide, ?_, by decide, by decide⟩
  · rw [show tablesOf = _ from funext tablesOf_eq]; decide
  · simp only [exCrate, modelsOf, List.mem_cons, List.not_mem_nil, or_false]
    rintro s (rfl | rfl | rfl) s' (rfl | rfl | rfl) h <;> first | rfl | (revert h; decide)
  · intro n sh h
    simp [exCrate] at h
    rw [h.1]; rfl

theorem spelled {n : String} (q : Path) (h : [n] ∈ spellings n) : WrittenAs n (ty1 n q) q :=
  ⟨[], _, rfl, by simpa [written, ty1, ident, Path.mods, Path.last, Ident.text] using h⟩

theorem exBuiltin {s : String} {ty : SqlType} (h : (s, ty) ∈ [("bool", SqlType.bool), ("i8", .int), ("u8", .int),
      ("i16", .int), ("u16", .int), ("i32", .int), ("u32", .bigInt), ("i64", .bigInt),
      ("f32", .real), ("f64", .real)]) (ft : Features) : Builtin ft (ty0 s) ty := .simple h

theorem exString (ft : Features) : Builtin ft (ty0 "String") .text := .string (Or.inr ⟨rfl, rfl⟩)

theorem exCrate_typed : Typed exCfg.ft exCrate := by
  have noMany : ∀ f : Codegen.Field, manySpelled f = false → ∀ q, ¬ IsMany f q := by
    intro f h q hq
    have := (manySpelled_iff f).1 ⟨q, hq⟩
    rw [h] at this; cases this
  have noDefault : ∀ f : Codegen.Field, (f.attrs.any Attr.isDefault) = false → DefaultOf f none := by
    intro f h
    refine .none fun l hl => ?_
    have : f.attrs.any Attr.isDefault = true := List.any_eq_true.2 ⟨_, hl, rfl⟩
    rw [h] at this; cases this
  have hauthor : HasSqlType exCfg.ft exCrate (ty0 "String") (.ty .text) := .builtin (exString _)
  have hi64 : HasSqlType exCfg.ft exCrate (ty0 "i64") (.ty .bigInt) := .builtin (exBuiltin (by decide) _)
  have hkey : IsKey authorModel (fld "email" (ty0 "String") [.pk]) :=
    Or.inl ⟨[], [], rfl, by decide, by simp⟩
  refine ⟨?_, ?_, ?_, ?_⟩
  · simp only [exCrate, modelsOf, List.mem_cons, List.not_mem_nil, or_false]
    rintro s (rfl | rfl | rfl)
    · exact ⟨_, isKey_iff.2 rfl, noMany _ rfl⟩
    · exact ⟨_, isKey_iff.2 rfl, noMany _ rfl⟩
    · exact ⟨_, isKey_iff.2 rfl, noMany _ rfl⟩
  · simp only [exCrate, modelsOf, List.mem_cons, List.not_mem_nil, or_false]
    rintro s (rfl | rfl | rfl) f hf
    · simp only [postModel, List.mem_cons, List.not_mem_nil, or_false] at hf
      rcases hf with rfl | rfl | rfl | rfl
      · exact Or.inr ⟨_, _, rfl, .alias (n := ident "Number") (q := ty0 "i64") (by simp) rfl hi64, _, noDefault _ rfl⟩
      · exact Or.inr ⟨_, _, rfl, .option (spelled _ (by decide)) (.foreignKey (spelled _ (by decide))
          (s := authorModel) (by simp) rfl hkey rfl hauthor), _, noDefault _ rfl⟩
      · exact Or.inr ⟨_, _, rfl, .builtin (exBuiltin (ty := .real) (by decide) _), _,
          .some (a := []) (b := []) rfl (by simp) (show LitVal (.int (some 1)) (.int 1) from rfl)⟩
      · exact Or.inl ⟨_, labelModel, ⟨_, rfl, spelled _ (by decide)⟩, Or.inr (Or.inr rfl), rfl⟩
    · simp only [authorModel, List.mem_cons, List.not_mem_nil, or_false] at hf
      subst hf
      exact Or.inr ⟨_, _, rfl, hauthor, _, noDefault _ rfl⟩
    · simp only [labelModel, List.mem_cons, List.not_mem_nil, or_false] at hf
      rcases hf with rfl | rfl
      · exact Or.inr ⟨_, _, rfl, .autoPk (spelled _ (by decide)) hi64, _, noDefault _ rfl⟩
      · exact Or.inr ⟨_, _, rfl, .enum (n := ident "Kind") (by simp) rfl, _, noDefault _ rfl⟩
  · intro n p h
    simp [exCrate] at h
    rw [h.2]
    exact ⟨_, hi64⟩
  · intro n sh h
    simp [exCrate] at h
    exact Or.inr (Or.inl h.2)

/-! ### The schema -/

/-- C72: the macros accept the crate, and the types of what they record can be resolved. -/
theorem model_schema_resolves (g : Cfg) (hr : ResolverOk g.resolve) (items : List Item)
    (hn : WellNamed items) (ht : Typed g.ft items) :
    ∃ db db', expandAll g ADB.new items = some db ∧
      db.resolveTypes g.ft.json (rounds db) = .ok db' := by
  obtain ⟨db, h, hrec⟩ := recorded hr hn ht
  obtain ⟨db', h'⟩ := (resolve_ok_iff g.ft.json db (generated hrec)).2 (all_stand hr hn ht hrec)
  exact ⟨db, db', h, h'⟩

example : ∃ db db', expandAll exCfg ADB.new exCrate = some db ∧
    db.resolveTypes true (rounds db) = .ok db' :=
  model_schema_resolves exCfg exResolve_ok exCrate exCrate_named exCrate_typed

/-- C72: in the resolved schema, the table of every model has one column for each field that is
stored in the row, in order, with the SQL type of the field's type, and with the reference,
attributes and default the field declares. -/
theorem model_table_partial (g : Cfg) (hr : ResolverOk g.resolve) (items : List Item)
    (hn : WellNamed items) (ht : Typed g.ft items) (db db' : ADB)
    (h : expandAll g ADB.new items = some db)
    (h' : db.resolveTypes g.ft.json (rounds db) = .ok db') (s : Struct) (hs : s ∈ modelsOf items) :
    ∃ t, db'.getTable (tableOf s) = some t ∧ t.name = tableOf s ∧
      AllMatch (ColumnFor g.ft items s) (rowFields s) t.columns := by
  obtain ⟨db0, h0, hrec⟩ := recorded hr hn ht
  rw [h] at h0; cases h0
  obtain ⟨hres, hall⟩ := resolve_ok _ _ db db' h'
  obtain ⟨t, c, k, h1, h2, h3, h4, h5, h6⟩ := table_of_model hr hn ht hrec hs
  have hl : db.tables.lookup (tableOf s) = some t := SMap.lookup_of_mem hrec.sortedT h1
  rcases lookup_rel (R := fun (t t' : ATable) => t'.name = t.name ∧
    AllMatch (ColResolved g.ft.json db) t.columns t'.columns) hres.tables (tableOf s) with
    ⟨e, _⟩ | ⟨t0, t', e, e', hname, hcols⟩
  · rw [hl] at e; cases e
  · rw [hl] at e; cases e
    refine ⟨t', e', hname.trans h2, ?_⟩
    have hmem' := SMap.mem_of_lookup e'
    have hknown : ∀ c' ∈ t'.columns, ∃ ty, denotes c'.sqltype = .inl ty := hall _ hmem'
    have : ∀ (fs : List Codegen.Field) (cs cs' : List AColumn), (∀ f ∈ fs, f ∈ rowFields s) →
        (∀ c' ∈ cs', ∃ ty, denotes c'.sqltype = .inl ty) →
        AllMatch (RawColumn g k) fs cs → AllMatch (ColResolved g.ft.json db) cs cs' →
        AllMatch (ColumnFor g.ft items s) fs cs' := by
      intro fs cs cs' hfs hkn hm
      induction hm generalizing cs' with
      | nil => intro hc; cases hc; exact .nil
      | @cons f c fs cs hfc _ ih =>
        intro hc
        cases hc with
        | @cons _ c' _ cs' hcc hrest =>
          refine .cons ?_ (ih cs' (fun x hx => hfs x (List.mem_cons_of_mem _ hx))
            (fun x hx => hkn x (List.mem_cons_of_mem _ hx)) hrest)
          obtain ⟨p, ty, hp, hty, hmean⟩ :=
            column_means hr hn ht hrec hs (hfs f List.mem_cons_self) hfc
          refine ⟨hcc.name.trans hfc.name, ⟨p, ty, hp, ?_, fun ty' => ⟨fun hty' => ?_, ?_⟩⟩, ?_, ?_,
            ?_, ?_, ?_, ?_, ?_⟩
          · exact means_resolved hmean hcc.type (hkn c' List.mem_cons_self)
          · exact has_unique hr hn ht hrec hty hty'
          · rintro rfl; exact hty
          · rw [hcc.nullable]; exact hfc.nullable
          · rw [hcc.pk, hfc.pk]
            constructor
            · rintro rfl; exact h4
            · intro hk'; exact key_unique hk' h4
          · rw [hcc.auto]; exact hfc.auto
          · rw [hcc.unique]; exact hfc.unique
          · rw [hcc.default]; exact hfc.default
          · intro q s' k' hq hs' hl hk'
            have hrr := hcc.reference
            rw [hfc.reference q hq, hl] at hrr
            exact ref_resolved hr hn ht hrec hs' hk' hrr
          · intro hno
            have hrr := hcc.reference
            rw [hfc.noReference hno] at hrr
            exact hrr
    exact this _ _ _ (fun f hf => hf) hknown h6 hcols

example : ∃ db db', expandAll exCfg ADB.new exCrate = some db ∧
    db.resolveTypes true (rounds db) = .ok db' ∧ db'.getTable "Post" = some ⟨"Post",
      [⟨"id", .knownId (.ty .bigInt), false, true, false, false, none, none⟩,
       ⟨"author", .knownId (.ty .text), true, false, false, false, none,
        some (.literal "people" "email")⟩,
       ⟨"score", .knownId (.ty .real), false, false, false, false, some (.int 1), none⟩]⟩ :=
  ⟨_, _, rfl, rfl, rfl⟩

/-- C72: the link table of every `Many` field has the keys of both models, referring to their
tables. -/
theorem link_table_partial (g : Cfg) (hr : ResolverOk g.resolve) (items : List Item)
    (hn : WellNamed items) (ht : Typed g.ft items) (db db' : ADB)
    (h : expandAll g ADB.new items = some db)
    (h' : db.resolveTypes g.ft.json (rounds db) = .ok db') (s : Struct) (hs : s ∈ modelsOf items)
    (f : Codegen.Field) (hf : f ∈ s.fields) (q : Path) (hq : IsMany f q) :
    ∃ t, db'.getTable (tableOf s ++ "_" ++ f.ident.name ++ "_Many") = some t ∧
      LinkFor g.ft items s f q t := by
  obtain ⟨db0, h0, hrec⟩ := recorded hr hn ht
  rw [h] at h0; cases h0
  obtain ⟨hres, hall⟩ := resolve_ok _ _ db db' h'
  obtain ⟨ts, hts, hraw⟩ := createATables_raw hr hn ht hs
  obtain ⟨k, p, d, cols, links, hk, hkr, hkp, hd, rfl, hcols, hlinks⟩ := id hraw.tables
  obtain ⟨l, hl, q', hq', hle⟩ := hlinks.mem_left (mem_manyFields.2 ⟨hf, q, hq⟩)
  have := isMany_unique hq hq'
  subst this
  have hmem : (tableOf s ++ "_" ++ f.ident.name ++ "_Many", l) ∈ db.tables :=
    (hrec.tables _).2 ⟨s, _, hs, hts, hraw, List.mem_cons_of_mem _ hl, by rw [hle]⟩
  have hlk := SMap.lookup_of_mem hrec.sortedT hmem
  rcases lookup_rel (R := fun (t t' : ATable) => t'.name = t.name ∧
    AllMatch (ColResolved g.ft.json db) t.columns t'.columns) hres.tables
    (tableOf s ++ "_" ++ f.ident.name ++ "_Many") with ⟨e, _⟩ | ⟨t0, t', e, e', hname, hcc⟩
  · rw [hlk] at e; cases e
  · rw [hlk] at e; cases e
    have hknown : ∀ c' ∈ t'.columns, ∃ ty, denotes c'.sqltype = .inl ty := hall _ (SMap.mem_of_lookup e')
    refine ⟨t', e', by rw [hname, hle], ?_⟩
    rw [hle] at hcc
    simp only at hcc
    generalize hcs : t'.columns = cs at hcc hknown
    cases hcc with
    | @cons _ owner _ _ ho hcc =>
      cases hcc with
      | @cons _ has _ _ hh hcc =>
        cases hcc
        refine ⟨owner, has, rfl, ho.name, hh.name, ?_, ?_, ho.nullable, hh.nullable, ho.pk, hh.pk,
          ho.auto, hh.auto, ho.unique, hh.unique, ho.default, hh.default⟩
        · intro k' p' hk' hp'
          have := key_unique hk hk'
          subst this
          rw [hkp] at hp'; cases hp'
          refine ⟨ho.reference, ?_⟩
          obtain ⟨c0, _, hc0⟩ := hcols.mem_left hkr
          obtain ⟨p', ty, hp', hty, hmean⟩ := column_means hr hn ht hrec hs hkr hc0
          obtain ⟨p'', hp'', hd''⟩ := hc0.type
          rw [hkp] at hp' hp''; cases hp'; cases hp''
          rw [hd] at hd''; cases hd''
          exact ⟨ty, means_resolved hmean ho.type (hknown _ List.mem_cons_self), hty⟩
        · intro s' k' p' hs' hl' hk' hp'
          have href := hh.reference
          have htype := hh.type
          simp only [hl'] at href htype
          refine ⟨ref_resolved hr hn ht hrec hs' hk' href, ?_⟩
          obtain ⟨ty, hty, hmean⟩ := model_stands hr hn ht hrec hs' hk' hp'
          exact ⟨ty, means_resolved hmean htype (hknown _ (by simp)), hty⟩

example : ∃ db db', expandAll exCfg ADB.new exCrate = some db ∧
    db.resolveTypes true (rounds db) = .ok db' ∧ db'.getTable "Post_tags_Many" =
      some ⟨"Post_tags_Many",
      [⟨"owner", .knownId (.ty .bigInt), false, false, false, false, none,
        some (.literal "Post" "id")⟩,
       ⟨"has", .knownId (.ty .bigInt), false, false, false, false, none,
        some (.literal "Tag" "id")⟩]⟩ :=
  ⟨_, _, rfl, rfl, rfl⟩

/-- C72: there are no other tables. -/
theorem no_other_tables (g : Cfg) (hr : ResolverOk g.resolve) (items : List Item)
    (hn : WellNamed items) (ht : Typed g.ft items) (db db' : ADB)
    (h : expandAll g ADB.new items = some db)
    (h' : db.resolveTypes g.ft.json (rounds db) = .ok db') (n : String) (t : ATable)
    (hl : db'.getTable n = some t) : ∃ s ∈ modelsOf items, n ∈ tablesOf s := by
  obtain ⟨db0, h0, hrec⟩ := recorded hr hn ht
  rw [h] at h0; cases h0
  obtain ⟨hres, _⟩ := resolve_ok _ _ db db' h'
  obtain ⟨e, he, h1, _⟩ := hres.tables.mem_right (SMap.mem_of_lookup hl)
  obtain ⟨s, ts, hs, _, hraw, hm, hk⟩ := (hrec.tables e).1 he
  refine ⟨s, hs, ?_⟩
  simp only at h1
  rw [h1, hk, ← raw_names hraw]
  exact List.mem_map.2 ⟨_, hm, rfl⟩

example : ∀ db db', expandAll exCfg ADB.new exCrate = some db →
    db.resolveTypes true (rounds db) = .ok db' → db'.getTable "Author" = none := by
  intro db db' h h'
  cases hl : db'.getTable "Author" with
  | none => rfl
  | some t =>
    obtain ⟨s, hs, hm⟩ := no_other_tables exCfg exResolve_ok exCrate exCrate_named exCrate_typed
      db db' h h' _ _ hl
    rw [tablesOf_eq] at hm
    simp only [exCrate, modelsOf, List.mem_cons, List.not_mem_nil, or_false] at hs
    exfalso
    rcases hs with rfl | rfl | rfl <;> revert hm <;> decide

/-! ### The generated code -/

theorem fieldMatch_filter {α β : Type} {R : α → β → Prop} {as : List α} {bs : List β} (h : AllMatch R as bs)
    {p : α → Bool} {q : β → Bool} (hpq : ∀ a ∈ as, ∀ b, R a b → p a = q b) :
    AllMatch R (as.filter p) (bs.filter q) := by
  induction h with
  | nil => exact .nil
  | @cons a b as bs hr _ ih =>
    have ih := ih fun x hx => hpq x (List.mem_cons_of_mem _ hx)
    have e := hpq a List.mem_cons_self b hr
    cases hp : p a with
    | true =>
      rw [List.filter_cons_of_pos hp, List.filter_cons_of_pos (by rw [← e]; exact hp)]
      exact .cons hr ih
    | false =>
      rw [List.filter_cons_of_neg (by simp [hp]), List.filter_cons_of_neg (by simp [← e, hp])]
      exact ih

theorem fieldMatch_map {α β γ : Type} {R : α → β → Prop} {S : γ → β → Prop} {as : List α} {bs : List β}
    (h : AllMatch R as bs) (f : α → Option γ) (hf : ∀ a b, R a b → ∃ c, f a = some c ∧ S c b) :
    AllMatch S (as.filterMap f) bs := by
  induction h with
  | nil => exact .nil
  | @cons a b as bs hr _ ih =>
    obtain ⟨c, hc, hs⟩ := hf a b hr
    rw [List.filterMap_cons, hc]
    exact .cons hs ih

theorem nodup_of_names {α β : Type} {f : α → β} {l : List α} (h : (l.map f).Nodup) : l.Nodup := by
  induction l with
  | nil => exact List.nodup_nil
  | cons x l ih =>
    simp only [List.map_cons, List.nodup_cons] at h ⊢
    exact ⟨fun hx => h.1 (List.mem_map.2 ⟨x, hx, rfl⟩), ih h.2⟩

/-- C72: the constants of the code generated for a model describe the table that is recorded for
it: its name, its columns in order with their types, the key, whether the key is generated by the
database, the columns that are not, and the names of the link tables. -/
theorem model_constants_partial (g : Cfg) (hr : ResolverOk g.resolve) (items : List Item)
    (hn : WellNamed items) (ht : Typed g.ft items) (db db' : ADB)
    (h : expandAll g ADB.new items = some db)
    (h' : db.resolveTypes g.ft.json (rounds db) = .ok db') (s : Struct) (hs : s ∈ modelsOf items) :
    ∃ t pk, db'.getTable (genTable s) = some t ∧
      AllMatch (fun np c => c.name = np.1 ∧
        ∃ ty, denotes c.sqltype = .inl ty ∧ HasSqlType g.ft items np.2 ty) (genColumns g s) t.columns ∧
      AllMatch (fun np c => c.name = np.1 ∧
        ∃ ty, denotes c.sqltype = .inl ty ∧ HasSqlType g.ft items np.2 ty) (genNonAutoColumns g s)
        (t.columns.filter fun c => !c.auto) ∧
      t.columns.filter (fun c => c.pk) = [pk] ∧ genPkcol s = some pk.name ∧
      genAutoPk g s = pk.auto ∧
      ∀ f ∈ s.fields, ∀ q, IsMany f q → ∃ l, db'.getTable (genManyTable s f) = some l ∧
        LinkFor g.ft items s f q l := by
  obtain ⟨t, h1, h2, h3⟩ := model_table_partial g hr items hn ht db db' h h' s hs
  obtain ⟨k, hk, hkm⟩ := ht.key s hs
  have hrow : ∀ f ∈ rowFields s, ∃ p ty, f.ty = some p ∧ HasSqlType g.ft items p ty := by
    intro f hf
    unfold rowFields at hf
    rw [List.mem_filter] at hf
    have hf2 := hf.2
    simp only [decide_eq_true_eq] at hf2
    rcases ht.fields s hs f hf.1 with ⟨q, _, h, _⟩ | ⟨p, ty, h1, h3, _⟩
    · exact absurd ⟨q, h⟩ hf2
    · exact ⟨p, ty, h1, h3⟩
  have hauto : ∀ f ∈ rowFields s, ∀ c, ColumnFor g.ft items s f c → isAuto g f = some c.auto := by
    intro f hf c hc
    obtain ⟨p, ty, hp, hty⟩ := hrow f hf
    obtain ⟨r, hr1, hr2⟩ := pathArg_has hr hty (n := "AutoPk") (by simp)
    simp only [isAuto, hp, hr1, Option.map_some, Option.some.injEq]
    cases r with
    | none =>
      cases hca : c.auto with
      | false => rfl
      | true =>
        obtain ⟨p', q, hp', ha⟩ := hc.auto.1 hca
        rw [hp] at hp'; cases hp'
        have := (hr2 q).2 ha
        cases this
    | some q => exact (hc.auto.2 ⟨p, q, hp, (hr2 q).1 rfl⟩).symm
  have hkr : k ∈ rowFields s := by
    unfold rowFields; rw [List.mem_filter]
    exact ⟨key_mem hk, by simpa using hkm⟩
  -- the row fields, as the generated code finds them
  have hfil : (s.fields.filter fun f => isMany g f == some false) = rowFields s := by
    unfold rowFields
    apply List.filter_congr
    intro f hf
    rcases ht.fields s hs f hf with ⟨q, _, h, _⟩ | ⟨p', ty', h1, h2, _⟩
    · have := isMany_true hr h
      have hx : ∃ q, IsMany f q := ⟨q, h⟩
      simp [this, hx]
    · obtain ⟨h, h'⟩ := row_field hr h1 h2
      have hx : ¬ ∃ q, IsMany f q := fun ⟨q, h⟩ => h' q h
      simp [h, hx]
  have hgen : ∀ pred, genColumnsOf g s pred = ((rowFields s).filter pred).filterMap fun f =>
      f.ty.map fun p => (f.ident.name, p) := by
    intro pred
    rw [← hfil, List.filter_filter]
    unfold genColumnsOf
    congr 1
    apply List.filter_congr
    intro f _
    rw [Bool.and_comm]
  have hpair : ∀ f c, ColumnFor g.ft items s f c → ∃ np : String × Path,
      (f.ty.map fun p => (f.ident.name, p)) = some np ∧ c.name = np.1 ∧
        ∃ ty, denotes c.sqltype = .inl ty ∧ HasSqlType g.ft items np.2 ty := by
    intro f c hc
    obtain ⟨p, ty, hp, hd, hty⟩ := hc.type
    exact ⟨(f.ident.name, p), by rw [hp]; rfl, hc.name, ty, hd, (hty ty).2 rfl⟩
  -- the key column
  obtain ⟨pk, hpk, hpkc⟩ : ∃ pk, t.columns.filter (fun c => c.pk) = [pk] ∧
      ColumnFor g.ft items s k pk := by
    have hm := fieldMatch_filter h3 (p := fun f => decide (f = k)) (q := fun c => c.pk) (by
      intro f _ c hc
      cases hp : c.pk with
      | true => simpa using key_unique (hc.pk.1 hp) hk
      | false =>
        simp only [decide_eq_false_iff_not]
        rintro rfl
        rw [hc.pk.2 hk] at hp; cases hp)
    have hone : (rowFields s).filter (fun f => decide (f = k)) = [k] := by
      have hnd : (rowFields s).Nodup := by
        unfold rowFields
        exact (nodup_of_names (hn.fields s hs)).filter _
      clear hm h3 hfil hgen hauto hrow
      generalize rowFields s = l at hkr hnd
      induction l with
      | nil => cases hkr
      | cons x l ih =>
        simp only [List.nodup_cons] at hnd
        by_cases hx : x = k
        · subst hx
          rw [List.filter_cons_of_pos (by simp)]
          congr 1
          rw [List.filter_eq_nil_iff]
          intro y hy e
          simp only [decide_eq_true_eq] at e
          subst e; exact hnd.1 hy
        · rw [List.filter_cons_of_neg (by simp [hx])]
          rcases List.mem_cons.1 hkr with e | hkr
          · exact absurd e.symm hx
          · exact ih hkr hnd.2
    rw [hone] at hm
    generalize t.columns.filter (fun c => c.pk) = l at hm
    cases hm with
    | @cons _ pk _ _ hc hnil => cases hnil; exact ⟨pk, rfl, hc⟩
  refine ⟨t, pk, by rw [genTable, table_eq]; exact h1, ?_, ?_, hpk, ?_, ?_, ?_⟩
  · rw [genColumns, hgen]
    rw [List.filter_eq_self.2 fun _ _ => rfl]
    exact fieldMatch_map h3 _ hpair
  · rw [genNonAutoColumns, hgen]
    refine fieldMatch_map (fieldMatch_filter h3 fun f hf c hc => ?_) _ hpair
    rw [hauto f hf c hc]
    cases c.auto <;> rfl
  · rw [genPkcol, isKey_iff.1 hk, hpkc.name]; rfl
  · rw [genAutoPk, isKey_iff.1 hk, Option.bind_some, hauto k hkr pk hpkc]
    cases pk.auto <;> rfl
  · intro f hf q hq
    obtain ⟨l, hl1, hl2⟩ := link_table_partial g hr items hn ht db db' h h' s hs f hf q hq
    refine ⟨l, ?_, hl2⟩
    rw [← hl1]
    unfold genManyTable tableOf Struct.config manySuffix
    cases s.tables.getLast? <;> rfl

example : genColumns exCfg postModel = [("id", ty0 "Number"),
      ("author", ty1 "Option" (ty1 "ForeignKey" (ty0 "Author"))), ("score", ty0 "f64")] ∧
    genNonAutoColumns exCfg labelModel = [("type", ty0 "Kind")] ∧ genAutoPk exCfg labelModel = true ∧
    genPkcol authorModel = some "email" := ⟨rfl, rfl, rfl, rfl⟩

/-! ### Names that collide -/

/-- `struct A { id: String }` in the table `B`. -/
def crossA : Struct := ⟨ident "A", ["B"], [fld "id" (ty0 "String")]⟩

/-- `struct B { id: i64 }` in the table `C`. -/
def crossB : Struct := ⟨ident "B", ["C"], [fld "id" (ty0 "i64")]⟩

/-- `struct P { id: i64, b: ForeignKey<B> }` -/
def crossP : Struct := ⟨ident "P", [], [fld "id" (ty0 "i64"), fld "b" (ty1 "ForeignKey" (ty0 "B"))]⟩

/-- C72 violated: if one model's table has the name of another model's struct, a foreign key to
the other is recorded with the key type of the one: the column of `ForeignKey<B>` refers to the
table of `B`, whose key is a `BigInt`, but is a `Text`. -/
theorem cross_name_violated :
    let crate := [Item.model crossA, .model crossB, .model crossP]
    ((modelsOf crate).map (·.ident.name)).Nodup ∧ ((modelsOf crate).flatMap tablesOf).Nodup ∧
    HasSqlType exCfg.ft crate (ty1 "ForeignKey" (ty0 "B")) (.ty .bigInt) ∧
    ∃ db db', expandAll exCfg ADB.new crate = some db ∧
      db.resolveTypes true (rounds db) = .ok db' ∧
      (db'.getTable "P").map (·.columns) = some
        [⟨"id", .knownId (.ty .bigInt), false, true, false, false, none, none⟩,
         ⟨"b", .knownId (.ty .text), false, false, false, false, none, some (.literal "C" "id")⟩] := by
  refine ⟨by decide, ?_, ?_, _, _, rfl, rfl, rfl⟩
  · rw [show tablesOf = _ from funext tablesOf_eq]; decide
  · exact .foreignKey (spelled _ (by decide)) (s := crossB) (by simp) rfl (isKey_iff.2 rfl) rfl
      (.builtin (exBuiltin (by decide) _))

/-- C72 violated: of two models whose structs have the same name, in different modules, only the
one compiled last is recorded. -/
theorem same_name_violated :
    let one : Struct := ⟨ident "Item", [], [fld "id" (ty0 "i64"), fld "title" (ty0 "String")]⟩
    let two : Struct := ⟨ident "Item", [], [fld "id" (ty0 "i64"), fld "price" (ty0 "f64")]⟩
    ∃ db db', expandAll exCfg ADB.new [.model one, .model two] = some db ∧
      db.resolveTypes true (rounds db) = .ok db' ∧
      db'.tables.map (fun e => (e.1, e.2.columns.map (·.name))) = [("Item", ["id", "price"])] ∧
      genTable one = "Item" ∧ (genColumns exCfg one).map (·.1) = ["id", "title"] :=
  ⟨_, _, rfl, rfl, rfl, rfl, rfl⟩

/-- C72 violated: a type with a raw identifier that derives `FieldType` is recorded with the
prefix `r#`, but looked up without it, so that a model with a field of this type has no migration. -/
theorem raw_type_violated :
    let kind : Ident := ⟨"type", true⟩
    let s : Struct := ⟨ident "Item", [], [fld "id" (ty0 "i64"), fld "kind" (.plain false [] kind)]⟩
    HasSqlType exCfg.ft [.derived kind .simpleEnum, .model s] (.plain false [] kind) (.ty .text) ∧
    ∃ db db', expandAll exCfg ADB.new [.derived kind .simpleEnum, .model s] = some db ∧
      db.resolveTypes true (rounds db) = .cannotResolve (TypeKey.customType "type").display db' :=
  ⟨.enum List.mem_cons_self rfl, _, _, rfl, rfl⟩

/-- C72 violated: a declared type that is written with its module is not found. -/
theorem qualified_type_violated :
    let s : Struct := ⟨ident "Item", [], [fld "id" (ty0 "i64"),
      fld "kind" (.plain false [ident "crate"] (ident "Kind"))]⟩
    ∃ db db', expandAll exCfg ADB.new [.derived (ident "Kind") .simpleEnum, .model s] = some db ∧
      db.resolveTypes true (rounds db) =
        .cannotResolve (TypeKey.customType "crate::Kind").display db' :=
  ⟨_, _, rfl, rfl⟩

/-- C72 violated: a type of the user's with the name of a built-in one is recorded with the type
of the built-in one, whatever its own `SQLTYPE` is. -/
theorem builtin_name_violated :
    let s : Struct := ⟨ident "Item", [], [fld "id" (ty0 "i64"), fld "at" (ty0 "NaiveDate")]⟩
    Shape.sqltype exCfg.ft .simpleEnum = some .text ∧
    ∃ db db', expandAll exCfg ADB.new [.derived (ident "NaiveDate") .simpleEnum, .model s] = some db ∧
      db.resolveTypes true (rounds db) = .ok db' ∧
      (db'.getTable "Item").map (fun t => t.columns.map (·.sqltype)) =
        some [.knownId (.ty .bigInt), .knownId (.ty .date)] :=
  ⟨rfl, _, _, rfl, rfl, rfl⟩

end Butane.Props
