/-
What the code generator records for a crate.
-/
import Verif.Proofs.Codegen

namespace Butane.Proofs.Codegen
open Butane Butane.Spec Butane.Codegen

/-! ### Items -/

theorem mem_models {items : List Item} {s : Struct} : s ∈ modelsOf items ↔ .model s ∈ items := by
  induction items with
  | nil => simp [modelsOf]
  | cons i is ih => cases i <;> simp [modelsOf, ih]

theorem mem_types {items : List Item} {i : Item} (h : i ∈ items) :
    match i with
    | .model _ => True
    | .alias n _ => n.name ∈ typeNames items
    | .typed n _ => n.name ∈ typeNames items
    | .derived n _ => n.name ∈ typeNames items := by
  induction items with
  | nil => cases h
  | cons j is ih =>
    rcases List.mem_cons.1 h with rfl | h
    · cases i <;> simp [typeNames]
    · have := ih h
      cases i <;> cases j <;> simp_all [typeNames]

theorem text_mem {n : Ident} (h : n.raw = false) : n.text = n.name := by simp [Ident.text, h]

/-! ### Maps -/

theorem map_text {m i a b} (h : (Path.app2 false m i a b).names ∈ [["HashMap"],
      ["collections", "HashMap"], ["std", "collections", "HashMap"], ["BTreeMap"],
      ["collections", "BTreeMap"], ["std", "collections", "BTreeMap"]])
    (ha : ∃ m' j, a = .plain false m' j ∧
      a.names ∈ [["String"], ["string", "String"], ["std", "string", "String"]]) :
    StringMapName (Path.app2 false m i a b).text := by
  obtain ⟨m', j, rfl, ha⟩ := ha
  have join : ∀ {m : List Ident} {L : List String}, m.map (·.name) = L →
      m.map (fun i => i.name ++ "::") = L.map (· ++ "::") := by
    intro m L h; subst h; simp
  have hs : ∃ s ∈ ["String", "string::String", "std::string::String"],
      Path.headText false m' j = s := by
    simp only [Path.names, Path.mods, Path.last, List.mem_cons, List.not_mem_nil, or_false] at ha
    rcases ha with ha | ha | ha <;>
    · obtain ⟨h1, h2⟩ := split_names ha
      simp only [List.getLast?, Option.some.injEq] at h2
      refine ⟨_, ?_, by rw [Path.headText, join h1, h2]⟩
      simp [String.join]
  have hm : ∃ n ∈ ["HashMap", "BTreeMap"], ∃ p ∈ ["", "collections::", "std::collections::"],
      Path.headText false m i = p ++ n := by
    simp only [Path.names, Path.mods, Path.last, List.mem_cons, List.not_mem_nil, or_false] at h
    rcases h with h | h | h | h | h | h <;>
    · obtain ⟨h1, h2⟩ := split_names h
      simp only [List.getLast?, Option.some.injEq] at h2
      refine ⟨i.name, by simp [h2], _, ?_, by rw [Path.headText, join h1]⟩
      simp [String.join]
  obtain ⟨s, hs1, hs2⟩ := hs
  obtain ⟨n, hn, p, hp, hm⟩ := hm
  refine ⟨n, hn, p, hp, s, hs1, b.text.toList ++ ['>'], ?_⟩
  simp [Path.text, hs2, hm]

theorem mapName_lt {n : String} (h : StringMapName n) : '<' ∈ n.toList := by
  obtain ⟨m, _, p, _, s, _, rest, h⟩ := h
  rw [h]; simp

theorem deferred_map {g : Cfg} (hr : ResolverOk g.resolve) {m i a b}
    (hl : i.name = "HashMap" ∨ i.name = "BTreeMap") :
    deferredType g (.app2 false m i a b) =
      some (.deferred (.customType (Path.app2 false m i a b).text)) := by
  have h0 : prim g.ft (.app2 false m i a b) = none := by
    rcases hl with hl | hl <;> simp [prim, primTime, hl]
  have h1 : ∀ n ∈ ["Option", "ForeignKey", "AutoPk", "Many"],
      g.resolve (.app2 false m i a b) ≠ some n := by
    intro n hn e
    have := hr.sound n _ hn e
    simp only [Path.last] at this
    subst this
    rcases hl with hl | hl <;> rw [hl] at hn <;> simp at hn
  rw [deferredType] <;> simp [h0, h1]

/-! ### The type of a field -/

theorem has_deferred {g : Cfg} (hr : ResolverOk g.resolve) {items : List Item}
    (hn : WellNamed items) {p : Path} {ty} (h : HasSqlType g.ft items p ty) :
    ∃ d, deferredType g p = some d := by
  induction h with
  | builtin h => exact ⟨_, deferred_builtin h⟩
  | map hj h ha => exact ⟨_, deferred_map hr (has_app2 (.map (items := items) hj h ha))⟩
  | option h _ ih => rw [deferred_wrap hr h (Or.inl rfl)]; exact ih
  | autoPk h _ ih => rw [deferred_wrap hr h (Or.inr rfl)]; exact ih
  | foreignKey h => exact ⟨_, deferred_fk hr h⟩
  | alias h e =>
    have := hn.notBuiltin _ (mem_types h); rw [e] at this; exact ⟨_, deferred_plain this⟩
  | typed h e =>
    have := hn.notBuiltin _ (mem_types h); rw [e] at this; exact ⟨_, deferred_plain this⟩
  | newtype h e =>
    have := hn.notBuiltin _ (mem_types h); rw [e] at this; exact ⟨_, deferred_plain this⟩
  | enum h e =>
    have := hn.notBuiltin _ (mem_types h); rw [e] at this; exact ⟨_, deferred_plain this⟩
  | derived h e =>
    have := hn.notBuiltin _ (mem_types h); rw [e] at this; exact ⟨_, deferred_plain this⟩

/-! ### Fields -/

theorem isKey_iff {s : Struct} {f : Field} : IsKey s f ↔ s.pkField = some f := by
  have hid : ∀ x : Field, (x.ident.text == "id") = true ↔ x.ident = ⟨"id", false⟩ := by
    intro x
    rw [beq_iff_eq]
    constructor
    · intro h
      obtain ⟨h1, h2⟩ := text_eq h (by decide)
      cases hx : x.ident with
      | mk n r => rw [hx] at h1 h2; simp at h1 h2; rw [h1, h2]
    · intro h; rw [h]; rfl
  have hpk : ∀ x : Field, (x.attrs.any (· == .pk)) = true ↔ .pk ∈ x.attrs := by
    intro x; simp
  have hnot : ∀ {b : Bool}, (!b) = true ↔ ¬ b = true := by intro b; cases b <;> simp
  unfold Struct.pkField IsKey
  cases hf : s.fields.find? (fun f => f.attrs.any (· == .pk)) with
  | some f' =>
    simp only [Option.some.injEq]
    constructor
    · rintro (⟨a, b, h1, h2, h3⟩ | ⟨a, b, h1, h2, h3⟩)
      · have : s.fields.find? (fun f => f.attrs.any (· == .pk)) = some f := by
          rw [List.find?_eq_some_iff_append]
          exact ⟨(hpk f).2 h2, a, b, h1, fun x hx => hnot.2 fun h => h3 x hx ((hpk x).1 h)⟩
        rw [hf] at this; exact Option.some.inj this
      · have h := List.mem_of_find?_eq_some hf
        have h' := List.find?_some hf
        exact absurd ((hpk f').1 h') (h2 _ h)
    · rintro rfl
      rw [List.find?_eq_some_iff_append] at hf
      obtain ⟨h1, a, b, h2, h3⟩ := hf
      exact Or.inl ⟨a, b, h2, (hpk _).1 h1, fun x hx h => hnot.1 (h3 x hx) ((hpk x).2 h)⟩
  | none =>
    rw [List.find?_eq_none] at hf
    simp only
    rw [List.find?_eq_some_iff_append]
    constructor
    · rintro (⟨a, b, h1, h2, h3⟩ | ⟨a, b, h1, h2, h3, h4⟩)
      · exact absurd ((hpk f).2 h2) (hf f (by rw [h1]; simp))
      · exact ⟨(hid f).2 h3, a, b, h1, fun x hx => hnot.2 fun h => h4 x hx ((hid x).1 h)⟩
    · rintro ⟨h1, a, b, h2, h3⟩
      refine Or.inr ⟨a, b, h2, fun x hx h => hf x hx ((hpk x).2 h), (hid f).1 h1, fun x hx e => ?_⟩
      have := h3 x hx
      rw [(hid x).2 e] at this
      cases this

theorem key_mem {s : Struct} {f : Field} (h : IsKey s f) : f ∈ s.fields := by
  rcases h with ⟨a, b, h, _⟩ | ⟨a, b, h, _⟩ <;> rw [h] <;> simp

theorem key_unique {s : Struct} {f f' : Field} (h : IsKey s f) (h' : IsKey s f') : f = f' := by
  rw [isKey_iff] at h h'; rw [h] at h'; exact Option.some.inj h'

theorem table_eq (s : Struct) : s.table = tableOf s := by
  unfold Struct.table Struct.config tableOf
  cases s.tables.getLast? <;> rfl

theorem many_field {g : Cfg} (hr : ResolverOk g.resolve) {f : Field} {q : Path} (h : IsMany f q) :
    manyType g f = some (some (.deferred (.pk q.last.name))) := by
  obtain ⟨p, hp, ha⟩ := h
  have := applied_resolve hr ha
  obtain ⟨m, i, rfl, _⟩ := ha
  simp [manyType, hp, foreignType, pathArg, this]

theorem isMany_true {g : Cfg} (hr : ResolverOk g.resolve) {f : Field} {q : Path} (h : IsMany f q) :
    isMany g f = some true := by simp [isMany, many_field hr h]

theorem row_field {g : Cfg} (hr : ResolverOk g.resolve) {items : List Item} {f : Field} {p : Path} {ty}
    (hp : f.ty = some p) (h : HasSqlType g.ft items p ty) :
    isMany g f = some false ∧ ∀ q, ¬ IsMany f q := by
  obtain ⟨r, h1, h2⟩ := pathArg_has hr h (n := "Many") (by simp)
  have hno : ∀ q, ¬ WrittenAs "Many" p q := by
    intro q ha
    have hl := applied_last ha
    obtain ⟨m, i, rfl, _⟩ := ha
    rcases has_app1 h with hv | ha | ha | ha
    · simp only [Path.last] at hl; rw [hl] at hv; simp at hv
    all_goals
      have := applied_last ha
      rw [hl] at this; simp at this
  have : r = none := by
    cases r with
    | none => rfl
    | some q => exact absurd ((h2 q).1 rfl) (hno q)
  subst this
  refine ⟨by simp [isMany, manyType, hp, foreignType, h1], ?_⟩
  rintro q ⟨p', hp', ha⟩
  rw [hp] at hp'; cases hp'
  exact hno q ha

theorem default_get {f : Field} {v} (h : DefaultOf f v) : getDefault f = some v := by
  unfold getDefault
  cases h with
  | none h =>
    have : f.attrs.find? Attr.isDefault = none := by
      rw [List.find?_eq_none]
      intro a ha
      cases a <;> simp [Attr.isDefault]
      exact h _ ha
    rw [this]
  | @some a l b v h1 h2 h3 =>
    have : f.attrs.find? Attr.isDefault =
        some (.default (some l)) := by
      rw [List.find?_eq_some_iff_append]
      refine ⟨rfl, a, b, h1, fun x hx => ?_⟩
      cases x <;> simp [Attr.isDefault]
      exact h2 _ hx
    rw [this]
    simp only
    cases l with
    | str s => simp only [LitVal] at h3; subst h3; rfl
    | byteStr s => simp only [LitVal] at h3; subst h3; rfl
    | int i => cases i with
      | none => exact h3.elim
      | some i => simp only [LitVal] at h3; subst h3; rfl
    | float r => simp only [LitVal] at h3; subst h3; rfl
    | bool r => simp only [LitVal] at h3; subst h3; rfl
    | unsupported => exact h3.elim

/-- What the column of a field is before types are resolved. -/
structure RawColumn (g : Cfg) (pk f : Field) (c : AColumn) : Prop where
  name : c.name = f.ident.name
  type : ∃ p, f.ty = some p ∧ deferredType g p = some c.sqltype
  nullable : c.nullable = true ↔ ∃ p q, f.ty = some p ∧ WrittenAs "Option" p q
  pk : c.pk = true ↔ f = pk
  auto : c.auto = true ↔ ∃ p q, f.ty = some p ∧ WrittenAs "AutoPk" p q
  unique : c.unique = true ↔ .unique ∈ f.attrs
  default : DefaultOf f c.default
  reference : ∀ q, IsRef f q → c.reference = some (.deferred (.deferred (.pk q.last.name)))
  noReference : (∀ q, ¬ IsRef f q) → c.reference = none

theorem column_raw {g : Cfg} (hr : ResolverOk g.resolve) {items : List Item} (hn : WellNamed items)
    {f : Field} {p : Path} {ty v} (pk : Field) (hp : f.ty = some p) (h : HasSqlType g.ft items p ty)
    (hd : DefaultOf f v) : ∃ c, column g pk f = some c ∧ RawColumn g pk f c := by
  obtain ⟨d, hdt⟩ := has_deferred hr hn h
  obtain ⟨ro, ho1, ho2⟩ := pathArg_has hr h (n := "Option") (by simp)
  obtain ⟨ra, ha1, ha2⟩ := pathArg_has hr h (n := "AutoPk") (by simp)
  obtain ⟨rf, hf1, hf2⟩ := pathArg_has hr h (n := "ForeignKey") (by simp)
  have hdv := default_get hd
  -- the reference
  have href : ∃ r, foreignKeyType g f = some r ∧
      (∀ q, IsRef f q → r.isSome = true ∧ d = .deferred (.pk q.last.name)) ∧
      ((∀ q, ¬ IsRef f q) → r = none) := by
    cases ro with
    | none =>
      refine ⟨rf.map fun q => .deferred (.pk q.last.name), ?_, ?_, ?_⟩
      · simp [foreignKeyType, hp, ho1, foreignType, hf1]
      · rintro q ⟨p', hp', ha | ⟨r, hr1, _⟩⟩
        · rw [hp] at hp'; cases hp'
          rw [(hf2 q).2 ha]
          rw [deferred_fk hr ha] at hdt
          exact ⟨rfl, (Option.some.inj hdt).symm⟩
        · rw [hp] at hp'; cases hp'
          cases (ho2 r).2 hr1
      · intro hno
        cases rf with
        | none => rfl
        | some q => exact absurd ⟨p, hp, Or.inl ((hf2 q).1 rfl)⟩ (hno q)
    | some inner =>
      have hoa := (ho2 inner).1 rfl
      have hin : ∃ ty', HasSqlType g.ft items inner ty' := by
        have hl := applied_last hoa
        cases h with
        | builtin hb =>
          obtain ⟨m, i, rfl, _⟩ := hoa
          rcases builtin_app1 hb with e | e <;> simp only [Path.last] at hl <;> rw [hl] at e <;>
            simp at e
        | map hj hh ha => obtain ⟨_, _, e, _⟩ := hoa; cases e
        | option ha hq => rw [← (applied_arg ha hoa).2]; exact ⟨_, hq⟩
        | autoPk ha hq => have := (applied_arg ha hoa).1; simp at this
        | foreignKey ha => have := (applied_arg ha hoa).1; simp at this
        | alias => obtain ⟨_, _, e, _⟩ := hoa; cases e
        | typed => obtain ⟨_, _, e, _⟩ := hoa; cases e
        | newtype => obtain ⟨_, _, e, _⟩ := hoa; cases e
        | enum => obtain ⟨_, _, e, _⟩ := hoa; cases e
        | derived => obtain ⟨_, _, e, _⟩ := hoa; cases e
      obtain ⟨ty', hin⟩ := hin
      obtain ⟨rg, hg1, hg2⟩ := pathArg_has hr hin (n := "ForeignKey") (by simp)
      refine ⟨rg.map fun q => .deferred (.pk q.last.name), ?_, ?_, ?_⟩
      · simp [foreignKeyType, hp, ho1, foreignType, hg1]
      · rintro q ⟨p', hp', ha | ⟨r, hr1, hr2⟩⟩
        · rw [hp] at hp'; cases hp'
          have := (applied_arg ha hoa).1; simp at this
        · rw [hp] at hp'; cases hp'
          have := (applied_arg hr1 hoa).2
          subst this
          rw [(hg2 q).2 hr2]
          rw [deferred_wrap hr hoa (Or.inl rfl), deferred_fk hr hr2] at hdt
          exact ⟨rfl, (Option.some.inj hdt).symm⟩
      · intro hno
        cases rg with
        | none => rfl
        | some q => exact absurd ⟨p, hp, Or.inr ⟨inner, hoa, (hg2 q).1 rfl⟩⟩ (hno q)
  obtain ⟨r, hr1, hr2, hr3⟩ := href
  refine ⟨_, by simp only [column, hp, hdt, isOption, isAuto, ho1, ha1, hdv, isForeignKey, hr1,
    Option.map_some]; rfl, ?_⟩
  constructor
  · rfl
  · exact ⟨p, hp, hdt⟩
  · constructor
    · intro hs
      obtain ⟨q, hq⟩ := Option.isSome_iff_exists.1 hs
      exact ⟨p, q, hp, (ho2 q).1 hq⟩
    · rintro ⟨p', q, hp', ha⟩
      rw [hp] at hp'; cases hp'
      simp [(ho2 q).2 ha]
  · simp
  · constructor
    · intro hs
      obtain ⟨q, hq⟩ := Option.isSome_iff_exists.1 hs
      exact ⟨p, q, hp, (ha2 q).1 hq⟩
    · rintro ⟨p', q, hp', ha⟩
      rw [hp] at hp'; cases hp'
      simp [(ha2 q).2 ha]
  · simp [isUnique]
  · exact hd
  · intro q hq
    obtain ⟨h1, h2⟩ := hr2 q hq
    simp [h1, h2]
  · intro hno
    simp [hr3 hno]

/-! ### The tables of a model -/

theorem replaceCol_new {cols : List AColumn} {c : AColumn} (h : ∀ x ∈ cols, x.name ≠ c.name) :
    replaceCol cols c = cols ++ [c] := by
  induction cols with
  | nil => rfl
  | cons x rest ih =>
    have hx := h x List.mem_cons_self
    simp [replaceCol, hx, ih fun y hy => h y (List.mem_cons_of_mem _ hy)]

theorem column_name {g : Cfg} {pk f : Field} {c : AColumn} (h : column g pk f = some c) :
    c.name = f.ident.name := by
  unfold column at h
  split at h
  · cases h
  · split at h
    · cases h; rfl
    · cases h

theorem addFields_spec {g : Cfg} {pk : Field} (fs : List Field) : ∀ (t : ATable) (links : List ATable),
    (∀ f ∈ fs, (isMany g f = some false ∧ ∃ c, column g pk f = some c) ∨
      (isMany g f = some true ∧ ∃ l, manyTable g t.name pk f = some l)) →
    (fs.map (·.ident.name)).Nodup → (∀ c ∈ t.columns, ∀ f ∈ fs, c.name ≠ f.ident.name) →
    ∃ cols ls, addFields g pk t links fs = some (⟨t.name, t.columns ++ cols⟩, links ++ ls) ∧
      AllMatch (fun f c => column g pk f = some c) (fs.filter fun f => isMany g f == some false) cols ∧
      AllMatch (fun f l => manyTable g t.name pk f = some l)
        (fs.filter fun f => isMany g f == some true) ls := by
  induction fs with
  | nil =>
    intro t links _ _ _
    exact ⟨[], [], by simp [addFields], .nil, .nil⟩
  | cons f fs ih =>
    intro t links hall hnd hfr
    simp only [List.map_cons, List.nodup_cons] at hnd
    rcases hall f List.mem_cons_self with ⟨hm, c, hc⟩ | ⟨hm, l, hl⟩
    · have hcn := column_name hc
      have happ : t.addColumn c = ⟨t.name, t.columns ++ [c]⟩ := by
        unfold ATable.addColumn ATable.replaceColumn
        rw [replaceCol_new]
        intro x hx; rw [hcn]; exact hfr x hx f List.mem_cons_self
      obtain ⟨cols, ls, h1, h2, h3⟩ := ih (t.addColumn c) links
        (by
          intro f' hf'
          rw [happ]
          exact hall f' (List.mem_cons_of_mem _ hf'))
        hnd.2
        (by
          rw [happ]
          intro x hx f' hf'
          rcases List.mem_append.1 hx with hx | hx
          · exact hfr x hx f' (List.mem_cons_of_mem _ hf')
          · simp at hx; subst hx; rw [hcn]
            intro e
            exact hnd.1 (List.mem_map.2 ⟨f', hf', e.symm⟩))
      refine ⟨c :: cols, ls, ?_, ?_, ?_⟩
      · simp only [addFields, hm, hc, h1]; rw [happ]; simp
      · rw [List.filter_cons_of_pos (by simp [hm])]; exact .cons hc h2
      · rw [List.filter_cons_of_neg (by simp [hm])]; rw [happ] at h3; exact h3
    · obtain ⟨cols, ls, h1, h2, h3⟩ := ih t (links ++ [l])
        (fun f' hf' => hall f' (List.mem_cons_of_mem _ hf')) hnd.2
        (fun x hx f' hf' => hfr x hx f' (List.mem_cons_of_mem _ hf'))
      refine ⟨cols, l :: ls, ?_, ?_, ?_⟩
      · simp only [addFields, hm, hl, h1]; simp
      · rw [List.filter_cons_of_neg (by simp [hm])]; exact h2
      · rw [List.filter_cons_of_pos (by simp [hm])]; exact .cons hl h3

theorem createMany_eq (a b : String) (k : TypeKey) (n : String) (hk : ∃ t, k = .pk t) (d : DeferredSqlType) :
    createManyTable a b (.deferred k) n d = ⟨a ++ "_" ++ b ++ "_Many",
      [⟨"owner", d, false, false, false, false, none, some (.literal a n)⟩,
       ⟨"has", .deferred k, false, false, false, false, none, some (.deferred (.deferred k))⟩]⟩ := by
  obtain ⟨t, rfl⟩ := hk
  rfl

theorem allMatch_imp {α β : Type} {R S : α → β → Prop} {as : List α} {bs : List β}
    (h : AllMatch R as bs) (hi : ∀ a ∈ as, ∀ b, R a b → S a b) : AllMatch S as bs := by
  induction h with
  | nil => exact .nil
  | cons hr _ ih =>
    exact .cons (hi _ List.mem_cons_self _ hr) (ih fun a ha => hi a (List.mem_cons_of_mem _ ha))

/-- The tables of a model before types are resolved. -/
structure RawTables (g : Cfg) (s : Struct) (ts : List ATable) : Prop where
  tables : ∃ k p d cols links, IsKey s k ∧ k ∈ rowFields s ∧ k.ty = some p ∧
    deferredType g p = some d ∧ ts = ⟨tableOf s, cols⟩ :: links ∧
    AllMatch (RawColumn g k) (rowFields s) cols ∧
    AllMatch (fun f l => ∃ q, IsMany f q ∧ l = ⟨tableOf s ++ "_" ++ f.ident.name ++ "_Many",
      [⟨"owner", d, false, false, false, false, none, some (.literal (tableOf s) k.ident.name)⟩,
       ⟨"has", .deferred (.pk q.last.name), false, false, false, false, none,
        some (.deferred (.deferred (.pk q.last.name)))⟩]⟩) (manyFields s) links

open Classical in
theorem createATables_raw {g : Cfg} (hr : ResolverOk g.resolve) {items : List Item}
    (hn : WellNamed items) (ht : Typed g.ft items) {s : Struct} (hs : s ∈ modelsOf items) :
    ∃ ts, createATables g s = some ts ∧ RawTables g s ts := by
  obtain ⟨k, hk, hkm⟩ := ht.key s hs
  have hkf := key_mem hk
  obtain ⟨p, ty, hp, hty⟩ : ∃ p ty, k.ty = some p ∧ HasSqlType g.ft items p ty := by
    rcases ht.fields s hs k hkf with ⟨q, _, h, _⟩ | ⟨p, ty, h1, h2, _⟩
    · exact absurd h (hkm q)
    · exact ⟨p, ty, h1, h2⟩
  obtain ⟨d, hd⟩ := has_deferred hr hn hty
  have hmt : ∀ f q, IsMany f q → manyTable g (tableOf s) k f =
      some ⟨tableOf s ++ "_" ++ f.ident.name ++ "_Many",
      [⟨"owner", d, false, false, false, false, none, some (.literal (tableOf s) k.ident.name)⟩,
       ⟨"has", .deferred (.pk q.last.name), false, false, false, false, none,
        some (.deferred (.deferred (.pk q.last.name)))⟩]⟩ := by
    intro f q hf
    simp only [manyTable, many_field hr hf, hp, hd, Option.map_some]
    rw [createMany_eq _ _ _ _ ⟨_, rfl⟩]
  have hall : ∀ f ∈ s.fields, (isMany g f = some false ∧ ∃ c, column g k f = some c) ∨
      (isMany g f = some true ∧ ∃ l, manyTable g (ATable.new s.table).name k f = some l) := by
    intro f hf
    rcases ht.fields s hs f hf with ⟨q, _, h, _⟩ | ⟨p', ty', h1, h2, v, h3⟩
    · refine Or.inr ⟨isMany_true hr h, ?_⟩
      simp only [ATable.new, table_eq]
      exact ⟨_, hmt f q h⟩
    · obtain ⟨c, hc, _⟩ := column_raw hr hn k h1 h2 h3
      exact Or.inl ⟨(row_field hr h1 h2).1, c, hc⟩
  obtain ⟨cols, ls, h1, h2, h3⟩ := addFields_spec s.fields (ATable.new s.table) [] hall
    (hn.fields s hs) (by simp [ATable.new])
  have hfil : ∀ f ∈ s.fields, (isMany g f == some false) = decide (¬ ∃ q, IsMany f q) ∧
      (isMany g f == some true) = decide (∃ q, IsMany f q) := by
    intro f hf
    rcases ht.fields s hs f hf with ⟨q, _, h, _⟩ | ⟨p', ty', h1, h2, v, h3⟩
    · have := isMany_true hr h
      have hx : ∃ q, IsMany f q := ⟨q, h⟩
      simp [this, hx]
    · obtain ⟨h, h'⟩ := row_field hr h1 h2
      have hx : ¬ ∃ q, IsMany f q := fun ⟨q, h⟩ => h' q h
      simp [h, hx]
  rw [List.filter_congr fun f hf => (hfil f hf).1] at h2
  rw [List.filter_congr fun f hf => (hfil f hf).2] at h3
  simp only [ATable.new, table_eq] at h1 h3
  refine ⟨⟨tableOf s, cols⟩ :: ls, ?_, ⟨k, p, d, cols, ls, hk, ?_, hp, hd, rfl, ?_, ?_⟩⟩
  · simp only [createATables, isKey_iff.1 hk, ATable.new, table_eq, h1]; simp
  · unfold rowFields; rw [List.mem_filter]
    exact ⟨hkf, by simpa using hkm⟩
  · refine allMatch_imp h2 fun f hf c hc => ?_
    have hf := (List.mem_filter.1 hf)
    rcases ht.fields s hs f hf.1 with ⟨q, _, h, _⟩ | ⟨p', ty', h1, h2, v, h3⟩
    · have := hf.2; simp only [decide_eq_true_eq] at this; exact absurd ⟨q, h⟩ this
    · obtain ⟨c', hc', hraw⟩ := column_raw hr hn k h1 h2 h3
      rw [hc] at hc'; cases hc'; exact hraw
  · refine allMatch_imp h3 fun f hf l hl => ?_
    have hf := (List.mem_filter.1 hf).2
    simp only [decide_eq_true_eq] at hf
    obtain ⟨q, hq⟩ := hf
    rw [hmt f q hq] at hl
    exact ⟨q, hq, (Option.some.inj hl).symm⟩

end Butane.Proofs.Codegen
