/-
In the schema recorded for a crate, the key of a type stands for its SQL type and for no other.
-/
import Verif.Proofs.CodegenDb

namespace Butane.Proofs.Codegen
open Butane Butane.Spec Butane.Codegen

theorem map_inj {α β : Type} {f : α → β} {l : List α} (h : (l.map f).Nodup) {a b : α} (ha : a ∈ l)
    (hb : b ∈ l) (e : f a = f b) : a = b := by
  induction l with
  | nil => cases ha
  | cons x l ih =>
    simp only [List.map_cons, List.nodup_cons] at h
    rcases List.mem_cons.1 ha with h1 | h1 <;> rcases List.mem_cons.1 hb with h2 | h2
    · rw [h1, h2]
    · subst h1; exact absurd (List.mem_map.2 ⟨b, h2, e.symm⟩) h.1
    · subst h2; exact absurd (List.mem_map.2 ⟨a, h1, e⟩) h.1
    · exact ih h.2 h1 h2

theorem flatMap_inj {α β : Type} {f : α → List β} {l : List α} (h : (l.flatMap f).Nodup) {a b : α}
    {x : β} (ha : a ∈ l) (hb : b ∈ l) (hxa : x ∈ f a) (hxb : x ∈ f b) : a = b := by
  induction l with
  | nil => cases ha
  | cons y l ih =>
    rw [List.flatMap_cons, List.nodup_append] at h
    rcases List.mem_cons.1 ha with h1 | h1 <;> rcases List.mem_cons.1 hb with h2 | h2
    · rw [h1, h2]
    · subst h1; exact absurd rfl (h.2.2 x hxa x (List.mem_flatMap.2 ⟨b, h2, hxb⟩))
    · subst h2; exact absurd rfl (h.2.2 x hxb x (List.mem_flatMap.2 ⟨a, h1, hxa⟩))
    · exact ih h.2.1 h1 h2

theorem tableOf_mem (s : Struct) : tableOf s ∈ tablesOf s := List.mem_cons_self

theorem tableOf_inj {items : List Item} (hn : WellNamed items) {s s' : Struct}
    (hs : s ∈ modelsOf items) (hs' : s' ∈ modelsOf items) (h : tableOf s = tableOf s') : s = s' :=
  flatMap_inj hn.tables hs hs' (tableOf_mem s) (h ▸ tableOf_mem s')

/-- The key column of the table of a model. -/
theorem main_pk {g : Cfg} {s : Struct} {k : Field} {cols : List AColumn} (n : String)
    (h : AllMatch (RawColumn g k) (rowFields s) cols) (hk : k ∈ rowFields s) :
    ∃ c, (ATable.mk n cols).pk = some c ∧ RawColumn g k k c := by
  obtain ⟨c, hc, hr⟩ := h.mem_left hk
  cases hf : cols.find? (fun c => c.pk) with
  | none =>
    rw [List.find?_eq_none] at hf
    exact absurd (hr.pk.2 rfl) (hf c hc)
  | some c' =>
    have h1 := List.find?_some hf
    obtain ⟨f, _, hr'⟩ := h.mem_right (List.mem_of_find?_eq_some hf)
    have := hr'.pk.1 h1
    subst this
    exact ⟨c', hf, hr'⟩

section
variable {g : Cfg} {items : List Item} {db : ADB}

/-- A table with a key is that of a model. -/
theorem pk_of_table (h : Recorded g items db) {e : String × ATable} (he : e ∈ db.tables) {c : AColumn}
    (hc : e.2.pk = some c) : ∃ s k, s ∈ modelsOf items ∧ e.2.name = tableOf s ∧ IsKey s k ∧
      RawColumn g k k c := by
  obtain ⟨s, ts, hs, _, hraw, hm, _⟩ := (h.tables e).1 he
  obtain ⟨k, p, d, cols, links, hk, hkr, _, _, rfl, h1, h2⟩ := hraw.tables
  rcases List.mem_cons.1 hm with hm | hm
  · obtain ⟨c', hc', hr⟩ := main_pk (tableOf s) h1 hkr
    rw [hm, hc'] at hc; cases hc
    exact ⟨s, k, hs, by rw [hm], hk, hr⟩
  · obtain ⟨f, _, q, _, hl⟩ := h2.mem_right hm
    rw [hl] at hc
    simp [ATable.pk] at hc

/-- The table of a model. -/
theorem table_of_model (hr : ResolverOk g.resolve) (hn : WellNamed items) (ht : Typed g.ft items)
    (h : Recorded g items db) {s : Struct} (hs : s ∈ modelsOf items) :
    ∃ t c k, (tableOf s, t) ∈ db.tables ∧ t.name = tableOf s ∧ t.pk = some c ∧ IsKey s k ∧
      RawColumn g k k c ∧ AllMatch (RawColumn g k) (rowFields s) t.columns := by
  obtain ⟨ts, h1, hraw⟩ := createATables_raw hr hn ht hs
  obtain ⟨k, p, d, cols, links, hk, hkr, _, _, rfl, h2, _⟩ := hraw.tables
  obtain ⟨c, hc, hcr⟩ := main_pk (tableOf s) h2 hkr
  exact ⟨⟨tableOf s, cols⟩, c, k, (h.tables _).2 ⟨s, _, hs, h1, hraw, List.mem_cons_self, rfl⟩, rfl,
    hc, hk, hcr, h2⟩

theorem config_table {s : Struct} : (∃ n, s.config = some n ∧ tableOf s = n) ∨
    (s.config = none ∧ tableOf s = s.ident.name) := by
  unfold Struct.config tableOf
  cases s.tables.getLast? with
  | none => exact Or.inr ⟨rfl, rfl⟩
  | some n => exact Or.inl ⟨n, rfl, rfl⟩

theorem ext_pk (h : Recorded g items db) {n : String} {d : DeferredSqlType}
    (hm : (TypeKey.pk n, d) ∈ db.extraTypes) :
    ∃ s ∈ modelsOf items, n = s.ident.name ∧ d = .deferred (.pk (tableOf s)) := by
  obtain ⟨i, hi, he⟩ := (h.extra _).1 hm
  cases i with
  | model s =>
    refine ⟨s, mem_models.2 hi, ?_⟩
    simp only [ext] at he
    rcases config_table (s := s) with ⟨n', hc, e⟩ | ⟨hc, _⟩ <;> rw [hc] at he <;> simp at he
    rw [e]; exact he
  | alias n' p => cases hd : deferredType g p <;> simp [ext, hd] at he
  | typed n' ty => simp [ext] at he
  | derived n' sh => cases hd : sh.sqltype g.ft <;> simp [ext, hd] at he

theorem ext_model (h : Recorded g items db) {s : Struct} (hs : s ∈ modelsOf items) :
    (TypeKey.pk s.ident.name, DeferredSqlType.deferred (.pk (tableOf s))) ∈ db.extraTypes ∨
    tableOf s = s.ident.name := by
  rcases config_table (s := s) with ⟨n', hc, e⟩ | ⟨_, e⟩
  · left
    rw [h.extra]
    exact ⟨_, mem_models.1 hs, by simp [ext, hc, e]⟩
  · exact Or.inr e

theorem ext_name (hn : WellNamed items) (h : Recorded g items db) {n : String} {d : DeferredSqlType}
    (hm : (TypeKey.customType n, d) ∈ db.extraTypes) : n ∈ typeNames items := by
  obtain ⟨i, hi, he⟩ := (h.extra _).1 hm
  have := mem_types hi
  cases i with
  | model s =>
    simp only [ext] at he
    cases hc : s.config <;> rw [hc] at he <;> simp at he
  | alias n' p => cases hd : deferredType g p <;> simp [ext, hd] at he; rw [he.1]; exact this
  | typed n' ty => simp [ext] at he; rw [he.1]; exact this
  | derived n' sh =>
    have hr := hn.notRaw n' sh hi
    cases hd : sh.sqltype g.ft <;> simp [ext, hd, text_mem hr] at he; rw [he.1]; exact this

theorem ext_unique (h : Recorded g items db) {k : TypeKey} {d d' : DeferredSqlType}
    (h1 : (k, d) ∈ db.extraTypes) (h2 : (k, d') ∈ db.extraTypes) : d = d' := by
  have := SMap.lookup_of_mem h.sortedE h1
  rw [SMap.lookup_of_mem h.sortedE h2] at this
  exact (Option.some.inj this).symm

/-! ### What keys stand for -/

/-- A declared type that is known. -/
theorem custom_known (hn : WellNamed items) (h : Recorded g items db) {n : String} {ty : TypeIdentifier}
    (hm : (TypeKey.customType n, DeferredSqlType.knownId ty) ∈ db.extraTypes) (json : Bool) :
    Stands json db (.customType n) ty ∧ ∀ ty', Stands json db (.customType n) ty' → ty' = ty := by
  refine ⟨.extraKnown hm rfl, fun ty' hs => ?_⟩
  cases hs with
  | map _ hmap => exact absurd (mapName_lt hmap) (hn.idents _ (ext_name hn h hm))
  | extraKnown h' hd =>
    rw [← ext_unique h hm h'] at hd
    cases hd; rfl
  | extraKey h' _ => have := ext_unique h hm h'; cases this

/-- What a type is taken for denotes its SQL type. -/
def Means (json : Bool) (db : ADB) (d : DeferredSqlType) (ty : TypeIdentifier) : Prop :=
  denotes d = .inl ty ∨ ∃ k, d = .deferred k ∧ Stands json db k ty ∧
    ∀ ty', Stands json db k ty' → ty' = ty

theorem has_means (hr : ResolverOk g.resolve) (hn : WellNamed items) (ht : Typed g.ft items)
    (hrec : Recorded g items db) {p : Path} {ty : TypeIdentifier} (h : HasSqlType g.ft items p ty) :
    ∃ d, deferredType g p = some d ∧ Means g.ft.json db d ty := by
  induction h with
  | builtin h => exact ⟨_, deferred_builtin h, Or.inl rfl⟩
  | @map m i a b hj h ha =>
    have hmap := map_text h ha
    refine ⟨_, deferred_map hr (has_app2 (.map (items := items) hj h ha)),
      Or.inr ⟨_, rfl, .map hj hmap, ?_⟩⟩
    intro ty' hs
    cases hs with
    | map => rfl
    | extraKnown h' _ => exact absurd (mapName_lt hmap) (hn.idents _ (ext_name hn hrec h'))
    | extraKey h' _ => exact absurd (mapName_lt hmap) (hn.idents _ (ext_name hn hrec h'))
  | option h _ ih => rw [deferred_wrap hr h (Or.inl rfl)]; exact ih
  | autoPk h _ ih => rw [deferred_wrap hr h (Or.inr rfl)]; exact ih
  | @foreignKey p q s f r ty h hs hl hk hf _ ih =>
    obtain ⟨d, hd, hm⟩ := ih
    have hs := mem_models.2 hs
    refine ⟨_, deferred_fk hr h, Or.inr ⟨_, rfl, ?_⟩⟩
    rw [hl]
    -- the key column of a table of this model
    have hcol : ∀ k c, IsKey s k → RawColumn g k k c → c.sqltype = d := by
      intro k c hk' hc
      have := key_unique hk hk'
      subst this
      obtain ⟨p', h1, h2⟩ := hc.type
      rw [hf] at h1; cases h1
      rw [hd] at h2; exact (Option.some.inj h2).symm
    constructor
    · have hmain : Stands g.ft.json db (.pk (tableOf s)) ty := by
        obtain ⟨t, c, k, h1, h2, h3, h4, h5, _⟩ := table_of_model hr hn ht hrec hs
        have hc := hcol k c h4 h5
        rw [← h2]
        rcases hm with hm | ⟨k', e, hst, _⟩
        · exact .tableKnown h1 h3 (by rw [hc]; exact hm)
        · exact .tableKey h1 h3 (hc.trans e) hst
      rcases ext_model hrec hs with he | he
      · exact .extraKey he hmain
      · rw [← he]; exact hmain
    · have key : ∀ k ty', Stands g.ft.json db k ty' → k = .pk s.ident.name ∨ k = .pk (tableOf s) →
          ty' = ty := by
        intro k ty' hst
        -- a table with one of these names is that of the model
        have htab : ∀ {e : String × ATable} {c : AColumn}, e ∈ db.tables → e.2.pk = some c →
            (TypeKey.pk e.2.name = .pk s.ident.name ∨ TypeKey.pk e.2.name = .pk (tableOf s)) →
            c.sqltype = d := by
          intro e c he hc hkey
          obtain ⟨s', k', hs', hname, hk', hraw⟩ := pk_of_table hrec he hc
          have : s' = s := by
            rw [hname] at hkey
            rcases hkey with hkey | hkey
            · exact (hn.cross s hs s' hs' (TypeKey.pk.inj hkey).symm).symm
            · exact tableOf_inj hn hs' hs (TypeKey.pk.inj hkey)
          subst this
          exact hcol k' c hk' hraw
        induction hst with
        | map => rintro (h | h) <;> cases h
        | tableKnown he hc hden =>
          intro hkey
          have e := htab he hc hkey
          rw [e] at hden
          rcases hm with hm | ⟨k', rfl, _⟩
          · rw [hm] at hden; exact (Sum.inl.inj hden).symm
          · cases hden
        | tableKey he hc hden hst' _ =>
          intro hkey
          have e := htab he hc hkey
          rw [e] at hden
          rcases hm with hm | ⟨k', hk', _, hun⟩
          · rw [hden] at hm; cases hm
          · rw [hk'] at hden; cases hden
            exact hun _ hst'
        | extraKnown he hden =>
          intro hkey
          exfalso
          rcases hkey with rfl | rfl <;>
          · obtain ⟨_, _, _, rfl⟩ := ext_pk hrec he
            cases hden
        | extraKey he _ ih' =>
          intro hkey
          apply ih'
          right
          rcases hkey with rfl | rfl
          · obtain ⟨s', hs', e, e'⟩ := ext_pk hrec he
            have := map_inj hn.structs hs hs' e
            subst this
            cases e'; rfl
          · obtain ⟨s', hs', e, e'⟩ := ext_pk hrec he
            have := hn.cross s' hs' s hs e.symm
            subst this
            cases e'; rfl
      exact fun ty' hst => key _ ty' hst (Or.inl rfl)
  | @alias n i q ty h e _ ih =>
    obtain ⟨d, hd, hm⟩ := ih
    have hb := hn.notBuiltin _ (mem_types h)
    have hex : (TypeKey.customType i.name, d) ∈ db.extraTypes := by
      rw [hrec.extra]; exact ⟨_, h, by simp [ext, hd, e]⟩
    rw [e] at hb
    refine ⟨_, deferred_plain hb, Or.inr ⟨_, rfl, ?_, fun ty' hst => ?_⟩⟩
    · rcases hm with hm | ⟨k, rfl, hst, _⟩
      · exact .extraKnown hex hm
      · exact .extraKey hex hst
    · cases hst with
      | map _ hmap => exact absurd (mapName_lt hmap) (hn.idents _ (ext_name hn hrec hex))
      | extraKnown h' hd' =>
        rw [← ext_unique hrec hex h'] at hd'
        rcases hm with hm | ⟨k, rfl, _⟩
        · rw [hm] at hd'; exact (Sum.inl.inj hd').symm
        · cases hd'
      | extraKey h' hst =>
        have := ext_unique hrec hex h'
        rcases hm with hm | ⟨k, hk, _, hun⟩
        · rw [this] at hm; cases hm
        · rw [hk] at this; cases this
          exact hun _ hst
  | @typed n i ty h e =>
    have hb := hn.notBuiltin _ (mem_types h)
    have hex : (TypeKey.customType i.name, DeferredSqlType.knownId ty) ∈ db.extraTypes := by
      rw [hrec.extra]; exact ⟨_, h, by simp [ext, e]⟩
    rw [e] at hb
    exact ⟨_, deferred_plain hb, Or.inr ⟨_, rfl, custom_known hn hrec hex _⟩⟩
  | @newtype n i p ty h e hp =>
    have hb := hn.notBuiltin _ (mem_types h)
    have hex : (TypeKey.customType i.name, DeferredSqlType.knownId (.ty ty)) ∈ db.extraTypes := by
      rw [hrec.extra]
      exact ⟨_, h, by simp [ext, e, Shape.sqltype, builtin_prim hp, text_mem (hn.notRaw _ _ h)]⟩
    rw [e] at hb
    exact ⟨_, deferred_plain hb, Or.inr ⟨_, rfl, custom_known hn hrec hex _⟩⟩
  | @enum n i h e =>
    have hb := hn.notBuiltin _ (mem_types h)
    have hex : (TypeKey.customType i.name, DeferredSqlType.knownId (.ty .text)) ∈ db.extraTypes := by
      rw [hrec.extra]
      exact ⟨_, h, by simp [ext, e, Shape.sqltype, text_mem (hn.notRaw _ _ h)]⟩
    rw [e] at hb
    exact ⟨_, deferred_plain hb, Or.inr ⟨_, rfl, custom_known hn hrec hex _⟩⟩
  | @derived n i h e hj =>
    have hb := hn.notBuiltin _ (mem_types h)
    have hex : (TypeKey.customType i.name, DeferredSqlType.knownId (.ty .json)) ∈ db.extraTypes := by
      rw [hrec.extra]
      exact ⟨_, h, by simp [ext, e, Shape.sqltype, hj, text_mem (hn.notRaw _ _ h)]⟩
    rw [e] at hb
    exact ⟨_, deferred_plain hb, Or.inr ⟨_, rfl, custom_known hn hrec hex _⟩⟩

/-- A type has at most one SQL type. -/
theorem has_unique (hr : ResolverOk g.resolve) (hn : WellNamed items) (ht : Typed g.ft items)
    (hrec : Recorded g items db) {p : Path} {ty ty' : TypeIdentifier}
    (h : HasSqlType g.ft items p ty) (h' : HasSqlType g.ft items p ty') : ty' = ty := by
  obtain ⟨d, hd, hm⟩ := has_means hr hn ht hrec h
  obtain ⟨d', hd', hm'⟩ := has_means hr hn ht hrec h'
  rw [hd] at hd'; cases hd'
  rcases hm with hm | ⟨k, rfl, _, hun⟩
  · rcases hm' with hm' | ⟨k, rfl, _⟩
    · rw [hm] at hm'; exact (Sum.inl.inj hm').symm
    · cases hm
  · rcases hm' with hm' | ⟨k', e, hst, _⟩
    · cases hm'
    · cases e; exact hun _ hst

/-- What a resolved column's type denotes. -/
theorem means_resolved {json : Bool} {d d' : DeferredSqlType} {ty : TypeIdentifier}
    (hm : Means json db d ty) (h : TypeResolved json db d d') (hk : ∃ ty', denotes d' = .inl ty') :
    denotes d' = .inl ty := by
  rcases h with rfl | ⟨k, ty', rfl, rfl, hst⟩
  · rcases hm with hm | ⟨k, rfl, _⟩
    · exact hm
    · obtain ⟨_, hk⟩ := hk; cases hk
  · rcases hm with hm | ⟨k', e, _, hun⟩
    · cases hm
    · cases e
      rw [hun _ hst]; rfl

/-! ### References -/

theorem refers_model (hn : WellNamed items) (h : Recorded g items db) {s : Struct}
    (hs : s ∈ modelsOf items) {t : String} (hr : RefersTo db (.pk s.ident.name) t) :
    t = tableOf s := by
  generalize hk : TypeKey.pk s.ident.name = k at hr
  cases hr with
  | alias hl =>
    subst hk
    obtain ⟨s', hs', e, e'⟩ := ext_pk h (SMap.mem_of_lookup hl)
    have := map_inj hn.structs hs hs' e
    subst this
    cases e'; rfl
  | direct hno =>
    cases hk
    rcases ext_model h hs with he | he
    · exact absurd (SMap.lookup_of_mem h.sortedE he) (hno _)
    · exact he.symm

theorem refers_exists (db : ADB) (n : String) : ∃ t, RefersTo db (.pk n) t := by
  by_cases h : ∃ u, db.extraTypes.lookup (.pk n) = some (.deferred (.pk u))
  · obtain ⟨u, h⟩ := h; exact ⟨u, .alias h⟩
  · exact ⟨n, .direct fun u hu => h ⟨u, hu⟩⟩

theorem ref_resolved (hr : ResolverOk g.resolve) (hn : WellNamed items) (ht : Typed g.ft items)
    (h : Recorded g items db) {s : Struct} (hs : s ∈ modelsOf items) {k : Field} (hk : IsKey s k)
    {r' : Option ARef}
    (hres : RefResolved db (some (.deferred (.deferred (.pk s.ident.name)))) r') :
    r' = some (.literal (tableOf s) k.ident.name) := by
  obtain ⟨k', t, e, hrt, hm⟩ := hres
  cases e
  have := refers_model hn h hs hrt
  subst this
  obtain ⟨t, c, k', h1, h2, h3, h4, h5, _⟩ := table_of_model hr hn ht h hs
  have hl : db.getTable (tableOf s) = some t := SMap.lookup_of_mem h.sortedT h1
  rw [hl] at hm
  simp only [Option.bind_some, h3] at hm
  rw [hm, h5.name, key_unique hk h4]

/-! ### Resolution succeeds -/

theorem generated (h : Recorded g items db) : Generated db := by
  constructor
  · intro e he
    obtain ⟨s, ts, hs, _, hraw, hm, _⟩ := (h.tables e).1 he
    obtain ⟨k, p, d, cols, links, hk, hkr, _, _, rfl, h1, h2⟩ := hraw.tables
    rcases List.mem_cons.1 hm with hm | hm
    · left
      obtain ⟨c, hc, hr⟩ := h1.mem_left hkr
      rw [hm]
      exact ⟨c, hc, hr.pk.2 rfl⟩
    · right
      obtain ⟨f, _, q, _, hl⟩ := h2.mem_right hm
      rw [hl]
      exact ⟨_, rfl⟩
  · intro e he c hc d' hd'
    obtain ⟨s, ts, hs, _, hraw, hm, _⟩ := (h.tables e).1 he
    obtain ⟨k, p, d, cols, links, hk, hkr, _, _, rfl, h1, h2⟩ := hraw.tables
    rcases List.mem_cons.1 hm with hm | hm
    · rw [hm] at hc
      obtain ⟨f, _, hr⟩ := h1.mem_right hc
      by_cases hq : ∃ q, IsRef f q
      · obtain ⟨q, hq⟩ := hq
        rw [hr.reference q hq] at hd'
        cases hd'
        obtain ⟨t, ht⟩ := refers_exists db q.last.name
        exact ⟨_, t, rfl, ht⟩
      · rw [hr.noReference fun q h => hq ⟨q, h⟩] at hd'; cases hd'
    · obtain ⟨f, _, q, _, hl⟩ := h2.mem_right hm
      rw [hl] at hc
      simp only [List.mem_cons, List.not_mem_nil, or_false] at hc
      rcases hc with rfl | rfl
      · cases hd'
      · cases hd'
        obtain ⟨t, ht⟩ := refers_exists db q.last.name
        exact ⟨_, t, rfl, ht⟩

/-- What the key type of the model behind `Many` or `ForeignKey` stands for. -/
theorem model_stands (hr : ResolverOk g.resolve) (hn : WellNamed items) (ht : Typed g.ft items)
    (hrec : Recorded g items db) {s : Struct} (hs : s ∈ modelsOf items) {k : Field} {p : Path}
    (hk : IsKey s k) (hp : k.ty = some p) : ∃ ty, HasSqlType g.ft items p ty ∧
      Means g.ft.json db (.deferred (.pk s.ident.name)) ty := by
  obtain ⟨k', hk', hkm⟩ := ht.key s hs
  have := key_unique hk hk'
  subst this
  obtain ⟨ty, hty⟩ : ∃ ty, HasSqlType g.ft items p ty := by
    rcases ht.fields s hs k (key_mem hk) with ⟨q, _, h, _⟩ | ⟨p', ty, h1, h2, _⟩
    · exact absurd h (hkm q)
    · rw [hp] at h1; cases h1; exact ⟨ty, h2⟩
  refine ⟨ty, hty, ?_⟩
  have happ : WrittenAs "ForeignKey" (.app1 false [] ⟨"ForeignKey", false⟩ (.plain false [] s.ident))
      (.plain false [] s.ident) := ⟨[], _, rfl, by simp [written, spellings, Path.mods, Path.last, Ident.text]⟩
  obtain ⟨d, hd, hm⟩ := has_means hr hn ht hrec
    (.foreignKey happ (mem_models.1 hs) rfl hk hp hty)
  rw [deferred_fk hr happ] at hd
  cases hd
  exact hm

/-- What each column's type denotes. -/
theorem column_means (hr : ResolverOk g.resolve) (hn : WellNamed items) (ht : Typed g.ft items)
    (hrec : Recorded g items db) {s : Struct} (hs : s ∈ modelsOf items) {f : Field}
    (hf : f ∈ rowFields s) {k : Field} {c : AColumn} (hc : RawColumn g k f c) :
    ∃ p ty, f.ty = some p ∧ HasSqlType g.ft items p ty ∧ Means g.ft.json db c.sqltype ty := by
  obtain ⟨p, hp, hd⟩ := hc.type
  unfold rowFields at hf
  rw [List.mem_filter] at hf
  have h2 := hf.2
  simp only [decide_eq_true_eq] at h2
  rcases ht.fields s hs f hf.1 with ⟨q, _, h, _⟩ | ⟨p', ty, h1, h3, _⟩
  · exact absurd ⟨q, h⟩ h2
  · rw [hp] at h1; cases h1
    obtain ⟨d, hd', hm⟩ := has_means hr hn ht hrec h3
    rw [hd] at hd'; cases hd'
    exact ⟨p, ty, hp, h3, hm⟩

open Classical in
theorem mem_manyFields {s : Struct} {f : Field} : f ∈ manyFields s ↔ f ∈ s.fields ∧ ∃ q, IsMany f q := by
  unfold manyFields; rw [List.mem_filter, decide_eq_true_eq]

theorem isMany_unique {f : Field} {q q' : Path} (h : IsMany f q) (h' : IsMany f q') : q = q' := by
  obtain ⟨p, hp, h⟩ := h
  obtain ⟨p', hp', h'⟩ := h'
  rw [hp] at hp'; cases hp'
  exact (applied_arg h h').2

theorem many_model (ht : Typed g.ft items) (hr : ResolverOk g.resolve) {s : Struct}
    (hs : s ∈ modelsOf items) {f : Field}
    (hf : f ∈ s.fields) {q : Path} (hq : IsMany f q) :
    ∃ s' ∈ modelsOf items, q.last.name = s'.ident.name := by
  rcases ht.fields s hs f hf with ⟨q', s', h, h1, h2⟩ | ⟨p', ty, h1, h3, _⟩
  · rw [isMany_unique hq h]; exact ⟨s', h1, h2⟩
  · exact absurd hq ((row_field hr h1 h3).2 q)

theorem all_stand (hr : ResolverOk g.resolve) (hn : WellNamed items) (ht : Typed g.ft items)
    (hrec : Recorded g items db) : ∀ e ∈ db.tables, ∀ c ∈ e.2.columns, ∀ k, c.sqltype = .deferred k →
      ∃ ty, Stands g.ft.json db k ty := by
  intro e he c hc k' hk'
  obtain ⟨s, ts, hs, _, hraw, hm, _⟩ := (hrec.tables e).1 he
  obtain ⟨k, p, d, cols, links, hk, hkr, hkp, hd, rfl, h1, h2⟩ := hraw.tables
  have of_means : ∀ {ty}, Means g.ft.json db (.deferred k') ty → ∃ ty, Stands g.ft.json db k' ty := by
    rintro ty (h | ⟨_, e, h, _⟩)
    · cases h
    · cases e; exact ⟨_, h⟩
  rcases List.mem_cons.1 hm with hm | hm
  · rw [hm] at hc
    obtain ⟨f, hf, hcr⟩ := h1.mem_right hc
    obtain ⟨_, ty, _, _, hmean⟩ := column_means hr hn ht hrec hs hf hcr
    rw [hk'] at hmean
    exact of_means hmean
  · obtain ⟨f, hf, q, hq, hl⟩ := h2.mem_right hm
    rw [hl] at hc
    simp only [List.mem_cons, List.not_mem_nil, or_false] at hc
    rcases hc with rfl | rfl
    · simp only at hk'
      obtain ⟨c0, _, hc0⟩ := h1.mem_left hkr
      obtain ⟨p', ty, hp', hty, hmean⟩ := column_means hr hn ht hrec hs hkr hc0
      obtain ⟨p'', hp'', hd''⟩ := hc0.type
      rw [hkp] at hp''; cases hp''
      rw [hd] at hd''; cases hd''
      rw [hk'] at hmean
      exact of_means hmean
    · simp only [DeferredSqlType.deferred.injEq] at hk'
      subst hk'
      obtain ⟨s', hs', e⟩ := many_model ht hr hs (mem_manyFields.1 hf).1 hq
      obtain ⟨k1, hk1, hkm⟩ := ht.key s' hs'
      obtain ⟨p1, hp1⟩ : ∃ p, k1.ty = some p := by
        rcases ht.fields s' hs' k1 (key_mem hk1) with ⟨q, _, h, _⟩ | ⟨p', ty, h1, h2, _⟩
        · exact absurd h (hkm q)
        · exact ⟨_, h1⟩
      obtain ⟨ty, _, hmean⟩ := model_stands hr hn ht hrec hs' hk1 hp1
      rw [e]
      rw [e] at of_means
      exact of_means hmean

end

end Butane.Proofs.Codegen
