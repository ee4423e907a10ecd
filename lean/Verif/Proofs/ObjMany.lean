/-
Link tables and deletion by query.
-/
import Verif.Spec.ObjMany
import Verif.Props.ObjQuery

namespace Butane
open Butane.Ddl Butane.DdlP Spec
open Butane.Sql

variable {k : SqliteConn} {W : World} {u u' : SDb}

/-! ### `DELETE … WHERE` -/

theorem lex_where (hk : CoversReserved k.kw k.reserved) {n : String} (hn : IsName n) {e : BoolExpr}
    (h1 : NamesOK k.reserved e) (h2 : NeedsNoParens true .or e) :
    Sql.parseStmt true (Sql.lex k.reserved (Backend.sqlite.deleteWhere k.kw n e).text) =
      some (.delete n (.any (disjs e 0))) := by
  have hlex : Sql.lex k.reserved (Backend.sqlite.deleteWhere k.kw n e).text =
      [.kw "DELETE", .kw "FROM", .ident n, .kw "WHERE"] ++ toksBool e 0 :=
    (reads_delete (d := sqliteDialect k.kw) (cnt := fun n => n) hk
      (phReads_sqlite k.kw k.reserved (cntBool e)) hn (oneJoin_of e _ h2) h1 (Nat.le_refl _)).lex rfl
  rw [hlex, parse_delete h2]

/-- The rows that stay are those for which the condition is not true. -/
theorem exec_where (hk : CoversReserved k.kw k.reserved) {n : String} (hn : IsName n) {t : STable}
    (hlk : u.lookup n = some t) {e : BoolExpr} (h1 : NamesOK k.reserved e) (h2 : NeedsNoParens true .or e)
    (h3 : ∀ r ∈ t.rows, Scoped (seenDb u) (seenRow t.cols r) [] e)
    (h : k.exec u (Backend.sqlite.deleteWhere k.kw n e) = .ok u') :
    u' = u.insert n { t with rows := t.rows.filter fun r => !decide (boolValue
      (convertedRel k.codecs k.data.rel) (seenDb u) (seenRow t.cols r) e = some true) } := by
  obtain ⟨ps, hb, hx⟩ := exec_ok h
  have hpar : (Backend.sqlite.deleteWhere k.kw n e).params = valsBool e := renderBool_vals _ e 0
  rw [hpar] at hb
  unfold execDataText at hx
  rw [lex_where hk hn h1 h2] at hx
  simp only [execData, hlk] at hx
  have hholds : ∀ r ∈ t.rows, holdsFor k.data u ps n t.cols (.any (disjs e 0)) r =
      some (decide (boolValue (convertedRel k.codecs k.data.rel) (seenDb u) (seenRow t.cols r) e = some true)) := by
    intro r hr
    unfold holdsFor
    rw [bindAll_seen hb, evalCond_converted (seenDb_fixed k.codecs u),
      evalDisjs e h2 0 n (seenRow t.cols r) [] [] (h3 r hr) (seg_all _)]
    intro sc hsc
    rw [List.mem_singleton.1 hsc]
    intro tr htr
    rw [List.mem_singleton.1 htr]
    exact seenDb_fixed k.codecs u n _ (by rw [seenDb_rows hlk]; exact List.mem_map_of_mem hr)
  have hcongr : ∀ l : List (List SqliteVal), (∀ r ∈ l, r ∈ t.rows) →
      ∃ rows, allSome (fun r => (holdsFor k.data u ps n t.cols (.any (disjs e 0)) r).map
          fun b => if b then none else some r) l = some rows ∧
        rows.filterMap id = l.filter fun r => !decide (boolValue
          (convertedRel k.codecs k.data.rel) (seenDb u) (seenRow t.cols r) e = some true) := by
    intro l hin
    induction l with
    | nil => exact ⟨[], rfl, rfl⟩
    | cons r l ih =>
      obtain ⟨rows, g1, g2⟩ := ih fun x hx => hin x (List.mem_cons_of_mem _ hx)
      simp only [allSome, g1]
      rw [hholds r (hin r (List.mem_cons_self ..))]
      refine ⟨_, rfl, ?_⟩
      by_cases he : boolValue (convertedRel k.codecs k.data.rel) (seenDb u) (seenRow t.cols r) e = some true <;>
        simp [he, g2]
  obtain ⟨rows, g1, g2⟩ := hcongr t.rows fun _ h => h
  rw [g1] at hx
  simp only [g2] at hx
  exact (replaceRows_eq hx).1

/-! ### Deleting by query -/

theorem storesObjs_where {s : Stock} {t : STable} (hT : Tabled k u s t) (hst : StoresObjs k s.m s.pk u s.objs)
    {p : List SqliteVal → Bool} {P : SqlVal → ObjVals s.m.fields → Prop}
    (hp : ∀ r id o, RowIs k s t r id o → (p r = true ↔ P id o)) {objs : Objects s.m}
    (h1 : ∀ id o, s.Has id o → P id o → objs id = none) (h2 : ∀ id o, s.Has id o → ¬ P id o → objs id = some o)
    (h3 : ∀ id, s.objs id = none → objs id = none)
    (hu : u' = u.insert s.m.table { t with rows := t.rows.filter fun r => !p r }) :
    StoresObjs k s.m s.pk u' objs := by
  obtain ⟨t', hlk, hkeys, hobjs⟩ := hst
  rw [hT.lookup] at hlk
  cases hlk
  refine ⟨_, by rw [hu, SMap.lookup_insert, if_pos rfl], ?_, ?_⟩
  · intro r hr
    exact hkeys r (List.mem_filter.1 hr).1
  · intro id a ha
    have hcom : (t.rows.filter fun r => !p r).filter (fun r => decide (field t.cols r s.pk.name = some a)) =
        (t.rows.filter fun r => decide (field t.cols r s.pk.name = some a)).filter fun r => !p r := by
      simp only [List.filter_filter]
      congr 1
      funext r
      exact Bool.and_comm _ _
    have hid := hobjs id a ha
    simp only [hcom]
    cases hs : s.objs id with
    | none =>
      rw [hs] at hid
      simp only [h3 id hs, hid, List.filter_nil]
    | some o =>
      have hhas : s.Has id o := ⟨ha.type, hs⟩
      obtain ⟨r, hro⟩ := hT.obj id o hhas
      obtain ⟨a', hkv, hra, hone⟩ := hro.key
      cases keyVal_unique hkv ha
      by_cases hP : P id o
      · simp only [h1 id o hhas hP, hone]
        simp [(hp r id o hro).2 hP]
      · simp only [h2 id o hhas hP, hone]
        have : p r = false := by
          cases e : p r with
          | false => rfl
          | true => exact absurd ((hp r id o hro).1 e) hP
        exact ⟨hro.fieldKey, hro.proper, hro.noNaN, r, by simp [this], hro.holds⟩

/-- The objects the query asks for are deleted. -/
theorem deleteQuery_stores {s : Stock} {t : STable} (hT : Tabled k u s t) (hst : StoresObjs k s.m s.pk u s.objs)
    {q : Query} {P : SqlVal → ObjVals s.m.fields → Prop} (hq : Asks k u s t q P) {objs : Objects s.m}
    (h1 : ∀ id o, s.Has id o → P id o → objs id = none) (h2 : ∀ id o, s.Has id o → ¬ P id o → objs id = some o)
    (h3 : ∀ id, s.objs id = none → objs id = none) (h : TModel.deleteQuery k u q = .ok u') :
    Rewrites k.env u u' s.m.table ∧ StoresObjs k s.m s.pk u' objs := by
  have main : ∀ e : BoolExpr, NamesOK k.reserved e → NeedsNoParens true .or e →
      (∀ r ∈ t.rows, Scoped (seenDb u) (seenRow t.cols r) [] e) →
      (∀ r id o, RowIs k s t r id o → (boolValue (convertedRel k.codecs k.data.rel) (seenDb u)
        (seenRow t.cols r) e = some true ↔ P id o)) →
      k.exec u (Backend.sqlite.deleteWhere k.kw s.m.table e) = .ok u' →
      Rewrites k.env u u' s.m.table ∧ StoresObjs k s.m s.pk u' objs := by
    intro e g1 g2 g3 g4 hx
    have hm := hT.ready.model
    have hu := exec_where hm.covers hm.table hT.lookup g1 g2 g3 hx
    refine ⟨execText_rewrites hT.ready.strict hT.ready.sound (lex_where hm.covers hm.table g1 g2) rfl hx, ?_⟩
    exact storesObjs_where hT hst (p := fun r => decide (boolValue (convertedRel k.codecs k.data.rel) (seenDb u)
      (seenRow t.cols r) e = some true)) (P := P) (fun r id o hr => by rw [← g4 r id o hr]; simp) h1 h2 h3 hu
  unfold TModel.deleteQuery Query.delete at h
  rw [hq.table] at h
  have hok := hq.ok.filter
  have hmeans := hq.means
  rw [hq.table, seenDb_rows hT.lookup] at hok
  cases hf : q.filter with
  | none =>
    rw [hf] at h hmeans
    refine main .true_ (by simp [NamesOK]) (by simp [NeedsNoParens]) (by simp [Scoped]) ?_ h
    intro r id o hr
    rw [← hmeans r id o hr]
    simp [boolValue]
  | some e =>
    rw [hf] at h hmeans
    obtain ⟨g1, g2, g3, -⟩ := hok e hf
    refine main e g1 g2 (fun r hr => g3 _ (List.mem_map_of_mem hr)) ?_ h
    intro r id o hr
    rw [← hmeans r id o hr]
    simp

/-! ### Keys in link tables -/

/-- The key of a model whose objects the database holds. -/
def KeyOf (k : SqliteConn) (u : SDb) (pk : TField) : Prop := ∃ s : Stock, Ready k s.m s.pk u ∧ s.pk = pk

theorem equal_key {pk : TField} (h : KeyOf k u pk) {x v : SqlVal} {a : SqliteVal} (hx : IsKeyVal k pk x a)
    (hv : KeyLike pk v) : Equal (convertedRel k.codecs k.data.rel) (seen a) (toDb v) ↔ x = v := by
  obtain ⟨s, hr, rfl⟩ := h
  rw [← key_cmp hr hx hv]
  obtain ⟨b, hb⟩ := keyLike_stored (k := k) hr.model hv
  obtain ⟨ty, st, h1, -⟩ := hr.model.keyType
  have hne := (key_ne_null (hb.type ty h1) hb.stored).1
  cases v <;> first | exact absurd rfl hne | exact Iff.rfl

theorem cmp_key {pk : TField} (h : KeyOf k u pk) {x v : SqlVal} {a : SqliteVal} (hx : IsKeyVal k pk x a)
    (hv : KeyLike pk v) : CmpHolds (convertedRel k.codecs k.data.rel) .eq (seen a) v ↔ x = v := by
  obtain ⟨s, hr, rfl⟩ := h
  exact key_cmp hr hx hv

theorem KeyOf.stored {pk : TField} (h : KeyOf k u pk) {x : SqlVal} (hx : KeyLike pk x) :
    ∃ a, IsKeyVal k pk x a := by
  obtain ⟨s, hr, rfl⟩ := h
  exact keyLike_stored hr.model hx

/-- A link table of the database. -/
structure LinkTable (k : SqliteConn) (u : SDb) (n : String) (L : Links) (t : STable) : Prop where
  name : IsName n
  covers : CoversReserved k.kw k.reserved
  data : DataLaws k.env k.data
  strict : StrictLaws k.env
  sound : SoundDb k.env u
  codecs : Faithful k.codecs
  ownerKey : KeyOf k u L.owner
  targetKey : KeyOf k u L.target
  lookup : u.lookup n = some t
  fits : LinkFits L t
  cols : ∀ c, c ∈ t.cols.map (·.name) ↔ c = "owner" ∨ c = "has"
  rows : ∀ r ∈ t.rows, ∃ x y a b, L.linked x y ∧ IsKeyVal k L.owner x a ∧ IsKeyVal k L.target y b ∧
      field t.cols r "owner" = some a ∧ field t.cols r "has" = some b
  pairs : ∀ x y, L.linked x y → ∃ r ∈ t.rows, ∃ a b, IsKeyVal k L.owner x a ∧ IsKeyVal k L.target y b ∧
      field t.cols r "owner" = some a ∧ field t.cols r "has" = some b

theorem linkTable_of (hW : Keeps k u W) (hR : LinksReady k u W) {n : String} {L : Links}
    (hL : W.links n = some L) : ∃ t, LinkTable k u n L t := by
  obtain ⟨h1, h2, t, h3, h4, h5, h6⟩ := hW.links n L hL
  obtain ⟨n1, s1, g1, e1⟩ := hR.owner n L hL
  obtain ⟨n2, s2, g2, e2⟩ := hR.target n L hL
  obtain ⟨t', h3', hfit⟩ := hR.table n L hL
  rw [h3] at h3'
  cases h3'
  obtain ⟨-, hr, -⟩ := hW.stock n1 s1 g1
  obtain ⟨-, hr2, -⟩ := hW.stock n2 s2 g2
  exact ⟨t, h2, hr.model.covers, hr.data, hr.strict, hr.sound, hr.codecs, ⟨s1, hr, e1⟩, ⟨s2, hr2, e2⟩, h3, hfit,
    h4, h5, h6⟩

theorem link_has {n : String} {L : Links} {t : STable} (hT : LinkTable k u n L t) (r : List SqliteVal) {c : String}
    (hc : c = "owner" ∨ c = "has") : (seenRow t.cols r).has c = true := by
  simp only [seenRow, List.contains_iff_mem]
  exact (hT.cols c).2 hc

theorem link_visible {n : String} {L : Links} {t : STable} (hT : LinkTable k u n L t) (r : List SqliteVal)
    {c : String} (hc : c = "owner" ∨ c = "has") : Visible (seenRow t.cols r) [] c :=
  ⟨link_has hT r hc, fun _ h => by cases h⟩

/-- The key column of a new row. -/
theorem link_key (hD : DataLaws k.env k.data) {t : STable} (hn : (t.cols.map (·.name)).Nodup)
    {given : List (String × SqliteVal)} {new : List SqliteVal} (h : newRow k.env k.data t given = some new)
    {pk : TField} (hk : KeyOf k u pk) {c : String} {v : SqlVal} {a : SqliteVal} (hv : IsKeyVal k pk v a)
    (hg : given.lookup c = some a)
    (hc : ∃ d ∈ t.cols, d.name = c ∧ ∃ ty st, pk.ty = some ty ∧ sqliteType ty.sqltype = some st ∧ d.type = [st.name]) :
    field t.cols new c = some a := by
  obtain ⟨s, hr, rfl⟩ := hk
  obtain ⟨d, hd, rfl, ty, st, e1, e2, e3⟩ := hc
  obtain ⟨ty', st', g1, g2, g3, -⟩ := hr.model.keyType
  rw [e1] at g1
  cases g1
  rw [e2] at g2
  cases g2
  have hne := (key_ne_null (hv.type ty e1) hv.stored).2
  obtain ⟨v', st', w, h1, h2, h3, h4, -⟩ := newRow_column hn h hd
  have hv' : v' = a := by
    unfold newValue at h1
    rw [hg] at h1
    cases a <;> first | exact absurd rfl hne | (cases h1; rfl)
  subst hv'
  rw [e3, strictType_name] at h2
  cases h2
  obtain ⟨w', f1, f2⟩ := hD.write st v' (ofClass_of_type (.inr (hv.type ty e1)) e2 hv.stored)
  rw [h3] at f1
  cases f1
  rw [h4, holds_eq g3 f2]

/-- After an insertion. -/
theorem link_insert {n : String} {L : Links} {t : STable} (hT : LinkTable k u n L t) {own v : SqlVal}
    (ho : KeyLike L.owner own) (hv : KeyLike L.target v)
    (h : k.exec u (Backend.sqlite.insert k.kw n ["owner", "has"] [own, v]) = .ok u') :
    Rewrites k.env u u' n ∧ StoresLinks k u' n (L.add own [v]) := by
  have hcols : ∀ c ∈ ["owner", "has"], IsName c := by
    intro c hc
    simp only [List.mem_cons, List.not_mem_nil, or_false] at hc
    rcases hc with rfl | rfl
    · exact isName_owner
    · exact isName_has
  have hparse := lex_insert (kw := k.kw) (res := k.reserved) (vals := [own, v]) hT.covers hT.name hcols
  refine ⟨execText_rewrites hT.strict hT.sound hparse rfl h, ?_⟩
  obtain ⟨ps, hb, hx⟩ := exec_ok h
  obtain ⟨a, ha⟩ := hT.ownerKey.stored ho
  obtain ⟨b, hb'⟩ := hT.targetKey.stored hv
  have hps : ps = [a, b] := by
    have : bindAll k.codecs [own, v] = .ok ps := hb
    simp only [bindAll, ha.stored, hb'.stored, Conv.bind] at this
    cases this
    rfl
  subst hps
  unfold execDataText at hx
  rw [hparse] at hx
  simp only at hx
  rw [data_insert hT.lookup (fun c hc => (hT.cols c).2 (by simpa using hc)) rfl] at hx
  cases hnew : newRow k.env k.data t (["owner", "has"].zip [a, b]) with
  | none => rw [hnew] at hx; cases hx
  | some new =>
    rw [hnew] at hx
    simp only [Option.bind_some] at hx
    have hn := (hT.sound.proper.tables _ _ hT.lookup).distinct
    have h1 := link_key hT.data hn hnew hT.ownerKey ha rfl hT.fits.owner
    have h2 := link_key hT.data hn hnew hT.targetKey hb' rfl hT.fits.has
    have hlk' : u'.lookup n = some { t with rows := t.rows ++ [new] } := by
      rw [(replaceRows_eq hx).1, SMap.lookup_insert, if_pos rfl]
    refine ⟨_, hlk', hT.cols, ?_, ?_⟩
    · intro r hr
      rcases List.mem_append.1 hr with hr | hr
      · obtain ⟨x, y, a', b', g1, g2⟩ := hT.rows r hr
        exact ⟨x, y, a', b', .inl g1, g2⟩
      · rw [List.mem_singleton.1 hr]
        exact ⟨own, v, a, b, .inr ⟨rfl, List.mem_singleton_self _⟩, ha, hb', h1, h2⟩
    · rintro x y (g | ⟨rfl, g⟩)
      · obtain ⟨r, hr, g2⟩ := hT.pairs x y g
        exact ⟨r, List.mem_append_left _ hr, g2⟩
      · rw [List.mem_singleton.1 g]
        exact ⟨new, List.mem_append_right _ (List.mem_singleton_self _), a, b, ha, hb', h1, h2⟩

/-- After a deletion. -/
theorem link_where {n : String} {L : Links} {t : STable} (hT : LinkTable k u n L t) {e : BoolExpr}
    (h1 : NamesOK k.reserved e) (h2 : NeedsNoParens true .or e)
    (h3 : ∀ r ∈ t.rows, Scoped (seenDb u) (seenRow t.cols r) [] e)
    (h : k.exec u (Backend.sqlite.deleteWhere k.kw n e) = .ok u') {P : SqlVal → SqlVal → Prop}
    (hP : ∀ r ∈ t.rows, ∀ x y a b, IsKeyVal k L.owner x a → IsKeyVal k L.target y b →
      field t.cols r "owner" = some a → field t.cols r "has" = some b →
      (boolValue (convertedRel k.codecs k.data.rel) (seenDb u) (seenRow t.cols r) e = some true ↔ P x y)) :
    Rewrites k.env u u' n ∧ StoresLinks k u' n { L with linked := fun x y => L.linked x y ∧ ¬ P x y } := by
  refine ⟨execText_rewrites hT.strict hT.sound (lex_where hT.covers hT.name h1 h2) rfl h, ?_⟩
  have hlk' : u'.lookup n = some { t with rows := t.rows.filter fun r => !decide (boolValue
      (convertedRel k.codecs k.data.rel) (seenDb u) (seenRow t.cols r) e = some true) } := by
    rw [exec_where hT.covers hT.name hT.lookup h1 h2 h3 h, SMap.lookup_insert, if_pos rfl]
  refine ⟨_, hlk', hT.cols, ?_, ?_⟩
  · intro r hr
    obtain ⟨hr, hp⟩ := List.mem_filter.1 hr
    obtain ⟨x, y, a, b, g1, g2, g3, g4, g5⟩ := hT.rows r hr
    refine ⟨x, y, a, b, ⟨g1, fun hxy => ?_⟩, g2, g3, g4, g5⟩
    simp [(hP r hr x y a b g2 g3 g4 g5).2 hxy] at hp
  · rintro x y ⟨g, hxy⟩
    obtain ⟨r, hr, a, b, g2, g3, g4, g5⟩ := hT.pairs x y g
    refine ⟨r, List.mem_filter.2 ⟨hr, ?_⟩, a, b, g2, g3, g4, g5⟩
    simp only [Bool.not_eq_true', decide_eq_false_iff_not]
    exact fun hc => hxy ((hP r hr x y a b g2 g3 g4 g5).1 hc)

/-- After removing items. -/
theorem link_remove {n : String} {L : Links} {t : STable} (hT : LinkTable k u n L t) {vs : List SqlVal}
    (hv : ∀ v ∈ vs, KeyLike L.target v)
    (h : k.exec u (Backend.sqlite.deleteWhere k.kw n (.inVals "has" vs)) = .ok u') :
    Rewrites k.env u u' n ∧ StoresLinks k u' n { L with linked := fun x y => L.linked x y ∧ ¬ y ∈ vs } := by
  refine link_where hT (by simp only [NamesOK]; exact isName_has) (by simp [NeedsNoParens])
    (fun r _ => by simp only [Scoped]; exact link_visible hT r (.inr rfl)) h (P := fun _ y => y ∈ vs) ?_
  intro r hr x y a b g2 g3 g4 g5
  simp only [boolValue]
  rw [in3_true, seenRow_val g5]
  constructor
  · rintro ⟨w, hw, he⟩
    obtain ⟨v, hv', rfl⟩ := List.mem_map.1 hw
    rwa [(equal_key hT.targetKey g3 (hv v hv')).1 he]
  · intro hy
    exact ⟨toDb y, List.mem_map_of_mem hy, (equal_key hT.targetKey g3 (hv y hy)).2 rfl⟩

/-- After removing all items of an owner. -/
theorem link_clear (hpl : PlainName k.reserved "owner") {n : String} {L : Links} {t : STable}
    (hT : LinkTable k u n L t) {own : SqlVal} (ho : KeyLike L.owner own)
    (h : k.exec u (Backend.sqlite.deleteWhere k.kw n (.cmp .eq "owner" (.val own))) = .ok u') :
    Rewrites k.env u u' n ∧ StoresLinks k u' n (L.clear own) := by
  refine link_where hT (by simp only [NamesOK, NamesExprOK]; exact ⟨hpl, trivial⟩)
    (by simp [NeedsNoParens, SimpleOperand])
    (fun r _ => by simp only [Scoped]; exact ⟨link_visible hT r (.inl rfl), trivial⟩) h (P := fun x _ => x = own) ?_
  intro r hr x y a b g2 g3 g4 g5
  rw [cmp_holds, seenRow_val g4]
  exact cmp_key hT.ownerKey g2 ho

/-! ### Worlds -/

theorem keeps_setLinks (hW : Keeps k u W) {n : String} {L L' : Links} (hL : W.links n = some L)
    (hr : Rewrites k.env u u' n) (hs : StoresLinks k u' n L') : Keeps k u' (W.setLinks n L') where
  stock n' s hs' := by
    obtain ⟨h1, h2, h3⟩ := hW.stock n' s hs'
    refine ⟨h1, ready_of_rewrites h2 hr, storesObjs_other h3 hr ?_⟩
    rintro rfl
    have := (hW.links _ L hL).1
    rw [h1] at this
    exact absurd (this.symm.trans hs') (by simp)
  links n' L'' h := by
    simp only [World.setLinks] at h
    split at h
    · next e =>
      subst e
      cases h
      exact ⟨(hW.links n' L hL).1, (hW.links n' L hL).2.1, hs⟩
    · next e =>
      obtain ⟨h1, h2, t, h3, h4⟩ := hW.links n' L'' h
      exact ⟨h1, h2, t, by rw [hr.others _ e, h3], h4⟩

theorem fits_of_rewrites {n n' : String} {L : Links} (hr : Rewrites k.env u u' n')
    (h : ∃ t, u.lookup n = some t ∧ LinkFits L t) : ∃ t, u'.lookup n = some t ∧ LinkFits L t := by
  obtain ⟨t, h1, h2⟩ := h
  have := hr.shape n
  rw [h1] at this
  obtain ⟨rows, h3⟩ := this
  exact ⟨_, h3, h2.owner, h2.has⟩

theorem ready_setLinks (hR : LinksReady k u W) {n : String} {L L' : Links} (hL : W.links n = some L)
    (ho : L'.owner = L.owner) (ht : L'.target = L.target) {n' : String}
    (hr : Rewrites k.env u u' n') : LinksReady k u' (W.setLinks n L') := by
  have key : ∀ m M, (W.setLinks n L').links m = some M →
      ∃ M', W.links m = some M' ∧ M.owner = M'.owner ∧ M.target = M'.target := by
    intro m M h
    simp only [World.setLinks] at h
    split at h
    · next e => subst e; cases h; exact ⟨L, hL, ho, ht⟩
    · exact ⟨M, h, rfl, rfl⟩
  refine ⟨hR.plain, ?_, ?_, ?_⟩ <;> intro m M h <;> obtain ⟨M', h1, h2, h3⟩ := key m M h
  · rw [h2]; exact hR.owner m M' h1
  · rw [h3]; exact hR.target m M' h1
  · refine fits_of_rewrites hr ?_
    obtain ⟨t, g1, g2⟩ := hR.table m M' h1
    exact ⟨t, g1, by rw [h2]; exact g2.owner, by rw [h3]; exact g2.has⟩

theorem ready_setObjs (hR : LinksReady k u W) {n : String} {s : Stock} (hs : W.stock n = some s)
    {objs : Objects s.m} {n' : String} (hr : Rewrites k.env u u' n') : LinksReady k u' (W.setObjs n s objs) := by
  have key : ∀ m s', W.stock m = some s' → ∃ s'', (W.setObjs n s objs).stock m = some s'' ∧ s''.pk = s'.pk := by
    intro m s' h
    by_cases e : m = n
    · subst e
      rw [hs] at h
      cases h
      exact ⟨⟨s.m, s.pk, objs⟩, by simp [World.setObjs], rfl⟩
    · exact ⟨s', by simp [World.setObjs, e, h], rfl⟩
  refine ⟨hR.plain, ?_, ?_, ?_⟩ <;> intro m M h
  · obtain ⟨n1, s1, g1, g2⟩ := hR.owner m M h
    obtain ⟨s2, g3, g4⟩ := key n1 s1 g1
    exact ⟨n1, s2, g3, g4.trans g2⟩
  · obtain ⟨n1, s1, g1, g2⟩ := hR.target m M h
    obtain ⟨s2, g3, g4⟩ := key n1 s1 g1
    exact ⟨n1, s2, g3, g4.trans g2⟩
  · exact fits_of_rewrites hr (hR.table m M h)

theorem world_ready {u0 : SDb} {W0 : World} (h0 : Keeps k u0 W0) (hR : LinksReady k u0 W0)
    (hr : WorldRun k u0 W0 u W) : LinksReady k u W := by
  induction hr with
  | start => exact hR
  | @save u W n u' id s o o' hrun hs ho hn hroom hrow hsave hkey ih =>
    obtain ⟨h1, h2, h3⟩ := (Props.world_run_partial h0 hrun).stock n s hs
    exact ready_setObjs ih hs (save_rewrites h2.model h2.strict h2.sound hsave)
  | @delete u W n u' id s o hrun hs ho hd hkey ih =>
    obtain ⟨h1, h2, h3⟩ := (Props.world_run_partial h0 hrun).stock n s hs
    exact ready_setObjs ih hs (delete_rewrites h2.model h2.strict h2.sound ho hd)

theorem setLinks_same {n : String} {L : Links} (hL : W.links n = some L) : W.setLinks n L = W := by
  cases W
  simp only [World.setLinks, World.mk.injEq, true_and]
  funext m
  by_cases e : m = n
  · rw [if_pos e, e]; exact hL.symm
  · rw [if_neg e]

theorem setLinks_twice {n : String} {L L' : Links} : (W.setLinks n L).setLinks n L' = W.setLinks n L' := by
  simp only [World.setLinks, World.mk.injEq, true_and]
  funext m
  by_cases e : m = n <;> simp [e]

theorem setLinks_links {n : String} {L : Links} : (W.setLinks n L).links n = some L := by
  simp [World.setLinks]

theorem links_ext {L L' : Links} (h1 : L.owner = L'.owner) (h2 : L.target = L'.target)
    (h3 : ∀ x y, L.linked x y ↔ L'.linked x y) : L = L' := by
  cases L
  cases L'
  cases h1
  cases h2
  congr
  funext x y
  exact propext (h3 x y)

theorem add_nil (L : Links) (own : SqlVal) : L.add own [] = L :=
  links_ext rfl rfl fun x y => by simp [Links.add]

theorem add_add (L : Links) (own : SqlVal) (vs ws : List SqlVal) :
    (L.add own vs).add own ws = L.add own (vs ++ ws) :=
  links_ext rfl rfl fun x y => by
    simp only [Links.add, List.mem_append]
    constructor
    · rintro ((h | h) | h)
      · exact .inl h
      · exact .inr ⟨h.1, .inl h.2⟩
      · exact .inr ⟨h.1, .inr h.2⟩
    · rintro (h | ⟨h1, h | h⟩)
      · exact .inl (.inl h)
      · exact .inl (.inr ⟨h1, h⟩)
      · exact .inr ⟨h1, h⟩

theorem add_congr (L : Links) (own : SqlVal) {vs ws : List SqlVal} (h : ∀ v, v ∈ vs ↔ v ∈ ws) :
    L.add own vs = L.add own ws :=
  links_ext rfl rfl fun x y => by simp only [Links.add, h]

/-- The insertions of `save`. -/
theorem insertAll_keeps {n : String} {own : SqlVal} : ∀ {vs : List SqlVal} {u : SDb} {W : World} {L : Links},
    Keeps k u W → LinksReady k u W → W.links n = some L → KeyLike L.owner own → (∀ v ∈ vs, KeyLike L.target v) →
    ∀ {u' rest e}, TMany.insertAll k n own u vs = (u', rest, e) →
    ∃ done, Keeps k u' (W.setLinks n (L.add own done)) ∧ LinksReady k u' (W.setLinks n (L.add own done)) ∧
      match e with
      | none => done = vs ∧ rest = []
      | some _ => ∃ v, vs = done ++ v :: rest
  | [], u, W, L, hW, hR, hL, ho, hv, u', rest, e, h => by
    cases h
    refine ⟨[], ?_, ?_, rfl, rfl⟩ <;> rw [add_nil, setLinks_same hL]
    · exact hW
    · exact hR
  | v :: vs, u, W, L, hW, hR, hL, ho, hv, u', rest, e, h => by
    simp only [TMany.insertAll] at h
    split at h
    · cases h
      refine ⟨[], ?_, ?_, v, rfl⟩ <;> rw [add_nil, setLinks_same hL]
      · exact hW
      · exact hR
    · next db' hx =>
      obtain ⟨t, hT⟩ := linkTable_of hW hR hL
      obtain ⟨hr, hst⟩ := link_insert hT ho (hv v (List.mem_cons_self ..)) hx
      obtain ⟨done, h1, h2, h3⟩ := insertAll_keeps (L := L.add own [v]) (keeps_setLinks hW hL hr hst)
        (ready_setLinks (L' := L.add own [v]) hR hL rfl rfl hr) setLinks_links ho
        (fun w hw => hv w (List.mem_cons_of_mem _ hw)) h
      rw [setLinks_twice, add_add] at h1 h2
      refine ⟨v :: done, h1, h2, ?_⟩
      cases e with
      | none => exact ⟨by rw [h3.1], h3.2⟩
      | some _ =>
        obtain ⟨w, hw⟩ := h3
        exact ⟨w, by rw [hw]; rfl⟩

/-- `save`: items are removed from what every owner has. -/
theorem many_save_exact (hW : Keeps k u W) (hR : LinksReady k u W) {n : String} {L : Links}
    (hL : W.links n = some L) {own : SqlVal} {im : TModel} {m m' : TMany im} (hm : ManyKeys m n L own)
    (h : m.save k u = (u', m', none)) :
    Keeps k u' (W.setLinks n ((L.add own m.newValues).dropItems m.removedValues)) ∧
      LinksReady k u' (W.setLinks n ((L.add own m.newValues).dropItems m.removedValues)) := by
  unfold TMany.save at h
  rw [hm.owner, hm.table] at h
  simp only at h
  split at h
  · cases h
  · next db' rest hins =>
    obtain ⟨done, h1, h2, rfl, -⟩ := insertAll_keeps hW hR hL hm.ownerKey
      (fun v hv => hm.new v (List.mem_reverse.1 hv)) hins
    rw [add_congr L own (ws := m.newValues) fun v => List.mem_reverse] at h1 h2
    split at h
    · next he =>
      cases h
      have : (L.add own m.newValues).dropItems m.removedValues = L.add own m.newValues :=
        links_ext rfl rfl fun x y => by
          rw [List.isEmpty_iff.1 he]
          simp [Links.dropItems]
      rw [this]
      exact ⟨h1, h2⟩
    · split at h
      · cases h
      · next db'' hx =>
        cases h
        obtain ⟨t, hT⟩ := linkTable_of h1 h2 setLinks_links
        obtain ⟨hr, hst⟩ := link_remove hT hm.removed hx
        have k1 := keeps_setLinks h1 setLinks_links hr hst
        have k2 := ready_setLinks (L' := (L.add own m.newValues).dropItems m.removedValues) h2 setLinks_links rfl rfl hr
        rw [setLinks_twice] at k1 k2
        exact ⟨k1, k2⟩

/-- `save`, if removed items are not items of other owners. -/
theorem many_save_keeps (hW : Keeps k u W) (hR : LinksReady k u W) {n : String} {L : Links}
    (hL : W.links n = some L) {own : SqlVal} {im : TModel} {m m' : TMany im} (hm : ManyKeys m n L own)
    (hoth : ∀ x y, L.linked x y → y ∈ m.removedValues → x = own) (h : m.save k u = (u', m', none)) :
    Keeps k u' (W.setLinks n ((L.add own m.newValues).drop own m.removedValues)) ∧
      LinksReady k u' (W.setLinks n ((L.add own m.newValues).drop own m.removedValues)) := by
  have e : (L.add own m.newValues).dropItems m.removedValues =
      (L.add own m.newValues).drop own m.removedValues := by
    refine links_ext rfl rfl fun x y => ?_
    simp only [Links.drop, Links.dropItems]
    constructor
    · rintro ⟨g1, g2⟩
      exact ⟨g1, fun g => g2 g.2⟩
    · rintro ⟨g1, g2⟩
      refine ⟨g1, fun g => g2 ⟨?_, g⟩⟩
      rcases g1 with g1 | g1
      · exact hoth x y g1 g
      · exact g1.1
  rw [← e]
  exact many_save_exact hW hR hL hm h

/-- `save` that fails. -/
theorem many_failed_keeps (hW : Keeps k u W) (hR : LinksReady k u W) {n : String} {L : Links}
    (hL : W.links n = some L) {own : SqlVal} {im : TModel} {m m' : TMany im} (hm : ManyKeys m n L own) {e : OpErr}
    (h : m.save k u = (u', m', some e)) :
    Keeps k u' (W.setLinks n (L.add own (addedBy m m'))) ∧
      LinksReady k u' (W.setLinks n (L.add own (addedBy m m'))) := by
  unfold TMany.save at h
  rw [hm.owner, hm.table] at h
  simp only at h
  split at h
  · next db' rest e' hins =>
    cases h
    obtain ⟨done, h1, h2, v, hd⟩ := insertAll_keeps hW hR hL hm.ownerKey
      (fun v hv => hm.new v (List.mem_reverse.1 hv)) hins
    have hnew : m.newValues = (rest.reverse ++ [v]) ++ done.reverse := by
      have := congrArg List.reverse hd
      rw [List.reverse_reverse] at this
      rw [this]
      simp
    have hadd : ∀ (a : String) (o : Option SqlVal), addedBy m { m with
        itemTable := a, owner := o, newValues := rest.reverse } = done.reverse := by
      intro a o
      unfold addedBy
      rw [if_neg (Nat.lt_irrefl _)]
      simp only
      rw [hnew, List.drop_append_of_le_length (by simp), List.drop_of_length_le (by simp), List.nil_append]
    rw [hadd, add_congr L own (ws := done) fun v => List.mem_reverse]
    exact ⟨h1, h2⟩
  · next db' rest hins =>
    obtain ⟨done, h1, h2, rfl, -⟩ := insertAll_keeps hW hR hL hm.ownerKey
      (fun v hv => hm.new v (List.mem_reverse.1 hv)) hins
    rw [add_congr L own (ws := m.newValues) fun v => List.mem_reverse] at h1 h2
    split at h
    · cases h
    · next hne =>
      split at h
      · cases h
        have hadd : ∀ (a : String) (o : Option SqlVal), addedBy m { m with
            itemTable := a, owner := o, newValues := [], removedValues := [] } = m.newValues := by
          intro a o
          unfold addedBy
          rw [if_pos]
          cases hr : m.removedValues with
          | nil => rw [hr] at hne; exact absurd rfl hne
          | cons a l => simp
        rw [hadd]
        exact ⟨h1, h2⟩
      · cases h

/-- `delete`. -/
theorem many_delete_keeps (hW : Keeps k u W) (hR : LinksReady k u W) {n : String} {L : Links}
    (hL : W.links n = some L) {own : SqlVal} {im : TModel} {m m' : TMany im} (hm : ManyKeys m n L own)
    (h : m.delete k u = (u', m', none)) :
    Keeps k u' (W.setLinks n (L.clear own)) ∧ LinksReady k u' (W.setLinks n (L.clear own)) := by
  unfold TMany.delete at h
  rw [hm.owner, hm.table] at h
  simp only at h
  split at h
  · cases h
  · next db' hx =>
    cases h
    obtain ⟨t, hT⟩ := linkTable_of hW hR hL
    obtain ⟨hr, hst⟩ := link_clear hR.plain hT hm.ownerKey hx
    exact ⟨keeps_setLinks hW hL hr hst, ready_setLinks (L' := L.clear own) hR hL rfl rfl hr⟩

/-! ### Loading -/

/-- The query of `Many::query`. -/
theorem asks_many (hW : Keeps k u W) (hR : LinksReady k u W) {n : String} {s : Stock} {t : STable}
    (hT : Tabled k u s t) {L : Links} (hL : W.links n = some L) (hk : L.target = s.pk) {own : SqlVal}
    (ho : KeyLike L.owner own) {q : Query} (hq : q.table = s.m.table)
    (hf : q.filter = some (.subquery s.pk.name n "has" (.cmp .eq "owner" (.val own))))
    (hsort : ∀ c ∈ q.sort, c.column = s.pk.name) : Asks k u s t q fun id _ => L.linked own id := by
  obtain ⟨lt, hl⟩ := linkTable_of hW hR hL
  obtain ⟨kty, _, hkt, -⟩ := hT.ready.model.keyType
  have hpkf : HasField s.m s.pk.name kty := ⟨s.pk, hT.ready.model.pk_mem, rfl, hkt⟩
  have hs : ∀ c ∈ q.sort, ∃ ty, HasField s.m c.column ty := fun c hc => ⟨kty, by rw [hsort c hc]; exact hpkf⟩
  have h0 := queryOK_of (q := { q with filter := none }) (e := none) hW hT hq rfl (fun _ h => by cases h) hs
  have hvis : ∀ r, Visible (seenRow t.cols r) [] s.pk.name := fun r =>
    visible_of hT (nameable_key hT.ready.model) r (others := []) (fun _ h => by cases h)
  refine ⟨hq, ⟨h0.table, h0.exists_, h0.cols_ne, h0.cols, h0.sort, ?_⟩, ?_, ?_, hs⟩
  · intro e he
    rw [hf] at he
    cases he
    refine ⟨?_, by simp [NeedsNoParens, SimpleOperand], ?_, fun h => by cases h⟩
    · simp only [NamesOK, NamesExprOK]
      exact ⟨hT.ready.model.plain.1, hl.name, isName_has, hR.plain, trivial⟩
    · intro r hr
      rw [hq, seenDb_rows hT.lookup] at hr
      obtain ⟨r', -, rfl⟩ := List.mem_map.1 hr
      simp only [Scoped]
      refine ⟨hvis r', seenDb_has hl.lookup, ?_⟩
      intro x hx
      rw [seenDb_rows hl.lookup] at hx
      obtain ⟨x', -, rfl⟩ := List.mem_map.1 hx
      exact ⟨link_has hl x' (.inr rfl), link_visible hl x' (.inl rfl), trivial⟩
  · intro e he v hv
    rw [hf] at he
    cases he
    rw [valsBool] at hv
    rw [valsCmp_mem hv]
    obtain ⟨a, ha⟩ := hl.ownerKey.stored ho
    exact ⟨a, ha.stored⟩
  · intro r id o hr
    rw [hf]
    simp only [Option.mem_def, Option.some.injEq, forall_eq']
    obtain ⟨a, hkv, hra, -⟩ := hr.key
    rw [show (BoolExpr.subquery s.pk.name n "has" (.cmp .eq "owner" (.val own))) =
      subfilter s.pk.name ⟨n, "has"⟩ (.cmp .eq "owner" (.val own)) from rfl, subfilter_holds]
    simp only [cmp_holds]
    rw [seenDb_rows hl.lookup, seenRow_val hra]
    constructor
    · rintro ⟨x, hx, h1, h2⟩
      obtain ⟨x', hx', rfl⟩ := List.mem_map.1 hx
      obtain ⟨y, z, b, c, g1, g2, g3, g4, g5⟩ := hl.rows x' hx'
      rw [seenRow_val g4] at h1
      rw [seenRow_val g5] at h2
      rw [← (cmp_key hl.ownerKey g2 ho).1 h1]
      rw [hk] at g3
      rw [(keys_equal hT.ready hkv g3).1 h2]
      exact g1
    · intro hlink
      obtain ⟨x, hx, b, c, g2, g3, g4, g5⟩ := hl.pairs own id hlink
      refine ⟨_, List.mem_map_of_mem hx, ?_, ?_⟩
      · rw [seenRow_val g4]
        exact (cmp_key hl.ownerKey g2 ho).2 rfl
      · rw [seenRow_val g5]
        rw [hk] at g3
        exact (keys_equal hT.ready hkv g3).2 rfl

/-- The query for objects by their keys. -/
theorem asks_keys (hW : Keeps k u W) {n : String} {s : Stock} {t : STable} (hs : W.stock n = some s)
    (hT : Tabled k u s t) {vs : List SqlVal} (hv : ∀ v ∈ vs, KeyLike s.pk v) {q : Query}
    (hq : q.table = s.m.table) (hf : q.filter = some (.inVals s.pk.name vs)) (hsort : q.sort = []) :
    Asks k u s t q fun id _ => id ∈ vs := by
  have h0 := queryOK_of (q := q) (e := some (.one (.one (.isIn s.pk.name vs)))) hW hT hq hf
    (fun f h => by
      cases h
      simp only [FilterFits, AndFits, AtomFits]
      exact ⟨nameable_key hT.ready.model, fun v h => keyLike_canBind hW hs (hv v h)⟩)
    (by rw [hsort]; intro c hc; cases hc)
  refine ⟨hq, h0, ?_, ?_, by rw [hsort]; intro c hc; cases hc⟩
  · intro e he v hm
    rw [hf] at he
    cases he
    simp only [valsBool] at hm
    exact keyLike_canBind hW hs (hv v (valsVals_mem hm))
  · intro r id o hr
    rw [hf]
    simp only [Option.mem_def, Option.some.injEq, forall_eq']
    obtain ⟨a, hkv, hra, -⟩ := hr.key
    simp only [boolValue]
    rw [in3_true, seenRow_val hra]
    have hko : KeyOf k u s.pk := ⟨s, hT.ready, rfl⟩
    constructor
    · rintro ⟨w, hw, he⟩
      obtain ⟨v, hv', rfl⟩ := List.mem_map.1 hw
      rwa [(equal_key hko hkv (hv v hv')).1 he]
    · intro hy
      exact ⟨toDb id, List.mem_map_of_mem hy, (equal_key hko hkv (hv id hy)).2 rfl⟩

end Butane
