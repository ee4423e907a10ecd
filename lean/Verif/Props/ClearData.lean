/-
C86: deleting the data of a database with the tool.
-/
import Verif.Proofs.ClearData
import Verif.Props.SqliteMigrate

namespace Butane.Props
open Butane Butane.Spec Butane.Ddl Butane.DdlP

variable {json : Bool} {p : LitPrinters} {k : SqliteConn} {fails : String → Bool} {c : MigConn SDb}

theorem names_keys {d : ADB} (hv : ValidSchema d) : d.tables.map (·.2.name) = d.tables.map (·.1) :=
  List.map_congr_left fun e he => (hv.keyed e he).symm

/-- The tables of the schema, in their order. -/
structure TableNames (env : SqliteEnv) (names : List String) (u : SDb) : Prop where
  sorted : u.Sorted
  order : names.Pairwise fun a b => compare a b = .lt
  named : ∀ n ∈ names, IsName n ∧ ∃ t, u.lookup n = some t
  all : ∀ n t, u.lookup n = some t → n ∈ names
  sound : SoundDb env u

theorem tableNames_of {d e : ADB} (hd : ValidSchema d) (he : SqliteSchema e) (hsame : SameSchema d e) {u : SDb}
    (hu : HasSchema k.env e u) : TableNames k.env (d.tables.map (·.2.name)) u := by
  have hu' := hasSchema_same he.valid hd (sameSchema_symm hd he.valid hsame) hu
  refine ⟨hu.proper.sorted, ?_, ?_, ?_, sound_of_schema hu⟩
  · rw [names_keys hd]
    exact (SMap.sorted_iff_keys _).1 hd.sorted
  · intro n hn
    rw [names_keys hd] at hn
    obtain ⟨⟨n, t⟩, hm, rfl⟩ := List.mem_map.1 hn
    have hl : d.getTable n = some t := SMap.lookup_of_mem hd.sorted hm
    constructor
    · have := hsame n
      rw [hl] at this
      cases hg : e.getTable n with
      | none => rw [hg] at this; exact this.elim
      | some t' =>
        have hname := (he.plain n t' hg).name
        rw [← he.valid.keyed _ (SMap.mem_of_lookup hg)] at hname
        exact hname
    · have := hu'.tables n
      rw [hl] at this
      cases hg : u.lookup n with
      | none => rw [hg] at this; exact this.elim
      | some t' => exact ⟨t', rfl⟩
  · intro n t hl
    rw [names_keys hd]
    have := hu'.tables n
    rw [hl] at this
    cases hg : d.getTable n with
    | none => rw [hg] at this; exact this.elim
    | some t' => exact List.mem_map.2 ⟨_, SMap.mem_of_lookup hg, rfl⟩

/-- What `clear_data` does, at any time in the life of a database. -/
theorem clear_cases {s : FsMigrations} {db db' : MigDb SDb} {made : List (String × ADB)} {j : Nat}
    (hi : LifeInv json k.env k.kw p s db made j) {shown : List String} {r : Except Cli.CliErr Unit}
    (h : Cli.clearData json k fails s c db = (shown, r, db')) :
    db'.log = db.log ∧ ((shown = [] ∧ db' = db ∧ ∃ e, r = .error e) ∧
        (made.take j = [] ∨ ∃ n, c.outcome n ≠ .ok) ∨
      ∃ names, TableNames k.env names db.user ∧ Cli.clearLoop k fails names db.user = (shown, r, db'.user)) := by
  have hlen : (made.map (·.1)).length < Cli.rounds s := by rw [List.length_map]; exact hi.fs.lt_rounds
  have hla : (s.toMigs "sqlite").lastApplied (Cli.rounds s) c db = .ok ((made.take j).map (·.1)).getLast? ∨
      (s.toMigs "sqlite").lastApplied (Cli.rounds s) c db = .error .db ∧ ∃ n, c.outcome n ≠ .ok := by
    refine lastApplied_ok (hi.fs.path "sqlite").1 (pre := (made.take j).map (·.1)) (todo := (made.drop j).map (·.1)) ?_ ?_ ?_ hlen c
    · rw [← List.map_append, List.take_append_drop]
    · intro n hn
      obtain ⟨e, he, rfl⟩ := List.mem_map.1 hn
      exact hi.others e he
    · rcases List.eq_nil_or_concat (made.take j) with h0 | ⟨a, e, h0⟩
      · exact .inl (by rw [h0]; rfl)
      · rw [List.concat_eq_append] at h0
        refine .inr ⟨e.1, a.map (·.1), by rw [h0, List.map_append]; rfl, ?_⟩
        exact hi.recorded e (by rw [h0]; simp)
  unfold Cli.clearData at h
  rcases hla with hla | ⟨hla, hn⟩
  · rw [hla] at h
    rcases List.eq_nil_or_concat (made.take j) with h0 | ⟨a, e, h0⟩
    · rw [h0] at h
      cases h
      exact ⟨rfl, .inl ⟨⟨rfl, rfl, _, rfl⟩, .inl h0⟩⟩
    · rw [List.concat_eq_append] at h0
      rw [h0, List.map_append, List.map_cons, List.map_nil, List.getLast?_concat] at h
      have hmade : made = a ++ e :: made.drop j := by
        conv => lhs; rw [← List.take_append_drop j made, h0]
        simp
      obtain ⟨d, hd, hsame⟩ := hi.fs.dirs a e (made.drop j) hmade
      simp only [dirOk_getDb hd] at h
      cases h
      refine ⟨rfl, .inr ⟨_, ?_, rfl⟩⟩
      have hu := hi.user
      have hbe : before (made.take j) = e.2 := by
        rw [h0]
        unfold before
        rw [List.getLast?_concat]
      rw [hbe] at hu
      exact tableNames_of hd.settled.valid (hi.schemas e (by rw [hmade]; simp)) hsame hu
  · rw [hla] at h
    cases h
    exact ⟨rfl, .inl ⟨⟨rfl, rfl, _, rfl⟩, .inr hn⟩⟩

/-- C86: the tables that were announced are empty, except for the one where it failed, and nothing else is
changed.  If it succeeds all tables are empty. -/
theorem clear_data (hk : CoversDdl k.kw k.reserved) (hf : TypesFree k.reserved) (laws : StrictLaws k.env)
    (hcov : CoversReserved k.kw k.reserved) {s : FsMigrations} {db db' : MigDb SDb}
    (h : SqliteLife json k.env k.kw k.reserved p s db) {shown : List String} {r : Except Cli.CliErr Unit}
    (hc : Cli.clearData json k fails s c db = (shown, r, db')) :
    db'.log = db.log ∧ RowsDeleted (cleared shown r) db.user db'.user ∧
      (r = .ok () → ∀ n t, db'.user.lookup n = some t → t.rows = []) := by
  obtain ⟨made, j, hi⟩ := life_inv hk hf laws k.codecs h
  obtain ⟨hlog, h1⟩ := clear_cases hi hc
  refine ⟨hlog, ?_⟩
  rcases h1 with ⟨⟨rfl, rfl, e, rfl⟩, -⟩ | ⟨names, hn, hl⟩
  · exact ⟨fun n => by simp [cleared], fun h => by cases h⟩
  · obtain ⟨q1, q2, -⟩ := clearLoop_deleted hcov hn.named hl
    refine ⟨q1, ?_⟩
    rintro rfl n t ht
    obtain rfl := q2 rfl
    have := q1 n
    rw [ht] at this
    simp only [cleared] at this
    by_cases hx : n ∈ shown
    · simp only [hx, if_true] at this
      cases hl0 : db.user.lookup n with
      | none => rw [hl0] at this; cases this
      | some t0 => rw [hl0] at this; cases this; rfl
    · simp only [hx, if_false] at this
      exact absurd (hn.all n t this.symm) hx

/-- C86: it is the same as before for the migrations, and the schema. -/
theorem clear_data_life (hk : CoversDdl k.kw k.reserved) (hf : TypesFree k.reserved) (laws : StrictLaws k.env)
    (hcov : CoversReserved k.kw k.reserved) {s : FsMigrations} {db db' : MigDb SDb}
    (h : SqliteLife json k.env k.kw k.reserved p s db) {shown : List String} {r : Except Cli.CliErr Unit}
    (hc : Cli.clearData json k fails s c db = (shown, r, db')) :
    SqliteLife json k.env k.kw k.reserved p s db' := by
  obtain ⟨made, j, hi⟩ := life_inv hk hf laws k.codecs h
  obtain ⟨hlog, h1⟩ := clear_cases hi hc
  rcases h1 with ⟨⟨rfl, rfl, e, rfl⟩, -⟩ | ⟨names, hn, hl⟩
  · exact h
  · obtain ⟨u', log'⟩ := db'
    cases hlog
    exact h.write fun adb ha => clearLoop_schema hcov hn.named hl ha

theorem order_of {names : List String} (ho : names.Pairwise fun a b => compare a b = .lt) {a b : String} (ha : a ∈ names)
    (hb : b ∈ names) : a = b ∨ compare a b = .lt ∨ compare b a = .lt := by
  cases h : compare a b with
  | eq => exact .inl (SMap.cmp_eq_iff.1 h)
  | lt => exact .inr (.inl rfl)
  | gt => exact .inr (.inr (SMap.cmp_lt_of_gt h))

theorem clear_names_ok (hcov : CoversReserved k.kw k.reserved) {names : List String} {u : SDb}
    (hn : TableNames k.env names u) :
    (∃ shown u', Cli.clearLoop k (fun _ => false) names u = (shown, .ok (), u')) ↔
      ∀ a b, compare a b = .lt → ¬ RowRefers u b a := by
  have hnd : names.Nodup := hn.order.imp fun h => SMap.ne_of_lt h
  rw [clearLoop_ok hcov hn.sorted hn.named hnd]
  constructor
  · intro h a b hab href
    have ha : a ∈ names := by
      obtain ⟨t, q, h1, h2, -⟩ := href
      exact hn.all a q h2
    obtain ⟨pre, post, hp⟩ := List.append_of_mem ha
    refine h pre a post hp b ?_ (SMap.ne_of_lt hab).symm href
    intro hb
    have := hn.order
    rw [hp, List.pairwise_append] at this
    have hba := this.2.2 b hb a (List.mem_cons_self ..)
    exact SMap.ne_of_lt (SMap.lt_trans' hab hba) rfl
  · intro h pre a post hp b hb hba href
    have hbn : b ∈ names := by
      obtain ⟨t, q, h1, h2, -⟩ := href
      exact hn.all b t h1
    refine h a b ?_ href
    rw [hp] at hbn
    have ho := hn.order
    rw [hp, List.pairwise_append, List.pairwise_cons] at ho
    rcases List.mem_append.1 hbn with hx | hx
    · exact absurd hx hb
    · rcases List.mem_cons.1 hx with hx | hx
      · exact absurd hx hba
      · exact ho.2.1.1 b hx

/-- C86 (partial): when nothing else fails, it succeeds if, and only if, no row refers to one of a table
whose name comes earlier.  Missing: that it always succeeds, which is not the case (see
`clear_data_stuck_violated`). -/
theorem clear_data_succeeds_partial (hk : CoversDdl k.kw k.reserved) (hf : TypesFree k.reserved) (laws : StrictLaws k.env)
    (hcov : CoversReserved k.kw k.reserved) {s : FsMigrations} {db : MigDb SDb}
    (h : SqliteLife json k.env k.kw k.reserved p s db) {made : List (String × ADB)} (hm : HasMigrations json s made)
    (hv : ∀ e ∈ made, ValidSchema e.2) {e : String × ADB} (he : e ∈ made) (hrec : Spec.Recorded db e.1)
    (hok : ∀ n, c.outcome n = .ok) :
    (∃ shown db', Cli.clearData json k (fun _ => false) s c db = (shown, .ok (), db')) ↔
      ∀ a b, compare a b = .lt → ¬ RowRefers db.user b a := by
  obtain ⟨_, j, hi⟩ := life_inv hk hf laws k.codecs h
  have hi := hi.change hm hv
  obtain ⟨shown, r, db', hc⟩ : ∃ shown r db', Cli.clearData json k (fun _ => false) s c db = (shown, r, db') :=
    ⟨_, _, _, rfl⟩
  obtain ⟨-, ⟨-, h1 | ⟨n, hn⟩⟩ | ⟨names, hn, hl⟩⟩ := clear_cases hi hc
  · exfalso
    have hd : made.drop j = made := by
      have := List.take_append_drop j made
      rw [h1] at this
      exact this
    exact hi.others e (by rw [hd]; exact he) hrec
  · exact absurd (hok n) hn
  · rw [← clear_names_ok hcov hn, hl, hc]
    constructor
    · rintro ⟨_, _, h⟩
      cases h
      exact ⟨_, _, rfl⟩
    · rintro ⟨_, _, h⟩
      simp only [Prod.mk.injEq] at h
      exact ⟨_, _, by rw [h.2.1]⟩

/-- C86 fails: a row that refers to one of a table whose name comes earlier makes it fail, and is still there
afterwards.  So it fails every time. -/
theorem clear_data_stuck_violated (hk : CoversDdl k.kw k.reserved) (hf : TypesFree k.reserved) (laws : StrictLaws k.env)
    (hcov : CoversReserved k.kw k.reserved) {s : FsMigrations} {db db' : MigDb SDb}
    (h : SqliteLife json k.env k.kw k.reserved p s db) {a b : String} (hab : compare a b = .lt)
    (href : RowRefers db.user b a) {shown : List String} {r : Except Cli.CliErr Unit}
    (hc : Cli.clearData json k fails s c db = (shown, r, db')) : r ≠ .ok () ∧ RowRefers db'.user b a := by
  obtain ⟨made, j, hi⟩ := life_inv hk hf laws k.codecs h
  obtain ⟨hlog, ⟨⟨rfl, rfl, e, rfl⟩, -⟩ | ⟨names, hn, hl⟩⟩ := clear_cases hi hc
  · exact ⟨(fun h => by cases h), href⟩
  · have ha : a ∈ names := by
      obtain ⟨t, q, h1, h2, -⟩ := href
      exact hn.all a q h2
    obtain ⟨pre, post, rfl⟩ := List.append_of_mem ha
    have ho := (List.pairwise_append.1 hn.order).2.2
    refine clearLoop_stuck hcov hn.sorted hn.named ?_ ?_ (SMap.ne_of_lt hab).symm hl href
    · exact fun hx => SMap.ne_of_lt (ho a hx a (List.mem_cons_self ..)) rfl
    · exact fun hx => SMap.ne_of_lt (SMap.lt_trans' hab (ho b hx a (List.mem_cons_self ..))) rfl

end Butane.Props
