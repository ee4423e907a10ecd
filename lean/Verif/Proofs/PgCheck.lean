import Verif.Proofs.PgRun
import Verif.Proofs.DdlCheck
/-
Decision procedures for the hypotheses about schemas on PostgreSQL, for concrete examples.
-/
namespace Butane.PgP
open Butane Butane.Spec Butane.DdlP Butane.PgCat
open Butane.Ddl hiding exec execAll execScript

/-! ### Schemas -/

def pgNameB (kw : String → Bool) (s : String) : Bool := isNameB s && (!kw s || decide (lower s = s))

theorem pgName_of {kw : String → Bool} {s : String} (h : pgNameB kw s = true) : PgName kw s := by
  simp only [pgNameB, Bool.and_eq_true, Bool.or_eq_true, Bool.not_eq_true', decide_eq_true_eq] at h
  refine ⟨isName_of h.1, fun hk => ?_⟩
  rcases h.2 with h2 | h2
  · rw [hk] at h2
    cases h2
  · exact h2

def pgColumnB (kw : String → Bool) (c : AColumn) : Bool :=
  pgNameB kw c.name &&
  (match c.typeid with
    | some (.ty ty) => (pgTypeOf ty).isSome
    | _ => false) &&
  (!c.auto || ((decide (c.typeid = some (.ty .int)) || decide (c.typeid = some (.ty .bigInt))) &&
    c.default.isNone && !c.nullable)) &&
  (!c.pk || !c.nullable) &&
  (match c.reference with
    | none => true
    | some (.literal t k) => pgNameB kw t && pgNameB kw k
    | some (.deferred _) => false)

theorem pgColumn_of {kw : String → Bool} {c : AColumn} (h : pgColumnB kw c = true) :
    PgColumn kw c := by
  simp only [pgColumnB, Bool.and_eq_true] at h
  obtain ⟨⟨⟨⟨h1, h2⟩, h3⟩, h4⟩, h5⟩ := h
  refine ⟨pgName_of h1, ?_, ?_, ?_, ?_⟩
  · split at h2
    · next ty e =>
      obtain ⟨st, hst⟩ := Option.isSome_iff_exists.1 h2
      exact ⟨ty, st, e, hst⟩
    · cases h2
  · intro h
    simpa [h, and_assoc] using h3
  · intro h
    simpa [h] using h4
  · intro r hr
    rw [hr] at h5
    cases r with
    | deferred k => cases h5
    | literal t k =>
      simp only [Bool.and_eq_true] at h5
      exact ⟨t, k, rfl, pgName_of h5.1, pgName_of h5.2⟩

def pgSchemaB (kw : String → Bool) (adb : ADB) : Bool :=
  adb.tables.all fun e => pgNameB kw e.2.name && e.2.columns.all (pgColumnB kw)

theorem pgSchema_of {kw : String → Bool} {adb : ADB} (h : pgSchemaB kw adb = true) :
    PgSchema kw adb := by
  intro n t hn
  have hm := SMap.mem_of_lookup hn
  simp only [pgSchemaB, List.all_eq_true, Bool.and_eq_true] at h
  have := h _ hm
  exact ⟨pgName_of this.1, fun c hc => pgColumn_of (this.2 c hc)⟩

/-! ### Databases -/

/-- The column PostgreSQL has for a column of a schema. -/
def pgColOf (c : AColumn) : PCol :=
  ⟨lower c.name, match c.typeid with
    | some (.ty ty) => (pgTypeOf ty).getD []
    | _ => [], !c.nullable, c.auto⟩

/-- The constraints PostgreSQL has for a column. -/
def pgKindsOf (c : AColumn) : List PKind :=
  (if c.pk then [.pk (lower c.name)] else []) ++ (if c.unique then [.unique (lower c.name)] else []) ++
  (match c.reference with
    | some (.literal t k) => [.fk (lower c.name) (lower t) (lower k)]
    | _ => [])

def pgTableOf (n : String) (t : ATable) : PTable :=
  ⟨t.columns.map pgColOf, (t.columns.flatMap pgKindsOf).map fun k => ⟨stdName (lower n) k, k⟩⟩

/-- The database that has the schema. -/
def pgDbOf (adb : ADB) : PDb := adb.tables.map fun e => (lower e.1, pgTableOf e.1 e.2)

theorem kindsOf_mem {t : ATable} {k : PKind} :
    k ∈ t.columns.flatMap pgKindsOf ↔ PgConstraint t k := by
  simp only [List.mem_flatMap, pgKindsOf, List.mem_append]
  constructor
  · rintro ⟨x, hx, (h | h) | h⟩
    · split at h
      · next e => obtain rfl := List.mem_singleton.1 h; exact ⟨x, hx, e, rfl⟩
      · cases h
    · split at h
      · next e => obtain rfl := List.mem_singleton.1 h; exact ⟨x, hx, e, rfl⟩
      · cases h
    · split at h
      · next r k' e => obtain rfl := List.mem_singleton.1 h; exact ⟨x, hx, rfl, r, k', e, rfl, rfl⟩
      · cases h
  · cases k with
    | pk c => rintro ⟨x, hx, e, rfl⟩; exact ⟨x, hx, .inl (.inl (by simp [e]))⟩
    | unique c => rintro ⟨x, hx, e, rfl⟩; exact ⟨x, hx, .inl (.inr (by simp [e]))⟩
    | fk c r k' =>
      rintro ⟨x, hx, rfl, r', k'', e, rfl, rfl⟩
      exact ⟨x, hx, .inr (by simp [e])⟩

def pgProperB (adb : ADB) : Bool :=
  decide ((pgDbOf adb).Pairwise fun a b => compare a.1 b.1 = .lt) &&
  (pgDbOf adb).all fun e =>
    decide ((e.2.cols.map (·.name)).Nodup) && decide ((e.2.cons.map (·.name)).Nodup)

theorem pgDb_proper {adb : ADB} (h : pgProperB adb = true) : PgProper (pgDbOf adb) := by
  simp only [pgProperB, Bool.and_eq_true, decide_eq_true_eq, List.all_eq_true] at h
  refine ⟨h.1, fun n s hs => (h.2 _ (SMap.mem_of_lookup hs)).1, fun n s hs => ?_,
    fun n s hs => (h.2 _ (SMap.mem_of_lookup hs)).2⟩
  have := SMap.mem_of_lookup hs
  obtain ⟨e, he, h2⟩ := List.mem_map.1 this
  cases h2
  intro x hx
  obtain ⟨k, hk, rfl⟩ := List.mem_map.1 hx
  rfl

theorem pgDb_implements {kw : String → Bool} {adb : ADB} (hp : PgSchema kw adb)
    (hv : ValidSchema adb) (h : pgProperB adb = true) : PgImplements adb (pgDbOf adb) := by
  have hpp := pgDb_proper h
  constructor
  · intro n t hn
    have hm := SMap.mem_of_lookup hn
    refine ⟨pgTableOf n t, SMap.lookup_of_mem hpp.sorted (List.mem_map.2 ⟨_, hm, rfl⟩), ?_, ?_, ?_⟩
    · intro c hc
      refine ⟨_, List.mem_map.2 ⟨c, hc, rfl⟩, rfl, ?_, rfl, rfl⟩
      obtain ⟨ty, w, h1, h2⟩ := ((hp n t hn).columns c hc).type
      exact ⟨ty, h1, by simp [pgColOf, h1, h2]⟩
    · intro d hd
      obtain ⟨c, hc, rfl⟩ := List.mem_map.1 hd
      exact ⟨c, hc, rfl⟩
    · intro k
      rw [← kindsOf_mem]
      constructor
      · rintro ⟨x, hx, rfl⟩
        obtain ⟨k, hk, rfl⟩ := List.mem_map.1 hx
        exact hk
      · intro hk
        exact ⟨_, List.mem_map.2 ⟨k, hk, rfl⟩, rfl⟩
  · intro m s hs
    obtain ⟨e, he, h2⟩ := List.mem_map.1 (SMap.mem_of_lookup hs)
    cases h2
    exact ⟨e.1, e.2, SMap.lookup_of_mem hv.sorted he, rfl⟩

/-! ### Names -/

def tableNames (old new : ADB) : List String := (old.tables ++ new.tables).map (·.1)

def columnNames (old new : ADB) : List (String × String) :=
  (old.tables ++ new.tables).flatMap fun e => e.2.columns.map fun c => (e.1, c.name)

theorem hasTable_mem {old new : ADB} {n : String} (h : HasTable old new n) :
    n ∈ tableNames old new := by
  obtain ⟨t, h | h⟩ := h
  · exact List.mem_map.2 ⟨_, List.mem_append_left _ (SMap.mem_of_lookup h), rfl⟩
  · exact List.mem_map.2 ⟨_, List.mem_append_right _ (SMap.mem_of_lookup h), rfl⟩

theorem hasColumn_mem {old new : ADB} {n c : String} (h : HasColumn old new n c) :
    (n, c) ∈ columnNames old new := by
  obtain ⟨t, h, x, hx, rfl⟩ := h
  refine List.mem_flatMap.2 ⟨(n, t), ?_, List.mem_map.2 ⟨x, hx, rfl⟩⟩
  rcases h with h | h
  · exact List.mem_append_left _ (SMap.mem_of_lookup h)
  · exact List.mem_append_right _ (SMap.mem_of_lookup h)

/-- The names the constraints on a column can have. -/
def stdNames (n c : String) : List String :=
  [stdName (lower n) (.pk (lower c)), stdName (lower n) (.unique (lower c)),
    stdName (lower n) (.fk (lower c) "" "")]

theorem stdNames_mem {n c : String} {k : PKind} (h : k.col = lower c) :
    stdName (lower n) k ∈ stdNames n c := by
  cases k with
  | pk d => cases h; exact .head _
  | unique d => cases h; exact .tail _ (.head _)
  | fk d r k => cases h; exact .tail _ (.tail _ (.head _))

def namesApartB (old new : ADB) : Bool :=
  let ts := tableNames old new
  let cs := columnNames old new
  (ts.all fun n => ts.all fun m => decide (lower n = lower m → n = m)) &&
  (cs.all fun a => cs.all fun b => decide (a.1 = b.1 → lower a.2 = lower b.2 → a.2 = b.2)) &&
  (cs.all fun a => cs.all fun b =>
    decide (lower a.1 ++ "_" ++ lower a.2 = lower b.1 ++ "_" ++ lower b.2 → a = b)) &&
  (cs.all fun a => (stdNames a.1 a.2).all fun s =>
    decide (s.utf8ByteSize ≤ 63) && ts.all fun m => decide (s ≠ lower m))

theorem namesApart_of {old new : ADB} (h : namesApartB old new = true) : NamesApart old new := by
  simp only [namesApartB, Bool.and_eq_true, List.all_eq_true, decide_eq_true_eq] at h
  obtain ⟨⟨⟨h1, h2⟩, h3⟩, h4⟩ := h
  refine ⟨fun n m hn hm => h1 _ (hasTable_mem hn) _ (hasTable_mem hm),
    fun n c d hc hd => h2 _ (hasColumn_mem hc) _ (hasColumn_mem hd) rfl,
    fun n c m d hc hd e => ?_, fun m n c k hm hc hk => ?_, fun n c k hc hk => ?_⟩
  · have := h3 _ (hasColumn_mem hc) _ (hasColumn_mem hd) e
    cases this
    exact ⟨rfl, rfl⟩
  · exact (h4 _ (hasColumn_mem hc) _ (stdNames_mem hk)).2 _ (hasTable_mem hm)
  · exact (h4 _ (hasColumn_mem hc) _ (stdNames_mem hk)).1

/-! ### Changes -/

/-- A value that is written as one literal, other than a real. -/
def pgLiteralB (p : LitPrinters) : SqlVal → Bool
  | .null => true
  | .bool _ => true
  | .int _ => true
  | .bigInt _ => true
  | .text s => !s.toList.contains '\''
  | .blob _ => true
  | .timestamp t => !(p.timestampT t).contains '\''
  | _ => false

theorem pgLiteral_of {p : LitPrinters} {v : SqlVal} (h : pgLiteralB p v = true) :
    PgLiteral p v := by
  cases v <;> simp_all [pgLiteralB, PgLiteral]

/-- The value of a new column is such a literal. -/
def newValueB (p : LitPrinters) (c : AColumn) : Bool :=
  match c.default with
  | some v => pgLiteralB p v
  | none => c.nullable ||
    match c.typeid with
    | some (.ty .timestamp) => !(p.timestampT 0).contains '\''
    | some (.ty ty) => decide (ty ≠ .real ∧ ty ≠ .json ∧ ty ≠ .date)
    | _ => false

theorem newValue_of {p : LitPrinters} {c : AColumn} (h : newValueB p c = true) {v : SqlVal}
    (hv : NewValue c v) : PgLiteral p v := by
  unfold newValueB at h
  cases hv
  case default hd => rw [hd] at h; exact pgLiteral_of h
  all_goals simp_all [PgLiteral]

def pgWritableB (p : LitPrinters) (old new : ADB) : Bool :=
  (new.tables.all fun e => (old.getTable e.1).isSome || !e.2.columns.isEmpty) &&
  (old.tables.all fun e => (new.getTable e.1).isSome || e.2.columns.all fun c =>
    match c.default with
    | some (.real r) => !r.isNaN
    | _ => true) &&
  (new.tables.all fun e =>
    match old.getTable e.1 with
    | none => true
    | some s => e.2.columns.all fun y =>
      match s.column y.name with
      | none => newValueB p y
      | some _ =>
        match y.default with
        | none => true
        | some v => pgLiteralB p v)

theorem pgWritable_of {p : LitPrinters} {old new : ADB} (h : pgWritableB p old new = true) :
    PgWritable p old new := by
  simp only [pgWritableB, Bool.and_eq_true, List.all_eq_true] at h
  obtain ⟨⟨h1, h2⟩, h3⟩ := h
  refine ⟨fun n t ho hn => ?_, fun n t ho hn c hc r hr => ?_, fun n s t c y ho hn hs hy v hv => ?_,
    fun n s t c x y ho hn hs hy v hv => ?_⟩
  · have := h1 _ (SMap.mem_of_lookup hn)
    simpa [ho] using this
  · have := h2 _ (SMap.mem_of_lookup ho)
    simp only [hn, Option.isSome_none, Bool.false_or, List.all_eq_true] at this
    simpa [hr] using this c hc
  · have := h3 _ (SMap.mem_of_lookup hn)
    obtain ⟨hm, rfl⟩ := colByName_some hy
    simp only [ho, List.all_eq_true] at this
    have := this y hm
    rw [hs] at this
    exact newValue_of this hv
  · have := h3 _ (SMap.mem_of_lookup hn)
    obtain ⟨hm, rfl⟩ := colByName_some hy
    simp only [ho, List.all_eq_true] at this
    have := this y hm
    rw [hs, hv] at this
    exact .inl (pgLiteral_of this)

def oneKeyB (t : ATable) : Bool :=
  t.columns.all fun c => t.columns.all fun d => decide (c.pk = true → d.pk = true → c.name = d.name)

theorem oneKey_of {t : ATable} (h : oneKeyB t = true) : OneKey t := by
  simp only [oneKeyB, List.all_eq_true, decide_eq_true_eq] at h
  exact fun c hc d hd => h c hc d hd

def keepsKeysB (old new : ADB) : Bool :=
  (old.tables.all fun e => oneKeyB e.2) && (new.tables.all fun e => oneKeyB e.2) &&
  (new.tables.all fun e =>
    match old.getTable e.1 with
    | none => true
    | some s => e.2.columns.all fun y =>
      match s.column y.name with
      | none => true
      | some x => (!x.pk || e.2.columns.any (·.pk)) && decide (x.auto = y.auto))

theorem keepsKeys_of {old new : ADB} (h : keepsKeysB old new = true) : KeepsKeys old new := by
  simp only [keepsKeysB, Bool.and_eq_true, List.all_eq_true] at h
  obtain ⟨⟨h1, h2⟩, h3⟩ := h
  have key : ∀ n s t c x y, old.getTable n = some s → new.getTable n = some t →
      s.column c = some x → t.column c = some y →
      ((!x.pk || t.columns.any (·.pk)) && decide (x.auto = y.auto)) = true := by
    intro n s t c x y ho hn hs hy
    have := h3 _ (SMap.mem_of_lookup hn)
    obtain ⟨hm, rfl⟩ := colByName_some hy
    simp only [ho, List.all_eq_true] at this
    have := this y hm
    rw [hs] at this
    exact this
  refine ⟨fun n t ht => oneKey_of (h1 _ (SMap.mem_of_lookup ht)),
    fun n t ht => oneKey_of (h2 _ (SMap.mem_of_lookup ht)), fun n s t c x y ho hn hs hy hx => ?_,
    fun n s t c x y ho hn hs hy => ?_⟩
  · have := key n s t c x y ho hn hs hy
    simpa [hx] using (Bool.and_eq_true_iff.1 this).1
  · have := key n s t c x y ho hn hs hy
    simpa using (Bool.and_eq_true_iff.1 this).2

/-! ### Changes that run -/

/-- The value is a possible default of the column. -/
def pgFitsB (env : PgEnv) (res : String → Bool) (p : LitPrinters) (c : AColumn) (v : SqlVal) : Bool :=
  match sqlLiteral p v, c.typeid with
  | .ok text, some (.ty ty) =>
    match readLiteral res (foldCase none text), pgTypeOf ty with
    | some l, some w => env.fits w l
    | _, _ => true
  | _, _ => true

theorem pgFits_of {env : PgEnv} {res : String → Bool} {p : LitPrinters} {c : AColumn} {v : SqlVal}
    (h : pgFitsB env res p c v = true) : PgFits env res p c v := by
  intro text l ty w h1 h2 h3 h4
  simpa only [pgFitsB, h1, h2, h3, h4] using h

/-- The types can be cast. -/
def castB (env : PgEnv) (x y : AColumn) : Bool :=
  match x.typeid, y.typeid with
  | some (.ty a), some (.ty b) =>
    match pgTypeOf a, pgTypeOf b with
    | some v, some w => env.castable v w
    | _, _ => true
  | _, _ => true

theorem cast_of {env : PgEnv} {x y : AColumn} (h : castB env x y = true) (a b : SqlType)
    (v w : List String) (h1 : x.typeid = some (.ty a)) (h2 : y.typeid = some (.ty b))
    (h3 : pgTypeOf a = some v) (h4 : pgTypeOf b = some w) : env.castable v w = true := by
  simpa only [castB, h1, h2, h3, h4] using h

theorem newValue_default {c : AColumn} {v : SqlVal} (h : NewValue c v) : columnDefault c = .ok v := by
  cases h <;> simp_all [columnDefault, typeDefault]

/-- The references of a table. -/
def refsOf (t : ATable) : List (String × String) :=
  t.columns.filterMap fun c =>
    match c.reference with
    | some (.literal r k) => some (r, k)
    | _ => none

theorem refers_mem {adb : ADB} {n r k : String} (h : Refers adb n r k) :
    ∃ t, adb.getTable n = some t ∧ (r, k) ∈ refsOf t := by
  obtain ⟨t, c, h1, h2, h3⟩ := h
  exact ⟨t, h1, List.mem_filterMap.2 ⟨c, h2, by rw [h3]⟩⟩

/-- The column, if it can be referred to. -/
def keyCol (adb : ADB) (r k : String) : Option AColumn :=
  ((adb.getTable r).bind (·.column k)).filter fun x => x.pk || x.unique

theorem keyCol_of {adb : ADB} {r k : String} {x : AColumn} (h : keyCol adb r k = some x) :
    KeyColumn adb r k x := by
  simp only [keyCol, Option.filter_eq_some_iff, Bool.or_eq_true] at h
  obtain ⟨h1, h2⟩ := h
  cases ht : adb.getTable r with
  | none => rw [ht] at h1; cases h1
  | some t => rw [ht] at h1; exact ⟨t, ht, h1, h2⟩

def staysB (old new : ADB) (r k : String) : Bool :=
  (old.getTable r).isNone ||
  match keyCol old r k, keyCol new r k with
  | some x, some y => !x.unique || y.unique
  | _, _ => false

theorem stays_of {old new : ADB} {r k : String} (h : staysB old new r k = true)
    (hr : old.getTable r ≠ none) : ∃ x y, KeyColumn old r k x ∧ KeyColumn new r k y ∧
      (x.unique = true → y.unique = true) := by
  simp only [staysB, Bool.or_eq_true] at h
  rcases h with h | h
  · exact absurd (by simpa using h) hr
  · split at h
    · next x y h1 h2 =>
      refine ⟨x, y, keyCol_of h1, keyCol_of h2, fun hx => ?_⟩
      simpa [hx] using h
    · cases h

/-- A column of the new schema, in a table that stays. -/
def columnB (env : PgEnv) (res : String → Bool) (p : LitPrinters) (s : ATable) (y : AColumn) : Bool :=
  match s.column y.name with
  | none => !y.auto && (!y.pk || s.columns.all (!·.pk)) &&
    (match columnDefault y with
      | .ok v => pgFitsB env res p y v
      | _ => true)
  | some x => decide (x.pk = y.pk) &&
    (decide (x.typeid = y.typeid) || (!y.auto && castB env x y)) &&
    (match y.default with
      | some v => pgFitsB env res p y v
      | none => true)

def pgFeasibleB (env : PgEnv) (res : String → Bool) (p : LitPrinters) (old new : ADB) : Bool :=
  (new.tables.all fun e =>
    match old.getTable e.1 with
    | none => true
    | some s =>
      e.2.columns.all (columnB env res p s) &&
      (refsOf s).all (fun r => staysB old new r.1 r.2) &&
      (refsOf e.2).all (fun r => staysB old new r.1 r.2)) &&
  (old.tables.all fun e => (refsOf e.2).all fun r => (keyCol old r.1 r.2).isSome) &&
  (new.tables.all fun e => (refsOf e.2).all fun r => (keyCol new r.1 r.2).isSome)

theorem pgFeasible_of {env : PgEnv} {res : String → Bool} {p : LitPrinters} {old new : ADB}
    (h : pgFeasibleB env res p old new = true) : PgFeasible env res p old new := by
  simp only [pgFeasibleB, Bool.and_eq_true, List.all_eq_true] at h
  obtain ⟨⟨h1, h2⟩, h3⟩ := h
  have both : ∀ n s t, old.getTable n = some s → new.getTable n = some t →
      ((∀ y ∈ t.columns, columnB env res p s y = true) ∧ (∀ r ∈ refsOf s, staysB old new r.1 r.2 = true)) ∧
      (∀ r ∈ refsOf t, staysB old new r.1 r.2 = true) := by
    intro n s t ho hn
    have := h1 _ (SMap.mem_of_lookup hn)
    simp only [ho, Bool.and_eq_true, List.all_eq_true] at this
    exact this
  have same : ∀ n s t c x y, old.getTable n = some s → new.getTable n = some t →
      s.column c = some x → t.column c = some y →
      (x.pk = y.pk ∧ (x.typeid = y.typeid ∨ y.auto = false ∧ castB env x y = true)) ∧
      (match y.default with
        | some v => pgFitsB env res p y v
        | none => true) = true := by
    intro n s t c x y ho hn hs hy
    have := (both n s t ho hn).1.1 y (colByName_some hy).1
    rw [columnB, (colByName_some hy).2, hs] at this
    simp only [Bool.and_eq_true, decide_eq_true_eq, Bool.or_eq_true, Bool.not_eq_true'] at this
    exact this
  refine ⟨fun n s t c x y ho hn hs hy => (same n s t c x y ho hn hs hy).1.1,
    fun n s t c y ho hn hs hy => ?_, fun n s t c x y ho hn hs hy hne => ?_,
    fun n s t c x y ho hn hs hy v hv => ?_, fun n r k h => ?_, fun n r k h => ?_,
    fun n s t r k ho hn h hr => ?_⟩
  · have := (both n s t ho hn).1.1 y (colByName_some hy).1
    rw [columnB, (colByName_some hy).2, hs] at this
    simp only [Bool.and_eq_true, Bool.or_eq_true, Bool.not_eq_true', List.all_eq_true] at this
    refine ⟨this.1.1, fun hp => ?_, fun v hv => ?_⟩
    · simpa [hp] using this.1.2
    · have := this.2
      rw [newValue_default hv] at this
      exact pgFits_of this
  · have := (same n s t c x y ho hn hs hy).1.2
    rcases this with e | ⟨e1, e2⟩
    · exact absurd e hne
    · exact ⟨e1, cast_of e2⟩
  · have := (same n s t c x y ho hn hs hy).2
    rw [hv] at this
    exact pgFits_of this
  · obtain ⟨t, ht, hm⟩ := refers_mem h
    obtain ⟨x, hx⟩ := Option.isSome_iff_exists.1 (h2 _ (SMap.mem_of_lookup ht) _ hm)
    exact ⟨x, keyCol_of hx⟩
  · obtain ⟨t, ht, hm⟩ := refers_mem h
    obtain ⟨x, hx⟩ := Option.isSome_iff_exists.1 (h3 _ (SMap.mem_of_lookup ht) _ hm)
    exact ⟨x, keyCol_of hx⟩
  · refine stays_of ?_ hr
    rcases h with h | h
    · obtain ⟨t', ht, hm⟩ := refers_mem h
      rw [ho] at ht
      cases ht
      exact (both n s t ho hn).1.2 _ hm
    · obtain ⟨t', ht, hm⟩ := refers_mem h
      rw [hn] at ht
      cases ht
      exact (both n s t ho hn).2 _ hm

end Butane.PgP
