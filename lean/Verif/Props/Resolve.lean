import Verif.Proofs.Resolve
/-
Properties C06 and C07: type resolution.
-/
namespace Butane.Props
open Butane Butane.Spec

/-! ### A concrete schema: a cyclic pair of models, an alias and a JSON map -/

/-- `Author.id`, and `Author.best` pointing at a post by a registered alias. -/
def exAuthor : ATable := ⟨"author_table", [
  ⟨"id", .known .bigInt, false, true, true, false, none, none⟩,
  ⟨"meta", .deferred (.customType "HashMap<String,String>"), false, false, false, false, none, none⟩,
  ⟨"best", .deferred (.customType "PostRef"), true, false, false, false, none,
    some (.deferred (.deferred (.customType "PostRef")))⟩]⟩
/-- `Post`, whose primary key is a foreign key to `Author` (stored in `author_table`). -/
def exPost : ATable := ⟨"Post", [
  ⟨"author", .deferred (.pk "Author"), false, true, false, false, none,
    some (.deferred (.deferred (.pk "Author")))⟩]⟩
def exUnresolved : ADB :=
  ⟨[("Post", exPost), ("author_table", exAuthor)],
   [(.pk "Author", .deferred (.pk "author_table")), (.customType "PostRef", .deferred (.pk "Post"))]⟩
/-- The same, resolved. -/
def exResolved : ADB :=
  ⟨[("Post", ⟨"Post", [
      ⟨"author", .knownId (.ty .bigInt), false, true, false, false, none,
        some (.literal "author_table" "id")⟩]⟩),
    ("author_table", ⟨"author_table", [
      ⟨"id", .known .bigInt, false, true, true, false, none, none⟩,
      ⟨"meta", .knownId (.ty .json), false, false, false, false, none, none⟩,
      ⟨"best", .knownId (.ty .bigInt), true, false, false, false, none,
        some (.literal "Post" "author")⟩]⟩)],
   [(.pk "Author", .knownId (.ty .bigInt)), (.customType "PostRef", .knownId (.ty .bigInt))]⟩

theorem exUnresolved_resolves : exUnresolved.resolveTypes true 11 = .ok exResolved := by rfl

theorem exUnresolved_generated : Generated exUnresolved := by
  constructor
  · intro e he
    simp [exUnresolved] at he
    rcases he with rfl | rfl
    · exact Or.inl ⟨_, List.mem_cons_self, rfl⟩
    · exact Or.inl ⟨_, List.mem_cons_self, rfl⟩
  · intro e he c hc d hd
    simp [exUnresolved] at he
    rcases he with rfl | rfl
    · simp [exPost] at hc; subst hc; cases hd
      exact ⟨_, _, rfl, .alias rfl⟩
    · simp [exAuthor] at hc
      rcases hc with rfl | rfl | rfl
      · cases hd
      · cases hd
      · cases hd; exact ⟨_, _, rfl, .alias rfl⟩

/-! ### C06 -/

theorem sumT_bound (r : Resolver) (l : List (String × ATable)) :
    sumT r l ≤ l.length + (l.map (fun e => e.2.columns.length)).sum := by
  induction l with
  | nil => simp [sumT]
  | cons e rest ih =>
    simp only [sumT, wT, List.map_cons, List.sum_cons, List.length_cons] at ih ⊢
    have h1 : unk r (.pk e.2.name) ≤ 1 := by unfold unk; split <;> omega
    have h2 : defCols e.2.columns ≤ e.2.columns.length := List.length_filter_le _ _
    omega

theorem sumE_bound (r : Resolver) (l : List (TypeKey × DeferredSqlType)) : sumE r l ≤ 2 * l.length := by
  induction l with
  | nil => simp [sumE]
  | cons e rest ih =>
    simp only [sumE, wE, List.map_cons, List.sum_cons, List.length_cons] at ih ⊢
    have h1 : unk r e.1 ≤ 1 := by unfold unk; split <;> omega
    have h2 : (!e.2.isKnown).toNat ≤ 1 := Bool.toNat_le _
    omega

theorem todo_bound {db : ADB} {tables : SMap String ATable} (h : resolveReferences db = some tables) :
    RState.todo ⟨[], tables, db.extraTypes⟩ < rounds db := by
  have hi := resolveReferences_inv (json := true) h
  have h1 := sumT_bound [] tables
  have h2 := sumE_bound [] db.extraTypes
  have h3 := hi.tables.length_eq
  have h4 : ∀ (as bs : List (String × ATable)), AllMatch (TblRel true db) as bs →
      as.map (fun e => e.2.columns.length) = bs.map (fun e => e.2.columns.length) := by
    intro as bs h
    induction h with
    | nil => rfl
    | cons hr _ ih => simp only [List.map_cons, ih, hr.2.2.length_eq]
  have h5 := h4 _ _ hi.tables
  simp only at h3 h5
  simp only [RState.todo, rounds, h3, h5]
  omega

/-- C06: type resolution terminates on every schema, cyclic or not, within `rounds db`
rounds of its loop; running it longer makes no difference. -/
theorem resolve_terminates (json : Bool) (db : ADB) :
    db.resolveTypes json (rounds db) ≠ .outOfFuel ∧
    ∀ fuel, rounds db ≤ fuel → db.resolveTypes json fuel = db.resolveTypes json (rounds db) := by
  unfold ADB.resolveTypes
  cases h : resolveReferences db with
  | none => exact ⟨by simp, fun _ _ => rfl⟩
  | some tables =>
    have ht := resolveLoop_terminates json (rounds db) ⟨[], tables, db.extraTypes⟩ (todo_bound h)
    constructor
    · simp only
      split
      · rename_i he; exact absurd he ht
      · simp
      · split <;> simp
    · intro fuel hf
      have := resolveLoop_stable json (rounds db) _ ht (fuel - rounds db)
      rw [show rounds db + (fuel - rounds db) = fuel by omega] at this
      simp only [this]

/-- C06: when resolution succeeds, every column has a concrete type, and nothing but
deferred types and references has changed. -/
theorem resolve_ok (json : Bool) (fuel : Nat) (db db' : ADB) (h : db.resolveTypes json fuel = .ok db') :
    Resolves json db db' ∧ ∀ e ∈ db'.tables, ∀ c ∈ e.2.columns, ∃ ty, denotes c.sqltype = .inl ty := by
  unfold ADB.resolveTypes at h
  split at h
  · cases h
  · rename_i tables hr
    split at h
    · cases h
    · cases h
    · rename_i s hs
      split at h
      · cases h
      · rename_i hf
        cases h
        have hi := (resolveLoop_done (resolveReferences_inv hr) hs).1
        refine ⟨⟨hi.tables, hi.extra⟩, ?_⟩
        intro e he c hc
        have := firstDeferred_none hf e he c hc
        revert this
        cases c.sqltype <;> simp [DeferredSqlType.isKnown, denotes]

/-- C06: when resolution reports an error, some column's type cannot be derived from the
schema, and the error names it; what was resolved until then is still sound. -/
theorem resolve_err (json : Bool) (fuel : Nat) (db db' : ADB) (text : String)
    (h : db.resolveTypes json fuel = .cannotResolve text db') :
    Resolves json db db' ∧ ∃ e ∈ db.tables, ∃ c ∈ e.2.columns, ∃ k, c.sqltype = .deferred k ∧
      text = k.display ∧ ∀ ty, ¬ Stands json db k ty := by
  unfold ADB.resolveTypes at h
  split at h
  · cases h
  · rename_i tables hr
    split at h
    · cases h
    · cases h
    · rename_i s hs
      split at h
      · rename_i k hf
        cases h
        obtain ⟨hi, hc⟩ := resolveLoop_done (resolveReferences_inv hr) hs
        refine ⟨⟨hi.tables, hi.extra⟩, ?_⟩
        obtain ⟨e', he', c', hc', hk⟩ := firstDeferred_some hf
        obtain ⟨e, he, hrel⟩ := hi.tables.mem_right he'
        obtain ⟨c, hcm, hcr⟩ := hrel.2.2.mem_right hc'
        refine ⟨e, he, c, hcm, k, ?_, rfl, ?_⟩
        · rcases hcr.type with ht | ⟨_, _, _, ht, _⟩
          · rw [← ht, hk]
          · rw [hk] at ht; cases ht
        · intro ty hst
          obtain ⟨t, ht⟩ := closed_complete hi hc hst
          rw [hc.cols e' he' c' hc' k hk] at ht
          cases ht
      · cases h

theorem generated_pkOk {db : ADB} (h : Generated db) : PkOk db.tables := by
  intro e he
  rcases h.pk e he with ⟨c, hc, hpk⟩ | ⟨p, hp⟩
  · left
    intro hn
    have := List.find?_eq_none.1 hn c hc
    exact this hpk
  · exact Or.inr ((endsWith_iff _ _).2 ⟨p, hp⟩)

/-- C06: on schemas as the code generator produces them, resolution never panics. -/
theorem resolve_no_panic (json : Bool) (fuel : Nat) (db : ADB) (hg : Generated db) :
    db.resolveTypes json fuel ≠ .panic := by
  unfold ADB.resolveTypes
  have hr : ∃ tables, resolveReferences db = some tables := by
    apply mapPanic_some
    intro e he
    have : ∃ cols, mapPanic (AColumn.resolveReferenceTarget db.extraTypes db.tables) e.2.columns = some cols := by
      apply mapPanic_some
      intro c hc
      unfold AColumn.resolveReferenceTarget
      split
      · exact ⟨_, rfl⟩
      · exact ⟨_, rfl⟩
      · rename_i key hkey
        obtain ⟨k, t, hd, hrt⟩ := hg.refs e he c hc _ hkey
        cases hd
        rw [refers_refTarget hrt]
        simp only
        split
        · split <;> exact ⟨_, rfl⟩
        · exact ⟨_, rfl⟩
      · rename_i d hne hd
        obtain ⟨k, t, hd', _⟩ := hg.refs e he c hc _ hd
        exact absurd hd' (hne k)
    obtain ⟨cols, hcols⟩ := this
    exact ⟨_, by simp only [hcols]; rfl⟩
  obtain ⟨tables, ht⟩ := hr
  simp only [ht]
  have := resolveLoop_noPanic fuel (resolveReferences_inv (json := json) ht) (generated_pkOk hg)
  split
  · simp
  · rename_i hp; exact absurd hp this
  · split <;> simp

/-- C06: resolution succeeds exactly when every deferred column type can be derived. -/
theorem resolve_ok_iff (json : Bool) (db : ADB) (hg : Generated db) :
    (∃ db', db.resolveTypes json (rounds db) = .ok db') ↔
      ∀ e ∈ db.tables, ∀ c ∈ e.2.columns, ∀ k, c.sqltype = .deferred k → ∃ ty, Stands json db k ty := by
  constructor
  · rintro ⟨db', h⟩ e he c hc k hk
    obtain ⟨hres, hall⟩ := resolve_ok json _ db db' h
    obtain ⟨e', he', hrel⟩ := hres.tables.mem_left he
    obtain ⟨c', hc', hcr⟩ := hrel.2.2.mem_left hc
    obtain ⟨ty, hty⟩ := hall e' he' c' hc'
    rcases hcr.type with ht | ⟨k', ty', h1, h2, h3⟩
    · rw [ht, hk] at hty; cases hty
    · rw [hk] at h1; cases h1; exact ⟨ty', h3⟩
  · intro hall
    cases hr : db.resolveTypes json (rounds db) with
    | ok db' => exact ⟨db', rfl⟩
    | cannotResolve text db' =>
      obtain ⟨_, e, he, c, hc, k, hk, _, hn⟩ := resolve_err json _ db db' text hr
      obtain ⟨ty, hty⟩ := hall e he c hc k hk
      exact absurd hty (hn ty)
    | panic => exact absurd hr (resolve_no_panic json _ db hg)
    | outOfFuel => exact absurd hr (resolve_terminates json db).1

example : ∃ db', exUnresolved.resolveTypes true (rounds exUnresolved) = .ok db' :=
  ⟨exResolved, by rw [← (resolve_terminates true exUnresolved).2 11 (by decide)]; rfl⟩
example : Resolves true exUnresolved exResolved := (resolve_ok true 11 _ _ exUnresolved_resolves).1

/-- Without the JSON feature the map type of the example cannot be resolved. -/
example : ∃ db', exUnresolved.resolveTypes false 11 =
    .cannotResolve "CustomType(HashMap<String,String>)" db' := ⟨_, rfl⟩
/-- Two tables whose primary keys are foreign keys to each other: an error, not a loop. -/
def exCycle : ADB :=
  ⟨[("A", ⟨"A", [⟨"b", .deferred (.pk "B"), false, true, false, false, none, none⟩]⟩),
    ("B", ⟨"B", [⟨"a", .deferred (.pk "A"), false, true, false, false, none, none⟩]⟩)], []⟩
example : exCycle.resolveTypes true (rounds exCycle) = .cannotResolve "PK(B)" exCycle := rfl

/-! ### C07 -/

/-- C07: each type assigned to a column is one its key stands for. -/
theorem resolve_sound (json : Bool) (fuel : Nat) (db db' : ADB)
    (h : db.resolveTypes json fuel = .ok db') (i : Nat) (e e' : String × ATable)
    (he : db.tables[i]? = some e) (he' : db'.tables[i]? = some e') (j : Nat) (c c' : AColumn)
    (hc : e.2.columns[j]? = some c) (hc' : e'.2.columns[j]? = some c') :
    e'.1 = e.1 ∧ c'.name = c.name ∧
      match c.sqltype with
      | .deferred k => ∃ ty, c'.sqltype = .knownId ty ∧ Stands json db k ty
      | known => c'.sqltype = known := by
  obtain ⟨hres, hall⟩ := resolve_ok json fuel db db' h
  have idx : ∀ {α β : Type} {R : α → β → Prop} {as : List α} {bs : List β}, AllMatch R as bs →
      ∀ (i : Nat) (a : α) (b : β), as[i]? = some a → bs[i]? = some b → R a b := by
    intro α β R as bs h
    induction h with
    | nil => intro i a b h; simp at h
    | cons hr _ ih =>
      intro i a b ha hb
      cases i with
      | zero => simp at ha hb; subst ha hb; exact hr
      | succ n => simp at ha hb; exact ih n a b ha hb
  have hrel := idx hres.tables i e e' he he'
  have hcr := idx hrel.2.2 j c c' hc hc'
  refine ⟨hrel.1, hcr.name, ?_⟩
  have hm : c' ∈ e'.2.columns := List.mem_of_getElem? hc'
  obtain ⟨ty, hty⟩ := hall e' (List.mem_of_getElem? he') c' hm
  rcases hcr.type with ht | ⟨k, ty', h1, h2, h3⟩
  · cases hs : c.sqltype with
    | known _ => simp only; rw [ht, hs]
    | knownId _ => simp only; rw [ht, hs]
    | deferred k => rw [ht, hs] at hty; cases hty
  · rw [h1]; exact ⟨ty', h2, h3⟩

theorem stands_back {json : Bool} {db db' : ADB} (h : Resolves json db db') {k : TypeKey}
    {ty : TypeIdentifier} (hs : Stands json db' k ty) : Stands json db k ty := by
  induction hs with
  | map hj hn => exact .map hj hn
  | @tableKnown e c ty he hpk hd =>
    obtain ⟨e0, he0, hrel⟩ := h.tables.mem_right he
    refine typeid_stands he0 hrel hpk ?_
    unfold AColumn.typeid
    revert hd
    cases c.sqltype <;> simp [denotes]
  | @tableKey e c k ty he hpk hd _ ih =>
    obtain ⟨e0, he0, hrel⟩ := h.tables.mem_right he
    rcases pk_rel hrel with ⟨_, h2⟩ | ⟨c0, c', h1, h2, hr⟩
    · rw [h2] at hpk; cases hpk
    · rw [h2] at hpk; cases hpk
      rw [hrel.2.1]
      rcases hr.type with ht | ⟨_, _, _, ht, _⟩
      · exact .tableKey he0 h1 (by rw [← ht, hd]) ih
      · rw [hd] at ht; cases ht
  | @extraKnown k d ty he hd =>
    obtain ⟨⟨k0, d0⟩, he0, h1, h2⟩ := h.extra.mem_right he
    simp only at h1 h2
    subst h1
    rcases h2 with ht | ⟨k', ty', h3, h4, h5⟩
    · exact .extraKnown he0 (by rw [← ht]; exact hd)
    · rw [h4] at hd; simp [denotes] at hd; subst hd; subst h3; exact .extraKey he0 h5
  | @extraKey k k' ty he _ ih =>
    obtain ⟨⟨k0, d0⟩, he0, h1, h2⟩ := h.extra.mem_right he
    simp only at h1 h2
    subst h1
    rcases h2 with ht | ⟨_, _, _, h4, _⟩
    · subst ht; exact .extraKey he0 ih
    · cases h4

theorem lookup_rel {K V W : Type} [Ord K] [DecidableEq K] {R : V → W → Prop} {m : SMap K V} {m' : SMap K W}
    (h : AllMatch (fun e e' => e'.1 = e.1 ∧ R e.2 e'.2) m m') (k : K) :
    (SMap.lookup m k = none ∧ SMap.lookup m' k = none) ∨
    ∃ v v', SMap.lookup m k = some v ∧ SMap.lookup m' k = some v' ∧ R v v' := by
  induction h with
  | nil => exact Or.inl ⟨rfl, rfl⟩
  | @cons a b as bs hab _ ih =>
    obtain ⟨k1, v1⟩ := a
    obtain ⟨k2, v2⟩ := b
    obtain ⟨h1, h2⟩ := hab
    simp only at h1 h2
    subst h1
    simp only [SMap.lookup]
    split
    · exact Or.inr ⟨v1, v2, rfl, rfl, h2⟩
    · exact ih

/-- C07: resolving a resolved schema changes nothing, provided that an alias names a table
rather than another alias (which is all the code generator emits). -/
theorem resolve_idempotent (json : Bool) (fuel fuel' : Nat) (db db' : ADB) (hv : ValidSchema db)
    (hx : db.extraTypes.Sorted)
    (halias : ∀ k t, db.extraTypes.lookup k = some (.deferred (.pk t)) →
      db.extraTypes.lookup (.pk t) = none)
    (h : db.resolveTypes json fuel = .ok db') (hf : rounds db' ≤ fuel') :
    db'.resolveTypes json fuel' = .ok db' := by
  have hall := (resolve_ok json fuel db db' h).2
  rw [(resolve_terminates json db').2 fuel' hf]
  have hbound := (resolve_terminates json db').1
  unfold ADB.resolveTypes at h
  split at h
  · cases h
  · rename_i tables hr
    split at h
    · cases h
    · cases h
    · rename_i s hs
      split at h
      · cases h
      · rename_i hfd
        have hi0 := resolveReferences_inv (json := json) hr
        obtain ⟨hi, hc⟩ := resolveLoop_done hi0 hs
        have hpk := resolveLoop_pkOk hi0 hs
        have hres : Resolves json db db' := by cases h; exact ⟨hi.tables, hi.extra⟩
        have hx' : ∀ k k', (k, DeferredSqlType.deferred k') ∈ db'.extraTypes →
            ∀ ty, ¬ Stands json db' k' ty := by
          intro k k' hk ty hst
          obtain ⟨t, ht⟩ := closed_complete hi hc (stands_back hres hst)
          cases h
          rw [hc.extra k k' hk] at ht
          cases ht
        have hknown : ∀ e ∈ db'.tables, ∀ c ∈ e.2.columns, c.sqltype.isKnown = true := by
          intro e he c hcm
          obtain ⟨ty, hty⟩ := hall e he c hcm
          revert hty
          cases c.sqltype <;> simp [denotes, DeferredSqlType.isKnown]
        have htl : ∀ n, (db.tables.lookup n = none ∧ db'.tables.lookup n = none) ∨
            ∃ t t', db.tables.lookup n = some t ∧ db'.tables.lookup n = some t' ∧
              t'.name = t.name ∧ AllMatch (ColResolved json db) t.columns t'.columns :=
          lookup_rel hres.tables
        have hel := lookup_rel (R := TypeResolved json db) hres.extra
        -- references stay as they are
        have href : resolveReferences db' = some db'.tables := by
          apply mapPanic_id
          intro e' he'
          obtain ⟨e, he, hrel⟩ := hres.tables.mem_right he'
          have : mapPanic (AColumn.resolveReferenceTarget db'.extraTypes db'.tables) e'.2.columns =
              some e'.2.columns := by
            apply mapPanic_id
            intro c' hc'
            obtain ⟨c, hcm, hcr⟩ := hrel.2.2.mem_right hc'
            unfold AColumn.resolveReferenceTarget
            cases hcr' : c'.reference with
            | none => rfl
            | some a =>
              cases a with
              | literal _ _ => rfl
              | deferred d =>
                have hrr := hcr.reference
                unfold RefResolved at hrr
                split at hrr
                · rename_i d0 hd0
                  obtain ⟨k, t, rfl, hrt, hm⟩ := hrr
                  -- the target has no primary key
                  have hnopk : (db.getTable t).bind ATable.pk = none := by
                    cases hb : (db.getTable t).bind ATable.pk with
                    | none => rfl
                    | some p => rw [hb] at hm; rw [hm] at hcr'; cases hcr'
                  rw [hnopk] at hm
                  simp only at hm
                  rw [hm, hd0] at hcr'
                  cases hcr'
                  have htarget : refTarget db'.extraTypes k = some t := by
                    apply refers_refTarget
                    cases hrt with
                    | alias hl =>
                      apply RefersTo.alias
                      rcases hel k with ⟨h1, _⟩ | ⟨d, d', h1, h2, h3⟩
                      · rw [h1] at hl; cases hl
                      · rw [h1] at hl; cases hl
                        rcases h3 with h3 | ⟨k2, ty, h4, h5, h6⟩
                        · rw [h2, h3]
                        · cases h4
                          exfalso
                          have hn := halias k t h1
                          generalize hkk : TypeKey.pk t = kk at h6
                          cases h6 with
                          | map _ _ => cases hkk
                          | @tableKnown e c _ he hp _ =>
                            injection hkk with hkk
                            have := SMap.lookup_of_mem hv.sorted he
                            rw [hv.keyed e he, ← hkk] at this
                            simp only [ADB.getTable, this, Option.bind_some] at hnopk
                            rw [hnopk] at hp; cases hp
                          | @tableKey e c _ _ he hp _ _ =>
                            injection hkk with hkk
                            have := SMap.lookup_of_mem hv.sorted he
                            rw [hv.keyed e he, ← hkk] at this
                            simp only [ADB.getTable, this, Option.bind_some] at hnopk
                            rw [hnopk] at hp; cases hp
                          | extraKnown he _ =>
                            have := SMap.lookup_of_mem hx he
                            rw [← hkk, hn] at this; cases this
                          | extraKey he _ =>
                            have := SMap.lookup_of_mem hx he
                            rw [← hkk, hn] at this; cases this
                    | direct hne =>
                      apply RefersTo.direct
                      intro u hu
                      rcases hel (.pk t) with ⟨_, h2⟩ | ⟨d, d', h1, h2, h3⟩
                      · rw [h2] at hu; cases hu
                      · rw [h2] at hu; cases hu
                        rcases h3 with h3 | ⟨_, _, _, h5, _⟩
                        · rw [← h3] at h1; exact hne u h1
                        · cases h5
                  simp only [htarget]
                  rcases htl t with ⟨_, h2⟩ | ⟨t1, t2, h1, h2, hn, hcols⟩
                  · rw [h2]
                  · rw [h2]
                    have : t2.pk = none := by
                      simp only [ADB.getTable, h1, Option.bind_some] at hnopk
                      rcases find_pk_rel hcols with ⟨_, h4⟩ | ⟨c1, _, h4, _, _⟩
                      · exact h4
                      · unfold ATable.pk at hnopk; rw [h4] at hnopk; cases hnopk
                    simp only [this]
                · rename_i hne
                  exfalso
                  rw [hrr] at hcr'
                  exact hne d hcr'
          simp only [this]
        have hi' := resolveReferences_inv (json := json) href
        unfold ADB.resolveTypes at hbound ⊢
        simp only [href] at hbound ⊢
        have hnp := resolveLoop_noPanic (rounds db') hi' ((pkOk_rel hres.tables).1 hpk)
        cases hl : resolveLoop json (rounds db') ⟨[], db'.tables, db'.extraTypes⟩ with
        | panic => exact absurd hl hnp
        | outOfFuel => rw [hl] at hbound; exact absurd rfl hbound
        | done s2 =>
          obtain ⟨e1, e2⟩ := resolveLoop_stuck hi' rfl rfl hknown hx' hl
          simp only
          rw [e1, e2]
          have : firstDeferred db'.tables = none := by
            cases h; exact hfd
          rw [this]

example : exResolved.resolveTypes true (rounds exResolved) = .ok exResolved :=
  resolve_idempotent true 11 _ exUnresolved exResolved
    (by constructor
        · unfold SMap.Sorted; decide
        · decide
        · decide)
    (by unfold SMap.Sorted; decide)
    (by
      intro k t h
      simp only [exUnresolved, SMap.lookup] at h ⊢
      split at h
      · cases h; decide
      · split at h
        · cases h; decide
        · cases h)
    exUnresolved_resolves (Nat.le_refl _)

/-- The alias condition is needed: here `R` is an alias of `X`, itself only a registered
type and not a table. Resolving succeeds, and resolving the result panics. -/
def exAliasOfType : ADB :=
  ⟨[("T", ⟨"T", [⟨"id", .known .int, false, true, false, false, none,
      some (.deferred (.deferred (.customType "R")))⟩]⟩)],
   [(.pk "X", .known .int), (.customType "R", .deferred (.pk "X"))]⟩
theorem resolve_idempotent_alias_needed : ∃ db', exAliasOfType.resolveTypes true 10 = .ok db' ∧
    db'.resolveTypes true 10 = .panic := ⟨_, rfl, rfl⟩

end Butane.Props
