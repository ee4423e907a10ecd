import Verif.Spec.Types
import Verif.Proofs.TypeKey
import Verif.Proofs.Diff
/- Helper lemmas about `resolve_types`. -/
namespace Butane
open Spec

/-! ### List helpers -/

theorem Spec.AllMatch.length_eq {α β : Type} {R : α → β → Prop} {as : List α} {bs : List β}
    (h : AllMatch R as bs) : as.length = bs.length := by
  induction h with
  | nil => rfl
  | cons _ _ ih => simp [ih]

theorem Spec.AllMatch.refl {α : Type} {R : α → α → Prop} (hr : ∀ a, R a a) (l : List α) :
    AllMatch R l l := by
  induction l with
  | nil => exact .nil
  | cons a _ ih => exact .cons (hr a) ih

theorem Spec.AllMatch.imp {α β : Type} {R S : α → β → Prop} {as : List α} {bs : List β}
    (hrs : ∀ a ∈ as, ∀ b ∈ bs, R a b → S a b)
    (h : AllMatch R as bs) : AllMatch S as bs := by
  induction h with
  | nil => exact .nil
  | cons hr _ ih =>
    exact .cons (hrs _ List.mem_cons_self _ List.mem_cons_self hr)
      (ih (fun a ha b hb => hrs a (List.mem_cons_of_mem _ ha) b (List.mem_cons_of_mem _ hb)))

theorem Spec.AllMatch.comp {α β γ : Type} {R : α → β → Prop} {S : β → γ → Prop} {T : α → γ → Prop}
    {as : List α} {bs : List β} {cs : List γ} (h : AllMatch R as bs) (h' : AllMatch S bs cs)
    (hT : ∀ a b c, R a b → S b c → T a c) : AllMatch T as cs := by
  induction h generalizing cs with
  | nil => cases h'; exact .nil
  | cons hr _ ih =>
    cases h' with
    | cons hs hrest => exact .cons (hT _ _ _ hr hs) (ih hrest)

theorem Spec.AllMatch.map_right {α β γ : Type} {R : α → γ → Prop} {as : List α} {bs : List β} {f : β → γ}
    (h : AllMatch (fun a b => R a (f b)) as bs) : AllMatch R as (bs.map f) := by
  induction h with
  | nil => exact .nil
  | cons hr _ ih => exact .cons hr ih

theorem mapPanic_allMatch {α β : Type} {f : α → Option β} {l : List α} {l' : List β}
    (h : mapPanic f l = some l') : AllMatch (fun a b => f a = some b) l l' := by
  induction l generalizing l' with
  | nil => simp [mapPanic] at h; subst h; exact .nil
  | cons a rest ih =>
    simp only [mapPanic] at h
    split at h
    · cases h
    · rename_i b hb
      split at h
      · cases h
      · rename_i bs hbs
        cases h
        exact .cons hb (ih hbs)

theorem mapPanic_some {α β : Type} {f : α → Option β} {l : List α}
    (h : ∀ a ∈ l, ∃ b, f a = some b) : ∃ l', mapPanic f l = some l' := by
  induction l with
  | nil => exact ⟨[], rfl⟩
  | cons a rest ih =>
    obtain ⟨b, hb⟩ := h a List.mem_cons_self
    obtain ⟨bs, hbs⟩ := ih (fun x hx => h x (List.mem_cons_of_mem _ hx))
    exact ⟨b :: bs, by simp [mapPanic, hb, hbs]⟩

theorem mapPanic_id {α : Type} {f : α → Option α} {l : List α}
    (h : ∀ a ∈ l, f a = some a) : mapPanic f l = some l := by
  induction l with
  | nil => rfl
  | cons a rest ih =>
    simp [mapPanic, h a List.mem_cons_self, ih (fun x hx => h x (List.mem_cons_of_mem _ hx))]

/-! ### Resolver -/

/-- `r'` knows at least what `r` knows. -/
def Resolver.le (r r' : Resolver) : Prop := ∀ k t, SMap.lookup r k = some t → SMap.lookup r' k = some t

theorem Resolver.le_refl (r : Resolver) : r.le r := fun _ _ h => h
theorem Resolver.le_trans {a b c : Resolver} (h : a.le b) (h' : b.le c) : a.le c :=
  fun k t hk => h' k t (h k t hk)

theorem Resolver.put_le (r : Resolver) (k : TypeKey) (t : TypeIdentifier) : r.le (r.put k t).1 := by
  intro k' t' h
  unfold Resolver.put
  split
  · exact h
  · rename_i hn
    simp only [SMap.lookup_insert]
    split
    · rename_i e; subst e; rw [hn] at h; cases h
    · exact h

theorem Resolver.put_lookup (r : Resolver) (k : TypeKey) (t : TypeIdentifier) :
    ∃ t', SMap.lookup (r.put k t).1 k = some t' := by
  unfold Resolver.put
  split
  · rename_i t' h; exact ⟨t', h⟩
  · exact ⟨t, by simp [SMap.lookup_insert]⟩

theorem Resolver.put_true {r : Resolver} {k : TypeKey} {t : TypeIdentifier}
    (h : (r.put k t).2 = true) : SMap.lookup r k = none := by
  unfold Resolver.put at h
  split at h
  · cases h
  · assumption

theorem Resolver.put_false {r : Resolver} {k : TypeKey} {t : TypeIdentifier}
    (h : (r.put k t).2 = false) : (r.put k t).1 = r ∧ ∃ t', SMap.lookup r k = some t' := by
  unfold Resolver.put at h ⊢
  split at h
  · rename_i t' ht; simp only [ht]; exact ⟨trivial, t', rfl⟩
  · cases h

/-- All the resolver's entries are justified by the schema. -/
def Sound (json : Bool) (db : ADB) (r : Resolver) : Prop :=
  ∀ k t, SMap.lookup r k = some t → Stands json db k t

theorem Sound.put {json : Bool} {db : ADB} {r : Resolver} (h : Sound json db r) {k : TypeKey}
    {t : TypeIdentifier} (ht : Stands json db k t) : Sound json db (r.put k t).1 := by
  intro k' t' hk
  unfold Resolver.put at hk
  split at hk
  · exact h k' t' hk
  · simp only [SMap.lookup_insert] at hk
    split at hk
    · rename_i e; subst e; cases hk; exact ht
    · exact h k' t' hk

theorem startsWith_iff (s p : String) : startsWithStr s p = true ↔ ∃ rest, s.toList = p.toList ++ rest := by
  simp only [startsWithStr, List.isPrefixOf_iff_prefix, List.IsPrefix]
  constructor
  · rintro ⟨t, h⟩; exact ⟨t, h.symm⟩
  · rintro ⟨t, h⟩; exact ⟨t, h.symm⟩

theorem prefixes_split : ∀ q ∈ jsonMapPrefixes, ∃ m ∈ ["HashMap", "BTreeMap"],
    ∃ p ∈ ["", "collections::", "std::collections::"],
    ∃ s ∈ ["String", "string::String", "std::string::String"],
    q.toList = p.toList ++ m.toList ++ ['<'] ++ s.toList ++ [','] := by decide

theorem prefixes_join : ∀ m ∈ ["HashMap", "BTreeMap"],
    ∀ p ∈ ["", "collections::", "std::collections::"],
    ∀ s ∈ ["String", "string::String", "std::string::String"],
    ∃ q ∈ jsonMapPrefixes, q.toList = p.toList ++ m.toList ++ ['<'] ++ s.toList ++ [','] := by decide

theorem isJsonMap_iff (n : String) : isJsonMap (.customType n) = true ↔ StringMapName n := by
  simp only [isJsonMap, List.any_eq_true, startsWith_iff, StringMapName]
  constructor
  · rintro ⟨q, hq, rest, h⟩
    obtain ⟨m, hm, p, hp, s, hs, e⟩ := prefixes_split q hq
    exact ⟨m, hm, p, hp, s, hs, rest, by rw [h, e]⟩
  · rintro ⟨m, hm, p, hp, s, hs, rest, h⟩
    obtain ⟨q, hq, e⟩ := prefixes_join m hm p hp s hs
    exact ⟨q, hq, rest, by rw [h, e]⟩

theorem findType_sound {json : Bool} {db : ADB} {r : Resolver} (h : Sound json db r) {k : TypeKey}
    {t : TypeIdentifier} (hk : r.findType json k = some t) : Stands json db k t := by
  unfold Resolver.findType at hk
  split at hk
  · rename_i hj
    simp only [Bool.and_eq_true] at hj
    cases hk
    cases k with
    | pk _ => simp [isJsonMap] at hj
    | customType n => exact .map hj.1 ((isJsonMap_iff n).1 hj.2)
  · exact h k t hk

/-! ### Invariant of the loop -/

/-- A table and its current form. -/
def TblRel (json : Bool) (db : ADB) (e e' : String × ATable) : Prop :=
  e'.1 = e.1 ∧ e'.2.name = e.2.name ∧ AllMatch (ColResolved json db) e.2.columns e'.2.columns

/-- A registered type and its current form. -/
def ExtraRel (json : Bool) (db : ADB) (e e' : TypeKey × DeferredSqlType) : Prop :=
  e'.1 = e.1 ∧ TypeResolved json db e.2 e'.2

theorem find_pk_rel {json : Bool} {db : ADB} {cols cols' : List AColumn}
    (h : AllMatch (ColResolved json db) cols cols') :
    (cols.find? (fun c => c.pk) = none ∧ cols'.find? (fun c => c.pk) = none) ∨
    ∃ c c', cols.find? (fun c => c.pk) = some c ∧ cols'.find? (fun c => c.pk) = some c' ∧
      ColResolved json db c c' := by
  induction h with
  | nil => exact Or.inl ⟨rfl, rfl⟩
  | @cons a b as bs hr _ ih =>
    simp only [List.find?_cons]
    have hpk := hr.pk
    cases ha : a.pk with
    | true => rw [ha] at hpk; simp only [hpk]; exact Or.inr ⟨a, b, rfl, rfl, hr⟩
    | false => rw [ha] at hpk; simp only [hpk]; exact ih

theorem pk_rel {json : Bool} {db : ADB} {e e' : String × ATable} (h : TblRel json db e e') :
    (e.2.pk = none ∧ e'.2.pk = none) ∨
    ∃ c c', e.2.pk = some c ∧ e'.2.pk = some c' ∧ ColResolved json db c c' := find_pk_rel h.2.2

theorem typeid_stands {json : Bool} {db : ADB} {e e' : String × ATable} (he : e ∈ db.tables)
    (h : TblRel json db e e') {c' : AColumn} (hc : e'.2.pk = some c') {ty : TypeIdentifier}
    (hty : c'.typeid = some ty) : Stands json db (.pk e'.2.name) ty := by
  rcases pk_rel h with ⟨_, h2⟩ | ⟨c, c'', h1, h2, hr⟩
  · rw [h2] at hc; cases hc
  · rw [h2] at hc; cases hc
    rw [h.2.1]
    rcases hr.type with ht | ⟨k, t, hk, hk', hs⟩
    · apply Stands.tableKnown he h1
      rw [← ht]
      unfold AColumn.typeid at hty
      revert hty
      cases c'.sqltype <;> simp [denotes]
    · unfold AColumn.typeid at hty
      rw [hk'] at hty
      cases hty
      exact Stands.tableKey he h1 hk hs

theorem resolveType_rel {json : Bool} {db : ADB} {r : Resolver} (hr : Sound json db r) {c c' : AColumn}
    (h : ColResolved json db c c') : ColResolved json db c (c'.resolveType json r).1 := by
  unfold AColumn.resolveType
  split
  · exact h
  · rename_i hk
    split
    · rename_i ty hty
      refine ⟨h.name, ?_, h.nullable, h.pk, h.auto, h.unique, h.default, h.reference⟩
      rcases h.type with ht | ⟨k, t, hk1, hk', hs⟩
      · right
        rw [ht] at hty hk
        cases hc : c.sqltype with
        | known _ => simp [hc, DeferredSqlType.isKnown] at hk
        | knownId _ => simp [hc, DeferredSqlType.isKnown] at hk
        | deferred k =>
          rw [hc] at hty
          exact ⟨k, ty, rfl, rfl, findType_sound hr hty⟩
      · rw [hk'] at hk; simp [DeferredSqlType.isKnown] at hk
    · exact h

/-- The first part of a pass over one table. -/
def afterPk (r : Resolver) (t : ATable) : Option (Resolver × Bool) :=
  match t.pk with
  | some pk => match pk.typeid with
    | some ty => some (r.put (.pk t.name) ty)
    | none => some (r, false)
  | none => if endsWithStr t.name manySuffix then some (r, false) else none

theorem passTable_eq (json : Bool) (r : Resolver) (t : ATable) :
    passTable json r t = (afterPk r t).map (fun p =>
      (p.1, p.2 || (t.columns.map (AColumn.resolveType json p.1)).any (·.2),
        { t with columns := (t.columns.map (AColumn.resolveType json p.1)).map (·.1) })) := by
  unfold passTable
  change (match afterPk r t with
    | none => none
    | some (r', ch) => _) = _
  cases afterPk r t <;> rfl

theorem passTable_inv {json : Bool} {db : ADB} {e e' : String × ATable} (he : e ∈ db.tables)
    (h : TblRel json db e e') {r : Resolver} (hr : Sound json db r) {r1 : Resolver} {ch : Bool}
    {t1 : ATable} (hp : passTable json r e'.2 = some (r1, ch, t1)) :
    Sound json db r1 ∧ TblRel json db e (e'.1, t1) := by
  rw [passTable_eq] at hp
  cases ha : afterPk r e'.2 with
  | none => rw [ha] at hp; cases hp
  | some p =>
    rw [ha] at hp
    simp only [Option.map_some, Option.some.injEq, Prod.mk.injEq] at hp
    obtain ⟨rfl, _, rfl⟩ := hp
    have hs : Sound json db p.1 := by
      unfold afterPk at ha
      split at ha
      · rename_i pk hpk
        split at ha
        · rename_i ty hty
          cases ha
          exact hr.put (typeid_stands he h hpk hty)
        · cases ha; exact hr
      · split at ha
        · cases ha; exact hr
        · cases ha
    refine ⟨hs, h.1, h.2.1, ?_⟩
    rw [List.map_map]
    apply AllMatch.map_right
    exact h.2.2.imp (fun a _ b _ hab => resolveType_rel hs hab)

theorem passTables_inv {json : Bool} {db : ADB} {es es' : List (String × ATable)}
    (hmem : ∀ e ∈ es, e ∈ db.tables)
    (h : AllMatch (TblRel json db) es es') {r : Resolver} (hr : Sound json db r) {r1 : Resolver}
    {ch : Bool} {es1 : List (String × ATable)} (hp : passTables json r es' = some (r1, ch, es1)) :
    Sound json db r1 ∧ AllMatch (TblRel json db) es es1 := by
  induction h generalizing r r1 ch es1 with
  | nil => simp [passTables] at hp; obtain ⟨rfl, _, rfl⟩ := hp; exact ⟨hr, .nil⟩
  | @cons a b as bs hab _ ih =>
    obtain ⟨n, t⟩ := b
    simp only [passTables] at hp
    split at hp
    · cases hp
    · rename_i ra cha ta hta
      split at hp
      · cases hp
      · rename_i rb chb tb htb
        cases hp
        have h1 := passTable_inv (hmem a List.mem_cons_self) hab hr hta
        have h2 := ih (fun e he => hmem e (List.mem_cons_of_mem _ he)) h1.1 htb
        exact ⟨h2.1, .cons h1.2 h2.2⟩

theorem passExtra1_inv {json : Bool} {db : ADB} {e : TypeKey × DeferredSqlType} {d : DeferredSqlType}
    (he : e ∈ db.extraTypes) (h : TypeResolved json db e.2 d) {r : Resolver} (hr : Sound json db r) :
    Sound json db (passExtra1 json r e.1 d).1 ∧
      TypeResolved json db e.2 (passExtra1 json r e.1 d).2.2 := by
  cases d with
  | known t =>
    refine ⟨hr.put ?_, h⟩
    rcases h with h | ⟨k, ty, h1, h2, _⟩
    · exact Stands.extraKnown (d := .known t) (by rw [h]; exact he) rfl
    · cases h2
  | knownId t =>
    refine ⟨hr.put ?_, h⟩
    rcases h with h | ⟨k, ty, h1, h2, h3⟩
    · exact Stands.extraKnown (d := .knownId t) (by rw [h]; exact he) rfl
    · cases h2
      exact Stands.extraKey (k' := k) (by rw [← h1]; exact he) h3
  | deferred key =>
    simp only [passExtra1]
    cases hf : r.findType json key with
    | none => exact ⟨hr, h⟩
    | some ty =>
      refine ⟨hr, ?_⟩
      rcases h with h | ⟨k, ty, h1, h2, h3⟩
      · exact Or.inr ⟨key, ty, h.symm, rfl, findType_sound hr hf⟩
      · cases h2

theorem passExtra_inv {json : Bool} {db : ADB} {es es' : List (TypeKey × DeferredSqlType)}
    (hmem : ∀ e ∈ es, e ∈ db.extraTypes)
    (h : AllMatch (ExtraRel json db) es es') {r : Resolver} (hr : Sound json db r) :
    Sound json db (passExtra json r es').1 ∧
      AllMatch (ExtraRel json db) es (passExtra json r es').2.2 := by
  induction h generalizing r with
  | nil => exact ⟨hr, .nil⟩
  | @cons a b as bs hab _ ih =>
    obtain ⟨k, d⟩ := b
    obtain ⟨hk, hd⟩ := hab
    simp only at hk
    subst hk
    have h1 := passExtra1_inv (hmem a List.mem_cons_self) hd hr
    have h2 := ih (fun e he => hmem e (List.mem_cons_of_mem _ he)) h1.1
    exact ⟨h2.1, .cons ⟨rfl, h1.2⟩ h2.2⟩

/-- The loop invariant. -/
structure Inv (json : Bool) (db : ADB) (s : RState) : Prop where
  sound : Sound json db s.resolver
  tables : AllMatch (TblRel json db) db.tables s.tables
  extra : AllMatch (ExtraRel json db) db.extraTypes s.extra

theorem pass_inv {json : Bool} {db : ADB} {s s' : RState} {ch : Bool} (h : Inv json db s)
    (hp : pass json s = some (s', ch)) : Inv json db s' := by
  unfold pass at hp
  split at hp
  · cases hp
  · rename_i r1 ch1 t1 ht
    cases hp
    have h1 := passTables_inv (fun e he => he) h.tables h.sound ht
    have h2 := passExtra_inv (fun e he => he) h.extra h1.1
    exact ⟨h2.1, h1.2, h2.2⟩

/-! ### Fixpoint -/

/-- Nothing more can be learned. -/
structure Closed (json : Bool) (s : RState) : Prop where
  pk : ∀ e ∈ s.tables, ∀ c, e.2.pk = some c → ∀ ty, c.typeid = some ty →
    ∃ t, SMap.lookup s.resolver (.pk e.2.name) = some t
  cols : ∀ e ∈ s.tables, ∀ c ∈ e.2.columns, ∀ k, c.sqltype = .deferred k →
    s.resolver.findType json k = none
  known : ∀ e ∈ s.extra, e.2.isKnown = true → ∃ t, SMap.lookup s.resolver e.1 = some t
  extra : ∀ k k', (k, DeferredSqlType.deferred k') ∈ s.extra → s.resolver.findType json k' = none

theorem resolveType_false {json : Bool} {r : Resolver} {c : AColumn}
    (h : (c.resolveType json r).2 = false) :
    (c.resolveType json r).1 = c ∧ ∀ k, c.sqltype = .deferred k → r.findType json k = none := by
  unfold AColumn.resolveType at h ⊢
  split at h
  · rename_i hk
    simp only [hk, if_true]
    refine ⟨trivial, ?_⟩
    intro k hc
    rw [hc] at hk; simp [DeferredSqlType.isKnown] at hk
  · rename_i hk
    split at h
    · cases h
    · rename_i hn
      rw [if_neg hk]
      refine ⟨rfl, ?_⟩
      intro k hc
      rw [hc] at hn; exact hn

theorem afterPk_false {r r' : Resolver} {t : ATable} (h : afterPk r t = some (r', false)) :
    r' = r ∧ ∀ c, t.pk = some c → ∀ ty, c.typeid = some ty → ∃ t', SMap.lookup r (.pk t.name) = some t' := by
  unfold afterPk at h
  split at h
  · rename_i pk hpk
    split at h
    · rename_i ty hty
      have h' : r.put (.pk t.name) ty = (r', false) := Option.some.inj h
      have := Resolver.put_false (r := r) (k := .pk t.name) (t := ty) (by rw [h'])
      refine ⟨by rw [← this.1, h'], fun c hc ty' _ => this.2⟩
    · rename_i hn
      cases h
      refine ⟨rfl, fun c hc ty hty => ?_⟩
      rw [hpk] at hc; cases hc; rw [hn] at hty; cases hty
  · rename_i hn
    split at h
    · cases h
      exact ⟨rfl, fun c hc => by rw [hn] at hc; cases hc⟩
    · cases h

theorem passTable_false {json : Bool} {r r1 : Resolver} {t t1 : ATable}
    (h : passTable json r t = some (r1, false, t1)) :
    r1 = r ∧ t1 = t ∧
      (∀ c, t.pk = some c → ∀ ty, c.typeid = some ty → ∃ t', SMap.lookup r (.pk t.name) = some t') ∧
      (∀ c ∈ t.columns, ∀ k, c.sqltype = .deferred k → r.findType json k = none) := by
  rw [passTable_eq] at h
  cases ha : afterPk r t with
  | none => rw [ha] at h; cases h
  | some p =>
    obtain ⟨r', ch⟩ := p
    rw [ha] at h
    simp only [Option.map_some, Option.some.injEq, Prod.mk.injEq, Bool.or_eq_false_iff] at h
    obtain ⟨rfl, ⟨rfl, hany⟩, rfl⟩ := h
    have h1 := afterPk_false ha
    obtain ⟨rfl, hpk⟩ := h1
    have hc : ∀ c ∈ t.columns, (c.resolveType json r').2 = false := by
      intro c hc
      simp only [List.any_map, List.any_eq_false, Function.comp] at hany
      simpa using hany c hc
    refine ⟨rfl, ?_, hpk, ?_⟩
    · have : (t.columns.map (AColumn.resolveType json r')).map (·.1) = t.columns := by
        rw [List.map_map]
        conv => rhs; rw [← List.map_id t.columns]
        apply List.map_congr_left
        intro c hcm
        exact (resolveType_false (hc c hcm)).1
      rw [this]
    · intro c hcm k hk
      exact (resolveType_false (hc c hcm)).2 k hk

theorem passTables_false {json : Bool} {r r1 : Resolver} {es es1 : List (String × ATable)}
    (h : passTables json r es = some (r1, false, es1)) :
    r1 = r ∧ es1 = es ∧
      (∀ e ∈ es, ∀ c, e.2.pk = some c → ∀ ty, c.typeid = some ty →
        ∃ t', SMap.lookup r (.pk e.2.name) = some t') ∧
      (∀ e ∈ es, ∀ c ∈ e.2.columns, ∀ k, c.sqltype = .deferred k → r.findType json k = none) := by
  induction es generalizing r r1 es1 with
  | nil => simp [passTables] at h; obtain ⟨rfl, rfl⟩ := h; simp
  | cons e rest ih =>
    obtain ⟨n, t⟩ := e
    simp only [passTables] at h
    split at h
    · cases h
    · rename_i ra cha ta hta
      split at h
      · cases h
      · rename_i rb chb tb htb
        simp only [Option.some.injEq, Prod.mk.injEq, Bool.or_eq_false_iff] at h
        obtain ⟨rfl, ⟨rfl, rfl⟩, rfl⟩ := h
        obtain ⟨rfl, rfl, h1, h2⟩ := passTable_false hta
        obtain ⟨rfl, rfl, h3, h4⟩ := ih htb
        refine ⟨rfl, rfl, ?_, ?_⟩
        · intro e he
          rcases List.mem_cons.1 he with rfl | he
          · exact h1
          · exact h3 e he
        · intro e he
          rcases List.mem_cons.1 he with rfl | he
          · exact h2
          · exact h4 e he

theorem passExtra_false {json : Bool} {r : Resolver} {es : List (TypeKey × DeferredSqlType)}
    (h : (passExtra json r es).2.1 = false) :
    passExtra json r es = (r, false, es) ∧
      (∀ e ∈ es, e.2.isKnown = true → ∃ t, SMap.lookup r e.1 = some t) ∧
      (∀ k k', (k, DeferredSqlType.deferred k') ∈ es → r.findType json k' = none) := by
  induction es generalizing r with
  | nil => exact ⟨rfl, by simp, by simp⟩
  | cons e rest ih =>
    obtain ⟨k, d⟩ := e
    simp only [passExtra, Bool.or_eq_false_iff] at h
    have key : (passExtra1 json r k d) = (r, false, d) ∧
        (d.isKnown = true → ∃ t, SMap.lookup r k = some t) ∧
        (∀ k', d = .deferred k' → r.findType json k' = none) := by
      have h1 := h.1
      cases d with
      | known t =>
        simp only [passExtra1] at h1 ⊢
        have := Resolver.put_false h1
        exact ⟨by rw [this.1, h1], fun _ => this.2, by simp⟩
      | knownId t =>
        simp only [passExtra1] at h1 ⊢
        have := Resolver.put_false h1
        exact ⟨by rw [this.1, h1], fun _ => this.2, by simp⟩
      | deferred key =>
        simp only [passExtra1] at h1 ⊢
        cases hf : r.findType json key with
        | some ty => rw [hf] at h1; cases h1
        | none =>
          refine ⟨rfl, by simp [DeferredSqlType.isKnown], ?_⟩
          intro k' e; cases e; exact hf
    obtain ⟨hk1, hk2, hk3⟩ := key
    have h2 := h.2
    rw [hk1] at h2
    obtain ⟨i1, i2, i3⟩ := ih h2
    refine ⟨by simp [passExtra, hk1, i1], ?_, ?_⟩
    · intro e he
      rcases List.mem_cons.1 he with rfl | he
      · exact hk2
      · exact i2 e he
    · intro a b hab
      rcases List.mem_cons.1 hab with e | hab
      · cases e; exact hk3 b rfl
      · exact i3 a b hab

theorem pass_false {json : Bool} {s s' : RState} (h : pass json s = some (s', false)) :
    s' = s ∧ Closed json s := by
  unfold pass at h
  split at h
  · cases h
  · rename_i r1 ch1 t1 ht
    simp only [Option.some.injEq, Prod.mk.injEq, Bool.or_eq_false_iff] at h
    obtain ⟨rfl, rfl, hch⟩ := h
    obtain ⟨rfl, rfl, h1, h2⟩ := passTables_false ht
    obtain ⟨e, h3, h4⟩ := passExtra_false hch
    refine ⟨by rw [e], h1, h2, h3, h4⟩

theorem findType_of_lookup {json : Bool} {r : Resolver} {k : TypeKey} {t : TypeIdentifier}
    (h : SMap.lookup r k = some t) : ∃ t', r.findType json k = some t' := by
  unfold Resolver.findType
  split
  · exact ⟨_, rfl⟩
  · exact ⟨t, h⟩

/-- At a fixpoint, every key that stands for a type is found. -/
theorem closed_complete {json : Bool} {db : ADB} {s : RState} (hi : Inv json db s)
    (hc : Closed json s) {k : TypeKey} {ty : TypeIdentifier} (h : Stands json db k ty) :
    ∃ t, s.resolver.findType json k = some t := by
  induction h with
  | map hj hn =>
    refine ⟨.ty .json, ?_⟩
    simp [Resolver.findType, hj, (isJsonMap_iff _).2 hn]
  | @tableKnown e c ty he hpk hd =>
    obtain ⟨e', he', hrel⟩ := hi.tables.mem_left he
    rcases pk_rel hrel with ⟨h1, _⟩ | ⟨c1, c', h1, h2, hr⟩
    · rw [h1] at hpk; cases hpk
    · rw [h1] at hpk; cases hpk
      have hty : c'.typeid = some ty := by
        rcases hr.type with ht | ⟨k, t, hk, _, _⟩
        · unfold AColumn.typeid
          rw [ht]
          revert hd
          cases c.sqltype <;> simp [denotes]
        · rw [hk] at hd; cases hd
      obtain ⟨t, ht⟩ := hc.pk e' he' c' h2 ty hty
      rw [hrel.2.1] at ht
      exact findType_of_lookup ht
  | @tableKey e c k ty he hpk hd _ ih =>
    obtain ⟨e', he', hrel⟩ := hi.tables.mem_left he
    rcases pk_rel hrel with ⟨h1, _⟩ | ⟨c1, c', h1, h2, hr⟩
    · rw [h1] at hpk; cases hpk
    · rw [h1] at hpk; cases hpk
      have hmem : c' ∈ e'.2.columns := List.mem_of_find?_eq_some h2
      rcases hr.type with ht | ⟨k', t, hk, hk', _⟩
      · obtain ⟨t, hf⟩ := ih
        have := hc.cols e' he' c' hmem k (by rw [ht, hd])
        rw [this] at hf; cases hf
      · have hty : c'.typeid = some t := by unfold AColumn.typeid; rw [hk']
        obtain ⟨t, ht⟩ := hc.pk e' he' c' h2 t hty
        rw [hrel.2.1] at ht
        exact findType_of_lookup ht
  | @extraKnown k d ty he hd =>
    obtain ⟨e', he', h1, h2⟩ := hi.extra.mem_left he
    have hk : e'.2.isKnown = true := by
      rcases h2 with ht | ⟨k', t, h3, h4, _⟩
      · rw [ht]; revert hd; cases d <;> simp [denotes, DeferredSqlType.isKnown]
      · rw [h4]; rfl
    obtain ⟨t, ht⟩ := hc.known e' he' hk
    rw [h1] at ht
    exact findType_of_lookup ht
  | @extraKey k k' ty he _ ih =>
    obtain ⟨e', he', h1, h2⟩ := hi.extra.mem_left he
    rcases h2 with ht | ⟨k'', t, h3, h4, _⟩
    · obtain ⟨t, hf⟩ := ih
      obtain ⟨a, b⟩ := e'
      simp only at ht
      subst ht
      have := hc.extra a k' he'
      rw [this] at hf; cases hf
    · have hk : e'.2.isKnown = true := by rw [h4]; rfl
      obtain ⟨t, ht⟩ := hc.known e' he' hk
      rw [h1] at ht
      exact findType_of_lookup ht

/-! ### Termination -/

/-- 1 if the resolver does not know the key yet. -/
def unk (r : Resolver) (k : TypeKey) : Nat := if (SMap.lookup r k).isSome then 0 else 1

theorem unk_mono {r r' : Resolver} (h : r.le r') (k : TypeKey) : unk r' k ≤ unk r k := by
  unfold unk
  cases hk : SMap.lookup r k with
  | none => simp; split <;> omega
  | some t => simp [h k t hk]

theorem unk_put (r : Resolver) (k : TypeKey) (t : TypeIdentifier) :
    unk (r.put k t).1 k + (r.put k t).2.toNat ≤ unk r k := by
  obtain ⟨t', h⟩ := Resolver.put_lookup r k t
  have h0 : unk (r.put k t).1 k = 0 := by simp [unk, h]
  rw [h0]
  cases hc : (r.put k t).2 with
  | false => simp
  | true => simp [unk, Resolver.put_true hc]

/-- Number of deferred columns. -/
def defCols (cols : List AColumn) : Nat := (cols.filter (fun c => !c.sqltype.isKnown)).length

theorem resolveType_measure1 (json : Bool) (r : Resolver) (c : AColumn) :
    (!(c.resolveType json r).1.sqltype.isKnown).toNat + (c.resolveType json r).2.toNat ≤
      (!c.sqltype.isKnown).toNat := by
  unfold AColumn.resolveType
  cases hk : c.sqltype.isKnown with
  | true => simp [hk]
  | false =>
    simp only [Bool.false_eq_true, if_false]
    cases c.sqltype.resolve json r with
    | none => simp [hk]
    | some ty => simp [DeferredSqlType.isKnown]

theorem defCols_cons (c : AColumn) (rest : List AColumn) :
    defCols (c :: rest) = (!c.sqltype.isKnown).toNat + defCols rest := by
  simp only [defCols, List.filter_cons]
  cases c.sqltype.isKnown <;> simp <;> omega

theorem toNat_or_le (a b : Bool) : (a || b).toNat ≤ a.toNat + b.toNat := by
  cases a <;> cases b <;> decide

theorem resolveType_measure (json : Bool) (r : Resolver) (cols : List AColumn) :
    defCols ((cols.map (AColumn.resolveType json r)).map (·.1)) +
      ((cols.map (AColumn.resolveType json r)).any (·.2)).toNat ≤ defCols cols := by
  induction cols with
  | nil => simp [defCols]
  | cons c rest ih =>
    simp only [List.map_cons, List.any_cons, defCols_cons]
    have h1 := resolveType_measure1 json r c
    have h2 := toNat_or_le (c.resolveType json r).2
      ((rest.map (AColumn.resolveType json r)).any (·.2))
    omega

def wT (r : Resolver) (e : String × ATable) : Nat := unk r (.pk e.2.name) + defCols e.2.columns
def wE (r : Resolver) (e : TypeKey × DeferredSqlType) : Nat := unk r e.1 + (!e.2.isKnown).toNat
def sumT (r : Resolver) (l : List (String × ATable)) : Nat := (l.map (wT r)).sum
def sumE (r : Resolver) (l : List (TypeKey × DeferredSqlType)) : Nat := (l.map (wE r)).sum

theorem sumT_mono {r r' : Resolver} (h : r.le r') (l : List (String × ATable)) : sumT r' l ≤ sumT r l := by
  induction l with
  | nil => simp [sumT]
  | cons e rest ih =>
    simp only [sumT, List.map_cons, List.sum_cons, wT] at ih ⊢
    have := unk_mono h (.pk e.2.name)
    omega

theorem sumE_mono {r r' : Resolver} (h : r.le r') (l : List (TypeKey × DeferredSqlType)) :
    sumE r' l ≤ sumE r l := by
  induction l with
  | nil => simp [sumE]
  | cons e rest ih =>
    simp only [sumE, List.map_cons, List.sum_cons, wE] at ih ⊢
    have := unk_mono h e.1
    omega

theorem afterPk_measure {r r' : Resolver} {t : ATable} {ch : Bool} (h : afterPk r t = some (r', ch)) :
    r.le r' ∧ unk r' (.pk t.name) + ch.toNat ≤ unk r (.pk t.name) := by
  unfold afterPk at h
  split at h
  · split at h
    · rename_i ty _
      have h' : r.put (.pk t.name) ty = (r', ch) := Option.some.inj h
      have h1 := Resolver.put_le r (.pk t.name) ty
      have h2 := unk_put r (.pk t.name) ty
      rw [h'] at h1 h2
      exact ⟨h1, h2⟩
    · cases h; exact ⟨Resolver.le_refl _, by simp⟩
  · split at h
    · cases h; exact ⟨Resolver.le_refl _, by simp⟩
    · cases h

theorem passTable_measure {json : Bool} {r r1 : Resolver} {t t1 : ATable} {ch : Bool}
    (h : passTable json r t = some (r1, ch, t1)) (n : String) :
    r.le r1 ∧ wT r1 (n, t1) + ch.toNat ≤ wT r (n, t) := by
  rw [passTable_eq] at h
  cases ha : afterPk r t with
  | none => rw [ha] at h; cases h
  | some p =>
    obtain ⟨r', ch'⟩ := p
    rw [ha] at h
    simp only [Option.map_some, Option.some.injEq, Prod.mk.injEq] at h
    obtain ⟨rfl, rfl, rfl⟩ := h
    obtain ⟨h1, h2⟩ := afterPk_measure ha
    refine ⟨h1, ?_⟩
    simp only [wT]
    have h3 := resolveType_measure json r' t.columns
    have h4 := toNat_or_le ch' ((t.columns.map (AColumn.resolveType json r')).any (·.2))
    omega

theorem passTables_measure {json : Bool} {r r1 : Resolver} {es es1 : List (String × ATable)} {ch : Bool}
    (h : passTables json r es = some (r1, ch, es1)) :
    r.le r1 ∧ sumT r1 es1 + ch.toNat ≤ sumT r es := by
  induction es generalizing r r1 es1 ch with
  | nil => simp [passTables] at h; obtain ⟨rfl, rfl, rfl⟩ := h; exact ⟨Resolver.le_refl _, by simp⟩
  | cons e rest ih =>
    obtain ⟨n, t⟩ := e
    simp only [passTables] at h
    split at h
    · cases h
    · rename_i ra cha ta hta
      split at h
      · cases h
      · rename_i rb chb tb htb
        cases h
        obtain ⟨l1, m1⟩ := passTable_measure hta n
        obtain ⟨l2, m2⟩ := ih htb
        refine ⟨Resolver.le_trans l1 l2, ?_⟩
        simp only [sumT, List.map_cons, List.sum_cons] at m2 ⊢
        have h1 := unk_mono l2 (.pk ta.name)
        have h2 : wT r1 (n, ta) ≤ wT ra (n, ta) := by simp only [wT]; omega
        have h3 := sumT_mono l1 rest
        simp only [sumT] at h3
        have h4 := toNat_or_le cha chb
        omega

theorem passExtra_measure (json : Bool) (r : Resolver) (es : List (TypeKey × DeferredSqlType)) :
    r.le (passExtra json r es).1 ∧
      sumE (passExtra json r es).1 (passExtra json r es).2.2 + (passExtra json r es).2.1.toNat
        ≤ sumE r es := by
  induction es generalizing r with
  | nil => exact ⟨Resolver.le_refl _, by simp [passExtra]⟩
  | cons e rest ih =>
    obtain ⟨k, d⟩ := e
    simp only [passExtra]
    have key : r.le (passExtra1 json r k d).1 ∧
        wE (passExtra1 json r k d).1 (k, (passExtra1 json r k d).2.2) + (passExtra1 json r k d).2.1.toNat
          ≤ wE r (k, d) := by
      cases d with
      | known t =>
        simp only [passExtra1, wE]
        exact ⟨Resolver.put_le _ _ _, by have := unk_put r k (.ty t); omega⟩
      | knownId t =>
        simp only [passExtra1, wE]
        exact ⟨Resolver.put_le _ _ _, by have := unk_put r k t; omega⟩
      | deferred key =>
        simp only [passExtra1]
        cases r.findType json key with
        | none => exact ⟨Resolver.le_refl _, by simp⟩
        | some ty => exact ⟨Resolver.le_refl _, by simp [wE, DeferredSqlType.isKnown]⟩
    revert key
    generalize passExtra1 json r k d = p
    obtain ⟨r1, c1, d1⟩ := p
    rintro ⟨l1, m1⟩
    obtain ⟨l2, m2⟩ := ih r1
    revert l2 m2
    generalize passExtra json r1 rest = q
    obtain ⟨r2, c2, es2⟩ := q
    intro l2 m2
    simp only at *
    refine ⟨Resolver.le_trans l1 l2, ?_⟩
    simp only [sumE, List.map_cons, List.sum_cons] at m2 ⊢
    have h1 := unk_mono l2 k
    have h2 : wE r2 (k, d1) ≤ wE r1 (k, d1) := by simp only [wE]; omega
    have h3 := sumE_mono l1 rest
    simp only [sumE] at h3
    have h4 := toNat_or_le c1 c2
    omega

/-- What is left to do. -/
def RState.todo (s : RState) : Nat := sumT s.resolver s.tables + sumE s.resolver s.extra

theorem pass_measure {json : Bool} {s s' : RState} {ch : Bool} (h : pass json s = some (s', ch)) :
    s'.todo + ch.toNat ≤ s.todo := by
  unfold pass at h
  split at h
  · cases h
  · rename_i r1 ch1 t1 ht
    cases h
    obtain ⟨l1, m1⟩ := passTables_measure ht
    obtain ⟨l2, m2⟩ := passExtra_measure json r1 s.extra
    have h1 := sumT_mono l2 t1
    have h2 := sumE_mono l1 s.extra
    have h3 := toNat_or_le ch1 (passExtra json r1 s.extra).2.1
    change sumT (passExtra json r1 s.extra).1 t1 + sumE (passExtra json r1 s.extra).1
      (passExtra json r1 s.extra).2.2 + (ch1 || (passExtra json r1 s.extra).2.1).toNat ≤
      sumT s.resolver s.tables + sumE s.resolver s.extra
    omega

theorem resolveLoop_terminates (json : Bool) (fuel : Nat) (s : RState) (h : s.todo < fuel) :
    resolveLoop json fuel s ≠ .outOfFuel := by
  induction fuel generalizing s with
  | zero => omega
  | succ n ih =>
    simp only [resolveLoop]
    split
    · simp
    · rename_i s' hp
      have := pass_measure hp
      simp at this
      exact ih s' (by omega)
    · simp

theorem resolveLoop_stable (json : Bool) (fuel : Nat) (s : RState)
    (h : resolveLoop json fuel s ≠ .outOfFuel) (extra : Nat) :
    resolveLoop json (fuel + extra) s = resolveLoop json fuel s := by
  induction fuel generalizing s with
  | zero => exact absurd rfl h
  | succ n ih =>
    rw [show n + 1 + extra = (n + extra) + 1 by omega]
    simp only [resolveLoop] at h ⊢
    split
    · rfl
    · rename_i s' hp
      rw [hp] at h
      exact ih s' h
    · rfl

theorem resolveLoop_done {json : Bool} {db : ADB} {fuel : Nat} {s s' : RState} (hi : Inv json db s)
    (h : resolveLoop json fuel s = .done s') : Inv json db s' ∧ Closed json s' := by
  induction fuel generalizing s with
  | zero => cases h
  | succ n ih =>
    simp only [resolveLoop] at h
    split at h
    · cases h
    · rename_i s1 hp
      exact ih (pass_inv hi hp) h
    · rename_i s1 hp
      cases h
      obtain ⟨e, hc⟩ := pass_false hp
      rw [e]
      exact ⟨hi, hc⟩

/-! ### References -/

theorem refTarget_refers {db : ADB} {key : TypeKey} {name : String}
    (hn : refTarget db.extraTypes key = some name) : RefersTo db key name := by
  unfold refTarget at hn
  split at hn
  · rename_i t ht; cases hn; exact .alias ht
  · rename_i hne
    split at hn
    · cases hn
      exact .direct (fun u hu => hne u hu)
    · cases hn

theorem refers_refTarget {db : ADB} {key : TypeKey} {name : String} (h : RefersTo db key name) :
    refTarget db.extraTypes key = some name := by
  cases h with
  | alias h => simp [refTarget, h]
  | direct h =>
    unfold refTarget
    split
    · rename_i t ht; exact absurd ht (h t)
    · rfl

theorem resolveReferenceTarget_rel {json : Bool} {db : ADB} {c c' : AColumn}
    (h : c.resolveReferenceTarget db.extraTypes db.tables = some c') : ColResolved json db c c' := by
  have same : RefResolved db c.reference c.reference → ColResolved json db c c := fun h =>
    ⟨rfl, Or.inl rfl, rfl, rfl, rfl, rfl, rfl, h⟩
  unfold AColumn.resolveReferenceTarget at h
  split at h
  · rename_i hr; cases h; exact same (by rw [hr]; rfl)
  · rename_i hr; cases h; exact same (by rw [hr]; rfl)
  · rename_i key hkey
    split at h
    · cases h
    · rename_i name hn
      have hrt := refTarget_refers hn
      split at h
      · rename_i t ht
        split at h
        · rename_i pk hpk
          cases h
          refine ⟨rfl, Or.inl rfl, rfl, rfl, rfl, rfl, rfl, ?_⟩
          rw [hkey]
          exact ⟨key, name, rfl, hrt, by simp [ADB.getTable, ht, hpk]⟩
        · rename_i hpk
          cases h
          apply same
          rw [hkey]
          exact ⟨key, name, rfl, hrt, by simp [ADB.getTable, ht, hpk]⟩
      · rename_i ht
        cases h
        apply same
        rw [hkey]
        exact ⟨key, name, rfl, hrt, by simp [ADB.getTable, ht]⟩
  · cases h

theorem resolveReferences_inv {json : Bool} {db : ADB} {tables : SMap String ATable}
    (h : resolveReferences db = some tables) : Inv json db ⟨[], tables, db.extraTypes⟩ := by
  refine ⟨by intro k t h; simp [SMap.lookup] at h, ?_, ?_⟩
  · refine (mapPanic_allMatch h).imp ?_
    intro a _ b _ hab
    simp only at hab
    split at hab
    · cases hab
    · rename_i cols hcols
      cases hab
      refine ⟨rfl, rfl, ?_⟩
      exact (mapPanic_allMatch hcols).imp (fun x _ y _ hxy => resolveReferenceTarget_rel hxy)
  · exact AllMatch.refl (fun e => ⟨rfl, Or.inl rfl⟩) _

theorem firstDeferred_none {tables : SMap String ATable} (h : firstDeferred tables = none) :
    ∀ e ∈ tables, ∀ c ∈ e.2.columns, c.sqltype.isKnown = true := by
  intro e he c hc
  simp only [firstDeferred, List.findSome?_eq_none_iff, List.mem_flatMap] at h
  have := h c ⟨e, he, hc⟩
  revert this
  cases c.sqltype <;> simp [DeferredSqlType.isKnown]

theorem firstDeferred_some {tables : SMap String ATable} {k : TypeKey} (h : firstDeferred tables = some k) :
    ∃ e ∈ tables, ∃ c ∈ e.2.columns, c.sqltype = .deferred k := by
  simp only [firstDeferred] at h
  obtain ⟨c, hc, hk⟩ := List.exists_of_findSome?_eq_some h
  obtain ⟨e, he, hce⟩ := List.mem_flatMap.1 hc
  refine ⟨e, he, c, hce, ?_⟩
  revert hk
  cases c.sqltype <;> simp

/-! ### Panics -/

theorem endsWith_iff (s p : String) : endsWithStr s p = true ↔ ∃ q, s = q ++ p := by
  simp only [endsWithStr, List.isSuffixOf_iff_suffix, List.IsSuffix]
  constructor
  · rintro ⟨t, h⟩
    exact ⟨String.ofList t, by rw [← String.toList_inj, String.toList_append, ← h]; simp⟩
  · rintro ⟨q, h⟩; exact ⟨q.toList, by rw [h, String.toList_append]⟩

/-- The tables for which a pass does not panic. -/
def PkOk (tables : List (String × ATable)) : Prop :=
  ∀ e ∈ tables, e.2.pk ≠ none ∨ endsWithStr e.2.name manySuffix = true

theorem afterPk_some {r : Resolver} {t : ATable}
    (h : t.pk ≠ none ∨ endsWithStr t.name manySuffix = true) : ∃ p, afterPk r t = some p := by
  unfold afterPk
  split
  · split <;> exact ⟨_, rfl⟩
  · rename_i hn
    rcases h with h | h
    · exact absurd hn h
    · rw [if_pos h]; exact ⟨_, rfl⟩

theorem afterPk_none {r : Resolver} {t : ATable} {p : Resolver × Bool} (h : afterPk r t = some p) :
    t.pk ≠ none ∨ endsWithStr t.name manySuffix = true := by
  unfold afterPk at h
  split at h
  · rename_i hp; exact Or.inl (by rw [hp]; simp)
  · split at h
    · rename_i hp; exact Or.inr hp
    · cases h

theorem passTables_some {json : Bool} {r : Resolver} {es : List (String × ATable)} (h : PkOk es) :
    ∃ p, passTables json r es = some p := by
  induction es generalizing r with
  | nil => exact ⟨_, rfl⟩
  | cons e rest ih =>
    obtain ⟨n, t⟩ := e
    obtain ⟨p, hp⟩ := afterPk_some (r := r) (h (n, t) List.mem_cons_self)
    have h1 : ∃ q, passTable json r t = some q := by rw [passTable_eq, hp]; exact ⟨_, rfl⟩
    obtain ⟨⟨r1, c1, t1⟩, hq⟩ := h1
    obtain ⟨⟨r2, c2, l⟩, hl⟩ := ih (r := r1) (fun e he => h e (List.mem_cons_of_mem _ he))
    exact ⟨_, by simp only [passTables, hq, hl]; rfl⟩

theorem passTables_pkOk {json : Bool} {r : Resolver} {es : List (String × ATable)}
    {p : Resolver × Bool × List (String × ATable)} (h : passTables json r es = some p) : PkOk es := by
  induction es generalizing r p with
  | nil => intro e he; cases he
  | cons e rest ih =>
    obtain ⟨n, t⟩ := e
    simp only [passTables] at h
    split at h
    · cases h
    · rename_i r1 c1 t1 ht
      split at h
      · cases h
      · rename_i r2 c2 l hl
        intro e he
        rcases List.mem_cons.1 he with rfl | he
        · rw [passTable_eq] at ht
          cases ha : afterPk r t with
          | none => rw [ha] at ht; cases ht
          | some q => exact afterPk_none ha
        · exact ih hl e he

theorem pkOk_rel {json : Bool} {db : ADB} {es es' : List (String × ATable)}
    (h : AllMatch (TblRel json db) es es') : PkOk es ↔ PkOk es' := by
  constructor
  · intro ho e' he'
    obtain ⟨e, he, hr⟩ := h.mem_right he'
    rw [hr.2.1]
    rcases ho e he with h1 | h1
    · rcases pk_rel hr with ⟨h2, _⟩ | ⟨c, c', _, h2, _⟩
      · exact absurd h2 h1
      · exact Or.inl (by rw [h2]; simp)
    · exact Or.inr h1
  · intro ho e he
    obtain ⟨e', he', hr⟩ := h.mem_left he
    have := ho e' he'
    rw [hr.2.1] at this
    rcases this with h1 | h1
    · rcases pk_rel hr with ⟨_, h2⟩ | ⟨c, c', h2, _, _⟩
      · exact absurd h2 h1
      · exact Or.inl (by rw [h2]; simp)
    · exact Or.inr h1

theorem resolveLoop_noPanic {json : Bool} {db : ADB} (fuel : Nat) {s : RState} (hi : Inv json db s)
    (h : PkOk db.tables) : resolveLoop json fuel s ≠ .panic := by
  induction fuel generalizing s with
  | zero => simp [resolveLoop]
  | succ n ih =>
    simp only [resolveLoop]
    split
    · rename_i hp
      obtain ⟨q, hq⟩ := passTables_some (json := json) (r := s.resolver) ((pkOk_rel hi.tables).1 h)
      simp [pass, hq] at hp
    · rename_i s' hp; exact ih (pass_inv hi hp)
    · simp

theorem resolveLoop_pkOk {json : Bool} {db : ADB} {fuel : Nat} {s s' : RState} (hi : Inv json db s)
    (h : resolveLoop json fuel s = .done s') : PkOk db.tables := by
  cases fuel with
  | zero => cases h
  | succ n =>
    simp only [resolveLoop] at h
    cases hp : pass json s with
    | none => rw [hp] at h; cases h
    | some p =>
      unfold pass at hp
      split at hp
      · cases hp
      · rename_i ht
        exact (pkOk_rel hi.tables).2 (passTables_pkOk ht)

/-! ### Resolving a resolved schema -/

theorem passTables_known {json : Bool} {r : Resolver} {es : List (String × ATable)}
    (hk : ∀ e ∈ es, ∀ c ∈ e.2.columns, c.sqltype.isKnown = true)
    {r1 : Resolver} {ch : Bool} {es1 : List (String × ATable)}
    (h : passTables json r es = some (r1, ch, es1)) : es1 = es := by
  induction es generalizing r r1 ch es1 with
  | nil => simp [passTables] at h; exact h.2.2.symm ▸ rfl
  | cons e rest ih =>
    obtain ⟨n, t⟩ := e
    simp only [passTables] at h
    split at h
    · cases h
    · rename_i ra ca ta hta
      split at h
      · cases h
      · rename_i rb cb tb htb
        cases h
        rw [ih (fun e he => hk e (List.mem_cons_of_mem _ he)) htb]
        rw [passTable_eq] at hta
        cases ha : afterPk r t with
        | none => rw [ha] at hta; cases hta
        | some p =>
          rw [ha] at hta
          simp only [Option.map_some, Option.some.injEq, Prod.mk.injEq] at hta
          obtain ⟨_, _, rfl⟩ := hta
          have : (t.columns.map (AColumn.resolveType json p.1)).map (·.1) = t.columns := by
            rw [List.map_map]
            conv => rhs; rw [← List.map_id t.columns]
            apply List.map_congr_left
            intro c hc
            have := hk (n, t) List.mem_cons_self c hc
            simp [AColumn.resolveType, this]
          rw [this]

theorem passExtra_stuck {json : Bool} {db : ADB} {r : Resolver} (hr : Sound json db r)
    {es : List (TypeKey × DeferredSqlType)} (hmem : ∀ e ∈ es, e ∈ db.extraTypes)
    (hk : ∀ k k', (k, DeferredSqlType.deferred k') ∈ es → ∀ ty, ¬ Stands json db k' ty) :
    (passExtra json r es).2.2 = es ∧ Sound json db (passExtra json r es).1 := by
  induction es generalizing r with
  | nil => exact ⟨rfl, hr⟩
  | cons e rest ih =>
    obtain ⟨k, d⟩ := e
    have h1 := passExtra1_inv (e := (k, d)) (d := d) (hmem _ List.mem_cons_self) (Or.inl rfl) hr
    have h2 : (passExtra1 json r k d).2.2 = d := by
      cases d with
      | known _ => rfl
      | knownId _ => rfl
      | deferred k' =>
        simp only [passExtra1]
        cases hf : r.findType json k' with
        | none => rfl
        | some ty => exact absurd (findType_sound hr hf) (hk k k' List.mem_cons_self ty)
    have h3 := ih h1.1 (fun e he => hmem e (List.mem_cons_of_mem _ he))
      (fun a b hab => hk a b (List.mem_cons_of_mem _ hab))
    exact ⟨by simp [passExtra, h2, h3.1], h3.2⟩

theorem resolveLoop_stuck {json : Bool} {db : ADB} {fuel : Nat} {s s' : RState}
    (hi : Inv json db s) (ht : s.tables = db.tables) (he : s.extra = db.extraTypes)
    (hk : ∀ e ∈ db.tables, ∀ c ∈ e.2.columns, c.sqltype.isKnown = true)
    (hx : ∀ k k', (k, DeferredSqlType.deferred k') ∈ db.extraTypes → ∀ ty, ¬ Stands json db k' ty)
    (h : resolveLoop json fuel s = .done s') : s'.tables = db.tables ∧ s'.extra = db.extraTypes := by
  induction fuel generalizing s with
  | zero => cases h
  | succ n ih =>
    have step : ∀ s1 ch, pass json s = some (s1, ch) →
        Inv json db s1 ∧ s1.tables = db.tables ∧ s1.extra = db.extraTypes := by
      intro s1 ch hp
      refine ⟨pass_inv hi hp, ?_⟩
      unfold pass at hp
      split at hp
      · cases hp
      · rename_i r1 c1 t1 ht1
        have hsound := (passTables_inv (fun e he => he) hi.tables hi.sound ht1).1
        cases hp
        rw [ht] at ht1
        refine ⟨passTables_known hk ht1, ?_⟩
        rw [he]
        exact (passExtra_stuck hsound (fun e he => he) hx).1
    simp only [resolveLoop] at h
    split at h
    · cases h
    · rename_i s1 hp
      obtain ⟨h1, h2, h3⟩ := step _ _ hp
      exact ih h1 h2 h3 h
    · rename_i s1 hp
      cases h
      exact (step _ _ hp).2

end Butane
