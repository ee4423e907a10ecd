/-
What the statements of a migration do to the catalog of PostgreSQL.
-/
import Verif.Proofs.PgRead
import Verif.Proofs.DdlExec

namespace Butane.PgP
open Butane.Ddl hiding exec execAll execScript
open Butane.PgCat Butane.DdlP Spec

variable {env : PgEnv} {old new : ADB}

/-! ### Names of constraints -/

/-- What the default name of a constraint depends on. -/
def label : PKind → Nat × String
  | .pk _ => (0, "")
  | .unique c => (1, c)
  | .fk c _ _ => (2, c)

theorem append_right_inj' {a b s : String} (h : a ++ s = b ++ s) : a = b := by
  apply String.toList_inj.1
  have := congrArg String.toList h
  simpa using this

theorem append_left_inj' {a s t : String} (h : a ++ s = a ++ t) : s = t := by
  apply String.toList_inj.1
  have := congrArg String.toList h
  simpa using this

theorem suffix_clash {a b s t : String} (hl : ∃ c d r, s.toList.reverse = r ++ c :: [] ∧
    ∃ q, t.toList.reverse = r ++ d :: q ∧ c ≠ d) : a ++ s ≠ b ++ t := by
  intro h
  have := congrArg (fun x => x.toList.reverse) h
  obtain ⟨c, d, r, h1, q, h2, h3⟩ := hl
  simp only [String.toList_append, List.reverse_append, h1, h2, List.append_assoc,
    List.append_cancel_left_eq, List.cons_append, List.nil_append, List.cons.injEq] at this
  exact h3 this.1

theorem key_pkey (a b : String) : a ++ "_key" ≠ b ++ "_pkey" :=
  suffix_clash ⟨'_', 'p', ['y', 'e', 'k'], by decide, ['_'], by decide, by decide⟩

theorem key_fkey (a b : String) : a ++ "_key" ≠ b ++ "_fkey" :=
  suffix_clash ⟨'_', 'f', ['y', 'e', 'k'], by decide, ['_'], by decide, by decide⟩

theorem pkey_fkey (a b : String) : a ++ "_pkey" ≠ b ++ "_fkey" := by
  intro h
  have := congrArg (fun x => x.toList.reverse) h
  simp only [String.toList_append, List.reverse_append] at this
  have e1 : "_pkey".toList.reverse = ['y', 'e', 'k', 'p', '_'] := by decide
  have e2 : "_fkey".toList.reverse = ['y', 'e', 'k', 'f', '_'] := by decide
  rw [e1, e2] at this
  simp at this

/-- In one table, the default name determines kind and column. -/
theorem stdName_label {n : String} {k k' : PKind} : stdName n k = stdName n k' ↔ label k = label k' := by
  constructor
  · intro h
    cases k <;> cases k' <;> simp only [stdName, label] at h ⊢
    · exact absurd h.symm (key_pkey _ _)
    · exact absurd h (pkey_fkey _ _)
    · exact absurd h (key_pkey _ _)
    · rw [append_left_inj' (append_right_inj' h)]
    · exact absurd h (key_fkey _ _)
    · exact absurd h.symm (pkey_fkey _ _)
    · exact absurd h.symm (key_fkey _ _)
    · rw [append_left_inj' (append_right_inj' h)]
  · intro h
    cases k <;> cases k' <;> simp_all [stdName, label]

/-- The default name of a constraint of the table is used nowhere else. -/
theorem stdName_apart (ha : NamesApart old new) {n m c d : String} {k k' : PKind}
    (hn : HasColumn old new n c) (hm : HasColumn old new m d) (hk : k.col = lower c)
    (hk' : k'.col = lower d) (h : stdName (lower n) k = stdName (lower m) k') : n = m := by
  have tn : HasTable old new n := let ⟨t, ht, _⟩ := hn; ⟨t, ht⟩
  have tm : HasTable old new m := let ⟨t, ht, _⟩ := hm; ⟨t, ht⟩
  cases k <;> cases k' <;> simp only [stdName, PKind.col] at h hk hk'
  · exact ha.tables n m tn tm (append_right_inj' h)
  · exact absurd h.symm (key_pkey _ _)
  · exact absurd h (pkey_fkey _ _)
  · exact absurd h (key_pkey _ _)
  · subst hk hk'
    exact (ha.constraints n c m d hn hm (append_right_inj' h)).1
  · exact absurd h (key_fkey _ _)
  · exact absurd h.symm (pkey_fkey _ _)
  · exact absurd h.symm (key_fkey _ _)
  · subst hk hk'
    exact (ha.constraints n c m d hn hm (append_right_inj' h)).1

/-! ### Adding constraints -/

/-- The name is not used outside of the table. -/
structure Outside (db : PDb) (n x : String) : Prop where
  self : x ≠ n
  table : db.lookup x = none
  con : ∀ m s, m ≠ n → db.lookup m = some s → ∀ c ∈ s.cons, c.name ≠ x

theorem not_taken {db : PDb} (hs : db.Sorted) {n x : String} {t : PTable} (h : Outside db n x)
    (ht : x ∉ t.cons.map (·.name)) : x ∉ taken (db.insert n t) := by
  have hs' := SMap.sorted_insert hs n t
  intro hx
  simp only [taken, List.mem_append, List.mem_map, List.mem_flatMap] at hx
  rcases hx with ⟨e, he, rfl⟩ | ⟨e, he, c, hc, rfl⟩
  · have := SMap.lookup_of_mem hs' (k := e.1) (v := e.2) he
    rw [SMap.lookup_insert, if_neg h.self, h.table] at this
    cases this
  · have := SMap.lookup_of_mem hs' (k := e.1) (v := e.2) he
    rw [SMap.lookup_insert] at this
    split at this
    · cases this
      exact ht (List.mem_map_of_mem hc)
    · next hne => exact h.con e.1 e.2 hne this c hc rfl

/-- A constraint with its default name. -/
def stdCon (n : String) (k : PKind) : PCon := ⟨stdName n k, k⟩

theorem addCon_std (hen : Naming env) {db : PDb} (hs : db.Sorted) {n : String} {t : PTable}
    {k : PKind} (h : Outside db n (stdName n k)) (ht : stdName n k ∉ t.cons.map (·.name))
    (hl : (stdName n k).utf8ByteSize ≤ 63) :
    addCon env db n t k = { t with cons := t.cons ++ [stdCon n k] } := by
  simp only [addCon, stdCon]
  rw [hen.std _ _ (not_taken hs h ht) hl]

theorem addCons_std (hen : Naming env) {db : PDb} (hs : db.Sorted) {n : String} {t : PTable}
    {ks : List PKind} (h : ∀ k ∈ ks, Outside db n (stdName n k) ∧ (stdName n k).utf8ByteSize ≤ 63)
    (hnd : (t.cons.map (·.name) ++ ks.map (stdName n)).Nodup) :
    addCons env db n t ks = { t with cons := t.cons ++ ks.map (stdCon n) } := by
  induction ks generalizing t with
  | nil => simp [addCons]
  | cons k ks ih =>
    have hk := h k (List.mem_cons_self ..)
    have hnt : stdName n k ∉ t.cons.map (·.name) := by
      intro hm
      rw [List.nodup_append] at hnd
      exact hnd.2.2 _ hm _ (List.mem_map_of_mem (List.mem_cons_self ..)) rfl
    have e := addCon_std hen hs hk.1 hnt hk.2
    show addCons env db n (addCon env db n t k) ks = _
    rw [e, ih (fun x hx => h x (List.mem_cons_of_mem _ hx))]
    · simp
    · simpa [stdCon] using hnd

/-! ### Tables -/

/-- The table of the database is the one of the schema and has default names. -/
structure TJ (old new : ADB) (n : String) (t : ATable) (s : PTable) : Prop where
  is : PgTableIs t s
  cols : (s.cols.map (·.name)).Nodup
  names : ∀ x ∈ s.cons, x.name = stdName (lower n) x.kind
  cons : (s.cons.map (·.name)).Nodup
  known : ∀ c ∈ t.columns, HasColumn old new n c.name
  distinct : (t.columns.map (·.name)).Nodup

/-- The schemas while a migration runs, and the database. -/
structure J (old new : ADB) (G : String → Option ATable) (db : PDb) : Prop where
  tables : ∀ n t, G n = some t → ∃ s, db.lookup (lower n) = some s ∧ TJ old new n t s
  only : ∀ m s, db.lookup m = some s → ∃ n t, G n = some t ∧ m = lower n
  sorted : db.Sorted
  known : ∀ n t, G n = some t → HasTable old new n

/-- A function with one value changed. -/
def upd (G : String → Option ATable) (n : String) (o : Option ATable) : String → Option ATable :=
  fun m => if m = n then o else G m

theorem upd_self {G : String → Option ATable} {n : String} {o : Option ATable} : upd G n o n = o := by
  simp [upd]

theorem con_col {t : ATable} {k : PKind} (h : PgConstraint t k) :
    ∃ c ∈ t.columns, k.col = lower c.name := by
  cases k with
  | pk c => obtain ⟨x, h1, -, h2⟩ := h; exact ⟨x, h1, h2⟩
  | unique c => obtain ⟨x, h1, -, h2⟩ := h; exact ⟨x, h1, h2⟩
  | fk c r k => obtain ⟨x, h1, h2, -⟩ := h; exact ⟨x, h1, h2⟩

/-- Default names of the table are not used elsewhere. -/
theorem J.outside {G : String → Option ATable} {db : PDb} (ha : NamesApart old new)
    (h : J old new G db) {n c : String} {k : PKind} (hc : HasColumn old new n c)
    (hk : k.col = lower c) :
    Outside db (lower n) (stdName (lower n) k) := by
  have hn : HasTable old new n := let ⟨t, ht, _⟩ := hc; ⟨t, ht⟩
  refine ⟨ha.free n n c k hn hc hk, ?_, ?_⟩
  · cases hl : db.lookup (stdName (lower n) k) with
    | none => rfl
    | some s =>
      obtain ⟨m, t, hG, hm⟩ := h.only _ s hl
      exact absurd hm (ha.free m n c k (h.known m t hG) hc hk)
  · intro m s hne hl x hx he
    obtain ⟨m', t, hG, rfl⟩ := h.only _ s hl
    obtain ⟨s', hl', htj⟩ := h.tables m' t hG
    rw [hl] at hl'
    cases hl'
    obtain ⟨y, hy, hyk⟩ := con_col ((htj.is.constraints x.kind).1 ⟨x, hx, rfl⟩)
    rw [htj.names x hx] at he
    have := stdName_apart ha (htj.known y hy) hc hyk hk he
    exact hne (by rw [this])

/-- Changing one table. -/
theorem J.set {G : String → Option ATable} {db : PDb} (ha : NamesApart old new)
    (h : J old new G db) {n : String} {t' : ATable} {s' : PTable} (hn : HasTable old new n)
    (ht : TJ old new n t' s') : J old new (upd G n (some t')) (db.insert (lower n) s') := by
  refine ⟨?_, ?_, SMap.sorted_insert h.sorted _ _, ?_⟩
  · intro m t hG
    rw [SMap.lookup_insert]
    by_cases e : m = n
    · subst e
      rw [upd_self] at hG
      cases hG
      exact ⟨s', by simp, ht⟩
    · simp only [upd, if_neg e] at hG
      have : lower m ≠ lower n := fun h' => e (ha.tables m n (h.known m t hG) hn h')
      rw [if_neg this]
      exact h.tables m t hG
  · intro m s hl
    rw [SMap.lookup_insert] at hl
    split at hl
    · next e => exact ⟨n, t', upd_self, e⟩
    · next e =>
      obtain ⟨m', t, hG, rfl⟩ := h.only m s hl
      have : m' ≠ n := fun h' => e (by rw [h'])
      exact ⟨m', t, by simp [upd, this, hG], rfl⟩
  · intro m t hG
    by_cases e : m = n
    · exact e ▸ hn
    · simp only [upd, if_neg e] at hG
      exact h.known m t hG

theorem J.remove {G : String → Option ATable} {db : PDb} (ha : NamesApart old new)
    (h : J old new G db) {n : String} (hn : HasTable old new n) :
    J old new (upd G n none) (db.erase (lower n)) := by
  refine ⟨?_, ?_, SMap.sorted_erase h.sorted _, ?_⟩
  · intro m t hG
    by_cases e : m = n
    · subst e
      rw [upd_self] at hG
      cases hG
    · simp only [upd, if_neg e] at hG
      have : lower m ≠ lower n := fun h' => e (ha.tables m n (h.known m t hG) hn h')
      rw [SMap.lookup_erase h.sorted, if_neg this]
      exact h.tables m t hG
  · intro m s hl
    rw [SMap.lookup_erase h.sorted] at hl
    split at hl
    · cases hl
    · next e =>
      obtain ⟨m', t, hG, rfl⟩ := h.only m s hl
      have : m' ≠ n := fun h' => e (by rw [h'])
      exact ⟨m', t, by simp [upd, this, hG], rfl⟩
  · intro m t hG
    by_cases e : m = n
    · subst e
      rw [upd_self] at hG
      cases hG
    · simp only [upd, if_neg e] at hG
      exact h.known m t hG

/-! ### Single changes of a table -/

theorem mem_replace {cols : List AColumn} (hnd : (cols.map (·.name)).Nodup) {x y : AColumn} :
    y ∈ replaceCol cols x ↔ y = x ∨ (y ∈ cols ∧ y.name ≠ x.name) := by
  induction cols with
  | nil => simp [replaceCol]
  | cons a cols ih =>
    simp only [List.map_cons, List.nodup_cons, List.mem_map, not_exists, not_and] at hnd
    simp only [replaceCol]
    split
    · next he =>
      have he : a.name = x.name := by simpa using he
      simp only [List.mem_cons]
      constructor
      · rintro (h | h)
        · exact .inl h
        · exact .inr ⟨.inr h, fun e => hnd.1 y h (e.trans he.symm)⟩
      · rintro (h | ⟨h | h, hne⟩)
        · exact .inl h
        · exact absurd (h ▸ he) hne
        · exact .inr h
    · next he =>
      have he : a.name ≠ x.name := by simpa using he
      simp only [List.mem_cons, ih hnd.2]
      constructor
      · rintro (h | h | h)
        · exact .inr ⟨.inl h, h ▸ he⟩
        · exact .inl h
        · exact .inr ⟨.inr h.1, h.2⟩
      · rintro (h | ⟨h | h, hne⟩)
        · exact .inr (.inl h)
        · exact .inl h
        · exact .inr (.inr ⟨h, hne⟩)

/-- A constraint of the table with a column replaced. -/
theorem constraint_replace {t : ATable} (hnd : (t.columns.map (·.name)).Nodup) {x x' : AColumn}
    (hx : x ∈ t.columns) (hn : x'.name = x.name) (hp : x'.pk = x.pk) (hu : x'.unique = x.unique)
    (hr : x'.reference = x.reference) (k : PKind) :
    PgConstraint (t.replaceColumn x') k ↔ PgConstraint t k := by
  have key : ∀ P : AColumn → Prop, (P x' ↔ P x) →
      ((∃ y ∈ (t.replaceColumn x').columns, P y) ↔ ∃ y ∈ t.columns, P y) := by
    intro P hP
    constructor
    · rintro ⟨y, hy, h⟩
      rcases (mem_replace hnd).1 hy with rfl | ⟨hy, -⟩
      · exact ⟨x, hx, hP.1 h⟩
      · exact ⟨y, hy, h⟩
    · rintro ⟨y, hy, h⟩
      by_cases e : y.name = x'.name
      · have : y = x := by
          have h1 := colByName_of_mem hnd hy
          have h2 := colByName_of_mem hnd hx
          rw [e, hn, h2] at h1
          cases h1; rfl
        subst this
        exact ⟨x', (mem_replace hnd).2 (.inl rfl), hP.2 h⟩
      · exact ⟨y, (mem_replace hnd).2 (.inr ⟨hy, e⟩), h⟩
  cases k with
  | pk c => exact key (fun y => y.pk = true ∧ c = lower y.name) (by rw [hp, hn])
  | unique c => exact key (fun y => y.unique = true ∧ c = lower y.name) (by rw [hu, hn])
  | fk c r k' =>
    exact key (fun y => c = lower y.name ∧
      ∃ r' k'', y.reference = some (.literal r' k'') ∧ r = lower r' ∧ k' = lower k'') (by rw [hr, hn])

theorem nodup_replace {t : ATable} (hnd : (t.columns.map (·.name)).Nodup) (x : AColumn) :
    ((t.replaceColumn x).columns.map (·.name)).Nodup := nodup_replaceCol hnd x

/-- The columns of the database after a column of the schema is replaced by one that only has
another type, another nullability or is no longer automatic. -/
theorem TJ.onCol (ha : NamesApart old new) {n : String} {t : ATable} {s : PTable}
    (h : TJ old new n t s) {x x' : AColumn} (hx : x ∈ t.columns) (hn : x'.name = x.name)
    (hp : x'.pk = x.pk) (hu : x'.unique = x.unique) (hr : x'.reference = x.reference)
    {f : PCol → PCol} (hf : ∀ d, PgColumnIs x d → PgColumnIs x' (f d)) (hfn : ∀ d, (f d).name = d.name) :
    TJ old new n (t.replaceColumn x') (PgCat.onCol s (lower x.name) f) := by
  have hnames : (PgCat.onCol s (lower x.name) f).cols.map (·.name) = s.cols.map (·.name) := by
    simp only [PgCat.onCol, List.map_map]
    refine List.map_congr_left fun d _ => ?_
    simp only [Function.comp]
    split
    · exact hfn d
    · rfl
  refine ⟨⟨?_, ?_, ?_⟩, by rw [hnames]; exact h.cols, h.names, h.cons, ?_, nodup_replace h.distinct _⟩
  · intro y hy
    rcases (mem_replace h.distinct).1 hy with rfl | ⟨hy, hne⟩
    · obtain ⟨d, hd, hi⟩ := h.is.columns x hx
      refine ⟨f d, ?_, hf d hi⟩
      simp only [PgCat.onCol, List.mem_map]
      exact ⟨d, hd, by rw [if_pos hi.name]⟩
    · obtain ⟨d, hd, hi⟩ := h.is.columns y hy
      refine ⟨d, ?_, hi⟩
      simp only [PgCat.onCol, List.mem_map]
      refine ⟨d, hd, if_neg ?_⟩
      rw [hi.name]
      intro e
      rw [hn] at hne
      exact hne (ha.columns n _ _ (h.known y hy) (h.known x hx) e)
  · intro d hd
    simp only [PgCat.onCol, List.mem_map] at hd
    obtain ⟨d', hd', rfl⟩ := hd
    have hname : (if d'.name = lower x.name then f d' else d').name = d'.name := by
      split
      · exact hfn d'
      · rfl
    rw [hname]
    obtain ⟨y, hy, e⟩ := h.is.only d' hd'
    by_cases hyx : y.name = x'.name
    · exact ⟨x', (mem_replace h.distinct).2 (.inl rfl), by rw [e, hyx]⟩
    · exact ⟨y, (mem_replace h.distinct).2 (.inr ⟨hy, hyx⟩), e⟩
  · intro k
    rw [constraint_replace h.distinct hx hn hp hu hr]
    exact h.is.constraints k
  · intro y hy
    rcases (mem_replace h.distinct).1 hy with rfl | ⟨hy, -⟩
    · rw [hn]; exact h.known x hx
    · exact h.known y hy

/-- The columns of the database are also those of another schema that differs in constraints. -/
theorem TJ.recon {n : String} {t t' : ATable} {s : PTable} (h : TJ old new n t s)
    (hcols : ∀ y ∈ t'.columns, ∃ z ∈ t.columns, z.name = y.name ∧ ∀ d, PgColumnIs z d → PgColumnIs y d)
    (hback : ∀ z ∈ t.columns, ∃ y ∈ t'.columns, z.name = y.name)
    (hd : (t'.columns.map (·.name)).Nodup) {cons : List PCon}
    (hnames : ∀ x ∈ cons, x.name = stdName (lower n) x.kind) (hnd : (cons.map (·.name)).Nodup)
    (hc : ∀ k, (∃ x ∈ cons, x.kind = k) ↔ PgConstraint t' k) :
    TJ old new n t' { s with cons := cons } := by
  refine ⟨⟨?_, ?_, hc⟩, h.cols, hnames, hnd, ?_, hd⟩
  · intro y hy
    obtain ⟨z, hz, -, hi⟩ := hcols y hy
    obtain ⟨d, hd, hdi⟩ := h.is.columns z hz
    exact ⟨d, hd, hi d hdi⟩
  · intro d hd
    obtain ⟨z, hz, e⟩ := h.is.only d hd
    obtain ⟨y, hy, e'⟩ := hback z hz
    exact ⟨y, hy, by rw [e, e']⟩
  · intro y hy
    obtain ⟨z, hz, e, -⟩ := hcols y hy
    exact e ▸ h.known z hz

theorem mem_uniq {t : ATable} (hnd : (t.columns.map (·.name)).Nodup) {x y : AColumn}
    (hx : x ∈ t.columns) (hy : y ∈ t.columns) (h : x.name = y.name) : x = y := by
  have h1 := colByName_of_mem hnd hx
  have h2 := colByName_of_mem hnd hy
  rw [h, h2] at h1
  cases h1; rfl

theorem replace_self {t : ATable} (hnd : (t.columns.map (·.name)).Nodup) {x : AColumn}
    (hx : x ∈ t.columns) : t.replaceColumn x = t := by
  have key : ∀ cols : List AColumn, (cols.map (·.name)).Nodup → x ∈ cols → replaceCol cols x = cols := by
    intro cols
    induction cols with
    | nil => intro _ h; cases h
    | cons a cols ih =>
      intro hnd hx
      simp only [List.map_cons, List.nodup_cons, List.mem_map, not_exists, not_and] at hnd
      simp only [replaceCol]
      rcases List.mem_cons.1 hx with rfl | hx
      · simp
      · have : a.name ≠ x.name := fun e => hnd.1 x hx e.symm
        simp only [beq_iff_eq, this, if_false, ih hnd.2 hx]
  cases t
  simp only [ATable.replaceColumn]
  rw [key _ hnd hx]

theorem replace_replace {t : ATable} {x x' : AColumn} (h : x'.name = x.name) :
    (t.replaceColumn x).replaceColumn x' = t.replaceColumn x' := by
  have key : ∀ cols : List AColumn, replaceCol (replaceCol cols x) x' = replaceCol cols x' := by
    intro cols
    induction cols with
    | nil => simp [replaceCol, h]
    | cons a cols ih =>
      simp only [replaceCol]
      by_cases e : a.name = x.name
      · simp [e, h, replaceCol]
      · simp [e, h, replaceCol, ih]
  simp only [ATable.replaceColumn, key]

/-- A constraint is added. -/
theorem TJ.addCon {n : String} {t t' : ATable} {s : PTable}
    (h : TJ old new n t s)
    (hcols : ∀ y ∈ t'.columns, ∃ z ∈ t.columns, z.name = y.name ∧ ∀ d, PgColumnIs z d → PgColumnIs y d)
    (hback : ∀ z ∈ t.columns, ∃ y ∈ t'.columns, z.name = y.name)
    (hd : (t'.columns.map (·.name)).Nodup) {k : PKind}
    (hk : ∀ x, PgConstraint t x → label x ≠ label k)
    (hc : ∀ x, PgConstraint t' x ↔ PgConstraint t x ∨ x = k) :
    TJ old new n t' { s with cons := s.cons ++ [stdCon (lower n) k] } := by
  refine h.recon hcols hback hd ?_ ?_ ?_
  · intro x hx
    rcases List.mem_append.1 hx with hx | hx
    · exact h.names x hx
    · simp only [List.mem_singleton] at hx
      subst hx
      rfl
  · rw [List.map_append, List.nodup_append]
    refine ⟨h.cons, by simp, ?_⟩
    intro a ha b hb e
    simp only [List.map_cons, List.map_nil, List.mem_singleton, stdCon] at hb
    obtain ⟨x, hx, rfl⟩ := List.mem_map.1 ha
    subst hb
    rw [h.names x hx, stdName_label] at e
    exact hk x.kind ((h.is.constraints _).1 ⟨x, hx, rfl⟩) e
  · intro x
    rw [hc, ← h.is.constraints]
    constructor
    · rintro ⟨y, hy, rfl⟩
      rcases List.mem_append.1 hy with hy | hy
      · exact .inl ⟨y, hy, rfl⟩
      · simp only [List.mem_singleton] at hy
        exact .inr (by rw [hy]; rfl)
    · rintro (⟨y, hy, rfl⟩ | rfl)
      · exact ⟨y, List.mem_append_left _ hy, rfl⟩
      · exact ⟨_, List.mem_append_right _ (List.mem_singleton.2 rfl), rfl⟩

/-- The name of a new constraint of a table is not in use. -/
theorem TJ.unused {n : String} {t : ATable} {s : PTable} (h : TJ old new n t s) {k : PKind}
    (hk : ∀ x, PgConstraint t x → label x ≠ label k) :
    stdName (lower n) k ∉ s.cons.map (·.name) := by
  intro hm
  obtain ⟨x, hx, e⟩ := List.mem_map.1 hm
  rw [h.names x hx, stdName_label] at e
  exact hk x.kind ((h.is.constraints _).1 ⟨x, hx, rfl⟩) e

/-- A constraint is dropped. -/
theorem TJ.dropCon {n : String} {t t' : ATable} {s : PTable}
    (h : TJ old new n t s)
    (hcols : ∀ y ∈ t'.columns, ∃ z ∈ t.columns, z.name = y.name ∧ ∀ d, PgColumnIs z d → PgColumnIs y d)
    (hback : ∀ z ∈ t.columns, ∃ y ∈ t'.columns, z.name = y.name)
    (hd : (t'.columns.map (·.name)).Nodup) {k : PKind}
    (hc : ∀ x, PgConstraint t' x ↔ PgConstraint t x ∧ label x ≠ label k) :
    TJ old new n t' { s with cons := s.cons.filter (·.name ≠ stdName (lower n) k) } := by
  refine h.recon hcols hback hd ?_ ?_ ?_
  · intro x hx
    exact h.names x (List.mem_filter.1 hx).1
  · exact (List.filter_sublist.map _).nodup h.cons
  · intro x
    rw [hc, ← h.is.constraints]
    constructor
    · rintro ⟨y, hy, rfl⟩
      obtain ⟨hy, hne⟩ := List.mem_filter.1 hy
      refine ⟨⟨y, hy, rfl⟩, ?_⟩
      intro e
      simp only [ne_eq, decide_eq_true_eq] at hne
      exact hne (by rw [h.names y hy, stdName_label]; exact e)
    · rintro ⟨⟨y, hy, rfl⟩, hne⟩
      refine ⟨y, List.mem_filter.2 ⟨hy, ?_⟩, rfl⟩
      simp only [ne_eq, decide_eq_true_eq]
      intro e
      rw [h.names y hy, stdName_label] at e
      exact hne e

/-! ### One statement -/

theorem exec_alter {db db' : PDb} {st : DStmt} {n : String} {s : PTable}
    (ha : altered st = some n) (hl : db.lookup n = some s) :
    exec env db st = some db' ↔
      env.permits db st = true ∧ ∃ s', alter env db n s st = some s' ∧ db' = db.insert n s' := by
  simp only [exec, ha, hl]
  cases env.permits db st with
  | false => simp
  | true => cases alter env db n s st <;> simp [eq_comm]

theorem upd_upd {G : String → Option ATable} {n : String} {a b : Option ATable} :
    upd (upd G n a) n b = upd G n b := by
  funext m
  simp only [upd]
  split <;> rfl

theorem upd_same {G : String → Option ATable} {n : String} {a : Option ATable} (h : G n = a) :
    upd G n a = G := by
  funext m
  simp only [upd]
  split
  · next e => rw [e, h]
  · rfl

theorem execAll_append {db : PDb} {a b : List DStmt} :
    execAll env db (a ++ b) = (execAll env db a).bind fun db' => execAll env db' b := by
  induction a generalizing db with
  | nil => rfl
  | cons x a ih =>
    simp only [List.cons_append, execAll]
    cases exec env db x with
    | none => rfl
    | some db' => exact ih

theorem execAll_append_some {db db' : PDb} {a b : List DStmt} :
    execAll env db (a ++ b) = some db' ↔
      ∃ d, execAll env db a = some d ∧ execAll env d b = some db' := by
  rw [execAll_append]
  cases execAll env db a <;> simp

theorem execAll_one {db : PDb} {a : DStmt} : execAll env db [a] = exec env db a := by
  simp only [execAll]
  cases exec env db a <;> rfl

/-- The statement of an `ALTER TABLE` on a table of the schema. -/
theorem J.stmt {G : String → Option ATable} {db db' : PDb} (ha : NamesApart old new)
    (h : J old new G db) {n : String} {t t' : ATable} {st : DStmt} (hG : G n = some t)
    (hst : altered st = some (lower n)) (he : exec env db st = some db')
    (hs : ∀ s s', TJ old new n t s → db.lookup (lower n) = some s →
      alter env db (lower n) s st = some s' → TJ old new n t' s') :
    J old new (upd G n (some t')) db' := by
  obtain ⟨s, hl, htj⟩ := h.tables n t hG
  obtain ⟨-, s', h1, rfl⟩ := (exec_alter hst hl).1 he
  exact h.set ha (h.known n t hG) (hs s s' htj hl h1)

theorem same_columns {t : ATable} {x x' : AColumn} (hnd : (t.columns.map (·.name)).Nodup)
    (hx : x ∈ t.columns) (hn : x'.name = x.name) (hi : ∀ d, PgColumnIs x d → PgColumnIs x' d) :
    (∀ y ∈ (t.replaceColumn x').columns, ∃ z ∈ t.columns, z.name = y.name ∧
      ∀ d, PgColumnIs z d → PgColumnIs y d) ∧
    (∀ z ∈ t.columns, ∃ y ∈ (t.replaceColumn x').columns, z.name = y.name) := by
  constructor
  · intro y hy
    rcases (mem_replace hnd).1 hy with rfl | ⟨hy, -⟩
    · exact ⟨x, hx, hn.symm, hi⟩
    · exact ⟨y, hy, rfl, fun _ h => h⟩
  · intro z hz
    by_cases e : z.name = x'.name
    · exact ⟨x', (mem_replace hnd).2 (.inl rfl), e⟩
    · exact ⟨z, (mem_replace hnd).2 (.inr ⟨hz, e⟩), rfl⟩

/-- The constraints of a column. -/
def ColCon (x : AColumn) : PKind → Prop
  | .pk c => x.pk = true ∧ c = lower x.name
  | .unique c => x.unique = true ∧ c = lower x.name
  | .fk c r k => c = lower x.name ∧
      ∃ r' k', x.reference = some (.literal r' k') ∧ r = lower r' ∧ k = lower k'

theorem colCon_iff {t : ATable} {k : PKind} : PgConstraint t k ↔ ∃ x ∈ t.columns, ColCon x k := by
  cases k <;> exact Iff.rfl

theorem colCon_col {x : AColumn} {k : PKind} (h : ColCon x k) : k.col = lower x.name := by
  cases k with
  | pk c => exact h.2
  | unique c => exact h.2
  | fk c r k => exact h.1

/-- The constraints of a table, the ones of one column apart. -/
theorem con_split {t : ATable} (hnd : (t.columns.map (·.name)).Nodup) {x : AColumn}
    (hx : x ∈ t.columns) (k : PKind) :
    PgConstraint t k ↔ (∃ y ∈ t.columns, y.name ≠ x.name ∧ ColCon y k) ∨ ColCon x k := by
  rw [colCon_iff]
  constructor
  · rintro ⟨y, hy, h⟩
    by_cases e : y.name = x.name
    · exact .inr (mem_uniq hnd hy hx e ▸ h)
    · exact .inl ⟨y, hy, e, h⟩
  · rintro (⟨y, hy, -, h⟩ | h)
    · exact ⟨y, hy, h⟩
    · exact ⟨x, hx, h⟩

theorem con_replace {t : ATable} (hnd : (t.columns.map (·.name)).Nodup) {x x' : AColumn}
    (hn : x'.name = x.name) (k : PKind) :
    PgConstraint (t.replaceColumn x') k ↔
      (∃ y ∈ t.columns, y.name ≠ x.name ∧ ColCon y k) ∨ ColCon x' k := by
  rw [colCon_iff]
  constructor
  · rintro ⟨y, hy, h⟩
    rcases (mem_replace hnd).1 hy with rfl | ⟨hy, hne⟩
    · exact .inr h
    · exact .inl ⟨y, hy, hn ▸ hne, h⟩
  · rintro (⟨y, hy, hne, h⟩ | h)
    · exact ⟨y, (mem_replace hnd).2 (.inr ⟨hy, by rw [hn]; exact hne⟩), h⟩
    · exact ⟨x', (mem_replace hnd).2 (.inl rfl), h⟩

/-- The column in a database. -/
theorem TJ.find {n : String} {t : ATable} {s : PTable} (h : TJ old new n t s) {x : AColumn}
    (hx : x ∈ t.columns) : ∃ d, s.cols.find? (·.name = lower x.name) = some d ∧ PgColumnIs x d := by
  obtain ⟨d, hd, hi⟩ := h.is.columns x hx
  have : ∃ e, s.cols.find? (·.name = lower x.name) = some e := by
    cases hf : s.cols.find? (·.name = lower x.name) with
    | some e => exact ⟨e, rfl⟩
    | none =>
      rw [List.find?_eq_none] at hf
      exact absurd (by simpa using hi.name) (hf d hd)
  obtain ⟨e, he⟩ := this
  have he1 := List.mem_of_find?_eq_some he
  have he2 := List.find?_some he
  simp only [decide_eq_true_eq] at he2
  have : e = d := by
    have key : ∀ l : List PCol, (l.map (·.name)).Nodup → e ∈ l → d ∈ l → e = d := by
      intro l
      induction l with
      | nil => intro _ h; cases h
      | cons a l ih =>
        intro hnd h1 h2
        simp only [List.map_cons, List.nodup_cons, List.mem_map, not_exists, not_and] at hnd
        rcases List.mem_cons.1 h1 with h1 | h1 <;> rcases List.mem_cons.1 h2 with h2 | h2
        · rw [h1, h2]
        · exact absurd (hi.name.trans he2.symm) (h1 ▸ hnd.1 d h2)
        · exact absurd (he2.trans hi.name.symm) (h2 ▸ hnd.1 e h1)
        · exact ih hnd.2 h1 h2
    exact key s.cols h.cols he1 hd
  subst this
  exact ⟨e, he, hi⟩

theorem TJ.colName {n : String} {t : ATable} {s : PTable} (h : TJ old new n t s) {x : AColumn}
    (hx : x ∈ t.columns) : lower x.name ∈ colNames s := by
  obtain ⟨d, hd, hi⟩ := h.is.columns x hx
  exact List.mem_map.2 ⟨d, hd, hi.name⟩

/-- A name that is not that of a column. -/
theorem TJ.not_colName (ha : NamesApart old new) {n : String} {t : ATable} {s : PTable}
    (h : TJ old new n t s) {c : String} (hc : HasColumn old new n c)
    (hn : ∀ y ∈ t.columns, y.name ≠ c) : lower c ∉ colNames s := by
  intro hm
  obtain ⟨d, hd, e⟩ := List.mem_map.1 hm
  obtain ⟨y, hy, e'⟩ := h.is.only d hd
  exact hn y hy (ha.columns n _ _ (h.known y hy) hc (by rw [← e', e]))

theorem pgWords_type {kw : String → Bool} {c : AColumn} (hc : PgColumn kw c)
    (h : pgWordsOf c ∈ pgTypes) :
    c.auto = false ∧ ∃ ty, c.typeid = some (.ty ty) ∧ pgTypeOf ty = some (pgWordsOf c) := by
  obtain ⟨ty, w, h1, h2⟩ := hc.type
  simp only [pgWordsOf, h1] at h ⊢
  cases hA : c.auto with
  | false =>
    simp only [Bool.false_eq_true, if_false]
    exact ⟨trivial, ty, rfl, by rw [h2]; rfl⟩
  | true =>
    simp only [hA, if_true] at h
    exfalso
    revert h
    cases ty <;> simp [pgTypes]

/-- The schema of a table is described differently. -/
theorem J.retable {G : String → Option ATable} {db : PDb} (h : J old new G db) {n : String}
    {t t' : ATable} (hG : G n = some t)
    (ht : ∀ s, TJ old new n t s → TJ old new n t' s) : J old new (upd G n (some t')) db := by
  refine ⟨?_, ?_, h.sorted, ?_⟩
  · intro m u hu
    by_cases e : m = n
    · subst e
      rw [upd_self] at hu
      cases hu
      obtain ⟨s, hl, hT⟩ := h.tables m t hG
      exact ⟨s, hl, ht s hT⟩
    · simp only [upd, if_neg e] at hu
      exact h.tables m u hu
  · intro m s hl
    obtain ⟨m', u, hu, rfl⟩ := h.only m s hl
    by_cases e : m' = n
    · exact ⟨m', t', by simp [upd, e], rfl⟩
    · exact ⟨m', u, by simp [upd, e, hu], rfl⟩
  · intro m u hu
    by_cases e : m = n
    · exact h.known m t (e ▸ hG)
    · simp only [upd, if_neg e] at hu
      exact h.known m u hu

theorem onCol_id {s : PTable} {c : String} : PgCat.onCol s c (fun d => d) = s := by
  simp [PgCat.onCol]

/-- A column is described differently. -/
theorem J.recol (ha : NamesApart old new) {G : String → Option ATable} {db : PDb}
    (h : J old new G db) {n : String} {t : ATable} (hG : G n = some t) {x x' : AColumn}
    (hx : x ∈ t.columns) (hn : x'.name = x.name) (hp : x'.pk = x.pk) (hu : x'.unique = x.unique)
    (hr : x'.reference = x.reference) (hf : ∀ d, PgColumnIs x d → PgColumnIs x' d) :
    J old new (upd G n (some (t.replaceColumn x'))) db := by
  refine h.retable hG fun s hT => ?_
  have := hT.onCol ha hx hn hp hu hr (f := fun d => d) hf fun _ => rfl
  rwa [onCol_id] at this

/-- Dropping a constraint. -/
theorem alter_drop {db : PDb} {n N : String} {b : Bool} {s s' : PTable}
    (h : alter env db n s (.dropConstraint n N b) = some s') :
    s' = { s with cons := s.cons.filter (·.name ≠ N) } := by
  simp only [alter] at h
  cases hf : s.cons.find? (·.name = N) with
  | none =>
    rw [hf] at h
    cases b with
    | false => cases h
    | true =>
      cases h
      have : s.cons.filter (·.name ≠ N) = s.cons := by
        rw [List.filter_eq_self]
        rw [List.find?_eq_none] at hf
        intro a ha
        simpa using hf a ha
      rw [this]
  | some k =>
    rw [hf] at h
    simp only at h
    split at h <;> split at h <;> first | (cases h; done) | (cases h; rfl)

/-! ### Changing a column, one property after the other -/

theorem seg_type (ha : NamesApart old new) {kw : String → Bool} {G : String → Option ATable}
    {db db' : PDb} (hJ : J old new G db) {n : String} {t : ATable} (hG : G n = some t)
    {x o c : AColumn} (hx : x ∈ t.columns) (ho : x.typeid = o.typeid)
    (hc : PgColumn kw c) (hon : o.name = x.name)
    (he : execAll env db (if o.typeid ≠ c.typeid then
      [.setType (lower n) (lower o.name) (pgWordsOf c)] else []) = some db') :
    J old new (upd G n (some (t.replaceColumn { x with sqltype := c.sqltype }))) db' := by
  split at he
  · rw [execAll_one] at he
    refine hJ.stmt ha hG rfl he ?_
    intro s s' hT hl hal
    obtain ⟨d, hd, hi⟩ := hT.find hx
    simp only [alter, hon, hd] at hal
    split at hal
    · next hcond =>
      cases hal
      simp only [Bool.and_eq_true, decide_eq_true_eq] at hcond
      obtain ⟨-, ty, h1, h2⟩ := pgWords_type hc hcond.1
      exact hT.onCol (x' := { x with sqltype := c.sqltype }) ha hx rfl rfl rfl rfl
        (fun d hd => ⟨hd.name, ⟨ty, h1, h2⟩, hd.notNull, hd.serial⟩) fun _ => rfl
    · cases hal
  · next hne =>
    have hne : o.typeid = c.typeid := by simpa using hne
    cases he
    refine hJ.recol (x' := { x with sqltype := c.sqltype }) ha hG hx rfl rfl rfl rfl ?_
    intro d hd
    obtain ⟨ty, h1, h2⟩ := hd.type
    refine ⟨hd.name, ⟨ty, ?_, h2⟩, hd.notNull, hd.serial⟩
    rw [← h1, ho, hne]
    rfl

theorem seg_null (ha : NamesApart old new) {G : String → Option ATable}
    {db db' : PDb} (hJ : J old new G db) {n : String} {t : ATable} (hG : G n = some t)
    {x o c : AColumn} (hx : x ∈ t.columns) (ho : x.nullable = o.nullable) (hon : o.name = x.name)
    (he : execAll env db (if o.nullable ≠ c.nullable then
      [.setNotNull (lower n) (lower o.name) (!c.nullable)] else []) = some db') :
    J old new (upd G n (some (t.replaceColumn { x with nullable := c.nullable }))) db' := by
  split at he
  · rw [execAll_one] at he
    refine hJ.stmt ha hG rfl he ?_
    intro s s' hT hl hal
    simp only [alter, hon] at hal
    split at hal
    · cases hal
      exact hT.onCol (x' := { x with nullable := c.nullable }) ha hx rfl rfl rfl rfl
        (fun d hd => ⟨hd.name, hd.type, rfl, hd.serial⟩) fun _ => rfl
    · cases hal
  · next hne =>
    have hne : o.nullable = c.nullable := by simpa using hne
    cases he
    refine hJ.recol (x' := { x with nullable := c.nullable }) ha hG hx rfl rfl rfl rfl ?_
    intro d hd
    exact ⟨hd.name, hd.type, by rw [hd.notNull, ho, hne], hd.serial⟩

/-- The table without a primary key. -/
def clearPk (t : ATable) : ATable :=
  { t with columns := t.columns.map fun c => { c with pk := false } }

theorem names_clearPk (t : ATable) : (clearPk t).columns.map (·.name) = t.columns.map (·.name) := by
  simp only [clearPk, List.map_map]
  exact List.map_congr_left fun _ _ => rfl

theorem mem_clearPk {t : ATable} {y : AColumn} :
    y ∈ (clearPk t).columns ↔ ∃ z ∈ t.columns, y = { z with pk := false } := by
  simp only [clearPk, List.mem_map, eq_comm]

theorem constraint_clearPk {t : ATable} {a : String} (k : PKind) :
    PgConstraint (clearPk t) k ↔ PgConstraint t k ∧ label k ≠ label (.pk a) := by
  cases k with
  | pk c =>
    simp only [label, ne_eq, not_true_eq_false, and_false, iff_false]
    rintro ⟨y, hy, hp, -⟩
    obtain ⟨z, -, rfl⟩ := mem_clearPk.1 hy
    cases hp
  | unique c =>
    have : label (.unique c) ≠ label (.pk a) := by simp [label]
    simp only [this, not_false_eq_true, and_true, ne_eq]
    constructor
    · rintro ⟨y, hy, hp⟩
      obtain ⟨z, hz, rfl⟩ := mem_clearPk.1 hy
      exact ⟨z, hz, hp⟩
    · rintro ⟨y, hy, hp⟩
      exact ⟨_, mem_clearPk.2 ⟨y, hy, rfl⟩, hp⟩
  | fk c r k =>
    have : label (.fk c r k) ≠ label (.pk a) := by simp [label]
    simp only [this, not_false_eq_true, and_true, ne_eq]
    constructor
    · rintro ⟨y, hy, hp⟩
      obtain ⟨z, hz, rfl⟩ := mem_clearPk.1 hy
      exact ⟨z, hz, hp⟩
    · rintro ⟨y, hy, hp⟩
      exact ⟨_, mem_clearPk.2 ⟨y, hy, rfl⟩, hp⟩

theorem stmt_dropPk (ha : NamesApart old new) {G : String → Option ATable}
    {db db' : PDb} (hJ : J old new G db) {n : String} {t : ATable} (hG : G n = some t)
    (he : exec env db (.dropConstraint (lower n) (lower n ++ "_pkey") true) = some db') :
    J old new (upd G n (some (clearPk t))) db' := by
  refine hJ.stmt ha hG rfl he ?_
  intro s s' hT hl hal
  have key : TJ old new n (clearPk t)
      { s with cons := s.cons.filter (·.name ≠ stdName (lower n) (.pk "")) } := by
    refine hT.dropCon ?_ ?_ (by rw [names_clearPk]; exact hT.distinct)
      (fun k => constraint_clearPk k)
    · intro y hy
      obtain ⟨z, hz, rfl⟩ := mem_clearPk.1 hy
      exact ⟨z, hz, rfl, fun d hd => ⟨hd.name, hd.type, hd.notNull, hd.serial⟩⟩
    · intro z hz
      exact ⟨_, mem_clearPk.2 ⟨z, hz, rfl⟩, rfl⟩
  rw [alter_drop hal]
  exact key

theorem stmt_addPk (hen : Naming env) (ha : NamesApart old new) {G : String → Option ATable}
    {db db' : PDb} (hJ : J old new G db) {n : String} {t : ATable} (hG : G n = some t)
    {x : AColumn} (hx : x ∈ t.columns) (hnull : x.nullable = false)
    (hno : ∀ y ∈ t.columns, y.pk = false)
    (he : exec env db (.addPrimaryKey (lower n) (lower x.name)) = some db') :
    J old new (upd G n (some (t.replaceColumn { x with pk := true }))) db' := by
  refine hJ.stmt ha hG rfl he ?_
  intro s s' hT hl hal
  simp only [alter] at hal
  split at hal
  · cases hal
    have hT1 : TJ old new n t (PgCat.onCol s (lower x.name) fun d => { d with notNull := true }) := by
      have := hT.onCol ha hx (x' := x) rfl rfl rfl rfl (f := fun d => { d with notNull := true })
        (fun d hd => ⟨hd.name, hd.type, by simp [hnull], hd.serial⟩) fun _ => rfl
      rw [replace_self hT.distinct hx] at this
      exact this
    have hlab : ∀ k, PgConstraint t k → label k ≠ label (.pk (lower x.name)) := by
      intro k hk
      cases k with
      | pk c =>
        obtain ⟨y, hy, hp, -⟩ := hk
        rw [hno y hy] at hp
        cases hp
      | unique c => simp [label]
      | fk c r k => simp [label]
    rw [addCon_std hen hJ.sorted (hJ.outside ha (hT.known x hx) rfl) (hT1.unused hlab)
      (ha.short _ _ _ (hT.known x hx) rfl)]
    obtain ⟨h1, h2⟩ := same_columns (x' := { x with pk := true }) hT.distinct hx rfl
      (fun d hd => ⟨hd.name, hd.type, hd.notNull, hd.serial⟩)
    refine hT1.addCon h1 h2 (nodup_replace hT.distinct _) hlab ?_
    intro k
    rw [con_replace hT.distinct (x' := { x with pk := true }) (x := x) rfl,
      con_split hT.distinct hx]
    cases k <;> simp [ColCon, hno x hx]
  · cases hal

theorem other_label (ha : NamesApart old new) {n : String} {t : ATable} {s : PTable}
    (h : TJ old new n t s) {x y : AColumn} (hx : x ∈ t.columns) (hy : y ∈ t.columns)
    (hne : y.name ≠ x.name) {k k' : PKind} (hk : ColCon y k) (hk' : k'.col = lower x.name)
    (hp : ∀ c, k' ≠ .pk c) : label k ≠ label k' := by
  intro e
  have hc := colCon_col hk
  have : k.col = k'.col := by
    cases k <;> cases k' <;> simp_all [label, PKind.col]
  exact hne (ha.columns n _ _ (h.known y hy) (h.known x hx) (by rw [← hc, this, hk']))

theorem seg_unique (hen : Naming env) (ha : NamesApart old new) {G : String → Option ATable}
    {db db' : PDb} (hJ : J old new G db) {n : String} {t : ATable} (hG : G n = some t)
    {x o c : AColumn} (hx : x ∈ t.columns) (ho : x.unique = o.unique) (hon : o.name = x.name)
    (hcn : c.name = x.name)
    (he : execAll env db (if o.unique ≠ c.unique then
      (if c.unique then [.addUnique (lower n) (lower c.name)]
       else [.dropConstraint (lower n) (lower n ++ "_" ++ lower o.name ++ "_key") false])
      else []) = some db') :
    J old new (upd G n (some (t.replaceColumn { x with unique := c.unique }))) db' := by
  by_cases hne : o.unique = c.unique
  · rw [if_neg (by simpa using hne)] at he
    cases he
    exact hJ.recol (x' := { x with unique := c.unique }) ha hG hx rfl rfl (by rw [ho, hne]) rfl
      fun d hd => ⟨hd.name, hd.type, hd.notNull, hd.serial⟩
  rw [if_pos (by simpa using hne)] at he
  cases hu : c.unique with
  | true =>
    have hxu : x.unique = false := by
      rw [ho]; rw [hu] at hne; simpa using hne
    rw [if_pos hu, execAll_one, hcn] at he
    refine hJ.stmt ha hG rfl he ?_
    intro s s' hT hl hal
    simp only [alter] at hal
    split at hal
    · cases hal
      have hlab : ∀ k, PgConstraint t k → label k ≠ label (.unique (lower x.name)) := by
        intro k hk
        rcases (con_split hT.distinct hx k).1 hk with ⟨y, hy, hyn, hc⟩ | hc
        · exact other_label ha hT hx hy hyn hc rfl (fun c h => by cases h)
        · cases k <;> simp_all [label, ColCon]
      rw [addCon_std hen hJ.sorted (hJ.outside ha (hT.known x hx) rfl) (hT.unused hlab)
        (ha.short _ _ _ (hT.known x hx) rfl)]
      obtain ⟨h1, h2⟩ := same_columns (x' := { x with unique := true }) hT.distinct hx rfl
        (fun d hd => ⟨hd.name, hd.type, hd.notNull, hd.serial⟩)
      refine hT.addCon h1 h2 (nodup_replace hT.distinct _) hlab ?_
      intro k
      rw [con_replace hT.distinct (x' := { x with unique := true }) (x := x) rfl,
        con_split hT.distinct hx]
      cases k <;> simp [ColCon, hxu]
    · cases hal
  | false =>
    rw [if_neg (by simp [hu]), execAll_one, hon] at he
    refine hJ.stmt ha hG rfl he ?_
    intro s s' hT hl hal
    rw [alter_drop hal]
    obtain ⟨h1, h2⟩ := same_columns (x' := { x with unique := false }) hT.distinct hx rfl
      (fun d hd => ⟨hd.name, hd.type, hd.notNull, hd.serial⟩)
    refine hT.dropCon (k := .unique (lower x.name)) h1 h2 (nodup_replace hT.distinct _) ?_
    intro k
    rw [con_replace hT.distinct (x' := { x with unique := false }) (x := x) rfl,
      con_split hT.distinct hx]
    constructor
    · rintro (⟨y, hy, hyn, hc⟩ | hc)
      · exact ⟨.inl ⟨y, hy, hyn, hc⟩, other_label ha hT hx hy hyn hc rfl (fun c h => by cases h)⟩
      · cases k <;> simp_all [label, ColCon]
    · rintro ⟨h | hc, hl⟩
      · exact .inl h
      · cases k <;> simp_all [label, ColCon]

theorem seg_default (ha : NamesApart old new) {p : LitPrinters} {G : String → Option ATable}
    {db db' : PDb} (hJ : J old new G db) {n : String} {t : ATable} (hG : G n = some t)
    {x o c : AColumn} (hx : x ∈ t.columns) (hon : o.name = x.name)
    (hauto : x.auto = true → o.default = none ∧ c.default = none)
    (he : execAll env db (if optBeq SqlVal.beq o.default c.default then []
      else [.setDefault (lower n) (lower o.name) (c.default.map (pgLit p))]) = some db') :
    J old new (upd G n (some (t.replaceColumn { x with default := c.default }))) db' := by
  split at he
  · cases he
    exact hJ.recol (x' := { x with default := c.default }) ha hG hx rfl rfl rfl rfl
      fun d hd => ⟨hd.name, hd.type, hd.notNull, hd.serial⟩
  · next hne =>
    have hx0 : x.auto = false := by
      cases hA : x.auto with
      | false => rfl
      | true =>
        obtain ⟨h1, h2⟩ := hauto hA
        rw [h1, h2] at hne
        exact absurd rfl hne
    rw [execAll_one] at he
    refine hJ.stmt ha hG rfl he ?_
    intro s s' hT hl hal
    obtain ⟨d, hd, hi⟩ := hT.find hx
    simp only [alter, hon, hd] at hal
    split at hal
    · cases hal
      exact hT.onCol (x' := { x with default := c.default }) ha hx rfl rfl rfl rfl
        (fun d hd => ⟨hd.name, hd.type, hd.notNull, hx0.symm⟩) fun _ => rfl
    · cases hal

theorem stmt_dropFk (ha : NamesApart old new) {G : String → Option ATable}
    {db db' : PDb} (hJ : J old new G db) {n : String} {t : ATable} (hG : G n = some t)
    {x : AColumn} (hx : x ∈ t.columns) {b : Bool}
    (he : exec env db (.dropConstraint (lower n) (lower n ++ "_" ++ lower x.name ++ "_fkey") b)
      = some db') :
    J old new (upd G n (some (t.replaceColumn { x with reference := none }))) db' := by
  refine hJ.stmt ha hG rfl he ?_
  intro s s' hT hl hal
  rw [alter_drop hal]
  obtain ⟨h1, h2⟩ := same_columns (x' := { x with reference := none }) hT.distinct hx rfl
    (fun d hd => ⟨hd.name, hd.type, hd.notNull, hd.serial⟩)
  refine hT.dropCon (k := .fk (lower x.name) "" "") h1 h2 (nodup_replace hT.distinct _) ?_
  intro k
  rw [con_replace hT.distinct (x' := { x with reference := none }) (x := x) rfl,
    con_split hT.distinct hx]
  constructor
  · rintro (⟨y, hy, hyn, hc⟩ | hc)
    · exact ⟨.inl ⟨y, hy, hyn, hc⟩, other_label ha hT hx hy hyn hc rfl (fun c h => by cases h)⟩
    · cases k <;> simp_all [label, ColCon]
  · rintro ⟨h | hc, hl⟩
    · exact .inl h
    · cases k <;> simp_all [label, ColCon]

theorem stmt_addFk (hen : Naming env) (ha : NamesApart old new) {G : String → Option ATable}
    {db db' : PDb} (hJ : J old new G db) {n : String} {t : ATable} (hG : G n = some t)
    {x : AColumn} (hx : x ∈ t.columns) (hno : x.reference = none) {r k : String}
    (he : exec env db (.addForeignKey (lower n) ⟨lower x.name, lower r, lower k⟩) = some db') :
    J old new (upd G n (some (t.replaceColumn { x with reference := some (.literal r k) }))) db' := by
  refine hJ.stmt ha hG rfl he ?_
  intro s s' hT hl hal
  simp only [alter] at hal
  split at hal
  · split at hal
    · cases hal
      have hlab : ∀ k', PgConstraint t k' → label k' ≠ label (.fk (lower x.name) (lower r) (lower k)) := by
        intro k' hk
        rcases (con_split hT.distinct hx k').1 hk with ⟨y, hy, hyn, hc⟩ | hc
        · exact other_label ha hT hx hy hyn hc rfl (fun c h => by cases h)
        · cases k' <;> simp_all [label, ColCon]
      rw [addCon_std hen hJ.sorted (hJ.outside ha (hT.known x hx) rfl) (hT.unused hlab)
        (ha.short _ _ _ (hT.known x hx) rfl)]
      obtain ⟨h1, h2⟩ := same_columns (x' := { x with reference := some (.literal r k) })
        hT.distinct hx rfl (fun d hd => ⟨hd.name, hd.type, hd.notNull, hd.serial⟩)
      refine hT.addCon h1 h2 (nodup_replace hT.distinct _) hlab ?_
      intro k'
      rw [con_replace hT.distinct (x' := { x with reference := some (.literal r k) }) (x := x) rfl,
        con_split hT.distinct hx]
      cases k' <;> simp [ColCon, hno]
      grind
    · cases hal
  · cases hal

theorem seg_ref (hen : Naming env) (ha : NamesApart old new) {kw : String → Bool}
    {G : String → Option ATable}
    {db db' : PDb} (hJ : J old new G db) {n : String} {t : ATable} (hG : G n = some t)
    {x o c : AColumn} (hx : x ∈ t.columns) (ho : x.reference = o.reference) (hon : o.name = x.name)
    (hcn : c.name = x.name) (hoc : PgColumn kw o) (hc : PgColumn kw c)
    (he : execAll env db (if optBeq ARef.beq o.reference c.reference then []
      else (pgDropFk n o).toList ++ (pgFk n c).toList) = some db') :
    J old new (upd G n (some (t.replaceColumn { x with reference := c.reference }))) db' := by
  obtain ⟨s0, hl0, hT0⟩ := hJ.tables n t hG
  split at he
  · next hb =>
    cases he
    have : c.reference = o.reference := by
      cases h1 : o.reference with
      | none =>
        cases h2 : c.reference with
        | none => rfl
        | some r => rw [h1, h2] at hb; cases hb
      | some r =>
        cases h2 : c.reference with
        | none => rw [h1, h2] at hb; cases hb
        | some r' =>
          rw [h1, h2] at hb
          simp only [optBeq] at hb
          obtain ⟨a, b, rfl, -⟩ := hoc.reference r h1
          obtain ⟨a', b', rfl, -⟩ := hc.reference r' h2
          have := (aref_beq_iff _ _).1 hb
          simp only [SameRef] at this
          obtain ⟨rfl, rfl⟩ := this
          rfl
    exact hJ.recol (x' := { x with reference := c.reference }) ha hG hx rfl rfl rfl
      (by rw [this, ho]) fun d hd => ⟨hd.name, hd.type, hd.notNull, hd.serial⟩
  · obtain ⟨d1, h1, h2⟩ := execAll_append_some.1 he
    have hJ1 : J old new (upd G n (some (t.replaceColumn { x with reference := none }))) d1 := by
      simp only [pgDropFk] at h1
      split at h1
      · simp only [Option.toList] at h1
        rw [execAll_one, hon] at h1
        exact stmt_dropFk ha hJ hG hx h1
      · next hno =>
        cases h1
        have hxr : x.reference = none := by rw [ho]; simpa using hno
        have e : ({ x with reference := none } : AColumn) = x := by rw [← hxr]
        rw [e, replace_self hT0.distinct hx, upd_same hG]
        exact hJ
    have hx1 : ({ x with reference := none } : AColumn) ∈
        (t.replaceColumn { x with reference := none }).columns :=
      (mem_replace hT0.distinct).2 (.inl rfl)
    simp only [pgFk] at h2
    cases hr : c.reference with
    | none =>
      rw [hr] at h2
      cases h2
      exact hJ1
    | some r =>
      obtain ⟨a, b, rfl, -⟩ := hc.reference r hr
      rw [hr] at h2
      simp only [Option.toList] at h2
      rw [execAll_one, hcn] at h2
      have := stmt_addFk hen ha hJ1 upd_self hx1 rfl h2
      rw [upd_upd] at this
      have e := replace_replace (t := t) (x := { x with reference := none })
        (x' := { x with reference := some (.literal a b) }) rfl
      rw [← e]
      exact this

end Butane.PgP
