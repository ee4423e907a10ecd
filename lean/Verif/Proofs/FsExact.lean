/-
What the directories of migrations hold exactly: each its own tables, those that it changes.
-/
import Verif.Proofs.Cli

namespace Butane
open Spec FsMigrations

/-! ### Which tables are modified -/

theorem modifiedTable_target {op : Operation} {t : String} (h : modifiedTable op = some t) : op.target = t := by
  cases op <;> simp [modifiedTable] at h <;> exact h

theorem mem_modified {old new : ADB} {t : String} :
    t ∈ (diff old new).filterMap modifiedTable ↔
      t ∈ ((diff old new).filter (fun op => op.target == t)).filterMap modifiedTable := by
  constructor
  · intro h
    obtain ⟨op, h1, h2⟩ := List.mem_filterMap.1 h
    exact List.mem_filterMap.2 ⟨op, List.mem_filter.2 ⟨h1, by simpa using modifiedTable_target h2⟩, h2⟩
  · intro h
    obtain ⟨op, h1, h2⟩ := List.mem_filterMap.1 h
    exact List.mem_filterMap.2 ⟨op, (List.mem_filter.1 h1).1, h2⟩

/-- Whether a table is modified depends on the table only. -/
theorem modified_local {old new new' : ADB} (ho : ValidSchema old) (hn : ValidSchema new) (hn' : ValidSchema new')
    {t : String} (ht : new'.getTable t = new.getTable t)
    (h : t ∈ (diff old new).filterMap modifiedTable) : t ∈ (diff old new').filterMap modifiedTable := by
  rw [mem_modified] at h ⊢
  rw [diff_filter ho hn] at h
  rw [diff_filter ho hn', ht]
  exact h

/-- What is read is different from before if what was written is. -/
theorem diff_read_ne {old new db : ADB} (ho : ValidSchema old) (hn : ValidSchema new) (hd : ValidSchema db)
    (hsame : SameSchema db new) (hmod : ∀ t, t ∈ (diff old new).filterMap modifiedTable → db.getTable t = new.getTable t)
    (hne : diff old new ≠ []) : diff old db ≠ [] := by
  intro hnil
  obtain ⟨op, hop⟩ := List.exists_mem_of_ne_nil _ hne
  cases hm : modifiedTable op with
  | some t =>
    have := modified_local ho hn hd (hmod t (List.mem_filterMap.2 ⟨op, hop, hm⟩)) (List.mem_filterMap.2 ⟨op, hop, hm⟩)
    rw [hnil] at this
    cases this
  | none =>
    have hs := Props.same_of_diff_nil old db ho hd hnil
    have hrem : ∃ n, old.getTable n ≠ none ∧ new.getTable n = none := by
      have hf : op ∈ (diff old new).filter (fun o => o.target == op.target) := List.mem_filter.2 ⟨hop, by simp⟩
      rw [diff_filter ho hn] at hf
      refine ⟨op.target, ?_⟩
      cases h1 : old.getTable op.target with
      | none =>
        exfalso
        rw [h1] at hf
        cases h2 : new.getTable op.target with
        | none => rw [h2] at hf; simp [diffFor] at hf
        | some y =>
          rw [h2] at hf
          simp only [diffFor, List.mem_cons] at hf
          rcases hf with rfl | hf
          · cases hm
          · split at hf
            · simp at hf; subst hf; cases hm
            · simp at hf
      | some x =>
        rw [h1] at hf
        cases h2 : new.getTable op.target with
        | none => exact ⟨by simp, rfl⟩
        | some y =>
          exfalso
          rw [h2] at hf
          rw [diffTable_modified hf] at hm
          cases hm
    obtain ⟨n, h1, h2⟩ := hrem
    have a1 := hs n
    have a2 := hsame n
    rw [h2] at a2
    cases hx : old.getTable n with
    | none => exact h1 hx
    | some x =>
      rw [hx] at a1
      cases hy : db.getTable n with
      | none => rw [hy] at a1; exact a1
      | some y => rw [hy] at a2; exact a2

theorem sqlval_beq_symm {a b : SqlVal} (h : a.beq b = true) : b.beq a = true := by
  cases a <;> cases b <;> simp_all [SqlVal.beq]
  exact F64.eq_symm h

theorem col_beq_symm {a b : AColumn} (h : a.beq b = true) : b.beq a = true := by
  have hs := (col_beq_same h).symm
  simp only [AColumn.beq, Bool.and_eq_true, beq_iff_eq, deferred_beq_iff] at h ⊢
  refine ⟨⟨⟨⟨⟨⟨⟨hs.name, hs.type⟩, hs.nullable⟩, hs.pk⟩, hs.auto⟩, hs.unique⟩, ?_⟩, ?_⟩
  · have := h.1.2
    cases hd : a.default <;> cases hd' : b.default <;> simp_all [optBeq]
    exact sqlval_beq_symm h.1.2
  · exact (optBeq_iff _ _ (fun _ _ _ _ => aref_beq_iff _ _)).2 hs.reference

/-- There is something to undo if there is something to do. -/
theorem diff_nil_symm {a b : ADB} (ha : ValidSchema a) (hb : ValidSchema b) (h : diff a b = []) : diff b a = [] := by
  rw [List.eq_nil_iff_forall_not_mem]
  intro op hop
  have hmem : op ∈ (diff b a).filter (fun o => o.target == op.target) := List.mem_filter.2 ⟨hop, by simp⟩
  have hf := diff_filter ha hb op.target
  rw [h, List.filter_nil] at hf
  rw [diff_filter hb ha] at hmem
  cases h1 : b.getTable op.target with
  | none =>
    rw [h1] at hmem hf
    cases h2 : a.getTable op.target with
    | none => rw [h2] at hmem; cases hmem
    | some t => rw [h2] at hf; cases hf
  | some s =>
    rw [h1] at hmem hf
    cases h2 : a.getTable op.target with
    | none => rw [h2] at hf; cases hf
    | some t =>
      rw [h2] at hmem hf
      simp only [diffFor] at hmem hf
      obtain ⟨n, hc⟩ := Option.isSome_iff_exists.1 (diffTable_isCol hmem)
      have hm2 : op ∈ (diffTable s t).filter (fun o => o.colTarget == some n) :=
        List.mem_filter.2 ⟨hmem, by simp [hc]⟩
      have hf2 := diffTable_filter t s n
      rw [← hf, List.filter_nil] at hf2
      rw [diffTable_filter] at hm2
      cases h3 : colByName s.columns n with
      | none =>
        rw [h3] at hm2 hf2
        cases h4 : colByName t.columns n with
        | none => rw [h4] at hm2; cases hm2
        | some c => rw [h4] at hf2; cases hf2
      | some o =>
        rw [h3] at hm2 hf2
        cases h4 : colByName t.columns n with
        | none => rw [h4] at hf2; cases hf2
        | some c =>
          rw [h4] at hm2 hf2
          simp only [diffColFor] at hm2 hf2
          by_cases hb : o.beq c = true
          · rw [if_pos (col_beq_symm hb)] at hm2
            cases hm2
          · rw [if_neg hb] at hf2
            cases hf2

theorem diff_ne_symm {a b : ADB} (ha : ValidSchema a) (hb : ValidSchema b) (h : diff a b ≠ []) : diff b a ≠ [] :=
  fun h' => h (diff_nil_symm hb ha h')

/-! ### The invariant -/

/-- `made` are the migrations, with their schemas exactly as they are read. -/
structure FsExact (s : FsMigrations) (made : List (String × ADB)) : Prop where
  latest : s.latest = made.getLast?.map (·.1)
  nodup : (made.map (·.1)).Nodup
  notCurrent : ∀ e ∈ made, e.1 ≠ "current"
  dirs : ∀ a e b, made = a ++ e :: b → DirOk s (a.map (·.1)) e.1 (a.getLast?.map (·.1)) e.2
  changed : ∀ a e b, made = a ++ e :: b → diff (Props.before a) e.2 ≠ []
  own : ∀ a e b, made = a ++ e :: b → ∀ t x, (s.dir e.1).tables.lookup t = some x →
    t ∈ (diff (Props.before a) e.2).filterMap modifiedTable
  base : ∀ a e b, made = a ++ e :: b → ∀ t n, (s.info e.1).tableBases.lookup t = some n →
    (Props.before a).getTable t = e.2.getTable t

theorem FsExact.inv {s : FsMigrations} {made : List (String × ADB)} (h : FsExact s made) : FsInv s made :=
  ⟨h.latest, h.nodup, h.notCurrent, fun a e b hab => ⟨e.2, h.dirs a e b hab, sameSchema_refl _⟩⟩

theorem FsExact.settled {s : FsMigrations} {made : List (String × ADB)} (h : FsExact s made) {e : String × ADB}
    (he : e ∈ made) : Settled e.2 := by
  obtain ⟨a, b, hab⟩ := List.append_of_mem he
  exact (h.dirs a e b hab).settled

theorem FsExact.before {s : FsMigrations} {made a b : List (String × ADB)} (h : FsExact s made)
    (hab : made = a ++ b) : Settled (Props.before a) :=
  Props.before_settled fun e he => h.settled (by rw [hab]; simp [he])

theorem fsExact_nil {s : FsMigrations} (h : s.latest = none) : FsExact s [] := by
  refine ⟨h, List.nodup_nil, (fun e he => by cases he), ?_, ?_, ?_, ?_⟩ <;>
  · intro a e b hab
    simp at hab

theorem fsExact_frame {s s' : FsMigrations} {made : List (String × ADB)} (h : FsExact s made) {n : String}
    (hn : n ∉ made.map (·.1)) (hs : OnlyIn n s s') : FsExact s' made where
  latest := by rw [hs.1]; exact h.latest
  nodup := h.nodup
  notCurrent := h.notCurrent
  dirs a e b hab := by
    have hd := h.dirs a e b hab
    subst hab
    refine dirOk_frame hd (hs.2 _ ?_) (fun x hx => hs.2 _ ?_)
    · rintro rfl; exact hn (by simp)
    · rintro rfl; exact hn (by rw [List.map_append]; exact List.mem_append_left _ hx)
  changed := h.changed
  own a e b hab := by
    rw [dir_congr (hs.2 _ (by rintro rfl; exact hn (by rw [hab]; simp)))]
    exact h.own a e b hab
  base a e b hab := by
    rw [info_congr (hs.2 _ (by rintro rfl; exact hn (by rw [hab]; simp)))]
    exact h.base a e b hab

theorem fsExact_detach {s : FsMigrations} {a : List (String × ADB)} {x y : String × ADB} (hi : FsExact s (a ++ [x, y])) :
    FsExact { s with latest := some x.1 } (a ++ [x]) := by
  have hsplit : ∀ p e q, a ++ [x] = p ++ e :: q → a ++ [x, y] = p ++ e :: (q ++ [y]) := by
    intro p e q hpq
    rw [show a ++ [x, y] = (a ++ [x]) ++ [y] by simp, hpq]
    simp
  refine ⟨by simp, ?_, ?_, ?_, ?_, ?_, ?_⟩
  · have := hi.nodup
    rw [show a ++ [x, y] = (a ++ [x]) ++ [y] by simp, List.map_append] at this
    exact (List.nodup_append.1 this).1
  · intro e he
    refine hi.notCurrent e ?_
    rcases List.mem_append.1 he with h | h
    · simp [h]
    · simp at h; simp [h]
  · intro p e q hpq
    exact dirOk_frame (hi.dirs p e _ (hsplit p e q hpq)) rfl (fun _ _ => rfl)
  · intro p e q hpq
    exact hi.changed p e _ (hsplit p e q hpq)
  · intro p e q hpq
    exact hi.own p e _ (hsplit p e q hpq)
  · intro p e q hpq
    exact hi.base p e _ (hsplit p e q hpq)

/-- The directory of a migration after it was created: its schema as it is read. -/
theorem fs_create_exact {json : Bool} {backends : List MigBackend} (hnd : (backends.map (·.name)).Nodup)
    {s s' : FsMigrations} {names : List String} {name : String} {from_ : Option String} {fromDb toDb : ADB}
    (h : FromOk s names name from_ fromDb) (ht : Settled toDb)
    (hc : createMigrationTo (FsMigrations.ops json) backends name from_ toDb s = (.ok true, s')) :
    ∃ db, diff fromDb db ≠ [] ∧ DirOk s' names name from_ db ∧ SameSchema db toDb ∧
      (∀ b ∈ backends, FilesFor (s'.dir name) (s'.info name) fromDb toDb
        (upChanges from_ (diff fromDb toDb)) b) ∧
      s'.latest = (if s.latest = none ∨ s.latest = from_ then some name else s.latest) ∧
      (∀ n, n ≠ name → s'.dirs.lookup n = s.dirs.lookup n) ∧
      (∀ t x, (s'.dir name).tables.lookup t = some x → t ∈ (diff fromDb db).filterMap modifiedTable) ∧
      (∀ t b, (s'.info name).tableBases.lookup t = some b → fromDb.getTable t = db.getTable t) ∧
      (∀ t, t ∈ (diff fromDb toDb).filterMap modifiedTable → db.getTable t = toDb.getTable t ∧
        (∀ x, db.getTable t = some x → (s'.dir name).tables.lookup t = some x)) ∧
      (∀ t, t ∉ (diff fromDb toDb).filterMap modifiedTable →
        (∀ x, db.getTable t = some x → fromDb.getTable t = some x)) := by
  obtain ⟨db, h1, h2, h3, h4, h5, h6, h7, h8⟩ := fs_create_gen hnd h ht hc
  refine ⟨db, ?_, h2, h3, h4, h5, h6, ?_, ?_, h7, fun t ht => (h8 t ht).2⟩
  · exact diff_read_ne h.settled.valid ht.valid h2.settled.valid h3 (fun t ht => (h7 t ht).1) h1
  · intro t x hx
    by_cases hm : t ∈ (diff fromDb toDb).filterMap modifiedTable
    · exact modified_local h.settled.valid ht.valid h2.settled.valid (h7 t hm).1 hm
    · rw [(h8 t hm).1] at hx
      cases hx
  · intro t b hb
    obtain ⟨_, hl, x, _, hx⟩ := h2.base t b hb
    by_cases hm : t ∈ (diff fromDb toDb).filterMap modifiedTable
    · rw [(h7 t hm).2 x hx] at hl
      cases hl
    · rw [hx]
      exact (h8 t hm).2 x hx

theorem fsExact_create {json : Bool} {backends : List MigBackend} (hnd : (backends.map (·.name)).Nodup)
    {s s' : FsMigrations} {made : List (String × ADB)} (h : FsExact s made) {name : String}
    (hfresh : s.dirs.lookup name = none ∧ name ≠ "current") {toDb : ADB} (ht : Settled toDb)
    (hc : createMigrationTo (FsMigrations.ops json) backends name s.getLatest toDb s = (.ok true, s')) :
    ∃ db, SameSchema db toDb ∧ FsExact s' (made ++ [(name, db)]) := by
  obtain ⟨fromDb, h0, _, hmatch⟩ := fs_readLatest (json := json) h.inv
  have hfrom : fromDb = Props.before made := by
    unfold Props.before
    cases hl : made.getLast? with
    | none => rw [hl] at hmatch; exact hmatch
    | some e =>
      rw [hl] at hmatch
      obtain ⟨a, hma, hd, _⟩ := hmatch
      have := dirOk_getDb (json := json) hd
      rw [dirOk_getDb (h.dirs a e [] (by rw [hma]))] at this
      exact (Except.ok.inj this).symm
  have hlat : s.getLatest = s.latest := by rw [h.inv.getLatest, h.latest]
  obtain ⟨db, h1, h2, h3, _, h5, h6, h7, h8, _⟩ := fs_create_exact hnd (h.inv.fromOk hfresh.1 h0) ht hc
  rw [if_pos (.inr hlat.symm)] at h5
  subst hfrom
  have hnot : name ∉ made.map (·.1) := fun hm => by
    obtain ⟨d, hd⟩ := (h.inv.get hm).2
    rw [hfresh.1] at hd
    cases hd
  have hcase : ∀ {P : List (String × ADB) → String × ADB → List (String × ADB) → Prop}, P made (name, db) [] →
      (∀ a e b, made = a ++ e :: b → P a e (b ++ [(name, db)])) →
      ∀ a e b, made ++ [(name, db)] = a ++ e :: b → P a e b := by
    intro P p1 p2 a e b hab
    rcases List.eq_nil_or_concat b with rfl | ⟨b, y, rfl⟩
    · obtain ⟨rfl, h5⟩ := List.append_inj' hab rfl
      cases h5
      exact p1
    · rw [List.concat_eq_append, ← List.cons_append, ← List.append_assoc] at hab
      obtain ⟨h5, h6⟩ := List.append_inj' hab rfl
      cases h6
      rw [List.concat_eq_append]
      exact p2 a e b h5
  have hne : ∀ a e b, made = a ++ e :: b → e.1 ≠ name := by
    rintro a e b rfl rfl
    exact hnot (by simp)
  refine ⟨db, h3, by rw [h5]; simp, ?_, ?_, ?_, ?_, ?_, ?_⟩
  · rw [List.map_append, List.nodup_append]
    refine ⟨h.nodup, by simp, ?_⟩
    intro a ha b hb
    simp at hb
    subst hb
    rintro rfl
    exact hnot ha
  · intro e he
    rcases List.mem_append.1 he with he | he
    · exact h.notCurrent e he
    · simp at he
      subst he
      exact hfresh.2
  · refine hcase ?_ ?_
    · rw [← h.latest, ← hlat]
      exact h2
    · intro a e b hab
      refine dirOk_frame (h.dirs a e b hab) (h6 _ (hne a e b hab)) (fun x hx => h6 _ ?_)
      rintro rfl
      exact hnot (by rw [hab, List.map_append]; exact List.mem_append_left _ hx)
  · exact hcase h1 fun a e b hab => h.changed a e b hab
  · refine hcase h7 fun a e b hab => ?_
    rw [dir_congr (h6 _ (hne a e b hab))]
    exact h.own a e b hab
  · refine hcase h8 fun a e b hab => ?_
    rw [info_congr (h6 _ (hne a e b hab))]
    exact h.base a e b hab

/-! ### Making a migration again -/

/-- The list of migrations depends on the latest and on the predecessors only. -/
theorem FsInv.links {s s' : FsMigrations} {made : List (String × ADB)} (hi : FsInv s made)
    (hl : s'.latest = s.latest) (hex : ∀ n ∈ made.map (·.1), ∃ d, s'.dirs.lookup n = some d)
    (hfrom : ∀ n ∈ made.map (·.1), (s'.info n).fromName = (s.info n).fromName) :
    (s'.toMigs "").allMigrations (s'.dirs.length + 1) = .ok (made.map (·.1)) := by
  have hp := (hi.path "").1
  have hc := (hi.path "").2
  rw [Props.all_migrations_exact]
  have hget' : ∀ n ∈ made.map (·.1), s'.get n = some n := by
    intro n hn
    obtain ⟨d, hd⟩ := hex n hn
    unfold FsMigrations.get
    rw [hd]
  have hsame : ∀ {n m : String}, s.get n = some m → m = n := by
    intro n m h
    unfold FsMigrations.get at h
    split at h
    · cases h; rfl
    · cases h
  refine ⟨⟨?_, ?_, ?_⟩, ?_⟩
  · change _ = s'.getLatest
    unfold FsMigrations.getLatest
    rw [hl, hi.latest, List.getLast?_map]
    cases h : made.getLast? with
    | none => rfl
    | some e => exact (hget' e.1 (List.mem_map.2 ⟨e, List.mem_of_getLast? h, rfl⟩)).symm
  · intro p m hpm
    obtain ⟨n, h1, h2⟩ := hp.link p m hpm
    have hm : m ∈ made.map (·.1) := hpm.subset (by simp)
    have hp : p ∈ made.map (·.1) := hpm.subset (by simp)
    refine ⟨n, ?_, ?_⟩
    · change Except.ok (s'.info m).fromName = _
      rw [hfrom m hm]
      exact h1
    · have := hsame h2
      subst this
      exact hget' p hp
  · intro m hm
    left
    change Except.ok (s'.info m).fromName = _
    rw [hfrom m (List.mem_of_head? hm)]
    exact hc m hm
  · have : (made.map (·.1)).length ≤ s'.dirs.keys.length := length_le_of_subset hi.nodup (fun n hn => by
      rw [SMap.mem_keys_iff]
      exact hex n hn)
    unfold SMap.keys at this
    rw [List.length_map (as := s'.dirs)] at this
    omega

/-- The directory after its tables were written again. -/
theorem FsTables.dirOk {s : FsMigrations} {names mod : List String} {fromDb toDb : ADB} {name : String}
    {p : FsMigrations × String} (hT : FsTables s names mod fromDb toDb name [] p) (ht : Settled toDb)
    (hx : toDb.extraTypes = [])
    (hagree : ∀ t, t ∉ mod → ∀ x, toDb.getTable t = some x → fromDb.getTable t = some x)
    (hex : ∃ d, s.dirs.lookup name = some d) {prev : Option String} (hfrom : (s.info name).fromName = prev)
    (hnot : name ∉ names) :
    DirOk p.1 names name prev toDb ∧
    (∀ t x, t ∈ mod → toDb.getTable t = some x → (p.1.dir name).tables.lookup t = some x) ∧
    (∀ t x, (p.1.dir name).tables.lookup t = some x → t ∈ mod) ∧
    (∀ t b, (p.1.info name).tableBases.lookup t = some b → fromDb.getTable t = toDb.getTable t) := by
  have hb : ∀ t b, (p.1.info name).tableBases.lookup t = some b →
      ∃ x, t ∉ mod ∧ b ∈ names ∧ (s.dir b).tables.lookup t = some x ∧ fromDb.getTable t = some x ∧
        toDb.getTable t = some x := by
    intro t b hb
    obtain ⟨h1, h2, x, y, h3, h4, h5, _⟩ := hT.base t b hb
    have := hagree t h1 y h5
    rw [h4] at this
    cases this
    exact ⟨_, h1, h2, h3, h4, h5⟩
  refine ⟨⟨hT.exist hex, hT.fromName.trans hfrom, hT.types, hT.sortedT, hT.sortedB, ?_, ?_, ?_, ht, hx⟩, ?_, ?_, ?_⟩
  · intro t b h
    obtain ⟨x, h1, h2, h3, h4, h5⟩ := hb t b h
    refine ⟨h2, ?_, x, ?_, h5⟩
    · cases hl : (p.1.dir name).tables.lookup t with
      | none => rfl
      | some y => exact absurd (hT.own t y hl).2 h1
    · rw [dir_congr (hT.frame.2 b (by rintro rfl; exact hnot h2))]
      exact h3
  · intro t x h
    exact (hT.own t x h).1
  · intro t x h
    rcases hT.all t x h with k | k | k
    · cases k
    · exact .inl k
    · exact .inr k
  · intro t x htm h
    rcases hT.all t x h with k | k | ⟨b, k⟩
    · cases k
    · exact k
    · exact absurd htm (hb t b k).choose_spec.1
  · intro t x h
    exact (hT.own t x h).2
  · intro t b h
    obtain ⟨x, _, _, _, h4, h5⟩ := hb t b h
    rw [h4, h5]

end Butane
