import Verif.Spec.Schema
/- Helper lemmas about `diff` and `transform_with`. -/
namespace Butane
open Spec

/-! ### Column equality -/

theorem F64.eq_of_ne_nan {x : F64} (h : x.isNaN = false) : x.eq x = true := by
  simp [F64.eq, h]

theorem sqlval_beq_same {a b : SqlVal} (h : a.beq b = true) : SameVal a b := by
  cases a <;> cases b <;> simp_all [SqlVal.beq, SameVal]

theorem sqlval_same_beq {a b : SqlVal} (h : SameVal a b)
    (hn : ∀ x, b = .real x → x.isNaN = false) : a.beq b = true := by
  rcases h with h | ⟨x, y, h1, h2, h3⟩
  · subst h
    cases a <;> simp_all [SqlVal.beq, F64.eq]
  · subst h1 h2; simpa [SqlVal.beq] using h3

theorem deferred_beq_iff (a b : DeferredSqlType) : a.beq b = true ↔ denotes a = denotes b := by
  cases a <;> cases b <;> simp [DeferredSqlType.beq, denotes]

theorem aref_beq_iff (a b : ARef) : a.beq b = true ↔ SameRef a b := by
  cases a <;> cases b <;> simp [ARef.beq, SameRef, deferred_beq_iff]

theorem optBeq_iff {α : Type} {f : α → α → Bool} {R : α → α → Prop} (o o' : Option α)
    (h : ∀ a b, o = some a → o' = some b → (f a b = true ↔ R a b)) :
    optBeq f o o' = true ↔ OptRel R o o' := by
  cases o <;> cases o' <;> simp [optBeq, OptRel, h]

theorem col_beq_same {a b : AColumn} (h : a.beq b = true) : SameColumn a b := by
  simp only [AColumn.beq, Bool.and_eq_true, beq_iff_eq, deferred_beq_iff] at h
  obtain ⟨⟨⟨⟨⟨⟨⟨h1, h2⟩, h3⟩, h4⟩, h5⟩, h6⟩, h7⟩, h8⟩ := h
  refine ⟨h1, h2, h3, h4, h5, h6, ?_, ?_⟩
  · cases hd : a.default <;> cases hd' : b.default <;> simp_all [optBeq, OptRel]
    exact sqlval_beq_same h7
  · exact (optBeq_iff _ _ (fun _ _ _ _ => aref_beq_iff _ _)).1 h8

theorem col_same_beq {a b : AColumn} (h : SameColumn a b)
    (hn : ∀ x, b.default = some (.real x) → x.isNaN = false) : a.beq b = true := by
  simp only [AColumn.beq, Bool.and_eq_true, beq_iff_eq, deferred_beq_iff]
  refine ⟨⟨⟨⟨⟨⟨⟨h.name, h.type⟩, h.nullable⟩, h.pk⟩, h.auto⟩, h.unique⟩, ?_⟩, ?_⟩
  · have := h.default
    cases hd : a.default <;> cases hd' : b.default <;> simp_all [optBeq, OptRel]
    exact sqlval_same_beq this hn
  · exact (optBeq_iff _ _ (fun _ _ _ _ => aref_beq_iff _ _)).2 h.reference

theorem Spec.SameVal.refl (a : SqlVal) : SameVal a a := Or.inl rfl

theorem F64.eq_trans {x y z : F64} (h : x.eq y = true) (h' : y.eq z = true) : x.eq z = true := by
  simp only [F64.eq, Bool.and_eq_true, Bool.or_eq_true, Bool.not_eq_true', beq_iff_eq] at *
  obtain ⟨⟨a, b⟩, c⟩ := h
  obtain ⟨⟨_, e⟩, g⟩ := h'
  refine ⟨⟨a, e⟩, ?_⟩
  obtain ⟨xb⟩ := x
  obtain ⟨yb⟩ := y
  obtain ⟨zb⟩ := z
  simp only at c g
  rcases c with c | c
  · subst c; exact g
  · rcases g with g | g
    · subst g; exact Or.inr c
    · exact Or.inr ⟨c.1, g.2⟩

theorem F64.eq_symm {x y : F64} (h : x.eq y = true) : y.eq x = true := by
  simp only [F64.eq, Bool.and_eq_true, Bool.or_eq_true, Bool.not_eq_true', beq_iff_eq] at *
  obtain ⟨⟨a, b⟩, c⟩ := h
  exact ⟨⟨b, a⟩, c.imp Eq.symm And.symm⟩

theorem Spec.SameVal.trans {a b c : SqlVal} (h : SameVal a b) (h' : SameVal b c) : SameVal a c := by
  rcases h with h | ⟨x, y, h1, h2, h3⟩
  · subst h; exact h'
  · rcases h' with h' | ⟨u, v, g1, g2, g3⟩
    · subst h'; exact Or.inr ⟨x, y, h1, h2, h3⟩
    · subst h2; cases g1
      exact Or.inr ⟨x, v, h1, g2, F64.eq_trans h3 g3⟩

theorem Spec.SameVal.symm {a b : SqlVal} (h : SameVal a b) : SameVal b a := by
  rcases h with h | ⟨x, y, h1, h2, h3⟩
  · exact Or.inl h.symm
  · exact Or.inr ⟨y, x, h2, h1, F64.eq_symm h3⟩

theorem Spec.SameRef.refl (a : ARef) : SameRef a a := by cases a <;> simp [SameRef]
theorem Spec.SameRef.symm {a b : ARef} (h : SameRef a b) : SameRef b a := by
  cases a <;> cases b <;> simp_all [SameRef]
theorem Spec.SameRef.trans {a b c : ARef} (h : SameRef a b) (h' : SameRef b c) : SameRef a c := by
  cases a <;> cases b <;> cases c <;> simp_all [SameRef]

theorem Spec.OptRel.refl {α : Type} {R : α → α → Prop} (hr : ∀ a, R a a) (o : Option α) : OptRel R o o := by
  cases o <;> simp [OptRel, hr]
theorem Spec.OptRel.symm {α : Type} {R : α → α → Prop} (hr : ∀ a b, R a b → R b a) {o o' : Option α}
    (h : OptRel R o o') : OptRel R o' o := by
  cases o <;> cases o' <;> simp_all [OptRel]
theorem Spec.OptRel.trans {α : Type} {R : α → α → Prop} (hr : ∀ a b c, R a b → R b c → R a c)
    {o o' o'' : Option α} (h : OptRel R o o') (h' : OptRel R o' o'') : OptRel R o o'' := by
  cases o <;> cases o' <;> cases o'' <;> simp_all [OptRel]
  exact hr _ _ _ h h'

theorem Spec.SameColumn.refl (a : AColumn) : SameColumn a a :=
  ⟨rfl, rfl, rfl, rfl, rfl, rfl, OptRel.refl SameVal.refl _, OptRel.refl SameRef.refl _⟩
theorem Spec.SameColumn.symm {a b : AColumn} (h : SameColumn a b) : SameColumn b a :=
  ⟨h.1.symm, h.2.symm, h.3.symm, h.4.symm, h.5.symm, h.6.symm,
    OptRel.symm (fun _ _ => SameVal.symm) h.7, OptRel.symm (fun _ _ => SameRef.symm) h.8⟩
theorem Spec.SameColumn.trans {a b c : AColumn} (h : SameColumn a b) (h' : SameColumn b c) :
    SameColumn a c :=
  ⟨h.1.trans h'.1, h.2.trans h'.2, h.3.trans h'.3, h.4.trans h'.4, h.5.trans h'.5, h.6.trans h'.6,
    OptRel.trans (R := SameVal) (fun _ _ _ => SameVal.trans) h.7 h'.7,
    OptRel.trans (R := SameRef) (fun _ _ _ => SameRef.trans) h.8 h'.8⟩

/-! ### Columns by name -/

theorem colByName_some {cols : List AColumn} {n : String} {c : AColumn}
    (h : colByName cols n = some c) : c ∈ cols ∧ c.name = n := by
  have h1 := List.mem_of_find?_eq_some h
  have h2 := List.find?_some h
  exact ⟨h1, by simpa using h2⟩

theorem colByName_none {cols : List AColumn} {n : String} :
    colByName cols n = none ↔ ∀ c ∈ cols, c.name ≠ n := by
  simp [colByName]

theorem colByName_of_mem {cols : List AColumn} (hn : (cols.map (·.name)).Nodup) {c : AColumn}
    (h : c ∈ cols) : colByName cols c.name = some c := by
  induction cols with
  | nil => cases h
  | cons x rest ih =>
    simp only [List.map_cons, List.nodup_cons] at hn
    simp only [colByName, List.find?_cons]
    rcases List.mem_cons.1 h with h | h
    · subst h; simp
    · have : x.name ≠ c.name := fun e => hn.1 (e ▸ List.mem_map.2 ⟨c, h, rfl⟩)
      rw [show (x.name == c.name) = false by simpa using this]
      exact ih hn.2 h

theorem colByName_replaceCol (cols : List AColumn) (c : AColumn) (n : String) :
    colByName (replaceCol cols c) n = if n = c.name then some c else colByName cols n := by
  induction cols with
  | nil =>
    simp only [replaceCol, colByName, List.find?_cons, List.find?_nil]
    by_cases h : n = c.name
    · subst h; simp
    · have : (c.name == n) = false := by simpa using Ne.symm h
      simp [h, this]
  | cons x rest ih =>
    simp only [replaceCol]
    split
    · rename_i h
      have hx : x.name = c.name := by simpa using h
      simp only [colByName, List.find?_cons]
      by_cases h : n = c.name
      · subst h; simp
      · have h1 : (c.name == n) = false := by simpa using Ne.symm h
        have h2 : (x.name == n) = false := by rw [hx]; exact h1
        simp [h, h1, h2]
    · rename_i h
      have hx : x.name ≠ c.name := by simpa using h
      simp only [colByName, List.find?_cons] at ih ⊢
      by_cases h3 : x.name = n
      · have : n ≠ c.name := h3 ▸ hx
        simp [h3, this]
      · have : (x.name == n) = false := by simpa using h3
        simp only [this, ih]

theorem names_replaceCol_mem {cols : List AColumn} {c : AColumn} {x : AColumn}
    (h : x ∈ replaceCol cols c) : x = c ∨ x ∈ cols := by
  induction cols with
  | nil => simp [replaceCol] at h; exact Or.inl h
  | cons y rest ih =>
    simp only [replaceCol] at h
    split at h
    · rcases List.mem_cons.1 h with h | h
      · exact Or.inl h
      · exact Or.inr (List.mem_cons_of_mem _ h)
    · rcases List.mem_cons.1 h with h | h
      · exact Or.inr (h ▸ List.mem_cons_self)
      · exact (ih h).imp id (List.mem_cons_of_mem _)

theorem nodup_replaceCol {cols : List AColumn} (hn : (cols.map (·.name)).Nodup) (c : AColumn) :
    ((replaceCol cols c).map (·.name)).Nodup := by
  induction cols with
  | nil => simp [replaceCol]
  | cons x rest ih =>
    simp only [List.map_cons, List.nodup_cons] at hn
    simp only [replaceCol]
    split
    · rename_i h
      have hx : x.name = c.name := by simpa using h
      simp only [List.map_cons, List.nodup_cons]
      exact ⟨hx ▸ hn.1, hn.2⟩
    · rename_i h
      have hx : x.name ≠ c.name := by simpa using h
      simp only [List.map_cons, List.nodup_cons]
      refine ⟨?_, ih hn.2⟩
      intro hm
      obtain ⟨y, hy, e⟩ := List.mem_map.1 hm
      rcases names_replaceCol_mem hy with hy | hy
      · subst hy; exact hx e.symm
      · exact hn.1 (e ▸ List.mem_map.2 ⟨y, hy, rfl⟩)

theorem colByName_filter (cols : List AColumn) (m n : String) :
    colByName (cols.filter (fun c => c.name != m)) n = if n = m then none else colByName cols n := by
  induction cols with
  | nil => simp [colByName]
  | cons x rest ih =>
    simp only [colByName] at ih
    simp only [colByName, List.filter_cons]
    by_cases hx : x.name = m
    · subst hx
      simp only [bne_self_eq_false, Bool.false_eq_true, if_false, ih, List.find?_cons]
      by_cases h : n = x.name
      · simp [h]
      · have : (x.name == n) = false := by simpa using Ne.symm h
        simp [h, this]
    · have : (x.name != m) = true := by simpa using hx
      simp only [this, if_true, List.find?_cons, ih]
      by_cases h : x.name = n
      · have : n ≠ m := h ▸ hx
        simp [h, this]
      · have h' : (x.name == n) = false := by simpa using h
        simp [h']

theorem nodup_filter_names {cols : List AColumn} (hn : (cols.map (·.name)).Nodup) (p : AColumn → Bool) :
    ((cols.filter p).map (·.name)).Nodup :=
  List.Nodup.sublist (List.Sublist.map _ List.filter_sublist) hn

/-! ### The set of column names -/

theorem colNameSet_fold_lookup (cols : List AColumn) (s : SMap String Unit) (n : String) :
    (cols.foldl (fun (s : SMap String Unit) c => s.insert c.name ()) s).lookup n =
      if ∃ c ∈ cols, c.name = n then some () else s.lookup n := by
  induction cols generalizing s with
  | nil => simp
  | cons x rest ih =>
    simp only [List.foldl_cons, ih, SMap.lookup_insert]
    by_cases h1 : ∃ c ∈ rest, c.name = n
    · have : ∃ c ∈ x :: rest, c.name = n := by
        obtain ⟨c, hc, e⟩ := h1; exact ⟨c, List.mem_cons_of_mem _ hc, e⟩
      simp [h1, this]
    · by_cases h2 : n = x.name
      · have : ∃ c ∈ x :: rest, c.name = n := ⟨x, List.mem_cons_self, h2.symm⟩
        simp only [h1, if_false, this, if_true]
        simp [h2]
      · have : ¬ ∃ c ∈ x :: rest, c.name = n := by
          rintro ⟨c, hc, e⟩
          rcases List.mem_cons.1 hc with hc | hc
          · subst hc; exact h2 e.symm
          · exact h1 ⟨c, hc, e⟩
        rw [if_neg h1, if_neg this, if_neg h2]

theorem colNameSet_fold_sorted (cols : List AColumn) (s : SMap String Unit) (hs : s.Sorted) :
    (cols.foldl (fun (s : SMap String Unit) c => s.insert c.name ()) s).Sorted := by
  induction cols generalizing s with
  | nil => exact hs
  | cons x rest ih => exact ih _ (SMap.sorted_insert hs _ _)

theorem mem_colNameSet (cols : List AColumn) (n : String) :
    n ∈ colNameSet cols ↔ ∃ c ∈ cols, c.name = n := by
  rw [colNameSet, SMap.mem_keys_iff]
  simp only [colNameSet_fold_lookup]
  constructor
  · rintro ⟨v, h⟩
    split at h
    · assumption
    · simp [SMap.lookup] at h
  · intro h; exact ⟨(), by simp [h]⟩

theorem nodup_colNameSet (cols : List AColumn) : (colNameSet cols).Nodup :=
  SMap.nodup_keys (colNameSet_fold_sorted cols [] SMap.sorted_nil)

/-- The `unwrap` in `diff_table` (adb.rs:664, 679, 680) never fails. -/
theorem colByName_of_mem_colNameSet {cols : List AColumn} {n : String} (h : n ∈ colNameSet cols) :
    ∃ c, colByName cols n = some c := by
  rw [mem_colNameSet] at h
  cases hc : colByName cols n with
  | some c => exact ⟨c, rfl⟩
  | none =>
    obtain ⟨c, hc', e⟩ := h
    exact absurd e (colByName_none.1 hc c hc')

theorem mem_colNameSet_iff_some (cols : List AColumn) (n : String) :
    n ∈ colNameSet cols ↔ (colByName cols n).isSome = true := by
  constructor
  · intro h; obtain ⟨c, hc⟩ := colByName_of_mem_colNameSet h; simp [hc]
  · intro h
    obtain ⟨c, hc⟩ := Option.isSome_iff_exists.1 h
    rw [mem_colNameSet]
    exact ⟨c, (colByName_some hc).1, (colByName_some hc).2⟩

/-! ### Projection to one table -/

/-- The table an operation is about. -/
def Operation.target : Operation → String
  | .addTable t => t.name
  | .addTableIfNotExists t => t.name
  | .removeTableConstraints t => t.name
  | .removeTable n => n
  | .addColumn t _ => t
  | .removeColumn t _ => t
  | .changeColumn t _ _ => t
  | .addTableConstraints t => t.name

/-- Effect of an operation on the entry of the table it is about. -/
def tableEff (o : Option ATable) : Operation → Option ATable
  | .addTable t => some t
  | .addTableIfNotExists t => some t
  | .removeTableConstraints _ => o
  | .removeTable _ => none
  | .addColumn _ c => o.map (·.addColumn c)
  | .removeColumn _ c => o.map (·.removeColumn c)
  | .changeColumn _ _ c => o.map (·.replaceColumn c)
  | .addTableConstraints _ => o

theorem sorted_transformWith {db : ADB} (hs : db.tables.Sorted) (op : Operation) :
    (db.transformWith op).tables.Sorted := by
  cases op <;> simp only [ADB.transformWith, ADB.removeTable]
  · exact SMap.sorted_insert hs _ _
  · exact SMap.sorted_insert hs _ _
  · exact hs
  · exact SMap.sorted_erase hs _
  · exact SMap.sorted_modify hs _ _
  · exact SMap.sorted_modify hs _ _
  · exact SMap.sorted_modify hs _ _
  · exact hs

theorem sorted_transformAll {db : ADB} (hs : db.tables.Sorted) (ops : List Operation) :
    (db.transformAll ops).tables.Sorted := by
  induction ops generalizing db with
  | nil => exact hs
  | cons op rest ih => exact ih (sorted_transformWith hs op)

theorem lookup_transformWith {db : ADB} (hs : db.tables.Sorted) (op : Operation) (n : String) :
    (db.transformWith op).tables.lookup n =
      if op.target = n then tableEff (db.tables.lookup n) op else db.tables.lookup n := by
  by_cases h : op.target = n
  · subst h
    cases op <;> simp [ADB.transformWith, ADB.removeTable, Operation.target, tableEff,
      SMap.lookup_insert, SMap.lookup_erase hs, SMap.lookup_modify]
  · cases op <;> simp only [Operation.target] at h <;>
      simp [ADB.transformWith, ADB.removeTable, Operation.target, h, Ne.symm h,
        SMap.lookup_insert, SMap.lookup_erase hs, SMap.lookup_modify]

theorem lookup_transformAll {db : ADB} (hs : db.tables.Sorted) (ops : List Operation) (n : String) :
    (db.transformAll ops).tables.lookup n =
      (ops.filter (fun op => op.target == n)).foldl tableEff (db.tables.lookup n) := by
  induction ops generalizing db with
  | nil => rfl
  | cons op rest ih =>
    simp only [ADB.transformAll, List.foldl_cons] at ih ⊢
    rw [ih (sorted_transformWith hs op), lookup_transformWith hs, List.filter_cons]
    by_cases h : op.target = n
    · simp [h]
    · simp [h]

theorem filter_key_eq {V : Type} {m : SMap String V} (hs : m.Sorted) (n : String) :
    m.filter (fun e => e.1 == n) = (m.lookup n).toList.map (fun v => (n, v)) := by
  induction m with
  | nil => rfl
  | cons p rest ih =>
    obtain ⟨k, v⟩ := p
    have hs' := List.pairwise_cons.1 hs
    simp only [List.filter_cons, SMap.lookup, SMap.cmp_eq_iff]
    by_cases h : k = n
    · subst h
      have : SMap.lookup rest k = none := by
        rw [SMap.lookup_eq_none_iff]
        intro q hq
        exact (SMap.ne_of_lt (hs'.1 _ hq)).symm
      simp [ih hs'.2, this]
    · have h' : (k == n) = false := by simpa using h
      simp [h', Ne.symm h, ih hs'.2]

theorem flatMap_filter_target {V : Type} {m : SMap String V} (hs : m.Sorted) (n : String)
    (g : String × V → List Operation) (hg : ∀ e ∈ m, ∀ op ∈ g e, op.target = e.1) :
    (m.flatMap g).filter (fun op => op.target == n) =
      match m.lookup n with
      | some t => g (n, t)
      | none => [] := by
  have key : (m.flatMap g).filter (fun op => op.target == n) =
      (m.filter (fun e => e.1 == n)).flatMap g := by
    clear hs
    induction m with
    | nil => rfl
    | cons p rest ih =>
      simp only [List.flatMap_cons, List.filter_append, List.filter_cons]
      rw [ih (fun e he => hg e (List.mem_cons_of_mem _ he))]
      have hp := hg p List.mem_cons_self
      by_cases h : p.1 = n
      · have : (g p).filter (fun op => op.target == n) = g p := by
          rw [List.filter_eq_self]
          intro op hop
          simp [hp op hop, h]
        simp [h, this]
      · have h2 : (p.1 == n) = false := by simpa using h
        have : (g p).filter (fun op => op.target == n) = [] := by
          rw [List.filter_eq_nil_iff]
          intro op hop
          simp [hp op hop, h]
        simp [h2, this]
  rw [key, filter_key_eq hs]
  cases m.lookup n <;> simp

theorem map_filter_flatMap {α β : Type} (l : List α) (p : α → Bool) (f : α → β) :
    (l.filter p).map f = l.flatMap (fun a => if p a then [f a] else []) := by
  induction l with
  | nil => rfl
  | cons a rest ih =>
    simp only [List.filter_cons, List.flatMap_cons]
    split <;> simp_all

theorem diffTable_target {s t : ATable} (h : s.name = t.name) {op : Operation}
    (hop : op ∈ diffTable s t) : op.target = t.name := by
  simp only [diffTable, List.mem_append, List.mem_filterMap, List.mem_map] at hop
  rcases hop with (⟨n, _, h2⟩ | ⟨n, _, h2⟩) | ⟨n, _, h2⟩
  · simp only [Option.map_eq_some_iff] at h2
    obtain ⟨c, _, e⟩ := h2
    subst e; rfl
  · subst h2; exact h
  · split at h2
    · split at h2
      · cases h2
      · cases h2; rfl
    · cases h2

/-- The operations `diff` generates for one table name. -/
def diffFor (n : String) : Option ATable → Option ATable → List Operation
  | none, none => []
  | none, some t => .addTable t ::
      (if t.columns.any (fun c => c.reference.isSome) then [.addTableConstraints t] else [])
  | some s, none => [.removeTableConstraints s, .removeTable n]
  | some s, some t => diffTable s t

theorem diff_filter {old new : ADB} (ho : ValidSchema old) (hn : ValidSchema new) (n : String) :
    (diff old new).filter (fun op => op.target == n) =
      diffFor n (old.getTable n) (new.getTable n) := by
  simp only [diff, List.filter_append, List.filter_filter, map_filter_flatMap]
  rw [flatMap_filter_target hn.sorted, flatMap_filter_target ho.sorted,
    flatMap_filter_target ho.sorted, flatMap_filter_target hn.sorted,
    flatMap_filter_target hn.sorted]
  · simp only [ADB.getTable]
    have mo : ∀ k, (SMap.keys old.tables).contains k = (old.tables.lookup k).isSome := by
      intro k
      rw [Bool.eq_iff_iff, List.contains_iff_mem, SMap.mem_keys_iff, Option.isSome_iff_exists]
    have mn : ∀ k, (SMap.keys new.tables).contains k = (new.tables.lookup k).isSome := by
      intro k
      rw [Bool.eq_iff_iff, List.contains_iff_mem, SMap.mem_keys_iff, Option.isSome_iff_exists]
    cases h1 : old.tables.lookup n <;> cases h2 : new.tables.lookup n <;>
      simp only [diffFor, mo, mn, h1, h2] <;> simp
  · intro e he op hop
    split at hop
    · simp only [List.mem_singleton] at hop; subst hop; exact (hn.keyed e he).symm
    · cases hop
  · intro e he op hop
    split at hop
    · rename_i s hs
      have hk := ho.keyed _ (SMap.mem_of_lookup hs)
      have := hn.keyed e he
      rw [diffTable_target (by simpa [this] using hk.symm) hop]; exact this.symm
    · cases hop
  · intro e he op hop
    split at hop
    · simp only [List.mem_singleton] at hop; subst hop; rfl
    · cases hop
  · intro e he op hop
    split at hop
    · simp only [List.mem_singleton] at hop; subst hop; exact (ho.keyed e he).symm
    · cases hop
  · intro e he op hop
    split at hop
    · simp only [List.mem_singleton] at hop; subst hop; exact (hn.keyed e he).symm
    · cases hop

/-! ### Projection to one column -/

/-- The column an operation is about. -/
def Operation.colTarget : Operation → Option String
  | .addColumn _ c => some c.name
  | .removeColumn _ c => some c
  | .changeColumn _ _ c => some c.name
  | _ => none

/-- Effect of a column operation on the column it is about. -/
def colEff (o : Option AColumn) : Operation → Option AColumn
  | .addColumn _ c => some c
  | .removeColumn _ _ => none
  | .changeColumn _ _ c => some c
  | _ => o

/-- Effect of a column operation on a column list. -/
def colsEff (cols : List AColumn) : Operation → List AColumn
  | .addColumn _ c => replaceCol cols c
  | .removeColumn _ n => cols.filter (fun c => c.name != n)
  | .changeColumn _ _ c => replaceCol cols c
  | _ => cols

theorem tableEff_col (t : ATable) (op : Operation) (h : op.colTarget.isSome = true) :
    tableEff (some t) op = some ⟨t.name, colsEff t.columns op⟩ := by
  cases op <;> simp_all [Operation.colTarget, tableEff, colsEff, ATable.addColumn,
    ATable.replaceColumn, ATable.removeColumn]

theorem foldl_tableEff_col (ops : List Operation) (t : ATable)
    (h : ∀ op ∈ ops, op.colTarget.isSome = true) :
    ops.foldl tableEff (some t) = some ⟨t.name, ops.foldl colsEff t.columns⟩ := by
  induction ops generalizing t with
  | nil => rfl
  | cons op rest ih =>
    simp only [List.foldl_cons]
    rw [tableEff_col _ _ (h op List.mem_cons_self), ih _ (fun o ho => h o (List.mem_cons_of_mem _ ho))]

theorem colByName_colsEff (cols : List AColumn) (op : Operation) (n : String) :
    colByName (colsEff cols op) n =
      if op.colTarget = some n then colEff (colByName cols n) op else colByName cols n := by
  cases op <;> simp [colsEff, colEff, Operation.colTarget, colByName_replaceCol, colByName_filter,
    eq_comm (a := n)]

theorem colByName_foldl (ops : List Operation) (cols : List AColumn) (n : String) :
    colByName (ops.foldl colsEff cols) n =
      (ops.filter (fun op => op.colTarget == some n)).foldl colEff (colByName cols n) := by
  induction ops generalizing cols with
  | nil => rfl
  | cons op rest ih =>
    simp only [List.foldl_cons, ih, colByName_colsEff, List.filter_cons]
    by_cases h : op.colTarget = some n <;> simp [h]

theorem nodup_colsEff {cols : List AColumn} (hn : (cols.map (·.name)).Nodup) (op : Operation) :
    ((colsEff cols op).map (·.name)).Nodup := by
  cases op <;> simp only [colsEff] <;>
    first | exact nodup_replaceCol hn _ | exact nodup_filter_names hn _ | exact hn

theorem nodup_foldl_colsEff (ops : List Operation) {cols : List AColumn}
    (hn : (cols.map (·.name)).Nodup) : ((ops.foldl colsEff cols).map (·.name)).Nodup := by
  induction ops generalizing cols with
  | nil => exact hn
  | cons op rest ih => exact ih (nodup_colsEff hn op)

theorem filterMap_filter_col {ns : List String} (hnd : ns.Nodup) (h : String → Option Operation)
    (ht : ∀ n op, h n = some op → op.colTarget = some n) (m : String) :
    (ns.filterMap h).filter (fun op => op.colTarget == some m) =
      if m ∈ ns then (h m).toList else [] := by
  induction ns with
  | nil => simp
  | cons x rest ih =>
    have hnd' := List.nodup_cons.1 hnd
    have ih := ih hnd'.2
    simp only [List.filterMap_cons]
    by_cases hx : x = m
    · subst hx
      rw [if_neg hnd'.1] at ih
      cases hh : h x with
      | none => simp [ih]
      | some op => simp [ht _ _ hh, ih]
    · have hm : (m ∈ x :: rest) ↔ m ∈ rest := by simp [Ne.symm hx]
      simp only [hm]
      cases hh : h x with
      | none => simpa using ih
      | some op =>
        have : ¬ (op.colTarget = some m) := by rw [ht _ _ hh]; simpa using hx
        simp only [List.filter_cons, beq_iff_eq, this, if_false]
        exact ih

/-- The operations `diff_table` generates for one column name. -/
def diffColFor (s t : ATable) (n : String) : Option AColumn → Option AColumn → List Operation
  | none, none => []
  | none, some c => [.addColumn t.name c]
  | some _, none => [.removeColumn s.name n]
  | some o, some c => if c.beq o then [] else [.changeColumn t.name o c]

theorem diffTable_filter (s t : ATable) (n : String) :
    (diffTable s t).filter (fun op => op.colTarget == some n) =
      diffColFor s t n (colByName s.columns n) (colByName t.columns n) := by
  simp only [diffTable, List.filter_append]
  have e2 : ((colNameSet s.columns).filter (fun n => !(colNameSet t.columns).contains n)).map
      (fun n => Operation.removeColumn s.name n) =
      ((colNameSet s.columns).filter (fun n => !(colNameSet t.columns).contains n)).filterMap
      (fun n => some (Operation.removeColumn s.name n)) := by
    rw [List.filterMap_eq_map']
  rw [e2, filterMap_filter_col, filterMap_filter_col, filterMap_filter_col]
  · simp only [List.mem_filter, List.contains_eq_mem, mem_colNameSet_iff_some, decide_eq_true_eq,
      Bool.not_eq_true', decide_eq_false_iff_not]
    cases h1 : colByName s.columns n <;> cases h2 : colByName t.columns n <;>
      simp [diffColFor]
    split <;> simp_all
  · exact (nodup_colNameSet _).filter _
  · intro m op h
    split at h
    · rename_i c o hc ho
      split at h
      · cases h
      · cases h; simp [Operation.colTarget, (colByName_some hc).2]
    · cases h
  · exact (nodup_colNameSet _).filter _
  · intro m op h; cases h; rfl
  · exact (nodup_colNameSet _).filter _
  · intro m op h
    simp only [Option.map_eq_some_iff] at h
    obtain ⟨c, hc, e⟩ := h
    subst e
    simp [Operation.colTarget, (colByName_some hc).2]

theorem diffTable_isCol {s t : ATable} {op : Operation} (hop : op ∈ diffTable s t) :
    op.colTarget.isSome = true := by
  simp only [diffTable, List.mem_append, List.mem_filterMap, List.mem_map] at hop
  rcases hop with (⟨n, _, h2⟩ | ⟨n, _, h2⟩) | ⟨n, _, h2⟩
  · simp only [Option.map_eq_some_iff] at h2
    obtain ⟨c, _, e⟩ := h2
    subst e; rfl
  · subst h2; rfl
  · split at h2
    · split at h2
      · cases h2
      · cases h2; rfl
    · cases h2

/-! ### Same table, by names -/

/-- Same table, phrased by looking up each column name. -/
def SameByName (s t : ATable) : Prop :=
  s.name = t.name ∧ ∀ n, OptRel SameColumn (colByName s.columns n) (colByName t.columns n)

theorem Spec.AllMatch.map_left {α β γ : Type} {R : α → β → Prop} (f : γ → α) (g : γ → β) (l : List γ)
    (h : ∀ x ∈ l, R (f x) (g x)) : AllMatch R (l.map f) (l.map g) := by
  induction l with
  | nil => exact AllMatch.nil
  | cons x rest ih =>
    exact AllMatch.cons (h x List.mem_cons_self) (ih (fun y hy => h y (List.mem_cons_of_mem _ hy)))

theorem Spec.AllMatch.mem_right {α β : Type} {R : α → β → Prop} {as : List α} {bs : List β}
    (h : AllMatch R as bs) {b : β} (hb : b ∈ bs) : ∃ a ∈ as, R a b := by
  induction h with
  | nil => cases hb
  | cons hr _ ih =>
    rcases List.mem_cons.1 hb with hb | hb
    · subst hb; exact ⟨_, List.mem_cons_self, hr⟩
    · obtain ⟨a, ha, h⟩ := ih hb; exact ⟨a, List.mem_cons_of_mem _ ha, h⟩

theorem Spec.AllMatch.mem_left {α β : Type} {R : α → β → Prop} {as : List α} {bs : List β}
    (h : AllMatch R as bs) {a : α} (ha : a ∈ as) : ∃ b ∈ bs, R a b := by
  induction h with
  | nil => cases ha
  | cons hr _ ih =>
    rcases List.mem_cons.1 ha with ha | ha
    · subst ha; exact ⟨_, List.mem_cons_self, hr⟩
    · obtain ⟨b, hb, h⟩ := ih ha; exact ⟨b, List.mem_cons_of_mem _ hb, h⟩

theorem nodup_of_nodup_names {cols : List AColumn} (hn : (cols.map (·.name)).Nodup) : cols.Nodup := by
  induction cols with
  | nil => exact List.nodup_nil
  | cons c rest ih =>
    simp only [List.map_cons, List.nodup_cons] at hn ⊢
    exact ⟨fun hm => hn.1 (List.mem_map.2 ⟨c, hm, rfl⟩), ih hn.2⟩

theorem sameTable_iff {s t : ATable} (hs : (s.columns.map (·.name)).Nodup)
    (ht : (t.columns.map (·.name)).Nodup) : SameTable s t ↔ SameByName s t := by
  constructor
  · rintro ⟨hname, cols, hp, hm⟩
    refine ⟨hname, fun n => ?_⟩
    cases h1 : colByName s.columns n with
    | none =>
      cases h2 : colByName t.columns n with
      | none => trivial
      | some c =>
        obtain ⟨a, ha, hr⟩ := hm.mem_right (colByName_some h2).1
        have : a ∈ s.columns := hp.mem_iff.1 ha
        exact absurd (hr.name.trans (colByName_some h2).2) (colByName_none.1 h1 a this)
    | some a =>
      have ha : a ∈ cols := hp.mem_iff.2 (colByName_some h1).1
      obtain ⟨b, hb, hr⟩ := hm.mem_left ha
      have hbn : b.name = n := hr.name.symm.trans (colByName_some h1).2
      have := colByName_of_mem ht hb
      rw [hbn] at this
      rw [this]
      exact hr
  · rintro ⟨hname, hcols⟩
    refine ⟨hname, ?_⟩
    -- the columns of `s` in the order of `t`
    let pick : AColumn → AColumn := fun c =>
      match colByName s.columns c.name with
      | some a => a
      | none => c
    have hpick : ∀ c ∈ t.columns, colByName s.columns c.name = some (pick c) ∧
        SameColumn (pick c) c := by
      intro c hc
      have h := hcols c.name
      rw [colByName_of_mem ht hc] at h
      cases h1 : colByName s.columns c.name with
      | none => rw [h1] at h; exact absurd h id
      | some a =>
        rw [h1] at h
        simp only [pick, h1]
        exact ⟨trivial, h⟩
    refine ⟨t.columns.map pick, ?_, ?_⟩
    · have hnames : ((t.columns.map pick).map (·.name)) = t.columns.map (·.name) := by
        rw [List.map_map]
        apply List.map_congr_left
        intro c hc
        exact (hpick c hc).2.name
      have hnd : ((t.columns.map pick).map (·.name)).Nodup := by rw [hnames]; exact ht
      rw [List.perm_ext_iff_of_nodup (nodup_of_nodup_names hnd) (nodup_of_nodup_names hs)]
      intro a
      constructor
      · intro ha
        obtain ⟨c, hc, e⟩ := List.mem_map.1 ha
        subst e
        exact (colByName_some (hpick c hc).1).1
      · intro ha
        have h := hcols a.name
        rw [colByName_of_mem hs ha] at h
        cases h2 : colByName t.columns a.name with
        | none => rw [h2] at h; exact absurd h id
        | some c =>
          have hc := colByName_some h2
          refine List.mem_map.2 ⟨c, hc.1, ?_⟩
          have := (hpick c hc.1).1
          rw [hc.2, colByName_of_mem hs ha] at this
          exact (Option.some.inj this).symm
    · have := AllMatch.map_left (R := SameColumn) pick id t.columns (fun c hc => (hpick c hc).2)
      simpa using this

theorem SameByName.refl (t : ATable) : SameByName t t :=
  ⟨rfl, fun _ => OptRel.refl SameColumn.refl _⟩
theorem SameByName.symm {s t : ATable} (h : SameByName s t) : SameByName t s :=
  ⟨h.1.symm, fun n => OptRel.symm (fun _ _ => SameColumn.symm) (h.2 n)⟩
theorem SameByName.trans {s t u : ATable} (h : SameByName s t) (h' : SameByName t u) : SameByName s u :=
  ⟨h.1.trans h'.1, fun n => OptRel.trans (R := SameColumn) (fun _ _ _ => SameColumn.trans) (h.2 n) (h'.2 n)⟩

/-- Same schema, phrased by looking up each table and column name. -/
def SchemaByName (a b : ADB) : Prop := ∀ n, OptRel SameByName (a.getTable n) (b.getTable n)

theorem distinct_of_getTable {db : ADB} (h : ValidSchema db) {n : String} {t : ATable}
    (ht : db.getTable n = some t) : (t.columns.map (·.name)).Nodup :=
  h.distinct _ (SMap.mem_of_lookup ht)

theorem name_of_getTable {db : ADB} (h : ValidSchema db) {n : String} {t : ATable}
    (ht : db.getTable n = some t) : t.name = n :=
  (h.keyed _ (SMap.mem_of_lookup ht)).symm

theorem sameSchema_iff {a b : ADB} (ha : ValidSchema a) (hb : ValidSchema b) :
    SameSchema a b ↔ SchemaByName a b := by
  constructor
  all_goals
    intro h n
    have hh := h n
    cases h1 : a.getTable n <;> cases h2 : b.getTable n <;> simp_all only [OptRel]
    first
    | exact (sameTable_iff (distinct_of_getTable ha h1) (distinct_of_getTable hb h2)).1 hh
    | exact (sameTable_iff (distinct_of_getTable ha h1) (distinct_of_getTable hb h2)).2 hh

/-! ### The result of running a diff -/

theorem diffTable_result {s t u : ATable} (hu : SameByName u s)
    (hst : s.name = t.name) :
    ∃ r, (diffTable s t).foldl tableEff (some u) = some r ∧ SameByName r t := by
  rw [foldl_tableEff_col _ _ (fun op hop => diffTable_isCol hop)]
  refine ⟨_, rfl, hu.1.trans hst, ?_⟩
  intro n
  simp only [colByName_foldl, diffTable_filter]
  have h := hu.2 n
  cases h1 : colByName s.columns n with
  | none =>
    cases h2 : colByName t.columns n with
    | none =>
      simp only [diffColFor, List.foldl_nil]
      rw [h1] at h; exact h
    | some c => simp [diffColFor, colEff, OptRel, SameColumn.refl]
  | some o =>
    cases h2 : colByName t.columns n with
    | none => simp [diffColFor, colEff, OptRel]
    | some c =>
      simp only [diffColFor]
      split
      · rename_i hb
        rw [h1] at h
        simp only [List.foldl_nil]
        refine OptRel.trans (R := SameColumn) (fun _ _ _ => SameColumn.trans) h ?_
        exact (col_beq_same hb).symm
      · simp [colEff, OptRel, SameColumn.refl]

theorem diff_result {old new s : ADB} (ho : ValidSchema old) (hn : ValidSchema new)
    (hs : s.tables.Sorted) (h : SchemaByName s old) :
    SchemaByName (s.transformAll (diff old new)) new := by
  intro n
  have hn' := h n
  simp only [ADB.getTable] at *
  rw [lookup_transformAll hs, diff_filter ho hn]
  simp only [ADB.getTable] at *
  cases h1 : old.tables.lookup n with
  | none =>
    rw [h1] at hn'
    cases h3 : s.tables.lookup n with
    | some _ => rw [h3] at hn'; exact absurd hn' id
    | none =>
      cases h2 : new.tables.lookup n with
      | none => trivial
      | some t =>
        simp only [diffFor, List.foldl_cons, tableEff]
        split <;> simp [tableEff, OptRel, SameByName.refl]
  | some o =>
    rw [h1] at hn'
    cases h3 : s.tables.lookup n with
    | none => rw [h3] at hn'; exact absurd hn' id
    | some u =>
      rw [h3] at hn'
      cases h2 : new.tables.lookup n with
      | none => simp [diffFor, tableEff, OptRel]
      | some t =>
        simp only [diffFor]
        have ho' := name_of_getTable ho (n := n) h1
        have hn'' := name_of_getTable hn (n := n) h2
        obtain ⟨r, hr, hr'⟩ := diffTable_result hn' (ho'.trans hn''.symm)
        rw [hr]; exact hr'

/-! ### Validity is preserved -/

/-- An operation whose added tables have distinct column names. -/
def opOk : Operation → Prop
  | .addTable t => (t.columns.map (·.name)).Nodup
  | .addTableIfNotExists t => (t.columns.map (·.name)).Nodup
  | _ => True

theorem valid_iff_lookup {db : ADB} (hs : db.tables.Sorted) :
    ValidSchema db ↔ ∀ n t, db.tables.lookup n = some t →
      t.name = n ∧ (t.columns.map (·.name)).Nodup := by
  constructor
  · intro h n t ht
    have hm := SMap.mem_of_lookup ht
    exact ⟨(h.keyed _ hm).symm, h.distinct _ hm⟩
  · intro h
    refine ⟨hs, ?_, ?_⟩
    · intro e he; exact (h _ _ (SMap.lookup_of_mem hs he)).1.symm
    · intro e he; exact (h _ _ (SMap.lookup_of_mem hs he)).2

theorem valid_transformWith {db : ADB} (h : ValidSchema db) (op : Operation) (hop : opOk op) :
    ValidSchema (db.transformWith op) := by
  rw [valid_iff_lookup (sorted_transformWith h.sorted op)]
  have h' := (valid_iff_lookup h.sorted).1 h
  intro n t ht
  rw [lookup_transformWith h.sorted] at ht
  split at ht
  · rename_i e
    cases op <;> simp only [tableEff, Operation.target, Option.map_eq_some_iff] at ht e <;>
      first
      | (obtain ⟨u, hu, rfl⟩ := ht
         have := h' _ _ hu
         simp only [ATable.addColumn, ATable.replaceColumn, ATable.removeColumn]
         first
         | exact ⟨this.1, nodup_replaceCol this.2 _⟩
         | exact ⟨this.1, nodup_filter_names this.2 _⟩)
      | (cases ht; exact ⟨e, hop⟩)
      | cases ht
      | exact h' _ _ ht
  · exact h' _ _ ht

theorem valid_transformAll {db : ADB} (h : ValidSchema db) (ops : List Operation)
    (hop : ∀ op ∈ ops, opOk op) : ValidSchema (db.transformAll ops) := by
  induction ops generalizing db with
  | nil => exact h
  | cons op rest ih =>
    exact ih (valid_transformWith h op (hop op List.mem_cons_self))
      (fun o ho => hop o (List.mem_cons_of_mem _ ho))

theorem diff_opOk {old new : ADB} (hn : ValidSchema new) {op : Operation} (hop : op ∈ diff old new) :
    opOk op := by
  simp only [diff, List.mem_append, List.mem_map, List.mem_flatMap, List.mem_filter] at hop
  rcases hop with (((⟨e, he, rfl⟩ | ⟨e, he, rfl⟩) | ⟨e, he, rfl⟩) | ⟨e, he, h⟩) | ⟨e, he, rfl⟩
  · exact hn.distinct e he.1
  · trivial
  · trivial
  · split at h
    · have := diffTable_isCol h
      cases op <;> simp_all [Operation.colTarget, opOk]
    · cases h
  · trivial

theorem schemaByName_refl (a : ADB) : SchemaByName a a := fun _ => OptRel.refl SameByName.refl _

end Butane
