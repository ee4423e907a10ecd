import Verif.Proofs.Diff
/-
Properties C01 to C04: the operations returned by `diff`.
-/
namespace Butane.Props
open Butane Butane.Spec

/-! ### A concrete pair of schemas used to show that hypotheses are met -/

/-- A blog with posts. -/
def exBlog : ATable := ⟨"Blog", [
  ⟨"id", .known .bigInt, false, true, true, false, none, none⟩,
  ⟨"name", .known .text, false, false, false, false, none, none⟩]⟩
def exPostOld : ATable := ⟨"Post", [
  ⟨"id", .known .int, false, true, true, false, none, none⟩,
  ⟨"title", .known .text, false, false, false, false, none, none⟩,
  ⟨"likes", .known .int, false, false, false, false, some (.int 0), none⟩]⟩
/-- The post table after adding a foreign key, dropping `likes` and changing `id`. -/
def exPostNew : ATable := ⟨"Post", [
  ⟨"blog", .knownId (.ty .bigInt), false, false, false, false, none, some (.literal "Blog" "id")⟩,
  ⟨"title", .known .text, false, false, false, false, none, none⟩,
  ⟨"id", .known .bigInt, false, true, true, false, none, none⟩]⟩
def exTag : ATable := ⟨"Tag", [⟨"tag", .known .text, false, true, false, true, none, none⟩]⟩
def exOld : ADB := ⟨[("Post", exPostOld), ("Tag", exTag)], []⟩
def exNew : ADB := ⟨[("Blog", exBlog), ("Post", exPostNew)], []⟩

theorem exOld_valid : ValidSchema exOld := by
  constructor
  · unfold SMap.Sorted; decide
  · decide
  · decide
theorem exNew_valid : ValidSchema exNew := by
  constructor
  · unfold SMap.Sorted; decide
  · decide
  · decide

/-! ### C01 -/

/-- C01: applying the operations of `diff old new` to `old`, in order, gives the schema
`new`: the same tables with the same columns, column order aside. -/
theorem diff_reaches_target (old new : ADB) (ho : ValidSchema old) (hn : ValidSchema new) :
    SameSchema (old.transformAll (diff old new)) new := by
  have hv : ValidSchema (old.transformAll (diff old new)) :=
    valid_transformAll ho _ (fun op h => diff_opOk hn h)
  rw [sameSchema_iff hv hn]
  exact diff_result ho hn ho.sorted (schemaByName_refl old)

example : SameSchema (exOld.transformAll (diff exOld exNew)) exNew :=
  diff_reaches_target exOld exNew exOld_valid exNew_valid
/-- The example really has work to do: six operations. -/
example : diff exOld exNew =
    [.addTable exBlog, .removeTableConstraints exTag, .removeTable "Tag",
     .addColumn "Post" ⟨"blog", .knownId (.ty .bigInt), false, false, false, false, none,
        some (.literal "Blog" "id")⟩,
     .removeColumn "Post" "likes",
     .changeColumn "Post" ⟨"id", .known .int, false, true, true, false, none, none⟩
        ⟨"id", .known .bigInt, false, true, true, false, none, none⟩] := by decide

/-- C01, for databases that are only the same as `old` (say, that list their columns in
another order): the operations still lead to `new`. -/
theorem diff_reaches_target_from_same (s old new : ADB) (hs : ValidSchema s) (ho : ValidSchema old)
    (hn : ValidSchema new) (h : SameSchema s old) :
    SameSchema (s.transformAll (diff old new)) new := by
  have hv : ValidSchema (s.transformAll (diff old new)) :=
    valid_transformAll hs _ (fun op h => diff_opOk hn h)
  rw [sameSchema_iff hv hn]
  exact diff_result ho hn hs.sorted ((sameSchema_iff hs ho).1 h)

/-- The schema stays well formed. -/
theorem diff_keeps_valid (s old new : ADB) (hs : ValidSchema s) (hn : ValidSchema new) :
    ValidSchema (s.transformAll (diff old new)) :=
  valid_transformAll hs _ (fun _ h => diff_opOk hn h)

/-! ### C02 -/

theorem diffColFor_nil {s t : ATable} {n : String} {o c : Option AColumn}
    (h : diffColFor s t n o c = []) : OptRel SameColumn o c := by
  cases o <;> cases c <;> simp_all [diffColFor, OptRel]
  exact (col_beq_same h).symm

/-- If `diff` reports nothing, the schemas are the same. -/
theorem same_of_diff_nil (old new : ADB) (ho : ValidSchema old) (hn : ValidSchema new)
    (h : diff old new = []) : SameSchema old new := by
  have := diff_reaches_target old new ho hn
  rw [h] at this
  exact this

/-- C02: a migration is needed exactly when the schemas differ (assuming that no column
default is a not-a-number). -/
theorem diff_nil_iff_partial (old new : ADB) (ho : ValidSchema old) (hn : ValidSchema new)
    (hnan : NoNaN old) : diff old new = [] ↔ SameSchema old new := by
  refine ⟨same_of_diff_nil old new ho hn, fun hs => ?_⟩
  rw [List.eq_nil_iff_forall_not_mem]
  intro op hop
  have hs' := (sameSchema_iff ho hn).1 hs op.target
  have hf := diff_filter ho hn op.target
  have hmem : op ∈ (diff old new).filter (fun o => o.target == op.target) :=
    List.mem_filter.2 ⟨hop, by simp⟩
  rw [hf] at hmem
  cases h1 : old.getTable op.target with
  | none =>
    cases h2 : new.getTable op.target with
    | none => rw [h1, h2] at hmem; cases hmem
    | some t => rw [h1, h2] at hs'; exact hs'
  | some s =>
    cases h2 : new.getTable op.target with
    | none => rw [h1, h2] at hs'; exact hs'
    | some t =>
      rw [h1, h2] at hs' hmem
      simp only [diffFor] at hmem
      have hcol := diffTable_isCol hmem
      obtain ⟨n, hc⟩ := Option.isSome_iff_exists.1 hcol
      have hm2 : op ∈ (diffTable s t).filter (fun o => o.colTarget == some n) :=
        List.mem_filter.2 ⟨hmem, by simp [hc]⟩
      rw [diffTable_filter] at hm2
      have hr := hs'.2 n
      cases h3 : colByName s.columns n with
      | none =>
        cases h4 : colByName t.columns n with
        | none => rw [h3, h4] at hm2; cases hm2
        | some c => rw [h3, h4] at hr; exact hr
      | some o =>
        cases h4 : colByName t.columns n with
        | none => rw [h3, h4] at hr; exact hr
        | some c =>
          rw [h3, h4] at hr hm2
          have hb : c.beq o = true := by
            apply col_same_beq (Spec.SameColumn.symm hr)
            intro x hx
            exact hnan _ (SMap.mem_of_lookup h1) o (colByName_some h3).1 x hx
          simp [diffColFor, hb] at hm2

/-- A schema with no real-number defaults has nothing to report against itself. -/
theorem diff_self_partial (s : ADB) (hs : ValidSchema s) (hn : NoNaN s) : diff s s = [] :=
  (diff_nil_iff_partial s s hs hs hn).2
    ((sameSchema_iff hs hs).2 (schemaByName_refl s))

theorem exOld_noNaN : NoNaN exOld := by
  intro e he c hc x hx
  simp [exOld] at he
  rcases he with rfl | rfl <;> simp [exPostOld, exTag] at hc
  · rcases hc with rfl | rfl | rfl <;> simp at hx
  · subst hc; simp at hx

example : diff exOld exOld = [] := diff_self_partial exOld exOld_valid exOld_noNaN
example : ¬ SameSchema exOld exNew := fun h =>
  absurd ((diff_nil_iff_partial exOld exNew exOld_valid exNew_valid exOld_noNaN).2 h) (by decide)

/-- A column whose default is a not-a-number real. -/
def exNaN : ADB :=
  ⟨[("T", ⟨"T", [⟨"x", .known .real, false, false, false, false,
    some (.real ⟨0x7ff8000000000000⟩), none⟩]⟩)], []⟩

/-- C02 fails in full: with a not-a-number default, a schema differs from itself, so each
new migration repeats a change of that column. -/
theorem diff_self_violated : ValidSchema exNaN ∧ diff exNaN exNaN ≠ [] ∧ SameSchema exNaN exNaN := by
  have hv : ValidSchema exNaN := by
    constructor
    · unfold SMap.Sorted; decide
    · decide
    · decide
  exact ⟨hv, by decide, (sameSchema_iff hv hv).2 (schemaByName_refl _)⟩

/-! ### C03 -/

/-- C03: the operations of `diff old new` followed by those of `diff new old` lead back to
`old`, column order aside. -/
theorem diff_down_undoes_up (old new : ADB) (ho : ValidSchema old) (hn : ValidSchema new) :
    SameSchema (old.transformAll (diff old new ++ diff new old)) old := by
  have h1 := diff_reaches_target old new ho hn
  have hv := diff_keeps_valid old old new ho hn
  have := diff_reaches_target_from_same _ new old hv hn ho h1
  simpa [ADB.transformAll, List.foldl_append] using this

example : SameSchema (exOld.transformAll (diff exOld exNew ++ diff exNew exOld)) exOld :=
  diff_down_undoes_up exOld exNew exOld_valid exNew_valid

/-! ### C04 -/

theorem split_singleton {α : Type} {pre post : List α} {a b : α} (h : pre ++ a :: post = [b]) :
    pre = [] ∧ a = b := by
  cases pre with
  | nil => simp at h; exact ⟨rfl, h.1⟩
  | cons x xs => simp at h

theorem diffColFor_split {s t : ATable} {n : String} {o c : Option AColumn} {pre post : List Operation}
    {op : Operation} (h : diffColFor s t n o c = pre ++ op :: post) : pre = [] := by
  cases o <;> cases c <;> simp only [diffColFor] at h
  · simp at h
  · exact (split_singleton h.symm).1
  · exact (split_singleton h.symm).1
  · split at h
    · simp at h
    · exact (split_singleton h.symm).1

/-- C04: each generated operation finds what it needs when its turn comes. -/
theorem diff_op_applicable (old new : ADB) (ho : ValidSchema old) (hn : ValidSchema new)
    (pre post : List Operation) (op : Operation) (h : diff old new = pre ++ op :: post) :
    Applicable (old.transformAll pre) op := by
  have hf := diff_filter ho hn op.target
  rw [h, List.filter_append, List.filter_cons] at hf
  simp only [beq_self_eq_true, if_true] at hf
  have hl := lookup_transformAll ho.sorted pre op.target
  revert hl hf
  generalize hpre : pre.filter (fun o => o.target == op.target) = P
  generalize post.filter (fun o => o.target == op.target) = Q
  intro hf hl
  change (old.transformAll pre).getTable op.target = List.foldl tableEff (old.getTable op.target) P at hl
  cases h1 : old.getTable op.target with
  | none =>
    cases h2 : new.getTable op.target with
    | none => rw [h1, h2] at hf; simp [diffFor] at hf
    | some t =>
      rw [h1, h2] at hf
      rw [h1] at hl
      simp only [diffFor] at hf
      cases P with
      | nil =>
        simp at hf
        obtain ⟨rfl, _⟩ := hf
        exact hl
      | cons x xs =>
        simp only [List.cons_append, List.cons.injEq] at hf
        obtain ⟨rfl, hf⟩ := hf
        split at hf
        · obtain ⟨rfl, rfl⟩ := split_singleton hf
          exact hl
        · simp at hf
  | some s =>
    cases h2 : new.getTable op.target with
    | none =>
      rw [h1, h2] at hf
      rw [h1] at hl
      simp only [diffFor] at hf
      cases P with
      | nil =>
        simp at hf
        obtain ⟨rfl, _⟩ := hf
        exact hl
      | cons x xs =>
        simp only [List.cons_append, List.cons.injEq] at hf
        obtain ⟨rfl, hf⟩ := hf
        obtain ⟨rfl, e⟩ := split_singleton hf
        have hop : ∀ n, op = .removeTable n → Applicable (old.transformAll pre) op := by
          rintro n rfl
          exact ⟨s, hl⟩
        exact hop _ e
    | some t =>
      rw [h1, h2] at hf
      rw [h1] at hl
      simp only [diffFor] at hf
      have hP : ∀ o ∈ P, o.colTarget.isSome = true := by
        intro o ho'
        apply diffTable_isCol (s := s) (t := t)
        rw [← hf]; exact List.mem_append_left _ ho'
      have hop : op ∈ diffTable s t := by rw [← hf]; simp
      rw [foldl_tableEff_col _ _ hP] at hl
      obtain ⟨n, hc⟩ := Option.isSome_iff_exists.1 (diffTable_isCol hop)
      have hcf := diffTable_filter s t n
      rw [← hf, List.filter_append, List.filter_cons] at hcf
      simp only [hc, beq_self_eq_true, if_true] at hcf
      have hnil := diffColFor_split hcf.symm
      have hcol : colByName (P.foldl colsEff s.columns) n = colByName s.columns n := by
        rw [colByName_foldl, hnil]; rfl
      rw [hnil] at hcf
      -- now look at the three kinds of column operation
      cases h3 : colByName s.columns n with
      | none =>
        rw [h3] at hcf hcol
        cases h4 : colByName t.columns n with
        | none => rw [h4] at hcf; simp [diffColFor] at hcf
        | some c =>
          rw [h4] at hcf
          simp only [diffColFor, List.nil_append, List.cons.injEq] at hcf
          obtain ⟨rfl, _⟩ := hcf
          refine ⟨_, hl, ?_⟩
          have hcn : c.name = n := by simpa [Operation.colTarget] using hc
          rw [hcn]
          exact colByName_none.1 hcol
      | some o =>
        rw [h3] at hcf hcol
        cases h4 : colByName t.columns n with
        | none =>
          rw [h4] at hcf
          simp only [diffColFor, List.nil_append, List.cons.injEq] at hcf
          obtain ⟨rfl, _⟩ := hcf
          exact ⟨_, hl, o, (colByName_some hcol).1, (colByName_some hcol).2⟩
        | some c =>
          rw [h4] at hcf
          simp only [diffColFor] at hcf
          split at hcf
          · simp at hcf
          · simp only [List.nil_append, List.cons.injEq] at hcf
            obtain ⟨rfl, _⟩ := hcf
            exact ⟨(colByName_some h3).2.trans (colByName_some h4).2.symm,
              _, hl, (colByName_some hcol).1⟩

example : Applicable (exOld.transformAll [.addTable exBlog, .removeTableConstraints exTag])
    (.removeTable "Tag") :=
  diff_op_applicable exOld exNew exOld_valid exNew_valid
    [.addTable exBlog, .removeTableConstraints exTag] _ _ rfl

/-- Every generated change of a column changes something (no not-a-number defaults). -/
theorem diff_changes_are_real_partial (old new : ADB) (ho : ValidSchema old) (hn : ValidSchema new)
    (hnan : NoNaN old) (tbl : String) (a b : AColumn)
    (h : Operation.changeColumn tbl a b ∈ diff old new) : ¬ SameColumn a b := by
  have hf := diff_filter ho hn tbl
  have hmem : Operation.changeColumn tbl a b ∈ (diff old new).filter (fun o => o.target == tbl) :=
    List.mem_filter.2 ⟨h, by simp [Operation.target]⟩
  rw [hf] at hmem
  cases h1 : old.getTable tbl with
  | none =>
    cases h2 : new.getTable tbl with
    | none => rw [h1, h2] at hmem; cases hmem
    | some t =>
      rw [h1, h2] at hmem
      simp only [diffFor] at hmem
      split at hmem <;> simp at hmem
  | some s =>
    cases h2 : new.getTable tbl with
    | none => rw [h1, h2] at hmem; simp [diffFor] at hmem
    | some t =>
      rw [h1, h2] at hmem
      have hm2 : Operation.changeColumn tbl a b ∈
          (diffTable s t).filter (fun o => o.colTarget == some b.name) :=
        List.mem_filter.2 ⟨hmem, by simp [Operation.colTarget]⟩
      rw [diffTable_filter] at hm2
      cases h3 : colByName s.columns b.name <;> cases h4 : colByName t.columns b.name <;>
        rw [h3, h4] at hm2 <;> simp only [diffColFor] at hm2
      · cases hm2
      · simp at hm2
      · simp at hm2
      · split at hm2
        · cases hm2
        · rename_i hb
          simp at hm2
          obtain ⟨_, rfl, rfl⟩ := hm2
          intro hsame
          apply hb
          exact col_same_beq hsame.symm (fun x hx =>
            hnan _ (SMap.mem_of_lookup h1) _ (colByName_some h3).1 x hx)

theorem constraints_suffix {A B : List Operation} {pre post : List Operation} {t : ATable}
    (h : A ++ B = pre ++ .addTableConstraints t :: post)
    (hA : ∀ x ∈ A, ∀ u, x ≠ .addTableConstraints u) :
    ∃ C, pre = A ++ C ∧ B = C ++ .addTableConstraints t :: post := by
  rcases List.append_eq_append_iff.1 h with ⟨C, h1, h2⟩ | ⟨C, h1, h2⟩
  · exact ⟨C, h1, h2⟩
  · cases C with
    | nil => simp at h1 h2; exact ⟨[], by simp [h1], by simpa using h2.symm⟩
    | cons x xs =>
      simp only [List.cons_append, List.cons.injEq] at h2
      exact absurd h2.1.symm (hA x (by rw [h1]; simp) t)

/-- C04, constraints: when a constraint-adding operation runs, the schema is already the
target schema (all tables created and dropped, all columns final), its table is one of the
target schema, and only constraint-adding operations follow. -/
theorem diff_constraints_last (old new : ADB) (ho : ValidSchema old) (hn : ValidSchema new)
    (pre post : List Operation) (t : ATable)
    (h : diff old new = pre ++ .addTableConstraints t :: post) :
    SameSchema (old.transformAll pre) new ∧ new.getTable t.name = some t ∧
      ∀ op ∈ post, ∃ u, op = .addTableConstraints u := by
  obtain ⟨A, B, hAB, hA, hB⟩ : ∃ A B : List Operation, diff old new = A ++ B ∧
      (∀ x ∈ A, ∀ u, x ≠ .addTableConstraints u) ∧ (∀ x ∈ B, ∃ u, x = .addTableConstraints u) := by
    refine ⟨_, _, rfl, ?_, ?_⟩
    · intro x hx u
      simp only [List.mem_append, List.mem_map, List.mem_flatMap] at hx
      rcases hx with ((⟨e, _, rfl⟩ | ⟨e, _, rfl⟩) | ⟨e, _, rfl⟩) | ⟨e, _, hx⟩
      · simp
      · simp
      · simp
      · split at hx
        · have := diffTable_isCol hx
          rintro rfl
          simp [Operation.colTarget] at this
        · cases hx
    · intro x hx
      obtain ⟨e, _, rfl⟩ := List.mem_map.1 hx
      exact ⟨_, rfl⟩
  rw [hAB] at h
  obtain ⟨C, hC1, hC2⟩ := constraints_suffix h hA
  have hid : ∀ (l : List Operation) (s : ADB), (∀ x ∈ l, ∃ u, x = .addTableConstraints u) →
      s.transformAll l = s := by
    intro l
    induction l with
    | nil => intros; rfl
    | cons x xs ih =>
      intro s hx
      obtain ⟨u, rfl⟩ := hx x List.mem_cons_self
      exact ih s (fun y hy => hx y (List.mem_cons_of_mem _ hy))
  have hCc : ∀ x ∈ C, ∃ u, x = Operation.addTableConstraints u := fun x hx =>
    hB x (by rw [hC2]; exact List.mem_append_left _ hx)
  have hfinal : old.transformAll pre = old.transformAll (diff old new) := by
    rw [hAB, hC1]
    simp only [ADB.transformAll, List.foldl_append]
    change ADB.transformAll _ C = ADB.transformAll _ B
    rw [hid C _ hCc, hid B _ hB]
  refine ⟨by rw [hfinal]; exact diff_reaches_target old new ho hn, ?_, ?_⟩
  · have happ := diff_filter ho hn t.name
    have hm : Operation.addTableConstraints t ∈ (diff old new).filter (fun o => o.target == t.name) := by
      refine List.mem_filter.2 ⟨?_, by simp [Operation.target]⟩
      rw [hAB, h]; simp
    rw [happ] at hm
    cases h1 : old.getTable t.name with
    | none =>
      cases h2 : new.getTable t.name with
      | none => rw [h1, h2] at hm; cases hm
      | some u =>
        rw [h1, h2] at hm
        simp only [diffFor] at hm
        split at hm
        · simp at hm; rw [hm]
        · simp at hm
    | some s =>
      cases h2 : new.getTable t.name with
      | none => rw [h1, h2] at hm; simp [diffFor] at hm
      | some u =>
        rw [h1, h2] at hm
        have := diffTable_isCol hm
        simp [Operation.colTarget] at this
  · intro op hop
    exact hB op (by rw [hC2]; simp [hop])

/-- C04, completeness: a table only in the new schema is created, and its foreign keys are
if it has any; a table only in the old schema loses its foreign keys and is dropped. -/
theorem diff_tables_complete (old new : ADB) (ho : ValidSchema old) (hn : ValidSchema new)
    (n : String) (t : ATable) :
    (new.getTable n = some t → old.getTable n = none →
      .addTable t ∈ diff old new ∧
      ((∃ c ∈ t.columns, c.reference ≠ none) → .addTableConstraints t ∈ diff old new)) ∧
    (old.getTable n = some t → new.getTable n = none →
      .removeTableConstraints t ∈ diff old new ∧ .removeTable n ∈ diff old new) := by
  have key : ∀ op, op ∈ diffFor n (old.getTable n) (new.getTable n) → op ∈ diff old new := by
    intro op h
    rw [← diff_filter ho hn n] at h
    exact (List.mem_filter.1 h).1
  constructor
  · intro h1 h2
    rw [h1, h2] at key
    simp only [diffFor] at key
    refine ⟨key _ (by simp), ?_⟩
    rintro ⟨c, hc, hr⟩
    have ha : t.columns.any (fun c => c.reference.isSome) = true :=
      List.any_eq_true.2 ⟨c, hc, by cases h : c.reference <;> simp_all⟩
    exact key _ (by simp [ha])
  · intro h1 h2
    rw [h1, h2] at key
    simp only [diffFor] at key
    exact ⟨key _ (by simp), key _ (by simp)⟩

example : .addTableConstraints exPostNew ∈ diff ADB.new exNew :=
  ((diff_tables_complete ADB.new exNew
    { sorted := List.Pairwise.nil, keyed := by simp [ADB.new], distinct := by simp [ADB.new] } exNew_valid "Post" exPostNew).1
    rfl rfl).2 ⟨_, List.mem_cons_self, by simp⟩

/-- Going from nothing to the example schema creates both tables before the constraint. -/
example : diff ADB.new exNew = [.addTable exBlog, .addTable exPostNew] ++
    .addTableConstraints exPostNew :: [] := by decide

end Butane.Props
