import Verif.Model.Describe
import Verif.Spec.Describe
import Verif.Props.Diff
import Verif.Props.CliMake
/-
Property C90: describing a migration.
-/
namespace Butane.Props
open Butane Butane.Spec Butane.Cli

/-! ### What an operation says -/

theorem typeid_iff {c : AColumn} {ty : TypeIdentifier} : c.typeid = some ty ↔ denotes c.sqltype = .inl ty := by
  unfold AColumn.typeid
  cases c.sqltype <;> simp [denotes]

theorem refText_iff {r : Option ARef} {x : Option (String × String)} : refText r = some x ↔ Target r x := by
  rcases r with _ | (_ | _) <;> rcases x with _ | ⟨_, _⟩ <;> simp [refText, Target]

/-- The attributes that `print_column_diff` prints. -/
def colAttrs (old new : AColumn) : List ColAttr :=
  (match old.typeid, new.typeid with
    | some a, some b => if a ≠ b then [.type a b] else []
    | _, _ => []) ++
  (if old.pk ≠ new.pk then [.pk old.pk new.pk] else []) ++
  (if old.auto ≠ new.auto then [.auto old.auto new.auto] else []) ++
  (if old.nullable ≠ new.nullable then [.nullable old.nullable new.nullable] else []) ++
  (if old.unique ≠ new.unique then [.unique old.unique new.unique] else []) ++
  (if optBeq SqlVal.beq old.default new.default then [] else [.default old.default new.default]) ++
  (if optBeq ARef.beq old.reference new.reference then []
    else match refText old.reference, refText new.reference with
      | some a, some b => [.references a b]
      | _, _ => [])

/-- The note that is printed for an operation. -/
def noteOf : Operation → Option Note
  | .addTable t => some (.newTable t.name (t.columns.filterMap fun c => c.typeid.map fun ty => (c.name, ty)))
  | .addTableIfNotExists t => some (.newTable t.name (t.columns.filterMap fun c => c.typeid.map fun ty => (c.name, ty)))
  | .addTableConstraints _ => none
  | .removeTableConstraints _ => none
  | .removeTable n => some (.removeTable n)
  | .addColumn t c => c.typeid.map fun ty => .newColumn t c.name ty
  | .removeColumn t c => some (.removeColumn t c)
  | .changeColumn t o c => some (.changeColumn t c.name (colAttrs o c))

/-- A column whose type and reference are known. -/
def KnownCol (c : AColumn) : Prop :=
  (∃ ty, c.typeid = some ty) ∧ ∃ x, refText c.reference = some x

theorem knownCol_of {db : ADB} (h : Resolved db) {n : String} {t : ATable} (ht : db.getTable n = some t)
    {c : AColumn} (hc : c ∈ t.columns) : KnownCol c := by
  have he := SMap.mem_of_lookup ht
  obtain ⟨ty, hty⟩ := h.types _ he c hc
  refine ⟨⟨ty, typeid_iff.2 hty⟩, ?_⟩
  have := h.refs _ he c hc
  cases hr : c.reference with
  | none => exact ⟨_, rfl⟩
  | some r =>
    cases r with
    | literal a b => exact ⟨_, rfl⟩
    | deferred d => exact absurd hr (this d)

theorem columnDiff_eq {o c : AColumn} (ho : KnownCol o) (hc : KnownCol c) :
    printColumnDiff o c = ((colAttrs o c).map ColAttr.line, .ok ()) := by
  obtain ⟨⟨a, ha⟩, x, hx⟩ := ho
  obtain ⟨⟨b, hb⟩, y, hy⟩ := hc
  unfold printColumnDiff colAttrs
  rw [ha, hb, hx, hy]
  dsimp only
  by_cases h1 : a = b <;> by_cases h2 : o.pk = c.pk <;> by_cases h3 : o.auto = c.auto <;>
    by_cases h4 : o.nullable = c.nullable <;> by_cases h5 : o.unique = c.unique <;>
    cases optBeq SqlVal.beq o.default c.default <;> cases optBeq ARef.beq o.reference c.reference <;>
    simp [h1, h2, h3, h4, h5, ColAttr.line]

theorem printColumns_eq {cols : List AColumn} (h : ∀ c ∈ cols, KnownCol c) :
    printColumns cols = ((cols.filterMap fun c => c.typeid.map fun ty => (c.name, ty)).map
      fun e => .tableColumn e.1 e.2, .ok ()) := by
  induction cols with
  | nil => rfl
  | cons c rest ih =>
    obtain ⟨⟨ty, hty⟩, _⟩ := h c (by simp)
    rw [printColumns, hty, ih (fun x hx => h x (by simp [hx]))]
    simp [andThen, hty]

/-- What has to be so for an operation to be printed. -/
def KnownOp : Operation → Prop
  | .addTable t => ∀ c ∈ t.columns, KnownCol c
  | .addTableIfNotExists t => ∀ c ∈ t.columns, KnownCol c
  | .addColumn _ c => KnownCol c
  | .changeColumn _ o c => KnownCol o ∧ KnownCol c ∧ o.name = c.name
  | _ => True

/-- The lines for an operation. -/
def opLines (op : Operation) : List Line :=
  match noteOf op with
  | none => []
  | some n => n.lines

theorem printOp_eq {op : Operation} (h : KnownOp op) : printOp op = (opLines op, .ok ()) := by
  cases op with
  | addTable t => simp [printOp, opLines, noteOf, printColumns_eq h, andThen, Note.lines]
  | addTableIfNotExists t => simp [printOp, opLines, noteOf, printColumns_eq h, andThen, Note.lines]
  | addColumn t c =>
    obtain ⟨⟨ty, hty⟩, _⟩ := h
    simp [printOp, opLines, noteOf, hty, Note.lines]
  | changeColumn t o c =>
    obtain ⟨h1, h2, h3⟩ := h
    simp [printOp, opLines, noteOf, columnDiff_eq h1 h2, andThen, Note.lines, h3]
  | removeTable _ => rfl
  | removeColumn _ _ => rfl
  | addTableConstraints _ => rfl
  | removeTableConstraints _ => rfl

theorem printEach_eq {ops : List Operation} (h : ∀ op ∈ ops, KnownOp op) :
    printEach ops = ((ops.filterMap noteOf).flatMap Note.lines, .ok ()) := by
  induction ops with
  | nil => rfl
  | cons op rest ih =>
    rw [printEach, printOp_eq (h op (by simp)), ih (fun x hx => h x (by simp [hx]))]
    simp only [andThen, opLines, List.filterMap_cons]
    cases noteOf op <;> simp

/-! ### The operations of a difference -/

theorem mem_diff {old new : ADB} (ho : ValidSchema old) (hn : ValidSchema new) {op : Operation} :
    op ∈ diff old new ↔ op ∈ diffFor op.target (old.getTable op.target) (new.getTable op.target) := by
  rw [← diff_filter ho hn, List.mem_filter]
  simp

theorem mem_diffTable {s t : ATable} {op : Operation} :
    op ∈ diffTable s t ↔ ∃ n, op.colTarget = some n ∧
      op ∈ diffColFor s t n (colByName s.columns n) (colByName t.columns n) := by
  constructor
  · intro h
    obtain ⟨n, hn⟩ := Option.isSome_iff_exists.1 (diffTable_isCol h)
    refine ⟨n, hn, ?_⟩
    rw [← diffTable_filter, List.mem_filter]
    exact ⟨h, by simp [hn]⟩
  · rintro ⟨n, hn, h⟩
    rw [← diffTable_filter, List.mem_filter] at h
    exact h.1

theorem getTable_name {db : ADB} (h : ValidSchema db) {n : String} {t : ATable} (ht : db.getTable n = some t) :
    t.name = n := (h.keyed _ (SMap.mem_of_lookup ht)).symm

theorem getTable_nodup {db : ADB} (h : ValidSchema db) {n : String} {t : ATable} (ht : db.getTable n = some t) :
    (t.columns.map (·.name)).Nodup := h.distinct _ (SMap.mem_of_lookup ht)

/-- The kinds of operations of a difference. -/
theorem diff_kinds {old new : ADB} (ho : ValidSchema old) (hn : ValidSchema new) {op : Operation}
    (h : op ∈ diff old new) :
    (∃ t, op = .addTable t ∧ old.getTable t.name = none ∧ new.getTable t.name = some t) ∨
    (∃ t, op = .addTableConstraints t ∧ .addTable t ∈ diff old new) ∨
    (∃ s, op = .removeTableConstraints s ∧ .removeTable s.name ∈ diff old new) ∨
    (∃ n s, op = .removeTable n ∧ old.getTable n = some s ∧ new.getTable n = none) ∨
    (∃ n s t, old.getTable n = some s ∧ new.getTable n = some t ∧
      ((∃ c, op = .addColumn n c ∧ colByName s.columns c.name = none ∧ colByName t.columns c.name = some c) ∨
       (∃ c o, op = .removeColumn n c ∧ colByName s.columns c = some o ∧ colByName t.columns c = none) ∨
       (∃ o c, op = .changeColumn n o c ∧ colByName s.columns c.name = some o ∧
          colByName t.columns c.name = some c ∧ c.beq o = false))) := by
  have hm := (mem_diff ho hn).1 h
  cases h1 : old.getTable op.target with
  | none =>
    cases h2 : new.getTable op.target with
    | none => rw [h1, h2] at hm; cases hm
    | some t =>
      have ht := getTable_name hn h2
      rw [h1, h2] at hm
      rw [← ht] at h1 h2
      simp only [diffFor, List.mem_cons] at hm
      rcases hm with rfl | hm
      · exact .inl ⟨t, rfl, h1, h2⟩
      · split at hm
        · simp only [List.mem_singleton] at hm
          subst hm
          refine .inr (.inl ⟨t, rfl, (mem_diff ho hn).2 ?_⟩)
          change _ ∈ diffFor t.name (old.getTable t.name) (new.getTable t.name)
          rw [h1, h2]
          simp [diffFor]
        · cases hm
  | some s =>
    have hs := getTable_name ho h1
    cases h2 : new.getTable op.target with
    | none =>
      rw [h1, h2] at hm
      simp only [diffFor, List.mem_cons, List.not_mem_nil, or_false] at hm
      have hmem : Operation.removeTable s.name ∈ diff old new := by
        refine (mem_diff ho hn).2 ?_
        change _ ∈ diffFor s.name (old.getTable s.name) (new.getTable s.name)
        rw [hs, h1, h2]
        simp [diffFor]
      rcases hm with e | e
      · exact .inr (.inr (.inl ⟨s, e, hmem⟩))
      · exact .inr (.inr (.inr (.inl ⟨_, s, e, h1, h2⟩)))
    | some t =>
      have ht := getTable_name hn h2
      rw [h1, h2] at hm
      simp only [diffFor] at hm
      obtain ⟨n, hc, hm⟩ := mem_diffTable.1 hm
      refine .inr (.inr (.inr (.inr ⟨_, s, t, h1, h2, ?_⟩)))
      cases h3 : colByName s.columns n with
      | none =>
        cases h4 : colByName t.columns n with
        | none => rw [h3, h4] at hm; cases hm
        | some c =>
          rw [h3, h4] at hm
          have hcn := (colByName_some h4).2
          simp only [diffColFor, List.mem_singleton] at hm
          rw [ht] at hm
          exact .inl ⟨c, hm, by rw [hcn]; exact h3, by rw [hcn]; exact h4⟩
      | some o =>
        cases h4 : colByName t.columns n with
        | none =>
          rw [h3, h4] at hm
          simp only [diffColFor, List.mem_singleton] at hm
          rw [hs] at hm
          exact .inr (.inl ⟨n, o, hm, h3, h4⟩)
        | some c =>
          rw [h3, h4] at hm
          have hcn := (colByName_some h4).2
          simp only [diffColFor] at hm
          split at hm
          · cases hm
          · rename_i hb
            simp only [List.mem_singleton] at hm
            rw [ht] at hm
            exact .inr (.inr ⟨o, c, hm, by rw [hcn]; exact h3, by rw [hcn]; exact h4, by simpa using hb⟩)

theorem diff_known {old new : ADB} (ho : ValidSchema old) (hn : ValidSchema new) (ro : Resolved old)
    (rn : Resolved new) {op : Operation} (h : op ∈ diff old new) : KnownOp op := by
  rcases diff_kinds ho hn h with ⟨t, rfl, _, h2⟩ | ⟨t, rfl, _⟩ | ⟨s, rfl, _⟩ | ⟨n, s, rfl, _⟩ |
    ⟨n, s, t, h1, h2, ⟨c, rfl, _, h4⟩ | ⟨c, o, rfl, _⟩ | ⟨o, c, rfl, h3, h4, _⟩⟩
  · exact fun c hc => knownCol_of rn h2 hc
  · trivial
  · trivial
  · trivial
  · exact knownCol_of rn h2 (colByName_some h4).1
  · trivial
  · exact ⟨knownCol_of ro h1 (colByName_some h3).1, knownCol_of rn h2 (colByName_some h4).1, (colByName_some h3).2⟩

/-! ### The attributes -/

theorem mem_ite {α : Type} {p : Prop} [Decidable p] {a b : α} : a ∈ (if p then [b] else []) ↔ p ∧ a = b := by
  split <;> simp_all

theorem target_ref {r r' : Option ARef} {x y : Option (String × String)} (h : Target r x) (h' : Target r' y) :
    optBeq ARef.beq r r' = true ↔ x = y := by
  rcases r with _ | (_ | _) <;> rcases x with _ | ⟨_, _⟩ <;> rcases r' with _ | (_ | _) <;>
    rcases y with _ | ⟨_, _⟩ <;> simp_all [Target, optBeq, ARef.beq]

theorem default_beq {o c : AColumn} (hnan : ∀ x, o.default = some (.real x) → x.isNaN = false) :
    optBeq SqlVal.beq o.default c.default = true ↔ OptRel SameVal o.default c.default := by
  cases hd : o.default <;> cases hd' : c.default <;> simp only [optBeq, OptRel, Bool.false_eq_true]
  rename_i a b
  refine ⟨sqlval_beq_same, fun h => ?_⟩
  rw [sqlval_beq_symm]
  refine sqlval_same_beq (Spec.SameVal.symm h) (fun x hx => hnan x ?_)
  rw [hd, hx]

theorem mem_colAttrs {o c : AColumn} (ho : KnownCol o) (hc : KnownCol c)
    (hnan : ∀ x, o.default = some (.real x) → x.isNaN = false) (a : ColAttr) :
    a ∈ colAttrs o c ↔ a.Right o c := by
  obtain ⟨⟨ty, hty⟩, x, hx⟩ := ho
  obtain ⟨⟨ty', hty'⟩, y, hy⟩ := hc
  have hd := default_beq (c := c) hnan
  have hr := target_ref (refText_iff.1 hx) (refText_iff.1 hy)
  have t1 := typeid_iff.1 hty
  have t2 := typeid_iff.1 hty'
  have f1 : ∀ z, Target o.reference z ↔ x = z := fun z => by
    rw [← refText_iff, hx]; simp
  have f2 : ∀ z, Target c.reference z ↔ y = z := fun z => by
    rw [← refText_iff, hy]; simp
  have e1 : (if optBeq SqlVal.beq o.default c.default = true then ([] : List ColAttr) else
      [.default o.default c.default]) =
      if ¬ optBeq SqlVal.beq o.default c.default = true then [.default o.default c.default] else [] := by
    split <;> simp_all
  have e2 : (if optBeq ARef.beq o.reference c.reference = true then ([] : List ColAttr) else
      [.references x y]) =
      if ¬ optBeq ARef.beq o.reference c.reference = true then [.references x y] else [] := by
    split <;> simp_all
  unfold colAttrs
  rw [hty, hty', hx, hy]
  dsimp only
  rw [e1, e2]
  simp only [List.mem_append, mem_ite, hd, hr]
  cases a with
  | type a b =>
    simp only [ColAttr.Right, t1, t2, Sum.inl.injEq, ColAttr.type.injEq, reduceCtorEq, and_false, or_false, false_or]
    constructor
    · rintro ⟨h, rfl, rfl⟩; exact ⟨rfl, rfl, h⟩
    · rintro ⟨rfl, rfl, h⟩; exact ⟨h, rfl, rfl⟩
  | pk a b =>
    simp only [ColAttr.Right, ColAttr.pk.injEq, reduceCtorEq, and_false, or_false, false_or]
    constructor
    · rintro ⟨h, rfl, rfl⟩; exact ⟨rfl, rfl, h⟩
    · rintro ⟨rfl, rfl, h⟩; exact ⟨h, rfl, rfl⟩
  | auto a b =>
    simp only [ColAttr.Right, ColAttr.auto.injEq, reduceCtorEq, and_false, or_false, false_or]
    constructor
    · rintro ⟨h, rfl, rfl⟩; exact ⟨rfl, rfl, h⟩
    · rintro ⟨rfl, rfl, h⟩; exact ⟨h, rfl, rfl⟩
  | nullable a b =>
    simp only [ColAttr.Right, ColAttr.nullable.injEq, reduceCtorEq, and_false, or_false, false_or]
    constructor
    · rintro ⟨h, rfl, rfl⟩; exact ⟨rfl, rfl, h⟩
    · rintro ⟨rfl, rfl, h⟩; exact ⟨h, rfl, rfl⟩
  | unique a b =>
    simp only [ColAttr.Right, ColAttr.unique.injEq, reduceCtorEq, and_false, or_false, false_or]
    constructor
    · rintro ⟨h, rfl, rfl⟩; exact ⟨rfl, rfl, h⟩
    · rintro ⟨rfl, rfl, h⟩; exact ⟨h, rfl, rfl⟩
  | default a b =>
    simp only [ColAttr.Right, ColAttr.default.injEq, reduceCtorEq, and_false, or_false, false_or]
    constructor
    · rintro ⟨h, rfl, rfl⟩; exact ⟨rfl, rfl, h⟩
    · rintro ⟨rfl, rfl, h⟩; exact ⟨h, rfl, rfl⟩
  | references a b =>
    simp only [ColAttr.Right, f1, f2, ColAttr.references.injEq, reduceCtorEq, and_false, or_false, false_or]
    constructor
    · rintro ⟨h, rfl, rfl⟩; exact ⟨rfl, rfl, h⟩
    · rintro ⟨rfl, rfl, h⟩; exact ⟨h, rfl, rfl⟩

theorem nodup_ite {α : Type} {p : Prop} [Decidable p] {a : α} : (if p then [a] else []).Nodup := by
  split <;> simp

theorem colAttrs_nodup {o c : AColumn} (ho : KnownCol o) (hc : KnownCol c) : (colAttrs o c).Nodup := by
  obtain ⟨⟨ty, hty⟩, x, hx⟩ := ho
  obtain ⟨⟨ty', hty'⟩, y, hy⟩ := hc
  unfold colAttrs
  rw [hty, hty', hx, hy]
  dsimp only
  by_cases h1 : ty = ty' <;> by_cases h2 : o.pk = c.pk <;> by_cases h3 : o.auto = c.auto <;>
    by_cases h4 : o.nullable = c.nullable <;> by_cases h5 : o.unique = c.unique <;>
    cases optBeq SqlVal.beq o.default c.default <;> cases optBeq ARef.beq o.reference c.reference <;>
    simp [h1, h2, h3, h4, h5]

/-- A column that is found to be changed has an attribute that is shown. -/
theorem colAttrs_ne {o c : AColumn} (ho : KnownCol o) (hc : KnownCol c) (hname : o.name = c.name)
    (h : c.beq o = false) (hnan : ∀ x, o.default = some (.real x) → x.isNaN = false) : colAttrs o c ≠ [] := by
  intro hnil
  have hno : ∀ a : ColAttr, ¬ a.Right o c := fun a ha => by
    have := (mem_colAttrs ho hc hnan a).2 ha
    rw [hnil] at this
    cases this
  obtain ⟨⟨ty, hty⟩, x, hx⟩ := ho
  obtain ⟨⟨ty', hty'⟩, y, hy⟩ := hc
  have t1 := typeid_iff.1 hty
  have t2 := typeid_iff.1 hty'
  have hsame : SameColumn o c := by
    refine ⟨hname, ?_, ?_, ?_, ?_, ?_, ?_, ?_⟩
    · rw [t1, t2]
      exact congrArg _ (Classical.byContradiction fun hn => hno (.type ty ty') ⟨t1, t2, hn⟩)
    · exact Classical.byContradiction fun hn => hno (.nullable _ _) ⟨rfl, rfl, hn⟩
    · exact Classical.byContradiction fun hn => hno (.pk _ _) ⟨rfl, rfl, hn⟩
    · exact Classical.byContradiction fun hn => hno (.auto _ _) ⟨rfl, rfl, hn⟩
    · exact Classical.byContradiction fun hn => hno (.unique _ _) ⟨rfl, rfl, hn⟩
    · exact Classical.byContradiction fun hn => hno (.default _ _) ⟨rfl, rfl, hn⟩
    · have e : x = y := Classical.byContradiction fun hn =>
        hno (.references x y) ⟨refText_iff.1 hx, refText_iff.1 hy, hn⟩
      exact (optBeq_iff _ _ (fun _ _ _ _ => aref_beq_iff _ _)).1
        ((target_ref (refText_iff.1 hx) (refText_iff.1 hy)).2 e)
  rw [col_same_beq hsame.symm hnan] at h
  cases h

/-! ### The notes -/

theorem columns_match {cols : List AColumn} (h : ∀ c ∈ cols, KnownCol c) :
    AllMatch (fun (c : AColumn) (e : String × TypeIdentifier) => c.name = e.1 ∧ denotes c.sqltype = .inl e.2) cols
      (cols.filterMap fun c => c.typeid.map fun ty => (c.name, ty)) := by
  induction cols with
  | nil => exact .nil
  | cons c rest ih =>
    obtain ⟨⟨ty, hty⟩, _⟩ := h c (by simp)
    rw [List.filterMap_cons, hty]
    exact .cons ⟨rfl, typeid_iff.1 hty⟩ (ih fun x hx => h x (by simp [hx]))

theorem note_right {old new : ADB} (ho : ValidSchema old) (hn : ValidSchema new) (ro : Resolved old)
    (rn : Resolved new) (hnan : NoNaN old) {op : Operation} (h : op ∈ diff old new) {n : Note}
    (hnote : noteOf op = some n) : n.Right old new := by
  rcases diff_kinds ho hn h with ⟨t, rfl, h1, h2⟩ | ⟨t, rfl, _⟩ | ⟨s, rfl, _⟩ | ⟨n, s, rfl, h1, h2⟩ |
    ⟨n, s, t, h1, h2, ⟨c, rfl, h3, h4⟩ | ⟨c, o, rfl, h3, h4⟩ | ⟨o, c, rfl, h3, h4, hb⟩⟩
  · cases hnote
    exact ⟨h1, t, h2, columns_match fun c hc => knownCol_of rn h2 hc⟩
  · cases hnote
  · cases hnote
  · cases hnote
    exact ⟨⟨s, h1⟩, h2⟩
  · obtain ⟨⟨ty, hty⟩, _⟩ := knownCol_of rn h2 (colByName_some h4).1
    simp only [noteOf, hty, Option.map_some, Option.some.injEq] at hnote
    subst hnote
    exact ⟨s, t, h1, h2, colByName_none.1 h3, c, (colByName_some h4).1, rfl, typeid_iff.1 hty⟩
  · cases hnote
    exact ⟨s, t, h1, h2, ⟨o, (colByName_some h3).1, (colByName_some h3).2⟩, colByName_none.1 h4⟩
  · cases hnote
    have ko := knownCol_of ro h1 (colByName_some h3).1
    have kc := knownCol_of rn h2 (colByName_some h4).1
    have hd : ∀ x, o.default = some (.real x) → x.isNaN = false := fun x hx =>
      hnan _ (SMap.mem_of_lookup h1) o (colByName_some h3).1 x hx
    refine ⟨s, t, h1, h2, o, (colByName_some h3).1, (colByName_some h3).2, c, (colByName_some h4).1, rfl,
      ?_, colAttrs_ne ko kc (colByName_some h3).2 hb hd, colAttrs_nodup ko kc, mem_colAttrs ko kc hd⟩
    exact fun hs => by rw [col_same_beq hs.symm hd] at hb; cases hb

/-- What there is to say is said. -/
theorem note_complete {old new : ADB} (ho : ValidSchema old) (hn : ValidSchema new) (rn : Resolved new)
    {n : Note} (h : n.Right old new) :
    ∃ op ∈ diff old new, ∃ n', noteOf op = some n' ∧ n'.subject = n.subject := by
  cases n with
  | newTable n cols =>
    obtain ⟨h1, t, h2, _⟩ := h
    have hname := getTable_name hn h2
    refine ⟨.addTable t, (mem_diff ho hn).2 ?_, _, rfl, by rw [Note.subject, Note.subject, hname]⟩
    change _ ∈ diffFor t.name (old.getTable t.name) (new.getTable t.name)
    rw [hname, h1, h2]
    simp [diffFor]
  | removeTable n =>
    obtain ⟨⟨s, h1⟩, h2⟩ := h
    refine ⟨.removeTable n, (mem_diff ho hn).2 ?_, _, rfl, rfl⟩
    change _ ∈ diffFor n (old.getTable n) (new.getTable n)
    rw [h1, h2]
    simp [diffFor]
  | newColumn n c ty =>
    obtain ⟨s, t, h1, h2, h3, y, hy, rfl, _⟩ := h
    have ht := getTable_name hn h2
    obtain ⟨⟨ty', hty⟩, _⟩ := knownCol_of rn h2 hy
    refine ⟨.addColumn n y, (mem_diff ho hn).2 ?_, .newColumn n y.name ty', by simp [noteOf, hty], rfl⟩
    change _ ∈ diffFor n (old.getTable n) (new.getTable n)
    rw [h1, h2]
    refine mem_diffTable.2 ⟨y.name, rfl, ?_⟩
    rw [colByName_none.2 h3, colByName_of_mem (getTable_nodup hn h2) hy]
    simp [diffColFor, ht]
  | removeColumn n c =>
    obtain ⟨s, t, h1, h2, ⟨x, hx, rfl⟩, h4⟩ := h
    have hs := getTable_name ho h1
    refine ⟨.removeColumn n x.name, (mem_diff ho hn).2 ?_, _, rfl, rfl⟩
    change _ ∈ diffFor n (old.getTable n) (new.getTable n)
    rw [h1, h2]
    refine mem_diffTable.2 ⟨x.name, rfl, ?_⟩
    rw [colByName_none.2 h4, colByName_of_mem (getTable_nodup ho h1) hx]
    simp [diffColFor, hs]
  | changeColumn n c attrs =>
    obtain ⟨s, t, h1, h2, x, hx, rfl, y, hy, hxy, hne, _⟩ := h
    have ht := getTable_name hn h2
    refine ⟨.changeColumn n x y, (mem_diff ho hn).2 ?_, _, rfl, by simp [Note.subject, hxy]⟩
    change _ ∈ diffFor n (old.getTable n) (new.getTable n)
    rw [h1, h2]
    refine mem_diffTable.2 ⟨y.name, rfl, ?_⟩
    have e := colByName_of_mem (getTable_nodup ho h1) hx
    rw [← hxy] at e
    rw [e, colByName_of_mem (getTable_nodup hn h2) hy]
    have hb : y.beq x = false := by
      cases hb : y.beq x with
      | false => rfl
      | true => exact absurd (col_beq_same hb).symm hne
    simp [diffColFor, ht, hb]

theorem noteOf_subject {op : Operation} {n : Note} (h : noteOf op = some n) :
    n.subject.1 = op.target ∧ n.subject.2 = op.colTarget := by
  cases op <;> simp [noteOf] at h
  case addColumn t c =>
    obtain ⟨ty, _, rfl⟩ := h
    exact ⟨rfl, rfl⟩
  all_goals (subst h; exact ⟨rfl, rfl⟩)

theorem countP_filter_le {α : Type} {p q : α → Bool} {l : List α} (h : ∀ x, p x = true → q x = true) :
    l.countP p = (l.filter q).countP p := by
  rw [List.countP_filter]
  congr 1
  funext x
  cases hp : p x with
  | false => rfl
  | true => simp [h x hp]

theorem notes_nodup {old new : ADB} (ho : ValidSchema old) (hn : ValidSchema new) :
    (((diff old new).filterMap noteOf).map Note.subject).Nodup := by
  rw [List.nodup_iff_count]
  intro a
  have e : (((diff old new).filterMap noteOf).map Note.subject).count a =
      (diff old new).countP (fun op => ((noteOf op).map Note.subject) == some a) := by
    induction diff old new with
    | nil => rfl
    | cons op rest ih =>
      rw [List.filterMap_cons, List.countP_cons]
      cases hnote : noteOf op with
      | none => simp [ih]
      | some n => simp [List.count_cons, ih]
  rw [e, countP_filter_le (q := fun op => op.target == a.1), diff_filter ho hn]
  · cases h1 : old.getTable a.1 with
    | none =>
      cases h2 : new.getTable a.1 with
      | none => simp [diffFor]
      | some t =>
        simp only [diffFor, List.countP_cons]
        split <;> split <;> simp_all [noteOf]
    | some s =>
      cases h2 : new.getTable a.1 with
      | none =>
        simp only [diffFor, List.countP_cons, noteOf, List.countP_nil, Option.map_none]
        split <;> simp
      | some t =>
        simp only [diffFor]
        cases h3 : a.2 with
        | none =>
          rw [List.countP_eq_zero.2]
          · exact Nat.zero_le _
          · intro op hop hx
            obtain ⟨m, hm⟩ := Option.isSome_iff_exists.1 (diffTable_isCol hop)
            cases hnote : noteOf op with
            | none => rw [hnote] at hx; simp at hx
            | some n =>
              rw [hnote] at hx
              simp only [Option.map_some, beq_iff_eq, Option.some.injEq] at hx
              have := (noteOf_subject hnote).2
              rw [hx, h3, hm] at this
              cases this
        | some c =>
          rw [countP_filter_le (q := fun op => op.colTarget == some c), diffTable_filter]
          · refine Nat.le_trans List.countP_le_length ?_
            cases colByName s.columns c <;> cases colByName t.columns c <;> simp [diffColFor]
            split <;> simp
          · intro op hx
            cases hnote : noteOf op with
            | none => rw [hnote] at hx; simp at hx
            | some n =>
              rw [hnote] at hx
              simp only [Option.map_some, beq_iff_eq, Option.some.injEq] at hx
              have := (noteOf_subject hnote).2
              rw [hx, h3] at this
              simp [this]
  · intro op hx
    cases hnote : noteOf op with
    | none => rw [hnote] at hx; simp at hx
    | some n =>
      rw [hnote] at hx
      simp only [Option.map_some, beq_iff_eq, Option.some.injEq] at hx
      have := (noteOf_subject hnote).1
      rw [hx] at this
      simp [this]

theorem notes_nil {old new : ADB} (ho : ValidSchema old) (hn : ValidSchema new) (rn : Resolved new) :
    (diff old new).filterMap noteOf = [] ↔ diff old new = [] := by
  refine ⟨fun h => ?_, fun h => by rw [h]; rfl⟩
  rw [List.eq_nil_iff_forall_not_mem]
  intro op hop
  have hno : ∀ x ∈ diff old new, ∀ n, noteOf x = some n → False := fun x hx n hxn => by
    have : n ∈ (diff old new).filterMap noteOf := List.mem_filterMap.2 ⟨x, hx, hxn⟩
    rw [h] at this
    cases this
  rcases diff_kinds ho hn hop with ⟨t, rfl, h1, h2⟩ | ⟨t, rfl, hop'⟩ | ⟨s, rfl, hop'⟩ | ⟨n, s, rfl, h1, h2⟩ |
    ⟨n, s, t, h1, h2, ⟨c, rfl, h3, h4⟩ | ⟨c, o, rfl, h3, h4⟩ | ⟨o, c, rfl, h3, h4, hb⟩⟩
  · exact hno _ hop _ rfl
  · exact hno _ hop' _ rfl
  · exact hno _ hop' _ rfl
  · exact hno _ hop _ rfl
  · obtain ⟨⟨ty, hty⟩, _⟩ := knownCol_of rn h2 (colByName_some h4).1
    exact hno _ hop (.newColumn n c.name ty) (by simp [noteOf, hty])
  · exact hno _ hop _ rfl
  · exact hno _ hop _ rfl

/-! ### C90 -/

/-- C90: the description of the changes between two schemas that are resolved is printed
completely, and is right: it says which tables and columns are new, gone or changed, and for a
changed column exactly what changed.  (Defaults that are not-a-number aside.) -/
theorem describe_right_partial {old new : ADB} (ho : ValidSchema old) (hn : ValidSchema new) (ro : Resolved old)
    (rn : Resolved new) (hnan : NoNaN old) :
    ∃ out, printOps (diff old new) = (out, .ok ()) ∧ Describes old new out := by
  have hnotes : (∀ n ∈ (diff old new).filterMap noteOf, n.Right old new) ∧
      ∀ n : Note, n.Right old new → ∃ n' ∈ (diff old new).filterMap noteOf, n'.subject = n.subject := by
    constructor
    · intro n h
      obtain ⟨op, hop, h⟩ := List.mem_filterMap.1 h
      exact note_right ho hn ro rn hnan hop h
    · intro n h
      obtain ⟨op, hop, n', h1, h2⟩ := note_complete ho hn rn h
      exact ⟨n', List.mem_filterMap.2 ⟨op, hop, h1⟩, h2⟩
  by_cases hd : diff old new = []
  · refine ⟨[.noChanges], by rw [hd]; rfl, _, .inl ⟨(notes_nil ho hn rn).2 hd, rfl⟩, hnotes.1, notes_nodup ho hn,
      hnotes.2⟩
  · refine ⟨((diff old new).filterMap noteOf).flatMap Note.lines, ?_, _,
      .inr ⟨fun h => hd ((notes_nil ho hn rn).1 h), rfl⟩, hnotes.1, notes_nodup ho hn, hnotes.2⟩
    unfold printOps
    rw [if_neg (by simpa using hd), printEach_eq fun op hop => diff_known ho hn ro rn hop]

theorem lines_some (n : Note) : n.lines ≠ [] ∧ Line.noChanges ∉ n.lines := by
  cases n with
  | changeColumn t c attrs =>
    refine ⟨by simp [Note.lines], ?_⟩
    simp only [Note.lines, List.mem_cons, reduceCtorEq, List.mem_map, false_or, not_exists, not_and]
    intro a _
    cases a <;> simp [ColAttr.line]
  | _ => simp [Note.lines]

theorem printOps_eq {old new : ADB} (ho : ValidSchema old) (hn : ValidSchema new) (ro : Resolved old)
    (rn : Resolved new) (hd : diff old new ≠ []) :
    ∃ out, printOps (diff old new) = (out, .ok ()) ∧ out ≠ [] ∧ Line.noChanges ∉ out := by
  unfold printOps
  rw [if_neg (by simpa using hd), printEach_eq fun op hop => diff_known ho hn ro rn hop]
  have hne := mt (notes_nil ho hn rn).1 hd
  revert hne
  generalize (diff old new).filterMap noteOf = notes
  intro hne
  refine ⟨_, rfl, ?_, ?_⟩
  · cases notes with
    | nil => exact absurd rfl hne
    | cons n rest => simp [(lines_some n).1]
  · simp only [List.mem_flatMap, not_exists, not_and]
    exact fun n _ => (lines_some n).2

/-- C90: `No changes` is printed exactly if the schemas are the same, and then nothing else;
otherwise something else is. -/
theorem describe_nothing_partial {old new : ADB} (ho : ValidSchema old) (hn : ValidSchema new) (ro : Resolved old)
    (rn : Resolved new) (hnan : NoNaN old) :
    (SameSchema old new → printOps (diff old new) = ([.noChanges], .ok ())) ∧
    (¬ SameSchema old new → ∃ out, printOps (diff old new) = (out, .ok ()) ∧ out ≠ [] ∧ .noChanges ∉ out) := by
  rw [← diff_nil_iff_partial old new ho hn hnan]
  exact ⟨fun h => by rw [h]; rfl, printOps_eq ho hn ro rn⟩

theorem _root_.Butane.Spec.Settled.resolved {db : ADB} (h : Settled db) : Resolved db := ⟨h.types, h.refs⟩

theorem describeCurrent_eq {json : Bool} {s : FsMigrations} {toDb old : ADB} (hdb : s.getDb json "current" = .ok toDb)
    (h : readFrom (FsMigrations.ops json) s.getLatest s = .ok old) :
    describeMigration json "current" s = printOps (diff old toDb) := by
  unfold describeMigration describeCurrent
  rw [if_pos rfl, hdb]
  dsimp only
  unfold readFrom at h
  cases hl : s.getLatest with
  | none => rw [hl] at h; cases h; rfl
  | some n =>
    rw [hl] at h
    have h : s.getDb json n = .ok old := h
    dsimp only
    rw [h]

/-- C90: describing `current`, after any use of the tool, describes the changes from the
schema of the latest migration to that of the code. -/
theorem describe_current_partial {json : Bool} {s : FsMigrations} (h : Reach json s) {made : List (String × ADB)}
    (hm : HasMigrations json s made) (hnan : NoNaN (before made)) {toDb : ADB}
    (hdb : s.getDb json "current" = .ok toDb) (hset : Settled toDb) :
    ∃ old out, LatestSchema json s old ∧ SameSchema old (before made) ∧
      describeMigration json "current" s = (out, .ok ()) ∧ Describes old toDb out := by
  obtain ⟨hi, _⟩ := reach_inv h hm
  obtain ⟨old, h1, h2, hsame⟩ := fs_before (json := json) hi
  obtain ⟨out, h3, h4⟩ := describe_right_partial h2.valid hset.valid h2.resolved hset.resolved
    (noNaN_same h2.valid hsame hnan)
  refine ⟨old, out, ?_, hsame, (describeCurrent_eq hdb h1).trans h3, h4⟩
  unfold LatestSchema
  unfold readFrom at h1
  cases hl : s.getLatest with
  | none => rw [hl] at h1; cases h1; rfl
  | some n => rw [hl] at h1; exact h1

/-- C90: describing `current` says `No changes` exactly if making a migration would find nothing
to do. -/
theorem describe_current_make {json : Bool} {get : String → Option MigBackend} {s s' : FsMigrations} (h : Reach json s)
    {made : List (String × ADB)} (hm : HasMigrations json s made) {spec : Option (Option MigBackend)} {name : String}
    {backends : List MigBackend} (hb : loadBackends get spec s = .ok backends) (hname : name ∉ made.map (·.1))
    {toDb : ADB} (hdb : s.getDb json "current" = .ok toDb) (hset : Settled toDb)
    {r : Except CliErr Bool} (hr : makeMigration json get spec name s = (r, s')) :
    (r = .ok false → describeMigration json "current" s = ([.noChanges], .ok ())) ∧
    (r ≠ .ok false → ∃ out, describeMigration json "current" s = (out, .ok ()) ∧ out ≠ [] ∧ .noChanges ∉ out) := by
  obtain ⟨hi, _⟩ := reach_inv h hm
  obtain ⟨old, h1, h2, _⟩ := fs_before (json := json) hi
  rw [describeCurrent_eq hdb h1]
  have key : r = .ok false ↔ diff old toDb = [] := by
    unfold makeMigration at hr
    rw [hi.all] at hr
    dsimp only at hr
    rw [if_neg (by simpa using hname), hb] at hr
    dsimp only at hr
    rw [hdb] at hr
    dsimp only at hr
    rcases hc : createMigrationTo (FsMigrations.ops json) backends name s.getLatest toDb s with ⟨r1, s1⟩
    rw [hc] at hr
    have hr1 : r = .ok false ↔ r1 = .ok false := by
      cases r1 with
      | error e => cases hr; constructor <;> (intro h; cases h)
      | ok b => cases hr; constructor <;> (intro h; cases h; rfl)
    rw [hr1]
    rcases create_cases hc with ⟨_, e, _, he⟩ | ⟨old', h0, ⟨_, hr, hd⟩ | ⟨hd, hrest⟩⟩
    · rw [h1] at he; cases he
    · rw [h1] at h0
      cases h0
      exact ⟨fun _ => hd, fun _ => hr⟩
    · rw [h1] at h0
      cases h0
      refine ⟨fun hr => ?_, fun hd' => absurd hd' hd⟩
      obtain ⟨r1, p1, _, ⟨e, _, he, _⟩ | ⟨_, r2, p2, _, ⟨e, _, he, _⟩ | ⟨_, r3, p3, _, ⟨e, _, he, _⟩ |
        ⟨_, r4, _, ⟨e, _, he⟩ | ⟨_, he⟩⟩⟩⟩⟩ := hrest <;> (rw [hr] at he; cases he)
  rw [key]
  exact ⟨fun h => by rw [h]; rfl, fun h => printOps_eq h2.valid hset.valid h2.resolved hset.resolved
    fun hd => h (key.2 hd)⟩

/-- C90: describing a migration, after any use of the tool, describes the changes from its
predecessor to it. -/
theorem describe_migration_partial {json : Bool} {s : FsMigrations} (h : Reach json s) {made : List (String × ADB)}
    (hm : HasMigrations json s made) {p : List (String × ADB)} {e : String × ADB} {q : List (String × ADB)}
    (hpq : made = p ++ e :: q) (hnan : NoNaN (before p)) :
    ∃ old new out, SameSchema old (before p) ∧ s.getDb json e.1 = .ok new ∧ SameSchema new e.2 ∧
      describeMigration json e.1 s = (out, .ok ()) ∧ Describes old new out := by
  obtain ⟨hi, _⟩ := reach_inv h hm
  obtain ⟨new, hd, hsame⟩ := hi.dirs p e q hpq
  have hnew : s.getDb json e.1 = .ok new := dirOk_getDb hd
  have hcur : e.1 ≠ "current" := hi.notCurrent e (by rw [hpq]; simp)
  have hget : s.get e.1 = some e.1 := (hi.get (by rw [hpq]; simp)).1
  have hf := hd.from_
  rcases List.eq_nil_or_concat p with rfl | ⟨a, x, rfl⟩
  · obtain ⟨out, h3, h4⟩ := describe_right_partial (old := ADB.new) settled_new.valid hd.settled.valid
      settled_new.resolved hd.settled.resolved hnan
    refine ⟨ADB.new, new, out, sameSchema_refl _, hnew, hsame, ?_, h4⟩
    rw [describeMigration, if_neg hcur, hget]
    dsimp only
    rw [hnew, hf]
    exact h3
  · rw [List.concat_eq_append] at hpq hf hnan ⊢
    have hb : before (a ++ [x]) = x.2 := by simp [before]
    rw [hb] at hnan ⊢
    simp only [List.getLast?_append, List.getLast?_singleton, Option.some_or, Option.map_some] at hf
    obtain ⟨old, hd', hsame'⟩ := hi.dirs a x (e :: q) (by rw [hpq]; simp)
    have hgetx : s.get x.1 = some x.1 := (hi.get (by rw [hpq]; simp)).1
    have hold : s.getDb json x.1 = .ok old := dirOk_getDb hd'
    obtain ⟨out, h3, h4⟩ := describe_right_partial hd'.settled.valid hd.settled.valid hd'.settled.resolved
      hd.settled.resolved (noNaN_same hd'.settled.valid hsame' hnan)
    refine ⟨old, new, out, hsame', hnew, hsame, ?_, h4⟩
    rw [describeMigration, if_neg hcur, hget]
    dsimp only
    rw [hnew, hf]
    dsimp only
    rw [hgetx]
    dsimp only
    rw [hold]
    exact h3

/-- C90: for a name that no migration has, nothing is printed but that there is none. -/
theorem describe_unknown (json : Bool) {s : FsMigrations} {name : String} (h : s.dirs.lookup name = none)
    (hc : name ≠ "current") : describeMigration json name s = ([], .error .exit) := by
  rw [describeMigration, if_neg hc, FsMigrations.get, h]

/-- C90 fails in full: a default that is not-a-number is described as a change although the
schemas are the same. -/
theorem describe_nan_violated : ∃ db out, ValidSchema db ∧ Resolved db ∧ SameSchema db db ∧
    printOps (diff db db) = (out, .ok ()) ∧ Line.noChanges ∉ out := by
  refine ⟨exNaN, _, diff_self_violated.1, ⟨?_, ?_⟩, diff_self_violated.2.2, rfl, by decide⟩
  · intro e he c hc
    simp [exNaN] at he
    subst he
    simp at hc
    subst hc
    exact ⟨_, rfl⟩
  · intro e he c hc d
    simp [exNaN] at he
    subst he
    simp at hc
    subst hc
    simp

/-- C90, what is not shown: of a column that is new only the name and the type are, so that
different changes can have the same description. -/
theorem describe_hides {t : String} {s : ATable} {a b : AColumn} (hname : a.name = b.name)
    (htype : denotes a.sqltype = denotes b.sqltype) :
    printOps [.addColumn t a] = printOps [.addColumn t b] ∧
    printOps [.addTable { s with columns := s.columns ++ [a] }] =
      printOps [.addTable { s with columns := s.columns ++ [b] }] := by
  have ht : a.typeid = b.typeid := by
    cases hb : b.typeid with
    | none =>
      cases ha : a.typeid with
      | none => rfl
      | some ty =>
        rw [typeid_iff.2 (htype.symm.trans (typeid_iff.1 ha))] at hb
        cases hb
    | some ty => exact typeid_iff.2 (htype.trans (typeid_iff.1 hb))
  have hcols : ∀ cols, printColumns (cols ++ [a]) = printColumns (cols ++ [b]) := by
    intro cols
    induction cols with
    | nil => simp [printColumns, ht, hname]
    | cons c rest ih => simp [printColumns, ih]
  constructor
  · simp [printOps, printEach, printOp, ht, hname]
  · simp [printOps, printEach, printOp, hcols]

/-! ### Examples -/

theorem exOld_resolved : Resolved exOld := by
  constructor
  · intro e he c hc
    simp [exOld] at he
    rcases he with rfl | rfl <;> simp [exPostOld, exTag] at hc
    · rcases hc with rfl | rfl | rfl <;> exact ⟨_, rfl⟩
    · subst hc; exact ⟨_, rfl⟩
  · intro e he c hc d
    simp [exOld] at he
    rcases he with rfl | rfl <;> simp [exPostOld, exTag] at hc
    · rcases hc with rfl | rfl | rfl <;> simp
    · subst hc; simp
theorem exNew_resolved : Resolved exNew := by
  constructor
  · intro e he c hc
    simp [exNew] at he
    rcases he with rfl | rfl
    · simp [exBlog] at hc
      rcases hc with rfl | rfl <;> exact ⟨_, rfl⟩
    · simp [exPostNew] at hc
      rcases hc with rfl | rfl | rfl <;> exact ⟨_, rfl⟩
  · intro e he c hc d
    simp [exNew] at he
    rcases he with rfl | rfl
    · simp [exBlog] at hc
      rcases hc with rfl | rfl <;> simp
    · simp [exPostNew] at hc
      rcases hc with rfl | rfl | rfl <;> simp

example : ∃ out, printOps (diff exOld exNew) = (out, .ok ()) ∧ Describes exOld exNew out :=
  describe_right_partial exOld_valid exNew_valid exOld_resolved exNew_resolved exOld_noNaN
example : printOps (diff exOld exNew) =
    ([.newTable "Blog", .tableColumn "id" (.ty .bigInt), .tableColumn "name" (.ty .text), .removeTable "Tag",
      .newColumn "Post" "blog" (.ty .bigInt), .removeColumn "Post" "likes",
      .changeColumn "Post" "id", .type (.ty .int) (.ty .bigInt)], .ok ()) := (rfl)
example : printOps (diff exOld exOld) = ([.noChanges], .ok ()) :=
  (describe_nothing_partial exOld_valid exOld_valid exOld_resolved exOld_resolved exOld_noNaN).1
    (fun n => (sameSchema_refl exOld) n)

/-- The same with a foreign key that may be missing. -/
def exNewOpt : ADB := ⟨[("Blog", exBlog), ("Post", ⟨"Post", [
  ⟨"blog", .knownId (.ty .bigInt), true, false, false, false, none, some (.literal "Blog" "id")⟩,
  ⟨"title", .known .text, false, false, false, false, none, none⟩,
  ⟨"id", .known .bigInt, false, true, true, false, none, none⟩]⟩)], []⟩

theorem exNewOpt_valid : ValidSchema exNewOpt := by
  constructor
  · unfold SMap.Sorted; decide
  · decide
  · decide

/-- C90 fails in another way: what the code says of a new column is not all described, so that
two different sets of changes have the same description. -/
theorem describe_hides_violated : ∃ old a b : ADB, ValidSchema old ∧ ValidSchema a ∧ ValidSchema b ∧
    ¬ SameSchema a b ∧ printOps (diff old a) = printOps (diff old b) ∧ (printOps (diff old a)).2 = .ok () := by
  refine ⟨exOld, exNew, exNewOpt, exOld_valid, exNew_valid, exNewOpt_valid, ?_, rfl, rfl⟩
  intro h
  have := (diff_nil_iff_partial exNew exNewOpt exNew_valid exNewOpt_valid ?_).2 h
  · revert this; decide
  · intro e he c hc x hx
    simp [exNew] at he
    rcases he with rfl | rfl
    · simp [exBlog] at hc
      rcases hc with rfl | rfl <;> simp at hx
    · simp [exPostNew] at hc
      rcases hc with rfl | rfl | rfl <;> simp at hx

example : ∃ old out, LatestSchema false (exCode ["B", "C"] exCli2) old ∧ SameSchema old (before exMade2) ∧
    describeMigration false "current" (exCode ["B", "C"] exCli2) = (out, .ok ()) ∧ Describes old (exDbOf ["B", "C"]) out :=
  describe_current_partial (exCode_reach _ exCli3_reach.2.1) (exCli2_has (.inl rfl)) (exDbOf_noNaN ["A", "B"]) rfl exDbOf_bc
example : describeMigration false "current" (exCode ["A", "B"] exCli2) = ([.noChanges], .ok ()) :=
  (describe_current_make (exCode_reach ["A", "B"] exCli3_reach.2.1) (exCli2_has (.inr rfl))
    (get := exGet) (spec := none) (backends := [exSql "p"]) rfl (name := "m3") (by decide)
    (toDb := exDbOf ["A", "B"]) rfl exDbOf_ab (s' := exCode ["A", "B"] exCli2) rfl).1 rfl
example : ∃ out, describeMigration false "current" (exCode ["B", "C"] exCli2) = (out, .ok ()) ∧ out ≠ [] ∧ .noChanges ∉ out :=
  (describe_current_make (exCode_reach _ exCli3_reach.2.1) (exCli2_has (.inl rfl)) (get := exGet) (spec := none)
    (backends := [exSql "p"]) rfl (name := "m3") (by decide) rfl exDbOf_bc exMake3).2 (fun h => by cases h)
example : ∃ old new out, SameSchema old (before [("m1", exDbOf ["A"])]) ∧ exCli3.getDb false "m2" = .ok new ∧
    SameSchema new (exDbOf ["A", "B"]) ∧ describeMigration false "m2" exCli3 = (out, .ok ()) ∧ Describes old new out :=
  describe_migration_partial exCli3_reach.2.2 exCli3_has (p := [("m1", exDbOf ["A"])]) (e := ("m2", exDbOf ["A", "B"]))
    (q := [("m3", exDbOf ["B", "C"])]) rfl (exDbOf_noNaN ["A"])
example : describeMigration false "m9" exCli3 = ([], .error .exit) := describe_unknown false (by decide) (by decide)

end Butane.Props
