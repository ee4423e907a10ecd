/-
The directory `current` and the macros.
-/
import Verif.Spec.Clean
import Verif.Proofs.CrateDb
import Verif.Proofs.FsStore
import Verif.Props.Recompile

namespace Butane.CleanP
open Butane Butane.Codegen Butane.Proofs.Codegen Butane.Proofs.CrateDb Spec FsMigrations
variable {g : Cfg} {s s' : FsMigrations}

/-- What is recorded in `current`. -/
def asDb (s : FsMigrations) : ADB := ⟨(s.dir "current").tables, (s.dir "current").types.getD []⟩

theorem asDb_table (s : FsMigrations) (t : ATable) :
    asDb (s.addModifiedTable t "current") = (asDb s).replaceTable t := by
  unfold asDb addModifiedTable
  rw [dir_write, if_pos rfl]
  rfl

theorem asDb_type (s : FsMigrations) (k : TypeKey) (d : DeferredSqlType) :
    asDb (s.addType k d "current") = { asDb s with extraTypes := (asDb s).extraTypes.insert k d } := by
  unfold asDb FsMigrations.addType
  rw [dir_write, if_pos rfl]
  cases h : (s.dir "current").types <;> simp

theorem write_only (s : FsMigrations) (f : FsDir → FsDir) : OnlyCurrent s (s.write "current" f) :=
  ⟨rfl, fun n hn => by rw [lookup_write, if_neg hn]⟩

theorem OnlyCurrent.trans {a b c : FsMigrations} (h : OnlyCurrent a b) (h' : OnlyCurrent b c) : OnlyCurrent a c :=
  ⟨h'.1.trans h.1, fun n hn => (h'.2 n hn).trans (h.2 n hn)⟩

theorem write_info {f : FsDir → FsDir} (hf : ∀ d, (f d).info = d.info) :
    (s.write "current" f).info "current" = s.info "current" := by
  unfold info
  rw [dir_write, if_pos rfl, hf]

theorem files_of (ts : List ATable) : ∀ (s : FsMigrations),
    asDb (writeFiles ts s) = ts.foldl (fun db t => db.replaceTable t) (asDb s) ∧
    OnlyCurrent s (writeFiles ts s) ∧ (writeFiles ts s).info "current" = s.info "current" := by
  induction ts with
  | nil => intro s; exact ⟨rfl, ⟨rfl, fun _ _ => rfl⟩, rfl⟩
  | cons t ts ih =>
    intro s
    obtain ⟨h1, h2, h3⟩ := ih (s.addModifiedTable t "current")
    exact ⟨by rw [List.foldl_cons, ← asDb_table]; exact h1, OnlyCurrent.trans (write_only s _) h2,
      h3.trans (write_info fun _ => rfl)⟩

/-- Expanding on disk is expanding what is recorded there. -/
theorem expand_fs (g : Cfg) (s : FsMigrations) (i : Item) :
    (∀ s', expandFs g s i = some s' → expand g (asDb s) i = some (asDb s') ∧ OnlyCurrent s s' ∧
      s'.info "current" = s.info "current") ∧
    (expandFs g s i = none → expand g (asDb s) i = none) := by
  have hty : ∀ k d, asDb (s.addType k d "current") = { asDb s with extraTypes := (asDb s).extraTypes.insert k d } ∧
      OnlyCurrent s (s.addType k d "current") ∧ (s.addType k d "current").info "current" = s.info "current" :=
    fun k d => ⟨asDb_type s k d, write_only s _, write_info fun _ => rfl⟩
  cases i with
  | model st =>
    simp only [expandFs, writeTablesFs, expand, writeTables]
    cases hc : createATables g st with
    | none => exact ⟨fun s' h => (by cases h), fun _ => rfl⟩
    | some ts =>
      refine ⟨fun s' h => ?_, fun h => by cases h⟩
      simp only [Option.map_some, Option.some.injEq] at h ⊢
      obtain ⟨h1, h2, h3⟩ := files_of ts s
      cases hg : st.config with
      | none =>
        rw [hg] at h
        subst h
        exact ⟨h1.symm, h2, h3⟩
      | some n =>
        rw [hg] at h
        subst h
        simp only
        rw [asDb_type, h1]
        have hi : ((writeFiles ts s).addType (.pk st.ident.name) (.deferred (.pk n)) "current").info "current" =
            (writeFiles ts s).info "current" := write_info fun _ => rfl
        exact ⟨rfl, OnlyCurrent.trans h2 (write_only _ _), hi.trans h3⟩
  | alias n p =>
    simp only [expandFs, expand]
    cases hc : deferredType g p with
    | none => exact ⟨fun s' h => (by cases h), fun _ => rfl⟩
    | some d =>
      refine ⟨fun s' h => ?_, fun h => by cases h⟩
      cases h
      obtain ⟨h1, h2⟩ := hty (.customType n.name) d
      exact ⟨by rw [h1]; rfl, h2⟩
  | typed n ty =>
    simp only [expandFs, expand]
    refine ⟨fun s' h => ?_, fun h => by cases h⟩
    cases h
    obtain ⟨h1, h2⟩ := hty (.customType n.name) (.knownId ty)
    exact ⟨by rw [h1]; rfl, h2⟩
  | derived n sh =>
    simp only [expandFs, expand]
    cases hc : sh.sqltype g.ft with
    | none => exact ⟨fun s' h => (by cases h), fun _ => rfl⟩
    | some d =>
      refine ⟨fun s' h => ?_, fun h => by cases h⟩
      cases h
      obtain ⟨h1, h2⟩ := hty (.customType n.text) (.knownId (.ty d))
      exact ⟨by rw [h1]; rfl, h2⟩

theorem compile_fs (g : Cfg) (items : List Item) : ∀ (s : FsMigrations),
    (∀ s', compileFs g s items = some s' → expandAll g (asDb s) items = some (asDb s') ∧ OnlyCurrent s s' ∧
      s'.info "current" = s.info "current") ∧
    (compileFs g s items = none → expandAll g (asDb s) items = none) := by
  induction items with
  | nil => intro s; exact ⟨fun s' h => (by cases h; exact ⟨rfl, ⟨rfl, fun _ _ => rfl⟩, rfl⟩), fun h => by cases h⟩
  | cons i is ih =>
    intro s
    obtain ⟨h1, h2⟩ := expand_fs g s i
    simp only [compileFs, expandAll]
    cases he : expandFs g s i with
    | none => rw [h2 he]; exact ⟨fun s' h => (by cases h), fun _ => rfl⟩
    | some s1 =>
      obtain ⟨g1, g2, g3⟩ := h1 s1 he
      rw [g1]
      obtain ⟨k1, k2⟩ := ih s1
      refine ⟨fun s' h => ?_, k2⟩
      obtain ⟨q1, q2, q3⟩ := k1 s' h
      exact ⟨q1, OnlyCurrent.trans g2 q2, q3.trans g3⟩

/-! ### Cleaning -/

theorem lookup_filter_ne (m : SMap String FsDir) (k n : String) :
    SMap.lookup (m.filter fun e => e.1 ≠ k) n = if n = k then none else SMap.lookup m n := by
  induction m with
  | nil => simp [SMap.lookup]
  | cons e m ih =>
    obtain ⟨k', v⟩ := e
    by_cases h : k' = k
    · subst h
      rw [List.filter_cons_of_neg (by simp), ih]
      by_cases hn : n = k'
      · rw [if_pos hn, if_pos hn]
      · rw [if_neg hn, if_neg hn]
        simp [SMap.lookup, hn]
    · rw [List.filter_cons_of_pos (by simpa using h)]
      simp only [SMap.lookup]
      rw [ih]
      by_cases hn : n = k
      · subst hn
        simp [Ne.symm h]
      · simp [hn]

theorem clean_ok (h : Cli.clean s = (.ok (), s')) : s'.dirs.lookup "current" = none ∧ OnlyCurrent s s' := by
  unfold Cli.clean FsMigrations.clearCurrent at h
  split at h
  · cases h
  · cases h
    exact ⟨by rw [lookup_filter_ne, if_pos rfl], rfl, fun n hn => by rw [lookup_filter_ne, if_neg hn]⟩

theorem dir_none (h : s.dirs.lookup "current" = none) : s.dir "current" = .empty := by
  unfold FsMigrations.dir
  rw [h]

/-! ### Work -/

/-- What is in `current` was recorded for one of the items. -/
structure Inv (g : Cfg) (old : List Item) (s : FsMigrations) : Prop where
  tables : (asDb s).tables.Sorted
  types : (asDb s).extraTypes.Sorted
  bases : (s.info "current").tableBases = []
  tablesOf : ∀ n ∈ (asDb s).tables.keys, ∃ i ∈ old, ∃ a, expand g ADB.new i = some a ∧ n ∈ a.tables.keys
  typesOf : ∀ k ∈ (asDb s).extraTypes.keys, ∃ i ∈ old, ∃ a, expand g ADB.new i = some a ∧ k ∈ a.extraTypes.keys

theorem keys_fold {K V : Type} [Ord K] [Std.TransOrd K] [Std.LawfulEqOrd K] [DecidableEq K]
    (l : List (K × V)) : ∀ (m : SMap K V) (k : K),
    k ∈ (l.foldl (fun m e => m.insert e.1 e.2) m).keys ↔ k ∈ l.map (·.1) ∨ k ∈ m.keys := by
  induction l with
  | nil => intro m k; simp
  | cons e l ih =>
    intro m k
    rw [List.foldl_cons, ih]
    have : k ∈ (m.insert e.1 e.2).keys ↔ k = e.1 ∨ k ∈ m.keys := by
      rw [SMap.mem_keys_iff, SMap.lookup_insert, SMap.mem_keys_iff]
      by_cases h : k = e.1 <;> simp [h]
    rw [this]
    simp only [List.map_cons, List.mem_cons]
    constructor
    · rintro (h | h | h)
      · exact .inl (.inr h)
      · exact .inl (.inl h)
      · exact .inr h
    · rintro ((h | h) | h)
      · exact .inr (.inl h)
      · exact .inl h
      · exact .inr (.inr h)

theorem inv_empty (h : s.dirs.lookup "current" = none) : Inv g [] s := by
  have hd := dir_none h
  refine ⟨?_, ?_, ?_, ?_, ?_⟩
  · simp only [asDb, hd]; exact SMap.sorted_nil
  · simp only [asDb, hd]; exact SMap.sorted_nil
  · simp only [FsMigrations.info, hd]; rfl
  · intro n hn; simp only [asDb, hd] at hn; cases hn
  · intro n hn; simp only [asDb, hd] at hn; cases hn

theorem inv_item {old : List Item} {i : Item} (h : Inv g old s) (he : expandFs g s i = some s') :
    Inv g (i :: old) s' := by
  obtain ⟨h1, -, h3⟩ := (expand_fs g s i).1 s' he
  have hok := Props.expand_ok h1
  have hfresh : expand g ADB.new i = _ := expand_eq hok
  rw [expand_eq hok] at h1
  have h1 := (Option.some.inj h1).symm
  refine ⟨?_, ?_, h3 ▸ h.bases, fun n hn => ?_, fun k hk => ?_⟩
  · rw [h1]; exact Props.fold_sorted _ _ h.tables
  · rw [h1]; exact Props.fold_sorted _ _ h.types
  · rw [h1] at hn
    rcases (keys_fold _ _ _).1 hn with hn | hn
    · exact ⟨i, List.mem_cons_self, _, hfresh, (keys_fold _ _ _).2 (.inl hn)⟩
    · obtain ⟨j, hj, r⟩ := h.tablesOf n hn
      exact ⟨j, List.mem_cons_of_mem _ hj, r⟩
  · rw [h1] at hk
    rcases (keys_fold _ _ _).1 hk with hk | hk
    · exact ⟨i, List.mem_cons_self, _, hfresh, (keys_fold _ _ _).2 (.inl hk)⟩
    · obtain ⟨j, hj, r⟩ := h.typesOf k hk
      exact ⟨j, List.mem_cons_of_mem _ hj, r⟩

theorem inv_stopped {old : List Item} {st : Struct} {ts : List ATable} (k : Nat) (h : Inv g old s)
    (hc : createATables g st = some ts) : Inv g (.model st :: old) (writeFiles (ts.take k) s) := by
  obtain ⟨h1, -, h3⟩ := files_of (ts.take k) s
  rw [fold_replace] at h1
  have hfresh : expand g ADB.new (.model st) = _ := expand_eq ⟨ts, hc⟩
  refine ⟨?_, ?_, h3 ▸ h.bases, fun n hn => ?_, fun k hk => ?_⟩
  · rw [h1]; exact Props.fold_sorted _ _ h.tables
  · rw [h1]; exact h.types
  · rw [h1] at hn
    rcases (keys_fold _ _ _).1 hn with hn | hn
    · refine ⟨_, List.mem_cons_self, _, hfresh, (keys_fold _ _ _).2 (.inl ?_)⟩
      simp only [List.map_map] at hn
      obtain ⟨t, ht, rfl⟩ := List.mem_map.1 hn
      simp only [tabs, modelsOf, List.flatMap_cons, List.flatMap_nil, List.append_nil, hc, Option.getD_some, List.map_map]
      exact List.mem_map.2 ⟨t, List.mem_of_mem_take ht, rfl⟩
    · obtain ⟨j, hj, r⟩ := h.tablesOf n hn
      exact ⟨j, List.mem_cons_of_mem _ hj, r⟩
  · rw [h1] at hk
    obtain ⟨j, hj, r⟩ := h.typesOf k hk
    exact ⟨j, List.mem_cons_of_mem _ hj, r⟩

/-- What deleting a table does. -/
theorem delete_cases {n : String} {r : Except MErr Unit} (h : Cli.deleteTable n s = (r, s')) :
    ((asDb s).tables.lookup n = none ∧ r = .error .read ∧ asDb s' = asDb s ∨
      (∃ t, (asDb s).tables.lookup n = some t) ∧ r = .ok () ∧
        asDb s' = { asDb s with tables := (asDb s).tables.erase n }) ∧
    OnlyCurrent s s' ∧ s'.info "current" = s.info "current" := by
  unfold Cli.deleteTable FsMigrations.deleteTable at h
  split at h <;> rename_i hl <;> cases h
  · refine ⟨.inl ⟨hl, rfl, ?_⟩, write_only _ _, write_info fun _ => rfl⟩
    unfold asDb
    rw [dir_write, if_pos rfl]
    rfl
  · refine ⟨.inr ⟨⟨_, hl⟩, rfl, ?_⟩, write_only _ _, write_info fun _ => rfl⟩
    unfold asDb
    rw [dir_write, if_pos rfl]

theorem inv_of {old : List Item} (h : Work g old s) : Inv g old s := by
  induction h with
  | fresh h => exact inv_empty h
  | clean _ h _ => exact inv_empty (clean_ok h).1
  | item _ h ih => exact inv_item ih h
  | stopped _ h ih => exact inv_stopped _ ih h
  | delete _ h ih =>
    obtain ⟨h1, -, h3⟩ := delete_cases h
    rcases h1 with ⟨-, -, h1⟩ | ⟨-, -, h1⟩
    · exact ⟨h1 ▸ ih.tables, h1 ▸ ih.types, h3 ▸ ih.bases, h1 ▸ ih.tablesOf, h1 ▸ ih.typesOf⟩
    · refine ⟨by rw [h1]; exact SMap.sorted_erase ih.tables _, by rw [h1]; exact ih.types, h3 ▸ ih.bases,
        fun n hn => ?_, by rw [h1]; exact ih.typesOf⟩
      rw [h1] at hn
      apply ih.tablesOf
      rw [SMap.mem_keys_iff] at hn ⊢
      obtain ⟨v, hv⟩ := hn
      rw [SMap.lookup_erase ih.tables] at hv
      split at hv
      · cases hv
      · exact ⟨v, hv⟩
  | @other old s s' _ h ih =>
    have hd := dir_congr h
    have hi := info_congr h
    have ha : asDb s' = asDb s := by unfold asDb; rw [hd]
    exact ⟨ha ▸ ih.tables, ha ▸ ih.types, hi ▸ ih.bases, ha ▸ ih.tablesOf, ha ▸ ih.typesOf⟩

/-- Compiling a crate when nothing else is recorded. -/
theorem compiled_of {old items : List Item} (h : Inv g old s) {b : ADB} (hb : expandAll g ADB.new items = some b)
    (hT : ∀ n ∈ (asDb s).tables.keys, n ∈ b.tables.keys)
    (hE : ∀ k ∈ (asDb s).extraTypes.keys, k ∈ b.extraTypes.keys) (hc : compileFs g s items = some s') :
    Compiled g items s' := by
  obtain ⟨h1, -, h3⟩ := (compile_fs g items s).1 s' hc
  refine ⟨h3 ▸ h.bases, b, hb, ?_⟩
  have hok := Props.expandAll_ok items hb
  rw [expandAll_eq items _ hok] at hb h1
  obtain ⟨sb1, sb2⟩ := Props.expandAll_sorted (db := ADB.new) (items := items) (r := b) (by rw [expandAll_eq items _ hok]; exact hb)
    SMap.sorted_nil SMap.sorted_nil
  have hab : asDb s' = b := by
    cases hb
    rw [← Option.some.inj h1]
    apply Props.adb_ext
    · refine SMap.ext (Props.fold_sorted _ _ h.tables) sb1 fun k => Props.fold_agree _ _ _ (fun k hk => ?_) k
      cases hl : SMap.lookup (asDb s).tables k with
      | none => rfl
      | some t =>
        obtain ⟨v, hv⟩ := (SMap.mem_keys_iff _ k).1 (hT k ((SMap.mem_keys_iff _ k).2 ⟨t, hl⟩))
        simp only at hv
        rw [Props.fold_other _ _ _ hk] at hv
        cases hv
    · refine SMap.ext (Props.fold_sorted _ _ h.types) sb2 fun k => Props.fold_agree _ _ _ (fun k hk => ?_) k
      cases hl : SMap.lookup (asDb s).extraTypes k with
      | none => rfl
      | some t =>
        obtain ⟨v, hv⟩ := (SMap.mem_keys_iff _ k).1 (hE k ((SMap.mem_keys_iff _ k).2 ⟨t, hl⟩))
        simp only at hv
        rw [Props.fold_other _ _ _ hk] at hv
        cases hv
  rw [← hab]
  exact ⟨rfl, rfl⟩

end Butane.CleanP
