/-
C98: the directory `current` and the source of the crate.
-/
import Verif.Proofs.Clean
import Verif.Props.CrateDb
import Verif.Props.CliMake

namespace Butane.Props
open Butane Butane.Codegen Butane.Proofs.Codegen Butane.Proofs.CrateDb Spec CleanP
variable {g : Cfg} {json : Bool}

/-! ### Compiling -/

/-- C98: whatever was done before, compiling the crate completely leaves in `current` exactly what is recorded
for it, if everything recorded since the last `butane clean` is still recorded for the crate.  In particular
a compilation that was stopped does no harm. -/
theorem compile_completes_partial {old items : List Item} {s s' : FsMigrations} (h : Work g old s)
    (hstill : ∀ i ∈ old, StillThere g items i) (hc : compileFs g s items = some s') : Compiled g items s' := by
  have hi := inv_of h
  obtain ⟨h1, -, -⟩ := (compile_fs g items s).1 s' hc
  have hb : expandAll g ADB.new items = some _ := expandAll_eq items _ (expandAll_ok items h1)
  refine compiled_of hi hb (fun n hn => ?_) (fun k hk => ?_) hc
  · obtain ⟨i, hm, a, ha, hna⟩ := hi.tablesOf n hn
    exact (hstill i hm a _ ha hb).1 n hna
  · obtain ⟨i, hm, a, ha, hka⟩ := hi.typesOf k hk
    exact (hstill i hm a _ ha hb).2 k hka

/-- C98: compiling the crate succeeds whatever there is in `current`, and changes nothing else. -/
theorem compile_succeeds (hr : ResolverOk g.resolve) {items : List Item} (hn : WellNamed items)
    (ht : Typed g.ft items) (s : FsMigrations) : ∃ s', compileFs g s items = some s' ∧ OnlyCurrent s s' := by
  cases hc : compileFs g s items with
  | none =>
    have := (compile_fs g items s).2 hc
    rw [expandAll_eq items _ (items_ok hr hn ht)] at this
    cases this
  | some s' => exact ⟨s', rfl, ((compile_fs g items s).1 s' hc).2.1⟩

/-- C98: after `butane clean` the crate can be compiled, and then `current` holds exactly what is recorded for
it, and its schema is the resolved one, whatever was there before. -/
theorem clean_compile (hr : ResolverOk g.resolve) {items : List Item} (hn : WellNamed items)
    (ht : Typed g.ft items) {s s1 : FsMigrations} (h : Cli.clean s = (.ok (), s1)) :
    ∃ s2 db db', compileFs g s1 items = some s2 ∧ Compiled g items s2 ∧ OnlyCurrent s s2 ∧
      expandAll g ADB.new items = some db ∧ db.resolveTypes g.ft.json (rounds db) = .ok db' ∧
      s2.getDb g.ft.json "current" = .ok db' := by
  obtain ⟨h1, h2⟩ := clean_ok h
  obtain ⟨s2, g1, g2⟩ := compile_succeeds hr hn ht s1
  have hcomp := compile_completes_partial (.fresh h1) (fun i hi => by cases hi) g1
  obtain ⟨db, db', k1, k2, k3⟩ := current_db hr hn ht hcomp
  exact ⟨s2, db, db', g1, hcomp, OnlyCurrent.trans h2 g2, k1, k2, k3⟩

/-! ### Cleaning -/

/-- C98: `butane clean` removes `current` and nothing else; it fails only if there is none. -/
theorem clean_only_current {s s' : FsMigrations} {r : Except MErr Unit} (h : Cli.clean s = (r, s')) :
    s'.dirs.lookup "current" = none ∧ OnlyCurrent s s' ∧ (r = .ok () ↔ ∃ d, s.dirs.lookup "current" = some d) := by
  cases hl : s.dirs.lookup "current" with
  | none =>
    unfold Cli.clean FsMigrations.clearCurrent at h
    rw [hl] at h
    cases h
    exact ⟨hl, ⟨rfl, fun _ _ => rfl⟩, ⟨fun h => (by cases h), fun ⟨d, h⟩ => (by cases h)⟩⟩
  | some d =>
    have hr : r = .ok () := by
      unfold Cli.clean FsMigrations.clearCurrent at h
      rw [hl] at h
      cases h
      rfl
    subst hr
    exact ⟨(clean_ok h).1, (clean_ok h).2, fun _ => ⟨d, rfl⟩, fun _ => rfl⟩

/-- C98: the migrations stay as they are when `current` changes. -/
theorem only_current_migrations {s s' : FsMigrations} (h : Reach json s) (ho : OnlyCurrent s s')
    {made : List (String × ADB)} (hm : HasMigrations json s made) : Reach json s' ∧ HasMigrations json s' made := by
  refine ⟨.build h ho.1 ho.2, ?_⟩
  have hi := (reach_inv h hm).1
  refine (fsInv_frame hi (n := "current") ?_ ho).asChain ""
  intro hm
  obtain ⟨e, he, h1⟩ := List.mem_map.1 hm
  exact hi.notCurrent e he h1

/-- C98: a migration that is made after `butane clean`, before the crate is compiled, has no tables: applying
it deletes all of them. -/
theorem clean_then_make {s s1 s2 : FsMigrations} (h : Reach json s) {made : List (String × ADB)}
    (hm : HasMigrations json s made) {r : Except MErr Unit} (hc : Cli.clean s = (r, s1))
    {get : String → Option MigBackend} (hget : Finds get) {spec : Option (Option MigBackend)} {name : String}
    (hfresh : s.dirs.lookup name = none) (hcur : name ≠ "current")
    (hmake : Cli.makeMigration json get spec name s1 = (.ok true, s2)) :
    HasMigrations json s2 (made ++ [(name, ADB.new)]) := by
  obtain ⟨h1, h2, -⟩ := clean_only_current hc
  obtain ⟨hreach, hm1⟩ := only_current_migrations h h2 hm
  have hdb : s1.getDb json "current" = .ok ADB.new := by
    unfold FsMigrations.getDb FsMigrations.info
    rw [dir_none h1]
    cases json <;> rfl
  have hset : Settled ADB.new := ⟨⟨SMap.sorted_nil, fun e he => (by cases he), fun e he => (by cases he)⟩, fun e he => (by cases he), fun e he => (by cases he), fun e he => (by cases he)⟩
  obtain ⟨toDb, old, backends, k1, k2, -⟩ := cli_make hget hreach hm1 (by rw [h2.2 _ hcur]; exact hfresh) hcur
    (fun toDb ht => by rw [hdb] at ht; cases ht; exact hset) hmake
  rw [hdb] at k1
  cases k1
  exact k2

/-- C98: a migration that is made after `butane clean` and after the crate is compiled has the schema of the
crate, and follows the migrations there were, whatever was in `current` before. -/
theorem clean_compile_make (hr : ResolverOk g.resolve) {items : List Item} (hn : WellNamed items)
    (ht : Typed g.ft items) {s s1 s2 s3 : FsMigrations} (h : Reach g.ft.json s) {made : List (String × ADB)}
    (hm : HasMigrations g.ft.json s made) (hc : Cli.clean s = (.ok (), s1)) (hcomp : compileFs g s1 items = some s2)
    {get : String → Option MigBackend} (hget : Finds get) {spec : Option (Option MigBackend)} {name : String}
    (hfresh : s.dirs.lookup name = none) (hcur : name ≠ "current")
    (hmake : Cli.makeMigration g.ft.json get spec name s2 = (.ok true, s3)) :
    ∃ db db', expandAll g ADB.new items = some db ∧ db.resolveTypes g.ft.json (rounds db) = .ok db' ∧
      HasMigrations g.ft.json s3 (made ++ [(name, db')]) := by
  obtain ⟨s2', db, db', k1, -, k3, k4, k5, k6⟩ := clean_compile hr hn ht hc
  rw [hcomp] at k1
  cases k1
  obtain ⟨hreach, hm2⟩ := only_current_migrations h k3 hm
  obtain ⟨toDb, old, backends, q1, q2, -⟩ := cli_make hget hreach hm2 (by rw [k3.2 _ hcur]; exact hfresh) hcur
    (fun toDb hd => by rw [k6] at hd; cases hd; exact crate_settled hr hn ht k4 k5) hmake
  rw [k6] at q1
  cases q1
  exact ⟨db, db', k4, k5, q2⟩

/-! ### Deleting a table -/

/-- C98: `butane delete table` removes that table from `current` and changes nothing else; it fails if there is
no such table. -/
theorem delete_table {old : List Item} {s s' : FsMigrations} (h : Work g old s) {n : String}
    {r : Except MErr Unit} (hd : Cli.deleteTable n s = (r, s')) :
    (r = .ok () ↔ ∃ t, (s.dir "current").tables.lookup n = some t) ∧
    (s'.dir "current").tables.lookup n = none ∧
    (∀ m, m ≠ n → (s'.dir "current").tables.lookup m = (s.dir "current").tables.lookup m) ∧
    (s'.dir "current").types.getD [] = (s.dir "current").types.getD [] ∧ OnlyCurrent s s' := by
  obtain ⟨h1, h2, -⟩ := delete_cases hd
  have hs : ((s.dir "current").tables).Sorted := (inv_of h).tables
  have ht : ∀ {a b : ADB}, a = b → a.tables = b.tables ∧ a.extraTypes = b.extraTypes := fun h => by rw [h]; exact ⟨rfl, rfl⟩
  rcases h1 with ⟨q1, rfl, q3⟩ | ⟨q1, rfl, q3⟩
  · obtain ⟨e1, e2⟩ := ht q3
    have e1 : (s'.dir "current").tables = (s.dir "current").tables := e1
    refine ⟨⟨fun h => (by cases h), fun ⟨t, h⟩ => ?_⟩, by rw [e1]; exact q1, fun m _ => by rw [e1], e2, h2⟩
    rw [show (s.dir "current").tables.lookup n = none from q1] at h
    cases h
  · obtain ⟨e1, e2⟩ := ht q3
    have e1 : (s'.dir "current").tables = (s.dir "current").tables.erase n := e1
    refine ⟨⟨fun _ => q1, fun _ => rfl⟩, ?_, fun m hm => ?_, e2, h2⟩
    · rw [e1, SMap.lookup_erase hs, if_pos rfl]
    · rw [e1, SMap.lookup_erase hs, if_neg hm]

/-- C98: models that were removed from the source do no harm once their tables are deleted: if all tables in
`current` are tables of the crate, and every type name recorded since the last `butane clean` still is recorded
for it, compiling the crate leaves exactly what is recorded for it. -/
theorem compile_after_delete_partial {old items : List Item} {s s' : FsMigrations} (h : Work g old s) {b : ADB}
    (hb : expandAll g ADB.new items = some b)
    (htables : ∀ n t, (s.dir "current").tables.lookup n = some t → n ∈ b.tables.keys)
    (htypes : ∀ i ∈ old, ∀ a, expand g ADB.new i = some a → ∀ k ∈ a.extraTypes.keys, k ∈ b.extraTypes.keys)
    (hc : compileFs g s items = some s') : Compiled g items s' := by
  have hi := inv_of h
  refine compiled_of hi hb (fun n hn => ?_) (fun k hk => ?_) hc
  · obtain ⟨t, ht⟩ := (SMap.mem_keys_iff _ n).1 hn
    exact htables n t ht
  · obtain ⟨i, hm, a, ha, hka⟩ := hi.typesOf k hk
    exact htypes i hm a ha k hka

/-! ### Examples -/

/-- The crate before the model `User` is removed from it. -/
def exWithUser : List Item := .model ⟨ident "User", [], [fld "id" (ty0 "i64")]⟩ :: exCrate

theorem exWork : ∃ s, compileFs exCfg ⟨[], none⟩ exWithUser = some s ∧ Work exCfg exWithUser.reverse s := by
  refine ⟨_, rfl, ?_⟩
  exact .item (.item (.item (.item (.item (.item (.fresh rfl) rfl) rfl) rfl) rfl) rfl) rfl

theorem exWork_crate : ∃ s, compileFs exCfg ⟨[], none⟩ exCrate = some s ∧ Work exCfg exCrate.reverse s := by
  refine ⟨_, rfl, ?_⟩
  exact .item (.item (.item (.item (.item (.fresh rfl) rfl) rfl) rfl) rfl) rfl

/-- `Post` after an edit. -/
def exPostEdited : Struct := { postModel with fields := fld "title" (ty0 "String") :: postModel.fields }

/-- `Post` is edited, compiling stops after its first table, and then the edited crate is compiled. -/
example : ∃ s ts s', compileFs exCfg ⟨[], none⟩ exCrate = some s ∧ createATables exCfg exPostEdited = some ts ∧
    2 ≤ ts.length ∧ compileFs exCfg (writeFiles (ts.take 1) s) exEdited = some s' ∧ Compiled exCfg exEdited s' := by
  obtain ⟨s, hs, hw⟩ := exWork_crate
  obtain ⟨ts, hts, hlen⟩ : ∃ ts, createATables exCfg exPostEdited = some ts ∧ 2 ≤ ts.length := ⟨_, rfl, by decide⟩
  have hw2 := hw.stopped (k := 1) hts
  obtain ⟨s', hc, -⟩ : ∃ s', compileFs exCfg (writeFiles (ts.take 1) s) exEdited = some s' ∧ True := by
    cases hs
    cases hts
    exact ⟨_, rfl, trivial⟩
  refine ⟨s, ts, s', hs, hts, hlen, hc, compile_completes_partial hw2 ?_ hc⟩
  intro i hi a b ha hb
  simp only [exCrate, List.reverse_cons, List.reverse_nil, List.nil_append, List.cons_append, List.mem_cons,
    List.not_mem_nil, or_false] at hi
  rcases hi with rfl | rfl | rfl | rfl | rfl | rfl <;> cases ha <;> cases hb <;> exact ⟨by decide, by decide⟩

/-- The crate without `User` is compiled after `butane clean`. -/
example : ∃ s s1 s2, compileFs exCfg ⟨[], none⟩ exWithUser = some s ∧ Cli.clean s = (.ok (), s1) ∧
    compileFs exCfg s1 exCrate = some s2 ∧ Compiled exCfg exCrate s2 ∧ (s2.dir "current").tables.lookup "User" = none := by
  obtain ⟨s2, -, -, h1, h2, -⟩ := clean_compile (g := exCfg) exResolve_ok exCrate_named exCrate_typed
    (show Cli.clean ((compileFs exCfg ⟨[], none⟩ exWithUser).getD ⟨[], none⟩) = (.ok (), _) from rfl)
  refine ⟨_, _, s2, rfl, rfl, h1, h2, ?_⟩
  cases h1
  rfl

/-- The table of `User` is deleted before the crate without it is compiled. -/
example : ∃ s s1 s2, compileFs exCfg ⟨[], none⟩ exWithUser = some s ∧ Cli.deleteTable "User" s = (.ok (), s1) ∧
    compileFs exCfg s1 exCrate = some s2 ∧ Compiled exCfg exCrate s2 := by
  obtain ⟨s, hs, hw⟩ := exWork
  cases hs
  refine ⟨_, _, _, rfl, rfl, rfl, compile_after_delete_partial
    (hw.delete (n := "User") (show Cli.deleteTable "User" _ = (.ok (), _) from rfl))
    (show expandAll exCfg ADB.new exCrate = some _ from rfl) ?_ ?_ rfl⟩
  · intro n t h
    have := (SMap.mem_keys_iff _ n).2 ⟨t, h⟩
    revert this
    exact (show ∀ n ∈ _, n ∈ _ from by decide) n
  · intro i hi a ha
    simp only [exWithUser, exCrate, List.reverse_cons, List.reverse_nil, List.nil_append, List.cons_append, List.mem_cons,
      List.not_mem_nil, or_false] at hi
    rcases hi with rfl | rfl | rfl | rfl | rfl | rfl <;> cases ha <;> decide

/-- `User` is removed before the first migration is made, which then does not have its table. -/
example : ∃ s s1 s2 s3 db, compileFs exCfg ⟨[], none⟩ exWithUser = some s ∧ Cli.clean s = (.ok (), s1) ∧
    compileFs exCfg s1 exCrate = some s2 ∧
    Cli.makeMigration true exGet (some (some (exSql "p"))) "m1" s2 = (.ok true, s3) ∧
    HasMigrations true s3 [("m1", db)] ∧ db.tables.lookup "User" = none := by
  obtain ⟨s, hs, ho⟩ : ∃ s, compileFs exCfg ⟨[], none⟩ exWithUser = some s ∧ OnlyCurrent ⟨[], none⟩ s :=
    ⟨_, rfl, ((compile_fs exCfg exWithUser ⟨[], none⟩).1 _ rfl).2.1⟩
  obtain ⟨hreach, hm⟩ := only_current_migrations (json := exCfg.ft.json) .empty ho (made := [])
    ((fsExact_nil rfl).inv.asChain "")
  have hfresh : s.dirs.lookup "m1" = none := ho.2 "m1" (by decide)
  cases hs
  obtain ⟨db, db', h1, h2, h3⟩ := clean_compile_make exResolve_ok exCrate_named exCrate_typed hreach hm rfl rfl
    exGet_name (spec := some (some (exSql "p"))) (name := "m1") hfresh (by decide) rfl
  refine ⟨_, _, _, _, db', rfl, rfl, rfl, rfl, h3, ?_⟩
  cases h1
  cases h2
  rfl

/-- C98 violated without `butane clean`: after `User` is removed from the source and the crate compiled, the
schema of the code still has its table. -/
theorem stale_table_violated : ∃ s s' db, compileFs exCfg ⟨[], none⟩ exWithUser = some s ∧
    compileFs exCfg s exCrate = some s' ∧ s'.getDb exCfg.ft.json "current" = .ok db ∧
    "User" ∈ db.tables.keys ∧ ¬ Compiled exCfg exCrate s' := by
  refine ⟨_, _, _, rfl, rfl, rfl, by decide, fun h => ?_⟩
  obtain ⟨db, h1, h2, -⟩ := h.recorded
  cases h1
  exact absurd (congrArg SMap.keys h2) (by decide)

/-- After three migrations, `butane clean`, and a migration without compiling. -/
example : ∃ made s1 s2, HasMigrations false exCli3 made ∧ Cli.clean exCli3 = (.ok (), s1) ∧
    Cli.makeMigration false exGet (some (some (exSql "p"))) "m4" s1 = (.ok true, s2) ∧
    HasMigrations false s2 (made ++ [("m4", ADB.new)]) := by
  obtain ⟨made, hm, -⟩ := cli_history exCli3_reach.2.2
  exact ⟨made, _, _, hm, rfl, rfl, clean_then_make (spec := some (some (exSql "p"))) exCli3_reach.2.2 hm rfl exGet_name rfl (by decide) rfl⟩

end Butane.Props
