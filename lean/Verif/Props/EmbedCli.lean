/-
C76: the migrations in the source of the program are those on disk.
-/
import Verif.Spec.EmbedCli
import Verif.Props.CliMake

namespace Butane.Props
open Butane Spec Cli FsMigrations
variable {U : Type} {json : Bool} {get : String → Option MigBackend}

/-! ### SQL that is there exactly for the listed backends -/

theorem sqlOk_iff {s : FsMigrations} {n : String} : SqlOk s n ↔
    ∀ b, (∃ u d, SqlIs s b n (some u) (some d) True) ∨ SqlIs s b n none none False := by
  constructor
  · intro h b
    obtain ⟨h1, h2⟩ := h b
    by_cases hb : b ∈ (s.info n).backends
    · obtain ⟨u, hu⟩ := h1.2 hb
      obtain ⟨d, hd⟩ := h2.2 hb
      exact .inl ⟨u, d, congrArg _ hu, congrArg _ hd, by simp [hb]⟩
    · refine .inr ⟨?_, ?_, by simp [hb]⟩
      · cases hl : (s.dir n).sql.lookup (b ++ "_up") with
        | none => exact congrArg _ hl
        | some t => exact absurd (h1.1 ⟨t, hl⟩) hb
      · cases hl : (s.dir n).sql.lookup (b ++ "_down") with
        | none => exact congrArg _ hl
        | some t => exact absurd (h2.1 ⟨t, hl⟩) hb
  · intro h b
    rcases h b with ⟨u, d, h1, h2, h3⟩ | ⟨h1, h2, h3⟩
    · have h1 : (s.dir n).sql.lookup (b ++ "_up") = some u := Except.ok.inj h1
      have h2 : (s.dir n).sql.lookup (b ++ "_down") = some d := Except.ok.inj h2
      rw [h1, h2]
      simp [h3.2 trivial]
    · have h1 : (s.dir n).sql.lookup (b ++ "_up") = none := Except.ok.inj h1
      have h2 : (s.dir n).sql.lookup (b ++ "_down") = none := Except.ok.inj h2
      rw [h1, h2]
      simp only [reduceCtorEq, exists_false, false_iff]
      exact ⟨fun hb => h3.1 hb, fun hb => h3.1 hb⟩

theorem sqlOk_new {s : FsMigrations} {n : String} (h : s.dirs.lookup n = none) : SqlOk s n := by
  have hd : s.dir n = FsDir.empty := by unfold FsMigrations.dir; rw [h]
  intro b
  unfold FsMigrations.info
  rw [hd]
  simp [FsDir.empty, FsInfo.new, SMap.lookup]

theorem sqlOk_frame {s s' : FsMigrations} {n : String} (h : SqlOk s n) (h2 : s'.dirs.lookup n = s.dirs.lookup n) :
    SqlOk s' n := h.same (by rw [dir_congr h2]) (by rw [info_congr h2])

/-! ### Histories -/

theorem finish_fs {p p' : Crate} {r r' : Except CliErr Unit} {fs : FsMigrations}
    (h : finish json p r fs = (r', p')) : p'.fs = fs := by
  unfold finish updateEmbedded Cli.embed at h
  split at h
  · cases h; rfl
  · split at h
    · split at h
      · cases h; rfl
      · split at h <;> cases h <;> rfl
    · cases h; rfl

theorem finish_ok {p p' : Crate} {r : Except CliErr Unit} {fs : FsMigrations}
    (h : finish json p r fs = (.ok (), p')) : r = .ok () ∧ p'.fs = fs ∧
      ((p.embedded = false ∧ p'.state = p.state) ∨ ∃ mem, fs.embed json = .ok mem ∧ p'.program = some mem) := by
  refine ⟨?_, finish_fs h, ?_⟩
  · unfold finish at h
    split at h
    · cases h
    · rfl
  · unfold finish updateEmbedded Cli.embed at h
    split at h
    · cases h
    · split at h
      · split at h
        · cases h
        · split at h
          · cases h
          · rename_i mem hm
            cases h
            exact .inr ⟨mem, hm, rfl⟩
      · rename_i hf
        cases h
        exact .inl ⟨by simpa [Crate.embedded] using hf, rfl⟩

theorem makeCmd_ok {spec : Option (Option MigBackend)} {name : String} {p p' : Crate}
    (h : makeCmd json get spec name p = (.ok (), p')) :
    ∃ made fs, makeMigration json get spec name p.fs = (.ok made, fs) ∧ p'.fs = fs ∧
      ((made = false ∧ p' = { p with fs := fs }) ∨ (made = true ∧ finish json p (.ok ()) fs = (.ok (), p'))) := by
  unfold makeCmd at h
  split at h
  · cases h
  · rename_i fs hm
    cases h
    exact ⟨false, fs, hm, rfl, .inl ⟨rfl, rfl⟩⟩
  · rename_i fs hm
    exact ⟨true, fs, hm, finish_fs h, .inr ⟨rfl, h⟩⟩

theorem works_reach {p : Crate} (h : Works json p) : Reach json p.fs := by
  induction h with
  | new src => exact .empty
  | src _ ih => exact ih
  | build _ h1 h2 ih => exact .build ih h1 h2
  | @embed p p' _ h1 ih =>
    unfold Cli.embed at h1
    split at h1
    · cases h1
    · split at h1 <;> cases h1
      exact ih
  | make _ h1 h2 h3 h4 h5 ih =>
    obtain ⟨made, fs, h6, rfl, _⟩ := makeCmd_ok h5
    exact .make ih h1 h2 h3 h4 h6
  | @detach p p' U conn db _ h1 ih =>
    have := finish_fs h1
    exact .detach (conn := conn) (db := db) (r := (detachLatest conn db p.fs).1) ih (by rw [this])
  | @collapse p p' get U conn db db' name _ h1 h2 h3 ih =>
    unfold collapseCmd at h3
    rcases hc : collapse json get conn name db p.fs with ⟨r, db1, fs⟩
    rw [hc] at h3
    simp only [Prod.mk.injEq] at h3
    have := finish_fs (p' := p') (r' := .ok ()) (Prod.ext h3.1 h3.2.2)
    exact .collapse ih h1 h2 (by rw [hc, this])
  | @addBackend p p' get name _ h1 h2 ih =>
    have := finish_fs h2
    exact .addBackend (r := (addBackend json get name p.fs).1) ih h1 (by rw [this])
  | @removeBackend p p' get name _ h1 h2 ih =>
    have := finish_fs h2
    exact .removeBackend (r := (removeBackend get name p.fs).1) ih h1 (by rw [this])
  | @regenerate p p' get _ h1 h2 ih =>
    have := finish_fs h2
    exact .regenerate (r := (regenerate json get p.fs).1) ih h1 (by rw [this])

/-- A command that succeeds keeps the SQL together. -/
theorem works_sql {p : Crate} (h : Works json p) :
    ∃ made, FsExact p.fs made ∧ Tidy p.fs ∧ ∀ e ∈ made, SqlOk p.fs e.1 := by
  induction h with
  | new src => exact ⟨[], fsExact_nil rfl, fun n _ => tidy_empty, (fun e he => by cases he)⟩
  | src _ ih => exact ih
  | @build p fs hp h1 h2 ih =>
    obtain ⟨made, hi, ht, hs⟩ := ih
    refine ⟨made, fsExact_frame hi (n := "current") ?_ ⟨h1, h2⟩, fun n hn => ?_, fun e he => ?_⟩
    · intro hm
      obtain ⟨e, he, h1⟩ := List.mem_map.1 hm
      exact hi.notCurrent e he h1
    · rw [dir_congr (h2 n hn)]
      exact ht n hn
    · exact sqlOk_frame (hs e he) (h2 _ (hi.notCurrent e he))
  | @embed p p' _ h1 ih =>
    unfold Cli.embed at h1
    split at h1
    · cases h1
    · split at h1 <;> cases h1
      exact ih
  | @make p p' get spec name hp hget h1 h2 h3 h4 ih =>
    obtain ⟨made, hi, ht, hs⟩ := ih
    obtain ⟨b, fs, h5, rfl, _⟩ := makeCmd_ok h4
    unfold makeMigration at h5
    split at h5
    · cases h5
    split at h5
    · cases h5
    split at h5
    · cases h5
    rename_i backends hb
    split at h5
    · cases h5
    rename_i toDb hdb
    rcases hc : createMigrationTo (FsMigrations.ops json) backends name p.fs.getLatest toDb p.fs with ⟨r1, s1⟩
    rw [hc] at h5
    cases r1 with
    | error e => cases h5
    | ok made' =>
      cases h5
      have hnot : ∀ e ∈ made, e.1 ≠ name := fun e he hx => by
        obtain ⟨d, hd⟩ := (hi.inv.get (List.mem_map.2 ⟨e, he, rfl⟩)).2
        rw [hx, h1] at hd
        cases hd
      have hframe := fs_create_frame hc
      cases b with
      | false =>
        rw [hframe.2.2 rfl]
        exact ⟨made, hi, ht, hs⟩
      | true =>
        obtain ⟨db, _, hx⟩ := fsExact_create (loadBackends_nodup hget hi.inv ht hb) hi ⟨h1, h2⟩ (h3 toDb hdb) hc
        refine ⟨_, hx, ht.create hc, fun e he => ?_⟩
        rcases List.mem_append.1 he with he | he
        · exact sqlOk_frame (hs e he) (hframe.1 _ (hnot e he))
        · simp at he
          subst he
          exact sqlOk_create (sqlOk_new h1) hc
  | @detach p p' U conn db hp h1 ih =>
    obtain ⟨made, hi, ht, hs⟩ := ih
    rw [finish_fs h1]
    rcases detach_cases hi.inv (Prod.eta (detachLatest conn db p.fs)).symm with ⟨_, h2⟩ | ⟨a, x, y, rfl, _, h2⟩
    · rw [h2]
      exact ⟨made, hi, ht, hs⟩
    · rw [h2]
      refine ⟨_, fsExact_detach hi, ht, fun e he => ?_⟩
      exact sqlOk_frame (hs e (by
        rcases List.mem_append.1 he with h | h
        · simp [h]
        · simp at h; simp [h])) rfl
  | @collapse p p' get U conn db db' name hp hget h1 h2 ih =>
    obtain ⟨made, hi, ht, hs⟩ := ih
    unfold collapseCmd at h2
    rcases hc : collapse json get conn name db p.fs with ⟨r, db1, fs⟩
    rw [hc] at h2
    simp only [Prod.mk.injEq] at h2
    have hf : finish json p r fs = (.ok (), p') := Prod.ext h2.1 h2.2.2
    obtain ⟨rfl, rfl, _⟩ := finish_ok hf
    rcases collapse_cases hi.inv hc with ⟨h3, _⟩ | ⟨x, y, m, backends, c, applied, d, _, hb, _, ha, hd, h3⟩
    · exact absurd rfl h3
    rcases h3 with ⟨_, h3, _⟩ | ⟨db2, r1, _, hc', h4⟩
    · cases h3
    have hfresh : p.fs.deleteMigrations.dirs.lookup name = none := by
      rw [lookup_deleteMigrations, if_neg h1]
    obtain ⟨q1, q2, hq, _⟩ := lastApplied_mem (hi.inv.path "").1 (by
      rw [List.length_map]; exact hi.inv.lt_rounds) ha
    obtain ⟨e, he, rfl⟩ := List.mem_map.1 (show applied ∈ made.map (·.1) by rw [hq]; simp)
    obtain ⟨u, v, huv⟩ := List.append_of_mem he
    have hd' := hi.dirs u e v huv
    rw [dirOk_getDb hd'] at hd
    cases hd
    by_cases hr : r1 = .ok true
    · subst hr
      obtain ⟨db, _, hx⟩ := fsExact_create (latestBackends_nodup hget hi.inv ht hb) (fsExact_nil rfl) ⟨hfresh, h1⟩
        hd'.settled hc'
      refine ⟨_, hx, (tidy_deleteMigrations p.fs).create hc', fun e he => ?_⟩
      simp at he
      subst he
      exact sqlOk_create (sqlOk_new hfresh) hc'
    · have hframe := fs_create_frame hc'
      exact ⟨[], fsExact_nil (hframe.2.1 hr), (tidy_deleteMigrations p.fs).create hc', fun e he => by cases he⟩
  | @addBackend p p' get name hp hget h1 ih =>
    obtain ⟨made, hi, ht, hs⟩ := ih
    obtain ⟨h2, h3, _⟩ := finish_ok h1
    have hc : addBackend json get name p.fs = (.ok (), p'.fs) := Prod.ext h2 h3.symm
    have hr := works_reach hp
    obtain ⟨b, hb, h4⟩ := cli_add_backend hr (hi.inv.asChain "") hc
    obtain ⟨_, _, h5⟩ := cli_add_backend_keeps hget hr (hi.inv.asChain "") hc
    have hname := hget _ _ hb
    have hfs : FsExact p'.fs made ∧ Tidy p'.fs := by
      unfold Cli.addBackend at hc
      split at hc
      · cases hc
      split at hc
      · cases hc
      split at hc
      · cases hc
      split at hc
      · cases hc
      obtain ⟨g1, g2, _⟩ := addBackendLoop_keeps hc
      exact ⟨g1.exact hi, g2 ht⟩
    refine ⟨made, hfs.1, hfs.2, fun e he => sqlOk_iff.2 fun x => ?_⟩
    by_cases hx : x = name
    · obtain ⟨u, v, huv⟩ := List.append_of_mem he
      obtain ⟨old, new, _, _, _, _, up', down', _, _, _, _, h6⟩ := h4 u e v huv
      rw [hx, ← hname]
      exact .inl ⟨up', down', h6⟩
    · rcases sqlOk_iff.1 (hs e he) x with ⟨u, d, h6⟩ | h6
      · exact .inl ⟨u, d, (h5 x e.1 hx _ _ _).2 h6⟩
      · exact .inr ((h5 x e.1 hx _ _ _).2 h6)
  | @removeBackend p p' get name hp hget h1 ih =>
    obtain ⟨made, hi, ht, hs⟩ := ih
    obtain ⟨h2, h3, _⟩ := finish_ok h1
    have hc : removeBackend get name p.fs = (.ok (), p'.fs) := Prod.ext h2 h3.symm
    have hr := works_reach hp
    obtain ⟨h4, _⟩ := cli_remove_backend hget hr (hi.inv.asChain "") hc
    obtain ⟨_, _, h5⟩ := cli_remove_backend_keeps hget hr (hi.inv.asChain "") hc
    have hfs : FsExact p'.fs made ∧ Tidy p'.fs := by
      unfold Cli.removeBackend at hc
      split at hc
      · cases hc
      split at hc
      · cases hc
      split at hc
      · cases hc
      rw [hi.inv.all] at hc
      obtain ⟨g1, g2, _⟩ := removeBackendLoop_keeps (by
        intro hm
        obtain ⟨e, he, h2⟩ := List.mem_map.1 hm
        exact hi.notCurrent e he h2) ht hc
      exact ⟨g1.exact hi, g2⟩
    refine ⟨made, hfs.1, hfs.2, fun e he => sqlOk_iff.2 fun x => ?_⟩
    by_cases hx : x = name
    · rw [hx]
      exact .inr (h4 e he)
    · rcases sqlOk_iff.1 (hs e he) x with ⟨u, d, h6⟩ | h6
      · exact .inl ⟨u, d, (h5 x e.1 hx _ _ _).2 h6⟩
      · exact .inr ((h5 x e.1 hx _ _ _).2 h6)
  | @regenerate p p' get hp hget h1 ih =>
    obtain ⟨made, hi, ht, hs⟩ := ih
    obtain ⟨h2, h3, _⟩ := finish_ok h1
    have hc : regenerate json get p.fs = (.ok (), p'.fs) := Prod.ext h2 h3.symm
    unfold Cli.regenerate at hc
    split at hc
    · cases hc
    rename_i backends hb
    rw [hi.inv.all] at hc
    obtain ⟨g1, g2, _, g4⟩ := regenerateLoop_keeps (a := []) (latestBackends_nodup hget hi.inv ht hb) hi ht hc
    refine ⟨made, g1, g2, fun e he => sqlOk_iff.2 fun x => ?_⟩
    obtain ⟨u, v, huv⟩ := List.append_of_mem he
    obtain ⟨k1, k2⟩ := g4 rfl u e v huv
    by_cases hx : ∃ b ∈ backends, x = b.name
    · obtain ⟨b, hb, rfl⟩ := hx
      obtain ⟨up, down, up', down', _, _, _, q1, q2, q3⟩ := k1 b hb
      exact .inl ⟨up', down', congrArg _ q1, congrArg _ q2, by simp [q3]⟩
    · obtain ⟨q1, q2, q3⟩ := k2 x fun b hb h => hx ⟨b, hb, h⟩
      exact .inr ⟨congrArg _ q1, congrArg _ q2, by simp [q3]⟩

/-! ### Embedding -/

theorem embeds_of {s : FsMigrations} {made : List (String × ADB)} (hi : FsInv s made) {mem : MemMigrations}
    (h : Embedded json s made mem) : EmbedsUsable json s mem := by
  refine ⟨made, hi.asChain "", h.chain, h.iff, fun n m hm b => ?_⟩
  obtain ⟨e, he, rfl⟩ := List.mem_map.1 ((h.iff n).1 ⟨m, hm⟩)
  obtain ⟨u, v, huv⟩ := List.append_of_mem he
  obtain ⟨m', g1, g2, g3, ⟨db, g4, g5, _⟩, g6⟩ := h.each u e v huv
  rw [g1] at hm
  cases hm
  obtain ⟨db', hd, _⟩ := hi.dirs u e v huv
  obtain ⟨k1, k2⟩ := g6 b
  refine ⟨g2, ?_, by rw [g4, g5], fun up down hu => ?_, fun hn => ?_⟩
  · change (.ok m.from_ : Except MErr (Option String)) = .ok (s.info e.1).fromName
    rw [g3, hd.from_]
  · obtain ⟨q1, q2⟩ := k1 hu.1 up down hu.2.1 hu.2.2
    exact ⟨congrArg _ q1, congrArg _ q2⟩
  · obtain ⟨q1, q2⟩ := k2 fun ⟨q1, up, down, q2, q3⟩ => hn ⟨up, down, q1, q2, q3⟩
    exact ⟨congrArg _ q1, congrArg _ q2⟩

theorem embeds_whole {s : FsMigrations} {made : List (String × ADB)} (hi : FsInv s made)
    (hs : ∀ e ∈ made, SqlOk s e.1) {mem : MemMigrations} (h : Embedded json s made mem) : EmbedsDisk json s mem := by
  refine ⟨made, hi.asChain "", h.chain, h.iff, fun n m hm b => ?_⟩
  obtain ⟨e, he, rfl⟩ := List.mem_map.1 ((h.iff n).1 ⟨m, hm⟩)
  obtain ⟨u, v, huv⟩ := List.append_of_mem he
  obtain ⟨m', g1, g2, g3, ⟨db, g4, g5, _⟩, g6⟩ := h.each u e v huv
  rw [g1] at hm
  cases hm
  obtain ⟨db', hd, _⟩ := hi.dirs u e v huv
  obtain ⟨k1, k2⟩ := (hs e he).copied g6 b
  refine ⟨g2, ?_, by rw [g4, g5], congrArg _ k1, congrArg _ k2⟩
  change (.ok m.from_ : Except MErr (Option String)) = .ok (s.info e.1).fromName
  rw [g3, hd.from_]

/-- Building the code does not matter. -/
theorem embedded_frame {s s' : FsMigrations} {made : List (String × ADB)} (hi : FsInv s made)
    (h2 : ∀ n, n ≠ "current" → s'.dirs.lookup n = s.dirs.lookup n) {mem : MemMigrations}
    (h : Embedded json s made mem) : Embedded json s' made mem where
  latest := h.latest
  only := h.only
  each u e v huv := by
    obtain ⟨m, g1, g2, g3, ⟨db, g4, g5, g6⟩, g7⟩ := h.each u e v huv
    have hcur : ∀ x ∈ made, s'.dirs.lookup x.1 = s.dirs.lookup x.1 := fun x hx => h2 _ (hi.notCurrent x hx)
    obtain ⟨d, hd, _⟩ := hi.dirs u e v huv
    have hd' : DirOk s' (u.map (·.1)) e.1 (u.getLast?.map (·.1)) d := by
      refine dirOk_frame hd (hcur e (by rw [huv]; simp)) fun b hb => ?_
      obtain ⟨x, hx, rfl⟩ := List.mem_map.1 hb
      exact hcur x (by rw [huv]; simp [hx])
    rw [dirOk_getDb hd] at g4
    refine ⟨m, g1, g2, g3, ⟨db, by rw [dirOk_getDb hd', g4], g5, g6⟩, ?_⟩
    have he := hcur e (by rw [huv]; simp)
    unfold FsMigrations.source CopiedSql
    rw [dir_congr he, info_congr he]
    exact g7

theorem works_embedded {p : Crate} (h : Works json p) (hstate : p.state = some true) :
    ∃ made mem, FsInv p.fs made ∧ p.program = some mem ∧ Embedded json p.fs made mem := by
  have hdone : ∀ {p p' : Crate} {r : Except CliErr Unit} {fs : FsMigrations}, Works json p' →
      finish json p r fs = (.ok (), p') → p'.state = some true →
      ∃ made mem, FsInv p'.fs made ∧ p'.program = some mem ∧ Embedded json p'.fs made mem := by
    intro p p' r fs hw hf hst
    obtain ⟨_, rfl, h1⟩ := finish_ok hf
    rcases h1 with ⟨h1, h2⟩ | ⟨mem, h1, h2⟩
    · rw [hst] at h2
      unfold Crate.embedded at h1
      rw [← h2] at h1
      cases h1
    · obtain ⟨made, hi, _⟩ := works_sql hw
      obtain ⟨mem', h3, h4⟩ := embed_ok (json := json) hi.inv
      rw [h1] at h3
      cases h3
      exact ⟨made, mem, hi.inv, h2, h4⟩
  induction h with
  | new src => cases hstate
  | src _ ih => exact ih hstate
  | @build p fs hp h1 h2 ih =>
    obtain ⟨made, mem, g1, g2, g3⟩ := ih hstate
    obtain ⟨made', hi, _⟩ := works_sql (.build hp h1 h2)
    refine ⟨made, mem, ?_, g2, embedded_frame g1 h2 g3⟩
    refine ⟨by rw [h1]; exact g1.latest, g1.nodup, g1.notCurrent, fun a e b hab => ?_⟩
    obtain ⟨d, hd, hs⟩ := g1.dirs a e b hab
    refine ⟨d, dirOk_frame hd (h2 _ (g1.notCurrent e (by rw [hab]; simp))) fun b hb => ?_, hs⟩
    obtain ⟨x, hx, rfl⟩ := List.mem_map.1 hb
    exact h2 _ (g1.notCurrent x (by rw [hab]; simp [hx]))
  | @embed p p' hp h1 ih =>
    obtain ⟨made, hi, _⟩ := works_sql hp
    obtain ⟨mem, h3, h4⟩ := embed_ok (json := json) hi.inv
    unfold Cli.embed at h1
    rw [h3] at h1
    split at h1
    · cases h1
    · cases h1
      exact ⟨made, mem, hi.inv, rfl, h4⟩
  | @make p p' get spec name hp hget h1 h2 h3 h4 ih =>
    have hw := Works.make hp hget h1 h2 h3 h4
    obtain ⟨b, fs, h5, h6, h7⟩ := makeCmd_ok h4
    rcases h7 with ⟨rfl, rfl⟩ | ⟨_, h7⟩
    · have hfs : fs = p.fs := by
        unfold makeMigration at h5
        split at h5
        · cases h5
        split at h5
        · cases h5
        split at h5
        · cases h5
        split at h5
        · cases h5
        split at h5
        · cases h5
        · rename_i hc
          cases h5
          exact (fs_create_frame hc).2.2 rfl
      subst hfs
      exact ih hstate
    · exact hdone hw h7 hstate
  | @detach p p' U conn db hp h1 ih => exact hdone (.detach hp h1) h1 hstate
  | @collapse p p' get U conn db db' name hp hget h1 h2 ih =>
    have hw := Works.collapse hp hget h1 h2
    unfold collapseCmd at h2
    rcases hc : collapse json get conn name db p.fs with ⟨r, db1, fs⟩
    rw [hc] at h2
    simp only [Prod.mk.injEq] at h2
    exact hdone hw (Prod.ext h2.1 h2.2.2) hstate
  | @addBackend p p' get name hp hget h1 ih => exact hdone (.addBackend hp hget h1) h1 hstate
  | @removeBackend p p' get name hp hget h1 ih => exact hdone (.removeBackend hp hget h1) h1 hstate
  | @regenerate p p' get hp hget h1 ih => exact hdone (.regenerate hp hget h1) h1 hstate

/-- C76: once the migrations are embedded, the program has after every command that succeeds
exactly the migrations that are on disk. -/
theorem embedded_current_partial {p : Crate} (h : Works json p) (hstate : p.state = some true) :
    ∃ mem, p.program = some mem ∧ EmbedsDisk json p.fs mem := by
  obtain ⟨made, mem, g1, g2, g3⟩ := works_embedded h hstate
  obtain ⟨made', hi, _, hs⟩ := works_sql h
  have heq : made'.map (·.1) = made.map (·.1) := by
    have e1 := hi.inv.all
    rw [g1.all] at e1
    exact (Except.ok.inj e1).symm
  refine ⟨mem, g2, embeds_whole g1 (fun e he => ?_) g3⟩
  obtain ⟨x, hx, hxe⟩ := List.mem_map.1 (show e.1 ∈ made'.map (·.1) by
    rw [heq]; exact List.mem_map.2 ⟨e, he, rfl⟩)
  rw [← hxe]
  exact hs x hx

/-- C76: the command `embed` sets this up, whatever failed before: the program gets the
migrations with the SQL that can be used.  It needs only a directory `src`, and it changes no
other file. -/
theorem embed_command {p : Crate} (h : Reach json p.fs) (hsrc : p.src = true) :
    ∃ mem, Cli.embed json p = (.ok (), { p with program := some mem, state := some true }) ∧
      EmbedsUsable json p.fs mem := by
  obtain ⟨made, hi, _⟩ := h.inv
  obtain ⟨mem, h1, h2⟩ := embed_ok (json := json) hi.inv
  refine ⟨mem, ?_, embeds_of hi.inv h2⟩
  unfold Cli.embed
  rw [h1, hsrc]
  rfl

/-- A crate without embedded migrations is not given any by the other commands. -/
theorem not_embedded {p p' : Crate} {r r' : Except CliErr Unit} {fs : FsMigrations}
    (hstate : p.state ≠ some true) (h : finish json p r fs = (r', p')) :
    p' = { p with fs := fs } ∧ r' = r := by
  have he : p.embedded = false := by
    unfold Crate.embedded
    cases hs : p.state with
    | none => rfl
    | some b =>
      cases b with
      | false => rfl
      | true => exact absurd hs hstate
  unfold finish at h
  cases r with
  | error e => cases h; exact ⟨rfl, rfl⟩
  | ok u =>
    unfold updateEmbedded at h
    rw [show ({ p with fs := fs } : Crate).embedded = false from he] at h
    cases h
    exact ⟨rfl, rfl⟩

/-- C76 fails when a command fails: after a collapse that fails while the database forgets the
migrations, they are gone from the disk, but the program still has them all. -/
theorem embedded_stale_violated {p : Crate} (h : Works json p) (hstate : p.state = some true)
    {made : List (String × ADB)} (hm : HasMigrations json p.fs made) (name : String)
    (hlen : 2 ≤ made.length) {backends : List MigBackend} (hb : latestBackends get p.fs = .ok backends)
    {c : MigConn U} {db : MigDb U} {e : String × ADB} (he : e ∈ made) (hr : Recorded db e.1)
    (h01 : c.outcome 0 = .ok ∧ c.outcome 1 = .ok) (h2 : c.outcome 2 = .fail) :
    ∃ p', collapseCmd json get (.ok c) name db p = (.error (.lib .db), db, p') ∧ HasMigrations json p'.fs [] ∧
      ∃ mem, p'.program = some mem ∧ ∀ x ∈ made, ∃ m, mem.get x.1 = some m := by
  obtain ⟨s', h3, h4, _⟩ := cli_collapse_failure_violated (works_reach h) hm name hlen hb he hr h01 h2
  obtain ⟨mem, h5, made', h6, _, h7, _⟩ := embedded_current_partial h hstate
  refine ⟨{ p with fs := s' }, by unfold collapseCmd; rw [h3]; rfl, h4, mem, h5, fun x hx => (h7 x.1).2 ?_⟩
  have e1 := (reach_inv (works_reach h) hm).1.all
  have e2 := (reach_inv (works_reach h) h6).1.all
  rw [e1] at e2
  rw [← Except.ok.inj e2]
  exact List.mem_map.2 ⟨x, hx, rfl⟩

/-! ### A history -/

def exApp (fs : FsMigrations) (state : Option Bool) (program : Option MemMigrations) : Crate := ⟨fs, state, true, program⟩

theorem exApp_code {p : Crate} (ns : List String) (h : Works false p) : Works false { p with fs := exCode ns p.fs } := by
  refine .build h rfl fun n hn => ?_
  unfold exCode
  rw [lookup_write, if_neg hn]

theorem exApp_finish {fs fs' : FsMigrations} (h : Reach false fs') (program : Option MemMigrations) :
    ∃ mem, finish false (exApp fs (some true) program) (.ok ()) fs' = (.ok (), exApp fs' (some true) (some mem)) := by
  obtain ⟨mem, h1, _⟩ := embed_command (p := exApp fs' (some true) program) h rfl
  exact ⟨mem, h1⟩

theorem exCli4_reach : Reach false exCli4 := .addBackend exCli3_reach.2.2 exGet_name exAddQ

/-- `m1` is made and embedded, then `m2` and `m3` are made, and SQL for `q` is added. -/
theorem exApp_works : ∃ mem, Works false (exApp exCli4 (some true) (some mem)) := by
  have h1 : Works false (exApp exCli1 none none) := by
    refine .make (get := exGet) (spec := some (some (exSql "p"))) (name := "m1")
      (exApp_code ["A"] (.new true)) exGet_name rfl (by decide) (fun toDb h => ?_)
      (by unfold makeCmd; rw [show makeMigration _ _ _ _ _ = _ from exMake1]; rfl)
    cases (show FsMigrations.getDb false (exCode ["A"] ⟨[], none⟩) "current" = .ok (exDbOf ["A"]) from rfl).symm.trans h
    exact exDbOf_a
  obtain ⟨mem1, h2, _⟩ := embed_command (works_reach h1) rfl
  have h3 := Works.embed h1 h2
  obtain ⟨mem2, h4⟩ := exApp_finish (fs := exCode ["A", "B"] exCli1) exCli3_reach.2.1 (some mem1)
  have h5 : Works false (exApp exCli2 (some true) (some mem2)) := by
    refine .make (get := exGet) (spec := none) (name := "m2")
      (exApp_code ["A", "B"] h3) exGet_name rfl (by decide) (fun toDb h => ?_)
      (by unfold makeCmd; dsimp only [exApp]; rw [exMake2]; exact h4)
    cases (show FsMigrations.getDb false (exCode ["A", "B"] exCli1) "current" = .ok (exDbOf ["A", "B"]) from rfl).symm.trans h
    exact exDbOf_ab
  obtain ⟨mem3, h6⟩ := exApp_finish (fs := exCode ["B", "C"] exCli2) exCli3_reach.2.2 (some mem2)
  have h7 : Works false (exApp exCli3 (some true) (some mem3)) := by
    refine .make (get := exGet) (spec := none) (name := "m3")
      (exApp_code ["B", "C"] h5) exGet_name rfl (by decide) (fun toDb h => ?_)
      (by unfold makeCmd; dsimp only [exApp]; rw [exMake3]; exact h6)
    cases (show FsMigrations.getDb false (exCode ["B", "C"] exCli2) "current" = .ok (exDbOf ["B", "C"]) from rfl).symm.trans h
    exact exDbOf_bc
  obtain ⟨mem4, h8⟩ := exApp_finish (fs := exCli3) exCli4_reach (some mem3)
  exact ⟨mem4, .addBackend (get := exGet) (name := "q") h7 exGet_name
    (by unfold addBackendCmd; dsimp only [exApp]; rw [exAddQ]; exact h8)⟩

theorem exCli4_all : (Cli.chain exCli4).allMigrations (Cli.rounds exCli4) = .ok ["m1", "m2", "m3"] := rfl

/-- The program has `m2`, with SQL for `q`. -/
example : ∃ mem m, Works false (exApp exCli4 (some true) (some mem)) ∧ mem.get "m2" = some m ∧ m.from_ = some "m1" ∧
    m.up.lookup "q" = some "q+B\n" := by
  obtain ⟨mem, h1⟩ := exApp_works
  obtain ⟨_, g1, made, g2, g3, g4, g5⟩ := embedded_current_partial h1 rfl
  cases g1
  have e1 := (reach_inv exCli4_reach g2).1.all
  rw [exCli4_all] at e1
  obtain ⟨m, hm⟩ := (g4 "m2").2 (by rw [← Except.ok.inj e1]; simp)
  obtain ⟨k1, k2, k3, k4, k5⟩ := g5 "m2" m hm "q"
  exact ⟨mem, m, h1, hm, Except.ok.inj k2, Except.ok.inj k4⟩

/-- Embedding after `m3` was made. -/
example : ∃ mem, Cli.embed false (exApp exCli3 none none) = (.ok (), exApp exCli3 (some true) (some mem)) ∧
    EmbedsUsable false exCli3 mem := embed_command exCli3_reach.2.2 rfl
example : Usable exCli3 "m2" "p" "p+B\n" "p-B\n" := ⟨by decide, rfl, rfl⟩

/-- The collapse fails. -/
example : ∃ mem p', Works false (exApp exCli4 (some true) (some mem)) ∧
    collapseCmd false exGet (.ok exCliBad) "all" exCliDb (exApp exCli4 (some true) (some mem)) =
      (.error (.lib .db), exCliDb, p') ∧ HasMigrations false p'.fs [] ∧
    ∃ mem, p'.program = some mem ∧ ∃ m, mem.get "m2" = some m := by
  obtain ⟨mem, h1⟩ := exApp_works
  obtain ⟨made, hm, _⟩ := cli_history exCli4_reach
  have e1 := (reach_inv exCli4_reach hm).1.all
  rw [exCli4_all] at e1
  have e2 := Except.ok.inj e1
  obtain ⟨x, hx, hx2⟩ := List.mem_map.1 (show "m2" ∈ made.map (·.1) by rw [← e2]; simp)
  have hlen : 2 ≤ made.length := by
    have := congrArg List.length e2
    simp at this
    omega
  obtain ⟨p', g1, g2, mem', g3, g4⟩ := embedded_stale_violated (get := exGet) h1 rfl hm "all" hlen
    (backends := [exSql "p", exSql "q"]) rfl (c := exCliBad)
    (db := exCliDb) hx (by rw [hx2]; exact ⟨_, rfl, by decide⟩) ⟨rfl, rfl⟩ rfl
  obtain ⟨m, hm⟩ := g4 x hx
  exact ⟨mem, p', h1, g1, g2, mem', g3, m, by rw [← hx2]; exact hm⟩

end Butane.Props
