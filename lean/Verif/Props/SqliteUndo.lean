/-
C77: rows when migrations are undone.
-/
import Verif.Spec.SqliteUndo
import Verif.Props.SqliteMigrate

namespace Butane.Props
open Butane Butane.Spec Butane.Ddl Butane.DdlP

section General

variable {M U : Type} {ms : Migs M}

/-- What `unmigrate` undoes, newest first. -/
theorem unmigrate_cases {l : List M} (hl : IsPath ms l) (hcomp : Complete ms l) {fuel : Nat}
    (hf : l.length < fuel) {c : MigConn U} {Is : Option M → U → Prop} {k : Nat} {db db' : MigDb U}
    (hat : At ms Is l k db) {r : Except MErr Unit} (h : ms.unmigrate fuel c db = (r, db')) :
    ∃ a b, (l.take k).reverse = a ++ b ∧ Undone ms c.exec a db db' ∧ (r = .ok () → b = []) := by
  have hpre := at_pre hat
  unfold Migs.unmigrate at h
  rcases lastApplied_ok hl (List.take_append_drop k l).symm hat.others hpre hf c with hu | ⟨hu, _⟩
  · rw [hu] at h
    rcases hpre with h1 | ⟨x, p, h1, h2⟩
    · rw [h1] at h ⊢
      cases h
      exact ⟨[], [], rfl, .nil, fun _ => rfl⟩
    · rw [h1] at h
      simp only [List.getLast?_append, List.getLast?_singleton, Option.some_or] at h
      have hb : Back ms (some x) (x :: p.reverse) := by
        have := isPath_iff.1 hl
        rw [← List.take_append_drop k l, h1, List.reverse_append, List.reverse_append] at this
        exact this.suffix
      have hlen : p.length < fuel := by
        have := congrArg List.length h1
        simp only [List.length_take, List.length_append, List.length_singleton] at this
        omega
      have hc0 : ∀ y, (x :: p.reverse).getLast? = some y → ms.from_ y = .ok none := by
        intro y hy
        refine hcomp y ?_
        rw [show x :: p.reverse = (p ++ [x]).reverse by simp, List.getLast?_reverse] at hy
        rw [← List.take_append_drop k l, h1, List.head?_append, hy]
        rfl
      rw [h1, List.reverse_append]
      split at h
      · rename_i e d hd
        cases h
        rcases downgradeOne_cases hd with ⟨rfl, _⟩ | h3
        · exact ⟨[], _, rfl, .nil, fun h => by cases h⟩
        · exact ⟨[x], p.reverse, rfl, .cons h3 .nil, fun h => by cases h⟩
      · rename_i d hd
        rcases downgradeOne_cases hd with ⟨_, h3⟩ | h3
        · exact absurd rfl h3
        · obtain ⟨a, b, h4, h5, h6⟩ := undoLoop_cases hb hc0 (by simpa using hlen) h
          refine ⟨x :: a, b, ?_, .cons h3 h5, h6⟩
          simp [h4]
  · rw [hu] at h
    cases h
    exact ⟨[], _, rfl, .nil, fun h => by cases h⟩

/-- What the tool undoes without a name. -/
theorem unmigrateLatest_cases {l : List M} (hl : IsPath ms l) {fuel : Nat}
    (hf : l.length < fuel) {c : MigConn U} {Is : Option M → U → Prop} {k : Nat} {db db' : MigDb U}
    (hat : At ms Is l k db) {r : Except Cli.CliErr Unit} (h : Cli.unmigrateLatest ms fuel c db = (r, db')) :
    ∃ a b, (l.take k).reverse = a ++ b ∧ Undone ms c.exec a db db' := by
  unfold Cli.unmigrateLatest at h
  rcases at_lastApplied hl hf hat c with hu | ⟨hu, _⟩
  · rw [hu] at h
    rcases List.eq_nil_or_concat (l.take k) with hn | ⟨p, x, hn⟩
    · rw [hn] at h
      cases h
      exact ⟨[], _, rfl, .nil⟩
    · rw [List.concat_eq_append] at hn
      rw [hn] at h ⊢
      simp only [List.getLast?_append, List.getLast?_singleton, Option.some_or] at h
      split at h
      · rename_i e d hd
        cases h
        rcases downgradeOne_cases hd with ⟨rfl, _⟩ | h3
        · exact ⟨[], _, rfl, .nil⟩
        · exact ⟨[x], p.reverse, by simp, .cons h3 .nil⟩
      · rename_i d hd
        cases h
        rcases downgradeOne_cases hd with ⟨_, h3⟩ | h3
        · exact absurd rfl h3
        · exact ⟨[x], p.reverse, by simp, .cons h3 .nil⟩
  · rw [hu] at h
    cases h
    exact ⟨[], _, rfl, .nil⟩

/-- What the tool undoes with a name. -/
theorem unmigrateTo_cases (hk : Keyed ms) {l : List M} (hl : IsPath ms l) {fuel : Nat}
    (hf : l.length < fuel) {c : MigConn U} {Is : Option M → U → Prop} {k : Nat} {db db' : MigDb U}
    (hat : At ms Is l k db) {name : String} {r : Except Cli.CliErr Unit}
    (h : Cli.unmigrateTo ms fuel c name db = (r, db')) :
    ∃ a b, (l.take k).reverse = a ++ b ∧ Undone ms c.exec a db db' := by
  have hle := hat.le
  have hsame : ∀ e, Cli.unmigrateTo ms fuel c name db = (.error e, db) →
      ∃ a b, (l.take k).reverse = a ++ b ∧ Undone ms c.exec a db db' := by
    intro e he
    rw [he] at h
    cases h
    exact ⟨[], _, rfl, .nil⟩
  by_cases hin : ∃ m ∈ l, ms.name m = name
  · obtain ⟨m, hm, rfl⟩ := hin
    obtain ⟨t, ht, rfl⟩ := List.mem_iff_getElem.1 hm
    have htm : l[t]? = some l[t] := List.getElem?_eq_getElem ht
    by_cases hk0 : k = 0
    · obtain ⟨e, he, -⟩ := cli_unmigrate_impossible_partial hk hl hf c hat _ (.inr (.inr (.inl hk0)))
      exact hsame e he
    rcases Nat.lt_trichotomy (t + 1) k with hlt | heq | hgt
    · rcases unmigrateTo_eq hk hl hf (c := c) hat htm hlt with hu | ⟨hu, -⟩
      · rw [hu] at h
        obtain ⟨a, b, g1, g2, -⟩ := undoList_cases h
        have htk' : l.take k = l.take (t + 1) ++ (l.drop (t + 1)).take (k - 1 - t) := by
          rw [← List.take_add, show t + 1 + (k - 1 - t) = k by omega]
        exact ⟨a, b ++ (l.take (t + 1)).reverse, by rw [htk', List.reverse_append, g1, List.append_assoc], g2⟩
      · exact hsame _ hu
    · obtain ⟨e, he, -⟩ := cli_unmigrate_impossible_partial hk hl hf c hat _
        (.inr (.inr (.inr ⟨t, _, htm, rfl, .inl heq⟩)))
      exact hsame e he
    · by_cases hlast : t + 1 = l.length
      · obtain ⟨e, he, -⟩ := cli_unmigrate_impossible_partial hk hl hf c hat _
          (.inr (.inr (.inr ⟨t, _, htm, rfl, .inr hlast⟩)))
        exact hsame e he
      · rcases unmigrateTo_later hk hl hf c hat (Nat.pos_of_ne_zero hk0) htm (by omega) (by omega) with he | ⟨he, -⟩
        · exact hsame _ he
        · exact hsame _ he
  · obtain ⟨e, he, -⟩ := cli_unmigrate_impossible_partial hk hl hf c hat name
      (.inr (.inl (fun m hm hn => hin ⟨m, hm, hn⟩)))
    exact hsame e he

theorem undoList_undone {c : MigConn U} {a : List M} {db db' : MigDb U} (h : Undone ms c.exec a db db') (n : Nat) :
    Cli.undoList ms c.reliable n a db = (.ok (), db') := by
  induction h generalizing n with
  | nil => rfl
  | cons h1 _ ih =>
    rw [Cli.undoList, downgradeOne_reliable h1]
    exact ih _

theorem undoLoop_undone {c : MigConn U} {fuel n : Nat} {m : M} {b : List M}
    (hb : Back ms (some m) (m :: b)) (hc : ∀ x, (m :: b).getLast? = some x → ms.from_ x = .ok none)
    (hf : b.length < fuel) {db db' : MigDb U} (h : Undone ms c.exec b db db') :
    ms.undoLoop c.reliable fuel n m db = (.ok (), db') := by
  induction b generalizing fuel n m db with
  | nil =>
    cases fuel with
    | zero => simp at hf
    | succ fuel =>
      cases h
      rw [Migs.undoLoop, hc m rfl]
  | cons p b ih =>
    cases fuel with
    | zero => simp at hf
    | succ fuel =>
      cases hb with
      | cons hp hb =>
        have hh := hb.head
        cases hh
        rcases prev_ok_iff.1 hp with ⟨h1, _⟩ | ⟨q, name, h1, h2, h3⟩
        · cases h1
        · cases h1
          cases h with
          | cons g1 g2 =>
            rw [Migs.undoLoop, h2]
            simp only [h3]
            rw [downgradeOne_reliable g1]
            exact ih hb (fun x hx => hc x (by rw [List.getLast?_cons_cons]; exact hx)) (by simpa using hf) g2

end General

variable {json : Bool} {env : SqliteEnv} {kw res : String → Bool} {p : LitPrinters}

/-- Undoing a migration keeps the rows. -/
theorem LifeInv.effect_down (hk : CoversDdl kw res) (hf : TypesFree res) (laws : StrictLaws env) (codecs : TextCodecs)
    {s : FsMigrations} {db : MigDb SDb} {made : List (String × ADB)} {k : Nat} (h : LifeInv json env kw p s db made k)
    {a b : List (String × ADB)} {e : String × ADB} (hab : made = a ++ e :: b) {sql : String} {db0 db1 : MigDb SDb}
    (hsql : (s.toMigs "sqlite").down e.1 = .ok (some sql)) (hu : HasSchema env e.2 db0.user)
    (hx : sqliteExec env res sql db0 = .ok db1) : HasSchema env (before a) db1.user ∧
      ∃ old new, SameSchema old e.2 ∧ SameSchema new (before a) ∧ RowsKept env codecs old new db0.user db1.user := by
  have hsub : ∀ x ∈ a, x ∈ made := fun x hx => by rw [hab]; simp [hx]
  have hva := (before_valid fun x hx => h.schemas x (hsub x hx)).valid
  have hve := (h.schemas e (by rw [hab]; simp)).valid
  rcases h.sql a e b hab with ⟨h1, h2⟩ | ⟨old, new, first, up, down, s1, s2, t1, t2, hfirst, h1, h2, g1, g2⟩
  · rw [h2] at hsql
    cases hsql
  · rw [h2] at hsql
    cases hsql
    have hu' := hasSchema_same hve t2.src.valid (sameSchema_symm t2.src.valid hve s2) hu
    obtain ⟨q1, q2, -⟩ := sqlite_does hk hf laws codecs t2 (first := false) g2 hu' hx
    exact ⟨hasSchema_same t2.dst.valid hva s1 q1, new, old, s2, s1, q2⟩

theorem schemas_back (x : List (String × ADB)) (l : List (String × ADB)) :
    ∃ rest, (before x :: l.map (·.2)).reverse = before (x ++ l) :: rest := by
  rcases List.eq_nil_or_concat l with rfl | ⟨l0, y, rfl⟩
  · exact ⟨[], by simp⟩
  · rw [List.concat_eq_append]
    exact ⟨(before x :: l0.map (·.2)).reverse, by simp [before]⟩

theorem undone_rows (hk : CoversDdl kw res) (hf : TypesFree res) (laws : StrictLaws env) (codecs : TextCodecs)
    {s : FsMigrations} {db0 : MigDb SDb} {made : List (String × ADB)} {k : Nat} (hi : LifeInv json env kw p s db0 made k)
    {l a b : List (String × ADB)} (hab : made = a ++ l.reverse ++ b) {db db' : MigDb SDb}
    (hu : HasSchema env (before (a ++ l.reverse)) db.user)
    (hund : Undone (s.toMigs "sqlite") (sqliteExec env res) (l.map (·.1)) db db') :
    RowsThrough env codecs (before a :: l.reverse.map (·.2)).reverse db.user db'.user := by
  induction l generalizing b db with
  | nil =>
    cases hund
    exact .stay
  | cons e l ih =>
    have hab' : made = (a ++ l.reverse) ++ e :: b := by rw [hab]; simp
    cases hund with
    | cons h1 h2 =>
      obtain ⟨sql, db1, names, g1, g2, g3, rfl⟩ := h1
      have hb : before (a ++ (e :: l).reverse) = e.2 := by simp [before, ← List.append_assoc]
      rw [hb] at hu
      obtain ⟨q1, old, new, q4, q5, q6⟩ := hi.effect_down hk hf laws codecs hab' g1 hu g2
      have ih' := fun hu => ih (b := e :: b) (by rw [hab]; simp) hu h2
      have := ih' q1
      obtain ⟨rest, hrest⟩ := schemas_back a l.reverse
      rw [hrest] at this
      have he : (before a :: (e :: l).reverse.map (·.2)).reverse = e.2 :: before (a ++ l.reverse) :: rest := by
        rw [← hrest]
        simp
      rw [he]
      exact .step q4 q5 hu q1 q6 this

/-- C77: undoing migrations takes the database from the schema it has to that of an earlier one, one
migration after the other, and keeps the rows at each step; whatever fails, it stops at a migration. -/
theorem sqlite_undo_partial (hk : CoversDdl kw res) (hf : TypesFree res) (laws : StrictLaws env) (codecs : TextCodecs)
    {s : FsMigrations} {db db' : MigDb SDb} (h : SqliteLife json env kw res p s db) {made : List (String × ADB)}
    (hm : HasMigrations json s made) (hv : ∀ e ∈ made, ValidSchema e.2) (hr : Undoes env res s db db') :
    ∃ a l b, made = a ++ l ++ b ∧ (∀ e ∈ a ++ l, Recorded db e.1) ∧ (∀ e ∈ b, ¬ Recorded db e.1) ∧
      (∀ e ∈ a, Recorded db' e.1) ∧ (∀ e ∈ l ++ b, ¬ Recorded db' e.1) ∧
      RowsThrough env codecs (before a :: l.map (·.2)).reverse db.user db'.user ∧
      HasSchema env (before a) db'.user := by
  obtain ⟨_, k, hi⟩ := life_inv hk hf laws codecs h
  have hi := hi.change hm hv
  have hat := hi.at
  have hkey := fs_keyed "sqlite" s
  have hpath := (hi.fs.path "sqlite").1
  have hlen : (made.map (·.1)).length < Cli.rounds s := by rw [List.length_map]; exact hi.fs.lt_rounds
  have key : ∃ x y, ((made.map (·.1)).take k).reverse = x ++ y ∧
      Undone (s.toMigs "sqlite") (sqliteExec env res) x db db' := by
    cases hr with
    | program hc hr =>
      obtain ⟨x, y, h1, h2, -⟩ := unmigrate_cases hpath (hi.fs.path "sqlite").2 hlen hat hr
      exact ⟨x, y, h1, hc ▸ h2⟩
    | tool hc hr =>
      obtain ⟨x, y, h1, h2⟩ := unmigrateTo_cases hkey hpath hlen hat hr
      exact ⟨x, y, h1, hc ▸ h2⟩
    | latest hc hr =>
      obtain ⟨x, y, h1, h2⟩ := unmigrateLatest_cases hpath hlen hat hr
      exact ⟨x, y, h1, hc ▸ h2⟩
  obtain ⟨x, y, hxy, hund⟩ := key
  have hat' := undone_at hkey hpath (hi.keeps hk hf) (hi.correct hk hf laws codecs) hat hxy hund
  obtain ⟨j1, j2, j3, j4⟩ := (at_iff hi.fs.nodup).1 hat'
  rw [← List.map_take, ← List.map_reverse, List.map_eq_append_iff] at hxy
  obtain ⟨l, y', hd, rfl, rfl⟩ := hxy
  have htk : made.take k = y'.reverse ++ l.reverse := by
    rw [← List.reverse_append, ← hd, List.reverse_reverse]
  have hmade : made = y'.reverse ++ l.reverse ++ made.drop k := by rw [← htk, List.take_append_drop]
  have htake : made.take y'.length = y'.reverse := by
    conv => lhs; rw [hmade, List.append_assoc]
    rw [List.take_append_of_le_length (by simp), List.take_of_length_le (by simp)]
  have hdrop : made.drop y'.length = l.reverse ++ made.drop k := by
    have := List.take_append_drop y'.length made
    rw [htake] at this
    conv at this => rhs; rw [hmade, List.append_assoc]
    exact List.append_cancel_left this
  rw [List.length_map] at j2 j3 j4
  rw [htake] at j2 j4
  rw [hdrop] at j3
  refine ⟨y'.reverse, l.reverse, made.drop k, hmade, ?_, hi.others, j2, j3, ?_, j4⟩
  · rw [← htk]
    exact hi.recorded
  · exact undone_rows hk hf laws codecs hi hmade (by rw [← htk]; exact hi.user) hund

/-- C77: undoing migrations succeeds, on a connection that does not fail, if the files have SQL for it and each
step is one that SQLite can do: all of them for the program, those after the named one or the last one for the
tool. -/
theorem sqlite_undo_succeeds_partial (hk : CoversDdl kw res) (hf : TypesFree res) (laws : StrictLaws env)
    (codecs : TextCodecs) {s : FsMigrations} {db : MigDb SDb} (h : SqliteLife json env kw res p s db)
    {a l b : List (String × ADB)} (hm : HasMigrations json s (a ++ l ++ b)) (hv : ∀ e ∈ a ++ l ++ b, ValidSchema e.2)
    (hrec : ∀ e ∈ a ++ l, Recorded db e.1) (hnot : ∀ e ∈ b, ¬ Recorded db e.1) (hne : l ≠ []) {c : MigConn SDb}
    (hc : c.exec = sqliteExec env res)
    (hrun : ∀ x e y, l = x ++ e :: y → (s.toMigs "sqlite").down e.1 ≠ .ok none ∧
      ∀ u, HasSchema env e.2 u → (NoRows db.user → NoRows u) → Feasible e.2 (before (a ++ x)) u) :
    ∃ db', (∀ e ∈ a, Recorded db' e.1) ∧ (∀ e ∈ l ++ b, ¬ Recorded db' e.1) ∧ HasSchema env (before a) db'.user ∧
      RowsThrough env codecs (before a :: l.map (·.2)).reverse db.user db'.user ∧
      (a = [] → (s.toMigs "sqlite").unmigrate (Cli.rounds s) c.reliable db = (.ok (), db')) ∧
      (∀ m, a.getLast? = some m → Cli.unmigrateTo (s.toMigs "sqlite") (Cli.rounds s) c.reliable m.1 db = (.ok (), db')) ∧
      (∀ e, l = [e] → Cli.unmigrateLatest (s.toMigs "sqlite") (Cli.rounds s) c.reliable db = (.ok (), db')) := by
  obtain ⟨_, k, hi⟩ := life_inv hk hf laws codecs h
  have hi := hi.change hm hv
  have hat := hi.at
  have hkey := fs_keyed "sqlite" s
  have hpath := (hi.fs.path "sqlite").1
  have hcomp := (hi.fs.path "sqlite").2
  have hlen : ((a ++ l ++ b).map (·.1)).length < Cli.rounds s := by rw [List.length_map]; exact hi.fs.lt_rounds
  have hkeep := hi.keeps hk hf
  have hcor := hi.correct hk hf laws codecs
  have hkeq : k = (a ++ l).length := by
    rcases Nat.lt_trichotomy k (a ++ l).length with hlt | heq | hgt
    · exfalso
      have : (a ++ l)[k] ∈ (a ++ l ++ b).drop k := by
        rw [List.drop_append_of_le_length (Nat.le_of_lt hlt), List.drop_eq_getElem_cons hlt]
        exact List.mem_append_left _ (List.mem_cons_self ..)
      exact hi.others _ this (hrec _ (List.getElem_mem hlt))
    · exact heq
    · exfalso
      have hkl : k ≤ (a ++ l ++ b).length := by
        have := hat.le
        rwa [List.length_map] at this
      have hlt : (a ++ l).length < (a ++ l ++ b).length := by omega
      have hmem : (a ++ l ++ b)[(a ++ l).length] ∈ (a ++ l ++ b).take k := by
        rw [List.mem_take_iff_getElem]
        exact ⟨_, by omega, rfl⟩
      refine hnot _ ?_ (hi.recorded _ hmem)
      rw [List.getElem_append_right (Nat.le_refl _)]
      exact List.getElem_mem _
  have htk : (a ++ l ++ b).take k = a ++ l := by
    rw [hkeq, List.take_append_of_le_length (Nat.le_refl _), List.take_length]
  have hu0 := hi.user
  rw [htk] at hu0
  have key : ∀ (r x y : List (String × ADB)) (d : MigDb SDb), l = x ++ y → r = x.reverse →
      HasSchema env (before (a ++ x)) d.user → (NoRows db.user → NoRows d.user) → (∀ e ∈ x, Recorded d e.1) →
      ∃ d', Undone (s.toMigs "sqlite") (sqliteExec env res) (r.map (·.1)) d d' := by
    intro r
    induction r with
    | nil => exact fun x y d _ _ _ _ _ => ⟨d, .nil⟩
    | cons e r ih =>
      intro x y d hl hx hu hrows hrec'
      obtain rfl : x = r.reverse ++ [e] := by
        have := congrArg List.reverse hx
        simpa using this.symm
      have hl' : l = r.reverse ++ e :: y := by rw [hl]; simp
      obtain ⟨hd, hfe⟩ := hrun _ e _ hl'
      have he : a ++ l ++ b = (a ++ r.reverse) ++ e :: (y ++ b) := by rw [hl']; simp
      have hu' : HasSchema env e.2 d.user := by
        have : before (a ++ (r.reverse ++ [e])) = e.2 := by simp [before, ← List.append_assoc]
        rwa [this] at hu
      rcases hi.sql _ e _ he with ⟨-, h2⟩ | ⟨old, new, first, up, down, s1, s2, t1, t2, hfirst, r1, r2, -, r4⟩
      · exact absurd h2 hd
      · have q1 := before_isValid (made := a ++ r.reverse) fun z hz => hv z (by rw [he]; exact List.mem_append_left _ hz)
        have q2 := hv e (by rw [he]; simp)
        have hu2 := hasSchema_same q2 t2.src.valid (sameSchema_symm t2.src.valid q2 s2) hu'
        obtain ⟨text, d1, k1, k2⟩ := sqlite_runs (kw := kw) (res := res) hk hf laws codecs t2 false hu2
          (feasible_same q2 t2.src.valid q1 t1.src.valid (sameSchema_symm t2.src.valid q2 s2)
            (sameSchema_symm t1.src.valid q1 s1) (hfe _ hu' hrows))
        have k1 : SqliteDdl.migrationSql kw p new (diff new old) = .ok text := k1
        rw [r4] at k1
        cases k1
        rw [String.ofList_toList] at k2
        have hm' : e.1 ∈ (a ++ l ++ b).map (·.1) := by rw [he]; simp
        obtain ⟨names, hn, -⟩ := (hkeep e.1 hm' down (.inr r2) d d1 k2 e.1).2 (hrec' e (by simp))
        have hone : UndoneOne (s.toMigs "sqlite") (sqliteExec env res) e.1 d
            ⟨d1.user, some (names.filter (· ≠ (s.toMigs "sqlite").name e.1))⟩ := ⟨down, d1, names, r2, k2, hn, rfl⟩
        obtain ⟨w1, -⟩ := hi.effect_down hk hf laws codecs he r2 hu' k2
        obtain ⟨-, -, w2, -⟩ := sqlite_does hk hf laws codecs t2 (first := false) r4 hu2 k2
        obtain ⟨d', hd'⟩ := ih r.reverse (e :: y) ⟨d1.user, some (names.filter (· ≠ (s.toMigs "sqlite").name e.1))⟩ hl' (by simp) w1 (fun hr => execAll_noRows (hrows hr) w2) (by
          intro z hz
          rw [undoneOne_recorded hkeep hm' hone]
          refine ⟨hrec' z (by simp [hz]), ?_⟩
          intro heq
          have hnd := hi.fs.nodup
          rw [he, List.map_append, List.map_cons, List.nodup_append] at hnd
          exact hnd.2.2 _ (List.mem_map_of_mem (f := (·.1)) (List.mem_append_right _ hz)) _ (List.mem_cons_self ..) heq)
        exact ⟨d', .cons hone hd'⟩
  obtain ⟨db', hund⟩ := key l.reverse l [] db (by simp) rfl hu0 (fun h => h)
    (fun e he => hrec e (List.mem_append_right _ he))
  have hxy : (((a ++ l ++ b).map (·.1)).take k).reverse = l.reverse.map (·.1) ++ a.reverse.map (·.1) := by
    rw [← List.map_take, htk]
    simp
  have hat' := undone_at hkey hpath hkeep hcor hat hxy hund
  obtain ⟨j1, j2, j3, j4⟩ := (at_iff hi.fs.nodup).1 hat'
  rw [List.length_map, List.length_reverse] at j2 j3 j4
  rw [List.append_assoc, List.take_append_of_le_length (Nat.le_refl _), List.take_length] at j2 j4
  rw [List.append_assoc, List.drop_append_of_le_length (Nat.le_refl _), List.drop_length, List.nil_append] at j3
  have hlast : (s.toMigs "sqlite").lastApplied (Cli.rounds s) c.reliable db = .ok ((a ++ l).map (·.1)).getLast? := by
    rcases at_lastApplied hpath hlen hat c.reliable with hu | ⟨-, n, hn⟩
    · rw [hu, ← List.map_take, htk]
    · exact absurd rfl hn
  refine ⟨db', j2, j3, j4, ?_, ?_, ?_, ?_⟩
  · have := undone_rows hk hf laws codecs hi (l := l.reverse) (a := a) (b := b) (by simp) (by simpa using hu0) hund
    simpa using this
  · rintro rfl
    obtain ⟨l0, x, rfl⟩ : ∃ l0 x, l = l0 ++ [x] := by
      rcases List.eq_nil_or_concat l with rfl | ⟨l0, x, rfl⟩
      · exact absurd rfl hne
      · exact ⟨l0, x, List.concat_eq_append⟩
    rw [List.reverse_append, List.map_append] at hund
    cases hund with
    | cons g1 g2 =>
      rw [Migs.unmigrate, hlast, List.map_append]
      simp only [List.nil_append, List.map_append, List.map_cons, List.map_nil, List.getLast?_append,
        List.getLast?_singleton, Option.some_or]
      rw [downgradeOne_reliable (hc ▸ g1)]
      have hb : Back (s.toMigs "sqlite") (some x.1) (x.1 :: (l0.reverse.map (·.1))) := by
        have := isPath_iff.1 hpath
        rw [List.map_append, List.reverse_append, List.nil_append, List.map_append, List.reverse_append] at this
        have := Back.suffix this
        rwa [← List.map_reverse] at this
      refine undoLoop_undone hb ?_ ?_ (hc ▸ g2)
      · intro y hy
        refine hcomp y ?_
        rw [show x.1 :: l0.reverse.map (·.1) = ((l0 ++ [x]).map (·.1)).reverse by simp, List.getLast?_reverse] at hy
        rw [List.nil_append, List.map_append, List.head?_append, hy]
        rfl
      · simp only [List.nil_append, List.map_append, List.length_append, List.length_map] at hlen
        rw [List.length_map, List.length_reverse]
        omega
  · intro m hlm
    obtain ⟨a0, rfl⟩ := List.getLast?_eq_some_iff.1 hlm
    have ht : ((a0 ++ [m] ++ l ++ b).map (·.1))[a0.length]? = some m.1 := by simp
    have hlt : a0.length + 1 < k := by
      rw [hkeq]
      have := List.length_pos_iff.2 hne
      simp only [List.length_append, List.length_singleton]
      omega
    rcases unmigrateTo_eq hkey hpath hlen (c := c.reliable) hat ht hlt with hu | ⟨-, n, hn⟩
    · have hx : (((a0 ++ [m] ++ l ++ b).map (·.1)).drop (a0.length + 1)).take (k - 1 - a0.length) = l.map (·.1) := by
        rw [← List.map_drop, ← List.map_take, List.append_assoc, List.drop_append_of_le_length (by simp),
          List.drop_of_length_le (by simp), List.nil_append, List.take_append_of_le_length, List.take_of_length_le]
        · rw [hkeq]; simp only [List.length_append, List.length_singleton]; omega
        · rw [hkeq]; simp only [List.length_append, List.length_singleton]; omega
      rw [hx, ← List.map_reverse] at hu
      exact hu.trans (undoList_undone (hc ▸ hund) 2)
    · exact absurd rfl hn
  · rintro e rfl
    cases hund with
    | cons g1 g2 =>
      cases g2
      rw [Cli.unmigrateLatest, hlast]
      simp only [List.map_append, List.map_cons, List.map_nil, List.getLast?_append,
        List.getLast?_singleton, Option.some_or]
      rw [downgradeOne_reliable (hc ▸ g1)]

theorem undoes_life {s : FsMigrations} {db db' : MigDb SDb} (h : SqliteLife json env kw res p s db)
    (hr : Undoes env res s db db') : SqliteLife json env kw res p s db' := by
  cases hr with
  | program hc hr => exact .unmigrate h hc hr
  | tool hc hr => exact .unmigrateTo h hc hr
  | latest hc hr => exact .unmigrateLatest h hc hr

set_option maxRecDepth 20000 in
theorem exSqUndo : Cli.unmigrateLatest (exSq2.toMigs "sqlite") (Cli.rounds exSq2) exSqConn exSqAfter =
    (.ok (), exSqRows) := rfl

theorem exSqAfter_life : ExLife exSq2 exSqAfter := .migrate exSqRows_life2 (c := exSqConn) rfl exSqMigrate2

/-- The column that the second migration added is removed; the row stays. -/
example : Undoes exStore exDdlRes exSq2 exSqAfter exSqRows ∧
    RowsThrough exStore exCodecs [exSqDb exPost2, exSqDb exPost1] exSqAfter.user exSqRows.user ∧
    HasSchema exStore (exSqDb exPost1) exSqRows.user := by
  have hu : Undoes exStore exDdlRes exSq2 exSqAfter exSqRows := .latest (c := exSqConn) rfl exSqUndo
  refine ⟨hu, ?_⟩
  obtain ⟨a, l, b, g1, -, g3, g4, g5, g6, g7⟩ := sqlite_undo_partial exDdl_covers exDdl_free exStore_laws exCodecs
    exSqAfter_life (exSq_has (.inl ⟨rfl, rfl⟩)) (exSq_valid (.inl rfl)) hu
  have m1 : Recorded exSqRows "m1" := ⟨["m1"], rfl, by simp⟩
  have m2 : Recorded exSqAfter "m2" := ⟨["m1", "m2"], rfl, by simp⟩
  have n2 : ¬ Recorded exSqRows "m2" := by
    rintro ⟨names, hn, hm⟩
    cases hn
    simp at hm
  match a, l, b, g1 with
  | [], l, b, g1 =>
    exact absurd m1 (g5 ("m1", exSqDb exPost1) (by rw [List.nil_append] at g1; rw [← g1]; simp))
  | [x], [], b, g1 =>
    cases g1
    exact absurd m2 (g3 ("m2", exSqDb exPost2) (by simp))
  | [x], [y], b, g1 =>
    cases g1
    exact ⟨g6, g7⟩
  | [x], y :: z :: l, b, g1 => simp at g1
  | x :: y :: a, l, b, g1 =>
    simp only [List.cons_append, List.cons.injEq] at g1
    exact absurd (g4 y (by simp)) (g1.2.1 ▸ n2)

theorem exPost_back (u : SDb) : Feasible (exSqDb exPost2) (exSqDb exPost1) u := by
  constructor
  · intro n t h1 h2
    obtain ⟨rfl, rfl⟩ := exPost_table rfl h2
    cases h1
  · intro n t h1 h2
    obtain ⟨rfl, rfl⟩ := exPost_table rfl h1
    cases h2
  · intro n s t c y hs ht hc hy
    obtain ⟨-, rfl⟩ := exPost_table rfl hs
    obtain ⟨-, rfl⟩ := exPost_table rfl ht
    obtain ⟨hm, rfl⟩ := colByName_some hy
    simp only [exPost1, List.mem_cons, List.not_mem_nil, or_false] at hm
    rcases hm with rfl | rfl <;> cases hc
  · intro n s t c x hs ht hx hc
    obtain ⟨-, rfl⟩ := exPost_table rfl hs
    obtain ⟨-, rfl⟩ := exPost_table rfl ht
    obtain ⟨hm, rfl⟩ := colByName_some hx
    simp only [exPost2, List.mem_cons, List.not_mem_nil, or_false] at hm
    rcases hm with rfl | rfl | rfl
    · cases hc
    · cases hc
    · exact ⟨rfl, rfl, rfl, "id", _, _, rfl, rfl⟩
  · intro n s t c x y hs ht hx hy
    obtain ⟨-, rfl⟩ := exPost_table rfl hs
    obtain ⟨-, rfl⟩ := exPost_table rfl ht
    obtain ⟨hm, rfl⟩ := colByName_some hx
    simp only [exPost2, List.mem_cons, List.not_mem_nil, or_false] at hm
    left
    rcases hm with rfl | rfl | rfl <;> cases hy <;> exact ⟨SameColumn.refl _, fun r hr => by cases hr⟩

/-- Undoing the second migration succeeds, without a name or with that of the first. -/
example : ∃ db', HasSchema exStore (exSqDb exPost1) db'.user ∧ ¬ Recorded db' "m2" ∧
    Cli.unmigrateLatest (exSq2.toMigs "sqlite") (Cli.rounds exSq2) exSqConn exSqAfter = (.ok (), db') ∧
    Cli.unmigrateTo (exSq2.toMigs "sqlite") (Cli.rounds exSq2) exSqConn "m1" exSqAfter = (.ok (), db') := by
  obtain ⟨db', -, h2, h3, -, -, h6, h7⟩ := sqlite_undo_succeeds_partial exDdl_covers exDdl_free exStore_laws exCodecs
    exSqAfter_life (a := [("m1", exSqDb exPost1)]) (l := [("m2", exSqDb exPost2)]) (b := [])
    (exSq_has (.inl ⟨rfl, rfl⟩)) (exSq_valid (.inl rfl)) (fun e he => by
      simp only [List.cons_append, List.nil_append, List.mem_cons, List.not_mem_nil, or_false] at he
      rcases he with rfl | rfl <;> exact ⟨["m1", "m2"], rfl, by simp⟩) (fun e he => by cases he)
    (by simp) (c := exSqConn) rfl (fun x e y hxy => by
      match x, hxy with
      | [], hxy => cases hxy; exact ⟨(fun h => by cases h), fun u _ _ => exPost_back u⟩
      | _ :: _, hxy => simp at hxy)
  exact ⟨db', h3, h2 ("m2", exSqDb exPost2) (by simp), h7 _ rfl, h6 _ rfl⟩

end Butane.Props
