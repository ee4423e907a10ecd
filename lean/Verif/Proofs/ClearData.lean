/-
Deleting all rows of tables, one after the other.
-/
import Verif.Model.CliData
import Verif.Spec.ClearData
import Verif.Proofs.ObjMany

namespace Butane
open Butane.Ddl Butane.DdlP Spec
open Butane.Sql

variable {k : SqliteConn} {u u' : SDb}

theorem exec_all (hk : CoversReserved k.kw k.reserved) {n : String} (hn : IsName n) {t : STable}
    (hlk : u.lookup n = some t) :
    k.exec u (Backend.sqlite.deleteWhere k.kw n .true_) =
      match replaceRows u n t [] with | some u' => .ok u' | none => .error .db := by
  have hpar : (Backend.sqlite.deleteWhere k.kw n .true_).params = [] := by
    have : (Backend.sqlite.deleteWhere k.kw n .true_).params = valsBool .true_ := renderBool_vals (sqliteDialect k.kw) .true_ 0
    rw [this]
    rfl
  unfold SqliteConn.exec
  rw [hpar]
  simp only [bindAll, Conv.orErr]
  unfold execDataText
  rw [lex_where hk hn (by simp [NamesOK]) (by simp [NeedsNoParens])]
  simp only [execData, hlk]
  have hholds : ∀ r, holdsFor k.data u [] n t.cols (.any (disjs .true_ 0)) r = some true := by
    intro r
    unfold holdsFor
    have := evalDisjs (rel := k.data.rel) (db := seenDb u) .true_ (by simp [NeedsNoParens] : NeedsNoParens true .or .true_)
      0 n (seenRow t.cols r) [] [] (by simp [Scoped]) (seg_all _)
    simp only [valsBool, List.map_nil] at this
    rw [List.map_nil, this]
    simp [boolValue]
  have hrows : ∀ l : List (List SqliteVal), ∃ rows,
      allSome (fun r => (holdsFor k.data u [] n t.cols (.any (disjs .true_ 0)) r).map
        fun b => if b then none else some r) l = some rows ∧ rows.filterMap id = [] := by
    intro l
    induction l with
    | nil => exact ⟨[], rfl, rfl⟩
    | cons r l ih =>
      obtain ⟨rows, g1, g2⟩ := ih
      simp only [allSome, g1, hholds r]
      exact ⟨_, rfl, by simp [g2]⟩
  obtain ⟨rows, g1, g2⟩ := hrows t.rows
  rw [g1]
  simp only [g2]
  cases replaceRows u n t [] <;> rfl

theorem refOk_of {db : SDb} {cols : List ColDef} {r : List SqliteVal} {fk : RefCon} (h : refOk db cols r fk = true) :
    field cols r fk.col = some .null ∨ ∃ v p, field cols r fk.col = some v ∧ v ≠ .null ∧ db.lookup fk.table = some p ∧
      hasKey p fk.refCol v = true := by
  unfold refOk at h
  cases hf : field cols r fk.col with
  | none => rw [hf] at h; cases h
  | some v =>
    rw [hf] at h
    by_cases hv : v = .null
    · exact .inl (by rw [hv])
    · right
      refine ⟨v, ?_⟩
      cases v <;> first | exact absurd rfl hv | (
        simp only at h
        cases hl : db.lookup fk.table with
        | none => rw [hl] at h; cases h
        | some p => rw [hl] at h; exact ⟨p, rfl, hv, rfl, h⟩)

theorem refOk_val {db : SDb} {cols : List ColDef} {r : List SqliteVal} {fk : RefCon} {v : SqliteVal}
    (hf : field cols r fk.col = some v) (hv : v ≠ .null) :
    refOk db cols r fk = match db.lookup fk.table with | some p => hasKey p fk.refCol v | none => false := by
  unfold refOk
  rw [hf]
  cases v <;> first | exact absurd rfl hv | rfl

/-- All rows of a table can be deleted if no row of another table refers to one. -/
theorem replace_all (hs : u.Sorted) {n : String} {t : STable} (hlk : u.lookup n = some t) :
    (∃ u', replaceRows u n t [] = some u') ↔ ∀ b, b ≠ n → ¬ RowRefers u b n := by
  constructor
  · rintro ⟨u', h⟩ b hb ⟨tb, p, h1, h2, fk, hfk, rfl, r, hr, v, hv, hne, hkey⟩
    unfold replaceRows at h
    split at h
    · next hc =>
      rw [Bool.and_eq_true, List.all_eq_true] at hc
      have hmem : (b, tb) ∈ u.insert fk.table { t with rows := [] } :=
        SMap.mem_of_lookup (by rw [SMap.lookup_insert, if_neg hb]; exact h1)
      have := hc.2 _ hmem
      rw [List.all_eq_true] at this
      have := this fk hfk
      rw [List.all_eq_true] at this
      have := this r hr
      rw [Bool.or_eq_true] at this
      rcases this with h3 | h3
      · rw [refOk_val hv hne, SMap.lookup_insert, if_pos rfl] at h3
        simp [hasKey] at h3
      · simp only [h1] at h3
        rw [Bool.and_eq_true] at h3
        rw [refOk_val hv hne, h2] at h3
        simp [hkey] at h3
    · cases h
  · intro h
    unfold replaceRows
    rw [if_pos]
    · exact ⟨_, rfl⟩
    rw [Bool.and_eq_true, List.all_eq_true]
    refine ⟨by simp [uniqueOk], ?_⟩
    rintro ⟨b, tb⟩ hb
    have hl := SMap.lookup_of_mem (SMap.sorted_insert hs _ _) hb
    rw [SMap.lookup_insert] at hl
    rw [List.all_eq_true]
    intro fk hfk
    rw [List.all_eq_true]
    intro r hr
    by_cases hbn : b = n
    · rw [if_pos hbn] at hl
      cases hl
      cases hr
    · rw [if_neg hbn] at hl
      rw [Bool.or_eq_true]
      by_cases hok : refOk u tb.cols r fk = true
      · left
        rcases refOk_of hok with hnull | ⟨v, p, hv, hne, hp, hkey⟩
        · unfold refOk
          simp only [hnull]
        · rw [refOk_val hv hne, SMap.lookup_insert]
          by_cases hfn : fk.table = n
          · exact absurd ⟨tb, p, hl, hfn ▸ hp, fk, hfk, hfn, r, hr, v, hv, hne, hkey⟩ (h b hbn)
          · rw [if_neg hfn, hp]
            exact hkey
      · right
        simp only [hl]
        rw [Bool.and_eq_true]
        exact ⟨by simpa using hr, by simpa using hok⟩

theorem rows_deleted_sorted {n : String} {t : STable} (hs : u.Sorted) (h : replaceRows u n t [] = some u') : u'.Sorted := by
  rw [(replaceRows_eq h).1]
  exact SMap.sorted_insert hs _ _

/-- What is deleted is what was announced. -/
theorem clearLoop_deleted (hk : CoversReserved k.kw k.reserved) {fails : String → Bool} :
    ∀ {names : List String} {u u' : SDb} {shown r}, (∀ n ∈ names, IsName n ∧ ∃ t, u.lookup n = some t) →
      Cli.clearLoop k fails names u = (shown, r, u') →
      RowsDeleted (cleared shown r) u u' ∧ (r = .ok () → shown = names) ∧ (r ≠ .ok () → shown ≠ []) ∧ ∃ rest, names = shown ++ rest
  | [], u, u', shown, r, _, h => by
    cases h
    exact ⟨fun n => by simp [cleared], fun _ => rfl, (fun h => absurd rfl h), [], rfl⟩
  | n :: rest, u, u', shown, r, hn, h => by
    have hfail : ([n], Except.error (Cli.CliErr.lib .db), u) = (shown, r, u') → RowsDeleted (cleared shown r) u u' ∧
        (r = .ok () → shown = n :: rest) ∧ (r ≠ .ok () → shown ≠ []) ∧ ∃ l, n :: rest = shown ++ l := by
      intro h
      cases h
      exact ⟨(fun n => by simp [cleared]), (fun h => by cases h), (fun _ h => by cases h), rest, rfl⟩
    obtain ⟨hname, t, hlk⟩ := hn n (List.mem_cons_self ..)
    simp only [Cli.clearLoop] at h
    split at h
    · exact hfail h
    rw [exec_all hk hname hlk] at h
    cases hr : replaceRows u n t [] with
    | none => rw [hr] at h; exact hfail h
    | some u1 =>
      rw [hr] at h
      simp only at h
      have hu1 := (replaceRows_eq hr).1
      have hl1 : ∀ m, u1.lookup m = if m = n then some { t with rows := [] } else u.lookup m := by
        intro m
        rw [hu1, SMap.lookup_insert]
      obtain ⟨sh, r1, u2, hx⟩ : ∃ sh r1 u2, Cli.clearLoop k fails rest u1 = (sh, r1, u2) := ⟨_, _, _, rfl⟩
      rw [hx] at h
      obtain ⟨h1, h2, h3, l, h4⟩ := clearLoop_deleted hk (names := rest) (u := u1) (fails := fails) (fun m hm => by
        obtain ⟨q1, t', q2⟩ := hn m (List.mem_cons_of_mem _ hm)
        refine ⟨q1, ?_⟩
        rw [hl1]
        split
        · exact ⟨_, rfl⟩
        · exact ⟨t', q2⟩) hx
      obtain ⟨rfl, rfl, rfl⟩ : shown = n :: sh ∧ r = r1 ∧ u' = u2 := by
        simp only [Prod.mk.injEq] at h
        exact ⟨h.1.symm, h.2.1.symm, h.2.2.symm⟩
      refine ⟨?_, (fun h => by rw [← h2 h]), (fun _ h => by cases h), l, by rw [h4]; rfl⟩
      intro m
      rw [h1 m, hl1]
      have hmem : m ∈ cleared (n :: sh) r ↔ m = n ∨ m ∈ cleared sh r := by
        cases r with
        | ok _ => simp [cleared]
        | error e =>
          simp only [cleared]
          rw [List.dropLast_cons_of_ne_nil (h3 (fun h => by cases h)), List.mem_cons]
      by_cases hmn : m = n
      · subst hmn
        rw [if_pos (hmem.2 (.inl rfl)), if_pos rfl, hlk]
        simp
      · rw [if_neg hmn]
        simp only [hmem, hmn, false_or]

/-- A row that refers to another one still does when other tables are emptied. -/
theorem rowRefers_insert {n : String} {t : STable} {a b : String} (ha : a ≠ n) (hb : b ≠ n) :
    RowRefers (u.insert n { t with rows := [] }) b a ↔ RowRefers u b a := by
  unfold RowRefers
  simp only [SMap.lookup_insert, if_neg ha, if_neg hb]

theorem rowRefers_empty {n : String} {t : STable} {a b : String}
    (h : RowRefers (u.insert n { t with rows := [] }) b a) : b ≠ n ∧ a ≠ n ∧ RowRefers u b a := by
  have hb : b ≠ n := by
    rintro rfl
    obtain ⟨t1, p, h1, h2, fk, hfk, _, r, hr, -⟩ := h
    rw [SMap.lookup_insert, if_pos rfl] at h1
    cases h1
    cases hr
  have ha : a ≠ n := by
    rintro rfl
    obtain ⟨t1, p, h1, h2, fk, hfk, _, r, hr, v, _, _, hkey⟩ := h
    rw [SMap.lookup_insert, if_pos rfl] at h2
    cases h2
    simp [hasKey] at hkey
  exact ⟨hb, ha, (rowRefers_insert ha hb).1 h⟩

/-- The loop gets to the end if, and only if, no row refers to one of a table that comes earlier. -/
theorem clearLoop_ok (hk : CoversReserved k.kw k.reserved) : ∀ {names : List String} {u : SDb}, u.Sorted →
    (∀ n ∈ names, IsName n ∧ ∃ t, u.lookup n = some t) → names.Nodup →
    ((∃ shown u', Cli.clearLoop k (fun _ => false) names u = (shown, .ok (), u')) ↔
      ∀ pre a post, names = pre ++ a :: post → ∀ b, b ∉ pre → b ≠ a → ¬ RowRefers u b a)
  | [], u, _, _, _ => by
    constructor
    · intro _ pre a post h
      simp at h
    · intro _
      exact ⟨_, _, rfl⟩
  | n :: rest, u, hs, hn, hnd => by
    obtain ⟨hname, t, hlk⟩ := hn n (List.mem_cons_self ..)
    rw [List.nodup_cons] at hnd
    simp only [Cli.clearLoop, Bool.false_eq_true, if_false]
    rw [exec_all hk hname hlk]
    have hrep := replace_all hs hlk
    cases hr : replaceRows u n t [] with
    | none =>
      simp only [reduceCtorEq, Prod.mk.injEq, false_and, and_false, exists_false, false_iff]
      intro h
      rw [hr] at hrep
      obtain ⟨_, h2⟩ := hrep.2 fun b hb => h [] n rest rfl b (by simp) hb
      cases h2
    | some u1 =>
      simp only
      have hu1 := (replaceRows_eq hr).1
      have hcl := hrep.1 ⟨u1, hr⟩
      have hl1 : ∀ m, u1.lookup m = if m = n then some { t with rows := [] } else u.lookup m := by
        intro m
        rw [hu1, SMap.lookup_insert]
      have ih := clearLoop_ok hk (names := rest) (u := u1) (rows_deleted_sorted hs hr) (fun m hm => by
        obtain ⟨q1, t', q2⟩ := hn m (List.mem_cons_of_mem _ hm)
        refine ⟨q1, ?_⟩
        rw [hl1]
        split
        · exact ⟨_, rfl⟩
        · exact ⟨t', q2⟩) hnd.2
      have he : (∃ shown u', (n :: (Cli.clearLoop k (fun _ => false) rest u1).1,
            (Cli.clearLoop k (fun _ => false) rest u1).2) = (shown, Except.ok (), u')) ↔
          ∃ shown u', Cli.clearLoop k (fun _ => false) rest u1 = (shown, .ok (), u') := by
        obtain ⟨sh, r1, u2⟩ := Cli.clearLoop k (fun _ => false) rest u1
        simp
      rw [he, ih]
      constructor
      · intro h pre a post hp b hb hba href
        cases pre with
        | nil =>
          cases hp
          exact hcl b hba href
        | cons m pre =>
          obtain ⟨rfl, hp'⟩ := List.cons.inj hp
          have hp2 : rest = pre ++ a :: post := hp'
          rw [List.mem_cons, not_or] at hb
          refine h pre a post hp2 b hb.2 hba ?_
          rw [hu1]
          refine (rowRefers_insert ?_ hb.1).2 href
          rintro rfl
          exact hnd.1 (by rw [hp2]; simp)
      · intro h pre a post hp b hb hba href
        rw [hu1] at href
        obtain ⟨g1, g2, g3⟩ := rowRefers_empty href
        exact h (n :: pre) a post (by rw [hp]; rfl) b (by simp [g1, hb]) hba g3

/-- The schema is the same when it is done. -/
theorem clearLoop_schema (hk : CoversReserved k.kw k.reserved) {fails : String → Bool} {adb : ADB} :
    ∀ {names : List String} {u u' : SDb} {shown r}, (∀ n ∈ names, IsName n ∧ ∃ t, u.lookup n = some t) →
      Cli.clearLoop k fails names u = (shown, r, u') → HasSchema k.env adb u → HasSchema k.env adb u'
  | [], u, u', shown, r, _, h, hs => by
    cases h
    exact hs
  | n :: rest, u, u', shown, r, hn, h, hs => by
    obtain ⟨hname, t, hlk⟩ := hn n (List.mem_cons_self ..)
    unfold Cli.clearLoop at h
    rw [exec_all hk hname hlk] at h
    split at h
    · cases h; exact hs
    cases hr : replaceRows u n t [] with
    | none =>
      rw [hr] at h
      cases h; exact hs
    | some u1 =>
      rw [hr] at h
      simp only [Prod.mk.injEq] at h
      have hu1 := (replaceRows_eq hr).1
      have hrw : Rewrites k.env u u1 n := .inr ⟨t, [], hlk, hu1, (replaceRows_eq hr).2, fun x hx => by cases hx⟩
      refine clearLoop_schema hk (names := rest) (u := u1) (shown := (Cli.clearLoop k fails rest u1).1) (r := r) ?_
        (by rw [← h.2]) (hrw.schema (sound_of_schema hs) hs)
      intro m hm
      obtain ⟨q1, t', q2⟩ := hn m (List.mem_cons_of_mem _ hm)
      refine ⟨q1, ?_⟩
      rw [hu1, SMap.lookup_insert]
      split
      · exact ⟨_, rfl⟩
      · exact ⟨t', q2⟩

/-- A row that refers to one of a table that comes first stays, and it fails. -/
theorem clearLoop_stuck (hk : CoversReserved k.kw k.reserved) {fails : String → Bool} {a b : String} {post : List String} :
    ∀ {pre : List String} {u u' : SDb} {shown r}, u.Sorted →
      (∀ n ∈ pre ++ a :: post, IsName n ∧ ∃ t, u.lookup n = some t) → a ∉ pre → b ∉ pre → b ≠ a →
      Cli.clearLoop k fails (pre ++ a :: post) u = (shown, r, u') → RowRefers u b a → r ≠ .ok () ∧ RowRefers u' b a
  | [], u, u', shown, r, hs, hn, _, _, hba, h, href => by
    obtain ⟨hname, t, hlk⟩ := hn a (by simp)
    rw [List.nil_append] at h
    unfold Cli.clearLoop at h
    rw [exec_all hk hname hlk] at h
    split at h
    · cases h; exact ⟨(fun h => by cases h), href⟩
    cases hr : replaceRows u a t [] with
    | none =>
      rw [hr] at h
      cases h; exact ⟨(fun h => by cases h), href⟩
    | some u1 => exact absurd href ((replace_all hs hlk).1 ⟨u1, hr⟩ b hba)
  | n :: pre, u, u', shown, r, hs, hn, hap, hbp, hba, h, href => by
    obtain ⟨hname, t, hlk⟩ := hn n (by simp)
    rw [List.mem_cons, not_or] at hap hbp
    rw [List.cons_append] at h
    unfold Cli.clearLoop at h
    rw [exec_all hk hname hlk] at h
    split at h
    · cases h; exact ⟨(fun h => by cases h), href⟩
    cases hr : replaceRows u n t [] with
    | none =>
      rw [hr] at h
      cases h; exact ⟨(fun h => by cases h), href⟩
    | some u1 =>
      rw [hr] at h
      simp only [Prod.mk.injEq] at h
      have hu1 := (replaceRows_eq hr).1
      refine clearLoop_stuck hk (pre := pre) (u := u1) (shown := (Cli.clearLoop k fails (pre ++ a :: post) u1).1) (r := r)
        (rows_deleted_sorted hs hr) ?_ hap.2 hbp.2 hba (by rw [← h.2]) ?_
      · intro m hm
        obtain ⟨q1, t', q2⟩ := hn m (List.mem_cons_of_mem _ hm)
        refine ⟨q1, ?_⟩
        rw [hu1, SMap.lookup_insert]
        split
        · exact ⟨_, rfl⟩
        · exact ⟨t', q2⟩
      · rw [hu1]
        exact (rowRefers_insert hap.1 hbp.1).2 href

end Butane
