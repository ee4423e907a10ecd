/-
Deleting the objects that a filter describes, on PostgreSQL.
-/
import Verif.Proofs.PgKept
import Verif.Proofs.PgAccept
import Verif.Model.PgErase
import Verif.Spec.PgErase

namespace Butane.PgP
open Butane Butane.PgData Spec
open Butane.Sql (Operand Cond SStmt toDb)

variable {k : PgConn} {m : TModel} {pk : TField} {u : PDb}

/-- The condition of a query. -/
def condOf (q : Query) : BoolExpr := match q.filter with | some e => e | none => .true_

theorem bind_fits {ty : Nat → Option PgType} : ∀ {vs : List SqlVal} {i : Nat},
    (∀ j v, vs[j]? = some v → ∃ fty, ty (i + j) = some (pgType fty.sqltype) ∧ PgValFits fty v) →
    ∃ ps, pgBind ty i vs = .ok ps ∧ ps.map seen = vs.map toDb
  | [], _, _ => ⟨[], rfl, rfl⟩
  | v :: vs, i, h => by
    obtain ⟨fty, h1, h2⟩ := h 0 v rfl
    rw [Nat.add_zero] at h1
    obtain ⟨ps, h3, h4⟩ := bind_fits (ty := ty) (vs := vs) (i := i + 1) fun j w hw => by
      obtain ⟨t, g1, g2⟩ := h (j + 1) w (by simpa using hw)
      exact ⟨t, by rw [← g1]; congr 1; omega, g2⟩
    have : ∃ a, toPg (pgType fty.sqltype) v = .ok a ∧ seen a = toDb v := by
      rcases h2 with rfl | ⟨g1, -, g2⟩
      · exact ⟨.null, rfl, rfl⟩
      · obtain ⟨a, g3, g4⟩ := Props.pg_round_trip_partial v fty.sqltype (.inr g1) g2
        exact ⟨a, g3, by rw [seen, g4]⟩
    obtain ⟨a, g1, g2⟩ := this
    exact ⟨a :: ps, by simp only [pgBind, h1, g1, h3, Conv.bind], by simp only [List.map_cons, g2, h4]⟩

theorem mem_of_lookup_pair {α β : Type} [BEq α] [LawfulBEq α] {a : α} {b : β} : ∀ {l : List (α × β)},
    l.lookup a = some b → (a, b) ∈ l
  | [], h => by cases h
  | (x, y) :: l, h => by
    rw [List.lookup_cons] at h
    split at h
    · next e => cases h; rw [eq_of_beq e]; exact List.mem_cons_self ..
    · exact List.mem_cons_of_mem _ (mem_of_lookup_pair h)

theorem lookup_of_mem_pair {α β : Type} [BEq α] [LawfulBEq α] {a : α} {b : β} : ∀ {l : List (α × β)},
    (a, b) ∈ l → ∃ c, l.lookup a = some c
  | [], h => by cases h
  | (x, y) :: l, h => by
    rw [List.lookup_cons]
    split
    · exact ⟨_, rfl⟩
    · next e =>
      rcases List.mem_cons.1 h with h | h
      · cases h; simp at e
      · exact lookup_of_mem_pair h

/-- What the deletion executes. -/
theorem erase_exec (hm : PgModelOk k m pk) {t : Table} (hlk : u.lookup m.table = some t)
    (ht : PgTableFits m pk t) {q : Query} {e : Option FOr} (hq : PgSendable k m q e) :
    ∃ s ps, Sql.parseStmt false (Sql.lex k.reserved (q.delete .pg k.kw).text) = some s ∧
      pgBind (paramType u s) 0 (q.delete .pg k.kw).params = .ok ps ∧
      execData k.server u 0 ps s =
        (putRows k.server u m.table t (t.rows.filter fun r => !chosen k u t q r)).map fun u' => (u', none) := by
  have hok := pg_queryOK hm hlk ht hq
  -- the condition
  have hb : NamesOK k.reserved (condOf q) ∧ NeedsNoParens false .or (condOf q) ∧
      (∀ r ∈ (seenDb u).rows q.table, Scoped (seenDb u) r [] (condOf q)) ∧ (valsBool (condOf q)).length ≤ 126 ∧
      Fits m 0 (condsUses (disjs (condOf q) 0)) (valsBool (condOf q)) ∧
      ∀ r, chosen k u t q r = decide (boolValue k.server.rel (seenDb u) (seenRow t r) (condOf q) = some true) := by
    unfold condOf chosen
    cases hf : q.filter with
    | none =>
      refine ⟨by simp [NamesOK], by simp [NeedsNoParens], by simp [Scoped], by simp [valsBool], ?_, fun r => by simp [boolValue]⟩
      simp only [disjs, atomOf, condsUses, condUses, valsBool, List.append_nil]
      exact ⟨fun _ h => (by cases h), fun _ h => (by cases h), fun _ h => (by cases h)⟩
    | some b =>
      obtain ⟨h1, h2, h3, h4⟩ := hok.filter b hf
      refine ⟨h1, h2, h3, h4 rfl, ?_, fun r => rfl⟩
      have := hq.filter
      rw [hf] at this
      cases e with
      | none => cases this
      | some f =>
        cases this
        exact fits_filter f (hq.fits f rfl) (filter_ok hm ht (seenDb u) f (hq.fits f rfl)).2.2 0
  obtain ⟨h1, h2, h3, h4, h5, h6⟩ := hb
  have hcnt : cntBool (condOf q) = (valsBool (condOf q)).length := (valsBool_len _ (noPlaceholder_of _ _ h2)).symm
  have hlex := (reads_delete (d := pgDialect k.kw) (cnt := fun _ => 0) (B := 127) hm.covers (phReads_pg k.kw k.reserved)
    hok.table (oneJoin_of _ _ h2) h1 (by omega)).lex rfl
  have htext : (q.delete .pg k.kw).text = (sqlDelete (pgDialect k.kw) q.table (condOf q)).text := rfl
  have hpar : (q.delete .pg k.kw).params = valsBool (condOf q) := renderBool_vals _ (condOf q) 0
  have hbind : ∃ ps, pgBind (paramType u (.delete m.table (.any (disjs (condOf q) 0)))) 0 (valsBool (condOf q)) = .ok ps ∧
      ps.map seen = (valsBool (condOf q)).map toDb := by
    refine bind_fits fun j v hv => ?_
    obtain ⟨f, hf⟩ := h5.2.2 j (List.getElem?_eq_some_iff.1 hv).1
    obtain ⟨c, hc⟩ := lookup_of_mem_pair hf
    obtain ⟨j', v', ty, g1, g2, g3, g4⟩ := h5.2.1 _ (mem_of_lookup_pair hc)
    simp only [Nat.zero_add] at g1
    subst g1
    rw [hv] at g2
    cases g2
    refine ⟨ty, ?_, g4⟩
    simp only [paramType, PgData.tableOf, uses, condUses, hlk, hc]
    exact pg_colType ht g3
  obtain ⟨ps, hps, hseen⟩ := hbind
  refine ⟨.delete m.table (.any (disjs (condOf q) 0)), ps, ?_, by rw [hpar]; exact hps, ?_⟩
  · rw [htext, hlex, parse_delete h2, hq.table]
  · simp only [execData, hlk]
    have e1 : Sql.mapOk (fun r => (holdsFor k.server u ps m.table t (.any (disjs (condOf q) 0)) r).map fun b =>
        if b then none else some r) t.rows =
        some (t.rows.map fun r => if chosen k u t q r then none else some r) := by
      refine mapOk_ok fun r hr => ?_
      unfold holdsFor
      rw [hseen, evalDisjs (condOf q) h2 0 _ _ [] [] (h3 _ (by
        rw [hq.table, pg_seenDb_rows hlk]; exact List.mem_map_of_mem hr)) (seg_all _), h6]
      rfl
    rw [e1]
    have : (t.rows.map fun r => if chosen k u t q r then none else some r).filterMap id =
        t.rows.filter fun r => !chosen k u t q r := by
      generalize t.rows = l
      induction l with
      | nil => rfl
      | cons s l ih =>
        rw [List.map_cons, List.filter_cons, ← ih]
        by_cases hs : chosen k u t q s = true <;> simp [hs]
    simp only [this]

/-- The objects that are left. -/
theorem erase_stores {st : Objects m} {t : Table} (hT : PgTabled k m pk u st t) {q : Query} {e : Option FOr}
    (hq : PgSendable k m q e) {u' : PDb}
    (hc : Changed k.server u u' m.table t (t.rows.filter fun r => !chosen k u t q r)) :
    ∃ st', PgKeepsObjs m pk u' st' ∧
      PgErased k m pk e st st' (t.rows.length - (t.rows.filter fun r => !chosen k u t q r).length) := by
  classical
  have hm := hT.ready.model
  let st' : Objects m := fun id => (st id).filter fun o => !decide (PgDescribes k m e o)
  have hhas : ∀ id o, PgHas pk st' id o ↔ PgHas pk st id o ∧ ¬ PgDescribes k m e o := by
    intro id o
    simp only [PgHas, st', Option.filter_eq_some_iff, Bool.not_eq_true', decide_eq_false_iff_not, and_assoc]
  have hrow : ∀ r id o, PgRowIs m pk st r id o → (chosen k u t q r = true ↔ PgDescribes k m e o) :=
    fun r id o h => chosen_iff hm hT.fits hq h
  refine ⟨st', ⟨_, hc.table, fun r hr => ?_, fun id o h => ?_⟩, hhas, ?_⟩
  · obtain ⟨h1, h2⟩ := List.mem_filter.1 hr
    obtain ⟨id, o, h⟩ := hT.row r h1
    have hn : ¬ PgDescribes k m e o := by
      intro hd
      rw [(hrow r id o h).2 hd] at h2
      cases h2
    exact ⟨id, o, (hhas id o).2 ⟨h.has, hn⟩, h.key, h.proper, h.whole, h.holds⟩
  · obtain ⟨h1, h2⟩ := (hhas id o).1 h
    obtain ⟨r, hr, hro⟩ := hT.obj id o h1
    refine ⟨r, List.mem_filter.2 ⟨hr, ?_⟩, h, hro.key, hro.proper, hro.whole, hro.holds⟩
    simp only [Bool.not_eq_true']
    cases hcr : chosen k u t q r with
    | false => rfl
    | true => exact absurd ((hrow r id o hro).1 hcr) h2
  · have hin : ∀ r ∈ t.rows.filter (chosen k u t q), r ∈ t.rows ∧ chosen k u t q r = true :=
      fun r hr => List.mem_filter.1 hr
    obtain ⟨l, hl⟩ := match_choose (R := fun r (p : SqlVal × ObjVals m.fields) => PgRowIs m pk st r p.1 p.2)
      (l := t.rows.filter (chosen k u t q)) fun r hr => by
        obtain ⟨id, o, h⟩ := hT.row r (hin r hr).1
        exact ⟨(id, o), h⟩
    refine ⟨l, ?_, pg_ids_nodup hm ((pg_rows_unique hT).filter _) hl, fun id o => ⟨fun hmem => ?_, ?_⟩⟩
    · have h1 : ∀ {a : List PRow} {b : List (SqlVal × ObjVals m.fields)},
          AllMatch (fun r p => PgRowIs m pk st r p.1 p.2) a b → b.length = a.length := by
        intro a b h
        induction h with
        | nil => rfl
        | cons _ _ ih => simp [ih]
      rw [h1 hl]
      generalize t.rows = rows
      induction rows with
      | nil => rfl
      | cons r rows ih =>
        have hle := List.length_filter_le (fun r => !chosen k u t q r) rows
        by_cases hr : chosen k u t q r = true
        · simp only [List.filter_cons, hr, if_true, List.length_cons, Bool.not_true, Bool.false_eq_true, if_false]
          omega
        · simp only [List.filter_cons, hr, if_false, List.length_cons, Bool.not_false, if_true, Bool.false_eq_true]
          omega
    · obtain ⟨r, hr, hro⟩ := match_mem_right hl _ hmem
      exact ⟨hro.has, (hrow r id o hro).1 (hin r hr).2⟩
    · rintro ⟨h1, h2⟩
      obtain ⟨r, hr, hro⟩ := hT.obj id o h1
      obtain ⟨p, hp, hro'⟩ := match_mem_left hl r (List.mem_filter.2 ⟨hr, (hrow r id o hro).2 h2⟩)
      obtain ⟨e1, e2⟩ := pg_rowIs_obj hm hro hro'
      rw [e1, e2]
      exact hp

/-- What `delete` of a query does. -/
theorem erase_ok {st : Objects m} {t : Table} (hT : PgTabled k m pk u st t) {q : Query} {e : Option FOr}
    (hq : PgSendable k m q e) {u' : PDb} {n : Nat} (h : k.deleteQuery u q = .ok (u', n)) :
    PgReady k m pk u' ∧ (∀ n', n' ≠ m.table → u'.lookup n' = u.lookup n') ∧
      ∃ st', PgKeepsObjs m pk u' st' ∧ PgErased k m pk e st st' n := by
  obtain ⟨s, ps, h1, h2, h3⟩ := erase_exec hT.ready.model hT.lookup hT.fits hq
  unfold PgConn.deleteQuery at h
  split at h
  · next db' r hexec =>
    cases h
    obtain ⟨ps', g1, g2⟩ := exec_ok h1 hexec
    rw [h2] at g1
    cases g1
    rw [h3] at g2
    obtain ⟨u1, hput, e1⟩ := map_some_eq g2
    cases e1
    have hc := changed_putRows hT.ready.sorted hput
    obtain ⟨st', h4, h5⟩ := erase_stores hT hq hc
    refine ⟨ready_of_changed hT.ready hT.lookup hc, hc.others, st', h4, ?_⟩
    simp only [pgRowCount, hq.table, hT.lookup, hc.table]
    exact h5
  · cases h

/-- Rows that nothing refers to can be deleted. -/
theorem erase_succeeds {st : Objects m} {t : Table} (hT : PgTabled k m pk u st t) {q : Query} {e : Option FOr}
    (hq : PgSendable k m q e) (hun : PgUnreferenced m u) : ∃ u' n, k.deleteQuery u q = .ok (u', n) := by
  obtain ⟨s, ps, h1, h2, h3⟩ := erase_exec hT.ready.model hT.lookup hT.fits hq
  have hlk := hT.lookup
  have hvi := (valid_iff hT.ready.sorted).1 hT.ready.valid
  have hv : valid k.server (u.insert m.table { t with rows := t.rows.filter fun r => !chosen k u t q r }) = true := by
    have href : ∀ n' s, u.lookup n' = some s → ∀ fk ∈ s.fks, ∀ r ∈ s.rows,
        r fk.col = .null ∨ Referred k.server u fk (r fk.col) → r fk.col = .null ∨
        Referred k.server (u.insert m.table { t with rows := t.rows.filter fun r => !chosen k u t q r }) fk (r fk.col) := by
      intro n' s hl fk hfk r hr h
      rcases h with h | ⟨p, g1, g2⟩
      · exact .inl h
      · by_cases e : fk.table = m.table
        · exact .inl (hun n' s hl fk hfk e r hr)
        · exact .inr ⟨p, by rw [SMap.lookup_insert, if_neg e]; exact g1, g2⟩
    rw [valid_iff (SMap.sorted_insert hT.ready.sorted _ _)]
    intro n' s hl
    rw [SMap.lookup_insert] at hl
    split at hl
    · cases hl
      obtain ⟨g1, g2, g3⟩ := hvi _ t hlk
      refine ⟨fun r hr => g1 r (List.mem_filter.1 hr).1, ?_, ?_⟩
      · rw [uniqueOk_iff] at g2 ⊢
        exact fun d hd hu => (g2 d hd hu).filter _
      · rw [refsOk_iff] at g3 ⊢
        intro fk hfk r hr
        have hr1 := (List.mem_filter.1 hr).1
        exact href _ t hlk fk hfk r hr1 (g3 fk hfk r hr1)
    · obtain ⟨g1, g2, g3⟩ := hvi n' s hl
      refine ⟨g1, g2, ?_⟩
      rw [refsOk_iff] at g3 ⊢
      exact fun fk hfk r hr => href n' s hl fk hfk r hr (g3 fk hfk r hr)
  unfold PgConn.deleteQuery
  rw [exec_of (r := (u.insert m.table { t with rows := t.rows.filter fun r => !chosen k u t q r }, none)) h1 h2
    (by rw [h3]; simp [putRows, hv])]
  exact ⟨_, _, rfl⟩

end Butane.PgP
