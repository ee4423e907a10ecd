/-
Conditions with bound values: SQLite compares what it was sent, which is what the values are converted
to.  Evaluating a condition with converted values is evaluating it with a comparison that converts.
-/
import Verif.Proofs.SqliteExec
import Verif.Proofs.SqliteSave
import Verif.Proofs.ObjRow

namespace Butane
open Butane.Ddl Spec
open Butane.Sql

/-- The value a condition sees, from the value bound. -/
def converted (c : TextCodecs) : DbVal → DbVal
  | .null => .null
  | .int i => .int i
  | .other (.bool b) => .int (if b then 1 else 0)
  | .other (.json j) => .other (.text (c.printJson j))
  | .other (.date d) => .other (.text (c.printDate d))
  | .other (.timestamp t) => .other (.text (c.printTimestamp t))
  | .other v => .other v

/-- The comparison of converted values. -/
def convertedRel (c : TextCodecs) (rel : Compare) : Compare :=
  fun op a b => rel op (converted c a) (converted c b)

theorem converted_null {c : TextCodecs} {v : DbVal} : converted c v = .null ↔ v = .null := by
  cases v with
  | null => simp [converted]
  | int => simp [converted]
  | other v => cases v <;> simp [converted]

theorem converted_seen (c : TextCodecs) (a : SqliteVal) : converted c (seen a) = seen a := by
  cases a <;> rfl

theorem converted_toDb {c : TextCodecs} {v : SqlVal} {a : SqliteVal} (h : toSqlite c v = .ok a) :
    converted c (toDb v) = seen a := by
  cases v with
  | bool b => cases h; cases b <;> rfl
  | int i => cases h; simp [converted, toDb, seen]
  | null | bigInt | real | text | blob | json | date | timestamp => cases h; rfl
  | custom => cases h

theorem cmp3_eq (rel : Compare) (op : CmpOp) (a b : DbVal) :
    cmp3 rel op a b = if a = .null ∨ b = .null then none else some (rel op a b) := by
  cases a <;> cases b <;> simp [cmp3]

theorem cmp3_converted (c : TextCodecs) (rel : Compare) (op : CmpOp) (a b : DbVal) :
    cmp3 rel op (converted c a) (converted c b) = cmp3 (convertedRel c rel) op a b := by
  simp only [cmp3_eq, converted_null, convertedRel]

theorem in3_converted (c : TextCodecs) (rel : Compare) (a : DbVal) (vs : List DbVal) :
    in3 rel (converted c a) (vs.map (converted c)) = in3 (convertedRel c rel) a vs := by
  induction vs with
  | nil => rfl
  | cons v vs ih =>
    simp only [in3, List.map_cons, List.foldr_cons] at ih ⊢
    rw [ih, cmp3_converted]

/-- The rows hold converted values. -/
def FixedRow (c : TextCodecs) (r : Row) : Prop := ∀ n, converted c (r.val n) = r.val n
def FixedScope (c : TextCodecs) (s : Scope) : Prop := ∀ tr ∈ s, FixedRow c tr.2
def FixedDb (c : TextCodecs) (db : Db) : Prop := ∀ n, ∀ r ∈ db.rows n, FixedRow c r

theorem inScope_fixed {c : TextCodecs} {t : Option String} {n : String} {s : Scope} (h : FixedScope c s)
    {r : Option DbVal} (hr : inScope t n s = some r) : r.map (converted c) = r := by
  unfold inScope at hr
  split at hr
  · cases hr
  · next tr e =>
    cases hr
    have : tr ∈ s := (List.mem_filter.1 (by rw [e]; exact List.mem_singleton_self _)).1
    simp [h tr this n]
  · cases hr; rfl

theorem lookupCol_fixed {c : TextCodecs} {t : Option String} {n : String} : ∀ {env : List Scope},
    (∀ s ∈ env, FixedScope c s) → (lookupCol t n env).map (converted c) = lookupCol t n env
  | [], _ => rfl
  | s :: rest, h => by
    unfold lookupCol
    cases hi : inScope t n s with
    | none => exact lookupCol_fixed fun s' hs' => h s' (List.mem_cons_of_mem _ hs')
    | some r => exact inScope_fixed (h s (List.mem_cons_self ..)) hi

theorem evalOperand_converted {c : TextCodecs} {ps : List DbVal} {env : List Scope}
    (h : ∀ s ∈ env, FixedScope c s) (o : Operand) :
    evalOperand (ps.map (converted c)) env o = (evalOperand ps env o).map (converted c) := by
  cases o with
  | col t n => exact (lookupCol_fixed h).symm
  | int i => rfl
  | param k => simp [evalOperand]
  | null => rfl

theorem evalOperands_converted {c : TextCodecs} {ps : List DbVal} {env : List Scope}
    (h : ∀ s ∈ env, FixedScope c s) : ∀ os : List Operand,
    evalOperands (ps.map (converted c)) env os = (evalOperands ps env os).map (List.map (converted c))
  | [] => rfl
  | o :: os => by
    simp only [evalOperands, evalOperand_converted h o, evalOperands_converted h os]
    cases evalOperand ps env o <;> cases evalOperands ps env os <;> rfl

theorem selectTrue_congr {α} {p q : α → Option (Option Bool)} : ∀ {l : List α}, (∀ a ∈ l, p a = q a) →
    selectTrue p l = selectTrue q l
  | [], _ => rfl
  | a :: as, h => by
    simp only [selectTrue, h a (List.mem_cons_self ..),
      selectTrue_congr fun b hb => h b (List.mem_cons_of_mem _ hb)]

theorem selectTrue_mem {α} {p : α → Option (Option Bool)} : ∀ {l l' : List α}, selectTrue p l = some l' →
    ∀ a ∈ l', a ∈ l
  | [], _, h, a, ha => by cases h; cases ha
  | b :: bs, l', h, a, ha => by
    unfold selectTrue at h
    split at h
    · next x rest e1 e2 =>
      cases h
      split at ha
      · rcases List.mem_cons.1 ha with rfl | ha
        · exact List.mem_cons_self ..
        · exact List.mem_cons_of_mem _ (selectTrue_mem e2 a ha)
      · exact List.mem_cons_of_mem _ (selectTrue_mem e2 a ha)
    · cases h

theorem mapOk_converted {α} {c : TextCodecs} {f g : α → Option DbVal} : ∀ {l : List α},
    (∀ a ∈ l, f a = (g a).map (converted c)) → mapOk f l = (mapOk g l).map (List.map (converted c))
  | [], _ => rfl
  | a :: as, h => by
    simp only [mapOk, h a (List.mem_cons_self ..),
      mapOk_converted fun b hb => h b (List.mem_cons_of_mem _ hb)]
    cases g a <;> cases mapOk g as <;> rfl

theorem joinCond_converted {c : TextCodecs} {rel : Compare} {ps : List DbVal} {env : List Scope}
    (h : ∀ s ∈ env, FixedScope c s) (j : SJoin) {s : Scope} (hs : FixedScope c s) :
    joinCond rel (ps.map (converted c)) env j s = joinCond (convertedRel c rel) ps env j s := by
  have hall : ∀ x ∈ s :: env, FixedScope c x := by
    intro x hx
    rcases List.mem_cons.1 hx with rfl | hx
    · exact hs
    · exact h x hx
  simp only [joinCond, evalOperand_converted hall]
  cases evalOperand ps (s :: env) j.left <;> cases evalOperand ps (s :: env) j.right <;>
    simp [cmp3_converted]

theorem joinRows_converted {c : TextCodecs} {rel : Compare} {db : Db} (hdb : FixedDb c db) {ps : List DbVal}
    {env : List Scope} (h : ∀ s ∈ env, FixedScope c s) : ∀ (js : List SJoin) (ss : List Scope),
    (∀ s ∈ ss, FixedScope c s) →
    joinRows rel db (ps.map (converted c)) env js ss = joinRows (convertedRel c rel) db ps env js ss ∧
      ∀ ss', joinRows (convertedRel c rel) db ps env js ss = some ss' → ∀ s ∈ ss', FixedScope c s
  | [], ss, hss => ⟨rfl, fun ss' e => by cases e; exact hss⟩
  | j :: js, ss, hss => by
    have hall : ∀ s ∈ ss.flatMap (fun s => (db.rows j.table).map fun r => s ++ [(j.table, r)]), FixedScope c s := by
      intro s hs
      obtain ⟨s0, h0, hs⟩ := List.mem_flatMap.1 hs
      obtain ⟨r, hr, rfl⟩ := List.mem_map.1 hs
      intro tr htr
      rcases List.mem_append.1 htr with htr | htr
      · exact hss s0 h0 tr htr
      · rw [List.mem_singleton.1 htr]
        exact hdb _ r hr
    simp only [joinRows]
    split
    · rw [selectTrue_congr fun s hs => joinCond_converted h j (hall s hs)]
      cases e : selectTrue (joinCond (convertedRel c rel) ps env j)
          (ss.flatMap fun s => (db.rows j.table).map fun r => s ++ [(j.table, r)]) with
      | none => exact ⟨rfl, fun _ h => by cases h⟩
      | some ss' => exact joinRows_converted hdb h js ss' fun s hs => hall s (selectTrue_mem e s hs)
    · exact ⟨rfl, fun _ h => by cases h⟩

mutual
/-- Converted values and a converting comparison. -/
theorem evalCond_converted {c : TextCodecs} {rel : Compare} {db : Db} (hdb : FixedDb c db) {ps : List DbVal} :
    ∀ (cond : Cond) (env : List Scope), (∀ s ∈ env, FixedScope c s) →
    evalCond rel db (ps.map (converted c)) env cond = evalCond (convertedRel c rel) db ps env cond
  | .true_, env, h => by simp only [evalCond]
  | .cmp op a b, env, h => by
    simp only [evalCond, evalOperand_converted h]
    cases evalOperand ps env a <;> cases evalOperand ps env b <;> simp [cmp3_converted]
  | .isNull a, env, h => by
    simp only [evalCond, evalOperand_converted h]
    cases evalOperand ps env a <;> simp [converted_null]
  | .notNull a, env, h => by
    simp only [evalCond, evalOperand_converted h]
    cases evalOperand ps env a <;> simp [converted_null]
  | .inList a bs, env, h => by
    simp only [evalCond, evalOperand_converted h, evalOperands_converted h]
    cases evalOperand ps env a <;> cases evalOperands ps env bs <;> simp [in3_converted]
  | .inSelect a sel t js w, env, h => by
    have h0 : ∀ s ∈ (db.rows t).map fun r => [(t, r)], FixedScope c s := by
      intro s hs
      obtain ⟨r, hr, rfl⟩ := List.mem_map.1 hs
      intro tr htr
      rw [List.mem_singleton.1 htr]
      exact hdb _ r hr
    obtain ⟨g1, g2⟩ := joinRows_converted (rel := rel) hdb (ps := ps) h js _ h0
    simp only [evalCond, evalOperand_converted h, g1]
    cases hx : evalOperand ps env a with
    | none => simp
    | some x =>
      simp only [Option.map_some]
      cases db.has t with
      | false => simp
      | true =>
        cases hj : joinRows (convertedRel c rel) db ps env js ((db.rows t).map fun r => [(t, r)]) with
        | none => rfl
        | some ss =>
          have hss := g2 ss hj
          have henv : ∀ s ∈ ss, ∀ x ∈ s :: env, FixedScope c x := by
            intro s hs x hx
            rcases List.mem_cons.1 hx with rfl | hx
            · exact hss _ hs
            · exact h x hx
          simp only
          rw [selectTrue_congr fun s hs => evalCond_converted (rel := rel) hdb w (s :: env) (henv s hs)]
          cases hsel : selectTrue (fun s => evalCond (convertedRel c rel) db ps (s :: env) w) ss with
          | none => rfl
          | some ss' =>
            simp only
            rw [mapOk_converted (c := c) (g := fun s => evalOperand ps (s :: env) sel) fun s hs =>
              evalOperand_converted (henv s (selectTrue_mem hsel s hs)) sel]
            cases mapOk (fun s => evalOperand ps (s :: env) sel) ss' with
            | none => rfl
            | some ys => simp [in3_converted]
  | .not cond, env, h => by simp only [evalCond, evalCond_converted hdb cond env h]
  | .all cs, env, h => by simp only [evalCond, evalAll_converted hdb cs env h]
  | .any cs, env, h => by simp only [evalCond, evalAny_converted hdb cs env h]
theorem evalAll_converted {c : TextCodecs} {rel : Compare} {db : Db} (hdb : FixedDb c db) {ps : List DbVal} :
    ∀ (cs : List Cond) (env : List Scope), (∀ s ∈ env, FixedScope c s) →
    evalAll rel db (ps.map (converted c)) env cs = evalAll (convertedRel c rel) db ps env cs
  | [], env, h => by simp only [evalAll]
  | a :: cs, env, h => by simp only [evalAll, evalCond_converted hdb a env h, evalAll_converted hdb cs env h]
theorem evalAny_converted {c : TextCodecs} {rel : Compare} {db : Db} (hdb : FixedDb c db) {ps : List DbVal} :
    ∀ (cs : List Cond) (env : List Scope), (∀ s ∈ env, FixedScope c s) →
    evalAny rel db (ps.map (converted c)) env cs = evalAny (convertedRel c rel) db ps env cs
  | [], env, h => by simp only [evalAny]
  | a :: cs, env, h => by simp only [evalAny, evalCond_converted hdb a env h, evalAny_converted hdb cs env h]
end

/-! ### Statements -/

theorem seenDb_fixed (c : TextCodecs) (u : SDb) : FixedDb c (seenDb u) := by
  intro n r hr m
  simp only [seenDb] at hr
  split at hr
  · obtain ⟨x, -, rfl⟩ := List.mem_map.1 hr
    simp only [seenRow]
    split
    · exact converted_seen c _
    · rfl
  · cases hr

theorem bindAll_seen {c : TextCodecs} : ∀ {vs : List SqlVal} {ps : List SqliteVal}, bindAll c vs = .ok ps →
    ps.map seen = (vs.map toDb).map (converted c)
  | [], ps, h => by cases h; rfl
  | v :: vs, ps, h => by
    obtain ⟨a, h1, h2⟩ := Conv.bind_ok h
    obtain ⟨as, h3, h4⟩ := Conv.bind_ok h2
    cases h4
    simp only [List.map_cons, converted_toDb h1, bindAll_seen h3]

/-- The possible results of a query with bound values. -/
theorem queryRows_iff {D : SqliteData} {c : TextCodecs} {res : String → Bool} {u : SDb} {text : List Char}
    {vs : List SqlVal} {ps : List SqliteVal} (hb : bindAll c vs = .ok ps) (out : Option (List (List SqliteVal))) :
    QueryRows D res u text ps out ↔ QueryOut true (convertedRel c D.rel) D.le res (seenDb u) text vs
      (out.map fun rows => rows.map (·.map seen)) := by
  unfold QueryRows QueryOut
  cases Sql.parseStmt true (Sql.lex res text) with
  | none => simp
  | some st =>
    cases st <;> try simp
    next s =>
    rw [bindAll_seen hb]
    unfold SelectOut
    have : selectTrue (whereTrue D.rel (seenDb u) ((vs.map toDb).map (converted c)) s.table s.cond)
        ((seenDb u).rows s.table) = selectTrue (whereTrue (convertedRel c D.rel) (seenDb u) (vs.map toDb) s.table s.cond)
        ((seenDb u).rows s.table) := by
      apply selectTrue_congr
      intro r hr
      unfold whereTrue
      cases s.cond with
      | none => rfl
      | some cond =>
        refine evalCond_converted (seenDb_fixed c u) cond _ ?_
        intro sc hsc
        rw [List.mem_singleton.1 hsc]
        intro tr htr
        rw [List.mem_singleton.1 htr]
        exact seenDb_fixed c u _ r hr
    rw [this]

end Butane
