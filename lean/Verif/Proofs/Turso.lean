/-
Replacing subqueries by their values does not change what a condition means.
-/
import Verif.Proofs.Exec
import Verif.Spec.Turso

namespace Butane.Turso
open Butane Sql Spec

/-! ### Which texts contain a subquery -/

theorem noSelectAll_append (a b : List Cond) :
    noSelectAll (a ++ b) = (noSelectAll a && noSelectAll b) := by
  induction a with
  | nil => simp [noSelectAll]
  | cons c cs ih => simp [noSelectAll, ih, Bool.and_assoc]

theorem noSelect_cmp (op : CmpOp) (col : String) (e : Expr) (n : Nat) :
    noSelect (astCmp op col e n) = true := by
  unfold astCmp
  split
  · split <;> simp [noSelect]
  · simp [noSelect]

variable {eo : Bool}

mutual
theorem noSelect_atom : (e : BoolExpr) → NeedsNoParens eo .not e → (n : Nat) →
    noSelect (atomOf e n) = noSub e
  | .true_, _, _ => by simp [atomOf, noSelect, noSub]
  | .cmp op col e, _, n => by simp [atomOf, noSelect_cmp, noSub]
  | .allOf _, h, _ => by simp [NeedsNoParens] at h
  | .and _ _, h, _ => by simp [NeedsNoParens] at h
  | .or _ _, h, _ => by simp [NeedsNoParens] at h
  | .not a, h, n => by
    simp only [NeedsNoParens] at h
    simp [atomOf, noSelect, noSub, noSelect_atom a h n]
  | .subquery _ _ _ _, _, _ => by simp [atomOf, noSelect, noSub]
  | .inVals _ _, _, _ => by simp [atomOf, noSelect, noSub]
  | .subqueryJoin _ _ _ _ _, _, _ => by simp [atomOf, noSelect, noSub]
theorem noSelect_conjs : (e : BoolExpr) → NeedsNoParens eo .and e → (n : Nat) →
    noSelectAll (conjs e n) = noSub e
  | .true_, _, _ => by simp [conjs, atomOf, noSelectAll, noSelect, noSub]
  | .cmp op col e, _, n => by simp [conjs, atomOf, noSelectAll, noSelect_cmp, noSub]
  | .allOf cs, h, n => by
    simp only [NeedsNoParens] at h
    simp [conjs, noSub, noSelect_conjsAll cs h.2.2 n]
  | .and a b, h, n => by
    simp only [NeedsNoParens] at h
    simp [conjs, noSub, noSelectAll_append, noSelect_conjs a h.2.1, noSelect_conjs b h.2.2]
  | .or _ _, h, _ => by simp [NeedsNoParens] at h
  | .not a, h, n => by
    simp only [NeedsNoParens] at h
    simp [conjs, noSelectAll, noSelect, noSub, noSelect_atom a h n]
  | .subquery _ _ _ _, _, _ => by simp [conjs, noSelectAll, noSelect, noSub]
  | .inVals _ _, _, _ => by simp [conjs, atomOf, noSelectAll, noSelect, noSub]
  | .subqueryJoin _ _ _ _ _, _, _ => by simp [conjs, noSelectAll, noSelect, noSub]
theorem noSelect_conjsAll : (cs : List BoolExpr) → NoParensAll eo cs → (n : Nat) →
    noSelectAll (conjsAll cs n) = noSubAll cs
  | [], _, _ => by simp [conjsAll, noSelectAll, noSubAll]
  | c :: cs, h, n => by
    simp only [NoParensAll] at h
    simp [conjsAll, noSubAll, noSelectAll_append, noSelect_conjs c h.1, noSelect_conjsAll cs h.2]
end

theorem noSelect_disjs : (e : BoolExpr) → NeedsNoParens eo .or e → (n : Nat) →
    noSelectAll (disjs e n) = noSub e
  | .true_, _, _ => by simp [disjs, atomOf, noSelectAll, noSelect, noSub]
  | .cmp op col e, _, n => by simp [disjs, atomOf, noSelectAll, noSelect, noSelect_cmp, noSub]
  | .allOf cs, h, n => by
    simp only [NeedsNoParens] at h
    simp [disjs, noSub, noSelectAll, noSelect, noSelect_conjsAll cs h.2.2 n]
  | .and a b, h, n => by
    simp only [NeedsNoParens] at h
    simp [disjs, noSub, noSelectAll, noSelect, noSelectAll_append, noSelect_conjs a h.2.1,
      noSelect_conjs b h.2.2]
  | .or a b, h, n => by
    simp only [NeedsNoParens] at h
    simp [disjs, noSub, noSelectAll_append, noSelect_disjs a h.2.1, noSelect_disjs b h.2.2]
  | .not a, h, n => by
    simp only [NeedsNoParens] at h
    simp [disjs, noSelectAll, noSelect, noSub, noSelect_atom a h n]
  | .subquery _ _ _ _, _, _ => by simp [disjs, noSelectAll, noSelect, noSub]
  | .inVals _ _, _, _ => by simp [disjs, atomOf, noSelectAll, noSelect, noSub]
  | .subqueryJoin _ _ _ _ _, _, _ => by simp [disjs, noSelectAll, noSelect, noSub]

/-! ### Reading the text of a subquery -/

variable {rel : Compare} {kw res : String → Bool} {db : Db}

theorem dialect_eq (kw : String → Bool) : dialect kw = sqliteDialect kw := rfl

theorem lex_cond (hk : CoversReserved kw res) {e : BoolExpr} (hn : NamesOK res e)
    (h : NeedsNoParens true .or e) :
    lexFrom res ⟨.idle, 0⟩ (renderBool (sqliteDialect kw) e 0).text = toksBool e 0 :=
  lex_renderBool (d := sqliteDialect kw) (cnt := fun n => n) (B := cntBool e) hk
    (phReads_sqlite kw res _) rfl (oneJoin_of e _ h) hn (Nat.le_refl _)

theorem lex_select_distinct (t : Text) : lexFrom res ⟨.idle, 0⟩ (lit "SELECT DISTINCT " ++ t) =
    .kw "SELECT" :: .kw "DISTINCT" :: lexFrom res ⟨.idle, 0⟩ t := rfl
theorem lex_from (t : Text) : lexFrom res ⟨.idle, 0⟩ (lit " FROM " ++ t) =
    .kw "FROM" :: lexFrom res ⟨.idle, 0⟩ t := rfl
theorem lex_where (t : Text) : lexFrom res ⟨.idle, 0⟩ (lit " WHERE " ++ t) =
    .kw "WHERE" :: lexFrom res ⟨.idle, 0⟩ t := rfl
theorem lex_blank (t : Text) : lexFrom res ⟨.idle, 0⟩ (lit " " ++ t) =
    lexFrom res ⟨.idle, 0⟩ t := rfl

theorem toksJoins_len (js : List Join) : js.length ≤ (toksJoins js).length := by
  induction js with
  | nil => simp [toksJoins]
  | cons j js ih => simp only [toksJoins, List.length_append, List.length_cons]; omega

/-- The statement of a subquery with joins, read by the database. -/
theorem parse_join (hk : CoversReserved kw res) {t : String} {c : QColumn} {js : List Join}
    {e : BoolExpr} (ht : IsName t) (hc : ColName res c) (hl : js.length ≤ 1)
    (hj : ∀ j ∈ js, IsName j.joinTable ∧ ColName res j.col1 ∧ ColName res j.col2)
    (hn : NamesOK res e) (h : NeedsNoParens true .or e) :
    parseSub (lex res (joinStmt (dialect kw) t c js e).text) =
      some ⟨astCol c, t, astJoins js, .any (disjs e 0)⟩ := by
  have hlex : lex res (joinStmt (dialect kw) t c js e).text =
      .kw "SELECT" :: .kw "DISTINCT" :: (toksCol c ++ .kw "FROM" :: .ident t ::
        (toksJoins js ++ .kw "WHERE" :: toksBool e 0)) := by
    simp only [lex, joinStmt, dialect_eq, List.append_assoc]
    rw [lex_select_distinct,
      lex_sqlColumn (d := sqliteDialect kw) hk hc _ _ (show Delim (lit " FROM " ++ _) from rfl),
      lex_from, lex_quoteWord (d := sqliteDialect kw) hk ht _ _ (show Delim (lit " " ++ _) from rfl),
      lex_blank, lex_sqlJoin (d := sqliteDialect kw) hk hl hj _ _
        (show Delim (lit " WHERE " ++ _) from rfl), lex_where, lex_cond hk hn h]
  rw [hlex]
  simp only [parseSub]
  rw [pColumn_col c (show NoDot (.kw "FROM" :: _) from trivial)]
  simp only
  rw [pJoins_ok _ (by have := toksJoins_len js; simp only [List.length_append]; omega)]
  simp only
  rw [parseCond_ok h]

/-- The statement of a subquery without joins, read by the database. -/
theorem parse_simple (hk : CoversReserved kw res) {t c : String} {e : BoolExpr} (ht : IsName t)
    (hc : IsName c) (hn : NamesOK res e) (h : NeedsNoParens true .or e) :
    parseSub (lex res (subqueryStmt (dialect kw) t c e).text) =
      some ⟨.col none c, t, [], .any (disjs e 0)⟩ := by
  have hlex : lex res (subqueryStmt (dialect kw) t c e).text =
      .kw "SELECT" :: .kw "DISTINCT" :: .ident c :: .kw "FROM" :: .ident t ::
        (toksJoins [] ++ .kw "WHERE" :: toksBool e 0) := by
    simp only [lex, subqueryStmt, dialect_eq, List.append_assoc]
    rw [lex_select_distinct,
      lex_quoteWord (d := sqliteDialect kw) hk hc _ _ (show Delim (lit " FROM " ++ _) from rfl),
      lex_from, lex_quoteWord (d := sqliteDialect kw) hk ht _ _
        (show Delim (lit " WHERE " ++ _) from rfl), lex_where, lex_cond hk hn h]
    rfl
  rw [hlex]
  simp only [parseSub]
  rw [pColumn_ident c (show NoDot (.kw "FROM" :: _) from trivial)]
  simp only
  rw [pJoins_ok _ (by simp)]
  simp only
  rw [parseCond_ok h]
  rfl

/-! ### The values of a subquery -/

/-- The values `subqueryJoin` speaks of. -/
def joinValues (rel : Compare) (db : Db) (t : String) (c : QColumn) (js : List Join)
    (e : BoolExpr) : List DbVal :=
  ((db.rows t).filter fun r => boolValue rel db r e = some true).flatMap fun r =>
    (joined rel db r js [[(t, r)]]).map fun s => colOf s r c

theorem values_join {t : String} {c : QColumn} {js : List Join} {e : BoolExpr}
    (h : NeedsNoParens true .or e) (hl : js.length ≤ 1) (h2 : db.has t = true)
    (h3 : ∀ j ∈ js, db.has j.joinTable = true)
    (h4 : ∀ r ∈ db.rows t, ∀ s ∈ combos db js,
      ColVisible t r s c ∧ (∀ j ∈ js, ColVisible t r s j.col1 ∧ ColVisible t r s j.col2) ∧
      Scoped db r (s.map (·.2)) e) :
    subValues rel db ((valsBool e).map toDb) ⟨astCol c, t, astJoins js, .any (disjs e 0)⟩ =
      some (joinValues rel db t c js e) := by
  have hj := joinRows_ok (rel := rel) (ps := (valsBool e).map toDb) (env := []) (t := t)
    hl (db.rows t) h3 (fun r hr s' hs' j hj => (h4 r hr s' hs').2.1 j hj)
  simp only [subValues, h2, hj, joinValues]
  rw [selectTrue_flatMap (g := fun r =>
    if boolValue rel db r e = some true then joined rel db r js [[(t, r)]] else [])]
  · simp only
    rw [mapOk_flatMap (k := fun r =>
      if boolValue rel db r e = some true then
        (joined rel db r js [[(t, r)]]).map (fun s' => colOf s' r c) else [])]
    · congr 1
      induction db.rows t with
      | nil => rfl
      | cons r rs ih =>
        simp only [List.flatMap_cons, List.filter_cons, ih]
        by_cases hq : boolValue rel db r e = some true <;> simp [hq]
    · intro r hr
      by_cases hq : boolValue rel db r e = some true
      · rw [if_pos hq, if_pos hq]
        refine mapOk_ok fun s' hs' => ?_
        obtain ⟨s'', hc, rfl⟩ := joined_mem hl hs'
        exact lookup_colVisible _ (h4 r hr s'' hc).1
      · rw [if_neg hq, if_neg hq]
        rfl
  · intro r hr
    rw [selectTrue_ok (q := fun _ => boolValue rel db r e)]
    · by_cases hq : boolValue rel db r e = some true <;> simp [hq]
    · intro s' hs'
      obtain ⟨s'', hc, rfl⟩ := joined_mem hl hs'
      exact evalDisjs e h 0 t r s'' [] (h4 r hr s'' hc).2.2 (seg_all _)

/-- The values `subquery` speaks of. -/
def simpleValues (rel : Compare) (db : Db) (t c : String) (e : BoolExpr) : List DbVal :=
  ((db.rows t).filter fun r => boolValue rel db r e = some true).map fun r => r.val c

theorem values_simple {t c : String} {e : BoolExpr} (h : NeedsNoParens true .or e)
    (h2 : db.has t = true) (h3 : ∀ r ∈ db.rows t, r.has c = true ∧ Scoped db r [] e) :
    subValues rel db ((valsBool e).map toDb) ⟨.col none c, t, [], .any (disjs e 0)⟩ =
      some (simpleValues rel db t c e) := by
  simp only [subValues, h2, joinRows, simpleValues]
  rw [selectTrue_ok (q := fun s' : Scope =>
    match s' with
    | [(_, r)] => boolValue rel db r e
    | _ => none)]
  · simp only
    rw [List.filter_map]
    rw [mapOk_ok (g := fun s' : Scope =>
      match s' with
      | [(_, r)] => r.val c
      | _ => .null)]
    · simp only [List.map_map]
      rfl
    · intro a ha
      simp only [List.mem_map, List.mem_filter] at ha
      obtain ⟨r, ⟨hr, _⟩, rfl⟩ := ha
      exact lookup_visible (s := []) _ ⟨(h3 r hr).1, by simp⟩
  · intro a ha
    obtain ⟨r, hr, rfl⟩ := List.mem_map.1 ha
    exact evalDisjs e h 0 t r [] [] (h3 r hr).2 (seg_all _)

/-! ### `IN` the values -/

theorem toDb_untyped (v : Val) : toDb (untyped v) = ofTurso v := by cases v <;> rfl

theorem in3_false {rel : Compare} {a : DbVal} {vs : List DbVal} :
    in3 rel a vs = some false ↔ ∀ v ∈ vs, cmp3 rel .eq a v = some false := by
  induction vs with
  | nil => simp [in3]
  | cons v vs ih =>
    have : in3 rel a (v :: vs) = kOr (cmp3 rel .eq a v) (in3 rel a vs) := rfl
    rw [this]
    simp only [List.mem_cons, forall_eq_or_imp, ← ih]
    cases h1 : cmp3 rel .eq a v <;> cases h2 : in3 rel a vs <;> simp [kOr]
    · rename_i b; cases b <;> simp
    · rename_i b; cases b <;> simp
    · rename_i b c; cases b <;> cases c <;> simp

theorem cmp3_alike {rel : Compare} {a v w : DbVal} (h : Alike rel v w) :
    cmp3 rel .eq a v = cmp3 rel .eq a w := by
  obtain ⟨h1, h2, h3⟩ := h
  cases a <;> cases v <;> cases w <;> simp_all [cmp3]

/-- Leaving out repeated values does not change what `IN` says. -/
theorem in3_distinct {rel : Compare} {a : DbVal} {out all : List DbVal}
    (h : Distinct rel out all) : in3 rel a out = in3 rel a all := by
  have key : ∀ b, (∃ v ∈ out, cmp3 rel .eq a v = b) ↔ ∃ v ∈ all, cmp3 rel .eq a v = b := by
    intro b
    constructor
    · rintro ⟨v, hv, e⟩
      exact ⟨v, h.1 v hv, e⟩
    · rintro ⟨v, hv, e⟩
      rcases h.2 v hv with h' | ⟨w, hw, hal⟩
      · exact ⟨v, h', e⟩
      · exact ⟨w, hw, by rw [← cmp3_alike hal]; exact e⟩
  have t : in3 rel a out = some true ↔ in3 rel a all = some true := by
    have e : ∀ vs, in3 rel a vs = some true ↔ ∃ v ∈ vs, cmp3 rel .eq a v = some true := by
      intro vs
      rw [in3_true]
      simp only [cmp3_true, Equal]
    rw [e, e, key]
  have f : in3 rel a out = some false ↔ in3 rel a all = some false := by
    rw [in3_false, in3_false]
    constructor
    · intro hf v hv
      rcases h.2 v hv with h' | ⟨w, hw, hal⟩
      · exact hf v h'
      · rw [cmp3_alike hal]; exact hf w hw
    · intro hf v hv
      exact hf v (h.1 v hv)
  cases h1 : in3 rel a out with
  | none =>
    cases h2 : in3 rel a all with
    | none => rfl
    | some b => cases b <;> simp_all
  | some b => cases b <;> simp_all

/-! ### The transformation -/

theorem stmt_params (t c : String) (e : BoolExpr) :
    (subqueryStmt (dialect kw) t c e).params = valsBool e := renderBool_vals _ e 0

theorem joinStmt_params (t : String) (c : QColumn) (js : List Join) (e : BoolExpr) :
    (joinStmt (dialect kw) t c js e).params = valsBool e := renderBool_vals _ e 0

/-- `e'` says the same as `e`, without subqueries, and can be rendered where `e` can. -/
structure Same (rel : Compare) (res : String → Bool) (db : Db) (p : Pos) (e e' : BoolExpr) :
    Prop where
  plain : noSub e' = true
  names : NamesOK res e'
  parens : NeedsNoParens true p e'
  value : ∀ row, boolValue rel db row e' = boolValue rel db row e
  scope : ∀ row os, Scoped db row os e → Scoped db row os e'

structure SameAll (rel : Compare) (res : String → Bool) (db : Db) (cs cs' : List BoolExpr) :
    Prop where
  nonempty : cs ≠ [] → cs' ≠ []
  plain : noSubAll cs' = true
  names : NamesAllOK res cs'
  parens : NoParensAll true cs'
  value : ∀ row, allValue rel db row cs' = allValue rel db row cs
  scope : ∀ row os, ScopedAll db row os cs → ScopedAll db row os cs'

variable {subs : Bool} {ask : Ask}

/-- The values a subquery is replaced by. -/
theorem collect_ok {s : Stmt} {sub : SubSelect} {col : String} {n : Nat} {all : List DbVal}
    (hask : Answers subs rel res (fun _ => db) ask) (hp : parseSub (lex res s.text) = some sub)
    (hs : (subs || noSelect sub.cond) = true)
    (hv : subValues rel db (s.params.map toDb) sub = some all) :
    ∃ vs : List Val, collect ask col s n = some (.inVals col (vs.map untyped), n + 1) ∧
      ∀ a, in3 rel a ((vs.map untyped).map toDb) = in3 rel a all := by
  have h := hask n s.text s.params
  simp only [SubOut, hp, hs, hv, if_true] at h
  obtain ⟨vs, h1, h2⟩ := h
  refine ⟨vs, by simp only [collect, h1], fun a => ?_⟩
  rw [List.map_map, show toDb ∘ untyped = ofTurso from funext toDb_untyped]
  exact in3_distinct h2

mutual
theorem transform_ok (hk : CoversReserved kw res) (hask : Answers subs rel res (fun _ => db) ask) :
    (e : BoolExpr) → (p : Pos) → NeedsNoParens true p e → NamesOK res e → SubScoped db e →
    (subs = true ∨ flat e = true) → (n : Nat) →
    ∃ e' n', transform (dialect kw) ask e n = some (e', n') ∧ Same rel res db p e e'
  | .true_, p, h, hn, _, _, n =>
    ⟨.true_, n, by simp only [transform], by simp [noSub], hn, h, fun _ => rfl, fun _ _ h => h⟩
  | .cmp op col e, p, h, hn, _, _, n =>
    ⟨.cmp op col e, n, by simp only [transform], by simp [noSub], hn, h, fun _ => rfl, fun _ _ h => h⟩
  | .inVals col vs, p, h, hn, _, _, n =>
    ⟨.inVals col vs, n, by simp only [transform], by simp [noSub], hn, h, fun _ => rfl, fun _ _ h => h⟩
  | .and a b, p, h, hn, hs, hf, n => by
    simp only [NeedsNoParens] at h
    simp only [NamesOK] at hn
    simp only [SubScoped] at hs
    simp only [flat, Bool.and_eq_true] at hf
    obtain ⟨a', n1, e1, s1⟩ := transform_ok hk hask a .and h.2.1 hn.1 hs.1 (hf.imp id (·.1)) n
    obtain ⟨b', n2, e2, s2⟩ := transform_ok hk hask b .and h.2.2 hn.2 hs.2 (hf.imp id (·.2)) n1
    refine ⟨.and a' b', n2, by simp only [transform, e1, e2], ?_, ?_, ?_, ?_, ?_⟩
    · simp [noSub, s1.plain, s2.plain]
    · exact ⟨s1.names, s2.names⟩
    · simp only [NeedsNoParens]; exact ⟨h.1, s1.parens, s2.parens⟩
    · intro row; simp only [boolValue, s1.value, s2.value]
    · intro row os hsc
      simp only [Scoped] at hsc ⊢
      exact ⟨s1.scope _ _ hsc.1, s2.scope _ _ hsc.2⟩
  | .or a b, p, h, hn, hs, hf, n => by
    simp only [NeedsNoParens] at h
    simp only [NamesOK] at hn
    simp only [SubScoped] at hs
    simp only [flat, Bool.and_eq_true] at hf
    obtain ⟨a', n1, e1, s1⟩ := transform_ok hk hask a .or h.2.1 hn.1 hs.1 (hf.imp id (·.1)) n
    obtain ⟨b', n2, e2, s2⟩ := transform_ok hk hask b .or h.2.2 hn.2 hs.2 (hf.imp id (·.2)) n1
    refine ⟨.or a' b', n2, by simp only [transform, e1, e2], ?_, ?_, ?_, ?_, ?_⟩
    · simp [noSub, s1.plain, s2.plain]
    · exact ⟨s1.names, s2.names⟩
    · simp only [NeedsNoParens]; exact ⟨h.1, s1.parens, s2.parens⟩
    · intro row; simp only [boolValue, s1.value, s2.value]
    · intro row os hsc
      simp only [Scoped] at hsc ⊢
      exact ⟨s1.scope _ _ hsc.1, s2.scope _ _ hsc.2⟩
  | .not a, p, h, hn, hs, hf, n => by
    simp only [NeedsNoParens] at h
    simp only [NamesOK] at hn
    simp only [SubScoped] at hs
    simp only [flat] at hf
    obtain ⟨a', n1, e1, s1⟩ := transform_ok hk hask a .not h hn hs hf n
    refine ⟨.not a', n1, by simp only [transform, e1], ?_, ?_, ?_, ?_, ?_⟩
    · simp [noSub, s1.plain]
    · exact s1.names
    · simp only [NeedsNoParens]; exact s1.parens
    · intro row; simp only [boolValue, s1.value]
    · intro row os hsc
      simp only [Scoped] at hsc ⊢
      exact s1.scope _ _ hsc
  | .allOf cs, p, h, hn, hs, hf, n => by
    simp only [NeedsNoParens] at h
    simp only [NamesOK] at hn
    simp only [SubScoped] at hs
    simp only [flat] at hf
    obtain ⟨cs', n1, e1, s1⟩ := transformAll_ok hk hask cs h.2.2 hn hs hf n
    refine ⟨.allOf cs', n1, by simp only [transform, e1], ?_, ?_, ?_, ?_, ?_⟩
    · simp [noSub, s1.plain]
    · exact s1.names
    · simp only [NeedsNoParens]; exact ⟨h.1, s1.nonempty h.2.1, s1.parens⟩
    · intro row; simp only [boolValue, s1.value]
    · intro row os hsc
      simp only [Scoped] at hsc ⊢
      exact s1.scope _ _ hsc
  | .subquery col t c e, p, h, hn, hs, hf, n => by
    simp only [NeedsNoParens] at h
    simp only [NamesOK] at hn
    simp only [SubScoped] at hs
    simp only [flat] at hf
    obtain ⟨vs, h1, h2⟩ := collect_ok (col := col) (n := n) hask
      (parse_simple hk hn.2.1 hn.2.2.1 hn.2.2.2 h)
      (by simp only [noSelect, noSelect_disjs e h, Bool.or_eq_true]; exact hf)
      (by rw [stmt_params]; exact values_simple h hs.1 hs.2)
    refine ⟨_, _, by simp only [transform]; exact h1, ?_, ?_, ?_, ?_, ?_⟩
    · simp [noSub]
    · exact hn.1
    · simp [NeedsNoParens]
    · intro row
      simp only [boolValue]
      exact h2 _
    · intro row os hsc
      simp only [Scoped] at hsc ⊢
      exact hsc.1
  | .subqueryJoin col t c js e, p, h, hn, hs, hf, n => by
    simp only [NeedsNoParens] at h
    simp only [NamesOK] at hn
    simp only [SubScoped] at hs
    simp only [flat] at hf
    obtain ⟨vs, h1, h2⟩ := collect_ok (col := col) (n := n) hask
      (parse_join hk hn.2.1 hn.2.2.1 h.1 hn.2.2.2.1 hn.2.2.2.2 h.2)
      (by simp only [noSelect, noSelect_disjs e h.2, Bool.or_eq_true]; exact hf)
      (by rw [joinStmt_params]; exact values_join h.2 h.1 hs.1 hs.2.1 hs.2.2)
    refine ⟨_, _, by simp only [transform]; exact h1, ?_, ?_, ?_, ?_, ?_⟩
    · simp [noSub]
    · exact hn.1
    · simp [NeedsNoParens]
    · intro row
      simp only [boolValue]
      exact h2 _
    · intro row os hsc
      simp only [Scoped] at hsc ⊢
      exact hsc.1
theorem transformAll_ok (hk : CoversReserved kw res) (hask : Answers subs rel res (fun _ => db) ask) :
    (cs : List BoolExpr) → NoParensAll true cs → NamesAllOK res cs → SubScopedAll db cs →
    (subs = true ∨ flatAll cs = true) → (n : Nat) →
    ∃ cs' n', transformAll (dialect kw) ask cs n = some (cs', n') ∧ SameAll rel res db cs cs'
  | [], _, _, _, _, n =>
    ⟨[], n, by simp only [transformAll], fun h => h, by simp [noSubAll], by simp [NamesAllOK],
      by simp [NoParensAll], fun _ => rfl, fun _ _ h => h⟩
  | c :: cs, h, hn, hs, hf, n => by
    simp only [NoParensAll] at h
    simp only [NamesAllOK] at hn
    simp only [SubScopedAll] at hs
    simp only [flatAll, Bool.and_eq_true] at hf
    obtain ⟨c', n1, e1, s1⟩ := transform_ok hk hask c .and h.1 hn.1 hs.1 (hf.imp id (·.1)) n
    obtain ⟨cs', n2, e2, s2⟩ := transformAll_ok hk hask cs h.2 hn.2 hs.2 (hf.imp id (·.2)) n1
    refine ⟨c' :: cs', n2, by simp only [transformAll, e1, e2], by simp, ?_, ?_, ?_, ?_, ?_⟩
    · simp [noSubAll, s1.plain, s2.plain]
    · exact ⟨s1.names, s2.names⟩
    · simp only [NoParensAll]; exact ⟨s1.parens, s2.parens⟩
    · intro row; simp only [allValue, s1.value, s2.value]
    · intro row os hsc
      simp only [ScopedAll] at hsc ⊢
      exact ⟨s1.scope _ _ hsc.1, s2.scope _ _ hsc.2⟩
end

/-- A statement with a subquery fails. -/
theorem collect_fails {s : Stmt} {sub : SubSelect} {col : String} {n : Nat} {dbs : Nat → Db}
    (hask : Answers false rel res dbs ask) (hp : parseSub (lex res s.text) = some sub)
    (hs : noSelect sub.cond = false) : collect ask col s n = none := by
  have h := hask n s.text s.params
  simp only [SubOut, hp, hs] at h
  simp only [Bool.false_or, Bool.false_eq_true, if_false] at h
  simp only [collect, h]

mutual
theorem transform_fails (hk : CoversReserved kw res) {dbs : Nat → Db}
    (hask : Answers false rel res dbs ask) :
    (e : BoolExpr) → (p : Pos) → NeedsNoParens true p e → NamesOK res e → flat e = false →
    (n : Nat) → transform (dialect kw) ask e n = none
  | .true_, _, _, _, hf, _ => by simp [flat] at hf
  | .cmp _ _ _, _, _, _, hf, _ => by simp [flat] at hf
  | .inVals _ _, _, _, _, hf, _ => by simp [flat] at hf
  | .and a b, p, h, hn, hf, n => by
    simp only [NeedsNoParens] at h
    simp only [NamesOK] at hn
    simp only [flat, Bool.and_eq_false_iff] at hf
    simp only [transform]
    rcases hf with hf | hf
    · rw [transform_fails hk hask a _ h.2.1 hn.1 hf n]
    · cases h1 : transform (dialect kw) ask a n with
      | none => rfl
      | some x =>
        obtain ⟨a', n'⟩ := x
        simp only [transform_fails hk hask b _ h.2.2 hn.2 hf n']
  | .or a b, p, h, hn, hf, n => by
    simp only [NeedsNoParens] at h
    simp only [NamesOK] at hn
    simp only [flat, Bool.and_eq_false_iff] at hf
    simp only [transform]
    rcases hf with hf | hf
    · rw [transform_fails hk hask a _ h.2.1 hn.1 hf n]
    · cases h1 : transform (dialect kw) ask a n with
      | none => rfl
      | some x =>
        obtain ⟨a', n'⟩ := x
        simp only [transform_fails hk hask b _ h.2.2 hn.2 hf n']
  | .not a, p, h, hn, hf, n => by
    simp only [NeedsNoParens] at h
    simp only [NamesOK] at hn
    simp only [flat] at hf
    simp only [transform, transform_fails hk hask a _ h hn hf n]
  | .allOf cs, p, h, hn, hf, n => by
    simp only [NeedsNoParens] at h
    simp only [NamesOK] at hn
    simp only [flat] at hf
    simp only [transform, transformAll_fails hk hask cs h.2.2 hn hf n]
  | .subquery col t c e, p, h, hn, hf, n => by
    simp only [NeedsNoParens] at h
    simp only [NamesOK] at hn
    simp only [flat] at hf
    simp only [transform]
    exact collect_fails hask (parse_simple hk hn.2.1 hn.2.2.1 hn.2.2.2 h)
      (by simp only [noSelect, noSelect_disjs e h, hf])
  | .subqueryJoin col t c js e, p, h, hn, hf, n => by
    simp only [NeedsNoParens] at h
    simp only [NamesOK] at hn
    simp only [flat] at hf
    simp only [transform]
    exact collect_fails hask (parse_join hk hn.2.1 hn.2.2.1 h.1 hn.2.2.2.1 hn.2.2.2.2 h.2)
      (by simp only [noSelect, noSelect_disjs e h.2, hf])
theorem transformAll_fails (hk : CoversReserved kw res) {dbs : Nat → Db}
    (hask : Answers false rel res dbs ask) :
    (cs : List BoolExpr) → NoParensAll true cs → NamesAllOK res cs → flatAll cs = false →
    (n : Nat) → transformAll (dialect kw) ask cs n = none
  | [], _, _, hf, _ => by simp [flatAll] at hf
  | c :: cs, h, hn, hf, n => by
    simp only [NoParensAll] at h
    simp only [NamesAllOK] at hn
    simp only [flatAll, Bool.and_eq_false_iff] at hf
    simp only [transformAll]
    rcases hf with hf | hf
    · rw [transform_fails hk hask c _ h.1 hn.1 hf n]
    · cases h1 : transform (dialect kw) ask c n with
      | none => rfl
      | some x =>
        obtain ⟨c', n'⟩ := x
        simp only [transformAll_fails hk hask cs h.2 hn.2 hf n']
end

/-! ### Conditions read on a row -/

mutual
theorem subScoped_of {row : Row} {os : List Row} : (e : BoolExpr) → Scoped db row os e →
    SubScoped db e
  | .true_, _ => by simp [SubScoped]
  | .cmp _ _ _, _ => by simp [SubScoped]
  | .allOf cs, h => by
    simp only [Scoped] at h
    simpa only [SubScoped] using subScopedAll_of cs h
  | .and a b, h => by
    simp only [Scoped] at h
    simpa only [SubScoped] using ⟨subScoped_of a h.1, subScoped_of b h.2⟩
  | .or a b, h => by
    simp only [Scoped] at h
    simpa only [SubScoped] using ⟨subScoped_of a h.1, subScoped_of b h.2⟩
  | .not a, h => by
    simp only [Scoped] at h
    simpa only [SubScoped] using subScoped_of a h
  | .subquery _ _ _ _, h => by
    simp only [Scoped] at h
    simpa only [SubScoped] using h.2
  | .inVals _ _, _ => by simp [SubScoped]
  | .subqueryJoin _ _ _ _ _, h => by
    simp only [Scoped] at h
    simpa only [SubScoped] using h.2
theorem subScopedAll_of {row : Row} {os : List Row} : (cs : List BoolExpr) →
    ScopedAll db row os cs → SubScopedAll db cs
  | [], _ => by simp [SubScopedAll]
  | c :: cs, h => by
    simp only [ScopedAll] at h
    simpa only [SubScopedAll] using ⟨subScoped_of c h.1, subScopedAll_of cs h.2⟩
end

/-! ### Databases whose values fit have answers -/

/-- All stored values are values of the five kinds. -/
def Storable (db : Db) : Prop := ∀ t, ∀ r ∈ db.rows t, ∀ c, ∃ w, ofTurso w = r.val c

/-- The rows of a combination are stored. -/
def Stored (db : Db) (s : Scope) : Prop := ∀ x ∈ s, ∃ t, x.2 ∈ db.rows t

theorem stored_selectTrue {p : Scope → Option (Option Bool)} : {ss ss' : List Scope} →
    selectTrue p ss = some ss' → ∀ s ∈ ss', s ∈ ss
  | [], ss', h => by
    simp only [selectTrue, Option.some.injEq] at h
    simp [← h]
  | a :: as, ss', h => by
    simp only [selectTrue] at h
    cases h1 : p a with
    | none => simp [h1] at h
    | some b =>
      cases h2 : selectTrue p as with
      | none => simp [h1, h2] at h
      | some rest =>
        simp only [h1, h2, Option.some.injEq] at h
        intro s hs
        have ih := stored_selectTrue h2 s
        rw [← h] at hs
        split at hs
        · rcases List.mem_cons.1 hs with rfl | hs
          · simp
          · exact .tail _ (ih hs)
        · exact .tail _ (ih hs)

theorem stored_joinRows {ps : List DbVal} {env : List Scope} : (js : List SJoin) →
    {ss ss' : List Scope} → joinRows rel db ps env js ss = some ss' → (∀ s ∈ ss, Stored db s) →
    ∀ s ∈ ss', Stored db s
  | [], ss, ss', h, hs => by
    simp only [joinRows, Option.some.injEq] at h
    rwa [← h]
  | j :: js, ss, ss', h, hs => by
    simp only [joinRows] at h
    split at h
    · split at h
      · rename_i ss'' h2
        refine stored_joinRows js h ?_
        intro s hm
        have := stored_selectTrue h2 s hm
        simp only [List.mem_flatMap, List.mem_map] at this
        obtain ⟨s0, h0, r, hr, rfl⟩ := this
        intro x hx
        rcases List.mem_append.1 hx with hx | hx
        · exact hs s0 h0 x hx
        · simp only [List.mem_singleton] at hx
          subst hx
          exact ⟨_, hr⟩
      · cases h
    · cases h

theorem stored_mapOk {f : Scope → Option DbVal} {P : DbVal → Prop} : {ss : List Scope} →
    {vs : List DbVal} → mapOk f ss = some vs → (∀ s ∈ ss, ∀ v, f s = some v → P v) → ∀ v ∈ vs, P v
  | [], vs, h, _ => by
    simp only [mapOk, Option.some.injEq] at h
    simp [← h]
  | a :: as, vs, h, hp => by
    simp only [mapOk] at h
    cases h1 : f a with
    | none => simp [h1] at h
    | some b =>
      cases h2 : mapOk f as with
      | none => simp [h1, h2] at h
      | some bs =>
        simp only [h1, h2, Option.some.injEq] at h
        intro v hv
        rw [← h] at hv
        rcases List.mem_cons.1 hv with rfl | hv
        · exact hp a (by simp) _ h1
        · exact stored_mapOk h2 (fun s hs => hp s (.tail _ hs)) v hv

theorem parseSub_col {ts : List Tok} {s : SubSelect} (h : parseSub ts = some s) :
    ∃ t c, s.col = .col t c := by
  have hc : ∀ r c r', pColumn r = some (c, r') → ∃ t n, c = .col t n := by
    intro r c r' h
    unfold pColumn at h
    split at h
    · cases h
      exact ⟨_, _, rfl⟩
    · cases h
      exact ⟨_, _, rfl⟩
    · cases h
  unfold parseSub at h
  split at h
  · split at h
    · rename_i h1
      split at h
      · split at h
        · cases h
          exact hc _ _ _ h1
        · cases h
      · cases h
    · cases h
  · cases h

theorem values_storable (hst : Storable db) {ts : List Tok} {s : SubSelect}
    (hs : parseSub ts = some s) {ps : List DbVal} {all : List DbVal}
    (h : subValues rel db ps s = some all) : ∀ v ∈ all, ∃ w, ofTurso w = v := by
  obtain ⟨t, c, hc⟩ := parseSub_col hs
  unfold subValues at h
  split at h
  · rename_i hj
    split at h
    · rename_i h2
      refine stored_mapOk h ?_
      intro x hx v hv
      have hsto := stored_joinRows _ hj (by
        intro y hy
        simp only [List.mem_map] at hy
        obtain ⟨r, hr, rfl⟩ := hy
        intro z hz
        simp only [List.mem_singleton] at hz
        subst hz
        exact ⟨_, hr⟩) x (stored_selectTrue h2 x hx)
      rw [hc] at hv
      simp only [evalOperand, lookupCol, inScope] at hv
      split at hv
      · cases hv
      · rename_i h3
        split at h3
        · cases h3
        · rename_i tr h4
          simp only [Option.some.injEq] at h3
          rw [← h3] at hv
          simp only [Option.some.injEq] at hv
          have : tr ∈ x := (List.mem_filter.1 (h4 ▸ List.mem_singleton.2 rfl)).1
          obtain ⟨t', ht'⟩ := hsto tr this
          rw [← hv]
          exact hst t' _ ht' c
        · simp only [Option.some.injEq] at h3
          rw [← h3] at hv
          cases hv
    · cases h
  · cases h

theorem exists_map_ofTurso : (vs : List DbVal) → (∀ v ∈ vs, ∃ w, ofTurso w = v) →
    ∃ ws : List Val, ws.map ofTurso = vs
  | [], _ => ⟨[], rfl⟩
  | v :: vs, h => by
    obtain ⟨w, hw⟩ := h v (by simp)
    obtain ⟨ws, hws⟩ := exists_map_ofTurso vs (fun x hx => h x (.tail _ hx))
    exact ⟨w :: ws, by simp [hw, hws]⟩

/-- There are answers for every history of databases whose values are of the five kinds. -/
theorem answers_exist (subs : Bool) (rel : Compare) (res : String → Bool) {dbs : Nat → Db}
    (h : ∀ n, Storable (dbs n)) : ∃ ask, Answers subs rel res dbs ask := by
  have : ∀ n text vals, ∃ out, SubOut subs rel res (dbs n) text vals out := by
    intro n text vals
    unfold SubOut
    cases hp : parseSub (lex res text) with
    | none => exact ⟨none, rfl⟩
    | some s =>
      simp only
      split
      · cases hv : subValues rel (dbs n) (vals.map toDb) s with
        | none => exact ⟨none, rfl⟩
        | some all =>
          obtain ⟨ws, hws⟩ := exists_map_ofTurso all (values_storable (h n) hp hv)
          exact ⟨some ws, ws, rfl, by rw [hws]; exact ⟨fun _ h => h, fun _ h => .inl h⟩⟩
      · exact ⟨none, rfl⟩
  exact ⟨fun n text vals => Classical.choose (this n text vals),
    fun n text vals => Classical.choose_spec (this n text vals)⟩

mutual
/-- Without subqueries the other tables do not matter. -/
theorem noSub_value (db db' : Db) (row : Row) : (e : BoolExpr) → NeedsNoParens eo p e →
    noSub e = true → boolValue rel db row e = boolValue rel db' row e
  | .true_, _, _ => by simp [boolValue]
  | .cmp op col e, hp, _ => by
    simp only [NeedsNoParens] at hp
    have : exprValue rel db row e = exprValue rel db' row e := by
      cases e with
      | column c => simp [exprValue]
      | val v => simp [exprValue]
      | placeholder => simp [exprValue]
      | condition c => simp [SimpleOperand] at hp
    unfold boolValue
    split <;> simp_all
  | .allOf cs, hp, h => by
    simp only [NeedsNoParens] at hp
    simp only [noSub] at h
    simpa only [boolValue] using noSub_valueAll db db' row cs hp.2.2 h
  | .and a b, hp, h => by
    simp only [NeedsNoParens] at hp
    simp only [noSub, Bool.and_eq_true] at h
    simp only [boolValue, noSub_value db db' row a hp.2.1 h.1, noSub_value db db' row b hp.2.2 h.2]
  | .or a b, hp, h => by
    simp only [NeedsNoParens] at hp
    simp only [noSub, Bool.and_eq_true] at h
    simp only [boolValue, noSub_value db db' row a hp.2.1 h.1, noSub_value db db' row b hp.2.2 h.2]
  | .not a, hp, h => by
    simp only [NeedsNoParens] at hp
    simp only [noSub] at h
    simp only [boolValue, noSub_value db db' row a hp h]
  | .subquery _ _ _ _, _, h => by simp [noSub] at h
  | .inVals _ _, _, _ => by simp [boolValue]
  | .subqueryJoin _ _ _ _ _, _, h => by simp [noSub] at h
theorem noSub_valueAll (db db' : Db) (row : Row) : (cs : List BoolExpr) → NoParensAll eo cs →
    noSubAll cs = true → allValue rel db row cs = allValue rel db' row cs
  | [], _, _ => by simp [allValue]
  | c :: cs, hp, h => by
    simp only [NoParensAll] at hp
    simp only [noSubAll, Bool.and_eq_true] at h
    simp only [allValue, noSub_value db db' row c hp.1 h.1, noSub_valueAll db db' row cs hp.2 h.2]
end

end Butane.Turso
