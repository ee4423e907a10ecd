/-
From rendered text to selected rows.
-/
import Verif.Proofs.Eval

namespace Butane
open Sql Spec

variable {eo : Bool} {rel : Compare} {db : Db}

/-- A rendered condition, read by the database, has the meaning of the expression. -/
theorem whereValue_ok {d : Dialect} {res : String → Bool} {cnt : Nat → Nat} {B : Nat}
    (hk : CoversReserved d.keyword res) (hp : PhReads d res cnt B) (h0 : cnt 0 = 0)
    {e : BoolExpr} (h : NeedsNoParens eo .or e) (hn : NamesOK res e)
    {row : Row} (hs : Scoped db row [] e) (hb : (renderBool d e 0).vals.length ≤ B) (t : String) :
    whereValue eo rel res db t row (renderBool d e 0).text (renderBool d e 0).vals =
      some (boolValue rel db row e) := by
  rw [renderBool_vals, valsBool_len e (noPlaceholder_of e _ h)] at hb
  unfold whereValue
  rw [lex_renderBool hk hp h0 (oneJoin_of e _ h) hn hb, parseCond_ok h, renderBool_vals]
  exact evalDisjs e h 0 t row [] [] hs (seg_all _)

/-! ### Placeholders -/

theorem paramsOf_append (a b : List Tok) : paramsOf (a ++ b) = paramsOf a ++ paramsOf b := by
  simp [paramsOf]

theorem paramsOf_val (v : SqlVal) (n : Nat) : paramsOf (toksVal v n) = List.range' n (cntVal v) := by
  cases v <;> rfl

theorem paramsOf_vals (vs : List SqlVal) (n : Nat) :
    paramsOf (toksVals vs n) = List.range' n (cntVals vs) := by
  induction vs generalizing n with
  | nil => rfl
  | cons v rest ih =>
    cases rest with
    | nil => simpa [toksVals, cntVals] using paramsOf_val v n
    | cons w rest =>
      have e1 : ∀ x, paramsOf (Tok.comma :: x) = paramsOf x := fun _ => rfl
      simp only [toksVals, paramsOf_append, paramsOf_val, e1, ih]
      rw [List.range'_append_1]
      rfl

theorem paramsOf_col (c : QColumn) : paramsOf (toksCol c) = [] := by
  obtain ⟨t, c⟩ := c
  cases t <;> rfl

theorem paramsOf_joins (js : List Join) : paramsOf (toksJoins js) = [] := by
  induction js with
  | nil => rfl
  | cons j js ih => 
    have e1 : ∀ w x, paramsOf (Tok.kw w :: x) = paramsOf x := fun _ _ => rfl
    have e2 : ∀ w x, paramsOf (Tok.ident w :: x) = paramsOf x := fun _ _ => rfl
    have e3 : ∀ w x, paramsOf (Tok.op w :: x) = paramsOf x := fun _ _ => rfl
    simp [toksJoins, paramsOf_append, paramsOf_col, ih, e1, e2, e3]

theorem paramsOf_kw (w : String) (x : List Tok) : paramsOf (.kw w :: x) = paramsOf x := rfl
theorem paramsOf_ident (w : String) (x : List Tok) : paramsOf (.ident w :: x) = paramsOf x := rfl
theorem paramsOf_lparen (x : List Tok) : paramsOf (.lparen :: x) = paramsOf x := rfl
theorem paramsOf_rparen : paramsOf [.rparen] = [] := rfl
theorem paramsOf_opTok (op : CmpOp) (x : List Tok) : paramsOf (opTok op :: x) = paramsOf x := by
  cases op <;> rfl

mutual
theorem paramsOf_bool : (e : BoolExpr) → (n : Nat) →
    paramsOf (toksBool e n) = List.range' n (cntBool e)
  | .true_, _ => rfl
  | .cmp op col e, n => by
    simp only [toksBool, cntBool]
    split
    · simp only [toksNull]
      split <;> rfl
    · rw [paramsOf_ident, paramsOf_opTok, paramsOf_expr e n]
  | .allOf cs, n => by simpa [toksBool, cntBool] using paramsOf_all cs n
  | .and a b, n => by
    simp only [toksBool, cntBool]
    rw [paramsOf_append, paramsOf_kw, paramsOf_bool a, paramsOf_bool b, List.range'_append_1]
  | .or a b, n => by
    simp only [toksBool, cntBool]
    rw [paramsOf_append, paramsOf_kw, paramsOf_bool a, paramsOf_bool b, List.range'_append_1]
  | .not a, n => by
    simp only [toksBool, cntBool]
    rw [paramsOf_kw, paramsOf_bool a]
  | .subquery col t c e, n => by
    simp [toksBool, cntBool, paramsOf_append, paramsOf_kw, paramsOf_ident, paramsOf_lparen,
      paramsOf_rparen, paramsOf_bool e n]
  | .inVals col vs, n => by
    simp [toksBool, cntBool, paramsOf_append, paramsOf_kw, paramsOf_ident, paramsOf_lparen,
      paramsOf_rparen, paramsOf_vals vs n]
  | .subqueryJoin col t c js e, n => by
    simp [toksBool, cntBool, paramsOf_append, paramsOf_kw, paramsOf_ident, paramsOf_lparen,
      paramsOf_rparen, paramsOf_bool e n, paramsOf_col, paramsOf_joins]
theorem paramsOf_all : (cs : List BoolExpr) → (n : Nat) →
    paramsOf (toksAll cs n) = List.range' n (cntAll cs)
  | [], _ => rfl
  | [c], n => by simpa [toksAll, cntAll] using paramsOf_bool c n
  | c :: c' :: rest, n => by
    simp only [toksAll]
    rw [paramsOf_append, paramsOf_kw, paramsOf_bool c, paramsOf_all (c' :: rest),
      List.range'_append_1]
    simp [cntAll]
theorem paramsOf_expr : (e : Expr) → (n : Nat) →
    paramsOf (toksExpr e n) = List.range' n (cntExpr e)
  | .val v, n => by simpa [toksExpr, cntExpr] using paramsOf_val v n
  | .column _, _ => rfl
  | .placeholder, _ => rfl
  | .condition c, n => by simpa [toksExpr, cntExpr] using paramsOf_bool c n
end

theorem params_render {d : Dialect} {res : String → Bool} {cnt : Nat → Nat} {B : Nat}
    (hk : CoversReserved d.keyword res) (hp : PhReads d res cnt B) (h0 : cnt 0 = 0)
    {e : BoolExpr} (h : OneJoin e) (hph : NoPlaceholder e) (hn : NamesOK res e)
    (hb : (renderBool d e 0).vals.length ≤ B) :
    paramsOf (lex res (renderBool d e 0).text) = List.range (renderBool d e 0).vals.length := by
  have hl : (renderBool d e 0).vals.length = cntBool e := by
    rw [renderBool_vals, valsBool_len e hph]
  rw [hl] at hb ⊢
  rw [lex_renderBool hk hp h0 h hn hb, paramsOf_bool, List.range_eq_range']

/-! ### Text does not depend on bound values -/

theorem render_blank (d : Dialect) (v : SqlVal) (n : Nat) :
    (renderVal d (blank v) n).text = (renderVal d v n).text ∧
    (renderVal d (blank v) n).n = (renderVal d v n).n := by
  cases v <;> exact ⟨rfl, rfl⟩

theorem render_blanks (d : Dialect) (vs : List SqlVal) (n : Nat) :
    (renderVals d (vs.map blank) n).text = (renderVals d vs n).text ∧
    (renderVals d (vs.map blank) n).n = (renderVals d vs n).n := by
  induction vs generalizing n with
  | nil => exact ⟨rfl, rfl⟩
  | cons v rest ih =>
    cases rest with
    | nil => exact render_blank d v n
    | cons w rest =>
      simp only [List.map_cons, renderVals] at ih ⊢
      rw [(render_blank d v n).2, (render_blank d v n).1]
      exact ⟨by rw [(ih _).1], (ih _).2⟩

theorem isNullTest_skeleton (op : CmpOp) (e : Expr) :
    isNullTest op (skeletonExpr e) = isNullTest op e := by
  cases e with
  | val v => cases op <;> cases v <;> rfl
  | _ => cases op <;> rfl

mutual
theorem render_skeleton (d : Dialect) : (e : BoolExpr) → (n : Nat) →
    (renderBool d (skeleton e) n).text = (renderBool d e n).text ∧
    (renderBool d (skeleton e) n).n = (renderBool d e n).n
  | .true_, _ => ⟨rfl, rfl⟩
  | .cmp op col e, n => by
    simp only [skeleton]
    cases h : isNullTest op e with
    | false =>
      rw [render_cmp h, render_cmp (by rw [isNullTest_skeleton]; exact h)]
      exact ⟨by simp only [(render_skeletonExpr d e n).1], (render_skeletonExpr d e n).2⟩
    | true => obtain ⟨rfl, rfl | rfl⟩ := isNullTest_true h <;> exact ⟨rfl, rfl⟩
  | .allOf cs, n => by simpa only [skeleton, renderBool] using render_skeletonAll d cs n
  | .and a b, n => by
    simp only [skeleton, renderBool, (render_skeleton d a n).1, (render_skeleton d a n).2]
    exact ⟨by rw [(render_skeleton d b _).1], (render_skeleton d b _).2⟩
  | .or a b, n => by
    simp only [skeleton, renderBool, (render_skeleton d a n).1, (render_skeleton d a n).2]
    exact ⟨by rw [(render_skeleton d b _).1], (render_skeleton d b _).2⟩
  | .not a, n => by
    simp only [skeleton, renderBool, (render_skeleton d a n).1, (render_skeleton d a n).2, and_self]
  | .subquery _ _ _ e, n => by
    simp only [skeleton, renderBool, (render_skeleton d e n).1, (render_skeleton d e n).2, and_self]
  | .inVals _ vs, n => by
    simp only [skeleton, renderBool, (render_blanks d vs n).1, (render_blanks d vs n).2, and_self]
  | .subqueryJoin _ _ _ _ e, n => by
    simp only [skeleton, renderBool, (render_skeleton d e n).1, (render_skeleton d e n).2, and_self]
theorem render_skeletonAll (d : Dialect) : (cs : List BoolExpr) → (n : Nat) →
    (renderAll d (skeletonAll cs) n).text = (renderAll d cs n).text ∧
    (renderAll d (skeletonAll cs) n).n = (renderAll d cs n).n
  | [], _ => ⟨rfl, rfl⟩
  | [c], n => by simpa only [skeletonAll, renderAll] using render_skeleton d c n
  | c :: c' :: rest, n => by
    have ih := render_skeletonAll d (c' :: rest)
    simp only [skeletonAll] at ih
    simp only [skeletonAll, renderAll, (render_skeleton d c n).1, (render_skeleton d c n).2]
    exact ⟨by rw [(ih _).1], (ih _).2⟩
theorem render_skeletonExpr (d : Dialect) : (e : Expr) → (n : Nat) →
    (renderExpr d (skeletonExpr e) n).text = (renderExpr d e n).text ∧
    (renderExpr d (skeletonExpr e) n).n = (renderExpr d e n).n
  | .val v, n => by simpa only [skeletonExpr, renderExpr] using render_blank d v n
  | .column _, _ => ⟨rfl, rfl⟩
  | .placeholder, _ => ⟨rfl, rfl⟩
  | .condition c, n => by simpa only [skeletonExpr, renderExpr] using render_skeleton d c n
end

/-! ### `filter!` expressions -/

theorem kAnd_eq_true {a b : Option Bool} : kAnd a b = some true ↔ a = some true ∧ b = some true := by
  rcases a with _ | _ | _ <;> rcases b with _ | _ | _ <;> simp [kAnd]

theorem kOr_eq_true {a b : Option Bool} : kOr a b = some true ↔ a = some true ∨ b = some true := by
  rcases a with _ | _ | _ <;> rcases b with _ | _ | _ <;> simp [kOr]

theorem cmp3_true {op : CmpOp} {a b : DbVal} :
    cmp3 rel op a b = some true ↔ a ≠ .null ∧ b ≠ .null ∧ rel op a b = true := by
  cases a <;> cases b <;> simp [cmp3]

theorem in3_true {a : DbVal} {vs : List DbVal} :
    in3 rel a vs = some true ↔ ∃ v ∈ vs, Equal rel a v := by
  induction vs with
  | nil => simp [in3]
  | cons v vs ih =>
    have e1 : in3 rel a (v :: vs) = kOr (cmp3 rel .eq a v) (in3 rel a vs) := rfl
    rw [e1, kOr_eq_true, ih, cmp3_true]
    simp [Equal]

theorem cmp_holds {row : Row} {op : CmpOp} {f : String} {v : SqlVal} :
    boolValue rel db row (.cmp op f (.val v)) = some true ↔ CmpHolds rel op (row.val f) v := by
  cases op <;> cases v <;> simp [boolValue, CmpHolds, exprValue, cmp3_true, toDb]

theorem subfilter_holds {row : Row} {f : String} {t : ObjType} {q : BoolExpr} :
    boolValue rel db row (subfilter f t q) = some true ↔
      ∃ r ∈ db.rows t.table, boolValue rel db r q = some true ∧
        Equal rel (row.val f) (r.val t.pkcol) := by
  simp only [subfilter, boolValue, in3_true, List.mem_map, List.mem_filter]
  constructor
  · rintro ⟨v, ⟨r, ⟨hr, hq⟩, rfl⟩, he⟩
    exact ⟨r, hr, by simpa using hq, he⟩
  · rintro ⟨r, hr, hq, he⟩
    exact ⟨_, ⟨r, ⟨hr, by simpa using hq⟩, rfl⟩, he⟩

theorem contains_holds {row : Row} {m : String} {o t : ObjType} {q : BoolExpr} (hm : m ≠ t.table) :
    boolValue rel db row (manyContains m o t q) = some true ↔
      ∃ r ∈ db.rows t.table, boolValue rel db r q = some true ∧
        ∃ l ∈ db.rows m, Equal rel (l.val "has") (r.val t.pkcol) ∧
          Equal rel (row.val o.pkcol) (l.val "owner") := by
  have hj : ∀ r, (joined rel db r [⟨m, ⟨some m, "has"⟩, ⟨some t.table, t.pkcol⟩⟩] [[(t.table, r)]]).map
        (fun s => colOf s r ⟨some m, "owner"⟩) =
      ((db.rows m).filter fun l => cmp3 rel .eq (l.val "has") (r.val t.pkcol) = some true).map
        fun l => l.val "owner" := by
    intro r
    have hm' : t.table ≠ m := fun h => hm h.symm
    simp only [joined, List.flatMap_cons, List.flatMap_nil, List.append_nil, List.filter_map,
      List.map_map]
    have hc : ∀ l : Row, ∀ n, colOf [(t.table, r), (m, l)] r ⟨some m, n⟩ = l.val n := by
      intro l n
      simp [colOf, List.find?, beq_eq_false_iff_ne.mpr hm']
    have hc2 : ∀ l : Row, ∀ n, colOf [(t.table, r), (m, l)] r ⟨some t.table, n⟩ = r.val n := by
      intro l n
      simp [colOf, List.find?]
    congr 1
    · funext l; exact hc l _
    · congr 1
      funext l
      simp only [Function.comp, List.singleton_append, hc, hc2]
  simp only [manyContains, boolValue, in3_true, List.mem_flatMap, hj, List.mem_map, List.mem_filter]
  constructor
  · rintro ⟨v, ⟨r, ⟨hr, hq⟩, l, ⟨hl, hh⟩, rfl⟩, he⟩
    exact ⟨r, hr, by simpa using hq, l, hl, cmp3_true.mp (by simpa using hh), he⟩
  · rintro ⟨r, hr, hq, l, hl, hh, he⟩
    exact ⟨_, ⟨r, ⟨hr, by simpa using hq⟩, l, ⟨hl, by simpa using cmp3_true.mpr hh⟩, rfl⟩, he⟩

mutual
theorem atom_holds : (a : FAtom) → (row : Row) → (os : List Row) → AtomScoped db row os a →
    (boolValue rel db row a.toBool = some true ↔ AtomHolds rel db row a)
  | .cmp op f v, row, os, _ => by
    simp only [FAtom.toBool, fieldCmp, AtomHolds]
    exact cmp_holds
  | .isIn f vs, row, os, _ => by
    simp only [FAtom.toBool, fieldIsIn, AtomHolds, boolValue, in3_true, List.mem_map]
    exact ⟨fun ⟨v, ⟨a, ha, hv⟩, he⟩ => ⟨a, ha, hv ▸ he⟩, fun ⟨v, hv, he⟩ => ⟨_, ⟨v, hv, rfl⟩, he⟩⟩
  | .matchesPk f t pk, row, os, _ => by
    simp only [FAtom.toBool, subfilterpk, AtomHolds, subfilter_holds, cmp_holds]
  | .matches f t e, row, os, h => by
    simp only [AtomScoped] at h
    simp only [FAtom.toBool, AtomHolds, subfilter_holds]
    constructor
    · rintro ⟨r, hr, hq, he⟩
      exact ⟨r, hr, (filter_holds e r [] (h.2.2 r hr).2).mp hq, he⟩
    · rintro ⟨r, hr, hq, he⟩
      exact ⟨r, hr, (filter_holds e r [] (h.2.2 r hr).2).mpr hq, he⟩
  | .containsPk m o t pk, row, os, h => by
    simp only [AtomScoped] at h
    simp only [FAtom.toBool, manyContainspk, AtomHolds, contains_holds h.2.1.2.2.1, cmp_holds]
  | .contains m o t e, row, os, h => by
    simp only [AtomScoped] at h
    simp only [FAtom.toBool, AtomHolds, contains_holds h.2.1.2.2.1]
    constructor
    · rintro ⟨r, hr, hq, l, hl, he⟩
      exact ⟨r, hr, (filter_holds e r [l] (h.2.2 r hr l hl)).mp hq, l, hl, he⟩
    · rintro ⟨r, hr, hq, l, hl, he⟩
      exact ⟨r, hr, (filter_holds e r [l] (h.2.2 r hr l hl)).mpr hq, l, hl, he⟩
theorem and_holds : (a : FAnd) → (row : Row) → (os : List Row) → AndScoped db row os a →
    (boolValue rel db row a.toBool = some true ↔ AndHolds rel db row a)
  | .one a, row, os, h => by
    simp only [AndScoped] at h
    simpa only [FAnd.toBool, AndHolds] using atom_holds a row os h
  | .and l r, row, os, h => by
    simp only [AndScoped] at h
    simp only [FAnd.toBool, AndHolds, boolValue, kAnd_eq_true, and_holds l row os h.1,
      atom_holds r row os h.2]
theorem filter_holds : (e : FOr) → (row : Row) → (os : List Row) → FilterScoped db row os e →
    (boolValue rel db row e.toBool = some true ↔ FilterHolds rel db row e)
  | .one a, row, os, h => by
    simp only [FilterScoped] at h
    simpa only [FOr.toBool, FilterHolds] using and_holds a row os h
  | .or l r, row, os, h => by
    simp only [FilterScoped] at h
    simp only [FOr.toBool, FilterHolds, boolValue, kOr_eq_true, filter_holds l row os h.1,
      and_holds r row os h.2]
end

/-- The conditions `filter!` builds need no parentheses. -/
theorem needsNoParens_join {m : String} {o t : ObjType} {q : BoolExpr} {p : Pos}
    (h : NeedsNoParens eo .or q) : NeedsNoParens eo p (manyContains m o t q) := by
  simpa [manyContains, NeedsNoParens] using h

mutual
theorem atom_noParens : (a : FAtom) → (eo = true ∨ AtomLists a) → (p : Pos) →
    NeedsNoParens eo p a.toBool
  | .cmp op f v, _, p => by simp [FAtom.toBool, fieldCmp, NeedsNoParens, SimpleOperand]
  | .isIn f vs, h, p => by simpa [FAtom.toBool, fieldIsIn, NeedsNoParens, AtomLists] using h
  | .matchesPk f t pk, _, p => by
    simp [FAtom.toBool, subfilterpk, subfilter, NeedsNoParens, SimpleOperand]
  | .matches f t e, h, p => by
    simpa [FAtom.toBool, subfilter, NeedsNoParens] using
      filter_noParens e (by simpa [AtomLists] using h)
  | .containsPk m o t pk, _, p => by
    simp only [FAtom.toBool, manyContainspk]
    exact needsNoParens_join (by simp [NeedsNoParens, SimpleOperand])
  | .contains m o t e, h, p => by
    simp only [FAtom.toBool]
    exact needsNoParens_join (filter_noParens e (by simpa [AtomLists] using h))
theorem and_noParens : (a : FAnd) → (eo = true ∨ AndLists a) → (p : Pos) → p ≠ .not →
    NeedsNoParens eo p a.toBool
  | .one a, h, p, _ => by
    simpa [FAnd.toBool] using atom_noParens a (by simpa [AndLists] using h) p
  | .and l r, h, p, hp => by
    have h : eo = true ∨ (AndLists l ∧ AtomLists r) := by simpa only [AndLists] using h
    simp only [FAnd.toBool, NeedsNoParens]
    exact ⟨hp, and_noParens l (h.imp id And.left) .and (by simp),
      atom_noParens r (h.imp id And.right) .and⟩
theorem filter_noParens : (e : FOr) → (eo = true ∨ FilterLists e) →
    NeedsNoParens eo .or e.toBool
  | .one a, h => by
    simpa [FOr.toBool] using and_noParens a (by simpa [FilterLists] using h) .or (by simp)
  | .or l r, h => by
    have h : eo = true ∨ (FilterLists l ∧ AndLists r) := by simpa only [FilterLists] using h
    simp only [FOr.toBool, NeedsNoParens]
    exact ⟨trivial, filter_noParens l (h.imp id And.left),
      and_noParens r (h.imp id And.right) .or (by simp)⟩
end

theorem isName_owner : IsName "owner" := ⟨'o', _, rfl, by decide, by decide⟩
theorem isName_has : IsName "has" := ⟨'h', _, rfl, by decide, by decide⟩

theorem names_join {res : String → Bool} {m : String} {o t : ObjType} {q : BoolExpr}
    (hm : IsName m) (ho : IsName o.pkcol) (ht : IsName t.table) (hk : IsName t.pkcol)
    (hq : NamesOK res q) : NamesOK res (manyContains m o t q) := by
  simp only [manyContains, NamesOK, List.mem_singleton, forall_eq, ColName]
  exact ⟨ho, ht, ⟨hm, isName_owner⟩, ⟨hm, ⟨hm, isName_has⟩, ht, hk⟩, hq⟩

mutual
theorem atom_names {res : String → Bool} : (a : FAtom) → AtomNames res a → NamesOK res a.toBool
  | .cmp op f v, h => by
    simp only [AtomNames] at h
    simpa [FAtom.toBool, fieldCmp, NamesOK, NamesExprOK] using h
  | .isIn f vs, h => by
    simpa [FAtom.toBool, fieldIsIn, NamesOK, AtomNames] using h
  | .matchesPk f t pk, h => by
    simp only [AtomNames] at h
    simpa [FAtom.toBool, subfilterpk, subfilter, NamesOK, NamesExprOK] using
      ⟨h.1, h.2.1, h.2.2.1, h.2.2⟩
  | .matches f t e, h => by
    simp only [AtomNames] at h
    simpa [FAtom.toBool, subfilter, NamesOK] using
      ⟨h.1, h.2.1, h.2.2.1, filter_names e h.2.2.2⟩
  | .containsPk m o t pk, h => by
    simp only [AtomNames] at h
    simp only [FAtom.toBool, manyContainspk]
    exact names_join h.1 h.2.1 h.2.2.1 h.2.2.2.1 (by simpa [NamesOK, NamesExprOK] using h.2.2.2)
  | .contains m o t e, h => by
    simp only [AtomNames] at h
    simp only [FAtom.toBool]
    exact names_join h.1 h.2.1 h.2.2.1 h.2.2.2.1 (filter_names e h.2.2.2.2)
theorem and_names {res : String → Bool} : (a : FAnd) → AndNames res a → NamesOK res a.toBool
  | .one a, h => by
    simp only [AndNames] at h
    simpa only [FAnd.toBool] using atom_names a h
  | .and l r, h => by
    simp only [AndNames] at h
    simpa only [FAnd.toBool, NamesOK] using ⟨and_names l h.1, atom_names r h.2⟩
theorem filter_names {res : String → Bool} : (e : FOr) → FilterNames res e → NamesOK res e.toBool
  | .one a, h => by
    simp only [FilterNames] at h
    simpa only [FOr.toBool] using and_names a h
  | .or l r, h => by
    simp only [FilterNames] at h
    simpa only [FOr.toBool, NamesOK] using ⟨filter_names l h.1, and_names r h.2⟩
end

theorem scoped_join {row : Row} {os : List Row} {m : String} {o t : ObjType} {q : BoolExpr}
    (hv : Visible row os o.pkcol) (hl : LinkOK db m t)
    (hq : ∀ r ∈ db.rows t.table, ∀ l ∈ db.rows m, Scoped db r [l] q) :
    Scoped db row os (manyContains m o t q) := by
  obtain ⟨h1, h2, hm, h3, h4⟩ := hl
  have hm' : t.table ≠ m := fun h => hm h.symm
  simp only [manyContains, Scoped, List.mem_singleton, forall_eq]
  refine ⟨hv, h1, h2, fun r hr s hs => ?_⟩
  simp only [combos, List.map_cons, List.map_nil, List.mem_flatMap, List.mem_singleton] at hs
  obtain ⟨l, hl, rfl⟩ := hs
  refine ⟨⟨l, ?_, (h4 l hl).1⟩, ⟨⟨l, ?_, (h4 l hl).2⟩, ⟨r, ?_, h3 r hr⟩⟩, by simpa using hq r hr l hl⟩
  all_goals simp [hm, hm']

mutual
theorem atom_scoped : (a : FAtom) → (row : Row) → (os : List Row) → AtomScoped db row os a →
    Scoped db row os a.toBool
  | .cmp op f v, row, os, h => by
    simp only [AtomScoped] at h
    simpa [FAtom.toBool, fieldCmp, Scoped] using h
  | .isIn f vs, row, os, h => by
    simpa [FAtom.toBool, fieldIsIn, Scoped, AtomScoped] using h
  | .matchesPk f t pk, row, os, h => by
    simp only [AtomScoped] at h
    simp only [FAtom.toBool, subfilterpk, subfilter, Scoped]
    exact ⟨h.1, h.2.1, fun r hr => ⟨h.2.2 r hr, ⟨h.2.2 r hr, by simp⟩, trivial⟩⟩
  | .matches f t e, row, os, h => by
    simp only [AtomScoped] at h
    simp only [FAtom.toBool, subfilter, Scoped]
    exact ⟨h.1, h.2.1, fun r hr => ⟨(h.2.2 r hr).1, filter_scoped e r [] (h.2.2 r hr).2⟩⟩
  | .containsPk m o t pk, row, os, h => by
    simp only [AtomScoped] at h
    simp only [FAtom.toBool, manyContainspk]
    refine scoped_join h.1 h.2.1 fun r hr l hl => ?_
    simp only [Scoped]
    exact ⟨⟨h.2.1.2.2.2.1 r hr, by simpa using h.2.2 l hl⟩, trivial⟩
  | .contains m o t e, row, os, h => by
    simp only [AtomScoped] at h
    simp only [FAtom.toBool]
    exact scoped_join h.1 h.2.1 fun r hr l hl => filter_scoped e r [l] (h.2.2 r hr l hl)
theorem and_scoped : (a : FAnd) → (row : Row) → (os : List Row) → AndScoped db row os a →
    Scoped db row os a.toBool
  | .one a, row, os, h => by
    simp only [AndScoped] at h
    simpa only [FAnd.toBool] using atom_scoped a row os h
  | .and l r, row, os, h => by
    simp only [AndScoped] at h
    simpa only [FAnd.toBool, Scoped] using ⟨and_scoped l row os h.1, atom_scoped r row os h.2⟩
theorem filter_scoped : (e : FOr) → (row : Row) → (os : List Row) → FilterScoped db row os e →
    Scoped db row os e.toBool
  | .one a, row, os, h => by
    simp only [FilterScoped] at h
    simpa only [FOr.toBool] using and_scoped a row os h
  | .or l r, row, os, h => by
    simp only [FilterScoped] at h
    simpa only [FOr.toBool, Scoped] using ⟨filter_scoped l row os h.1, and_scoped r row os h.2⟩
end

end Butane
