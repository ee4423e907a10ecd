/-
The tokens of a condition parse to the expected condition.
-/
import Verif.Proofs.Lex

namespace Butane
open Sql Spec

variable {eo : Bool}

def astVal (v : SqlVal) (n : Nat) : Operand :=
  match v with
  | .int i => .int i.toInt
  | .bigInt i => .int i.toInt
  | _ => .param n

def astVals : List SqlVal → Nat → List Operand
  | [], _ => []
  | v :: vs, n => astVal v n :: astVals vs (n + cntVal v)

def astExpr : Expr → Nat → Operand
  | .val v, n => astVal v n
  | .column c, _ => .col none c
  | _, _ => .null

def astCol (c : QColumn) : Operand := .col c.table c.name

def astJoins (js : List Join) : List SJoin :=
  js.map fun j => ⟨j.joinTable, astCol j.col1, astCol j.col2⟩

def astCmp (op : CmpOp) (col : String) (e : Expr) (n : Nat) : Cond :=
  if isNullTest op e then
    (if op = .eq then .isNull (.col none col) else .notNull (.col none col))
  else .cmp op (.col none col) (astExpr e n)

mutual
def atomOf : BoolExpr → Nat → Cond
  | .true_, _ => .true_
  | .cmp op col e, n => astCmp op col e n
  | .allOf _, _ => .true_
  | .and _ _, _ => .true_
  | .or _ _, _ => .true_
  | .not a, n => .not (atomOf a n)
  | .subquery col t c e, n => .inSelect (.col none col) (.col none c) t [] (.any (disjs e n))
  | .inVals col vs, n => .inList (.col none col) (astVals vs n)
  | .subqueryJoin col t c js e, n =>
    .inSelect (.col none col) (astCol c) t (astJoins js) (.any (disjs e n))
def conjs : BoolExpr → Nat → List Cond
  | .and a b, n => conjs a n ++ conjs b (n + cntBool a)
  | .allOf cs, n => conjsAll cs n
  | .true_, n => [atomOf .true_ n]
  | .cmp op col e, n => [atomOf (.cmp op col e) n]
  | .or a b, n => [atomOf (.or a b) n]
  | .not a, n => [.not (atomOf a n)]
  | .subquery col t c e, n => [.inSelect (.col none col) (.col none c) t [] (.any (disjs e n))]
  | .inVals col vs, n => [atomOf (.inVals col vs) n]
  | .subqueryJoin col t c js e, n =>
    [.inSelect (.col none col) (astCol c) t (astJoins js) (.any (disjs e n))]
def conjsAll : List BoolExpr → Nat → List Cond
  | [], _ => []
  | c :: cs, n => conjs c n ++ conjsAll cs (n + cntBool c)
def disjs : BoolExpr → Nat → List Cond
  | .or a b, n => disjs a n ++ disjs b (n + cntBool a)
  | .and a b, n => [.all (conjs a n ++ conjs b (n + cntBool a))]
  | .allOf cs, n => [.all (conjsAll cs n)]
  | .true_, n => [.all [atomOf .true_ n]]
  | .cmp op col e, n => [.all [atomOf (.cmp op col e) n]]
  | .not a, n => [.all [.not (atomOf a n)]]
  | .subquery col t c e, n =>
    [.all [.inSelect (.col none col) (.col none c) t [] (.any (disjs e n))]]
  | .inVals col vs, n => [.all [atomOf (.inVals col vs) n]]
  | .subqueryJoin col t c js e, n =>
    [.all [.inSelect (.col none col) (astCol c) t (astJoins js) (.any (disjs e n))]]
end

/-! ### What may follow -/

def FollowOr : List Tok → Prop
  | [] => True
  | .rparen :: _ => True
  | .kw "ORDER" :: _ => True
  | .kw "LIMIT" :: _ => True
  | .kw "OFFSET" :: _ => True
  | _ => False

def FollowAnd : List Tok → Prop
  | .kw "OR" :: _ => True
  | r => FollowOr r

def FollowNot : List Tok → Prop
  | .kw "AND" :: _ => True
  | r => FollowAnd r

theorem FollowOr.cases {r} (h : FollowOr r) : r = [] ∨ ∃ r', r = .rparen :: r' ∨
    r = .kw "ORDER" :: r' ∨ r = .kw "LIMIT" :: r' ∨ r = .kw "OFFSET" :: r' := by
  unfold FollowOr at h
  split at h
  · exact .inl rfl
  · exact .inr ⟨_, .inl rfl⟩
  · exact .inr ⟨_, .inr (.inl rfl)⟩
  · exact .inr ⟨_, .inr (.inr (.inl rfl))⟩
  · exact .inr ⟨_, .inr (.inr (.inr rfl))⟩
  · exact h.elim

theorem FollowOr.and {r} (h : FollowOr r) : FollowAnd r := by
  rcases h.cases with rfl | ⟨r', rfl | rfl | rfl | rfl⟩ <;> trivial

theorem FollowAnd.cases {r} (h : FollowAnd r) : FollowOr r ∨ ∃ r', r = .kw "OR" :: r' := by
  unfold FollowAnd at h
  split at h
  · exact .inr ⟨_, rfl⟩
  · exact .inl h

theorem FollowNot.cases {r} (h : FollowNot r) : FollowAnd r ∨ ∃ r', r = .kw "AND" :: r' := by
  unfold FollowNot at h
  split at h
  · exact .inr ⟨_, rfl⟩
  · exact .inl h

theorem FollowAnd.not {r} (h : FollowAnd r) : FollowNot r := by
  rcases h.cases with h | ⟨r', rfl⟩
  · rcases h.cases with rfl | ⟨r', rfl | rfl | rfl | rfl⟩ <;> trivial
  · trivial

/-- No rest begins with a dot. -/
def NoDot : List Tok → Prop
  | .dot :: _ => False
  | _ => True

theorem noDot_kw (w : String) (r : List Tok) : NoDot (.kw w :: r) := trivial

theorem FollowNot.noDot {r} (h : FollowNot r) : NoDot r := by
  rcases h.cases with h | ⟨_, rfl⟩
  · rcases h.cases with h | ⟨_, rfl⟩
    · rcases h.cases with rfl | ⟨r', rfl | rfl | rfl | rfl⟩ <;> trivial
    · trivial
  · trivial

theorem pColumn_ident (c : String) {r : List Tok} (h : NoDot r) :
    pColumn (.ident c :: r) = some (.col none c, r) := by
  unfold pColumn
  split
  · next he =>
    simp only [List.cons.injEq] at he
    rw [he.2] at h
    exact h.elim
  · next he =>
    simp only [List.cons.injEq, Tok.ident.injEq] at he
    obtain ⟨rfl, rfl⟩ := he
    rfl
  · next h1 h2 => exact absurd rfl (h2 _ _)

theorem pColumn_col (c : QColumn) {r : List Tok} (h : NoDot r) :
    pColumn (toksCol c ++ r) = some (astCol c, r) := by
  obtain ⟨t, name⟩ := c
  cases t with
  | none => exact pColumn_ident name h
  | some t => rfl

theorem pOperand_ident (c : String) {r : List Tok} (h : NoDot r) :
    pOperand (.ident c :: r) = some (.col none c, r) := pColumn_ident c h

theorem pOperand_val (v : SqlVal) (n : Nat) (r : List Tok) :
    pOperand (toksVal v n ++ r) = some (astVal v n, r) := by
  cases v <;> rfl

theorem pOperand_expr {e : Expr} (he : SimpleOperand e) (n : Nat) {r : List Tok} (h : NoDot r) :
    pOperand (toksExpr e n ++ r) = some (astExpr e n, r) := by
  cases e with
  | column c => exact pOperand_ident c h
  | val v => exact pOperand_val v n r
  | placeholder => exact he.elim
  | condition c => exact he.elim

theorem toksVals_len (vs : List SqlVal) (n : Nat) : vs.length ≤ (toksVals vs n).length := by
  induction vs generalizing n with
  | nil => simp
  | cons v rest ih =>
    cases rest with
    | nil => cases v <;> simp [toksVals, toksVal]
    | cons w rest =>
      have := ih (n + cntVal v)
      simp only [toksVals, List.length_append, List.length_cons] at this ⊢
      omega

theorem pList_vals {vs : List SqlVal} (hv : vs ≠ []) (n : Nat) (r : List Tok) {F : Nat}
    (hF : vs.length ≤ F) :
    pList F (toksVals vs n ++ .rparen :: r) = some (astVals vs n, r) := by
  induction vs generalizing n F with
  | nil => exact absurd rfl hv
  | cons v rest ih =>
    obtain ⟨F, rfl⟩ : ∃ k, F = k + 1 := ⟨F - 1, by simp at hF; omega⟩
    cases rest with
    | nil =>
      simp only [toksVals, pList]
      rw [pOperand_val]
      rfl
    | cons w rest =>
      simp only [toksVals, List.append_assoc, List.cons_append, pList]
      rw [pOperand_val]
      simp only
      rw [ih (by simp) (n + cntVal v) (by simp at hF ⊢; omega)]
      rfl

theorem pJoins_ok {js : List Join} (r : List Tok) {F : Nat} (hF : js.length < F) :
    pJoins F (toksJoins js ++ .kw "WHERE" :: r) = some (astJoins js, r) := by
  induction js generalizing F with
  | nil =>
    obtain ⟨F, rfl⟩ : ∃ k, F = k + 1 := ⟨F - 1, by omega⟩
    rfl
  | cons j js ih =>
    obtain ⟨F, rfl⟩ : ∃ k, F = k + 1 := ⟨F - 1, by omega⟩
    simp only [toksJoins, List.append_assoc, List.cons_append, List.nil_append, pJoins]
    rw [pColumn_col _ (show NoDot (.op .eq :: _) from trivial)]
    simp only
    have hnd : NoDot (toksJoins js ++ .kw "WHERE" :: r) := by cases js <;> trivial
    rw [pColumn_col _ hnd]
    simp only
    rw [ih (by simp at hF; omega)]
    rfl

/-! ### Predicates -/

theorem pNot_ident (F : Nat) (c : String) (r : List Tok) :
    pNot eo (F + 1) (.ident c :: r) =
      match pOperand (.ident c :: r) with
      | some (a, .op o :: r) =>
        (match pOperand r with
        | some (b, r') => some (.cmp o a b, r')
        | none => none)
      | some (a, .kw "LIKE" :: r) =>
        (match pOperand r with
        | some (b, r') => some (.cmp .like a b, r')
        | none => none)
      | some (a, .kw "IS" :: .kw "NULL" :: r) => some (.isNull a, r)
      | some (a, .kw "IS" :: .kw "NOT" :: .kw "NULL" :: r) => some (.notNull a, r)
      | some (a, .kw "IN" :: .lparen :: .kw "SELECT" :: r) =>
        (match pColumn r with
        | some (s, .kw "FROM" :: .ident t :: r) =>
          (match pJoins F r with
          | some (js, r) =>
            (match pOr eo F r with
            | some (ds, .rparen :: r') => some (.inSelect a s t js (.any ds), r')
            | _ => none)
          | none => none)
        | _ => none)
      | some (a, .kw "IN" :: .lparen :: .rparen :: r) =>
        if eo then some (.inList a [], r) else none
      | some (a, .kw "IN" :: .lparen :: r) =>
        (match pList F r with
        | some (vs, r') => some (.inList a vs, r')
        | none => none)
      | _ => none := by
  rw [pNot]
  all_goals first | rfl | nofun

theorem pNot_cmp {op : CmpOp} {col : String} {e : Expr} (he : SimpleOperand e) (n : Nat)
    {r : List Tok} (hr : FollowNot r) (F : Nat) :
    pNot eo (F + 1) (toksBool (.cmp op col e) n ++ r) = some (astCmp op col e n, r) := by
  cases h : isNullTest op e with
  | false =>
    simp only [toksBool, astCmp, h, List.cons_append, Bool.false_eq_true, if_false]
    rw [pNot_ident, pOperand_ident _ (by cases op <;> trivial)]
    have := pOperand_expr he n hr.noDot
    cases op <;> simp [opTok, this]
  | true =>
    obtain ⟨rfl, rfl | rfl⟩ := isNullTest_true h <;>
    · simp only [toksBool, toksNull, astCmp, isNullTest, if_true, List.cons_append, List.nil_append]
      first
        | (rw [if_neg (by decide), if_neg (by decide)]
           simp only [List.cons_append, List.nil_append])
        | skip
      rw [pNot_ident, pOperand_ident _ (noDot_kw _ _)]
      simp

/-- What follows an `AND` operand: the end of the chain, or `AND` and a chain that
parses to `cs'`. -/
def ContAnd (eo : Bool) (r : List Tok) (cs' : List Cond) (r' : List Tok) : Prop :=
  (FollowAnd r ∧ cs' = [] ∧ r' = r) ∨
  ∃ r0, r = .kw "AND" :: r0 ∧ ∀ F, 3 * r0.length + 2 ≤ F → pAnd eo F r0 = some (cs', r')

theorem ContAnd.follow {r cs' r'} (h : ContAnd eo r cs' r') : FollowNot r := by
  rcases h with ⟨h, _⟩ | ⟨r0, rfl, _⟩
  · exact h.not
  · trivial

/-- What follows an `OR` operand. -/
def ContOr (eo : Bool) (r : List Tok) (cs' : List Cond) (r' : List Tok) : Prop :=
  (FollowOr r ∧ cs' = [] ∧ r' = r) ∨
  ∃ r0, r = .kw "OR" :: r0 ∧ ∀ F, 3 * r0.length + 3 ≤ F → pOr eo F r0 = some (cs', r')

theorem ContOr.follow {r cs' r'} (h : ContOr eo r cs' r') : FollowAnd r := by
  rcases h with ⟨h, _⟩ | ⟨r0, rfl, _⟩
  · exact h.and
  · trivial

theorem pAnd_of_pNot {c : Cond} {ts r : List Tok} {cs' r'}
    (hc : ContAnd eo r cs' r') (hl : r.length ≤ ts.length)
    (h : ∀ F, 3 * ts.length + 1 ≤ F → pNot eo F ts = some (c, r)) {F : Nat}
    (hF : 3 * ts.length + 2 ≤ F) : pAnd eo F ts = some (c :: cs', r') := by
  obtain ⟨F, rfl⟩ : ∃ k, F = k + 1 := ⟨F - 1, by omega⟩
  rw [pAnd, h F (by omega)]
  rcases hc with ⟨hf, rfl, rfl⟩ | ⟨r0, rfl, hr⟩
  · rcases hf.cases with hf | ⟨r0, rfl⟩
    · rcases hf.cases with rfl | ⟨r0, rfl | rfl | rfl | rfl⟩ <;> simp
    · simp
  · simp only
    rw [hr F (by simp at hl; omega)]

theorem pOr_of_pAnd {cs : List Cond} {ts r : List Tok} {cs' r'}
    (hc : ContOr eo r cs' r') (hl : r.length ≤ ts.length)
    (h : ∀ F, 3 * ts.length + 2 ≤ F → pAnd eo F ts = some (cs, r)) {F : Nat}
    (hF : 3 * ts.length + 3 ≤ F) : pOr eo F ts = some (.all cs :: cs', r') := by
  obtain ⟨F, rfl⟩ : ∃ k, F = k + 1 := ⟨F - 1, by omega⟩
  rw [pOr, h F (by omega)]
  rcases hc with ⟨hf, rfl, rfl⟩ | ⟨r0, rfl, hr⟩
  · rcases hf.cases with rfl | ⟨r0, rfl | rfl | rfl | rfl⟩ <;> simp
  · simp only
    rw [hr F (by simp at hl; omega)]

theorem contAnd_end {r : List Tok} (h : FollowAnd r) : ContAnd eo r [] r := .inl ⟨h, rfl, rfl⟩

mutual
theorem pNot_ok : (e : BoolExpr) → NeedsNoParens eo .not e → (n : Nat) → (r : List Tok) →
    FollowNot r → (F : Nat) → 3 * (toksBool e n ++ r).length + 1 ≤ F →
    pNot eo F (toksBool e n ++ r) = some (atomOf e n, r)
  | .true_, _, n, r, hr, F, hF => by
    obtain ⟨F, rfl⟩ : ∃ k, F = k + 1 := ⟨F - 1, by omega⟩
    simp [toksBool, atomOf, pNot]
  | .cmp op col e, h, n, r, hr, F, hF => by
    obtain ⟨F, rfl⟩ : ∃ k, F = k + 1 := ⟨F - 1, by omega⟩
    simp only [NeedsNoParens] at h
    simp only [atomOf]
    exact pNot_cmp h n hr F
  | .allOf _, h, _, _, _, _, _ => by simp [NeedsNoParens] at h
  | .and _ _, h, _, _, _, _, _ => by simp [NeedsNoParens] at h
  | .or _ _, h, _, _, _, _, _ => by simp [NeedsNoParens] at h
  | .not a, h, n, r, hr, F, hF => by
    obtain ⟨F, rfl⟩ : ∃ k, F = k + 1 := ⟨F - 1, by omega⟩
    simp only [NeedsNoParens] at h
    simp only [toksBool, atomOf, List.cons_append, List.length_cons] at hF ⊢
    rw [pNot, pNot_ok a h n r hr F (by omega)]
  | .subquery col t c e, h, n, r, hr, F, hF => by
    obtain ⟨F, rfl⟩ : ∃ k, F = k + 1 := ⟨F - 1, by omega⟩
    simp only [NeedsNoParens] at h
    simp only [toksBool, atomOf, List.cons_append, List.nil_append, List.append_assoc,
      List.length_cons, List.length_append, List.length_nil] at hF ⊢
    rw [pNot_ident, pOperand_ident _ (noDot_kw _ _)]
    simp only
    rw [pColumn_ident _ (noDot_kw _ _)]
    simp only
    have hj := pJoins_ok (js := []) (toksBool e n ++ .rparen :: r) (F := F) (by simp; omega)
    simp only [toksJoins, List.nil_append, astJoins, List.map_nil] at hj
    rw [hj]
    simp only
    rw [pOr_ok e h n (.rparen :: r) [] (.rparen :: r) (.inl ⟨trivial, rfl, rfl⟩) F
      (by simp only [List.length_cons, List.length_append]; omega)]
    simp
  | .inVals col vs, h, n, r, hr, F, hF => by
    obtain ⟨F, rfl⟩ : ∃ k, F = k + 1 := ⟨F - 1, by omega⟩
    simp only [NeedsNoParens] at h
    simp only [toksBool, atomOf, List.cons_append, List.nil_append, List.append_assoc,
      List.length_cons, List.length_append, List.length_nil] at hF ⊢
    rw [pNot_ident, pOperand_ident _ (noDot_kw _ _)]
    by_cases hv : vs = []
    · subst hv
      have : eo = true := by simpa using h
      subst this
      simp [toksVals, astVals]
    replace h := hv
    have hlen := toksVals_len vs n
    have hl := pList_vals h n r (F := F) (by omega)
    obtain ⟨t, ts, hts, hne⟩ : ∃ t ts, toksVals vs n ++ .rparen :: r = t :: ts ∧
        t ≠ .kw "SELECT" ∧ t ≠ .rparen := by
      match vs, h with
      | v :: [], _ => cases v <;> exact ⟨_, _, rfl, by simp⟩
      | v :: w :: rest, _ => cases v <;> exact ⟨_, _, rfl, by simp⟩
    rw [hts] at hl ⊢
    split
    all_goals simp_all
  | .subqueryJoin col t c js e, h, n, r, hr, F, hF => by
    obtain ⟨F, rfl⟩ : ∃ k, F = k + 1 := ⟨F - 1, by omega⟩
    simp only [NeedsNoParens] at h
    simp only [toksBool, atomOf, List.cons_append, List.nil_append, List.append_assoc,
      List.length_cons, List.length_append, List.length_nil] at hF ⊢
    rw [pNot_ident, pOperand_ident _ (noDot_kw _ _)]
    simp only
    rw [pColumn_col _ (noDot_kw _ _)]
    simp only
    rw [pJoins_ok (js := js) (toksBool e n ++ .rparen :: r) (F := F) (by omega)]
    simp only
    rw [pOr_ok e h.2 n (.rparen :: r) [] (.rparen :: r) (.inl ⟨trivial, rfl, rfl⟩) F
      (by simp only [List.length_cons, List.length_append]; omega)]
    simp
termination_by e => (sizeOf e, 0)
theorem pAnd_ok : (e : BoolExpr) → NeedsNoParens eo .and e → (n : Nat) → (r : List Tok) →
    (cs' : List Cond) → (r' : List Tok) → ContAnd eo r cs' r' → (F : Nat) →
    3 * (toksBool e n ++ r).length + 2 ≤ F →
    pAnd eo F (toksBool e n ++ r) = some (conjs e n ++ cs', r')
  | .or _ _, h, _, _, _, _, _, _, _ => by simp [NeedsNoParens] at h
  | .and a b, h, n, r, cs', r', hc, F, hF => by
    simp only [NeedsNoParens] at h
    simp only [toksBool, conjs, List.append_assoc, List.cons_append] at hF ⊢
    exact pAnd_ok a h.2.1 n _ _ r' (.inr ⟨_, rfl, fun F hF =>
      pAnd_ok b h.2.2 _ r cs' r' hc F hF⟩) F hF
  | .allOf cs, h, n, r, cs', r', hc, F, hF => by
    simp only [NeedsNoParens] at h
    simp only [toksBool, conjs] at hF ⊢
    exact pAll_ok cs h.2.1 h.2.2 n r cs' r' hc F hF
  | .true_, h, n, r, cs', r', hc, F, hF => by
    rw [show conjs .true_ n = [atomOf .true_ n] by simp only [conjs]]
    exact pAnd_of_pNot hc (by simp) (fun F hF => pNot_ok .true_ h n r hc.follow F hF) hF
  | .cmp op col e, h, n, r, cs', r', hc, F, hF => by
    rw [show conjs (.cmp op col e) n = [atomOf (.cmp op col e) n] by simp only [conjs]]
    exact pAnd_of_pNot hc (by simp) (fun F hF => pNot_ok (.cmp op col e) h n r hc.follow F hF) hF
  | .not a, h, n, r, cs', r', hc, F, hF => by
    rw [show conjs (.not a) n = [atomOf (.not a) n] by simp only [conjs, atomOf]]
    exact pAnd_of_pNot hc (by simp) (fun F hF => pNot_ok (.not a)
      (by simpa [NeedsNoParens] using h) n r hc.follow F hF) hF
  | .subquery col t c e, h, n, r, cs', r', hc, F, hF => by
    rw [show conjs (.subquery col t c e) n = [atomOf (.subquery col t c e) n] by
      simp only [conjs, atomOf]]
    exact pAnd_of_pNot hc (by simp) (fun F hF => pNot_ok (.subquery col t c e)
      (by simpa [NeedsNoParens] using h) n r hc.follow F hF) hF
  | .inVals col vs, h, n, r, cs', r', hc, F, hF => by
    rw [show conjs (.inVals col vs) n = [atomOf (.inVals col vs) n] by simp only [conjs]]
    exact pAnd_of_pNot hc (by simp) (fun F hF => pNot_ok (.inVals col vs) h n r hc.follow F hF) hF
  | .subqueryJoin col t c js e, h, n, r, cs', r', hc, F, hF => by
    rw [show conjs (.subqueryJoin col t c js e) n = [atomOf (.subqueryJoin col t c js e) n] by
      simp only [conjs, atomOf]]
    exact pAnd_of_pNot hc (by simp) (fun F hF => pNot_ok (.subqueryJoin col t c js e)
      (by simpa [NeedsNoParens] using h) n r hc.follow F hF) hF
termination_by e => (sizeOf e, 1)
theorem pAll_ok : (cs : List BoolExpr) → cs ≠ [] → NoParensAll eo cs → (n : Nat) → (r : List Tok) →
    (cs' : List Cond) → (r' : List Tok) → ContAnd eo r cs' r' → (F : Nat) →
    3 * (toksAll cs n ++ r).length + 2 ≤ F →
    pAnd eo F (toksAll cs n ++ r) = some (conjsAll cs n ++ cs', r')
  | [], hne, _, _, _, _, _, _, _, _ => absurd rfl hne
  | [c], _, h, n, r, cs', r', hc, F, hF => by
    simp only [NoParensAll] at h
    simp only [toksAll, conjsAll, List.append_nil] at hF ⊢
    exact pAnd_ok c h.1 n r cs' r' hc F hF
  | c :: c' :: rest, _, h, n, r, cs', r', hc, F, hF => by
    have h1 : NeedsNoParens eo .and c ∧ NoParensAll eo (c' :: rest) := by
      simpa [NoParensAll] using h
    rw [toksAll, List.append_assoc, List.cons_append] at hF ⊢
    rw [conjsAll, List.append_assoc]
    exact pAnd_ok c h1.1 n _ _ r' (.inr ⟨_, rfl, fun F hF =>
      pAll_ok (c' :: rest) (by simp) h1.2 _ r cs' r' hc F hF⟩) F hF
termination_by cs => (sizeOf cs, 1)
theorem pOr_ok : (e : BoolExpr) → NeedsNoParens eo .or e → (n : Nat) → (r : List Tok) →
    (cs' : List Cond) → (r' : List Tok) → ContOr eo r cs' r' → (F : Nat) →
    3 * (toksBool e n ++ r).length + 3 ≤ F →
    pOr eo F (toksBool e n ++ r) = some (disjs e n ++ cs', r')
  | .or a b, h, n, r, cs', r', hc, F, hF => by
    simp only [NeedsNoParens] at h
    simp only [toksBool, disjs, List.append_assoc, List.cons_append] at hF ⊢
    exact pOr_ok a h.2.1 n _ _ r' (.inr ⟨_, rfl, fun F hF =>
      pOr_ok b h.2.2 _ r cs' r' hc F hF⟩) F hF
  | .and a b, h, n, r, cs', r', hc, F, hF => by
    rw [show disjs (.and a b) n = [.all (conjs (.and a b) n)] by simp only [disjs, conjs]]
    refine pOr_of_pAnd hc (by simp) (fun F hF => ?_) hF
    simpa using pAnd_ok (.and a b) (by simpa [NeedsNoParens] using h) n r [] r
      (contAnd_end hc.follow) F hF
  | .allOf cs, h, n, r, cs', r', hc, F, hF => by
    rw [show disjs (.allOf cs) n = [.all (conjs (.allOf cs) n)] by simp only [disjs, conjs]]
    refine pOr_of_pAnd hc (by simp) (fun F hF => ?_) hF
    simpa using pAnd_ok (.allOf cs) (by simpa [NeedsNoParens] using h) n r [] r
      (contAnd_end hc.follow) F hF
  | .true_, h, n, r, cs', r', hc, F, hF => by
    rw [show disjs (.true_) n = [.all (conjs (.true_) n)] by simp only [disjs, conjs]]
    refine pOr_of_pAnd hc (by simp) (fun F hF => ?_) hF
    simpa using pAnd_ok (.true_) (by simpa [NeedsNoParens] using h) n r [] r
      (contAnd_end hc.follow) F hF
  | .cmp op col e, h, n, r, cs', r', hc, F, hF => by
    rw [show disjs (.cmp op col e) n = [.all (conjs (.cmp op col e) n)] by simp only [disjs, conjs]]
    refine pOr_of_pAnd hc (by simp) (fun F hF => ?_) hF
    simpa using pAnd_ok (.cmp op col e) (by simpa [NeedsNoParens] using h) n r [] r
      (contAnd_end hc.follow) F hF
  | .not a, h, n, r, cs', r', hc, F, hF => by
    rw [show disjs (.not a) n = [.all (conjs (.not a) n)] by simp only [disjs, conjs]]
    refine pOr_of_pAnd hc (by simp) (fun F hF => ?_) hF
    simpa using pAnd_ok (.not a) (by simpa [NeedsNoParens] using h) n r [] r
      (contAnd_end hc.follow) F hF
  | .subquery col t c e, h, n, r, cs', r', hc, F, hF => by
    rw [show disjs (.subquery col t c e) n = [.all (conjs (.subquery col t c e) n)] by simp only [disjs, conjs]]
    refine pOr_of_pAnd hc (by simp) (fun F hF => ?_) hF
    simpa using pAnd_ok (.subquery col t c e) (by simpa [NeedsNoParens] using h) n r [] r
      (contAnd_end hc.follow) F hF
  | .inVals col vs, h, n, r, cs', r', hc, F, hF => by
    rw [show disjs (.inVals col vs) n = [.all (conjs (.inVals col vs) n)] by simp only [disjs, conjs]]
    refine pOr_of_pAnd hc (by simp) (fun F hF => ?_) hF
    simpa using pAnd_ok (.inVals col vs) (by simpa [NeedsNoParens] using h) n r [] r
      (contAnd_end hc.follow) F hF
  | .subqueryJoin col t c js e, h, n, r, cs', r', hc, F, hF => by
    rw [show disjs (.subqueryJoin col t c js e) n = [.all (conjs (.subqueryJoin col t c js e) n)] by simp only [disjs, conjs]]
    refine pOr_of_pAnd hc (by simp) (fun F hF => ?_) hF
    simpa using pAnd_ok (.subqueryJoin col t c js e) (by simpa [NeedsNoParens] using h) n r [] r
      (contAnd_end hc.follow) F hF
termination_by e => (sizeOf e, 2)
end

theorem parseCond_ok {e : BoolExpr} (h : NeedsNoParens eo .or e) :
    parseCond eo (toksBool e 0) = some (.any (disjs e 0)) := by
  have := pOr_ok e h 0 [] [] [] (.inl ⟨trivial, rfl, rfl⟩) (3 * (toksBool e 0).length + 3)
    (by simp)
  simp only [List.append_nil] at this
  simp [parseCond, this]

end Butane
