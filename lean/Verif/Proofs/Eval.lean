/-
Evaluating the parsed condition gives the meaning of the expression.
-/
import Verif.Proofs.Parse

namespace Butane
open Sql Spec

variable {eo : Bool}

/-! ### Bound values -/

theorem valsVal_len (v : SqlVal) : (valsVal v).length = cntVal v := by cases v <;> rfl

theorem valsVals_len (vs : List SqlVal) : (valsVals vs).length = cntVals vs := by
  induction vs with
  | nil => rfl
  | cons v vs ih => simp [valsVals, cntVals, valsVal_len, ih]

mutual
theorem valsBool_len : (e : BoolExpr) → NoPlaceholder e → (valsBool e).length = cntBool e
  | .true_, _ => by simp [valsBool, cntBool]
  | .cmp op col e, h => by
    simp only [NoPlaceholder] at h
    simp only [valsBool, cntBool]
    split
    · rfl
    · exact valsExpr_len e h
  | .allOf cs, h => by
    simp only [NoPlaceholder] at h
    simpa [valsBool, cntBool] using valsAll_len cs h
  | .and a b, h => by
    simp only [NoPlaceholder] at h
    simp [valsBool, cntBool, valsBool_len a h.1, valsBool_len b h.2]
  | .or a b, h => by
    simp only [NoPlaceholder] at h
    simp [valsBool, cntBool, valsBool_len a h.1, valsBool_len b h.2]
  | .not a, h => by
    simp only [NoPlaceholder] at h
    simp [valsBool, cntBool, valsBool_len a h]
  | .subquery _ _ _ e, h => by
    simp only [NoPlaceholder] at h
    simp [valsBool, cntBool, valsBool_len e h]
  | .inVals _ vs, _ => by simp [valsBool, cntBool, valsVals_len vs]
  | .subqueryJoin _ _ _ _ e, h => by
    simp only [NoPlaceholder] at h
    simp [valsBool, cntBool, valsBool_len e h]
theorem valsAll_len : (cs : List BoolExpr) → NoPlaceholderAll cs → (valsAll cs).length = cntAll cs
  | [], _ => by simp [valsAll, cntAll]
  | c :: cs, h => by
    simp only [NoPlaceholderAll] at h
    simp [valsAll, cntAll, valsBool_len c h.1, valsAll_len cs h.2]
theorem valsExpr_len : (e : Expr) → NoPlaceholderExpr e → (valsExpr e).length = cntExpr e
  | .val v, _ => by simpa [valsExpr, cntExpr] using valsVal_len v
  | .column _, _ => rfl
  | .placeholder, h => by simp [NoPlaceholderExpr] at h
  | .condition c, h => by
    simp only [NoPlaceholderExpr] at h
    simpa [valsExpr, cntExpr] using valsBool_len c h
end

mutual
theorem noPlaceholder_of : (e : BoolExpr) → (p : Pos) → NeedsNoParens eo p e → NoPlaceholder e
  | .true_, _, _ => by simp [NoPlaceholder]
  | .cmp op col e, p, h => by
    simp only [NeedsNoParens] at h
    cases e <;> simp_all [NoPlaceholder, NoPlaceholderExpr, SimpleOperand]
  | .allOf cs, p, h => by
    simp only [NeedsNoParens] at h
    simpa [NoPlaceholder] using noPlaceholderAll_of cs h.2.2
  | .and a b, p, h => by
    simp only [NeedsNoParens] at h
    simpa [NoPlaceholder] using ⟨noPlaceholder_of a _ h.2.1, noPlaceholder_of b _ h.2.2⟩
  | .or a b, p, h => by
    simp only [NeedsNoParens] at h
    simpa [NoPlaceholder] using ⟨noPlaceholder_of a _ h.2.1, noPlaceholder_of b _ h.2.2⟩
  | .not a, p, h => by
    simp only [NeedsNoParens] at h
    simpa [NoPlaceholder] using noPlaceholder_of a _ h
  | .subquery _ _ _ e, p, h => by
    simp only [NeedsNoParens] at h
    simpa [NoPlaceholder] using noPlaceholder_of e _ h
  | .inVals _ vs, _, _ => by simp [NoPlaceholder]
  | .subqueryJoin _ _ _ _ e, p, h => by
    simp only [NeedsNoParens] at h
    simpa [NoPlaceholder] using noPlaceholder_of e _ h.2
theorem noPlaceholderAll_of : (cs : List BoolExpr) → NoParensAll eo cs → NoPlaceholderAll cs
  | [], _ => by simp [NoPlaceholderAll]
  | c :: cs, h => by
    simp only [NoParensAll] at h
    simpa [NoPlaceholderAll] using ⟨noPlaceholder_of c _ h.1, noPlaceholderAll_of cs h.2⟩
end

mutual
theorem oneJoin_of : (e : BoolExpr) → (p : Pos) → NeedsNoParens eo p e → OneJoin e
  | .true_, _, _ => by simp [OneJoin]
  | .cmp op col e, p, h => by
    simp only [NeedsNoParens] at h
    cases e <;> simp_all [OneJoin, OneJoinExpr, SimpleOperand]
  | .allOf cs, p, h => by
    simp only [NeedsNoParens] at h
    simpa [OneJoin] using oneJoinAll_of cs h.2.2
  | .and a b, p, h => by
    simp only [NeedsNoParens] at h
    simpa [OneJoin] using ⟨oneJoin_of a _ h.2.1, oneJoin_of b _ h.2.2⟩
  | .or a b, p, h => by
    simp only [NeedsNoParens] at h
    simpa [OneJoin] using ⟨oneJoin_of a _ h.2.1, oneJoin_of b _ h.2.2⟩
  | .not a, p, h => by
    simp only [NeedsNoParens] at h
    simpa [OneJoin] using oneJoin_of a _ h
  | .subquery _ _ _ e, p, h => by
    simp only [NeedsNoParens] at h
    simpa [OneJoin] using oneJoin_of e _ h
  | .inVals _ vs, _, _ => by simp [OneJoin]
  | .subqueryJoin _ _ _ _ e, p, h => by
    simp only [NeedsNoParens] at h
    simpa [OneJoin] using ⟨h.1, oneJoin_of e _ h.2⟩
theorem oneJoinAll_of : (cs : List BoolExpr) → NoParensAll eo cs → OneJoinAll cs
  | [], _ => by simp [OneJoinAll]
  | c :: cs, h => by
    simp only [NoParensAll] at h
    simpa [OneJoinAll] using ⟨oneJoin_of c _ h.1, oneJoinAll_of cs h.2⟩
end

theorem renderVal_vals (d : Dialect) (v : SqlVal) (n : Nat) : (renderVal d v n).vals = valsVal v := by
  cases v <;> rfl

theorem renderVals_vals (d : Dialect) (vs : List SqlVal) (n : Nat) :
    (renderVals d vs n).vals = valsVals vs := by
  induction vs generalizing n with
  | nil => rfl
  | cons v rest ih =>
    cases rest with
    | nil => simp [renderVals, renderVal_vals, valsVals]
    | cons w rest =>
      simp only [renderVals]
      rw [ih, renderVal_vals]
      rfl

mutual
theorem renderBool_vals (d : Dialect) :
    (e : BoolExpr) → (n : Nat) → (renderBool d e n).vals = valsBool e
  | .true_, _ => rfl
  | .cmp op col e, n => by
    cases h : isNullTest op e with
    | false =>
      rw [render_cmp h]
      simpa [valsBool, h] using renderExpr_vals d e n
    | true => obtain ⟨rfl, rfl | rfl⟩ := isNullTest_true h <;> rfl
  | .allOf cs, n => by simpa [renderBool, valsBool] using renderAll_vals d cs n
  | .and a b, n => by
    simp only [renderBool, valsBool]
    rw [renderBool_vals d b, renderBool_vals d a]
  | .or a b, n => by
    simp only [renderBool, valsBool]
    rw [renderBool_vals d b, renderBool_vals d a]
  | .not a, n => by simpa [renderBool, valsBool] using renderBool_vals d a n
  | .subquery _ _ _ e, n => by simpa [renderBool, valsBool] using renderBool_vals d e n
  | .inVals _ vs, n => by simpa [renderBool, valsBool] using renderVals_vals d vs n
  | .subqueryJoin _ _ _ _ e, n => by simpa [renderBool, valsBool] using renderBool_vals d e n
theorem renderAll_vals (d : Dialect) :
    (cs : List BoolExpr) → (n : Nat) → (renderAll d cs n).vals = valsAll cs
  | [], _ => rfl
  | [c], n => by simpa [renderAll, valsAll] using renderBool_vals d c n
  | c :: c' :: rest, n => by
    simp only [renderAll]
    rw [renderAll_vals d (c' :: rest), renderBool_vals d c]
    simp [valsAll]
theorem renderExpr_vals (d : Dialect) :
    (e : Expr) → (n : Nat) → (renderExpr d e n).vals = valsExpr e
  | .column _, _ => rfl
  | .val v, n => by simpa [renderExpr, valsExpr] using renderVal_vals d v n
  | .placeholder, _ => rfl
  | .condition c, n => by simpa [renderExpr, valsExpr] using renderBool_vals d c n
end

/-- The bound values contain `vs` from position `n`. -/
def Seg (ps : List DbVal) (n : Nat) (vs : List SqlVal) : Prop :=
  ∀ i v, vs[i]? = some v → ps[n + i]? = some (toDb v)

theorem Seg.left {ps n a b} (h : Seg ps n (a ++ b)) : Seg ps n a := by
  intro i v hi
  apply h i v
  rw [List.getElem?_append_left]
  · exact hi
  · exact (List.getElem?_eq_some_iff.1 hi).1

theorem Seg.right {ps n a b} (h : Seg ps n (a ++ b)) : Seg ps (n + a.length) b := by
  intro i v hi
  have := h (a.length + i) v (by rw [List.getElem?_append_right (by omega)]; simpa using hi)
  simpa [Nat.add_assoc] using this

theorem seg_all (vs : List SqlVal) : Seg (vs.map toDb) 0 vs := by
  intro i v hi
  simp [List.getElem?_map, hi]

/-! ### Evaluation lemmas -/

theorem kAnd_true (b : Option Bool) : kAnd b (some true) = b := by
  cases b with
  | none => rfl
  | some b => cases b <;> rfl
theorem kOr_false (b : Option Bool) : kOr b (some false) = b := by
  cases b with
  | none => rfl
  | some b => cases b <;> rfl
theorem true_kAnd (b : Option Bool) : kAnd (some true) b = b := by
  cases b with
  | none => rfl
  | some b => cases b <;> rfl
theorem false_kOr (b : Option Bool) : kOr (some false) b = b := by
  cases b with
  | none => rfl
  | some b => cases b <;> rfl
theorem kAnd_assoc (a b c : Option Bool) : kAnd (kAnd a b) c = kAnd a (kAnd b c) := by
  cases a with
  | none => cases b with
    | none => cases c with
      | none => rfl
      | some c => cases c <;> rfl
    | some b => cases b <;> cases c with
      | none => rfl
      | some c => cases c <;> rfl
  | some a => cases a <;> cases b with
    | none => cases c with
      | none => rfl
      | some c => cases c <;> rfl
    | some b => cases b <;> cases c with
      | none => rfl
      | some c => cases c <;> rfl
theorem kOr_assoc (a b c : Option Bool) : kOr (kOr a b) c = kOr a (kOr b c) := by
  cases a with
  | none => cases b with
    | none => cases c with
      | none => rfl
      | some c => cases c <;> rfl
    | some b => cases b <;> cases c with
      | none => rfl
      | some c => cases c <;> rfl
  | some a => cases a <;> cases b with
    | none => cases c with
      | none => rfl
      | some c => cases c <;> rfl
    | some b => cases b <;> cases c with
      | none => rfl
      | some c => cases c <;> rfl

section
variable {rel : Compare} {db : Db} {ps : List DbVal} {env : List Scope}

theorem evalAll_append {as bs : List Cond} {x y : Option Bool}
    (ha : evalAll rel db ps env as = some x) (hb : evalAll rel db ps env bs = some y) :
    evalAll rel db ps env (as ++ bs) = some (kAnd x y) := by
  induction as generalizing x with
  | nil =>
    simp only [evalAll, Option.some.injEq] at ha
    subst ha
    simpa [true_kAnd] using hb
  | cons c cs ih =>
    simp only [evalAll] at ha
    split at ha
    · next a b hc hcs =>
      simp only [Option.some.injEq] at ha
      subst ha
      simp only [List.cons_append, evalAll, hc, ih hcs, kAnd_assoc]
    · cases ha

theorem evalAny_append {as bs : List Cond} {x y : Option Bool}
    (ha : evalAny rel db ps env as = some x) (hb : evalAny rel db ps env bs = some y) :
    evalAny rel db ps env (as ++ bs) = some (kOr x y) := by
  induction as generalizing x with
  | nil =>
    simp only [evalAny, Option.some.injEq] at ha
    subst ha
    simpa [false_kOr] using hb
  | cons c cs ih =>
    simp only [evalAny] at ha
    split at ha
    · next a b hc hcs =>
      simp only [Option.some.injEq] at ha
      subst ha
      simp only [List.cons_append, evalAny, hc, ih hcs, kOr_assoc]
    · cases ha

theorem evalAll_one {c : Cond} {x : Option Bool} (h : evalCond rel db ps env c = some x) :
    evalAll rel db ps env [c] = some x := by
  simp [evalAll, h, kAnd_true]

theorem evalAny_one {c : Cond} {x : Option Bool} (h : evalCond rel db ps env c = some x) :
    evalAny rel db ps env [c] = some x := by
  simp [evalAny, h, kOr_false]

theorem lookup_visible {t : String} {row : Row} {s : Scope} {c : String} (env : List Scope)
    (h : Visible row (s.map (·.2)) c) :
    lookupCol none c (((t, row) :: s) :: env) = some (row.val c) := by
  obtain ⟨h1, h2⟩ := h
  have hf : s.filter (fun tr => (decide ((none : Option String) = none) ||
      decide ((none : Option String) = some tr.1)) && tr.2.has c) = [] := by
    rw [List.filter_eq_nil_iff]
    intro tr htr
    simp [h2 tr.2 (List.mem_map_of_mem htr)]
  have : inScope none c ((t, row) :: s) = some (some (row.val c)) := by
    unfold inScope
    rw [List.filter_cons, if_pos (by simp [h1]), hf]
  simp [lookupCol, this]

theorem lookup_colVisible {t : String} {row : Row} {s : Scope} {c : QColumn} (env : List Scope)
    (h : ColVisible t row s c) :
    evalOperand ps (((t, row) :: s) :: env) (astCol c) =
      some (colOf ((t, row) :: s) row c) := by
  obtain ⟨q, name⟩ := c
  cases q with
  | none => exact lookup_visible env h
  | some q =>
    obtain ⟨r, hr, hn⟩ := h
    have hf : ((t, row) :: s).filter (fun tr => (decide (some q = none) ||
        decide (some q = some tr.1)) && tr.2.has name) = [(q, r)] := by
      have : ((t, row) :: s).filter (fun tr => (decide (some q = none) ||
          decide (some q = some tr.1)) && tr.2.has name) =
          (((t, row) :: s).filter (fun tr => tr.1 == q)).filter (fun tr => tr.2.has name) := by
        rw [List.filter_filter]
        congr 1
        funext tr
        by_cases h : tr.1 = q
        · subst h; simp
        · have h' : ¬ q = tr.1 := fun e => h e.symm
          simp [h, h']
      rw [this, hr]
      simp at hn
      simp [hn]
    have hfind : ((t, row) :: s).find? (fun tr => tr.1 == q) = some (q, r) := by
      rw [← List.head?_filter, hr]
      rfl
    simp only [astCol, evalOperand, lookupCol, inScope, hf, colOf, hfind]

theorem eval_val {v : SqlVal} {n : Nat} (h : Seg ps n (valsVal v)) :
    evalOperand ps env (astVal v n) = some (toDb v) := by
  cases v with
  | int i => rfl
  | bigInt i => rfl
  | _ => exact h 0 _ rfl

theorem eval_vals {vs : List SqlVal} {n : Nat} (h : Seg ps n (valsVals vs)) :
    evalOperands ps env (astVals vs n) = some (vs.map toDb) := by
  induction vs generalizing n with
  | nil => rfl
  | cons v vs ih =>
    simp only [valsVals] at h
    have h2 := h.right
    rw [valsVal_len] at h2
    simp only [astVals, evalOperands, eval_val h.left, ih h2, List.map_cons]

theorem selectTrue_ok {α} {p : α → Option (Option Bool)} {q : α → Option Bool} {l : List α}
    (h : ∀ a ∈ l, p a = some (q a)) :
    selectTrue p l = some (l.filter fun a => q a = some true) := by
  induction l with
  | nil => rfl
  | cons a l ih =>
    simp only [selectTrue, h a (List.mem_cons_self ..),
      ih (fun b hb => h b (List.mem_cons_of_mem _ hb)), List.filter_cons]
    by_cases hq : q a = some true <;> simp [hq]

theorem selectTrue_append {α} {p : α → Option (Option Bool)} {l m l' m' : List α}
    (h : selectTrue p l = some l') (hm : selectTrue p m = some m') :
    selectTrue p (l ++ m) = some (l' ++ m') := by
  induction l generalizing l' with
  | nil =>
    simp only [selectTrue, Option.some.injEq] at h
    subst h
    exact hm
  | cons a l ih =>
    simp only [selectTrue] at h
    split at h
    · next b rest hb hrest =>
      simp only [Option.some.injEq] at h
      subst h
      simp only [List.cons_append, selectTrue, hb, ih hrest]
      by_cases hq : b = some true <;> simp [hq]
    · cases h

theorem selectTrue_flatMap {α β} {p : β → Option (Option Bool)} {f g : α → List β} {l : List α}
    (h : ∀ a ∈ l, selectTrue p (f a) = some (g a)) :
    selectTrue p (l.flatMap f) = some (l.flatMap g) := by
  induction l with
  | nil => rfl
  | cons a l ih =>
    simp only [List.flatMap_cons]
    exact selectTrue_append (h a (List.mem_cons_self ..))
      (ih (fun b hb => h b (List.mem_cons_of_mem _ hb)))

theorem mapOk_ok {α β} {f : α → Option β} {g : α → β} {l : List α}
    (h : ∀ a ∈ l, f a = some (g a)) : mapOk f l = some (l.map g) := by
  induction l with
  | nil => rfl
  | cons a l ih =>
    simp [mapOk, h a (List.mem_cons_self ..), ih (fun b hb => h b (List.mem_cons_of_mem _ hb))]

theorem mapOk_append {α β} {f : α → Option β} {l m : List α} {l' m'}
    (h : mapOk f l = some l') (hm : mapOk f m = some m') : mapOk f (l ++ m) = some (l' ++ m') := by
  induction l generalizing l' with
  | nil =>
    simp only [mapOk, Option.some.injEq] at h
    subst h
    exact hm
  | cons a l ih =>
    simp only [mapOk] at h
    split at h
    · next b rest hb hrest =>
      simp only [Option.some.injEq] at h
      subst h
      simp [mapOk, hb, ih hrest]
    · cases h

theorem mapOk_flatMap {α β γ} {f : β → Option γ} {g : α → List β} {k : α → List γ} {l : List α}
    (h : ∀ a ∈ l, mapOk f (g a) = some (k a)) : mapOk f (l.flatMap g) = some (l.flatMap k) := by
  induction l with
  | nil => rfl
  | cons a l ih =>
    simp only [List.flatMap_cons]
    exact mapOk_append (h a (List.mem_cons_self ..))
      (ih (fun b hb => h b (List.mem_cons_of_mem _ hb)))

/-- Joined rows have the main row first and rows of the joined tables after it. -/
theorem joined_mem {t : String} {r : Row} {js : List Join} (hl : js.length ≤ 1) {s : Scope}
    (h : s ∈ joined rel db r js [[(t, r)]]) : ∃ s' ∈ combos db js, s = (t, r) :: s' := by
  match js, hl with
  | [], _ =>
    simp only [joined, List.mem_singleton] at h
    exact ⟨[], by simp [combos], h⟩
  | [j], _ =>
    simp only [joined, List.flatMap_cons, List.flatMap_nil, List.append_nil, List.mem_filter,
      List.mem_map] at h
    obtain ⟨⟨k, hk, rfl⟩, _⟩ := h
    refine ⟨[(j.joinTable, k)], ?_, rfl⟩
    simp only [combos, List.mem_flatMap]
    exact ⟨k, hk, by simp⟩

theorem joinRows_ok {t : String} {js : List Join} (hl : js.length ≤ 1) (rows : List Row)
    (hdb : ∀ j ∈ js, db.has j.joinTable = true)
    (hv : ∀ r ∈ rows, ∀ s ∈ combos db js, ∀ j ∈ js, ColVisible t r s j.col1 ∧ ColVisible t r s j.col2) :
    joinRows rel db ps env (astJoins js) (rows.map fun r => [(t, r)]) =
      some (rows.flatMap fun r => joined rel db r js [[(t, r)]]) := by
  match js, hl with
  | [], _ =>
    simp only [astJoins, List.map_nil, joinRows, joined, Option.some.injEq]
    induction rows with
    | nil => rfl
    | cons r rows ih =>
      simp only [List.map_cons, List.flatMap_cons, List.cons_append, List.nil_append]
      rw [ih (fun r' hr' => hv r' (List.mem_cons_of_mem _ hr'))]
  | [j], _ =>
    simp only [astJoins, List.map_cons, List.map_nil, joinRows, hdb j (List.mem_cons_self ..),
      if_true, List.flatMap_map]
    rw [selectTrue_flatMap (g := fun r => joined rel db r [j] [[(t, r)]])]
    intro r hr
    simp only [joined, List.flatMap_cons, List.flatMap_nil, List.append_nil]
    rw [selectTrue_ok (q := fun s => cmp3 rel .eq (colOf s r j.col1) (colOf s r j.col2))]
    intro s hs
    obtain ⟨k, hk, rfl⟩ := List.mem_map.1 hs
    have hc : [(j.joinTable, k)] ∈ combos db [j] := by
      simp only [combos, List.mem_flatMap]
      exact ⟨k, hk, by simp⟩
    obtain ⟨v1, v2⟩ := hv r hr _ hc j (List.mem_cons_self ..)
    have e1 := lookup_colVisible (ps := ps) env v1
    have e2 := lookup_colVisible (ps := ps) env v2
    simp only [joinCond, List.cons_append, List.nil_append, e1, e2]

theorem evalCmp {op : CmpOp} {col : String} {e : Expr} (he : SimpleOperand e) (n : Nat)
    {t : String} {row : Row} {s : Scope}
    (hs : Scoped db row (s.map (·.2)) (.cmp op col e)) (hp : Seg ps n (valsBool (.cmp op col e))) :
    evalCond rel db ps (((t, row) :: s) :: env) (astCmp op col e n) =
      some (boolValue rel db row (.cmp op col e)) := by
  simp only [Scoped] at hs
  have hcol := lookup_visible (t := t) env hs.1
  cases h : isNullTest op e with
  | true =>
    obtain ⟨rfl, rfl | rfl⟩ := isNullTest_true h <;>
      simp [astCmp, isNullTest, evalCond, evalOperand, hcol, boolValue]
  | false =>
    have hb : boolValue rel db row (.cmp op col e) =
        cmp3 rel op (row.val col) (exprValue rel db row e) := by
      cases op <;> cases e <;> (try simp only [boolValue]) <;> rename_i v <;> cases v <;>
        first | (simp only [boolValue]; done) | (simp [isNullTest] at h; done)
    have hop : evalOperand ps (((t, row) :: s) :: env) (astExpr e n) =
        some (exprValue rel db row e) := by
      cases e with
      | column c => exact lookup_visible env hs.2
      | val v =>
        simp only [valsBool, h, valsExpr] at hp
        simpa [exprValue, astExpr] using eval_val (env := ((t, row) :: s) :: env) hp
      | placeholder => exact he.elim
      | condition c => exact he.elim
    rw [hb]
    simp only [astCmp, h, evalCond, evalOperand, Bool.false_eq_true, if_false, hcol] at hop ⊢
    rw [hop]

end

section
variable {rel : Compare} {db : Db} {ps : List DbVal}

mutual
theorem evalAtom : (e : BoolExpr) → NeedsNoParens eo .not e → (n : Nat) → (t : String) →
    (row : Row) → (s : Scope) → (env : List Scope) → Scoped db row (s.map (·.2)) e →
    Seg ps n (valsBool e) →
    evalCond rel db ps (((t, row) :: s) :: env) (atomOf e n) = some (boolValue rel db row e)
  | .true_, _, _, _, _, _, _, _, _ => by simp [atomOf, evalCond, boolValue]
  | .cmp op col e, h, n, t, row, s, env, hs, hp => by
    simp only [NeedsNoParens] at h
    simp only [atomOf]
    exact evalCmp h n hs hp
  | .allOf _, h, _, _, _, _, _, _, _ => by simp [NeedsNoParens] at h
  | .and _ _, h, _, _, _, _, _, _, _ => by simp [NeedsNoParens] at h
  | .or _ _, h, _, _, _, _, _, _, _ => by simp [NeedsNoParens] at h
  | .not a, h, n, t, row, s, env, hs, hp => by
    simp only [NeedsNoParens] at h
    simp only [Scoped] at hs
    simp only [valsBool] at hp
    simp only [atomOf, evalCond, evalAtom a h n t row s env hs hp, boolValue]
  | .subquery col t2 c e, h, n, t, row, s, env, hs, hp => by
    simp only [NeedsNoParens] at h
    simp only [Scoped] at hs
    simp only [valsBool] at hp
    obtain ⟨h1, h2, h3⟩ := hs
    have hcol := lookup_visible (t := t) env h1
    simp only [atomOf, evalCond, evalOperand, hcol, h2, joinRows, boolValue]
    rw [selectTrue_ok (q := fun s' : Scope =>
      match s' with
      | [(_, r)] => boolValue rel db r e
      | _ => none)]
    · simp only
      rw [List.filter_map]
      rw [mapOk_ok (g := fun s' : Scope =>
        match s' with
        | [(_, r)] => r.val c
        | _ => .null)]
      · simp only [List.map_map]
        rfl
      · intro a ha
        simp only [List.mem_map, List.mem_filter] at ha
        obtain ⟨r, ⟨hr, _⟩, rfl⟩ := ha
        exact lookup_visible (s := []) _ ⟨(h3 r hr).1, by simp⟩
    · intro a ha
      obtain ⟨r, hr, rfl⟩ := List.mem_map.1 ha
      exact evalDisjs e h n t2 r [] _ (h3 r hr).2 hp
  | .inVals col vs, h, n, t, row, s, env, hs, hp => by
    simp only [Scoped] at hs
    simp only [valsBool] at hp
    have hcol := lookup_visible (t := t) env hs
    simp only [atomOf, evalCond, evalOperand, hcol, eval_vals hp, boolValue]
  | .subqueryJoin col t2 c js e, h, n, t, row, s, env, hs, hp => by
    simp only [NeedsNoParens] at h
    simp only [Scoped] at hs
    simp only [valsBool] at hp
    obtain ⟨h1, h2, h3, h4⟩ := hs
    have hcol := lookup_visible (t := t) env h1
    have hj := joinRows_ok (rel := rel) (ps := ps) (env := ((t, row) :: s) :: env) (t := t2)
      h.1 (db.rows t2) h3 (fun r hr s' hs' j hj => (h4 r hr s' hs').2.1 j hj)
    simp only [atomOf, evalCond, evalOperand, hcol, h2, hj, boolValue]
    rw [selectTrue_flatMap (g := fun r =>
      if boolValue rel db r e = some true then joined rel db r js [[(t2, r)]] else [])]
    · simp only
      rw [mapOk_flatMap (k := fun r =>
        if boolValue rel db r e = some true then
          (joined rel db r js [[(t2, r)]]).map (fun s' => colOf s' r c) else [])]
      · simp only
        congr 2
        induction db.rows t2 with
        | nil => rfl
        | cons r rs ih =>
          simp only [List.flatMap_cons, List.filter_cons, ih]
          by_cases hq : boolValue rel db r e = some true <;> simp [hq]
      · intro r hr
        by_cases hq : boolValue rel db r e = some true
        · rw [if_pos hq, if_pos hq]
          refine mapOk_ok fun s' hs' => ?_
          obtain ⟨s'', hc, rfl⟩ := joined_mem h.1 hs'
          exact lookup_colVisible (ps := ps) _ (h4 r hr s'' hc).1
        · rw [if_neg hq, if_neg hq]
          rfl
    · intro r hr
      rw [selectTrue_ok (q := fun _ => boolValue rel db r e)]
      · by_cases hq : boolValue rel db r e = some true <;> simp [hq]
      · intro s' hs'
        obtain ⟨s'', hc, rfl⟩ := joined_mem h.1 hs'
        exact evalDisjs e h.2 n t2 r s'' _ (h4 r hr s'' hc).2.2 hp
termination_by e => (sizeOf e, 0)
theorem evalConjs : (e : BoolExpr) → NeedsNoParens eo .and e → (n : Nat) → (t : String) →
    (row : Row) → (s : Scope) → (env : List Scope) → Scoped db row (s.map (·.2)) e →
    Seg ps n (valsBool e) →
    evalAll rel db ps (((t, row) :: s) :: env) (conjs e n) = some (boolValue rel db row e)
  | .or _ _, h, _, _, _, _, _, _, _ => by simp [NeedsNoParens] at h
  | .and a b, h, n, t, row, s, env, hs, hp => by
    simp only [NeedsNoParens] at h
    simp only [Scoped] at hs
    simp only [valsBool] at hp
    have hp2 := hp.right
    rw [valsBool_len a (noPlaceholder_of a _ h.2.1)] at hp2
    simp only [conjs, boolValue]
    exact evalAll_append (evalConjs a h.2.1 n t row s env hs.1 hp.left)
      (evalConjs b h.2.2 _ t row s env hs.2 hp2)
  | .allOf cs, h, n, t, row, s, env, hs, hp => by
    simp only [NeedsNoParens] at h
    simp only [Scoped] at hs
    simp only [valsBool] at hp
    simp only [conjs, boolValue]
    exact evalConjsAll cs h.2.2 n t row s env hs hp
  | .true_, h, n, t, row, s, env, hs, hp => by
    simp only [conjs]
    exact evalAll_one (evalAtom .true_ h n t row s env hs hp)
  | .cmp op col e, h, n, t, row, s, env, hs, hp => by
    simp only [conjs]
    exact evalAll_one (evalAtom (.cmp op col e) h n t row s env hs hp)
  | .not a, h, n, t, row, s, env, hs, hp => by
    have := evalAtom (.not a) (by simpa [NeedsNoParens] using h) n t row s env hs hp
    simp only [conjs]
    simp only [atomOf] at this
    exact evalAll_one this
  | .subquery col t2 c e, h, n, t, row, s, env, hs, hp => by
    have := evalAtom (.subquery col t2 c e) (by simpa [NeedsNoParens] using h) n t row s env hs hp
    simp only [conjs]
    simp only [atomOf] at this
    exact evalAll_one this
  | .inVals col vs, h, n, t, row, s, env, hs, hp => by
    simp only [conjs]
    exact evalAll_one (evalAtom (.inVals col vs) h n t row s env hs hp)
  | .subqueryJoin col t2 c js e, h, n, t, row, s, env, hs, hp => by
    have := evalAtom (.subqueryJoin col t2 c js e) (by simpa [NeedsNoParens] using h) n t row s env
      hs hp
    simp only [conjs]
    simp only [atomOf] at this
    exact evalAll_one this
termination_by e => (sizeOf e, 1)
theorem evalConjsAll : (cs : List BoolExpr) → NoParensAll eo cs → (n : Nat) → (t : String) →
    (row : Row) → (s : Scope) → (env : List Scope) → ScopedAll db row (s.map (·.2)) cs →
    Seg ps n (valsAll cs) →
    evalAll rel db ps (((t, row) :: s) :: env) (conjsAll cs n) = some (allValue rel db row cs)
  | [], _, _, _, _, _, _, _, _ => by simp [conjsAll, evalAll, allValue]
  | c :: cs, h, n, t, row, s, env, hs, hp => by
    simp only [NoParensAll] at h
    simp only [ScopedAll] at hs
    simp only [valsAll] at hp
    have hp2 := hp.right
    rw [valsBool_len c (noPlaceholder_of c _ h.1)] at hp2
    simp only [conjsAll, allValue]
    exact evalAll_append (evalConjs c h.1 n t row s env hs.1 hp.left)
      (evalConjsAll cs h.2 _ t row s env hs.2 hp2)
termination_by cs => (sizeOf cs, 1)
theorem evalDisjs : (e : BoolExpr) → NeedsNoParens eo .or e → (n : Nat) → (t : String) →
    (row : Row) → (s : Scope) → (env : List Scope) → Scoped db row (s.map (·.2)) e →
    Seg ps n (valsBool e) →
    evalCond rel db ps (((t, row) :: s) :: env) (.any (disjs e n)) = some (boolValue rel db row e)
  | .or a b, h, n, t, row, s, env, hs, hp => by
    simp only [NeedsNoParens] at h
    simp only [Scoped] at hs
    simp only [valsBool] at hp
    have hp2 := hp.right
    rw [valsBool_len a (noPlaceholder_of a _ h.2.1)] at hp2
    have h1 := evalDisjs a h.2.1 n t row s env hs.1 hp.left
    have h2 := evalDisjs b h.2.2 _ t row s env hs.2 hp2
    simp only [disjs, boolValue, evalCond] at h1 h2 ⊢
    exact evalAny_append h1 h2
  | .and a b, h, n, t, row, s, env, hs, hp => by
    rw [show disjs (.and a b) n = [.all (conjs (.and a b) n)] by simp only [disjs, conjs]]
    simp only [evalCond]
    refine evalAny_one ?_
    simp only [evalCond]
    exact evalConjs (.and a b) (by simpa [NeedsNoParens] using h) n t row s env hs hp
  | .allOf cs, h, n, t, row, s, env, hs, hp => by
    rw [show disjs (.allOf cs) n = [.all (conjs (.allOf cs) n)] by simp only [disjs, conjs]]
    simp only [evalCond]
    refine evalAny_one ?_
    simp only [evalCond]
    exact evalConjs (.allOf cs) (by simpa [NeedsNoParens] using h) n t row s env hs hp
  | .true_, h, n, t, row, s, env, hs, hp => by
    rw [show disjs (.true_) n = [.all (conjs (.true_) n)] by simp only [disjs, conjs]]
    simp only [evalCond]
    refine evalAny_one ?_
    simp only [evalCond]
    exact evalConjs (.true_) (by simpa [NeedsNoParens] using h) n t row s env hs hp
  | .cmp op col e, h, n, t, row, s, env, hs, hp => by
    rw [show disjs (.cmp op col e) n = [.all (conjs (.cmp op col e) n)] by simp only [disjs, conjs]]
    simp only [evalCond]
    refine evalAny_one ?_
    simp only [evalCond]
    exact evalConjs (.cmp op col e) (by simpa [NeedsNoParens] using h) n t row s env hs hp
  | .not a, h, n, t, row, s, env, hs, hp => by
    rw [show disjs (.not a) n = [.all (conjs (.not a) n)] by simp only [disjs, conjs]]
    simp only [evalCond]
    refine evalAny_one ?_
    simp only [evalCond]
    exact evalConjs (.not a) (by simpa [NeedsNoParens] using h) n t row s env hs hp
  | .subquery col t2 c e, h, n, t, row, s, env, hs, hp => by
    rw [show disjs (.subquery col t2 c e) n = [.all (conjs (.subquery col t2 c e) n)] by simp only [disjs, conjs]]
    simp only [evalCond]
    refine evalAny_one ?_
    simp only [evalCond]
    exact evalConjs (.subquery col t2 c e) (by simpa [NeedsNoParens] using h) n t row s env hs hp
  | .inVals col vs, h, n, t, row, s, env, hs, hp => by
    rw [show disjs (.inVals col vs) n = [.all (conjs (.inVals col vs) n)] by simp only [disjs, conjs]]
    simp only [evalCond]
    refine evalAny_one ?_
    simp only [evalCond]
    exact evalConjs (.inVals col vs) (by simpa [NeedsNoParens] using h) n t row s env hs hp
  | .subqueryJoin col t2 c js e, h, n, t, row, s, env, hs, hp => by
    rw [show disjs (.subqueryJoin col t2 c js e) n = [.all (conjs (.subqueryJoin col t2 c js e) n)] by simp only [disjs, conjs]]
    simp only [evalCond]
    refine evalAny_one ?_
    simp only [evalCond]
    exact evalConjs (.subqueryJoin col t2 c js e) (by simpa [NeedsNoParens] using h) n t row s env hs hp
termination_by e => (sizeOf e, 2)
end

end

end Butane
