/-
Lemmas for C99: what the `filter!` macro makes of its argument.
-/
import Verif.Spec.FilterMacro
import Verif.Proofs.Filter

namespace Butane.MacroP
open Butane Sql Spec Macro

theorem opMeans_eq (op : ROp) : opMeans op = op.cmp? := by cases op <;> rfl

theorem nameOf_eq (e : RExpr) : nameOf? e = identOf e := by
  induction e with
  | group e ih => simpa only [nameOf?, identOf] using ih
  | _ => rfl

/-- A generated value is the value written. -/
theorem handle_val {E : MEnv} {T : String} {e : RExpr} {v : SqlVal}
    (h : handle E T e = some (.val v)) : writtenValue e = some v := by
  induction e generalizing v with
  | binary op l r =>
    simp only [handle, binOp] at h
    split at h <;> try simp at h
    split at h <;> try simp at h
  | call recv m arg more =>
    simp only [handle, matchesOp, containsOp, likeOp] at h
    repeat' (split at h <;> try simp at h)
  | call0 => simp [handle] at h
  | path n =>
    simp only [handle] at h
    simp only [writtenValue]
    split at h
    · rename_i hn
      simp only [Option.some.injEq, GVal.val.injEq] at h
      simp [hn, h]
    · split at h <;> simp at h
  | lit w => simpa [handle, writtenValue] using h
  | block w => cases w <;> simp_all [handle, writtenValue]
  | group e ih => exact ih (by simpa only [handle] using h)
  | paren => simp [handle] at h
  | rust => simp [handle] at h

/-- A generated field is the field named. -/
theorem handle_field {E : MEnv} {T : String} {e : RExpr} {f : String}
    (h : handle E T e = some (.field f)) : identOf e = some f ∧ isCol (E.field T f) = true := by
  induction e with
  | binary op l r =>
    simp only [handle, binOp] at h
    split at h <;> try simp at h
    split at h <;> try simp at h
  | call recv m arg more =>
    simp only [handle, matchesOp, containsOp, likeOp] at h
    repeat' (split at h <;> try simp at h)
  | call0 => simp [handle] at h
  | path n =>
    simp only [handle] at h
    split at h
    · simp at h
    · split at h
      · simp at h
      · rename_i k hk hkk
        simp only [Option.some.injEq, GVal.field.injEq] at h
        subst h
        refine ⟨rfl, ?_⟩
        rw [hkk]
        cases k with
        | many a b => exact absurd rfl (hk a b)
        | _ => rfl
      · simp at h
  | lit w => simp [handle] at h
  | block w => cases w <;> simp [handle] at h
  | group e ih => exact ih (by simpa only [handle] using h)
  | paren => simp [handle] at h
  | rust => simp [handle] at h

theorem litOf_some {e : RExpr} {v : SqlVal} (h : litOf e = some v) : e = .lit v := by
  cases e <;> simp_all [litOf]

theorem rustList_some {e : RExpr} {vs : List SqlVal} (h : rustList e = some vs) :
    e = .rust (.list vs) := by
  unfold rustList at h
  split at h <;> simp_all

/-- The condition `b` is that of filter `f` of a level, and `f` says what is written. -/
def AtomSays (E : MEnv) (T : String) (e : RExpr) (b : BoolExpr) : Prop :=
  ∃ a : FAtom, b = a.toBool ∧ AtomIn E T a ∧ (NoEmptyLists e → AtomLists a) ∧
    ∀ rel db row, AtomHolds rel db row a ↔ TrueOf E rel db T row e
def AndSays (E : MEnv) (T : String) (e : RExpr) (b : BoolExpr) : Prop :=
  ∃ a : FAnd, b = a.toBool ∧ AndIn E T a ∧ (NoEmptyLists e → AndLists a) ∧
    ∀ rel db row, AndHolds rel db row a ↔ TrueOf E rel db T row e
def OrSays (E : MEnv) (T : String) (e : RExpr) (b : BoolExpr) : Prop :=
  ∃ a : FOr, b = a.toBool ∧ FilterIn E T a ∧ (NoEmptyLists e → FilterLists a) ∧
    ∀ rel db row, FilterHolds rel db row a ↔ TrueOf E rel db T row e

theorem AtomSays.and {E : MEnv} {T : String} {e : RExpr} {b : BoolExpr} (h : AtomSays E T e b) :
    AndSays E T e b := by
  obtain ⟨a, hb, hi, hz, hs⟩ := h
  exact ⟨.one a, hb, by simpa only [AndIn] using hi, by simpa only [AndLists] using hz,
    fun rel db row => by simpa only [AndHolds] using hs rel db row⟩

theorem AndSays.or {E : MEnv} {T : String} {e : RExpr} {b : BoolExpr} (h : AndSays E T e b) :
    OrSays E T e b := by
  obtain ⟨a, hb, hi, hz, hs⟩ := h
  exact ⟨.one a, hb, by simpa only [FilterIn] using hi, by simpa only [FilterLists] using hz,
    fun rel db row => by simpa only [FilterHolds] using hs rel db row⟩

theorem AtomSays.all {E : MEnv} {T : String} {e : RExpr} {b : BoolExpr} (h : AtomSays E T e b)
    {p q r : Prop} : (p → OrSays E T e b) ∧ (q → AndSays E T e b) ∧ (r → AtomSays E T e b) :=
  ⟨fun _ => h.and.or, fun _ => h.and, fun _ => h⟩

theorem cmp_says {E : MEnv} {T : String} {op : ROp} {l r : RExpr} {c : CmpOp} {f : String}
    {v : SqlVal} (hc : op.cmp? = some c) (hl : handle E T l = some (.field f))
    (hr : handle E T r = some (.val v)) (ht : E.cmpOk T f c v = true) :
    AtomSays E T (.binary op l r) (fieldCmp c f v) := by
  obtain ⟨hf, hk⟩ := handle_field hl
  have hv := handle_val hr
  refine ⟨.cmp c f v, rfl, by rw [AtomIn]; exact ⟨hk, .inr ht⟩,
    fun _ => by simp only [AtomLists], fun rel db row => ?_⟩
  cases op <;> simp only [ROp.cmp?, Option.some.injEq, reduceCtorEq] at hc <;> subst hc <;>
    simp [TrueOf, AtomHolds, opMeans, nameOf_eq, hf, hv]

theorem call_says {E : MEnv} {T : String} {recv arg : RExpr} {m : String} {more : Nat}
    {b : BoolExpr}
    (ih : ∀ T b, handle E T arg = some (.cond b) → Parsed 0 arg → OrSays E T arg b)
    (hp : Parsed 0 arg)
    (h : handle E T (.call recv m arg more) = some (.cond b)) :
    AtomSays E T (.call recv m arg more) b := by
  simp only [handle] at h
  split at h
  · simp at h
  split at h
  · simp at h
  rename_i f hf
  split at h
  · rename_i hm
    subst hm
    split at h
    · rename_i t hk
      simp only [matchesOp] at h
      split at h
      · rename_i v hv
        split at h
        · rename_i hok
          simp only [Option.some.injEq, GVal.cond.injEq] at h
          subst h
          have := litOf_some hv
          subst this
          refine ⟨.matchesPk f (E.obj t) v, rfl, by rw [AtomIn]; exact ⟨t, hk, rfl, hok⟩,
            fun _ => by simp only [AtomLists], fun rel db row => ?_⟩
          simp [TrueOf, AtomHolds, nameOf_eq, hf, hk, and_comm]
        · simp at h
      · rename_i hv
        split at h
        · rename_i q hq
          simp only [Option.some.injEq, GVal.cond.injEq] at h
          subst h
          obtain ⟨g, hg, hi, hz, hs⟩ := ih t q hq hp
          subst hg
          refine ⟨.matches f (E.obj t) g, by simp only [FAtom.toBool],
            by rw [AtomIn]; exact ⟨t, hk, rfl, hi⟩,
            fun h => (by simp only [NoEmptyLists] at h; simpa only [AtomLists] using hz h.2),
            fun rel db row => ?_⟩
          have hnl : ∀ v, arg ≠ .lit v := by
            intro v he
            subst he
            simp [litOf] at hv
          simp [TrueOf, AtomHolds, nameOf_eq, hf, hk, and_comm, hs, hnl]
        · simp at h
    · simp at h
  split at h
  · rename_i hm
    subst hm
    split at h
    · rename_i link t hk
      simp only [containsOp] at h
      split at h
      · rename_i v hv
        split at h
        · rename_i hok
          simp only [Option.some.injEq, GVal.cond.injEq] at h
          subst h
          have := litOf_some hv
          subst this
          refine ⟨.containsPk link (E.obj T) (E.obj t) v, rfl,
            by rw [AtomIn]; exact ⟨f, t, hk, rfl, rfl, hok⟩,
            fun _ => by simp only [AtomLists], fun rel db row => ?_⟩
          simp [TrueOf, AtomHolds, nameOf_eq, hf, hk, and_comm]
          constructor
          · rintro ⟨r, hr, hc, hl⟩
            exact ⟨link, t, ⟨rfl, rfl⟩, r, hr, hc, hl⟩
          · rintro ⟨_, _, ⟨rfl, rfl⟩, r, hr, hc, hl⟩
            exact ⟨r, hr, hc, hl⟩
        · simp at h
      · rename_i hv
        split at h
        · rename_i q hq
          simp only [Option.some.injEq, GVal.cond.injEq] at h
          subst h
          obtain ⟨g, hg, hi, hz, hs⟩ := ih t q hq hp
          subst hg
          refine ⟨.contains link (E.obj T) (E.obj t) g, by simp only [FAtom.toBool],
            by rw [AtomIn]; exact ⟨f, t, hk, rfl, rfl, hi⟩,
            fun h => (by simp only [NoEmptyLists] at h; simpa only [AtomLists] using hz h.2),
            fun rel db row => ?_⟩
          have hnl : ∀ v, arg ≠ .lit v := by
            intro v he
            subst he
            simp [litOf] at hv
          simp [TrueOf, AtomHolds, nameOf_eq, hf, hk, and_comm, hs, hnl]
          constructor
          · rintro ⟨r, hr, hc, hl⟩
            exact ⟨link, t, ⟨rfl, rfl⟩, r, hr, hc, hl⟩
          · rintro ⟨_, _, ⟨rfl, rfl⟩, r, hr, hc, hl⟩
            exact ⟨r, hr, hc, hl⟩
        · simp at h
    · simp at h
  split at h
  · rename_i hm
    subst hm
    split at h
    · rename_i hk
      simp only [likeOp] at h
      split at h
      · simp at h
      split at h
      · rename_i v hv
        simp only [Option.some.injEq, GVal.cond.injEq] at h
        subst h
        have hw := handle_val hv
        refine ⟨.cmp .like f v, rfl, by rw [AtomIn]; exact ⟨hk, .inl rfl⟩,
          fun _ => by simp only [AtomLists], fun rel db row => ?_⟩
        simp [TrueOf, AtomHolds, nameOf_eq, hf, hw]
      · simp at h
    · simp at h
  split at h
  · rename_i hm
    subst hm
    split at h
    · rename_i hk
      split at h
      · rename_i vs hvs
        simp only [Option.some.injEq, GVal.cond.injEq] at h
        subst h
        have := rustList_some hvs
        subst this
        refine ⟨.isIn f vs, rfl, by rw [AtomIn]; exact hk, fun h => ?_, fun rel db row => ?_⟩
        · simp only [NoEmptyLists, ne_eq, RExpr.rust.injEq, RVal.list.injEq] at h
          simpa only [AtomLists] using h.1 trivial
        · simp [TrueOf, AtomHolds, nameOf_eq, hf]
      · simp at h
    · simp at h
  · simp at h

/-- What the macro makes of an expression without splices is a filter that says what is
written. -/
theorem says {E : MEnv} : ∀ (e : RExpr) (T : String) (b : BoolExpr),
    handle E T e = some (.cond b) → NoSplices e →
    (Parsed 0 e → OrSays E T e b) ∧ (Parsed 1 e → AndSays E T e b) ∧
      (Parsed 2 e → AtomSays E T e b) := by
  intro e
  induction e with
  | binary op l r ihl ihr =>
    intro T b h hn
    simp only [NoSplices] at hn
    simp only [handle, binOp] at h
    split at h
    · rename_i a c hl hr
      simp only [Option.some.injEq, GVal.cond.injEq] at h
      subst h
      have key : Parsed 1 l → Parsed 2 r → AndSays E T (.binary .and l r) (.and a c) := by
        intro pl pr
        obtain ⟨f, hf, hfi, hfz, hfs⟩ := (ihl T a hl hn.1).2.1 pl
        obtain ⟨g, hg, hgi, hgz, hgs⟩ := (ihr T c hr hn.2).2.2 pr
        exact ⟨.and f g, by simp only [FAnd.toBool, hf, hg], by simp only [AndIn]; exact ⟨hfi, hgi⟩,
          fun h => (by simp only [NoEmptyLists] at h; simp only [AndLists]; exact ⟨hfz h.1, hgz h.2⟩),
          fun rel db row => by simp only [AndHolds, TrueOf, hfs, hgs]⟩
      refine ⟨fun p => ?_, fun p => ?_, fun p => ?_⟩ <;> simp only [Parsed] at p
      · exact (key p.2.1 p.2.2).or
      · exact key p.2.1 p.2.2
      · exact absurd p.1 (by decide)
    · rename_i a c hl hr
      simp only [Option.some.injEq, GVal.cond.injEq] at h
      subst h
      refine ⟨fun p => ?_, fun p => ?_, fun p => ?_⟩ <;> simp only [Parsed] at p
      · obtain ⟨f, hf, hfi, hfz, hfs⟩ := (ihl T a hl hn.1).1 p.2.1
        obtain ⟨g, hg, hgi, hgz, hgs⟩ := (ihr T c hr hn.2).2.1 p.2.2
        exact ⟨.or f g, by simp only [FOr.toBool, hf, hg], by simp only [FilterIn]; exact ⟨hfi, hgi⟩,
          fun h => (by simp only [NoEmptyLists] at h; simp only [FilterLists]; exact ⟨hfz h.1, hgz h.2⟩),
          fun rel db row => by simp only [FilterHolds, TrueOf, hfs, hgs]⟩
      · exact absurd p.1 (by decide)
      · exact absurd p.1 (by decide)
    · rename_i f v _ _ hl hr
      split at h
      · rename_i c hc
        split at h
        · rename_i ht
          simp only [Option.some.injEq, GVal.cond.injEq] at h
          subst h
          exact (cmp_says hc hl hr ht).all
        · simp at h
      · simp at h
    · simp at h
  | call recv m arg more _ iha =>
    intro T b h hn
    simp only [NoSplices] at hn
    have key : Parsed 0 arg → AtomSays E T (.call recv m arg more) b := fun hp =>
      call_says (fun T b ha hp => (iha T b ha hn.2).1 hp) hp h
    refine ⟨fun p => ?_, fun p => ?_, fun p => ?_⟩ <;> simp only [Parsed] at p
    · exact (key p.2).and.or
    · exact (key p.2).and
    · exact key p.2
  | call0 => intro T b h; simp [handle] at h
  | path n =>
    intro T b h
    simp only [handle] at h
    repeat' (split at h <;> try simp at h)
  | lit w => intro T b h; simp [handle] at h
  | block w =>
    intro T b h hn
    cases w
    · simp [handle] at h
    · simp [handle] at h
    · simp [NoSplices] at hn
  | group e ih => intro T b h hn; simp [NoSplices] at hn
  | paren => intro T b h; simp [handle] at h
  | rust => intro T b h; simp [handle] at h

theorem handle_of {E : MEnv} {T : String} {e : RExpr} {b : BoolExpr}
    (h : filterMacro E T e = some b) : handle E T e = some (.cond b) := by
  unfold filterMacro at h
  split at h
  · rename_i c hc
    simp only [Option.some.injEq] at h
    rw [hc, h]
  · cases h

theorem filter_says {E : MEnv} {T : String} {e : RExpr} {b : BoolExpr}
    (h : filterMacro E T e = some b) (hp : Parsed 0 e) (hn : NoSplices e) : OrSays E T e b :=
  (says e T b (handle_of h) hn).1 hp

/-! ### Scope and names -/

theorem plainName_name {res : String → Bool} {s : String} (h : PlainName res s) : IsName s := h.1

mutual
theorem atom_names {res : String → Bool} {E : MEnv} (hE : EnvNames res E) :
    (a : FAtom) → (T : String) → AtomIn E T a → AtomNames res a
  | .cmp op f v, T, h => by
    simp only [AtomIn] at h
    simpa only [AtomNames] using hE.col T f h.1
  | .isIn f vs, T, h => by
    simp only [AtomIn] at h
    simpa only [AtomNames] using plainName_name (hE.col T f h)
  | .matchesPk f o pk, T, h => by
    simp only [AtomIn] at h
    obtain ⟨t, hk, ho, _⟩ := h
    subst ho
    simp only [AtomNames]
    exact ⟨plainName_name (hE.col T f (by rw [hk]; rfl)), (hE.table t).1, (hE.table t).2⟩
  | .matches f o e, T, h => by
    simp only [AtomIn] at h
    obtain ⟨t, hk, ho, he⟩ := h
    subst ho
    simp only [AtomNames]
    exact ⟨plainName_name (hE.col T f (by rw [hk]; rfl)), (hE.table t).1,
      plainName_name (hE.table t).2, filter_names' hE e t he⟩
  | .containsPk m o o2 pk, T, h => by
    simp only [AtomIn] at h
    obtain ⟨f, t, hk, ho, ho2, _⟩ := h
    subst ho ho2
    simp only [AtomNames]
    exact ⟨hE.link T f m t hk, plainName_name (hE.table T).2, (hE.table t).1, (hE.table t).2⟩
  | .contains m o o2 e, T, h => by
    simp only [AtomIn] at h
    obtain ⟨f, t, hk, ho, ho2, he⟩ := h
    subst ho ho2
    simp only [AtomNames]
    exact ⟨hE.link T f m t hk, plainName_name (hE.table T).2, (hE.table t).1,
      plainName_name (hE.table t).2, filter_names' hE e t he⟩
theorem and_names {res : String → Bool} {E : MEnv} (hE : EnvNames res E) :
    (a : FAnd) → (T : String) → AndIn E T a → AndNames res a
  | .one a, T, h => by
    simp only [AndIn] at h
    simpa only [AndNames] using atom_names hE a T h
  | .and l r, T, h => by
    simp only [AndIn] at h
    simp only [AndNames]
    exact ⟨and_names hE l T h.1, atom_names hE r T h.2⟩
theorem filter_names' {res : String → Bool} {E : MEnv} (hE : EnvNames res E) :
    (a : FOr) → (T : String) → FilterIn E T a → FilterNames res a
  | .one a, T, h => by
    simp only [FilterIn] at h
    simpa only [FilterNames] using and_names hE a T h
  | .or l r, T, h => by
    simp only [FilterIn] at h
    simp only [FilterNames]
    exact ⟨filter_names' hE l T h.1, and_names hE r T h.2⟩
end

mutual
theorem atom_scoped' {E : MEnv} {db : Db} (hD : DbFor E db) :
    (a : FAtom) → (T : String) → (row : Row) → (os : List Row) → AtomIn E T a →
      RowOf E T row os → AtomScoped db row os a
  | .cmp op f v, T, row, os, h, hr => by
    simp only [AtomIn] at h
    simpa only [AtomScoped] using hr.2 f h.1
  | .isIn f vs, T, row, os, h, hr => by
    simp only [AtomIn] at h
    simpa only [AtomScoped] using hr.2 f h
  | .matchesPk f o pk, T, row, os, h, hr => by
    simp only [AtomIn] at h
    obtain ⟨t, hk, ho, _⟩ := h
    subst ho
    simp only [AtomScoped]
    have ht := hD.target T f t hk
    exact ⟨hr.2 f (by rw [hk]; rfl), ht.1, fun r hm => (ht.2 r hm).1.1⟩
  | .matches f o e, T, row, os, h, hr => by
    simp only [AtomIn] at h
    obtain ⟨t, hk, ho, he⟩ := h
    subst ho
    simp only [AtomScoped]
    have ht := hD.target T f t hk
    exact ⟨hr.2 f (by rw [hk]; rfl), ht.1, fun r hm =>
      ⟨(ht.2 r hm).1.1, filter_scoped' hD e t r [] he (ht.2 r hm)⟩⟩
  | .containsPk m o o2 pk, T, row, os, h, hr => by
    simp only [AtomIn] at h
    obtain ⟨f, t, hk, ho, ho2, _⟩ := h
    subst ho ho2
    simp only [AtomScoped]
    exact ⟨hr.1, (hD.link T f m t hk).1, hD.linkKey T f m t hk⟩
  | .contains m o o2 e, T, row, os, h, hr => by
    simp only [AtomIn] at h
    obtain ⟨f, t, hk, ho, ho2, he⟩ := h
    subst ho ho2
    simp only [AtomScoped]
    exact ⟨hr.1, (hD.link T f m t hk).1, fun r hm l hl =>
      filter_scoped' hD e t r [l] he ((hD.link T f m t hk).2 r hm l hl)⟩
theorem and_scoped' {E : MEnv} {db : Db} (hD : DbFor E db) :
    (a : FAnd) → (T : String) → (row : Row) → (os : List Row) → AndIn E T a →
      RowOf E T row os → AndScoped db row os a
  | .one a, T, row, os, h, hr => by
    simp only [AndIn] at h
    simpa only [AndScoped] using atom_scoped' hD a T row os h hr
  | .and l r, T, row, os, h, hr => by
    simp only [AndIn] at h
    simp only [AndScoped]
    exact ⟨and_scoped' hD l T row os h.1 hr, atom_scoped' hD r T row os h.2 hr⟩
theorem filter_scoped' {E : MEnv} {db : Db} (hD : DbFor E db) :
    (a : FOr) → (T : String) → (row : Row) → (os : List Row) → FilterIn E T a →
      RowOf E T row os → FilterScoped db row os a
  | .one a, T, row, os, h, hr => by
    simp only [FilterIn] at h
    simpa only [FilterScoped] using and_scoped' hD a T row os h hr
  | .or l r, T, row, os, h, hr => by
    simp only [FilterIn] at h
    simp only [FilterScoped]
    exact ⟨filter_scoped' hD l T row os h.1 hr, and_scoped' hD r T row os h.2 hr⟩
end

/-! ### Every filter can be written -/

/-- An expression that makes this condition, at level `n`. -/
def Writes (E : MEnv) (T : String) (n : Nat) (b : BoolExpr) : Prop :=
  ∃ e, handle E T e = some (.cond b) ∧ Parsed n e ∧ NoSplices e ∧ litOf e = none

theorem lower {n n' : Nat} (hl : n' ≤ n) {e : RExpr} (h : Parsed n e) : Parsed n' e := by
  cases e with
  | binary op l r =>
    cases op <;> simp only [Parsed] at h ⊢ <;> exact ⟨by omega, h.2⟩
  | _ => first | (simp only [Parsed] at h ⊢; exact h) | simp [Parsed]

theorem cmp_writes {E : MEnv} {T : String} (hN : E.field T "None" = none) {op : CmpOp}
    {f : String} {v : SqlVal} (hk : isCol (E.field T f) = true)
    (ht : op = .like ∨ E.cmpOk T f op v = true) : Writes E T 2 (fieldCmp op f v) := by
  have hne : f ≠ "None" := by
    intro h
    subst h
    rw [hN] at hk
    cases hk
  have hf : handle E T (.path f) = some (.field f) := by
    simp only [handle, if_neg hne]
    split
    · rename_i h
      rw [h] at hk
      cases hk
    · rfl
    · rename_i h
      rw [h] at hk
      cases hk
  have key : ∀ rop : ROp, rop.cmp? = some op → E.cmpOk T f op v = true →
      Writes E T 2 (fieldCmp op f v) := by
    intro rop hr ht
    refine ⟨.binary rop (.path f) (.block (.val v)), ?_, ?_, by simp [NoSplices], rfl⟩
    · simp only [handle] at hf
      simp only [handle, hf, binOp]
      cases rop <;> simp_all [ROp.cmp?]
    · cases rop <;> simp_all [ROp.cmp?, Parsed]
  by_cases hl : op = .like
  · subst hl
    refine ⟨.call (.path f) "like" (.block (.val v)) 0, ?_, by simp [Parsed], by simp [NoSplices],
      rfl⟩
    simp [handle, identOf, likeOp, isBinary, hk]
  · have ht := ht.resolve_left hl
    cases op
    · exact key .eq rfl ht
    · exact key .ne rfl ht
    · exact key .lt rfl ht
    · exact key .gt rfl ht
    · exact key .le rfl ht
    · exact key .ge rfl ht
    · exact absurd rfl hl

mutual
theorem atom_writes {E : MEnv} (hN : ∀ T, E.field T "None" = none) :
    (a : FAtom) → (T : String) → AtomIn E T a → Writes E T 2 a.toBool
  | .cmp op f v, T, h => by
    simp only [AtomIn] at h
    exact cmp_writes (hN T) h.1 h.2
  | .isIn f vs, T, h => by
    simp only [AtomIn] at h
    exact ⟨.call (.path f) "is_in" (.rust (.list vs)) 0,
      by simp [handle, identOf, h, rustList, FAtom.toBool], by simp [Parsed], by simp [NoSplices],
      rfl⟩
  | .matchesPk f o pk, T, h => by
    simp only [AtomIn] at h
    obtain ⟨t, hk, ho, hok⟩ := h
    subst ho
    exact ⟨.call (.path f) "matches" (.lit pk) 0,
      by simp [handle, identOf, hk, litOf, matchesOp, hok, FAtom.toBool], by simp [Parsed],
      by simp [NoSplices], rfl⟩
  | .matches f o e, T, h => by
    simp only [AtomIn] at h
    obtain ⟨t, hk, ho, he⟩ := h
    subst ho
    obtain ⟨x, hx, hp, hn, hl⟩ := filter_writes hN e t he
    exact ⟨.call (.path f) "matches" x 0,
      by simp [handle, identOf, hk, hl, matchesOp, hx, FAtom.toBool], by simp [Parsed, hp],
      by simp [NoSplices, hn], rfl⟩
  | .containsPk m o o2 pk, T, h => by
    simp only [AtomIn] at h
    obtain ⟨f, t, hk, ho, ho2, hok⟩ := h
    subst ho ho2
    exact ⟨.call (.path f) "contains" (.lit pk) 0,
      by simp [handle, identOf, hk, litOf, containsOp, hok, FAtom.toBool], by simp [Parsed],
      by simp [NoSplices], rfl⟩
  | .contains m o o2 e, T, h => by
    simp only [AtomIn] at h
    obtain ⟨f, t, hk, ho, ho2, he⟩ := h
    subst ho ho2
    obtain ⟨x, hx, hp, hn, hl⟩ := filter_writes hN e t he
    exact ⟨.call (.path f) "contains" x 0,
      by simp [handle, identOf, hk, hl, containsOp, hx, FAtom.toBool], by simp [Parsed, hp],
      by simp [NoSplices, hn], rfl⟩
theorem and_writes {E : MEnv} (hN : ∀ T, E.field T "None" = none) :
    (a : FAnd) → (T : String) → AndIn E T a → Writes E T 1 a.toBool
  | .one a, T, h => by
    simp only [AndIn] at h
    obtain ⟨x, hx, hp, hn, hl⟩ := atom_writes hN a T h
    exact ⟨x, by simpa only [FAnd.toBool] using hx, lower (by decide) hp, hn, hl⟩
  | .and l r, T, h => by
    simp only [AndIn] at h
    obtain ⟨x, hx, hp, hn, _⟩ := and_writes hN l T h.1
    obtain ⟨y, hy, hq, hm, _⟩ := atom_writes hN r T h.2
    exact ⟨.binary .and x y, by simp [handle, hx, hy, binOp, FAnd.toBool],
      by simp [Parsed, hp, hq], by simp [NoSplices, hn, hm], rfl⟩
theorem filter_writes {E : MEnv} (hN : ∀ T, E.field T "None" = none) :
    (a : FOr) → (T : String) → FilterIn E T a → Writes E T 0 a.toBool
  | .one a, T, h => by
    simp only [FilterIn] at h
    obtain ⟨x, hx, hp, hn, hl⟩ := and_writes hN a T h
    exact ⟨x, by simpa only [FOr.toBool] using hx, lower (by decide) hp, hn, hl⟩
  | .or l r, T, h => by
    simp only [FilterIn] at h
    obtain ⟨x, hx, hp, hn, _⟩ := filter_writes hN l T h.1
    obtain ⟨y, hy, hq, hm, _⟩ := and_writes hN r T h.2
    exact ⟨.binary .or x y, by simp [handle, hx, hy, binOp, FOr.toBool],
      by simp [Parsed, hp, hq], by simp [NoSplices, hn, hm], rfl⟩
end

/-! ### Spliced conditions -/

/-- The condition the macro makes is true where the expression is, splices included. -/
theorem handle_true {E : MEnv} (hm : LinksApart E) {rel : Compare} {db : Db} :
    ∀ (e : RExpr) (T : String) (b : BoolExpr) (row : Row), handle E T e = some (.cond b) →
      (boolValue rel db row b = some true ↔ TrueOf E rel db T row e) := by
  intro e
  induction e with
  | binary op l r ihl ihr =>
    intro T b row h
    simp only [handle, binOp] at h
    split at h
    · rename_i a c hl hr
      simp only [Option.some.injEq, GVal.cond.injEq] at h
      subst h
      simp only [boolValue, kAnd_eq_true, TrueOf, ihl T a row hl, ihr T c row hr]
    · rename_i a c hl hr
      simp only [Option.some.injEq, GVal.cond.injEq] at h
      subst h
      simp only [boolValue, kOr_eq_true, TrueOf, ihl T a row hl, ihr T c row hr]
    · rename_i f v _ _ hl hr
      split at h
      · rename_i c hc
        split at h
        · rename_i ht
          simp only [Option.some.injEq, GVal.cond.injEq] at h
          subst h
          obtain ⟨a, ha, _, _, hs⟩ := cmp_says hc hl hr ht
          rw [fieldCmp, cmp_holds, ← hs rel db row]
          cases a <;> simp [FAtom.toBool, fieldCmp, fieldIsIn, subfilterpk, subfilter,
            manyContainspk, manyContains] at ha
          obtain ⟨rfl, rfl, rfl⟩ := ha
          simp only [AtomHolds]
        · simp at h
      · simp at h
    · simp at h
  | call recv m arg more _ ih =>
    intro T b row h
    simp only [handle] at h
    split at h
    · simp at h
    split at h
    · simp at h
    rename_i f hf
    split at h
    · rename_i hm
      subst hm
      split at h
      · rename_i t hk
        simp only [matchesOp] at h
        split at h
        · rename_i v hv
          split at h
          · simp only [Option.some.injEq, GVal.cond.injEq] at h
            subst h
            have := litOf_some hv
            subst this
            simp [TrueOf, subfilterpk, subfilter_holds, cmp_holds, nameOf_eq, hf, hk, and_comm]
          · simp at h
        · rename_i hv
          split at h
          · rename_i q hq
            simp only [Option.some.injEq, GVal.cond.injEq] at h
            subst h
            have hnl : ∀ v, arg ≠ .lit v := by
              intro v he
              subst he
              simp [litOf] at hv
            simp [TrueOf, subfilter_holds, nameOf_eq, hf, hk, and_comm, ih t q _ hq, hnl]
          · simp at h
      · simp at h
    split at h
    · rename_i hm'
      subst hm'
      split at h
      · rename_i link t hk
        simp only [containsOp] at h
        split at h
        · rename_i v hv
          split at h
          · simp only [Option.some.injEq, GVal.cond.injEq] at h
            subst h
            have := litOf_some hv
            subst this
            simp [TrueOf, manyContainspk, contains_holds (hm T f link t hk), cmp_holds, nameOf_eq,
              hf, hk, and_comm]
            constructor
            · rintro ⟨r, hr, hc, hl⟩
              exact ⟨link, t, ⟨rfl, rfl⟩, r, hr, hc, hl⟩
            · rintro ⟨_, _, ⟨rfl, rfl⟩, r, hr, hc, hl⟩
              exact ⟨r, hr, hc, hl⟩
          · simp at h
        · rename_i hv
          split at h
          · rename_i q hq
            simp only [Option.some.injEq, GVal.cond.injEq] at h
            subst h
            have hnl : ∀ v, arg ≠ .lit v := by
              intro v he
              subst he
              simp [litOf] at hv
            simp [TrueOf, contains_holds (hm T f link t hk), nameOf_eq, hf, hk, and_comm,
              ih t q _ hq, hnl]
            constructor
            · rintro ⟨r, hr, hc, hl⟩
              exact ⟨link, t, ⟨rfl, rfl⟩, r, hr, hc, hl⟩
            · rintro ⟨_, _, ⟨rfl, rfl⟩, r, hr, hc, hl⟩
              exact ⟨r, hr, hc, hl⟩
          · simp at h
      · simp at h
    split at h
    · rename_i hm
      subst hm
      split at h
      · simp only [likeOp] at h
        split at h
        · simp at h
        split at h
        · rename_i v hv
          simp only [Option.some.injEq, GVal.cond.injEq] at h
          subst h
          have hw := handle_val hv
          simp [TrueOf, fieldCmp, cmp_holds, nameOf_eq, hf, hw]
        · simp at h
      · simp at h
    split at h
    · rename_i hm
      subst hm
      split at h
      · split at h
        · rename_i vs hvs
          simp only [Option.some.injEq, GVal.cond.injEq] at h
          subst h
          have := rustList_some hvs
          subst this
          simp [TrueOf, fieldIsIn, boolValue, in3_true, nameOf_eq, hf]
          exact ⟨fun ⟨v, ⟨a, ha, hv⟩, he⟩ => ⟨a, ha, hv ▸ he⟩,
            fun ⟨v, hv, he⟩ => ⟨_, ⟨v, hv, rfl⟩, he⟩⟩
        · simp at h
      · simp at h
    · simp at h
  | call0 => intro T b row h; simp [handle] at h
  | path n =>
    intro T b row h
    simp only [handle] at h
    repeat' (split at h <;> try simp at h)
  | lit w => intro T b row h; simp [handle] at h
  | block w =>
    intro T b row h
    cases w
    · simp [handle] at h
    · simp [handle] at h
    · simp only [handle, Option.some.injEq, GVal.cond.injEq] at h
      subst h
      simp only [TrueOf]
  | group e ih =>
    intro T b row h
    simp only [TrueOf]
    exact ih T b row (by simpa only [handle] using h)
  | paren => intro T b row h; simp [handle] at h
  | rust => intro T b row h; simp [handle] at h

/-- Accepted expressions use only what is documented. -/
theorem documented {E : MEnv} : ∀ (e : RExpr) (T : String) (g : GVal),
    handle E T e = some g → OnlyDocumented e := by
  intro e
  induction e with
  | binary op l r ihl ihr =>
    intro T g h
    simp only [handle, binOp] at h
    simp only [OnlyDocumented]
    split at h
    · rename_i hl hr
      exact ⟨(fun h => (by cases h)), ihl _ _ hl, ihr _ _ hr⟩
    · rename_i hl hr
      exact ⟨(fun h => (by cases h)), ihl _ _ hl, ihr _ _ hr⟩
    · rename_i hl hr
      refine ⟨fun ho => ?_, ihl _ _ hl, ihr _ _ hr⟩
      subst ho
      simp [ROp.cmp?] at h
    · simp at h
  | call recv m arg more _ ih =>
    intro T g h
    simp only [handle, matchesOp, containsOp, likeOp] at h
    simp only [OnlyDocumented]
    split at h
    · simp at h
    split at h
    · simp at h
    split at h
    · rename_i hm
      refine .inr ⟨.inr (.inl hm), ?_⟩
      split at h
      · split at h
        · rename_i hv
          rw [litOf_some hv]
          simp [OnlyDocumented]
        · split at h
          · rename_i hq
            exact ih _ _ hq
          · simp at h
      · simp at h
    split at h
    · rename_i hm
      refine .inr ⟨.inr (.inr hm), ?_⟩
      split at h
      · split at h
        · rename_i hv
          rw [litOf_some hv]
          simp [OnlyDocumented]
        · split at h
          · rename_i hq
            exact ih _ _ hq
          · simp at h
      · simp at h
    split at h
    · rename_i hm
      refine .inr ⟨.inl hm, ?_⟩
      split at h
      · split at h
        · simp at h
        split at h
        · rename_i hq
          exact ih _ _ hq
        · simp at h
      · simp at h
    split at h
    · rename_i hm
      exact .inl hm
    · simp at h
  | call0 => intro T g h; simp [handle] at h
  | group e ih =>
    intro T g h
    simp only [OnlyDocumented]
    exact ih T g (by simpa only [handle] using h)
  | paren => intro T g h; simp [handle] at h
  | rust => intro T g h; simp [handle] at h
  | _ => intro T g h; simp [OnlyDocumented]

end Butane.MacroP
