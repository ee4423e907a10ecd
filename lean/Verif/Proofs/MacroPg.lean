/-
Lemmas for C101: what the `filter!` macro makes of its argument says of objects in PostgreSQL what is
written.
-/
import Verif.Spec.MacroPg
import Verif.Proofs.FilterMacro
import Verif.Proofs.MacroObjects

namespace Butane.MacroPg
open Butane Sql Spec Macro MacroP PgData

def AtomSays (E : MEnv) (T : String) (e : RExpr) (b : BoolExpr) : Prop :=
  ∃ a : FAtom, b = a.toBool ∧ (∀ k m o, PgAtomMeans k m o a ↔ PgTrueOf k m o e) ∧
    ∀ k m, PgEnvFor E k T m → PgCallsOk m e → PgAtomFits k m a
def AndSays (E : MEnv) (T : String) (e : RExpr) (b : BoolExpr) : Prop :=
  ∃ a : FAnd, b = a.toBool ∧ (∀ k m o, PgAndMeans k m o a ↔ PgTrueOf k m o e) ∧
    ∀ k m, PgEnvFor E k T m → PgCallsOk m e → PgAndFits k m a
def OrSays (E : MEnv) (T : String) (e : RExpr) (b : BoolExpr) : Prop :=
  ∃ a : FOr, b = a.toBool ∧ (∀ k m o, PgFilterMeans k m o a ↔ PgTrueOf k m o e) ∧
    ∀ k m, PgEnvFor E k T m → PgCallsOk m e → PgFilterFits k m a

theorem AtomSays.and {E : MEnv} {T : String} {e : RExpr} {b : BoolExpr} (h : AtomSays E T e b) :
    AndSays E T e b := by
  obtain ⟨a, hb, hs, hf⟩ := h
  exact ⟨.one a, hb, fun k m o => by simpa only [PgAndMeans] using hs k m o,
    fun k m h1 h2 => by simpa only [PgAndFits] using hf k m h1 h2⟩

theorem AndSays.or {E : MEnv} {T : String} {e : RExpr} {b : BoolExpr} (h : AndSays E T e b) :
    OrSays E T e b := by
  obtain ⟨a, hb, hs, hf⟩ := h
  exact ⟨.one a, hb, fun k m o => by simpa only [PgFilterMeans] using hs k m o,
    fun k m h1 h2 => by simpa only [PgFilterFits] using hf k m h1 h2⟩

theorem AtomSays.all {E : MEnv} {T : String} {e : RExpr} {b : BoolExpr} (h : AtomSays E T e b)
    {p q r : Prop} : (p → OrSays E T e b) ∧ (q → AndSays E T e b) ∧ (r → AtomSays E T e b) :=
  ⟨fun _ => h.and.or, fun _ => h.and, fun _ => h⟩

theorem cmp_says {E : MEnv} {T : String} {op : ROp} {l r : RExpr} {c : CmpOp} {f : String}
    {v : SqlVal} (hc : op.cmp? = some c) (hl : handle E T l = some (.field f))
    (hr : handle E T r = some (.val v)) (ht : E.cmpOk T f c v = true) :
    AtomSays E T (.binary op l r) (fieldCmp c f v) := by
  obtain ⟨hf, hk⟩ := handle_field hl
  have hv := handle_val hr
  refine ⟨.cmp c f v, rfl, fun k m o => ?_, fun k m hE _ => ?_⟩
  · cases op <;> simp only [ROp.cmp?, Option.some.injEq, reduceCtorEq] at hc <;> subst hc <;>
      simp [PgTrueOf, PgAtomMeans, opMeans, nameOf_eq, hf, hv]
  · simp only [PgAtomFits]
    obtain ⟨h1, ty, h2⟩ := hE.col f hk
    exact ⟨h1, ty, h2, hE.fits f c v ht ty h2, fun h => absurd (h ▸ hc) (MacroObj.cmp_ne_like op)⟩

theorem call_says {E : MEnv} {T : String} {recv arg : RExpr} {m : String} {more : Nat}
    {b : BoolExpr} (ho : m ≠ "matches" ∧ m ≠ "contains")
    (h : handle E T (.call recv m arg more) = some (.cond b)) :
    AtomSays E T (.call recv m arg more) b := by
  simp only [handle] at h
  split at h
  · simp at h
  split at h
  · simp at h
  rename_i f hf
  rw [if_neg ho.1, if_neg ho.2] at h
  split at h
  · rename_i hm
    subst hm
    split at h
    · rename_i hk
      simp only [likeOp] at h
      split at h
      · simp at h
      split at h
      · rename_i v hv
        simp only [Option.some.injEq, GVal.cond.injEq] at h
        subst h
        have hw := handle_val hv
        refine ⟨.cmp .like f v, rfl, fun k m o => ?_, fun k m hE hl => ?_⟩
        · simp [PgTrueOf, PgAtomMeans, nameOf_eq, hf, hw]
        · simp only [PgCallsOk] at hl
          simp only [PgAtomFits]
          obtain ⟨h1, ty, h2⟩ := hE.col f hk
          have := hl.1 trivial f v (by rw [nameOf_eq, hf]) hw ty h2
          exact ⟨h1, ty, h2, this.2, fun _ => this.1⟩
      · simp at h
    · simp at h
  split at h
  · rename_i hm
    subst hm
    split at h
    · rename_i hk
      split at h
      · rename_i vs hvs
        simp only [Option.some.injEq, GVal.cond.injEq] at h
        subst h
        have := rustList_some hvs
        subst this
        refine ⟨.isIn f vs, rfl, fun k m o => ?_, fun k m hE hl => ?_⟩
        · simp [PgTrueOf, PgAtomMeans, nameOf_eq, hf]
        · simp only [PgCallsOk] at hl
          simp only [PgAtomFits]
          obtain ⟨_, ty, h2⟩ := hE.col f hk
          have := hl.2 trivial f vs (by rw [nameOf_eq, hf]) rfl
          exact ⟨this.1, ty, h2, this.2 ty h2⟩
      · simp at h
    · simp at h
  · simp at h

theorem says {E : MEnv} {T : String} : ∀ (e : RExpr) (b : BoolExpr),
    handle E T e = some (.cond b) → NoSplices e → OwnFields e →
    (Parsed 0 e → OrSays E T e b) ∧ (Parsed 1 e → AndSays E T e b) ∧
      (Parsed 2 e → AtomSays E T e b) := by
  intro e
  induction e with
  | binary op l r ihl ihr =>
    intro b h hn hO
    simp only [NoSplices] at hn
    simp only [OwnFields] at hO
    simp only [handle, binOp] at h
    split at h
    · rename_i a c hl hr
      simp only [Option.some.injEq, GVal.cond.injEq] at h
      subst h
      have key : Parsed 1 l → Parsed 2 r → AndSays E T (.binary .and l r) (.and a c) := by
        intro pl pr
        obtain ⟨f, hf, hf1, hf2⟩ := (ihl a hl hn.1 hO.1).2.1 pl
        obtain ⟨g, hg, hg1, hg2⟩ := (ihr c hr hn.2 hO.2).2.2 pr
        exact ⟨.and f g, by simp only [FAnd.toBool, hf, hg],
          fun k m o => by simp only [PgAndMeans, PgTrueOf, hf1, hg1],
          fun k m h1 h2 => (by
            simp only [PgCallsOk] at h2
            simp only [PgAndFits]
            exact ⟨hf2 k m h1 h2.1, hg2 k m h1 h2.2⟩)⟩
      refine ⟨fun p => ?_, fun p => ?_, fun p => ?_⟩ <;> simp only [Parsed] at p
      · exact (key p.2.1 p.2.2).or
      · exact key p.2.1 p.2.2
      · exact absurd p.1 (by decide)
    · rename_i a c hl hr
      simp only [Option.some.injEq, GVal.cond.injEq] at h
      subst h
      refine ⟨fun p => ?_, fun p => ?_, fun p => ?_⟩ <;> simp only [Parsed] at p
      · obtain ⟨f, hf, hf1, hf2⟩ := (ihl a hl hn.1 hO.1).1 p.2.1
        obtain ⟨g, hg, hg1, hg2⟩ := (ihr c hr hn.2 hO.2).2.1 p.2.2
        exact ⟨.or f g, by simp only [FOr.toBool, hf, hg],
          fun k m o => by simp only [PgFilterMeans, PgTrueOf, hf1, hg1],
          fun k m h1 h2 => (by
            simp only [PgCallsOk] at h2
            simp only [PgFilterFits]
            exact ⟨hf2 k m h1 h2.1, hg2 k m h1 h2.2⟩)⟩
      · exact absurd p.1 (by decide)
      · exact absurd p.1 (by decide)
    · rename_i f v _ _ hl hr
      split at h
      · rename_i c hc
        split at h
        · rename_i ht
          simp only [Option.some.injEq, GVal.cond.injEq] at h
          subst h
          exact (cmp_says hc hl hr ht).all
        · simp at h
      · simp at h
    · simp at h
  | call recv m arg more _ iha =>
    intro b h hn hO
    simp only [OwnFields] at hO
    exact (call_says hO h).all
  | call0 => intro b h; simp [handle] at h
  | path n =>
    intro b h
    simp only [handle] at h
    repeat' (split at h <;> try simp at h)
  | lit w => intro b h; simp [handle] at h
  | block w =>
    intro b h hn
    cases w
    · simp [handle] at h
    · simp [handle] at h
    · simp [NoSplices] at hn
  | group e ih => intro b h hn; simp [NoSplices] at hn
  | paren => intro b h; simp [handle] at h
  | rust => intro b h; simp [handle] at h

theorem filter_says {E : MEnv} {T : String} {e : RExpr} {b : BoolExpr}
    (h : filterMacro E T e = some b) (hp : Parsed 0 e) (hn : NoSplices e) (hO : OwnFields e) :
    OrSays E T e b :=
  (says e b (handle_of h) hn hO).1 hp

end Butane.MacroPg
