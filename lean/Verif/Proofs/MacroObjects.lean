/-
Lemmas for C100: what the `filter!` macro makes of its argument says of objects what is written.
-/
import Verif.Spec.MacroObjects
import Verif.Proofs.FilterMacro

namespace Butane.MacroObj
open Butane Sql Spec Macro MacroP

theorem cmp_ne_like (op : ROp) : op.cmp? ≠ some .like := by cases op <;> simp [ROp.cmp?]

theorem nameable {E : MEnv} {k : SqliteConn} {W : World} (hW : WorldFor E k W) {T : String} {s : Stock}
    (hs : W.stock (E.obj T).table = some s) {l : Bool} (hn : l = true → NoLinkNames E T s) {f : String}
    (hk : isCol (E.field T f) = true) : Nameable l s f :=
  ⟨(hW.col T s f hs hk).2, fun h => (hn h).2 f hk⟩

theorem key_nameable {E : MEnv} {k : SqliteConn} {W : World} (hW : WorldFor E k W) {T : String}
    {s : Stock} (hs : W.stock (E.obj T).table = some s) {l : Bool} (hn : l = true → NoLinkNames E T s) :
    Nameable l s s.pk.name :=
  ⟨(hW.key T s hs).2, fun h => (hn h).1⟩

/-- The condition `b` is that of a filter of a level, which says of objects what is written, and fits the
models. -/
def AtomSays (E : MEnv) (T : String) (e : RExpr) (b : BoolExpr) : Prop :=
  ∃ a : FAtom, b = a.toBool ∧ (∀ k W s o, AtomMeans k W s o a ↔ ObjTrueOf E k W T s o e) ∧
    ∀ k W l s, WorldFor E k W → W.stock (E.obj T).table = some s →
      (l = true → NoLinkNames E T s) → LikesOk E k W T e → AtomFits k W l s a
def AndSays (E : MEnv) (T : String) (e : RExpr) (b : BoolExpr) : Prop :=
  ∃ a : FAnd, b = a.toBool ∧ (∀ k W s o, AndMeans k W s o a ↔ ObjTrueOf E k W T s o e) ∧
    ∀ k W l s, WorldFor E k W → W.stock (E.obj T).table = some s →
      (l = true → NoLinkNames E T s) → LikesOk E k W T e → AndFits k W l s a
def OrSays (E : MEnv) (T : String) (e : RExpr) (b : BoolExpr) : Prop :=
  ∃ a : FOr, b = a.toBool ∧ (∀ k W s o, FilterMeans k W s o a ↔ ObjTrueOf E k W T s o e) ∧
    ∀ k W l s, WorldFor E k W → W.stock (E.obj T).table = some s →
      (l = true → NoLinkNames E T s) → LikesOk E k W T e → FilterFits k W l s a

theorem AtomSays.and {E : MEnv} {T : String} {e : RExpr} {b : BoolExpr} (h : AtomSays E T e b) :
    AndSays E T e b := by
  obtain ⟨a, hb, hs, hf⟩ := h
  exact ⟨.one a, hb, fun k W s o => by simpa only [AndMeans] using hs k W s o,
    fun k W l s h1 h2 h3 h4 => by simpa only [AndFits] using hf k W l s h1 h2 h3 h4⟩

theorem AndSays.or {E : MEnv} {T : String} {e : RExpr} {b : BoolExpr} (h : AndSays E T e b) :
    OrSays E T e b := by
  obtain ⟨a, hb, hs, hf⟩ := h
  exact ⟨.one a, hb, fun k W s o => by simpa only [FilterMeans] using hs k W s o,
    fun k W l s h1 h2 h3 h4 => by simpa only [FilterFits] using hf k W l s h1 h2 h3 h4⟩

theorem AtomSays.all {E : MEnv} {T : String} {e : RExpr} {b : BoolExpr} (h : AtomSays E T e b)
    {p q r : Prop} : (p → OrSays E T e b) ∧ (q → AndSays E T e b) ∧ (r → AtomSays E T e b) :=
  ⟨fun _ => h.and.or, fun _ => h.and, fun _ => h⟩

theorem cmp_says {E : MEnv} {T : String} {op : ROp} {l r : RExpr} {c : CmpOp} {f : String}
    {v : SqlVal} (hc : op.cmp? = some c) (hl : handle E T l = some (.field f))
    (hr : handle E T r = some (.val v)) (ht : E.cmpOk T f c v = true) :
    AtomSays E T (.binary op l r) (fieldCmp c f v) := by
  obtain ⟨hf, hk⟩ := handle_field hl
  have hv := handle_val hr
  refine ⟨.cmp c f v, rfl, fun k W s o => ?_, fun k W l s hW hs hn _ => ?_⟩
  · cases op <;> simp only [ROp.cmp?, Option.some.injEq, reduceCtorEq] at hc <;> subst hc <;>
      simp [ObjTrueOf, AtomMeans, opMeans, nameOf_eq, hf, hv]
  · simp only [AtomFits]
    exact ⟨nameable hW hs hn hk, (hW.col T s f hs hk).1, hW.cmpOk T f c v ht, fun h =>
      absurd (h ▸ hc) (cmp_ne_like op)⟩

theorem call_says {E : MEnv} {T : String} {recv arg : RExpr} {m : String} {more : Nat}
    {b : BoolExpr}
    (ih : ∀ T b, handle E T arg = some (.cond b) → Parsed 0 arg → OrSays E T arg b)
    (hp : Parsed 0 arg)
    (h : handle E T (.call recv m arg more) = some (.cond b)) :
    AtomSays E T (.call recv m arg more) b := by
  simp only [handle] at h
  split at h
  · simp at h
  split at h
  · simp at h
  rename_i f hf
  split at h
  · rename_i hm
    subst hm
    split at h
    · rename_i t hk
      simp only [matchesOp] at h
      split at h
      · rename_i v hv
        split at h
        · rename_i hok
          simp only [Option.some.injEq, GVal.cond.injEq] at h
          subst h
          have := litOf_some hv
          subst this
          refine ⟨.matchesPk f (E.obj t) v, rfl, fun k W s o => ?_, fun k W l s hW hs hn _ => ?_⟩
          · simp [ObjTrueOf, AtomMeans, nameOf_eq, hf, hk]
          · simp only [AtomFits]
            obtain ⟨s', h1, h2⟩ := hW.fkey T s f t hs hk
            exact ⟨nameable hW hs hn (by rw [hk]; rfl), s', h1, (hW.key t s' h1).1, h2,
              hW.keyOk t s' v h1 hok⟩
        · simp at h
      · rename_i hv
        split at h
        · rename_i q hq
          simp only [Option.some.injEq, GVal.cond.injEq] at h
          subst h
          obtain ⟨g, hg, hg1, hg2⟩ := ih t q hq hp
          subst hg
          have hnl : ∀ v, arg ≠ .lit v := by
            intro v he
            subst he
            simp [litOf] at hv
          refine ⟨.matches f (E.obj t) g, by simp only [FAtom.toBool], fun k W s o => ?_,
            fun k W l s hW hs hn hl => ?_⟩
          · simp [ObjTrueOf, AtomMeans, nameOf_eq, hf, hk, hg1, hnl]
          · simp only [AtomFits]
            obtain ⟨s', h1, h2⟩ := hW.fkey T s f t hs hk
            simp only [LikesOk] at hl
            exact ⟨nameable hW hs hn (by rw [hk]; rfl), s', h1, (hW.key t s' h1).1, h2,
              hg2 k W false s' hW h1 (fun h => (by cases h))
                (hl.2.2 f t (by rw [nameOf_eq, hf]) (.inl hk))⟩
        · simp at h
    · simp at h
  split at h
  · rename_i hm
    subst hm
    split at h
    · rename_i link t hk
      simp only [containsOp] at h
      split at h
      · rename_i v hv
        split at h
        · rename_i hok
          simp only [Option.some.injEq, GVal.cond.injEq] at h
          subst h
          have := litOf_some hv
          subst this
          refine ⟨.containsPk link (E.obj T) (E.obj t) v, rfl, fun k W s o => ?_,
            fun k W l s hW hs hn _ => ?_⟩
          · simp [ObjTrueOf, AtomMeans, nameOf_eq, hf, hk]
            constructor
            · rintro ⟨s', h1, ho, L, h3, own, h4⟩
              exact ⟨link, t, ⟨rfl, rfl⟩, s', h1, v, ho, L, h3, own, h4.1, h4.2, rfl⟩
            · rintro ⟨_, _, ⟨rfl, rfl⟩, s', h1, id, ho, L, h3, own, h4, h5, rfl⟩
              exact ⟨s', h1, ho, L, h3, own, h4, h5⟩
          · simp only [AtomFits]
            obtain ⟨s', L, h1, h2, h3, h4, h5⟩ := hW.many T s f link t hs hk
            exact ⟨key_nameable hW hs hn, (hW.key T s hs).1, s', L, h1, (hW.key t s' h1).1, h2, h3, h4,
              key_nameable hW h1 (fun _ => h5), hW.keyOk t s' v h1 hok⟩
        · simp at h
      · rename_i hv
        split at h
        · rename_i q hq
          simp only [Option.some.injEq, GVal.cond.injEq] at h
          subst h
          obtain ⟨g, hg, hg1, hg2⟩ := ih t q hq hp
          subst hg
          have hnl : ∀ v, arg ≠ .lit v := by
            intro v he
            subst he
            simp [litOf] at hv
          refine ⟨.contains link (E.obj T) (E.obj t) g, by simp only [FAtom.toBool], fun k W s o => ?_,
            fun k W l s hW hs hn hl => ?_⟩
          · simp [ObjTrueOf, AtomMeans, nameOf_eq, hf, hk, hg1, hnl]
            constructor
            · rintro ⟨s', h1, id, o', h2, L, h3, own, h4⟩
              exact ⟨link, t, ⟨rfl, rfl⟩, s', h1, id, o', h2, L, h3, own, h4⟩
            · rintro ⟨_, _, ⟨rfl, rfl⟩, s', h1, id, o', h2, L, h3, own, h4⟩
              exact ⟨s', h1, id, o', h2, L, h3, own, h4⟩
          · simp only [AtomFits]
            simp only [LikesOk] at hl
            obtain ⟨s', L, h1, h2, h3, h4, h5⟩ := hW.many T s f link t hs hk
            exact ⟨key_nameable hW hs hn, (hW.key T s hs).1, s', L, h1, (hW.key t s' h1).1, h2, h3, h4,
              hg2 k W true s' hW h1 (fun _ => h5)
                (hl.2.2 f t (by rw [nameOf_eq, hf]) (.inr ⟨link, hk⟩))⟩
        · simp at h
    · simp at h
  split at h
  · rename_i hm
    subst hm
    split at h
    · rename_i hk
      simp only [likeOp] at h
      split at h
      · simp at h
      split at h
      · rename_i v hv
        simp only [Option.some.injEq, GVal.cond.injEq] at h
        subst h
        have hw := handle_val hv
        refine ⟨.cmp .like f v, rfl, fun k W s o => ?_, fun k W l s hW hs hn hl => ?_⟩
        · simp [ObjTrueOf, AtomMeans, nameOf_eq, hf, hw]
        · simp only [LikesOk] at hl
          have := hl.1 trivial v hw
          simp only [AtomFits]
          exact ⟨nameable hW hs hn hk, (hW.col T s f hs hk).1, this.1, fun _ =>
            this.2 f s (by rw [nameOf_eq, hf]) hs⟩
      · simp at h
    · simp at h
  split at h
  · rename_i hm
    subst hm
    split at h
    · rename_i hk
      split at h
      · rename_i vs hvs
        simp only [Option.some.injEq, GVal.cond.injEq] at h
        subst h
        have := rustList_some hvs
        subst this
        refine ⟨.isIn f vs, rfl, fun k W s o => ?_, fun k W l s hW hs hn hl => ?_⟩
        · simp [ObjTrueOf, AtomMeans, nameOf_eq, hf]
        · simp only [LikesOk] at hl
          simp only [AtomFits]
          exact ⟨nameable hW hs hn hk, hl.2.1 trivial vs rfl⟩
      · simp at h
    · simp at h
  · simp at h

/-- What the macro makes of an expression without splices is a filter that says what is
written. -/
theorem says {E : MEnv} : ∀ (e : RExpr) (T : String) (b : BoolExpr),
    handle E T e = some (.cond b) → NoSplices e →
    (Parsed 0 e → OrSays E T e b) ∧ (Parsed 1 e → AndSays E T e b) ∧
      (Parsed 2 e → AtomSays E T e b) := by
  intro e
  induction e with
  | binary op l r ihl ihr =>
    intro T b h hn
    simp only [NoSplices] at hn
    simp only [handle, binOp] at h
    split at h
    · rename_i a c hl hr
      simp only [Option.some.injEq, GVal.cond.injEq] at h
      subst h
      have key : Parsed 1 l → Parsed 2 r → AndSays E T (.binary .and l r) (.and a c) := by
        intro pl pr
        obtain ⟨f, hf, hf1, hf2⟩ := (ihl T a hl hn.1).2.1 pl
        obtain ⟨g, hg, hg1, hg2⟩ := (ihr T c hr hn.2).2.2 pr
        exact ⟨.and f g, by simp only [FAnd.toBool, hf, hg],
          fun k W s o => by simp only [AndMeans, ObjTrueOf, hf1, hg1],
          fun k W l' s h1 h2 h3 h4 => (by
            simp only [LikesOk] at h4
            simp only [AndFits]
            exact ⟨hf2 k W l' s h1 h2 h3 h4.1, hg2 k W l' s h1 h2 h3 h4.2⟩)⟩
      refine ⟨fun p => ?_, fun p => ?_, fun p => ?_⟩ <;> simp only [Parsed] at p
      · exact (key p.2.1 p.2.2).or
      · exact key p.2.1 p.2.2
      · exact absurd p.1 (by decide)
    · rename_i a c hl hr
      simp only [Option.some.injEq, GVal.cond.injEq] at h
      subst h
      refine ⟨fun p => ?_, fun p => ?_, fun p => ?_⟩ <;> simp only [Parsed] at p
      · obtain ⟨f, hf, hf1, hf2⟩ := (ihl T a hl hn.1).1 p.2.1
        obtain ⟨g, hg, hg1, hg2⟩ := (ihr T c hr hn.2).2.1 p.2.2
        exact ⟨.or f g, by simp only [FOr.toBool, hf, hg],
          fun k W s o => by simp only [FilterMeans, ObjTrueOf, hf1, hg1],
          fun k W l' s h1 h2 h3 h4 => (by
            simp only [LikesOk] at h4
            simp only [FilterFits]
            exact ⟨hf2 k W l' s h1 h2 h3 h4.1, hg2 k W l' s h1 h2 h3 h4.2⟩)⟩
      · exact absurd p.1 (by decide)
      · exact absurd p.1 (by decide)
    · rename_i f v _ _ hl hr
      split at h
      · rename_i c hc
        split at h
        · rename_i ht
          simp only [Option.some.injEq, GVal.cond.injEq] at h
          subst h
          exact (cmp_says hc hl hr ht).all
        · simp at h
      · simp at h
    · simp at h
  | call recv m arg more _ iha =>
    intro T b h hn
    simp only [NoSplices] at hn
    have key : Parsed 0 arg → AtomSays E T (.call recv m arg more) b := fun hp =>
      call_says (fun T b ha hp => (iha T b ha hn.2).1 hp) hp h
    refine ⟨fun p => ?_, fun p => ?_, fun p => ?_⟩ <;> simp only [Parsed] at p
    · exact (key p.2).and.or
    · exact (key p.2).and
    · exact key p.2
  | call0 => intro T b h; simp [handle] at h
  | path n =>
    intro T b h
    simp only [handle] at h
    repeat' (split at h <;> try simp at h)
  | lit w => intro T b h; simp [handle] at h
  | block w =>
    intro T b h hn
    cases w
    · simp [handle] at h
    · simp [handle] at h
    · simp [NoSplices] at hn
  | group e ih => intro T b h hn; simp [NoSplices] at hn
  | paren => intro T b h; simp [handle] at h
  | rust => intro T b h; simp [handle] at h

theorem filter_says {E : MEnv} {T : String} {e : RExpr} {b : BoolExpr}
    (h : filterMacro E T e = some b) (hp : Parsed 0 e) (hn : NoSplices e) : OrSays E T e b :=
  (says e T b (handle_of h) hn).1 hp

/-! ### Fewer objects of a model -/

theorem stock_setObjs {W : World} {n n' : String} {s s' : Stock} {objs : Objects s.m}
    (hs : W.stock n = some s) (h : (W.setObjs n s objs).stock n' = some s') :
    ∃ objs', W.stock n' = some ⟨s'.m, s'.pk, objs'⟩ := by
  simp only [World.setObjs] at h
  split at h
  · cases h
    rename_i e
    exact ⟨s.objs, by rw [e, hs]⟩
  · exact ⟨s'.objs, h⟩

theorem stock_of_setObjs {W : World} {n n' : String} {s s' : Stock} {objs : Objects s.m}
    (hs : W.stock n = some s) (h : W.stock n' = some s') :
    ∃ objs', (W.setObjs n s objs).stock n' = some ⟨s'.m, s'.pk, objs'⟩ := by
  by_cases e : n' = n
  · subst e
    rw [hs] at h
    cases h
    exact ⟨objs, by simp [World.setObjs]⟩
  · exact ⟨s'.objs, by simp only [World.setObjs, if_neg e, h]⟩

theorem worldFor_setObjs {E : MEnv} {k : SqliteConn} {W : World} (hW : WorldFor E k W) {n : String}
    {s : Stock} {objs : Objects s.m} (hs : W.stock n = some s) :
    WorldFor E k (W.setObjs n s objs) where
  key T s' h := by
    obtain ⟨o, h'⟩ := stock_setObjs hs h
    exact hW.key T ⟨s'.m, s'.pk, o⟩ h'
  col T s' f h hf := by
    obtain ⟨o, h'⟩ := stock_setObjs hs h
    exact hW.col T ⟨s'.m, s'.pk, o⟩ f h' hf
  fkey T s' f t h hf := by
    obtain ⟨o, h'⟩ := stock_setObjs hs h
    obtain ⟨s2, h2, h3⟩ := hW.fkey T ⟨s'.m, s'.pk, o⟩ f t h' hf
    obtain ⟨o2, h4⟩ := stock_of_setObjs (objs := objs) hs h2
    exact ⟨_, h4, h3⟩
  many T s' f m t h hf := by
    obtain ⟨o, h'⟩ := stock_setObjs hs h
    obtain ⟨s2, L, h2, h3⟩ := hW.many T ⟨s'.m, s'.pk, o⟩ f m t h' hf
    obtain ⟨o2, h4⟩ := stock_of_setObjs (objs := objs) hs h2
    exact ⟨_, L, h4, h3⟩
  keyOk T s' v h hv := by
    obtain ⟨o, h'⟩ := stock_setObjs hs h
    exact hW.keyOk T ⟨s'.m, s'.pk, o⟩ v h' hv
  cmpOk := hW.cmpOk

theorem likesOk_setObjs {E : MEnv} {k : SqliteConn} {W : World} {n : String} {s : Stock}
    {objs : Objects s.m} (hs : W.stock n = some s) : ∀ (e : RExpr) (T : String), LikesOk E k W T e →
    LikesOk E k (W.setObjs n s objs) T e := by
  intro e
  induction e with
  | binary op l r ihl ihr =>
    intro T h
    simp only [LikesOk] at h ⊢
    exact ⟨ihl T h.1, ihr T h.2⟩
  | call recv m arg more _ iha =>
    intro T h
    simp only [LikesOk] at h ⊢
    refine ⟨fun hm v hv => ⟨(h.1 hm v hv).1, fun f s' hf h' => ?_⟩, h.2.1, fun f t hf ht =>
      iha t (h.2.2 f t hf ht)⟩
    obtain ⟨o, h2⟩ := stock_setObjs hs h'
    exact (h.1 hm v hv).2 f ⟨s'.m, s'.pk, o⟩ hf h2
  | _ => intro T h; simp only [LikesOk]

/-- What is true with fewer objects was true before. -/
theorem trueOf_setObjs {E : MEnv} {k : SqliteConn} {W : World} {n : String} {s : Stock}
    {objs : Objects s.m} (hs : W.stock n = some s)
    (hsub : ∀ id o, KeyLike s.pk id → objs id = some o → s.objs id = some o) :
    ∀ (e : RExpr) (T : String) (s' : Stock) (objs' : Objects s'.m) (o : ObjVals s'.m.fields),
    ObjTrueOf E k (W.setObjs n s objs) T s' o e → ObjTrueOf E k W T ⟨s'.m, s'.pk, objs'⟩ o e := by
  have hstock : ∀ n' s', (W.setObjs n s objs).stock n' = some s' → ∃ objs' : Objects s'.m,
      W.stock n' = some ⟨s'.m, s'.pk, objs'⟩ ∧
      ∀ id o, s'.Has id o → Stock.Has ⟨s'.m, s'.pk, objs'⟩ id o := by
    intro n' s' h
    simp only [World.setObjs] at h
    split at h
    · cases h
      rename_i e
      exact ⟨s.objs, by rw [e, hs], fun id o ho => ⟨ho.1, hsub id o ho.1 ho.2⟩⟩
    · exact ⟨s'.objs, h, fun _ _ ho => ho⟩
  intro e
  induction e with
  | binary op l r ihl ihr =>
    intro T s' objs' o h
    cases op
    case and =>
      simp only [ObjTrueOf] at h ⊢
      exact ⟨ihl T s' objs' o h.1, ihr T s' objs' o h.2⟩
    case or =>
      simp only [ObjTrueOf] at h ⊢
      exact h.imp (ihl T s' objs' o) (ihr T s' objs' o)
    all_goals
      simp only [ObjTrueOf] at h ⊢
      exact h
  | call recv m arg more _ iha =>
    intro T s' objs' o h
    simp only [ObjTrueOf] at h ⊢
    obtain ⟨f, hf, h⟩ := h
    refine ⟨f, hf, ?_⟩
    rcases h with h | h | ⟨hm, t, s2, id, o', h1, h2, h3, h4, h5⟩ |
      ⟨hm, link, t, s2, id, o', L, own, h1, h2, h3, h4, h5, h6, h7⟩
    · exact .inl h
    · exact .inr (.inl h)
    · obtain ⟨objs2, h6, h7⟩ := hstock _ _ h2
      exact .inr (.inr (.inl ⟨hm, t, ⟨s2.m, s2.pk, objs2⟩, id, o', h1, h6, h7 id o' h3, h4,
        h5.imp (fun h => h) (iha t s2 objs2 o')⟩))
    · obtain ⟨objs2, h8, h9⟩ := hstock _ _ h2
      exact .inr (.inr (.inr ⟨hm, link, t, ⟨s2.m, s2.pk, objs2⟩, id, o', L, own, h1, h8, h9 id o' h3, h4, h5, h6,
        h7.imp (fun h => h) (iha t s2 objs2 o')⟩))
  | group e ih =>
    intro T s' objs' o h
    simp only [ObjTrueOf] at h ⊢
    exact ih T s' objs' o h
  | _ => intro T s' objs' o h; simp only [ObjTrueOf] at h

end Butane.MacroObj
