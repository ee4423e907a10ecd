/-
C84: histories with `Many` fields and deletion by query.
-/
import Verif.Proofs.ObjMany

namespace Butane.Props
open Butane Butane.Spec Butane.Ddl

variable {k : SqliteConn} {W : World} {u u' : SDb}

/-- C84, histories (partial).  Whatever objects a program saves and deletes, one by one or by query, and
however it changes `Many` fields, also if that fails in the middle: the database holds the objects that
were saved and not deleted since and the items that were added and not removed since.

Missing: removed items that other owners have (`many_save_objects_other_owner_violated`), saving an
object with an automatic key after it was deleted, and the restrictions of filters of C83. -/
theorem program_run_partial {u0 : SDb} {W0 : World} (h0 : Keeps k u0 W0) (hR : LinksReady k u0 W0)
    (hD : RealLaws k.data) (hr : ProgramRun k u0 W0 u W) : Keeps k u W ∧ LinksReady k u W := by
  induction hr with
  | start => exact ⟨h0, hR⟩
  | objects _ hrun ih => exact ⟨world_run_partial ih.1 hrun, world_ready ih.1 ih.2 hrun⟩
  | @deleteQuery u W n u' s q e _ hs hq hd ih =>
    obtain ⟨hn, t, hT⟩ := tabled_of ih.1 hs
    obtain ⟨h1, h2⟩ := deleteQuery_stores hT (ih.1.stock n s hs).2.2 (asks_of ih.1 hD hs hT hq)
      (objs := s.without k W e)
      (fun id o ho hP => by
        unfold Stock.without
        rw [if_pos ⟨o, ho, hP⟩])
      (fun id o ho hP => by
        unfold Stock.without
        rw [if_neg, ho.2]
        rintro ⟨o', ho', hP'⟩
        have := ho.2.symm.trans ho'.2
        cases this
        exact hP hP')
      (fun id hid => by
        unfold Stock.without
        rw [if_neg, hid]
        rintro ⟨o', ho', -⟩
        have := hid.symm.trans ho'.2
        cases this) hd
    exact ⟨keeps_set ih.1 hs h1 h2, ready_setObjs ih.2 hs h1⟩
  | manySave _ hL hm hoth hsv ih => exact many_save_keeps ih.1 ih.2 hL hm hoth hsv
  | manySaveFailed _ hL hm hsv ih => exact many_failed_keeps ih.1 ih.2 hL hm hsv
  | manyDelete _ hL hm hd ih => exact many_delete_keeps ih.1 ih.2 hL hm hd

/-- C84, queries in histories (partial, as C83 and above): `load` returns the objects the filter describes,
where `contains` refers to the items that `Many` fields have after all these changes. -/
theorem program_query_partial {u0 : SDb} {W0 : World} (h0 : Keeps k u0 W0) (hR : LinksReady k u0 W0)
    (hD : RealLaws k.data) (hr : ProgramRun k u0 W0 u W) {n : String} {s : Stock} (hs : W.stock n = some s)
    {q : Query} {e : Option FOr} (hq : Sendable k W s q e) (hl : NonNeg q.limit) (ho : NonNeg q.offset)
    (hbig : q.limit = none → ∀ o, q.offset = some o → ∀ t, u.lookup n = some t →
      (t.rows.length : Int) ≤ o.toInt + 2147483647)
    {res : Except OpErr (List (ObjVals s.m.fields))} (h : s.m.LoadOut k u q res) :
    ∃ os, res = .ok os ∧ Selects k W s e q.sort (count q.limit) (count q.offset) os :=
  query_selects_partial (program_run_partial h0 hR hD hr).1 hD hs hq hl ho hbig h

/-- C84, what `save` of a `Many` field does in general: the owner has the added items too, and nobody has
the removed ones any more. -/
theorem many_save_objects (hW : Keeps k u W) (hR : LinksReady k u W) {n : String} {L : Links}
    (hL : W.links n = some L) {own : SqlVal} {im : TModel} {m m' : TMany im} (hm : ManyKeys m n L own)
    (h : m.save k u = (u', m', none)) :
    Keeps k u' (W.setLinks n ((L.add own m.newValues).dropItems m.removedValues)) ∧
      m'.newValues = [] ∧ m'.removedValues = [] := by
  refine ⟨(many_save_exact hW hR hL hm h).1, ?_⟩
  unfold TMany.save at h
  rw [hm.owner] at h
  simp only at h
  split at h
  · cases h
  · split at h
    · next he =>
      cases h
      exact ⟨rfl, List.isEmpty_iff.1 he⟩
    · split at h
      · cases h
      · cases h
        exact ⟨rfl, rfl⟩

/-- The order of `load_ordered`. -/
def keyOrder (pk : TField) : Option Dir → List Order
  | none => []
  | some d => [⟨d, pk.name⟩]

/-- C84, what `load` of a `Many` field returns in such histories: first the objects that the owner has in
the database, each once and (for `load_ordered`) ordered by key, then the objects added since, each
once; links to objects that do not exist (any more) are left out.  The result is kept. -/
theorem many_load_objects (hW : Keeps k u W) (hR : LinksReady k u W) (hD : RealLaws k.data) {n n' : String}
    {s : Stock} (hs : W.stock n' = some s) {L : Links} (hL : W.links n = some L) (hk : L.target = s.pk)
    {own : SqlVal} {m m' : TMany s.m} (hm : ManyKeys m n L own) (hc : m.cache = none) {d : Option Dir}
    {res : Except OpErr (List (ObjVals s.m.fields))} (h : m.LoadOut s.pk k u d res m') :
    ∃ saved added, res = .ok (saved ++ added) ∧ m' = { m with cache := some (saved ++ added) } ∧
      Lists k s.m (fun id o => s.Has id o ∧ L.linked own id) (keyOrder s.pk d) none none saved ∧
      Lists k s.m (fun id o => s.Has id o ∧ id ∈ m.newValues) [] none none added := by
  obtain ⟨hn, t, hT⟩ := tabled_of hW hs
  unfold TMany.LoadOut TMany.query at h
  rw [hm.owner] at h
  simp only at h
  unfold TMany.LoadQueryOut at h
  rw [hc] at h
  simp only at h
  obtain ⟨⟨r1, h1, h2⟩, h3⟩ := h
  have hload : ∃ saved, r1 = .ok saved ∧
      Lists k s.m (fun id o => s.Has id o ∧ L.linked own id) (keyOrder s.pk d) none none saved := by
    cases d with
    | none =>
      exact load_selects hD hT (asks_many (q := (Query.new s.m.table).withFilter
        (.subquery s.pk.name m.itemTable "has" (.cmp .eq "owner" (.val own)))) hW hR hT hL hk hm.ownerKey rfl
        (by rw [hm.table]; rfl) (fun c hc => by cases hc)) (fun _ h => by cases h) (fun _ h => by cases h)
        (fun _ _ h => by cases h) h1
    | some d =>
      exact load_selects hD hT (asks_many (q := ((Query.new s.m.table).withFilter
        (.subquery s.pk.name m.itemTable "has" (.cmp .eq "owner" (.val own)))).order s.pk.name d) hW hR hT hL hk
        hm.ownerKey rfl (by rw [hm.table]; rfl) (fun c hc => by
          have : c = ⟨d, s.pk.name⟩ := by
            simpa [Query.order, Query.withFilter, Query.new] using hc
          rw [this])) (fun _ h => by cases h) (fun _ h => by cases h) (fun _ _ h => by cases h) h1
  obtain ⟨saved, rfl, hsaved⟩ := hload
  simp only at h2
  split at h2
  · next he =>
    subst h2
    refine ⟨saved, [], by simp, by rw [h3, List.append_nil], hsaved, [], .nil, ?_, .nil, .nil⟩
    intro id o
    simp [List.isEmpty_iff.1 he]
  · obtain ⟨r2, h4, h5⟩ := h2
    obtain ⟨added, rfl, hadded⟩ := load_selects hD hT (asks_keys (q := (Query.new s.m.table).withFilter
      (.inVals s.pk.name m.newValues)) hW hs hT (fun v hv => by rw [← hk]; exact hm.new v hv) rfl rfl rfl)
      (fun _ h => by cases h) (fun _ h => by cases h) (fun _ _ h => by cases h) h4
    simp only at h5
    subst h5
    exact ⟨saved, added, rfl, h3, hsaved, hadded⟩

/-- C84: `load` returns. -/
theorem many_load_returns (hW : Keeps k u W) (hR : LinksReady k u W) (hD : RealLaws k.data) (hO : OrderLaws k.data)
    {n n' : String} {s : Stock} (hs : W.stock n' = some s) {L : Links} (hL : W.links n = some L)
    (hk : L.target = s.pk) {own : SqlVal} {m : TMany s.m} (hm : ManyKeys m n L own) (hc : m.cache = none)
    (d : Option Dir) : ∃ res m', m.LoadOut s.pk k u d res m' := by
  obtain ⟨hn, t, hT⟩ := tabled_of hW hs
  unfold TMany.LoadOut TMany.query
  rw [hm.owner]
  simp only
  unfold TMany.LoadQueryOut
  rw [hc]
  simp only
  have hload : ∃ saved, s.m.LoadOut k u (match d with
      | none => (Query.new s.m.table).withFilter
        (.subquery s.pk.name m.itemTable "has" (.cmp .eq "owner" (.val own)))
      | some d => ((Query.new s.m.table).withFilter
        (.subquery s.pk.name m.itemTable "has" (.cmp .eq "owner" (.val own)))).order s.pk.name d) (.ok saved) := by
    have hq : Asks k u s t (match d with
      | none => (Query.new s.m.table).withFilter
        (.subquery s.pk.name m.itemTable "has" (.cmp .eq "owner" (.val own)))
      | some d => ((Query.new s.m.table).withFilter
        (.subquery s.pk.name m.itemTable "has" (.cmp .eq "owner" (.val own)))).order s.pk.name d)
        fun id _ => L.linked own id := by
      cases d with
      | none =>
        exact asks_many hW hR hT hL hk hm.ownerKey rfl (by rw [hm.table]; rfl) (fun c hc => by cases hc)
      | some d =>
        exact asks_many hW hR hT hL hk hm.ownerKey rfl (by rw [hm.table]; rfl) (fun c hc => by
          have : c = ⟨d, s.pk.name⟩ := by
            simpa [Query.order, Query.withFilter, Query.new] using hc
          rw [this])
    obtain ⟨res, h⟩ := load_exists hO hT hq (by cases d <;> exact fun _ h => by cases h)
      (by cases d <;> exact fun _ h => by cases h) (by cases d <;> exact fun _ _ h => by cases h)
    obtain ⟨os, rfl, -⟩ := load_selects hD hT hq (by cases d <;> exact fun _ h => by cases h)
      (by cases d <;> exact fun _ h => by cases h) (by cases d <;> exact fun _ _ h => by cases h) h
    exact ⟨os, h⟩
  obtain ⟨saved, h1⟩ := hload
  by_cases he : m.newValues.isEmpty = true
  · exact ⟨.ok saved, _, ⟨.ok saved, h1, by simp [he]⟩, rfl⟩
  · have hq := asks_keys (q := (Query.new s.m.table).withFilter
      (.inVals s.pk.name m.newValues)) hW hs hT (fun v hv => by rw [← hk]; exact hm.new v hv) rfl rfl rfl
    obtain ⟨r2, h2⟩ := load_exists hO hT hq (fun _ h => by cases h) (fun _ h => by cases h)
      (fun _ _ h => by cases h)
    cases r2 with
    | error e => exact ⟨.error e, _, ⟨.ok saved, h1, by simp only [he]; exact ⟨_, h2, rfl⟩⟩, rfl⟩
    | ok more => exact ⟨.ok (saved ++ more), _, ⟨.ok saved, h1, by simp only [he]; exact ⟨_, h2, rfl⟩⟩, rfl⟩

/-- C84: a `Many` field that was loaded returns what it loaded, until it is changed. -/
theorem many_loaded_objects {im : TModel} {pk : TField} {m m' : TMany im} {os : List (ObjVals im.fields)}
    {own : SqlVal} (ho : m.owner = some own) (hc : m.cache = some os) {d : Option Dir}
    {res : Except OpErr (List (ObjVals im.fields))} (h : m.LoadOut pk k u d res m') : res = .ok os ∧ m' = m := by
  unfold TMany.LoadOut TMany.query at h
  rw [ho] at h
  simp only [TMany.LoadQueryOut, hc] at h
  exact h

/-! ### `set` -/

/-- The keys of objects. -/
def KeysOf (s : Stock) (vals : List (ObjVals s.m.fields)) (ids : List SqlVal) : Prop :=
  AllMatch (fun o id => keySql s.pk.name s.m.fields o = .ok id) vals ids

theorem addAll_ok {s : Stock} : ∀ {vals : List (ObjVals s.m.fields)} {m m' : TMany s.m},
    m.addAll s.pk vals = (m', none) → ∃ ids, KeysOf s vals ids ∧ m'.newValues = m.newValues ++ ids ∧
      m'.itemTable = m.itemTable ∧ m'.owner = m.owner ∧ m'.removedValues = m.removedValues
  | [], m, m', h => by
    cases h
    exact ⟨[], .nil, by simp, rfl, rfl, rfl⟩
  | o :: vals, m, m', h => by
    simp only [TMany.addAll] at h
    split at h
    · cases h
    · next m1 h1 =>
      unfold TMany.add at h1
      split at h1
      · split at h1
        · next v hv =>
          cases h1
          obtain ⟨ids, g1, g2, g3, g4, g5⟩ := addAll_ok h
          exact ⟨v :: ids, .cons (orErr_ok hv) g1, by simp [g2], g3, g4, g5⟩
        · cases h1
      · cases h1

/-- C84, `set`: the owner has exactly these items then, and nothing changes for other owners. -/
theorem many_set_objects (hW : Keeps k u W) (hR : LinksReady k u W) {n n' : String} {s : Stock}
    (hs : W.stock n' = some s) {L : Links} (hL : W.links n = some L) (hk : L.target = s.pk) {own : SqlVal}
    {m m' : TMany s.m} (hm : ManyKeys m n L own) {vals : List (ObjVals s.m.fields)}
    (hv : ∀ o ∈ vals, Storable s.m.fields o) (h : m.set s.pk k u vals = (u', m', none)) :
    ∃ ids, KeysOf s vals ids ∧ Keeps k u' (W.setLinks n { L with
        linked := fun x y => (x = own ∧ y ∈ ids) ∨ (x ≠ own ∧ L.linked x y) }) ∧
      LinksReady k u' (W.setLinks n { L with
        linked := fun x y => (x = own ∧ y ∈ ids) ∨ (x ≠ own ∧ L.linked x y) }) ∧ m'.cache = some vals := by
  obtain ⟨-, hready, -⟩ := hW.stock n' s hs
  unfold TMany.set at h
  split at h
  · cases h
  · next db1 m1 hdel =>
    obtain ⟨hW1, hR1⟩ := many_delete_keeps hW hR hL hm hdel
    have hm1 : m1.newValues = [] ∧ m1.removedValues = [] ∧ m1.itemTable = n ∧ m1.owner = some own := by
      unfold TMany.delete at hdel
      rw [hm.owner] at hdel
      simp only at hdel
      split at hdel
      · cases hdel
      · cases hdel
        exact ⟨rfl, rfl, hm.table, rfl⟩
    split at h
    · cases h
    · next m2 hadd =>
      obtain ⟨ids, g1, g2, g3, g4, g5⟩ := addAll_ok hadd
      rw [hm1.1, List.nil_append] at g2
      have hids : ∀ v ∈ ids, KeyLike L.target v := by
        intro v hvm
        obtain ⟨o, ho, hko⟩ := match_mem_right g1 v hvm
        rw [hk]
        exact keyLike_of_storable hready.model (hv o ho) hko
      split at h
      · cases h
      · next db2 m3 hsave =>
        cases h
        have hmk : ManyKeys m2 n (L.clear own) own :=
          ⟨g3.trans hm1.2.2.1, g4.trans hm1.2.2.2, hm.ownerKey, (by rw [g2]; exact hids),
            (by rw [g5, hm1.2.1]; intro v hv; cases hv)⟩
        obtain ⟨hW2, hR2⟩ := many_save_keeps hW1 hR1 setLinks_links hmk
          (by rw [g5, hm1.2.1]; intro x y _ hv; cases hv) hsave
        rw [setLinks_twice] at hW2 hR2
        have e : ((L.clear own).add own m2.newValues).drop own m2.removedValues = { L with
            linked := fun x y => (x = own ∧ y ∈ ids) ∨ (x ≠ own ∧ L.linked x y) } := by
          refine links_ext rfl rfl fun x y => ?_
          rw [g2, g5, hm1.2.1]
          simp only [Links.drop, Links.add, Links.clear, List.not_mem_nil, and_false, not_false_eq_true, and_true]
          constructor
          · rintro (⟨a, b⟩ | a)
            · exact .inr ⟨b, a⟩
            · exact .inl a
          · rintro (a | ⟨a, b⟩)
            · exact .inr a
            · exact .inl ⟨b, a⟩
        rw [e] at hW2 hR2
        exact ⟨ids, g1, hW2, hR2, rfl⟩

/-! ### `save` of an object with `Many` fields -/

theorem saveMany_run {u0 : SDb} {W0 : World} {pk : TField} {id : SqlVal} (hid : KeyLike pk id) :
    ∀ {fs fs' : List ManyField} {u u' : SDb} {W : World}, ProgramRun k u0 W0 u W → (fs.map (·.table)).Nodup →
    (∀ f ∈ fs, ∃ L, FieldFor W pk id f L) → saveMany k id u fs = (u', fs', none) →
    ∃ W', ProgramRun k u0 W0 u' W' ∧ W'.stock = W.stock ∧
      (∀ f ∈ fs, ∀ L, W.links f.table = some L →
        W'.links f.table = some ((L.add id f.many.newValues).drop id f.many.removedValues)) ∧
      ∀ ln, (∀ f ∈ fs, f.table ≠ ln) → W'.links ln = W.links ln
  | [], fs', u, u', W, hr, hn, hf, h => by
    cases h
    exact ⟨W, hr, rfl, (fun f hf => by cases hf), fun _ _ => rfl⟩
  | f :: fs, fs', u, u', W, hr, hn, hf, h => by
    simp only [List.map_cons, List.nodup_cons] at hn
    obtain ⟨L, hL⟩ := hf f (List.mem_cons_self ..)
    simp only [saveMany] at h
    split at h
    · cases h
    · next db1 m1 hsv =>
      have hinit : (f.many.ensureInit f.table id).owner = some id ∧
          (f.many.ensureInit f.table id).itemTable = f.table ∧
          (f.many.ensureInit f.table id).newValues = f.many.newValues ∧
          (f.many.ensureInit f.table id).removedValues = f.many.removedValues := by
        unfold TMany.ensureInit
        rcases hL.init with e | ⟨e1, e2⟩
        · rw [e]; exact ⟨rfl, rfl, rfl, rfl⟩
        · rw [e1]; exact ⟨e1, e2, rfl, rfl⟩
      obtain ⟨i1, i2, i3, i4⟩ := hinit
      have hstep := ProgramRun.manySave hr hL.links (own := id) ⟨i2, i1, (by rw [hL.owner]; exact hid),
        (by rw [i3]; exact hL.new), (by rw [i4]; exact hL.removed)⟩ (by rw [i4]; exact hL.others) hsv
      rw [i3, i4] at hstep
      obtain ⟨rfl, rfl, herr⟩ : (saveMany k id db1 fs).1 = u' ∧
          (⟨f.table, f.im, m1⟩ :: (saveMany k id db1 fs).2.1 : List ManyField) = fs' ∧
          (saveMany k id db1 fs).2.2 = none := by
        simpa using h
      have hrest : saveMany k id db1 fs = ((saveMany k id db1 fs).1, (saveMany k id db1 fs).2.1, none) := by
        rw [← herr]
      obtain ⟨W', g1, g2, g3, g4⟩ := saveMany_run hid hstep hn.2 (fun g hg => by
        obtain ⟨M, hM⟩ := hf g (List.mem_cons_of_mem _ hg)
        refine ⟨M, ⟨?_, hM.owner, hM.init, hM.new, hM.removed, hM.others⟩⟩
        have : g.table ≠ f.table := fun e => hn.1 (e ▸ List.mem_map_of_mem hg)
        simp only [World.setLinks, if_neg this]
        exact hM.links) hrest
      refine ⟨W', g1, g2, ?_, ?_⟩
      · intro g hg M hM
        rcases List.mem_cons.1 hg with rfl | hg
        · rw [hL.links] at hM
          cases hM
          rw [g4 g.table (fun x hx e => hn.1 (e ▸ List.mem_map_of_mem hx))]
          exact setLinks_links
        · have : g.table ≠ f.table := fun e => hn.1 (e ▸ List.mem_map_of_mem hg)
          exact g3 g hg M (by simp only [World.setLinks, if_neg this]; exact hM)
      · intro ln hln
        rw [g4 ln fun x hx => hln x (List.mem_cons_of_mem _ hx)]
        simp only [World.setLinks, if_neg (Ne.symm (hln f (List.mem_cons_self ..)))]

/-- C84, `save` of an object with its `Many` fields (partial, as C79 and above): then the database holds
the object under its key; each `Many` field of the object has the added items and not the removed
ones; nothing else changes. -/
theorem save_object_partial {u0 : SDb} {W0 : World} (h0 : Keeps k u0 W0) (hR : LinksReady k u0 W0)
    (hD : RealLaws k.data) (hr : ProgramRun k u0 W0 u W) {n : String} {s : Stock} (hs : W.stock n = some s)
    {o o' : ObjVals s.m.fields} (ho : Storable s.m.fields o) (hn : NoNaNs s.m.fields o)
    (hroom : KeyRoom k s.m s.pk u)
    (hrow : s.pk.isAuto = true → keyValid s.pk.name s.m.fields o = true →
      ∀ id, keySql s.pk.name s.m.fields o = .ok id → (s.objs id).isSome)
    {fs fs' : List ManyField} (hnd : (fs.map (·.table)).Nodup)
    (hfs : ∀ id, keySql s.pk.name s.m.fields o' = .ok id → ∀ f ∈ fs, ∃ L, FieldFor W s.pk id f L)
    (h : s.m.saveObj k u o fs = (u', o', fs', none)) :
    ∃ id W', keySql s.pk.name s.m.fields o' = .ok id ∧ ProgramRun k u0 W0 u' W' ∧ Keeps k u' W' ∧
      W'.stock = (W.setObjs n s (s.objs.put id o')).stock ∧
      (∀ f ∈ fs, ∀ L, W.links f.table = some L →
        W'.links f.table = some ((L.add id f.many.newValues).drop id f.many.removedValues)) ∧
      ∀ ln, (∀ f ∈ fs, f.table ≠ ln) → W'.links ln = W.links ln := by
  obtain ⟨hW, -⟩ := program_run_partial h0 hR hD hr
  obtain ⟨-, h2, h3⟩ := hW.stock n s hs
  unfold TModel.saveObj at h
  split at h
  · cases h
  next db' o1 hsave =>
  rw [h2.model.key] at h
  simp only at h
  split at h
  · cases h
  next id hkey =>
  replace hkey := orErr_ok hkey
  obtain ⟨rfl, rfl, rfl, herr⟩ : (saveMany k id db' fs).1 = u' ∧ o1 = o' ∧ (saveMany k id db' fs).2.1 = fs' ∧
      (saveMany k id db' fs).2.2 = none := by
    simpa using h
  have hmany : saveMany k id db' fs = ((saveMany k id db' fs).1, (saveMany k id db' fs).2.1, none) := by
    rw [← herr]
  obtain ⟨t, hlk, ht⟩ := h2.table
  obtain ⟨g1, g2, id', a, g3, g4, g5⟩ := save_saved h2.model h2.data h2.strict h2.sound hlk ht ho hn hroom
    (fun ha hv id a hk hst => (shows_hasRow h2 (shows_of_stores h2 h3)
      ⟨fun ty hty => keyLike_of_storable h2.model ho hk ty hty, hst⟩).1 (hrow ha hv id hk)) hsave
  have e := g3.key
  rw [hkey] at e
  cases e
  have hstep := ProgramRun.objects hr (WorldRun.save .start hs ho hn hroom hrow hsave hkey)
  obtain ⟨W', k1, k2, k3, k4⟩ := saveMany_run (pk := s.pk) (id := id) g3.isKey.type hstep hnd (fun f hf => by
    obtain ⟨L, hL⟩ := hfs id hkey f hf
    exact ⟨L, hL.links, hL.owner, hL.init, hL.new, hL.removed, hL.others⟩) hmany
  exact ⟨id, W', hkey, k1, (program_run_partial h0 hR hD k1).1, k2, k3, k4⟩

/-- Links between those before and those after saving a `Many` field. -/
def Partway (L : Links) (id : SqlVal) (new removed : List SqlVal) (L' : Links) : Prop :=
  ∃ a r, (∀ v ∈ a, v ∈ new) ∧ (∀ v ∈ r, v ∈ removed) ∧ L' = (L.add id a).drop id r

theorem addedBy_sub {im : TModel} {m m' : TMany im} : ∀ v ∈ addedBy m m', v ∈ m.newValues := by
  intro v hv
  unfold addedBy at hv
  split at hv
  · exact hv
  · exact List.mem_of_mem_drop hv

theorem drop_nil (L : Links) (id : SqlVal) : L.drop id [] = L :=
  links_ext rfl rfl fun x y => by simp [Links.drop]

theorem saveMany_failed_run {u0 : SDb} {W0 : World} {pk : TField} {id : SqlVal} (hid : KeyLike pk id) :
    ∀ {fs fs' : List ManyField} {u u' : SDb} {W : World} {e : OpErr}, ProgramRun k u0 W0 u W →
    (fs.map (·.table)).Nodup → (∀ f ∈ fs, ∃ L, FieldFor W pk id f L) → saveMany k id u fs = (u', fs', some e) →
    ∃ W', ProgramRun k u0 W0 u' W' ∧ W'.stock = W.stock ∧
      (∀ f ∈ fs, ∀ L, W.links f.table = some L →
        ∃ L', W'.links f.table = some L' ∧ Partway L id f.many.newValues f.many.removedValues L') ∧
      ∀ ln, (∀ f ∈ fs, f.table ≠ ln) → W'.links ln = W.links ln
  | [], fs', u, u', W, e, hr, hn, hf, h => by cases h
  | f :: fs, fs', u, u', W, e, hr, hn, hf, h => by
    simp only [List.map_cons, List.nodup_cons] at hn
    obtain ⟨L, hL⟩ := hf f (List.mem_cons_self ..)
    have hinit : (f.many.ensureInit f.table id).owner = some id ∧
        (f.many.ensureInit f.table id).itemTable = f.table ∧
        (f.many.ensureInit f.table id).newValues = f.many.newValues ∧
        (f.many.ensureInit f.table id).removedValues = f.many.removedValues := by
      unfold TMany.ensureInit
      rcases hL.init with e | ⟨e1, e2⟩
      · rw [e]; exact ⟨rfl, rfl, rfl, rfl⟩
      · rw [e1]; exact ⟨e1, e2, rfl, rfl⟩
    obtain ⟨i1, i2, i3, i4⟩ := hinit
    have hkeys : ManyKeys (f.many.ensureInit f.table id) f.table L id := ⟨i2, i1, (by rw [hL.owner]; exact hid),
      (by rw [i3]; exact hL.new), (by rw [i4]; exact hL.removed)⟩
    simp only [saveMany] at h
    split at h
    · next db1 m1 e1 hsv =>
      cases h
      refine ⟨_, ProgramRun.manySaveFailed hr hL.links hkeys hsv, rfl, ?_, ?_⟩
      · intro g hg M hM
        by_cases hgf : g.table = f.table
        · rcases List.mem_cons.1 hg with rfl | hg
          · rw [hL.links] at hM
            cases hM
            exact ⟨_, setLinks_links, addedBy (g.many.ensureInit g.table id) m1, [],
              (fun v hv => i3 ▸ addedBy_sub v hv), (fun v hv => by cases hv), (drop_nil _ _).symm⟩
          · exact absurd (hgf ▸ List.mem_map_of_mem hg) hn.1
        · refine ⟨M, by simp only [World.setLinks, if_neg hgf]; exact hM, [], [], (fun v hv => by cases hv),
            (fun v hv => by cases hv), ?_⟩
          rw [drop_nil, add_nil]
      · intro ln hln
        simp only [World.setLinks, if_neg (Ne.symm (hln f (List.mem_cons_self ..)))]
    · next db1 m1 hsv =>
      have hstep := ProgramRun.manySave hr hL.links hkeys (by rw [i4]; exact hL.others) hsv
      rw [i3, i4] at hstep
      obtain ⟨rfl, rfl, herr⟩ : (saveMany k id db1 fs).1 = u' ∧
          (⟨f.table, f.im, m1⟩ :: (saveMany k id db1 fs).2.1 : List ManyField) = fs' ∧
          (saveMany k id db1 fs).2.2 = some e := by
        simpa using h
      have hrest : saveMany k id db1 fs = ((saveMany k id db1 fs).1, (saveMany k id db1 fs).2.1, some e) := by
        rw [← herr]
      obtain ⟨W', g1, g2, g3, g4⟩ := saveMany_failed_run hid hstep hn.2 (fun g hg => by
        obtain ⟨M, hM⟩ := hf g (List.mem_cons_of_mem _ hg)
        refine ⟨M, ⟨?_, hM.owner, hM.init, hM.new, hM.removed, hM.others⟩⟩
        have : g.table ≠ f.table := fun e => hn.1 (e ▸ List.mem_map_of_mem hg)
        simp only [World.setLinks, if_neg this]
        exact hM.links) hrest
      refine ⟨W', g1, g2, ?_, ?_⟩
      · intro g hg M hM
        rcases List.mem_cons.1 hg with rfl | hg
        · rw [hL.links] at hM
          cases hM
          rw [g4 g.table (fun x hx e => hn.1 (e ▸ List.mem_map_of_mem hx))]
          exact ⟨_, setLinks_links, _, _, (fun _ h => h), (fun _ h => h), rfl⟩
        · have : g.table ≠ f.table := fun e => hn.1 (e ▸ List.mem_map_of_mem hg)
          exact g3 g hg M (by simp only [World.setLinks, if_neg this]; exact hM)
      · intro ln hln
        rw [g4 ln fun x hx => hln x (List.mem_cons_of_mem _ hx)]
        simp only [World.setLinks, if_neg (Ne.symm (hln f (List.mem_cons_self ..)))]

/-- C84, `save` of an object that fails (partial, likewise): either nothing changes, or the object's own
row is saved and each `Many` field has been saved in part. -/
theorem save_object_failed_partial {u0 : SDb} {W0 : World} (h0 : Keeps k u0 W0) (hR : LinksReady k u0 W0)
    (hD : RealLaws k.data) (hr : ProgramRun k u0 W0 u W) {n : String} {s : Stock} (hs : W.stock n = some s)
    {o o' : ObjVals s.m.fields} (ho : Storable s.m.fields o) (hn : NoNaNs s.m.fields o)
    (hroom : KeyRoom k s.m s.pk u)
    (hrow : s.pk.isAuto = true → keyValid s.pk.name s.m.fields o = true →
      ∀ id, keySql s.pk.name s.m.fields o = .ok id → (s.objs id).isSome)
    {fs fs' : List ManyField} (hnd : (fs.map (·.table)).Nodup)
    (hfs : ∀ id, keySql s.pk.name s.m.fields o' = .ok id → ∀ f ∈ fs, ∃ L, FieldFor W s.pk id f L) {e : OpErr}
    (h : s.m.saveObj k u o fs = (u', o', fs', some e)) :
    (u' = u ∧ o' = o ∧ fs' = fs) ∨
    ∃ id W', keySql s.pk.name s.m.fields o' = .ok id ∧ ProgramRun k u0 W0 u' W' ∧ Keeps k u' W' ∧
      W'.stock = (W.setObjs n s (s.objs.put id o')).stock ∧
      (∀ f ∈ fs, ∀ L, W.links f.table = some L →
        ∃ L', W'.links f.table = some L' ∧ Partway L id f.many.newValues f.many.removedValues L') ∧
      ∀ ln, (∀ f ∈ fs, f.table ≠ ln) → W'.links ln = W.links ln := by
  obtain ⟨hW, -⟩ := program_run_partial h0 hR hD hr
  obtain ⟨-, h2, h3⟩ := hW.stock n s hs
  unfold TModel.saveObj at h
  split at h
  · cases h
    exact .inl ⟨rfl, rfl, rfl⟩
  next db' o1 hsave =>
  obtain ⟨t, hlk, ht⟩ := h2.table
  obtain ⟨g1, g2, id, a, g3, g4, g5⟩ := save_saved h2.model h2.data h2.strict h2.sound hlk ht ho hn hroom
    (fun ha hv id a hk hst => (shows_hasRow h2 (shows_of_stores h2 h3)
      ⟨fun ty hty => keyLike_of_storable h2.model ho hk ty hty, hst⟩).1 (hrow ha hv id hk)) hsave
  have hkey := g3.key
  rw [h2.model.key] at h
  simp only [hkey, Conv.orErr] at h
  obtain ⟨rfl, rfl, rfl, herr⟩ : (saveMany k id db' fs).1 = u' ∧ o1 = o' ∧ (saveMany k id db' fs).2.1 = fs' ∧
      (saveMany k id db' fs).2.2 = some e := by
    simpa using h
  have hmany : saveMany k id db' fs = ((saveMany k id db' fs).1, (saveMany k id db' fs).2.1, some e) := by
    rw [← herr]
  have hstep := ProgramRun.objects hr (WorldRun.save .start hs ho hn hroom hrow hsave hkey)
  obtain ⟨W', k1, k2, k3, k4⟩ := saveMany_failed_run (pk := s.pk) (id := id) g3.isKey.type hstep hnd (fun f hf => by
    obtain ⟨L, hL⟩ := hfs id hkey f hf
    exact ⟨L, hL.links, hL.owner, hL.init, hL.new, hL.removed, hL.others⟩) hmany
  exact .inr ⟨id, W', hkey, k1, (program_run_partial h0 hR hD k1).1, k2, k3, k4⟩

/-! ### Example: blogs, posts and which blogs posts are tagged with -/

theorem exMany_ready : LinksReady exQueryConn (exQueryDb [] []) (exQueryWorld (fun _ => none) fun _ => none) where
  plain := ⟨nameOf rfl (by decide) (by decide), by decide, rfl⟩
  owner n L h := by
    simp only [exQueryWorld] at h
    split at h
    · cases h
      exact ⟨"post", exPosts0, by simp [exQueryWorld, exPosts0], rfl⟩
    · cases h
  target n L h := by
    simp only [exQueryWorld] at h
    split at h
    · cases h
      exact ⟨"blog", exBlogs0, by simp [exQueryWorld, exBlogs0], rfl⟩
    · cases h
  table n L h := by
    simp only [exQueryWorld] at h
    split at h
    · next e =>
      subst e
      cases h
      exact ⟨_, rfl, ⟨⟨_, .head _, rfl, _, _, rfl, rfl, rfl⟩, ⟨_, .tail _ (.head _), rfl, _, _, rfl, rfl, rfl⟩⟩⟩
    · cases h

def exLinks : Links := ⟨exRowPk, exRowBlogPk, exTagged⟩

def exManyDb (blogs posts links : List (List SqliteVal)) : SDb :=
  [("blog", exBlogTable blogs), ("post", exPostTable posts), ("post_tags_Many", exLinkTable links)]

theorem exMany_run0 : ProgramRun exQueryConn (exQueryDb [] []) (exQueryWorld (fun _ => none) fun _ => none)
    (exQueryDb exBlogRows exPostRows) exQueryEnd := .objects .start exQuery_run

/-- The tags of post 2: cats are added, dogs removed. -/
def exRetag : TMany exRowBlog := ⟨"post_tags_Many", some (.bigInt 2), [.int 4], [.int 3], none⟩

theorem exRetag_keys : ManyKeys exRetag "post_tags_Many" exLinks (.bigInt 2) where
  table := rfl
  owner := rfl
  ownerKey := fun ty h => by cases h; rfl
  new := by
    intro v hv ty h
    cases h
    rw [List.mem_singleton.1 hv]
    rfl
  removed := by
    intro v hv ty h
    cases h
    rw [List.mem_singleton.1 hv]
    rfl

theorem exRetag_saves : exRetag.save exQueryConn (exQueryDb exBlogRows exPostRows) =
    (exManyDb exBlogRows exPostRows [[.integer 1, .integer 4], [.integer 2, .integer 4]],
      { exRetag with newValues := [], removedValues := [] }, none) := rfl

theorem exMany_run1 : ProgramRun exQueryConn (exQueryDb [] []) (exQueryWorld (fun _ => none) fun _ => none)
    (exManyDb exBlogRows exPostRows [[.integer 1, .integer 4], [.integer 2, .integer 4]])
    (exQueryEnd.setLinks "post_tags_Many" ((exLinks.add (.bigInt 2) [.int 4]).drop (.bigInt 2) [.int 3])) :=
  .manySave exMany_run0 exQuery_links exRetag_keys (by
    rintro x y (⟨rfl, rfl⟩ | ⟨rfl, rfl⟩) h
    · cases List.mem_singleton.1 h
    · rfl) exRetag_saves

/-- `Post::query().filter(filter!(name == "x"))`. -/
def exNameFilter : FOr := .one (.one (.cmp .eq "name" (.text "x")))

def exNameQuery : Query := (Query.new "post").withFilter exNameFilter.toBool

theorem exNameQuery_sendable (W : World) : Sendable exQueryConn W exPosts exNameQuery (some exNameFilter) where
  table := rfl
  filter := rfl
  fits := by
    intro f hf
    cases hf
    simp only [exNameFilter, FilterFits, AndFits, AtomFits]
    exact ⟨⟨⟨_, _, .tail _ (.head _), rfl, rfl⟩, fun h => by cases h⟩,
      ⟨nameOf rfl (by decide) (by decide), by decide, rfl⟩, ⟨_, rfl⟩, fun h => by cases h⟩
  sort := by
    intro c hc
    cases hc

noncomputable def exManyEnd : World :=
  (exQueryEnd.setLinks "post_tags_Many" ((exLinks.add (.bigInt 2) [.int 4]).drop (.bigInt 2) [.int 3])).setObjs
    "post" exPosts (exPosts.without exQueryConn
      (exQueryEnd.setLinks "post_tags_Many" ((exLinks.add (.bigInt 2) [.int 4]).drop (.bigInt 2) [.int 3]))
      (some exNameFilter))

/-- Then post 1 is deleted. -/
theorem exMany_run : ProgramRun exQueryConn (exQueryDb [] []) (exQueryWorld (fun _ => none) fun _ => none)
    (exManyDb exBlogRows [[.integer 2, .text "y", .null, .integer 4]]
      [[.integer 1, .integer 4], [.integer 2, .integer 4]])
    exManyEnd :=
  .deleteQuery (n := "post") (s := exPosts) exMany_run1 exQuery_stock_post (exNameQuery_sendable _) rfl

/-- After this history the database is as it should be. -/
example : Keeps exQueryConn
    (exManyDb exBlogRows [[.integer 2, .text "y", .null, .integer 4]]
      [[.integer 1, .integer 4], [.integer 2, .integer 4]])
    exManyEnd := (program_run_partial exQuery_start exMany_ready exQuery_real exMany_run).1

/-- Both posts with their tags. -/
example {res} (h : exPosts.m.LoadOut exQueryConn
    (exManyDb exBlogRows exPostRows [[.integer 1, .integer 4], [.integer 2, .integer 4]]) (Query.new "post") res) :
    ∃ os, res = .ok os ∧ Selects exQueryConn
      (exQueryEnd.setLinks "post_tags_Many" ((exLinks.add (.bigInt 2) [.int 4]).drop (.bigInt 2) [.int 3])) exPosts none
      [] none none os :=
  program_query_partial exQuery_start exMany_ready exQuery_real exMany_run1 (n := "post") (s := exPosts)
    exQuery_stock_post (q := Query.new "post") ⟨rfl, rfl, (fun _ h => by cases h), fun _ h => by cases h⟩
    (fun _ h => by cases h) (fun _ h => by cases h) (fun _ _ h => by cases h) h

theorem exMany_keeps0 : Keeps exQueryConn (exQueryDb exBlogRows exPostRows) exQueryEnd ∧
    LinksReady exQueryConn (exQueryDb exBlogRows exPostRows) exQueryEnd := program_run_partial exQuery_start exMany_ready exQuery_real exMany_run0

/-- Before the tags are saved, loading them finds the dogs, then the cats. -/
example {res m'} (h : TMany.LoadOut (im := exBlogs.m) exRetag exBlogs.pk exQueryConn (exQueryDb exBlogRows exPostRows)
    (some .asc) res m') :
    ∃ saved added, res = .ok (saved ++ added) ∧ m'.cache = some (saved ++ added) ∧
      Lists exQueryConn exBlogs.m (fun id o => exBlogs.Has id o ∧ exTagged (.bigInt 2) id) [⟨.asc, "id"⟩] none none saved ∧
      Lists exQueryConn exBlogs.m (fun id o => exBlogs.Has id o ∧ id ∈ [.int 4]) [] none none added := by
  obtain ⟨saved, added, h1, h2, h3, h4⟩ := many_load_objects exMany_keeps0.1 exMany_keeps0.2 exQuery_real
    (n := "post_tags_Many") (n' := "blog") (s := exBlogs) exQuery_stock_blog (L := exLinks) exQuery_links rfl
    exRetag_keys rfl h
  exact ⟨saved, added, h1, by rw [h2], h3, h4⟩

example : ∃ res m', TMany.LoadOut (im := exBlogs.m) exRetag exBlogs.pk exQueryConn (exQueryDb exBlogRows exPostRows)
    (some .asc) res m' :=
  many_load_returns exMany_keeps0.1 exMany_keeps0.2 exQuery_real exQuery_order
    (n := "post_tags_Many") (n' := "blog") (s := exBlogs) exQuery_stock_blog (L := exLinks) exQuery_links rfl
    exRetag_keys rfl _

/-- A loaded field. -/
example {res m'} (h : TMany.LoadOut { exRetag with cache := some [exCats] } exRowBlogPk exQueryConn [] none res m') :
    res = .ok [exCats] := (many_loaded_objects rfl rfl h).1

/-- `set` to the cats and the dogs. -/
example : ∃ u' m', TMany.set (im := exBlogs.m) exRetag exBlogs.pk exQueryConn (exQueryDb exBlogRows exPostRows)
      [exCats, exDogs] = (u', m', none) ∧
    Keeps exQueryConn u' (exQueryEnd.setLinks "post_tags_Many" { exLinks with
      linked := fun x y => (x = .bigInt 2 ∧ y ∈ [.int 4, .int 3]) ∨ (x ≠ .bigInt 2 ∧ exTagged x y) }) := by
  have h : TMany.set (im := exBlogs.m) exRetag exBlogs.pk exQueryConn (exQueryDb exBlogRows exPostRows)
      [exCats, exDogs] = (exManyDb exBlogRows exPostRows
        [[.integer 1, .integer 4], [.integer 2, .integer 3], [.integer 2, .integer 4]], _, none) := rfl
  obtain ⟨ids, h1, h2, -⟩ := many_set_objects exMany_keeps0.1 exMany_keeps0.2
    (n := "post_tags_Many") (n' := "blog") (s := exBlogs) exQuery_stock_blog (L := exLinks) exQuery_links rfl
    exRetag_keys (vals := [exCats, exDogs]) (fun o ho => by
      rcases List.mem_cons.1 ho with rfl | ho
      · exact ⟨trivial, trivial, trivial⟩
      · rw [List.mem_singleton.1 ho]; exact ⟨trivial, trivial, trivial⟩) h
  have hids : ids = [.int 4, .int 3] := by
    rcases h1 with _ | ⟨a, h1⟩
    rcases h1 with _ | ⟨b, h1⟩
    cases h1
    cases a
    cases b
    rfl
  subst hids
  exact ⟨_, _, h, h2⟩

/-- Post 2 with its tags, the field having been used already. -/
def exPostFields : List ManyField := [⟨"post_tags_Many", exRowBlog, exRetag⟩]

theorem exPostFields_for (id : SqlVal) (h : keySql exPosts.pk.name exPosts.m.fields exPostB = .ok id) :
    ∀ f ∈ exPostFields, ∃ L, FieldFor exQueryEnd exPosts.pk id f L := by
  intro f hf
  cases h
  rw [List.mem_singleton.1 hf]
  refine ⟨exLinks, exQuery_links, rfl, .inr ⟨rfl, rfl⟩, exRetag_keys.new, exRetag_keys.removed, ?_⟩
  rintro x y (⟨rfl, rfl⟩ | ⟨rfl, rfl⟩) h
  · cases List.mem_singleton.1 h
  · rfl

/-- Saving it saves the tags. -/
example : ∃ u' fs' W', exPosts.m.saveObj exQueryConn (exQueryDb exBlogRows exPostRows) exPostB exPostFields =
      (u', exPostB, fs', none) ∧ Keeps exQueryConn u' W' ∧
      W'.links "post_tags_Many" = some ((exLinks.add (.bigInt 2) [.int 4]).drop (.bigInt 2) [.int 3]) := by
  have h : exPosts.m.saveObj exQueryConn (exQueryDb exBlogRows exPostRows) exPostB exPostFields =
    (exManyDb exBlogRows exPostRows [[.integer 1, .integer 4], [.integer 2, .integer 4]], exPostB, _, none) := rfl
  obtain ⟨id, W', h1, -, h3, -, h4, -⟩ := save_object_partial exQuery_start exMany_ready exQuery_real exMany_run0
    (n := "post") (s := exPosts) exQuery_stock_post (o := exPostB) (o' := exPostB)
    ⟨(fun _ h => by cases h; trivial), trivial, trivial, rfl, trivial⟩
    ⟨(fun _ h => by cases h; trivial), trivial, (fun _ h => by cases h), id, trivial⟩ (exQuery_room _)
    (fun _ _ id hid => by cases hid; rfl) (by simp [exPostFields]) exPostFields_for h
  cases h1
  exact ⟨_, _, W', h, h3, h4 _ (.head _) exLinks exQuery_links⟩

/-- A database whose link table has foreign keys. -/
def exFkDb (blogs posts links : List (List SqliteVal)) : SDb :=
  [("blog", exBlogTable blogs), ("post", exPostTable posts),
   ("post_tags_Many", ⟨[⟨"owner", ["INTEGER"], [.notNull]⟩, ⟨"has", ["INTEGER"], [.notNull]⟩],
     [⟨"owner", "post", "id"⟩, ⟨"has", "blog", "id"⟩], links⟩)]

def exFkLinks : Links := ⟨exRowPk, exRowBlogPk, fun _ _ => False⟩

def exFkWorld : World where
  stock n := if n = "post" then some exPosts0 else if n = "blog" then some exBlogs0 else none
  links n := if n = "post_tags_Many" then some exFkLinks else none

theorem exFk_sound : SoundDb exRowStore (exFkDb [] [] []) where
  proper := by
    refine ⟨by decide, fun n s h => ?_⟩
    have hm := SMap.mem_of_lookup h
    simp only [exFkDb, List.mem_cons, Prod.mk.injEq, List.not_mem_nil, or_false] at hm
    rcases hm with ⟨-, rfl⟩ | ⟨-, rfl⟩ | ⟨-, rfl⟩
    · exact ⟨by simp [exBlogTable], fun r hr => by cases hr⟩
    · exact ⟨by simp [exPostTable], fun r hr => by cases hr⟩
    · exact ⟨by simp, fun r hr => by cases hr⟩
  unique := by
    intro n s h
    have hm := SMap.mem_of_lookup h
    simp only [exFkDb, List.mem_cons, Prod.mk.injEq, List.not_mem_nil, or_false] at hm
    rcases hm with ⟨-, rfl⟩ | ⟨-, rfl⟩ | ⟨-, rfl⟩ <;> decide

theorem exFk_start : Keeps exQueryConn (exFkDb [] [] []) exFkWorld := by
  refine keeps_start (fun n s hs => ?_) (fun n L hL => ?_)
  · simp only [exFkWorld] at hs
    split at hs
    · next e =>
      subst e
      cases hs
      exact ⟨rfl, ⟨exQuery_post_ok, exQuery_laws, exRowStore_laws, ⟨fun _ => rfl, exParse_print, exParse_print⟩,
        exFk_sound, _, rfl, exPostTable_fits _⟩, (fun t h => by cases h; rfl), fun _ => rfl⟩
    · split at hs
      · next e =>
        subst e
        cases hs
        exact ⟨rfl, ⟨exQuery_blog_ok, exQuery_laws, exRowStore_laws, ⟨fun _ => rfl, exParse_print, exParse_print⟩,
          exFk_sound, _, rfl, exBlogTable_fits _⟩, (fun t h => by cases h; rfl), fun _ => rfl⟩
      · cases hs
  · simp only [exFkWorld] at hL
    split at hL
    · next e =>
      subst e
      cases hL
      exact ⟨rfl, nameOf rfl (by decide) (by decide), _, rfl, (fun c => by simp), (fun r hr => by cases hr),
        fun x y h => h.elim⟩
    · cases hL

theorem exFk_ready : LinksReady exQueryConn (exFkDb [] [] []) exFkWorld where
  plain := ⟨nameOf rfl (by decide) (by decide), by decide, rfl⟩
  owner n L h := by
    simp only [exFkWorld] at h
    split at h
    · cases h
      exact ⟨"post", exPosts0, by simp [exFkWorld], rfl⟩
    · cases h
  target n L h := by
    simp only [exFkWorld] at h
    split at h
    · cases h
      exact ⟨"blog", exBlogs0, by simp [exFkWorld], rfl⟩
    · cases h
  table n L h := by
    simp only [exFkWorld] at h
    split at h
    · next e =>
      subst e
      cases h
      exact ⟨_, rfl, ⟨⟨_, .head _, rfl, _, _, rfl, rfl, rfl⟩, ⟨_, .tail _ (.head _), rfl, _, _, rfl, rfl, rfl⟩⟩⟩
    · cases h

theorem exFk_run : ProgramRun exQueryConn (exFkDb [] [] []) exFkWorld
    (exFkDb [[.integer 3, .text "dogs"]] [] []) (exFkWorld.setObjs "blog" exBlogs0 exBlogs1.objs) :=
  .objects .start (WorldRun.save (k := exQueryConn) (u0 := exFkDb [] [] []) (W0 := exFkWorld)
    (n := "blog") (s := exBlogs0) (o := exDogs) (o' := exDogs)
    (u' := exFkDb [[.integer 3, .text "dogs"]] [] []) (id := .int 3) .start (by simp [exFkWorld])
    ⟨trivial, trivial, trivial⟩ ⟨trivial, trivial, trivial⟩ (fun _ _ h => by cases h) (fun h => by cases h) rfl rfl)

/-- A new post with the dogs and a blog that does not exist. -/
def exFkFields : List ManyField := [⟨"post_tags_Many", exRowBlog, ⟨"not_initialized", none, [.int 9, .int 3], [], none⟩⟩]

/-- Saving it fails, but the post and its first tag are saved. -/
example : ∃ u' fs' e, exPosts0.m.saveObj exQueryConn (exFkDb [[.integer 3, .text "dogs"]] [] [])
      (none, "x", (), some 200, .int 3, ()) exFkFields = (u', exPostA, fs', some e) ∧
    ∃ W', Keeps exQueryConn u' W' ∧ W'.stock "post" = some exPosts1 ∧
      ∃ L', W'.links "post_tags_Many" = some L' ∧ Partway exFkLinks (.bigInt 1) [.int 9, .int 3] [] L' := by
  have h : exPosts0.m.saveObj exQueryConn (exFkDb [[.integer 3, .text "dogs"]] [] [])
      (none, "x", (), some 200, .int 3, ()) exFkFields =
    (exFkDb [[.integer 3, .text "dogs"]] [[.integer 1, .text "x", .integer 200, .integer 3]]
      [[.integer 1, .integer 3]], exPostA, _, some .db) := rfl
  rcases save_object_failed_partial exFk_start exFk_ready exQuery_real exFk_run
    (n := "post") (s := exPosts0) (by simp [World.setObjs, exFkWorld])
    (o := (none, "x", (), some 200, .int 3, ())) (o' := exPostA)
    ⟨(fun _ h => by cases h), trivial, ⟨trivial, trivial⟩, rfl, trivial⟩
    ⟨(fun _ h => by cases h), trivial, (fun _ _ => trivial), id, trivial⟩
    (by
      intro ty I hty hI t j _ _
      cases hty
      cases hI
      simp only [intI64]
      have h1 := Int64.toInt_lt j
      have h2 := Int64.le_toInt j
      omega)
    (fun _ h => by cases h) (by simp [exFkFields]) (by
      intro id hid f hf
      cases hid
      rw [List.mem_singleton.1 hf]
      refine ⟨exFkLinks, by simp [World.setObjs, exFkWorld], rfl, .inl rfl, ?_, (fun v hv => by cases hv), ?_⟩
      · intro v hv ty h
        cases h
        rcases List.mem_cons.1 hv with rfl | hv
        · rfl
        · rw [List.mem_singleton.1 hv]; rfl
      · intro x y h
        exact h.elim) h with ⟨-, e, -⟩ | ⟨id, W', h1, -, h3, h4, h5, -⟩
  · cases e
  · cases h1
    refine ⟨_, _, _, h, W', h3, ?_, h5 _ (.head _) exFkLinks (by simp [World.setObjs, exFkWorld])⟩
    rw [h4]
    simp [World.setObjs, exPosts1, exPosts0]

/-- Removing the cats from the tags of post 2. -/
def exUntag : TMany exRowBlog := ⟨"post_tags_Many", some (.bigInt 2), [], [.int 4], none⟩

theorem exUntag_keys : ManyKeys exUntag "post_tags_Many" exLinks (.bigInt 2) where
  table := rfl
  owner := rfl
  ownerKey := fun ty h => by cases h; rfl
  new := by
    intro v hv
    cases hv
  removed := by
    intro v hv ty h
    cases h
    rw [List.mem_singleton.1 hv]
    rfl

theorem exUntag_saves : exUntag.save exQueryConn (exQueryDb exBlogRows exPostRows) =
    (exManyDb exBlogRows exPostRows [[.integer 2, .integer 3]], { exUntag with removedValues := [] }, none) := rfl

/-- Nobody has the cats then. -/
example : Keeps exQueryConn (exManyDb exBlogRows exPostRows [[.integer 2, .integer 3]])
    (exQueryEnd.setLinks "post_tags_Many" ((exLinks.add (.bigInt 2) []).dropItems [.int 4])) :=
  (many_save_objects exMany_keeps0.1 exMany_keeps0.2 exQuery_links exUntag_keys exUntag_saves).1

/-- C84, why `many_save` needs its hypothesis: removing an item from what one owner has removes it from
what the other owners have, too (`DELETE FROM … WHERE has IN (…)`, many.rs:262-266). -/
theorem many_save_objects_other_owner_violated : ∃ (k : SqliteConn) (u u' : SDb) (W : World) (n : String)
    (L : Links) (own : SqlVal) (im : TModel) (m m' : TMany im),
    Keeps k u W ∧ LinksReady k u W ∧ W.links n = some L ∧ ManyKeys m n L own ∧ m.save k u = (u', m', none) ∧
      ¬ Keeps k u' (W.setLinks n ((L.add own m.newValues).drop own m.removedValues)) := by
  refine ⟨_, _, _, _, "post_tags_Many", exLinks, .bigInt 2, exRowBlog, exUntag, _, exMany_keeps0.1, exMany_keeps0.2,
    exQuery_links, exUntag_keys, exUntag_saves, fun h => ?_⟩
  obtain ⟨-, -, t, ht, -, -, h3⟩ := h.links "post_tags_Many" _ setLinks_links
  obtain ⟨r, hr, a, b, ha, hb, ea, eb⟩ := h3 (.bigInt 1) (.int 4)
    ⟨.inl (.inl ⟨rfl, rfl⟩), fun hx => by cases hx.1⟩
  cases ht
  rcases List.mem_singleton.1 hr
  cases ea
  cases ha.stored

end Butane.Props
